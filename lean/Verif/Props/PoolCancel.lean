import Verif.Spec.PoolCancel
import Verif.Props.PoolModes
/- C88: cancelling the training of a model. -/
namespace Xmm
namespace Canceller
open Pool (Begins Late Completed JInv Before Outcome eventsOf)

theorem find_some {l : String} {s : Pool} {w : Worker} (h : find l s = some w) : w ∈ s.classes ∧ w.label = l := by
  refine ⟨List.mem_of_find?_eq_some h, ?_⟩
  have := List.find?_some h
  simpa using this

theorem find_none {l : String} {s : Pool} (h : find l s = none) : l ∉ s.labels := by
  intro hl
  obtain ⟨c, hc, rfl⟩ := List.mem_map.1 hl
  have := List.find?_eq_none.1 h c hc
  simp at this

theorem mem_tailFrom {l m : String} {ls : List String} (h : m ∈ tailFrom l ls) : m ∈ ls := by
  induction ls with
  | nil => simp [tailFrom] at h
  | cons a t ih =>
    unfold tailFrom at h
    split at h
    · exact h
    · exact List.mem_cons_of_mem _ (ih h)

theorem succ_mem {l m : String} {ls : List String} (h : succ l ls = some m) : m ∈ ls := by
  unfold succ at h
  exact mem_tailFrom (List.mem_of_mem_tail (List.mem_of_mem_head? h))

theorem tailFrom_self {l : String} {ls : List String} (h : l ∈ ls) : ∃ t, tailFrom l ls = l :: t := by
  induction ls with
  | nil => simp at h
  | cons a t ih =>
    unfold tailFrom
    by_cases ha : a = l
    · exact ⟨t, by simp [ha]⟩
    · rw [if_neg ha]
      rcases List.mem_cons.1 h with h | h
      · exact absurd h.symm ha
      · exact ih h

theorem tailFrom_length (l : String) (ls : List String) : (tailFrom l ls).length ≤ ls.length := by
  induction ls with
  | nil => simp [tailFrom]
  | cons a t ih =>
    unfold tailFrom
    split
    · exact le_refl _
    · exact le_trans ih (by simp)

/-- the next class is one step closer to the end -/
theorem tailFrom_succ {l m : String} {ls : List String} (hn : ls.Nodup) (h : succ l ls = some m) : (tailFrom l ls).length = (tailFrom m ls).length + 1 := by
  induction ls with
  | nil => simp [succ, tailFrom] at h
  | cons a t ih =>
    obtain ⟨ha, ht⟩ := List.nodup_cons.1 hn
    by_cases hl : a = l
    · subst hl
      simp only [succ, tailFrom, if_true, List.tail_cons] at h
      have hm : m ∈ t := List.mem_of_mem_head? h
      have hne : a ≠ m := fun he => ha (he ▸ hm)
      cases t with
      | nil => simp at h
      | cons b u =>
        simp only [List.head?_cons, Option.some.injEq] at h
        subst h
        simp [tailFrom, hne]
    · have h' : succ l t = some m := by simpa [succ, tailFrom, hl] using h
      have hm : m ∈ t := succ_mem h'
      have hne : a ≠ m := fun he => ha (he ▸ hm)
      simp only [tailFrom, hl, hne, if_false]
      exact ih ht h'

/-- what holds in all states of an execution in which the cancellation comes in time -/
def At (todo before : List String) (c : Canceller) : CancelPc → Prop
  | .enter => JInv todo before .enter c.pool ∧ c.pool.cancelRequired = false ∧ 0 < c.pool.still
  | .request l => JInv todo before .enter c.pool ∧ l ∈ before ∧ (c.pool.cancelRequired = true ∨ 0 < c.pool.still)
  | .flag l => JInv todo before .enter c.pool ∧ l ∈ before ∧ c.pool.cancelRequired = true
  | .wait l => JInv todo before .enter c.pool ∧ l ∈ before ∧ c.pool.cancelRequired = true ∧
      ∀ w ∈ c.pool.classes, w.label = l → c.sees w = true → l ∈ c.flagged ∧ w.budget ≤ 1
  | .join pc => JInv todo before pc c.pool ∧ pc ≠ .left ∧ c.pool.cancelRequired = true
  | .clear => JInv todo before .left c.pool
  | .returned => JInv todo before .left c.pool ∧ c.pool.cancelRequired = false
  | _ => False

structure Inv (todo before : List String) (c : Canceller) : Prop where
  mode : c.pool.mode = .background
  main : c.pool.main = .returned
  joiners : c.pool.joiners = []
  alive : c.pool.terminated = false
  at_ : At todo before c c.pc

theorem JInv.left_runs {todo before : List String} {s : Pool} (h : JInv todo before .left s) (l : String) : s.runs l = false := by
  obtain ⟨⟨evs, -, ha⟩, -⟩ := h
  exact Pool.not_runs (fun c hc => (ha.quiet c hc).2) l

/-- an event of a class that does not launch a detached thread -/
theorem final_closed {s s' : Pool} {l : String} {st : Status} (h : s.cancelRequired = true ∨ 1 < s.still) (hs : s.finalStep l st = some s') :
    s.runs l = true ∧ (st = .done ∨ st = .error ∨ st = .cancel) ∧ s' = Pool.closed l st s := by
  obtain ⟨hr, hst⟩ := Pool.finalStep_runs hs
  refine ⟨hr, hst, ?_⟩
  rw [Pool.finalStep_eq, if_pos (by simp [hr, hst]), if_neg] at hs
  · exact (Option.some.inj hs).symm
  · rintro ⟨-, -, h1, h2⟩
    rcases h with h | h
    · rw [h1] at h; simp at h
    · omega

/-- a step of a class changes nothing that the cancelling thread relies on -/
theorem Inv.class_step {todo before : List String} {c : Canceller} {s' : Pool} {l : String} (h : Inv todo before c) (hr : c.pool.runs l = true)
    (hb : ∀ pend, Before todo before pend c.pool → Before todo before pend s') (hf : Pool.Frame c.pool s') (hj : s'.joiners = c.pool.joiners)
    (hst : 0 < c.pool.still → c.pool.cancelRequired = true ∨ 0 < s'.still)
    (hw : ∀ w' ∈ s'.classes, w'.training = true → ∃ w ∈ c.pool.classes, w.label = w'.label ∧ w.training = true ∧ w'.budget ≤ w.budget) :
    Inv todo before { c with pool := s' } := by
  obtain ⟨h1, h2, h3, h4, h5⟩ := h
  have hJ : ∀ pc, JInv todo before pc c.pool → JInv todo before pc s' := fun pc hp => hp.class_step l hr (hb []) hf
  obtain ⟨f1, f2, f3, f4, f5, f6, f7, f8⟩ := hf
  refine ⟨f1.trans h1, f6.trans h2, hj.trans h3, f7.trans h4, ?_⟩
  show At todo before { c with pool := s' } c.pc
  cases hpc : c.pc <;> rw [hpc] at h5 <;> simp only [At] at h5 ⊢
  case enter =>
    refine ⟨hJ _ h5.1, by rw [f5]; exact h5.2.1, ?_⟩
    rcases hst h5.2.2 with h | h
    · rw [h5.2.1] at h; simp at h
    · exact h
  case request m =>
    refine ⟨hJ _ h5.1, h5.2.1, ?_⟩
    rcases h5.2.2 with h | h
    · exact Or.inl (f5.trans h)
    · exact (hst h).imp (fun h => f5.trans h) id
  case flag m => exact ⟨hJ _ h5.1, h5.2.1, f5.trans h5.2.2⟩
  case wait m =>
    refine ⟨hJ _ h5.1, h5.2.1, f5.trans h5.2.2.1, fun w' hw' hl ht => ?_⟩
    replace ht : (w'.training && !c.failing.contains w'.label) = true := ht
    rw [Bool.and_eq_true] at ht
    obtain ⟨w, hm, e1, e2, e3⟩ := hw w' hw' ht.1
    obtain ⟨g1, g2⟩ := h5.2.2.2 w hm (e1.trans hl) (by simp only [sees, e1, e2, ht.2, Bool.and_self])
    exact ⟨g1, le_trans e3 g2⟩
  case join pc => exact ⟨hJ _ h5.1, h5.2.1, f5.trans h5.2.2⟩
  case clear => exact hJ _ h5
  case returned => exact ⟨hJ _ h5.1, f5.trans h5.2⟩

/-- the budget of one class is lowered -/
theorem flag_before {todo before pend : List String} {s : Pool} (l : String) (h : Before todo before pend s) :
    Before todo before pend (s.onClass l (fun x => { x with budget := min x.budget 1 })) := by
  refine ⟨h.nodup, h.known, ?_, ?_, ?_, h.evs⟩
  · rw [← h.labels]; exact Pool.labels_onClass _ (fun x => { x with budget := min x.budget 1 }) (fun _ => rfl) s
  · intro c hc
    obtain ⟨d, hd, ⟨-, rfl⟩ | ⟨-, rfl⟩⟩ := Pool.mem_onClass hc
    · cases h.ok d hd with
      | old h1 h2 h3 h4 h5 => exact .old h1 h2 h3 h4 h5
      | pending h1 h2 h3 h4 h5 => exact .pending h1 h2 h3 h4 h5
      | running h1 h2 h3 h4 h5 h6 => exact .running h1 h2 h3 h4 h5 h6
      | ended h1 h2 h3 h4 h5 => exact .ended h1 h2 h3 h4 h5
    · exact h.ok c hd
  · show s.still = _
    rw [h.count]
    simp only [Pool.onClass]
    rw [List.countP_map]
    congr 1
    apply List.countP_congr
    intro c _
    simp only [Function.comp]
    split <;> rfl

theorem flagClass_frame (w : Worker) (c : Canceller) : (flagClass w c).pool.mode = c.pool.mode ∧ (flagClass w c).pool.main = c.pool.main ∧
    (flagClass w c).pool.joiners = c.pool.joiners ∧ (flagClass w c).pool.terminated = c.pool.terminated ∧ (flagClass w c).pool.cancelRequired = c.pool.cancelRequired ∧
    (flagClass w c).pool.handles = c.pool.handles := by
  unfold flagClass
  split <;> simp [Pool.onClass]

theorem flagClass_jinv {todo before : List String} {w : Worker} {c : Canceller} (h : JInv todo before .enter c.pool) : JInv todo before .enter (flagClass w c).pool := by
  unfold flagClass
  split
  · exact ⟨flag_before w.label h.1, h.2⟩
  · exact h

theorem inv_step {todo before : List String} (hne : todo ≠ []) {c c' : Canceller} {a : Act} (h : Inv todo before c) (ha : InTime c a) (hs : c.act a = some c') :
    Inv todo before c' := by
  unfold act at hs
  split at hs
  · simp at hs
  cases a with
  | other b =>
    simp only at hs
    split at hs
    · obtain ⟨s', hs', rfl⟩ := Option.map_eq_some_iff.1 hs
      unfold Pool.act at hs'
      rw [h.alive] at hs'
      simp only [Bool.false_eq_true, if_false] at hs'
      cases b with
      | main w => simp [Pool.mainStep, h.main] at hs'
      | joiner i w => simp [Pool.joinerStep, h.joiners] at hs'
      | run l =>
        simp only at hs'
        have hr := Pool.runStep_runs hs'
        have hex : ∃ pend, Before todo before pend c.pool := by
          have h5 := h.at_
          have hl : ∀ evs, Pool.After todo before evs c.pool → False := by
            intro evs ha
            rw [Pool.not_runs (fun c hc => (ha.quiet c hc).2) l] at hr
            simp at hr
          cases hpc : c.pc <;> rw [hpc] at h5 <;> simp only [At] at h5
          case enter => exact ⟨[], h5.1.1⟩
          case request m => exact ⟨[], h5.1.1⟩
          case flag m => exact ⟨[], h5.1.1⟩
          case wait m => exact ⟨[], h5.1.1⟩
          case join pc =>
            obtain ⟨h6, h7, -⟩ := h5
            cases pc with
            | enter => exact ⟨[], h6.1⟩
            | join => exact ⟨[], h6.1⟩
            | sweep => exact ⟨[], h6.1⟩
            | unjoin => exact (hl _ h6.1).elim
            | untrain => exact (hl _ h6.1).elim
            | reset => exact (hl _ h6.1).elim
            | alldone => exact (hl _ h6.1).elim
            | left => exact absurd rfl h7
            | wait => exact h6.elim
            | failed => exact h6.elim
          case clear => rw [JInv.left_runs h5 l] at hr; simp at hr
          case returned => rw [JInv.left_runs h5.1 l] at hr; simp at hr
        obtain ⟨pend, hb⟩ := hex
        obtain ⟨-, hf, hj⟩ := Pool.run_ok hb hs'
        refine h.class_step hr (fun pend hb => (Pool.run_ok hb hs').1) hf hj (fun hp => Or.inr ?_) ?_
        · unfold Pool.runStep at hs'
          split at hs'
          · simp only [Option.some.injEq] at hs'
            subst hs'
            exact hp
          · simp at hs'
        · intro w' hw' ht
          unfold Pool.runStep at hs'
          split at hs'
          · simp only [Option.some.injEq] at hs'
            subst hs'
            obtain ⟨d, hd, ⟨hl, rfl⟩ | ⟨hl, rfl⟩⟩ := Pool.mem_onClass hw'
            · exact ⟨d, hd, rfl, ht, by simp⟩
            · exact ⟨w', hd, rfl, ht, le_refl _⟩
          · simp at hs'
      | final l st =>
        simp only at hs'
        have hor := ha.2 l st rfl
        obtain ⟨hr, hst, rfl⟩ := final_closed hor hs'
        have hf : Pool.Frame c.pool (Pool.closed l st c.pool) := by
          refine ⟨rfl, rfl, rfl, rfl, rfl, rfl, rfl, fun c' hc' ht => ?_⟩
          obtain ⟨d, hd, ⟨hl, rfl⟩ | ⟨hl, rfl⟩⟩ := Pool.mem_onClass hc'
          · simp at ht
          · exact ⟨c', hd, rfl, ht⟩
        refine h.class_step hr (fun pend hb => (Pool.closed_ok hb hr hst).1) hf rfl (fun hp => ?_) ?_
        · rcases hor with hor | hor
          · exact Or.inl hor
          · right
            show 0 < c.pool.still - 1
            omega
        · intro w' hw' ht
          obtain ⟨d, hd, ⟨hl, rfl⟩ | ⟨hl, rfl⟩⟩ := Pool.mem_onClass hw'
          · simp at ht
          · exact ⟨w', hd, rfl, ht, le_refl _⟩
    · simp at hs
  | fails l =>
    simp only at hs
    split at hs
    · simp only [Option.some.injEq] at hs
      subst hs
      obtain ⟨h1, h2, h3, h4, h5⟩ := h
      refine ⟨h1, h2, h3, h4, ?_⟩
      show At todo before { c with failing := l :: c.failing } c.pc
      cases hpc : c.pc <;> rw [hpc] at h5 <;> simp only [At] at h5 ⊢
      case wait m =>
        refine ⟨h5.1, h5.2.1, h5.2.2.1, fun w hw hl ht => h5.2.2.2 w hw hl ?_⟩
        simp only [sees, List.contains_cons, Bool.not_or, Bool.and_eq_true] at ht ⊢
        exact ⟨ht.1, ht.2.2⟩
      all_goals exact h5
    · simp at hs
  | cancel weak =>
    obtain rfl : weak = false := ha.1.1 weak rfl
    simp only [cancelStep] at hs
    obtain ⟨h1, h2, h3, h4, h5⟩ := h
    cases hpc : c.pc <;> rw [hpc] at h5 hs <;> simp only [At] at h5 <;> simp only at hs
    case enter =>
      obtain ⟨g1, g2, g3⟩ := h5
      rw [g1.2.2.2] at hs
      simp only [if_true] at hs
      cases hcl : c.pool.classes with
      | nil =>
        obtain ⟨l, hl⟩ := List.exists_mem_of_ne_nil _ hne
        have := g1.1.known l hl
        rw [← g1.1.labels, Pool.labels, hcl] at this
        simp at this
      | cons w t =>
        rw [hcl] at hs
        simp only [Option.some.injEq] at hs
        subst hs
        refine ⟨h1, h2, h3, h4, g1, ?_, Or.inr g3⟩
        rw [← g1.1.labels, Pool.labels, hcl]
        simp
    case request l =>
      simp only [Option.some.injEq] at hs
      subst hs
      exact ⟨h1, h2, h3, h4, JInv.congr h5.1 rfl rfl rfl rfl rfl rfl, h5.2.1, rfl⟩
    case flag l =>
      obtain ⟨g1, g2, g3⟩ := h5
      cases hfd : find l c.pool with
      | none => exact absurd (g1.1.labels ▸ g2) (find_none hfd)
      | some w =>
        rw [hfd] at hs
        simp only [Option.some.injEq] at hs
        subst hs
        obtain ⟨hw1, hw2⟩ := find_some hfd
        obtain ⟨e1, e2, e3, e4, e5, -⟩ := flagClass_frame w c
        refine ⟨e1.trans h1, e2.trans h2, e3.trans h3, e4.trans h4, flagClass_jinv g1, g2, e5.trans g3, fun x hx hl ht => ?_⟩
        show l ∈ (flagClass w c).flagged ∧ _
        replace hx : x ∈ (flagClass w c).pool.classes := hx
        unfold flagClass at hx ⊢
        by_cases hwt : c.sees w = true
        · rw [if_pos hwt] at hx ⊢
          refine ⟨by simp [hw2], ?_⟩
          obtain ⟨d, hd, ⟨hdl, rfl⟩ | ⟨hdl, rfl⟩⟩ := Pool.mem_onClass hx
          · exact Nat.min_le_right _ _
          · exact absurd (hl.trans hw2.symm) hdl
        · rw [if_neg hwt] at hx
          have := g1.1.uniq x hx w hw1 (hl.trans hw2.symm)
          subst this
          refine absurd ?_ hwt
          have hfl : (flagClass x c).failing = c.failing := by unfold flagClass; split <;> rfl
          have ht' : (x.training && !(flagClass x c).failing.contains x.label) = true := ht
          rw [hfl] at ht'
          exact ht'
    case wait l =>
      obtain ⟨g1, g2, g3, -⟩ := h5
      cases hfd : find l c.pool with
      | none => exact absurd (g1.1.labels ▸ g2) (find_none hfd)
      | some w =>
        rw [hfd] at hs
        simp only at hs
        split at hs
        · simp at hs
        · have hlab : c.pool.classes.map (·.label) = before := g1.1.labels
          rw [hlab] at hs
          cases hsc : succ l before with
          | none =>
            rw [hsc] at hs
            simp only [Option.some.injEq] at hs
            subst hs
            exact ⟨h1, h2, h3, h4, g1, by simp, g3⟩
          | some m =>
            rw [hsc] at hs
            simp only [Option.some.injEq] at hs
            subst hs
            exact ⟨h1, h2, h3, h4, g1, succ_mem hsc, Or.inl g3⟩
    case join pc =>
      obtain ⟨g1, g2, g3⟩ := h5
      cases hst : c.pool.joinStep false pc with
      | none => rw [hst] at hs; simp at hs
      | some r =>
        obtain ⟨pc', s1⟩ := r
        rw [hst] at hs
        obtain ⟨k1, k2, k3, k4, k5, k6⟩ := Pool.joinStep_ok g1 hst
        cases pc' <;> simp only [Option.some.injEq] at hs <;> subst hs
        case left => exact ⟨k4.trans h1, k2.trans h2, k3.trans h3, k6.trans h4, k1⟩
        case failed => exact k1.elim
        all_goals exact ⟨k4.trans h1, k2.trans h2, k3.trans h3, k6.trans h4, k1, by simp, k5.trans g3⟩
    case clear =>
      simp only [Option.some.injEq] at hs
      subst hs
      exact ⟨h1, h2, h3, h4, JInv.congr h5 rfl rfl rfl rfl rfl rfl, rfl⟩
    case returned => simp at hs

/-- the model in training, in the mode Background, when no detached thread runs -/
theorem BInv.running {todo before : List String} {s : Pool} (h : Pool.BInv todo before s) (hm : s.main = .returned) (hr : ∃ w ∈ s.classes, w.thread = .running) :
    JInv todo before .enter s ∧ s.joiners = [] := by
  obtain ⟨-, -, -, hb⟩ := h
  rw [hm] at hb
  obtain ⟨w, hw, hwr⟩ := hr
  rcases hb with ⟨h1, h2, -⟩ | ⟨pc, -, h2, -⟩
  · exact ⟨h1, h2⟩
  · exact absurd hwr (h2 w hw)

theorem still_pos {todo before pend : List String} {s : Pool} (h : Before todo before pend s) (hr : ∃ w ∈ s.classes, w.thread = .running) : 0 < s.still := by
  obtain ⟨w, hw, hwr⟩ := hr
  rw [h.count]
  exact_mod_cast List.countP_pos_iff.2 ⟨w, hw, by simp [hwr]⟩

theorem inv_start {todo before : List String} {s : Pool} (h : Pool.BInv todo before s) (hm : s.main = .returned) (hr : ∃ w ∈ s.classes, w.thread = .running) :
    Inv todo before (calls s) := by
  obtain ⟨h1, h2⟩ := BInv.running h hm hr
  exact ⟨h.mode, hm, h2, h.alive, h1, h.cancel, still_pos h1.1 hr⟩

theorem inv_reach {todo before : List String} (hne : todo ≠ []) {c₀ c : Canceller} (h0 : Inv todo before c₀) (h : Reach InTime c₀ c) : Inv todo before c := by
  induction h with
  | refl => exact h0
  | step _ ha hs ih => exact inv_step hne ih ha hs

theorem cancel_ok (c : Canceller) : InTime c (.cancel false) := ⟨⟨fun w h => by simpa using h.symm, fun b h => by simp at h⟩, fun l st h => by simp at h⟩

theorem final_ok {c : Canceller} (h : c.pool.cancelRequired = true ∨ 1 < c.pool.still) (l : String) (st : Status) : InTime c (.other (.final l st)) :=
  ⟨⟨fun w h => by simp at h, fun b h => by simp only [Act.other.injEq] at h; subst h; exact ⟨fun w h => by simp at h, fun i w h => by simp at h⟩⟩, fun _ _ _ => h⟩

/-- unless the call has returned, some thread can take a step -/
theorem Inv.progress {todo before : List String} {c : Canceller} (h : Inv todo before c) : c.pc = .returned ∨ ∃ a c', InTime c a ∧ c.act a = some c' := by
  obtain ⟨h1, h2, h3, h4, h5⟩ := h
  have hcan : ∀ c', c.pc ≠ .undefined → c.cancelStep false = some c' → ∃ a c', InTime c a ∧ c.act a = some c' := by
    intro c' hu hc
    exact ⟨.cancel false, c', cancel_ok c, by simp [act, h4, hu, hc]⟩
  have hfin : ∀ w ∈ c.pool.classes, w.thread = .running → c.pool.cancelRequired = true → c.pc ≠ .undefined → ∃ a c', InTime c a ∧ c.act a = some c' := by
    intro w hw hwr hcr hu
    have hrun : c.pool.runs w.label = true := List.any_eq_true.2 ⟨w, hw, by simp [hwr]⟩
    by_cases hfl : w.label ∈ c.failing
    · obtain ⟨s', hs'⟩ : ∃ s', c.pool.finalStep w.label .error = some s' := by
        rw [Pool.finalStep_eq, if_pos (by simp [hrun])]
        split <;> exact ⟨_, rfl⟩
      exact ⟨.other (.final w.label .error), { c with pool := s' }, final_ok (Or.inl hcr) _ _, by simp [act, h4, hu, allowed, Pool.act, hs', hfl]⟩
    · obtain ⟨s', hs'⟩ : ∃ s', c.pool.finalStep w.label .done = some s' := by
        rw [Pool.finalStep_eq, if_pos (by simp [hrun])]
        split <;> exact ⟨_, rfl⟩
      exact ⟨.other (.final w.label .done), { c with pool := s' }, final_ok (Or.inl hcr) _ _, by simp [act, h4, hu, allowed, Pool.act, hs', hfl]⟩
  cases hpc : c.pc <;> rw [hpc] at h5 <;> simp only [At] at h5
  case returned => exact Or.inl rfl
  case enter =>
    right
    cases hcl : c.pool.classes with
    | nil => exact hcan { c with pc := .join .enter } (by simp [hpc]) (by simp [cancelStep, hpc, h5.1.2.2.2, hcl])
    | cons w t => exact hcan { c with pc := .request w.label } (by simp [hpc]) (by simp [cancelStep, hpc, h5.1.2.2.2, hcl])
  case request l => exact Or.inr (hcan _ (by simp [hpc]) (by simp only [cancelStep, hpc]; rfl))
  case flag l =>
    right
    cases hfd : find l c.pool with
    | none => exact absurd (h5.1.1.labels ▸ h5.2.1) (find_none hfd)
    | some w => exact hcan { flagClass w c with pc := .wait l } (by simp [hpc]) (by simp [cancelStep, hpc, hfd])
  case wait l =>
    right
    cases hfd : find l c.pool with
    | none => exact absurd (h5.1.1.labels ▸ h5.2.1) (find_none hfd)
    | some w =>
      obtain ⟨hw1, hw2⟩ := find_some hfd
      by_cases hse : c.sees w = true
      · have hwt : w.training = true := by
          simp only [sees, Bool.and_eq_true] at hse
          exact hse.1
        have hwr : w.thread = .running := by
          cases h5.1.1.ok w hw1 with
          | old _ _ ht _ _ => rw [ht] at hwt; simp at hwt
          | pending _ _ ht _ _ => rw [ht] at hwt; simp at hwt
          | running _ _ _ hr _ _ => exact hr
          | ended _ _ ht _ _ => rw [ht] at hwt; simp at hwt
        exact hfin w hw1 hwr h5.2.2.1 (by simp [hpc])
      · cases hsc : succ l (c.pool.classes.map (·.label)) with
        | none => exact hcan { c with pc := .join .enter } (by simp [hpc]) (by simp [cancelStep, hpc, hfd, hse, hsc])
        | some m => exact hcan { c with pc := .request m } (by simp [hpc]) (by simp [cancelStep, hpc, hfd, hse, hsc])
  case clear => exact Or.inr (hcan _ (by simp [hpc]) (by simp only [cancelStep, hpc]; rfl))
  case join pc =>
    right
    obtain ⟨g1, g2, g3⟩ := h5
    have hj : ∀ r, c.pool.joinStep false pc = some r → ∃ a c', InTime c a ∧ c.act a = some c' := by
      rintro ⟨pc', s1⟩ hr
      cases pc'
      case left => exact hcan { c with pool := s1, pc := .clear } (by simp [hpc]) (by simp only [cancelStep, hpc, hr])
      case failed => exact hcan { c with pool := s1, pc := .threw } (by simp [hpc]) (by simp only [cancelStep, hpc, hr])
      all_goals exact hcan _ (by simp [hpc]) (by simp only [cancelStep, hpc, hr]; rfl)
    cases pc with
    | enter => exact hj (.join, { c.pool with isJoining := true }) (by simp [Pool.joinStep, g1.2.2.1, g1.2.2.2])
    | join =>
      cases hh : c.pool.handles with
      | nil => exact hj (.sweep, c.pool) (by simp [Pool.joinStep, hh])
      | cons l t =>
        by_cases hq : c.pool.quiet l = true
        · exact hj (.join, { c.pool with handles := t }) (by simp [Pool.joinStep, hh, hq])
        · simp only [Pool.quiet, List.all_eq_true, not_forall] at hq
          obtain ⟨w, hw, hwr⟩ := hq
          simp only [Bool.not_eq_true', decide_eq_false_iff_not, not_not] at hwr
          exact hfin w hw hwr.2 g3 (by simp [hpc])
    | sweep => exact hj _ rfl
    | unjoin => exact hj _ rfl
    | untrain => exact hj _ rfl
    | reset =>
      by_cases hc : (c.pool.isTraining || c.pool.classes.any (·.training)) = true
      · exact hj (.failed, c.pool) (by simp only [Pool.joinStep, hc, if_true])
      · exact hj (.alldone, c.pool) (by simp only [Pool.joinStep, hc]; rfl)
    | alldone => exact hj _ rfl
    | left => exact absurd rfl g2
    | wait => exact g1.elim
    | failed => exact g1.elim

/-- **C88** (mode Background), for every interleaving in which the request comes before the last class in training ends: `cancelTraining()` uses no class that was removed and
    throws nothing; the call does not hang (some thread can take a step until it returns; `C88_ends`); and when it returns the training is complete: every class has one
    outcome, the model keeps exactly the classes that were not trained by this call or whose outcome is Done, Alldone was notified once and last, no class and no model is in
    training, and the next training is not affected (`cancel_required_` is lowered). -/
theorem C88_background_partial {todo : List String} (hne : todo ≠ []) {s₀ s : Pool} (h0 : Begins todo s₀) (hp : s₀.mode = .background) (h : Pool.Reach Late s₀ s)
    (hm : s.main = .returned) (hr : ∃ w ∈ s.classes, w.thread = .running) {c : Canceller} (hc : Reach InTime (calls s) c) :
    c.pc ≠ .undefined ∧ c.pc ≠ .threw ∧ c.pool.terminated = false ∧
    (c.pc = .returned → Completed todo s₀.labels c.pool ∧ c.pool.cancelRequired = false) ∧
    (c.pc = .returned ∨ ∃ a c', InTime c a ∧ c.act a = some c') := by
  have hi := inv_reach hne (inv_start (Pool.background_reach hne h0 hp h) hm hr) hc
  have hat := hi.at_
  refine ⟨fun hu => ?_, fun hu => ?_, hi.alive, fun hu => ?_, hi.progress⟩
  · rw [hu] at hat; exact hat
  · rw [hu] at hat; exact hat
  · rw [hu] at hat
    exact ⟨Pool.JInv.completed hat.1 hi.joiners, hat.2⟩

/-- **C88**: `cancelTraining()` waits only for classes that were asked to stop, and a class that was asked to stop notifies at most one more event Run before its last one. -/
theorem C88_asked {todo : List String} (hne : todo ≠ []) {s₀ s : Pool} (h0 : Begins todo s₀) (hp : s₀.mode = .background) (h : Pool.Reach Late s₀ s)
    (hm : s.main = .returned) (hr : ∃ w ∈ s.classes, w.thread = .running) {c : Canceller} (hc : Reach InTime (calls s) c) {l : String} (hl : c.pc = .wait l) :
    ∃ w ∈ c.pool.classes, w.label = l ∧ (c.sees w = true → l ∈ c.flagged ∧ w.budget ≤ 1) := by
  have hi := inv_reach hne (inv_start (Pool.background_reach hne h0 hp h) hm hr) hc
  have hat := hi.at_
  rw [hl] at hat
  have := hat.2.1
  rw [← hat.1.1.labels] at this
  obtain ⟨w, hw, hwl⟩ := List.mem_map.1 this
  exact ⟨w, hw, hwl, fun ht => hat.2.2.2 w hw hwl ht⟩

/-- a bound on the steps that the cancelling thread still takes -/
def rank (before : List String) : CancelPc → Nat
  | .enter => 3 * before.length + 15
  | .request l => 3 * (tailFrom l before).length + 14
  | .flag l => 3 * (tailFrom l before).length + 13
  | .wait l => 3 * (tailFrom l before).length + 12
  | .one _ => 20
  | .oneRequest _ => 19
  | .oneFlag _ => 18
  | .oneWait _ => 17
  | .oneCheck => 16
  | .join pc => pc.rank + 2
  | .clear => 1
  | _ => 0

theorem work_flag (l : String) (cs : List Worker) : Pool.work (cs.map fun c => if c.label = l then { c with budget := min c.budget 1 } else c) ≤ Pool.work cs := by
  induction cs with
  | nil => simp
  | cons a t ih =>
    rw [List.map_cons, Pool.work_cons, Pool.work_cons]
    by_cases hl : a.label = l
    · simp only [hl, if_true]
      have : min a.budget 1 ≤ a.budget := Nat.min_le_left _ _
      omega
    · simp only [hl, if_false]
      omega

theorem flagClass_remaining (w : Worker) (c : Canceller) : (flagClass w c).pool.remaining ≤ c.pool.remaining := by
  unfold flagClass
  split
  · simp only [Pool.remaining_eq, Pool.onClass]
    have := work_flag w.label c.pool.classes
    omega
  · exact le_refl _

/-- the number of classes that may still fail -/
def sound (failing : List String) (cs : List Worker) : Nat := cs.countP fun w => decide (w.thread = .running) && !failing.contains w.label

theorem sound_map (fl : List String) (cs : List Worker) (f : Worker → Worker) (hf : ∀ w, (f w).label = w.label ∧ ((f w).thread = .running → w.thread = .running)) :
    sound fl (cs.map f) ≤ sound fl cs := by
  unfold sound
  rw [List.countP_map]
  refine List.countP_mono_left fun w _ h => ?_
  simp only [Function.comp, Bool.and_eq_true, decide_eq_true_eq] at h ⊢
  rw [(hf w).1] at h
  exact ⟨(hf w).2 h.1, h.2⟩

theorem sound_onClass (fl : List String) (s : Pool) (l : String) (f : Worker → Worker) (hf : ∀ w, (f w).label = w.label ∧ ((f w).thread = .running → w.thread = .running)) :
    sound fl (s.onClass l f).classes ≤ sound fl s.classes := by
  refine sound_map fl s.classes _ fun w => ?_
  by_cases hl : w.label = l
  · simp only [hl, if_true]
    exact ⟨(hf w).1.trans hl, (hf w).2⟩
  · simp [hl]

theorem sound_cons {l : String} {fl : List String} {s : Pool} (hr : s.runs l = true) (hl : l ∉ fl) : sound (l :: fl) s.classes < sound fl s.classes := by
  obtain ⟨r, hr1, hr2⟩ := List.any_eq_true.1 hr
  simp only [decide_eq_true_eq] at hr2
  obtain ⟨rfl, hr3⟩ := hr2
  unfold sound
  generalize s.classes = cs at hr1
  induction cs with
  | nil => simp at hr1
  | cons a t ih =>
    have hle : (t.countP fun w => decide (w.thread = .running) && !(r.label :: fl).contains w.label) ≤ (t.countP fun w => decide (w.thread = .running) && !fl.contains w.label) := by
      refine List.countP_mono_left fun w _ h => ?_
      simp only [List.contains_cons, Bool.not_or, Bool.and_eq_true] at h ⊢
      exact ⟨h.1, h.2.2⟩
    rw [List.countP_cons, List.countP_cons]
    rcases List.mem_cons.1 hr1 with h | h
    · subst h
      simp [hr3, hl]
      exact Nat.lt_succ_of_le (by simpa using hle)
    · have := ih h
      have hone : (if (decide (a.thread = .running) && !(r.label :: fl).contains a.label) = true then 1 else 0) ≤
          (if (decide (a.thread = .running) && !fl.contains a.label) = true then 1 else 0) := by
        by_cases ha : (decide (a.thread = .running) && !(r.label :: fl).contains a.label) = true
        · have ha' : (decide (a.thread = .running) && !fl.contains a.label) = true := by
            simp only [List.contains_cons, Bool.not_or, Bool.and_eq_true] at ha ⊢
            exact ⟨ha.1, ha.2.2⟩
          rw [if_pos ha, if_pos ha']
        · rw [if_neg ha]; exact Nat.zero_le _
      omega

theorem joinStep_sound {weak : Bool} {pc pc' : JoinPc} {s s' : Pool} (fl : List String) (hs : s.joinStep weak pc = some (pc', s')) :
    sound fl s'.classes ≤ sound fl s.classes := by
  have h : s'.classes.Sublist s.classes := by
    cases pc <;> simp only [Pool.joinStep] at hs
    case enter => split at hs <;> [skip; split at hs] <;> simp only [Option.some.injEq, Prod.mk.injEq] at hs <;> obtain ⟨-, rfl⟩ := hs <;> exact List.Sublist.refl _
    case join =>
      split at hs
      · simp only [Option.some.injEq, Prod.mk.injEq] at hs; obtain ⟨-, rfl⟩ := hs; exact List.Sublist.refl _
      · split at hs
        · simp only [Option.some.injEq, Prod.mk.injEq] at hs; obtain ⟨-, rfl⟩ := hs; exact List.Sublist.refl _
        · simp at hs
    case sweep => simp only [Option.some.injEq, Prod.mk.injEq] at hs; obtain ⟨-, rfl⟩ := hs; exact List.filter_sublist
    case reset => split at hs <;> simp only [Option.some.injEq, Prod.mk.injEq] at hs <;> obtain ⟨-, rfl⟩ := hs <;> exact List.Sublist.refl _
    case wait =>
      split at hs
      · simp at hs
      · simp only [Option.some.injEq, Prod.mk.injEq] at hs; obtain ⟨-, rfl⟩ := hs; exact List.Sublist.refl _
    case left => simp at hs
    case failed => simp at hs
    all_goals (simp only [Option.some.injEq, Prod.mk.injEq] at hs; obtain ⟨-, rfl⟩ := hs; exact List.Sublist.refl _)
  exact h.countP_le

/-- a bound on the steps that all threads still take -/
def bound (before : List String) (c : Canceller) : Nat := c.pool.remaining + rank before c.pc + sound c.failing c.pool.classes

/-- the steps of the classes and their failures decrease the bound -/
theorem bound_other {before : List String} {c c' : Canceller} {a : Act} (hn : c.pool.labels.Nodup) (hm : c.pool.main = .returned) (hj : c.pool.joiners = [])
    (ha : ∀ w, a ≠ .cancel w) (hs : c.act a = some c') : bound before c' < bound before c ∧ c'.pool.labels.Sublist c.pool.labels := by
  unfold act at hs
  split at hs
  · simp at hs
  cases a with
  | other b =>
    simp only at hs
    split at hs
    · obtain ⟨s', hs', rfl⟩ := Option.map_eq_some_iff.1 hs
      obtain ⟨h1, h2⟩ := Pool.C53_decreases hn hs'
      refine ⟨?_, h2⟩
      have h3 : sound c.failing s'.classes ≤ sound c.failing c.pool.classes := by
        unfold Pool.act at hs'
        split at hs'
        · simp at hs'
        cases b with
        | main w => simp [Pool.mainStep, hm] at hs'
        | joiner i w => simp [Pool.joinerStep, hj] at hs'
        | run l =>
          simp only [Pool.runStep] at hs'
          split at hs'
          · simp only [Option.some.injEq] at hs'
            subst hs'
            exact sound_onClass c.failing c.pool l (fun c => { c with budget := c.budget - 1 }) (fun w => ⟨rfl, id⟩)
          · simp at hs'
        | final l st =>
          simp only at hs'
          obtain ⟨hr, hst⟩ := Pool.finalStep_runs hs'
          rw [Pool.finalStep_eq, if_pos (by simp [hr, hst])] at hs'
          have h4 : sound c.failing (Pool.closed l st c.pool).classes ≤ sound c.failing c.pool.classes :=
            sound_onClass c.failing c.pool l (fun c => { c with status := st, training := false, thread := .ended }) (fun w => ⟨rfl, fun h => by simp at h⟩)
          split at hs' <;> simp only [Option.some.injEq] at hs' <;> subst hs' <;> exact h4
      simp only [bound]
      omega
    · simp at hs
  | fails l =>
    simp only at hs
    split at hs
    · rename_i h1
      simp only [Option.some.injEq] at hs
      subst hs
      simp only [Bool.and_eq_true, Bool.not_eq_true', List.contains_eq_mem, decide_eq_false_iff_not] at h1
      have := sound_cons h1.1 h1.2
      refine ⟨?_, List.Sublist.refl _⟩
      simp only [bound]
      omega
    · simp at hs
  | cancel w => exact absurd rfl (ha w)

theorem flagClass_labels (w : Worker) (c : Canceller) : (flagClass w c).pool.labels = c.pool.labels := by
  unfold flagClass
  split
  · exact Pool.labels_onClass w.label (fun x => { x with budget := min x.budget 1 }) (fun _ => rfl) c.pool
  · rfl

theorem flagClass_bound (before : List String) (w : Worker) (c : Canceller) (pc : CancelPc) (hr : rank before pc < rank before c.pc) :
    bound before { flagClass w c with pc := pc } < bound before c := by
  have h1 := flagClass_remaining w c
  have h2 : sound (flagClass w c).failing (flagClass w c).pool.classes ≤ sound c.failing c.pool.classes := by
    unfold flagClass
    split
    · exact sound_onClass c.failing c.pool w.label (fun x => { x with budget := min x.budget 1 }) (fun w => ⟨rfl, id⟩)
    · exact le_refl _
  simp only [bound]
  omega

/-- a step of the cancelling thread that changes at most `cancel_required_` -/
theorem bound_pc (before : List String) (c : Canceller) (b : Bool) (pc : CancelPc) (hr : rank before pc < rank before c.pc) :
    bound before { c with pool := { c.pool with cancelRequired := b }, pc := pc } < bound before c := by
  show c.pool.remaining + _ + sound c.failing c.pool.classes < _
  simp only [bound]
  omega

theorem bound_join {before : List String} {c c' : Canceller} {pc : JoinPc} (hpc : c.pc = .join pc)
    (hs : c.cancelStep false = some c') : bound before c' < bound before c ∧ c'.pool.labels.Sublist c.pool.labels := by
  simp only [cancelStep, hpc] at hs
  cases hst : c.pool.joinStep false pc with
  | none => rw [hst] at hs; simp at hs
  | some r =>
    obtain ⟨pc', s1⟩ := r
    rw [hst] at hs
    obtain ⟨g1, g2, g3, g4, g5⟩ := Pool.joinStep_rank hst
    have g6 := joinStep_sound c.failing hst
    have hk : ∀ p : CancelPc, rank before p ≤ pc'.rank + 2 → bound before { c with pool := s1, pc := p } < bound before c ∧ s1.labels.Sublist c.pool.labels := by
      intro p hp
      refine ⟨?_, g5⟩
      have hr : rank before (.join pc) = pc.rank + 2 := rfl
      simp only [bound, Pool.remaining_eq, g3, g4, hpc, hr]
      omega
    cases pc' <;> simp only [Option.some.injEq] at hs <;> subst hs <;> apply hk <;> simp [rank]

/-- **C88**: every step of an execution in which the cancellation comes in time decreases the bound, so no such execution goes on forever. -/
theorem C88_decreases {todo before : List String} {c c' : Canceller} {a : Act} (h : Inv todo before c) (hn : c.pool.labels.Nodup) (ha : InTime c a)
    (hs : c.act a = some c') : bound before c' < bound before c ∧ c'.pool.labels.Sublist c.pool.labels := by
  cases a with
  | other b => exact bound_other hn h.main h.joiners (by simp) hs
  | fails l => exact bound_other hn h.main h.joiners (by simp) hs
  | cancel weak =>
    obtain rfl : weak = false := ha.1.1 weak rfl
    unfold act at hs
    split at hs
    · simp at hs
    simp only at hs
    obtain ⟨h1, h2, h3, h4, h5⟩ := h
    cases hpc : c.pc <;> rw [hpc] at h5 <;> simp only [At] at h5
    case join pc => exact bound_join hpc hs
    all_goals simp only [cancelStep, hpc] at hs
    case enter =>
      have hb := bound_pc before c c.pool.cancelRequired
      split at hs
      · split at hs <;> simp only [Option.some.injEq] at hs <;> subst hs <;> refine ⟨hb _ ?_, List.Sublist.refl _⟩ <;> simp only [rank, JoinPc.rank, hpc]
        · omega
        · rename_i w t _
          have := tailFrom_length w.label before
          omega
      · simp only [Option.some.injEq] at hs
        subst hs
        exact ⟨hb _ (by simp only [rank, hpc]; omega), List.Sublist.refl _⟩
    case request l =>
      simp only [Option.some.injEq] at hs
      subst hs
      exact ⟨bound_pc before c true (.flag l) (by simp only [rank, hpc]; omega), List.Sublist.refl _⟩
    case flag l =>
      cases hfd : find l c.pool with
      | none => exact absurd (h5.1.1.labels ▸ h5.2.1) (find_none hfd)
      | some w =>
        rw [hfd] at hs
        simp only [Option.some.injEq] at hs
        subst hs
        exact ⟨flagClass_bound before w c (.wait l) (by simp only [rank, hpc]; omega), (flagClass_labels w c) ▸ List.Sublist.refl _⟩
    case wait l =>
      have hlab : c.pool.classes.map (·.label) = before := h5.1.1.labels
      have hb := bound_pc before c c.pool.cancelRequired
      cases hfd : find l c.pool with
      | none => exact absurd (h5.1.1.labels ▸ h5.2.1) (find_none hfd)
      | some w =>
        rw [hfd, hlab] at hs
        simp only at hs
        split at hs
        · simp at hs
        · cases hsc : succ l before with
          | none =>
            rw [hsc] at hs
            simp only [Option.some.injEq] at hs
            subst hs
            obtain ⟨t, ht⟩ := tailFrom_self h5.2.1
            refine ⟨hb _ ?_, List.Sublist.refl _⟩
            simp only [rank, JoinPc.rank, ht, List.length_cons, hpc]
            omega
          | some m =>
            rw [hsc] at hs
            simp only [Option.some.injEq] at hs
            subst hs
            have := tailFrom_succ h5.1.1.nodup hsc
            refine ⟨hb _ ?_, List.Sublist.refl _⟩
            simp only [rank, hpc]
            omega
    case clear =>
      simp only [Option.some.injEq] at hs
      subst hs
      exact ⟨bound_pc before c false .returned (by simp only [rank, hpc]; omega), List.Sublist.refl _⟩
    case returned => simp at hs

theorem reach_trans {ok : Canceller → Act → Prop} {a b c : Canceller} (h1 : Reach ok a b) (h2 : Reach ok b c) : Reach ok a c := by
  induction h2 with
  | refl => exact h1
  | step _ h3 h4 ih => exact .step ih h3 h4

/-- **C88** (mode Background): from every state that such an execution reaches, `cancelTraining()` can be executed to its end, and then the training is complete; no execution
    goes on forever (`C88_decreases`). -/
theorem C88_ends {todo : List String} (hne : todo ≠ []) {s₀ s : Pool} (h0 : Begins todo s₀) (hp : s₀.mode = .background) (h : Pool.Reach Late s₀ s)
    (hm : s.main = .returned) (hr : ∃ w ∈ s.classes, w.thread = .running) {c : Canceller} (hc : Reach InTime (calls s) c) :
    ∃ c', Reach InTime c c' ∧ c'.pc = .returned ∧ Completed todo s₀.labels c'.pool ∧ c'.pool.cancelRequired = false := by
  have hstart := inv_start (Pool.background_reach hne h0 hp h) hm hr
  have hn0 : s.labels.Nodup := by
    have hl : s.labels = s₀.labels := hstart.at_.1.1.labels
    rw [hl]; exact h0.labelsNodup
  have hn : ∀ d, Reach InTime (calls s) d → d.pool.labels.Nodup := by
    intro d hd
    induction hd with
    | refl => exact hn0
    | step hd ha hs ih => exact ih.sublist (C88_decreases (inv_reach hne hstart hd) ih ha hs).2
  suffices H : ∀ (n : Nat) (d : Canceller), bound s₀.labels d ≤ n → Reach InTime (calls s) d → ∃ c', Reach InTime d c' ∧ c'.pc = .returned by
    obtain ⟨c', h1, h2⟩ := H _ c (le_refl _) hc
    obtain ⟨-, -, -, h3, -⟩ := C88_background_partial hne h0 hp h hm hr (reach_trans hc h1)
    exact ⟨c', h1, h2, h3 h2⟩
  intro n
  induction n with
  | zero =>
    intro d hd1 hd2
    rcases (inv_reach hne hstart hd2).progress with hq | ⟨a, d', ha, hs⟩
    · exact ⟨d, .refl, hq⟩
    · have := (C88_decreases (inv_reach hne hstart hd2) (hn d hd2) ha hs).1
      omega
  | succ n ih =>
    intro d hd1 hd2
    rcases (inv_reach hne hstart hd2).progress with hq | ⟨a, d', ha, hs⟩
    · exact ⟨d, .refl, hq⟩
    · have := (C88_decreases (inv_reach hne hstart hd2) (hn d hd2) ha hs).1
      obtain ⟨e, he1, he2⟩ := ih d' (by omega) (.step hd2 ha hs)
      exact ⟨e, reach_trans (.step .refl ha hs) he1, he2⟩

/-- **C88**: on a model that is not in training, `cancelTraining()` and `cancelTraining(l)` return and change nothing. -/
theorem C88_idle {s : Pool} (ht : s.isTraining = false) (hc : s.cancelRequired = false) (hal : s.terminated = false) (l : String) :
    acts [.cancel false, .cancel false] (calls s) = some ⟨s, .returned, [], []⟩ ∧ acts [.cancel false, .cancel false] (callsOne l s) = some ⟨s, .returned, [], []⟩ := by
  obtain ⟨mode, classes, handles, isTraining, isJoining, cancelRequired, still, main, joiners, events, terminated⟩ := s
  simp only at ht hc hal
  subst ht hc hal
  constructor <;> simp [acts, act, calls, callsOne, cancelStep]

/-- a sequence of steps is an execution -/
theorem reach_acts {c₀ : Canceller} : ∀ (as : List Act) {c c' : Canceller}, (∀ a ∈ as, ∀ c, Strong c a) → Reach Strong c₀ c → acts as c = some c' → Reach Strong c₀ c'
  | [], c, c', _, h, hs => by simp only [acts, Option.some.injEq] at hs; exact hs ▸ h
  | a :: as, c, c', hk, h, hs => by
    simp only [acts, Option.bind_eq_some_iff] at hs
    obtain ⟨t, h1, h2⟩ := hs
    exact reach_acts as (fun b hb => hk b (by simp [hb])) (.step h (hk a (by simp) c) h1) h2

/-- steps without spurious failure -/
def strongly (as : List Act) : Bool := as.all fun a => match a with | .cancel w => !w | .other (.main w) => !w | .other (.joiner _ w) => !w | _ => true

theorem strongly_ok {as : List Act} (h : strongly as = true) : ∀ a ∈ as, ∀ c, Strong c a := by
  intro a ha c
  simp only [strongly, List.all_eq_true] at h
  have := h a ha
  rcases a with b | m | w
  · cases b <;> simp_all [Strong, Pool.Strong]
  · simp [Strong]
  · simp_all [Strong]

/-- the end of a sequence of steps, and what it satisfies -/
theorem witness {P : Canceller → Prop} [DecidablePred P] (as : List Act) (c₀ : Canceller) (h1 : strongly as = true)
    (h2 : ((acts as c₀).map fun c => decide (P c)) = some true) : ∃ c, Reach Strong c₀ c ∧ P c := by
  cases hc : acts as c₀ with
  | none => rw [hc] at h2; simp at h2
  | some c =>
    rw [hc] at h2
    exact ⟨c, reach_acts as (strongly_ok h1) .refl hc, by simpa using h2⟩

/-- a model with the classes `ls`, in the mode Background: `train` has returned, all classes are in training -/
def training (ls : List String) : Pool :=
  { mode := .background, classes := ls.map fun l => ⟨l, 2, .run, true, .running⟩, handles := ls, isTraining := true, isJoining := false, cancelRequired := false,
    still := ls.length, main := .returned, joiners := [], events := [], terminated := false }

/-- `train` leads to that state -/
theorem training_reached : Pool.Reach Late (Pool.begin_ .background ["a"]) (training ["a"]) ∧ Pool.Reach Late (Pool.begin_ .background ["a", "b"]) (training ["a", "b"]) := by
  have hl : ∀ s, Late s (.main false) := fun s => ⟨⟨fun w h => by simpa using h.symm, fun i w h => by simp at h⟩, fun l st h => by simp at h⟩
  refine ⟨Pool.reach_acts (List.replicate 3 (.main false)) (fun a ha s => ?_) .refl (by decide +kernel),
    Pool.reach_acts (List.replicate 5 (.main false)) (fun a ha s => ?_) .refl (by decide +kernel)⟩ <;>
  · rw [List.eq_of_mem_replicate ha]; exact hl s

/-- the hypotheses of `C88_background_partial` are met by a model with two classes in training; both are cancelled -/
example : ∃ c, Reach InTime (calls (training ["a", "b"])) c ∧ c.pc = .returned ∧ Completed ["a", "b"] ["a", "b"] c.pool ∧ c.pool.cancelRequired = false := by
  have h0 : Begins ["a", "b"] (Pool.begin_ .background ["a", "b"]) := Pool.begin_begins _ (by decide +kernel)
  exact C88_ends (by simp) h0 rfl training_reached.2 rfl ⟨⟨"a", 2, .run, true, .running⟩, by simp [training], rfl⟩ .refl

/-- two classes that are cancelled while they run are removed: the model is empty and Alldone is notified -/
example : ∃ c, Reach Strong (calls (training ["a", "b"])) c ∧ c.pc = .returned ∧ c.pool.classes = [] ∧
    c.pool.events = [(some "a", .cancel), (some "b", .run), (some "b", .cancel), (none, .allDone)] :=
  witness ([.cancel false, .cancel false, .cancel false, .other (.final "a" .cancel), .cancel false, .cancel false, .cancel false, .other (.run "b"),
    .other (.final "b" .cancel)] ++ List.replicate 11 (.cancel false)) _ (by decide +kernel) (by decide +kernel)

/-- C88 is violated: if the last class in training fails between the test of `is_training_` and the request, the detached thread removes the class that the loop of
    `cancelTraining()` designates, and the loop uses it: undefined behaviour. -/
theorem C88_background_ub : ∃ c, Reach Strong (calls (training ["a"])) c ∧ c.pc = .undefined :=
  witness [.cancel false, .fails "a", .other (.final "a" .error), .other (.joiner 0 false), .other (.joiner 0 false), .other (.joiner 0 false), .other (.joiner 0 false), .cancel false, .cancel false]
    _ (by decide +kernel) (by decide +kernel)

/-- C88 is violated: if the last class in training ends successfully between the test of `is_training_` and the request, the detached thread and `cancelTraining()` may both
    join the training: Alldone is notified twice. -/
theorem C88_alldone_violated : ∃ c, Reach Strong (calls (training ["a"])) c ∧ c.pc = .returned ∧ c.pool.joiners = [] ∧
    c.pool.events = [(some "a", .done), (none, .allDone), (none, .allDone)] :=
  witness ([.cancel false, .other (.final "a" .done), .cancel false, .cancel false, .cancel false] ++ List.replicate 5 (.other (.joiner 0 false)) ++ [.cancel false] ++
    List.replicate 3 (.other (.joiner 0 false)) ++ List.replicate 7 (.cancel false)) _ (by decide +kernel) (by decide +kernel)

/-- C88 is violated in the mode Parallel, in which another thread than the one that called `train` cancels: the thread in `train` removes the cancelled class while
    `cancelTraining()` waits on it: undefined behaviour. -/
theorem C88_parallel_ub : ∃ s c, Pool.Reach Pool.Strong (Pool.begin_ .parallel ["a"]) s ∧ s.main = .join .enter ∧ Reach Strong (calls s) c ∧ c.pc = .undefined := by
  let s : Pool := { training ["a"] with mode := .parallel, main := .join .enter }
  obtain ⟨c, h1, h2⟩ := witness (P := fun c => c.pc = .undefined) ([.cancel false, .cancel false, .cancel false, .other (.final "a" .cancel)] ++
    List.replicate 4 (.other (.main false)) ++ [.cancel false]) (calls s) (by decide +kernel) (by decide +kernel)
  refine ⟨s, c, Pool.reach_acts (List.replicate 3 (.main false)) (Pool.strongly_ok (by decide +kernel)) .refl (by decide +kernel), rfl, h1, h2⟩

/-- C88 is violated in the mode Sequential (and when the classes are not all started): `cancelTraining()` returns, and Alldone is notified, before the class `b` is started;
    the thread in `train` then trains it to the end.  At that time the model is not in training (queries are accepted). -/
theorem C88_sequential_violated : ∃ s c, Pool.Reach Pool.Strong (Pool.begin_ .sequential ["a", "b"]) s ∧ Reach Strong (calls s) c ∧ c.pc = .returned ∧
    c.pool.isTraining = false ∧ c.pool.events = [(some "a", .cancel), (none, .allDone)] ∧ (∃ w ∈ c.pool.classes, w.label = "b" ∧ w.training = true ∧ w.thread = .running) ∧
    ∃ c', Reach Strong c c' ∧ c'.pool.events = [(some "a", .cancel), (none, .allDone), (some "b", .done)] := by
  let s : Pool := { Pool.startClass "a" (Pool.begin_ .sequential ["a", "b"]) with main := .inline "a" ["b"] }
  let as : List Act := [.cancel false, .cancel false, .cancel false, .other (.final "a" .cancel), .other (.main false)] ++ List.replicate 12 (.cancel false) ++ [.other (.main false)]
  have hs : Pool.Reach Pool.Strong (Pool.begin_ .sequential ["a", "b"]) s :=
    Pool.reach_acts (List.replicate 1 (.main false)) (Pool.strongly_ok (by decide +kernel)) .refl (by decide +kernel)
  obtain ⟨c, hc⟩ : ∃ c, acts as (calls s) = some c := Option.isSome_iff_exists.1 (by decide +kernel)
  have hk : ((acts as (calls s)).map fun c => decide (c.pc = .returned ∧ c.pool.isTraining = false ∧ c.pool.events = [(some "a", .cancel), (none, .allDone)] ∧
      ∃ w ∈ c.pool.classes, w.label = "b" ∧ w.training = true ∧ w.thread = .running)) = some true := by decide +kernel
  have hk2 : ((acts as (calls s)).bind fun c => (acts [.other (.final "b" .done)] c).map fun c' =>
      decide (c'.pool.events = [(some "a", .cancel), (none, .allDone), (some "b", .done)])) = some true := by decide +kernel
  rw [hc] at hk hk2
  simp only [Option.map_some, Option.some.injEq, decide_eq_true_eq] at hk
  obtain ⟨c', h1, h2⟩ := witness (P := fun c' => c'.pool.events = [(some "a", .cancel), (none, .allDone), (some "b", .done)]) [.other (.final "b" .done)] c
    (by decide +kernel) (by simpa using hk2)
  exact ⟨s, c, hs, reach_acts as (strongly_ok (by decide +kernel)) .refl hc, hk.1, hk.2.1, hk.2.2.1, hk.2.2.2, c', h1, h2⟩

/-- nothing happens any more once all threads have ended -/
theorem stuck {c : Canceller} (h2 : c.pc = .returned) (h5 : c.pool.main = .returned) (h6 : c.pool.joiners = []) (h7 : ∀ w ∈ c.pool.classes, w.thread ≠ .running) (a : Act) :
    c.act a = none := by
  unfold act
  split
  · rfl
  rcases a with b | m | w
  · have : c.pool.act b = none := by
      unfold Pool.act
      split
      · rfl
      cases b with
      | main w => simp [Pool.mainStep, h5]
      | joiner i w => simp [Pool.joinerStep, h6]
      | run l =>
        cases hr : c.pool.runStep l with
        | none => simpa using hr
        | some s' => have := Pool.runStep_runs hr; rw [Pool.not_runs h7 l] at this; simp at this
      | final l st =>
        cases hr : c.pool.finalStep l st with
        | none => simpa using hr
        | some s' => have := (Pool.finalStep_runs hr).1; rw [Pool.not_runs h7 l] at this; simp at this
    simp [this]
  · simp [Pool.not_runs h7 m]
  · simp [cancelStep, h2]

/-- C88 is violated by `cancelTraining(label)`: if the only class in training fails during the call, the call may see that the class is not in training before the failure is
    notified; then nobody joins the training.  All threads have ended, and the model stays in training: Alldone is never notified, the failed class is not removed, and
    queries are refused. -/
theorem C88_label_fails_violated : ∃ c, Reach Strong (callsOne "a" (training ["a"])) c ∧ c.pc = .returned ∧ c.pool.isTraining = true ∧
    c.pool.events = [(some "a", .error)] ∧ c.pool.labels = ["a"] ∧ ∀ a, c.act a = none := by
  obtain ⟨c, h1, h2, h3, h4, h8, h5, h6, h7⟩ := witness (P := fun c => c.pc = .returned ∧ c.pool.isTraining = true ∧ c.pool.events = [(some "a", .error)] ∧
      c.pool.labels = ["a"] ∧ c.pool.main = .returned ∧ c.pool.joiners = [] ∧ ∀ w ∈ c.pool.classes, w.thread ≠ .running)
    [.cancel false, .cancel false, .cancel false, .fails "a", .cancel false, .cancel false, .other (.final "a" .error), .cancel false]
    (callsOne "a" (training ["a"])) (by decide +kernel) (by decide +kernel)
  exact ⟨c, h1, h2, h3, h4, h8, stuck h2 h5 h6 h7⟩

/-- C88 is violated by `cancelTraining(label)`: if the last other class ends between the test of `models_still_training_` and the end of the call, nobody joins the training.
    All threads have ended, and the model stays in training: Alldone is never notified and queries are refused. -/
theorem C88_label_violated : ∃ c, Reach Strong (callsOne "a" (training ["a", "b"])) c ∧ c.pc = .returned ∧ c.pool.isTraining = true ∧
    c.pool.events = [(some "a", .cancel), (some "b", .done)] ∧ ∀ a, c.act a = none := by
  obtain ⟨c, h1, h2, h3, h4, h5, h6, h7⟩ := witness (P := fun c => c.pc = .returned ∧ c.pool.isTraining = true ∧ c.pool.events = [(some "a", .cancel), (some "b", .done)] ∧
      c.pool.main = .returned ∧ c.pool.joiners = [] ∧ ∀ w ∈ c.pool.classes, w.thread ≠ .running)
    [.cancel false, .cancel false, .cancel false, .other (.final "a" .cancel), .cancel false, .cancel false, .other (.final "b" .done), .cancel false]
    (callsOne "a" (training ["a", "b"])) (by decide +kernel) (by decide +kernel)
  exact ⟨c, h1, h2, h3, h4, stuck h2 h5 h6 h7⟩

end Canceller
end Xmm
