import Verif.Props.PoolCancel
/- C88: cancelling the training of one class of a model. -/
namespace Xmm
namespace Canceller
open Pool (Begins Late Completed JInv Before Outcome eventsOf Still)

/-- no class of label `l` is being trained -/
def Halted (l : String) (s : Pool) : Prop := ∀ w ∈ s.classes, w.label = l → w.thread ≠ .running

/-- what holds in all states of an execution of `cancelTraining(l)` in which the cancellation comes in time -/
def OneAt (todo before : List String) (l : String) (c : Canceller) : CancelPc → Prop
  | .one m => m = l ∧ JInv todo before .enter c.pool ∧ c.pool.cancelRequired = false ∧ 0 < c.pool.still
  | .oneRequest m => m = l ∧ JInv todo before .enter c.pool ∧ (c.pool.cancelRequired = true ∨ 0 < c.pool.still)
  | .oneFlag m => m = l ∧ JInv todo before .enter c.pool ∧ c.pool.cancelRequired = true
  | .oneWait m => m = l ∧ JInv todo before .enter c.pool ∧ c.pool.cancelRequired = true ∧
      ∀ w ∈ c.pool.classes, w.label = l → c.sees w = true → l ∈ c.flagged ∧ w.budget ≤ 1
  | .oneCheck => JInv todo before .enter c.pool ∧ c.pool.cancelRequired = true ∧ Halted l c.pool
  | .join pc => JInv todo before pc c.pool ∧ Still c.pool ∧ pc ≠ .left ∧ c.pool.cancelRequired = true
  | .clear => JInv todo before .left c.pool ∨ (JInv todo before .enter c.pool ∧ 0 < c.pool.still ∧ Halted l c.pool)
  | .returned => (JInv todo before .left c.pool ∨ (JInv todo before .enter c.pool ∧ 0 < c.pool.still ∧ Halted l c.pool)) ∧ c.pool.cancelRequired = false
  | _ => False

structure OneInv (todo before : List String) (l : String) (c : Canceller) : Prop where
  mode : c.pool.mode = .background
  main : c.pool.main = .returned
  joiners : c.pool.joiners = []
  alive : c.pool.terminated = false
  failing : l ∉ c.failing
  at_ : OneAt todo before l c c.pc

theorem Halted.runs {l : String} {s : Pool} (h : Halted l s) : s.runs l = false := by
  simp only [Pool.runs, List.any_eq_false]
  intro c hc
  simp only [decide_eq_true_eq, not_and]
  exact h c hc

/-- a step of a class changes nothing that the cancelling thread relies on -/
theorem OneInv.class_step {todo before : List String} {l m : String} {c : Canceller} {s' : Pool} (h : OneInv todo before l c) (hr : c.pool.runs m = true)
    (hb : ∀ pend, Before todo before pend c.pool → Before todo before pend s') (hf : Pool.Frame c.pool s') (hj : s'.joiners = c.pool.joiners)
    (hst : 0 < c.pool.still → (m = l ∧ c.pool.cancelRequired = true) ∨ 0 < s'.still)
    (hw : ∀ w' ∈ s'.classes, w'.training = true → ∃ w ∈ c.pool.classes, w.label = w'.label ∧ w.training = true ∧ w'.budget ≤ w.budget) :
    OneInv todo before l { c with pool := s' } := by
  obtain ⟨h1, h2, h3, h4, hnf, h5⟩ := h
  have hJ : ∀ pc, JInv todo before pc c.pool → JInv todo before pc s' := fun pc hp => hp.class_step m hr (hb []) hf
  obtain ⟨f1, f2, f3, f4, f5, f6, f7, f8⟩ := hf
  have hH : Halted l c.pool → Halted l s' := by
    intro hh w' hw' hl hrun
    obtain ⟨w, hw1, e1, e2⟩ := f8 w' hw' hrun
    exact hh w hw1 (e1.trans hl) e2
  have hC : (JInv todo before .left c.pool ∨ (JInv todo before .enter c.pool ∧ 0 < c.pool.still ∧ Halted l c.pool)) →
      (JInv todo before .left s' ∨ (JInv todo before .enter s' ∧ 0 < s'.still ∧ Halted l s')) := by
    rintro (h | ⟨g1, g2, g3⟩)
    · exact Or.inl (hJ _ h)
    · refine Or.inr ⟨hJ _ g1, ?_, hH g3⟩
      rcases hst g2 with ⟨rfl, -⟩ | h
      · rw [g3.runs] at hr; simp at hr
      · exact h
  refine ⟨f1.trans h1, f6.trans h2, hj.trans h3, f7.trans h4, hnf, ?_⟩
  show OneAt todo before l { c with pool := s' } c.pc
  cases hpc : c.pc <;> rw [hpc] at h5 <;> simp only [OneAt] at h5 ⊢
  case one k =>
    refine ⟨h5.1, hJ _ h5.2.1, f5.trans h5.2.2.1, ?_⟩
    rcases hst h5.2.2.2 with ⟨-, h⟩ | h
    · rw [h5.2.2.1] at h; simp at h
    · exact h
  case oneRequest k =>
    refine ⟨h5.1, hJ _ h5.2.1, ?_⟩
    rcases h5.2.2 with h | h
    · exact Or.inl (f5.trans h)
    · exact (hst h).imp (fun h => f5.trans h.2) id
  case oneFlag k => exact ⟨h5.1, hJ _ h5.2.1, f5.trans h5.2.2⟩
  case oneWait k =>
    refine ⟨h5.1, hJ _ h5.2.1, f5.trans h5.2.2.1, fun w' hw' hl ht => ?_⟩
    replace ht : (w'.training && !c.failing.contains w'.label) = true := ht
    rw [Bool.and_eq_true] at ht
    obtain ⟨w, hm, e1, e2, e3⟩ := hw w' hw' ht.1
    obtain ⟨g1, g2⟩ := h5.2.2.2 w hm (e1.trans hl) (by simp only [sees, e1, e2, ht.2, Bool.and_self])
    exact ⟨g1, le_trans e3 g2⟩
  case oneCheck => exact ⟨hJ _ h5.1, f5.trans h5.2.1, hH h5.2.2⟩
  case join pc =>
    rw [Pool.not_runs h5.2.1 m] at hr
    simp at hr
  case clear => exact hC h5
  case returned => exact ⟨hC h5.1, f5.trans h5.2⟩

theorem one_step {todo before : List String} {l : String} (hl : l ∈ before) {c c' : Canceller} {a : Act} (h : OneInv todo before l c) (ha : InTimeOne l c a)
    (hs : c.act a = some c') : OneInv todo before l c' := by
  unfold act at hs
  split at hs
  · simp at hs
  cases a with
  | other b =>
    simp only at hs
    split at hs
    · obtain ⟨s', hs', rfl⟩ := Option.map_eq_some_iff.1 hs
      unfold Pool.act at hs'
      rw [h.alive] at hs'
      simp only [Bool.false_eq_true, if_false] at hs'
      cases b with
      | main w => simp [Pool.mainStep, h.main] at hs'
      | joiner i w => simp [Pool.joinerStep, h.joiners] at hs'
      | run m =>
        simp only at hs'
        have hr := Pool.runStep_runs hs'
        have hex : ∃ pend, Before todo before pend c.pool := by
          have h5 := h.at_
          cases hpc : c.pc <;> rw [hpc] at h5 <;> simp only [OneAt] at h5
          case one k => exact ⟨[], h5.2.1.1⟩
          case oneRequest k => exact ⟨[], h5.2.1.1⟩
          case oneFlag k => exact ⟨[], h5.2.1.1⟩
          case oneWait k => exact ⟨[], h5.2.1.1⟩
          case oneCheck => exact ⟨[], h5.1.1⟩
          case join pc => rw [Pool.not_runs h5.2.1 m] at hr; simp at hr
          case clear =>
            rcases h5 with h | h
            · rw [JInv.left_runs h m] at hr; simp at hr
            · exact ⟨[], h.1.1⟩
          case returned =>
            rcases h5.1 with h | h
            · rw [JInv.left_runs h m] at hr; simp at hr
            · exact ⟨[], h.1.1⟩
        obtain ⟨pend, hb⟩ := hex
        obtain ⟨-, hf, hj⟩ := Pool.run_ok hb hs'
        refine h.class_step hr (fun pend hb => (Pool.run_ok hb hs').1) hf hj (fun hp => Or.inr ?_) ?_
        · unfold Pool.runStep at hs'
          split at hs'
          · simp only [Option.some.injEq] at hs'
            subst hs'
            exact hp
          · simp at hs'
        · intro w' hw' ht
          unfold Pool.runStep at hs'
          split at hs'
          · simp only [Option.some.injEq] at hs'
            subst hs'
            obtain ⟨d, hd, ⟨hl, rfl⟩ | ⟨hl, rfl⟩⟩ := Pool.mem_onClass hw'
            · exact ⟨d, hd, rfl, ht, by simp⟩
            · exact ⟨w', hd, rfl, ht, le_refl _⟩
          · simp at hs'
      | final m st =>
        simp only at hs'
        have hor := ha.2.2 m st rfl
        obtain ⟨hr, hst, rfl⟩ := final_closed (hor.symm.imp (fun h => h.2) id) hs'
        have hf : Pool.Frame c.pool (Pool.closed m st c.pool) := by
          refine ⟨rfl, rfl, rfl, rfl, rfl, rfl, rfl, fun c' hc' ht => ?_⟩
          obtain ⟨d, hd, ⟨hl, rfl⟩ | ⟨hl, rfl⟩⟩ := Pool.mem_onClass hc'
          · simp at ht
          · exact ⟨c', hd, rfl, ht⟩
        refine h.class_step hr (fun pend hb => (Pool.closed_ok hb hr hst).1) hf rfl (fun hp => ?_) ?_
        · rcases hor with hor | hor
          · right
            show 0 < c.pool.still - 1
            omega
          · exact Or.inl hor
        · intro w' hw' ht
          obtain ⟨d, hd, ⟨hl, rfl⟩ | ⟨hl, rfl⟩⟩ := Pool.mem_onClass hw'
          · simp at ht
          · exact ⟨w', hd, rfl, ht, le_refl _⟩
    · simp at hs
  | fails m =>
    simp only at hs
    split at hs
    · simp only [Option.some.injEq] at hs
      subst hs
      obtain ⟨h1, h2, h3, h4, hnf, h5⟩ := h
      have hml : l ≠ m := fun he => ha.2.1 (by rw [he])
      refine ⟨h1, h2, h3, h4, by simp [hml, hnf], ?_⟩
      show OneAt todo before l { c with failing := m :: c.failing } c.pc
      cases hpc : c.pc <;> rw [hpc] at h5 <;> simp only [OneAt] at h5 ⊢
      case oneWait k =>
        refine ⟨h5.1, h5.2.1, h5.2.2.1, fun w hw hl ht => h5.2.2.2 w hw hl ?_⟩
        simp only [sees, List.contains_cons, Bool.not_or, Bool.and_eq_true] at ht ⊢
        exact ⟨ht.1, ht.2.2⟩
      all_goals exact h5
    · simp at hs
  | cancel weak =>
    obtain rfl : weak = false := ha.1.1 weak rfl
    simp only [cancelStep] at hs
    obtain ⟨h1, h2, h3, h4, hnf, h5⟩ := h
    cases hpc : c.pc <;> rw [hpc] at h5 hs <;> simp only [OneAt] at h5 <;> simp only at hs
    case one k =>
      obtain ⟨rfl, g1, g2, g3⟩ := h5
      cases hfd : find k c.pool with
      | none => exact absurd (g1.1.labels ▸ hl) (find_none hfd)
      | some w =>
        rw [hfd, g1.2.2.2] at hs
        simp only [Option.isSome_some, Bool.and_self, if_true, Option.some.injEq] at hs
        subst hs
        exact ⟨h1, h2, h3, h4, hnf, rfl, g1, Or.inr g3⟩
    case oneRequest k =>
      simp only [Option.some.injEq] at hs
      subst hs
      exact ⟨h1, h2, h3, h4, hnf, h5.1, JInv.congr h5.2.1 rfl rfl rfl rfl rfl rfl, rfl⟩
    case oneFlag k =>
      obtain ⟨rfl, g1, g3⟩ := h5
      cases hfd : find k c.pool with
      | none => exact absurd (g1.1.labels ▸ hl) (find_none hfd)
      | some w =>
        rw [hfd] at hs
        simp only [Option.some.injEq] at hs
        subst hs
        obtain ⟨hw1, hw2⟩ := find_some hfd
        obtain ⟨e1, e2, e3, e4, e5, -⟩ := flagClass_frame w c
        have hfl : (flagClass w c).failing = c.failing := by unfold flagClass; split <;> rfl
        refine ⟨e1.trans h1, e2.trans h2, e3.trans h3, e4.trans h4, by rw [hfl]; exact hnf, rfl, flagClass_jinv g1, e5.trans g3, fun x hx hl ht => ?_⟩
        show k ∈ (flagClass w c).flagged ∧ _
        replace hx : x ∈ (flagClass w c).pool.classes := hx
        unfold flagClass at hx ⊢
        by_cases hwt : c.sees w = true
        · rw [if_pos hwt] at hx ⊢
          refine ⟨by simp [hw2], ?_⟩
          obtain ⟨d, hd, ⟨hdl, rfl⟩ | ⟨hdl, rfl⟩⟩ := Pool.mem_onClass hx
          · exact Nat.min_le_right _ _
          · exact absurd (hl.trans hw2.symm) hdl
        · rw [if_neg hwt] at hx
          have := g1.1.uniq x hx w hw1 (hl.trans hw2.symm)
          subst this
          refine absurd ?_ hwt
          have ht' : (x.training && !(flagClass x c).failing.contains x.label) = true := ht
          rw [hfl] at ht'
          exact ht'
    case oneWait k =>
      obtain ⟨rfl, g1, g3, -⟩ := h5
      cases hfd : find k c.pool with
      | none => exact absurd (g1.1.labels ▸ hl) (find_none hfd)
      | some w =>
        obtain ⟨hw1, hw2⟩ := find_some hfd
        rw [hfd] at hs
        simp only at hs
        by_cases hse : c.sees w = true
        · rw [if_pos hse] at hs; simp at hs
        · rw [if_neg hse] at hs
          have hwt : ¬ w.training = true := fun h => hse (by simp [sees, h, hw2, hnf])
          simp only [Option.some.injEq] at hs
          subst hs
          refine ⟨h1, h2, h3, h4, hnf, g1, g3, fun x hx hxl hxr => ?_⟩
          have := g1.1.uniq x hx w hw1 (hxl.trans hw2.symm)
          subst this
          cases g1.1.ok x hx with
          | old _ _ _ hn _ => exact hn hxr
          | pending _ _ _ hn _ => exact hn hxr
          | running _ _ ht _ _ _ => exact hwt ht
          | ended _ _ _ hn _ => rw [hn] at hxr; simp at hxr
    case oneCheck =>
      obtain ⟨g1, g2, g3⟩ := h5
      have hcount := g1.1.count
      by_cases hz : c.pool.still = 0
      · rw [if_pos hz] at hs
        simp only [Option.some.injEq] at hs
        subst hs
        refine ⟨h1, h2, h3, h4, hnf, g1, ?_, by simp, g2⟩
        rw [hz] at hcount
        have hz' : c.pool.classes.countP (fun c => decide (c.thread = .running)) = 0 := by exact_mod_cast hcount.symm
        rw [List.countP_eq_zero] at hz'
        intro w hw
        simpa using hz' w hw
      · rw [if_neg hz] at hs
        simp only [Option.some.injEq] at hs
        subst hs
        refine ⟨h1, h2, h3, h4, hnf, Or.inr ⟨g1, ?_, g3⟩⟩
        show 0 < c.pool.still
        omega
    case join pc =>
      obtain ⟨g1, g2, g3, g4⟩ := h5
      cases hst : c.pool.joinStep false pc with
      | none => rw [hst] at hs; simp at hs
      | some r =>
        obtain ⟨pc', s1⟩ := r
        rw [hst] at hs
        obtain ⟨k1, k2, k3, k4, k5, k6⟩ := Pool.joinStep_ok g1 hst
        have k7 := Pool.joinStep_still hst g2
        cases pc' <;> simp only [Option.some.injEq] at hs <;> subst hs
        case left => exact ⟨k4.trans h1, k2.trans h2, k3.trans h3, k6.trans h4, hnf, Or.inl k1⟩
        case failed => exact k1.elim
        all_goals exact ⟨k4.trans h1, k2.trans h2, k3.trans h3, k6.trans h4, hnf, k1, k7, by simp, k5.trans g4⟩
    case clear =>
      simp only [Option.some.injEq] at hs
      subst hs
      refine ⟨h1, h2, h3, h4, hnf, ?_, rfl⟩
      rcases h5 with g | ⟨g1, g2⟩
      · exact Or.inl (JInv.congr g rfl rfl rfl rfl rfl rfl)
      · exact Or.inr ⟨JInv.congr g1 rfl rfl rfl rfl rfl rfl, g2⟩
    case returned => simp at hs

theorem one_start {todo before : List String} {l : String} {s : Pool} (h : Pool.BInv todo before s) (hm : s.main = .returned) (hr : ∃ w ∈ s.classes, w.thread = .running) :
    OneInv todo before l (callsOne l s) := by
  obtain ⟨h1, h2⟩ := BInv.running h hm hr
  exact ⟨h.mode, hm, h2, h.alive, by simp [callsOne], rfl, h1, h.cancel, still_pos h1.1 hr⟩

theorem one_reach {todo before : List String} {l : String} (hl : l ∈ before) {c₀ c : Canceller} (h0 : OneInv todo before l c₀) (h : Reach (InTimeOne l) c₀ c) :
    OneInv todo before l c := by
  induction h with
  | refl => exact h0
  | step _ ha hs ih => exact one_step hl ih ha hs

/-- unless the call has returned, some thread can take a step -/
theorem OneInv.progress {todo before : List String} {l : String} (hl : l ∈ before) {c : Canceller} (h : OneInv todo before l c) :
    c.pc = .returned ∨ ∃ a c', InTimeOne l c a ∧ c.act a = some c' := by
  obtain ⟨h1, h2, h3, h4, hnf, h5⟩ := h
  have hcan : ∀ c', c.pc ≠ .undefined → c.cancelStep false = some c' → ∃ a c', InTimeOne l c a ∧ c.act a = some c' := by
    intro c' hu hc
    exact ⟨.cancel false, c', ⟨⟨fun w h => by simpa using h.symm, fun b h => by simp at h⟩, by simp, fun l st h => by simp at h⟩, by simp [act, h4, hu, hc]⟩
  cases hpc : c.pc <;> rw [hpc] at h5 <;> simp only [OneAt] at h5
  case returned => exact Or.inl rfl
  case one k =>
    right
    by_cases hb : (c.pool.isTraining && (find k c.pool).isSome) = true
    · exact hcan { c with pc := .oneRequest k } (by simp [hpc]) (by simp only [cancelStep, hpc, hb, if_true])
    · exact hcan { c with pc := .clear } (by simp [hpc]) (by simp only [cancelStep, hpc, hb]; rfl)
  case oneRequest k => exact Or.inr (hcan _ (by simp [hpc]) (by simp only [cancelStep, hpc]; rfl))
  case oneFlag k =>
    right
    obtain ⟨rfl, g1, -⟩ := h5
    cases hfd : find k c.pool with
    | none => exact absurd (g1.1.labels ▸ hl) (find_none hfd)
    | some w => exact hcan { flagClass w c with pc := .oneWait k } (by simp [hpc]) (by simp [cancelStep, hpc, hfd])
  case oneWait k =>
    right
    obtain ⟨rfl, g1, g2, -⟩ := h5
    cases hfd : find k c.pool with
    | none => exact absurd (g1.1.labels ▸ hl) (find_none hfd)
    | some w =>
      obtain ⟨hw1, hw2⟩ := find_some hfd
      by_cases hse : c.sees w = true
      · have hwt : w.training = true := by
          simp only [sees, Bool.and_eq_true] at hse
          exact hse.1
        have hwr : w.thread = .running := by
          cases g1.1.ok w hw1 with
          | old _ _ ht _ _ => rw [ht] at hwt; simp at hwt
          | pending _ _ ht _ _ => rw [ht] at hwt; simp at hwt
          | running _ _ _ hr _ _ => exact hr
          | ended _ _ ht _ _ => rw [ht] at hwt; simp at hwt
        have hrun : c.pool.runs k = true := List.any_eq_true.2 ⟨w, hw1, by simp [hwr, hw2]⟩
        obtain ⟨s', hs'⟩ : ∃ s', c.pool.finalStep k .done = some s' := by
          rw [Pool.finalStep_eq, if_pos (by simp [hrun])]
          split <;> exact ⟨_, rfl⟩
        refine ⟨.other (.final k .done), { c with pool := s' }, ⟨⟨fun w h => by simp at h, fun b h => ?_⟩, by simp, fun m st h => ?_⟩, by simp [act, h4, hpc, allowed, Pool.act, hs', hnf]⟩
        · simp only [Act.other.injEq] at h; subst h; exact ⟨fun w h => by simp at h, fun i w h => by simp at h⟩
        · simp only [Act.other.injEq, Pool.Act.final.injEq] at h
          exact Or.inr ⟨h.1.symm, g2⟩
      · exact hcan { c with pc := .oneCheck } (by simp [hpc]) (by simp [cancelStep, hpc, hfd, hse])
  case oneCheck =>
    right
    by_cases hz : c.pool.still = 0
    · exact hcan { c with pc := .join .enter } (by simp [hpc]) (by simp [cancelStep, hpc, hz])
    · exact hcan { c with pc := .clear } (by simp [hpc]) (by simp [cancelStep, hpc, hz])
  case clear => exact Or.inr (hcan _ (by simp [hpc]) (by simp only [cancelStep, hpc]; rfl))
  case join pc =>
    right
    obtain ⟨g1, g2, g3, g4⟩ := h5
    have hj : ∀ r, c.pool.joinStep false pc = some r → ∃ a c', InTimeOne l c a ∧ c.act a = some c' := by
      rintro ⟨pc', s1⟩ hr
      cases pc'
      case left => exact hcan { c with pool := s1, pc := .clear } (by simp [hpc]) (by simp only [cancelStep, hpc, hr])
      case failed => exact hcan { c with pool := s1, pc := .threw } (by simp [hpc]) (by simp only [cancelStep, hpc, hr])
      all_goals exact hcan _ (by simp [hpc]) (by simp only [cancelStep, hpc, hr]; rfl)
    cases pc with
    | enter => exact hj (.join, { c.pool with isJoining := true }) (by simp [Pool.joinStep, g1.2.2.1, g1.2.2.2])
    | join =>
      cases hh : c.pool.handles with
      | nil => exact hj (.sweep, c.pool) (by simp [Pool.joinStep, hh])
      | cons l t =>
        have hq : c.pool.quiet l = true := by
          simp only [Pool.quiet, List.all_eq_true]
          intro w hw
          simp [g2 w hw]
        exact hj (.join, { c.pool with handles := t }) (by simp [Pool.joinStep, hh, hq])
    | sweep => exact hj _ rfl
    | unjoin => exact hj _ rfl
    | untrain => exact hj _ rfl
    | reset =>
      by_cases hc : (c.pool.isTraining || c.pool.classes.any (·.training)) = true
      · exact hj (.failed, c.pool) (by simp only [Pool.joinStep, hc, if_true])
      · exact hj (.alldone, c.pool) (by simp only [Pool.joinStep, hc]; rfl)
    | alldone => exact hj _ rfl
    | left => exact absurd rfl g3
    | wait => exact g1.elim
    | failed => exact g1.elim

/-- **C88**: every step of such an execution of `cancelTraining(l)` decreases a bound, so the call ends. -/
theorem C88_label_decreases {todo before : List String} {l : String} (hl : l ∈ before) {c c' : Canceller} {a : Act} (h : OneInv todo before l c)
    (hn : c.pool.labels.Nodup) (ha : InTimeOne l c a) (hs : c.act a = some c') : bound before c' < bound before c := by
  cases a with
  | other b => exact (bound_other hn h.main h.joiners (by simp) hs).1
  | fails l => exact (bound_other hn h.main h.joiners (by simp) hs).1
  | cancel weak =>
    obtain rfl : weak = false := ha.1.1 weak rfl
    unfold act at hs
    split at hs
    · simp at hs
    simp only at hs
    obtain ⟨h1, h2, h3, h4, hnf, h5⟩ := h
    have hb := bound_pc before c c.pool.cancelRequired
    cases hpc : c.pc <;> rw [hpc] at h5 <;> simp only [OneAt] at h5
    case join pc => exact (bound_join hpc hs).1
    all_goals simp only [cancelStep, hpc] at hs
    case one k =>
      split at hs <;> simp only [Option.some.injEq] at hs <;> subst hs <;> refine hb _ ?_ <;> simp only [rank, hpc] <;> omega
    case oneRequest k =>
      simp only [Option.some.injEq] at hs
      subst hs
      exact bound_pc before c true (.oneFlag k) (by simp only [rank, hpc]; omega)
    case oneFlag k =>
      cases hfd : find k c.pool with
      | none => exact absurd (h5.2.1.1.labels ▸ h5.1 ▸ hl) (find_none hfd)
      | some w =>
        rw [hfd] at hs
        simp only [Option.some.injEq] at hs
        subst hs
        exact flagClass_bound before w c (.oneWait k) (by simp only [rank, hpc]; omega)
    case oneWait k =>
      cases hfd : find k c.pool with
      | none => exact absurd (h5.2.1.1.labels ▸ h5.1 ▸ hl) (find_none hfd)
      | some w =>
        rw [hfd] at hs
        simp only at hs
        split at hs
        · simp at hs
        · simp only [Option.some.injEq] at hs
          subst hs
          exact hb _ (by simp only [rank, hpc]; omega)
    case oneCheck =>
      split at hs <;> simp only [Option.some.injEq] at hs <;> subst hs <;> refine hb _ ?_ <;> simp only [rank, JoinPc.rank, hpc] <;> omega
    case clear =>
      simp only [Option.some.injEq] at hs
      subst hs
      exact bound_pc before c false .returned (by simp only [rank, hpc]; omega)
    case returned => simp at hs

/-- from a state of the mode Background, the training can be executed to its end -/
theorem background_ends {todo before : List String} (hnd : todo.Nodup) (hne : todo ≠ []) {s : Pool} (h : Pool.BInv todo before s) (hn : s.labels.Nodup) :
    ∃ s', Pool.Reach Late s s' ∧ Completed todo before s' := by
  have hall : ∀ t, Pool.Reach Late s t → Pool.BInv todo before t := by
    intro t ht
    induction ht with
    | refl => exact h
    | step _ ha hs ih => exact Pool.background_inv hnd hne ih ha hs
  obtain ⟨s', h1, -, h3⟩ := Pool.reach_end (ok := Late) (s₀ := s) (fun t => Completed todo before t) hn
    (fun t ht => (hall t ht).progress.2.2.imp (fun h => h.2) id) .refl
  exact ⟨s', h1, h3⟩

/-- **C88** (`cancelTraining(l)`, mode Background), for every interleaving in which no class ends as the last one in training during the call, except the class `l` after the
    request, and `l` does not fail: the call uses no class that was removed, throws nothing, does not hang; when it returns, the class `l` has had its outcome, and either the training is complete,
    or other classes are still in training and their training can be executed to its end. -/
theorem C88_label_partial {todo : List String} (hne : todo ≠ []) {s₀ s : Pool} (h0 : Begins todo s₀) (hp : s₀.mode = .background) (h : Pool.Reach Late s₀ s)
    (hm : s.main = .returned) (hr : ∃ w ∈ s.classes, w.thread = .running) {l : String} (hl : l ∈ todo) {c : Canceller} (hc : Reach (InTimeOne l) (callsOne l s) c) :
    c.pc ≠ .undefined ∧ c.pc ≠ .threw ∧ c.pool.terminated = false ∧
    (c.pc = .returned ∨ ∃ a c', InTimeOne l c a ∧ c.act a = some c') ∧
    (c.pc = .returned → c.pool.cancelRequired = false ∧ (∃ st, Outcome c.pool.events l st) ∧
      (Completed todo s₀.labels c.pool ∨
        ((∃ w ∈ c.pool.classes, w.thread = .running) ∧ ∃ s', Pool.Reach Late c.pool s' ∧ Completed todo s₀.labels s'))) := by
  have hlb : l ∈ s₀.labels := h0.known l hl
  have hi := one_reach hlb (one_start (Pool.background_reach hne h0 hp h) hm hr) hc
  have hat := hi.at_
  refine ⟨fun hu => ?_, fun hu => ?_, hi.alive, hi.progress hlb, fun hu => ?_⟩
  · rw [hu] at hat; exact hat
  · rw [hu] at hat; exact hat
  · rw [hu] at hat
    obtain ⟨h1 | ⟨g1, g2, g3⟩, h2⟩ := hat
    · have hcm := Pool.JInv.completed h1 hi.joiners
      obtain ⟨st, ho, -⟩ := hcm.outcomes l hl
      exact ⟨h2, ⟨st, ho⟩, Or.inl hcm⟩
    · have hrun : ∃ w ∈ c.pool.classes, w.thread = .running := by
        have hcount := g1.1.count
        rw [hcount] at g2
        have g2' : 0 < c.pool.classes.countP (fun c => decide (c.thread = .running)) := by exact_mod_cast g2
        obtain ⟨w, hw, hwr⟩ := List.countP_pos_iff.1 g2'
        exact ⟨w, hw, by simpa using hwr⟩
      refine ⟨h2, ?_, Or.inr ⟨hrun, ?_⟩⟩
      · have hlb' := hlb
        rw [← g1.1.labels] at hlb'
        obtain ⟨w, hw, rfl⟩ := List.mem_map.1 hlb'
        cases g1.1.ok w hw with
        | old hh _ _ _ _ => exact absurd hl hh
        | pending _ hh _ _ _ => simp at hh
        | running _ _ _ hh _ _ => exact absurd hh (g3 w hw rfl)
        | ended _ _ _ _ ho => exact ⟨_, ho⟩
      · refine background_ends h0.todoNodup hne ⟨hi.mode, hi.alive, h2, ?_⟩ (by rw [g1.1.labels]; exact g1.1.nodup)
        rw [hi.main]
        exact Or.inl ⟨g1, hi.joiners, hrun⟩

/-- the hypotheses of `C88_label_partial` are met: the class `a` is cancelled and the class `b` goes on -/
example : ∃ c, Reach (InTimeOne "a") (callsOne "a" (training ["a", "b"])) c ∧ c.pc = .returned ∧ c.pool.events = [(some "a", .cancel)] ∧
    ∃ w ∈ c.pool.classes, w.label = "b" ∧ w.thread = .running := by
  have hcs : ∀ c, InTimeOne "a" c (.cancel false) := fun c => ⟨⟨fun w h => by simpa using h.symm, fun b h => by simp at h⟩, by simp, fun l st h => by simp at h⟩
  have go : ∀ (n : Nat) (c c' : Canceller), acts (List.replicate n (.cancel false)) c = some c' → Reach (InTimeOne "a") c c' := by
    intro n
    induction n with
    | zero => intro c c' h; simp only [List.replicate, acts, Option.some.injEq] at h; exact h ▸ .refl
    | succ n ih =>
      intro c c' h
      simp only [List.replicate, acts, Option.bind_eq_some_iff] at h
      obtain ⟨d, h1, h2⟩ := h
      exact reach_trans (.step .refl (hcs c) h1) (ih d c' h2)
  obtain ⟨c1, h1⟩ : ∃ c, acts (List.replicate 3 (.cancel false)) (callsOne "a" (training ["a", "b"])) = some c := Option.isSome_iff_exists.1 (by decide +kernel)
  have hk1 : ((acts (List.replicate 3 (.cancel false)) (callsOne "a" (training ["a", "b"]))).map fun c => decide (1 < c.pool.still)) = some true := by decide +kernel
  have hk2 : ((acts (List.replicate 3 (.cancel false)) (callsOne "a" (training ["a", "b"]))).bind fun c => (c.act (.other (.final "a" .cancel))).bind fun d =>
      (acts (List.replicate 3 (.cancel false)) d).map fun e => decide (e.pc = .returned ∧ e.pool.events = [(some "a", .cancel)] ∧
        ∃ w ∈ e.pool.classes, w.label = "b" ∧ w.thread = .running)) = some true := by decide +kernel
  rw [h1] at hk1 hk2
  simp only [Option.map_some, Option.some.injEq, decide_eq_true_eq, Option.bind_some] at hk1 hk2
  cases h2 : c1.act (.other (.final "a" .cancel)) with
  | none => rw [h2] at hk2; simp at hk2
  | some c2 =>
    rw [h2] at hk2
    simp only [Option.bind_some] at hk2
    cases h3 : acts (List.replicate 3 (.cancel false)) c2 with
    | none => rw [h3] at hk2; simp at hk2
    | some c3 =>
      rw [h3] at hk2
      simp only [Option.map_some, Option.some.injEq, decide_eq_true_eq] at hk2
      refine ⟨c3, reach_trans (.step (go 3 _ _ h1) ⟨⟨fun w h => by simp at h, fun b h => ?_⟩, by simp, fun m st h => Or.inl hk1⟩ h2) (go 3 _ _ h3), hk2⟩
      simp only [Act.other.injEq] at h; subst h; exact ⟨fun w h => by simp at h, fun i w h => by simp at h⟩

end Canceller
end Xmm
