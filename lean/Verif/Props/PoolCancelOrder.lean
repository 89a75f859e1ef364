import Verif.Props.PoolCancelOne
/- C88: in which order the classes are cancelled, and who notifies Cancel and Error. -/
namespace Xmm
namespace Canceller
open Pool (Begins Late Completed JInv Before)

/-! ### One class after the other -/

theorem tailFrom_next {l m : String} {ls : List String} (hn : ls.Nodup) (h : succ l ls = some m) : tailFrom l ls = l :: tailFrom m ls := by
  induction ls with
  | nil => simp [succ, tailFrom] at h
  | cons a t ih =>
    obtain ⟨ha, ht⟩ := List.nodup_cons.1 hn
    by_cases hl : a = l
    · subst hl
      simp only [succ, tailFrom, if_true, List.tail_cons] at h
      have hm : m ∈ t := List.mem_of_mem_head? h
      have hne : a ≠ m := fun he => ha (he ▸ hm)
      cases t with
      | nil => simp at h
      | cons b u =>
        simp only [List.head?_cons, Option.some.injEq] at h
        subst h
        simp [tailFrom, hne]
    · have h' : succ l t = some m := by simpa [succ, tailFrom, hl] using h
      have hm : m ∈ t := succ_mem h'
      have hne : a ≠ m := fun he => ha (he ▸ hm)
      simp only [tailFrom, hl, hne, if_false]
      exact ih ht h'

/-- the classes that the loop has passed are not in training -/
def Past (before : List String) (c : Canceller) : CancelPc → Prop
  | .request l | .flag l | .wait l => ∀ w ∈ c.pool.classes, w.label ∉ tailFrom l before → c.sees w = false
  | .join _ | .clear | .returned => ∀ w ∈ c.pool.classes, c.sees w = false
  | _ => True

/-- no class of `c'` is in training that was not in training in `c` -/
def Calmer (c c' : Canceller) : Prop := ∀ w' ∈ c'.pool.classes, c'.sees w' = true → ∃ w ∈ c.pool.classes, w.label = w'.label ∧ c.sees w = true

theorem Past.calmer {before : List String} {c c' : Canceller} {pc : CancelPc} (h : Past before c pc) (hc : Calmer c c') : Past before c' pc := by
  have h1 : (∀ w ∈ c.pool.classes, c.sees w = false) → ∀ w ∈ c'.pool.classes, c'.sees w = false := fun h w' hw' => by
    by_contra hs
    obtain ⟨w, hw, -, hs'⟩ := hc w' hw' (by simpa using hs)
    rw [h w hw] at hs'
    cases hs'
  have h2 : ∀ l, (∀ w ∈ c.pool.classes, w.label ∉ tailFrom l before → c.sees w = false) → ∀ w ∈ c'.pool.classes, w.label ∉ tailFrom l before → c'.sees w = false := fun l h w' hw' hl => by
    by_contra hs
    obtain ⟨w, hw, e, hs'⟩ := hc w' hw' (by simpa using hs)
    rw [h w hw (by rw [e]; exact hl)] at hs'
    cases hs'
  cases pc
  case request l => exact h2 l h
  case flag l => exact h2 l h
  case wait l => exact h2 l h
  case join pc => exact h1 h
  case clear => exact h1 h
  case returned => exact h1 h
  all_goals trivial

theorem calmer_onClass {c : Canceller} (s : Pool) (l : String) (f : Worker → Worker) (hs : s.classes = (c.pool.onClass l f).classes)
    (hf : ∀ w, (f w).label = w.label ∧ ((f w).training = true → w.training = true)) (p : CancelPc) (fl : List String) : Calmer c ⟨s, p, fl, c.failing⟩ := by
  intro w' hw' hse
  rw [hs] at hw'
  simp only [sees, Bool.and_eq_true] at hse
  obtain ⟨d, hd, ⟨-, rfl⟩ | ⟨-, rfl⟩⟩ := Pool.mem_onClass hw'
  · refine ⟨d, hd, (hf d).1.symm, ?_⟩
    simp only [sees, Bool.and_eq_true]
    exact ⟨(hf d).2 hse.1, by rw [← (hf d).1]; exact hse.2⟩
  · exact ⟨w', hd, rfl, by simpa only [sees, Bool.and_eq_true] using hse⟩

theorem calmer_sub {c : Canceller} (s : Pool) (hs : ∀ w ∈ s.classes, w ∈ c.pool.classes) (p : CancelPc) (fl : List String) : Calmer c ⟨s, p, fl, c.failing⟩ :=
  fun w hw hse => ⟨w, hs w hw, rfl, hse⟩

theorem joinStep_sub {weak : Bool} {pc pc' : JoinPc} {s s' : Pool} (hs : s.joinStep weak pc = some (pc', s')) : ∀ w ∈ s'.classes, w ∈ s.classes := by
  intro w hw
  unfold Pool.joinStep at hs
  cases pc <;> simp only at hs
  case sweep =>
    simp only [Option.some.injEq, Prod.mk.injEq] at hs
    rw [← hs.2] at hw
    exact List.mem_of_mem_filter hw
  all_goals
    repeat' split at hs
    all_goals first
      | (simp only [Option.some.injEq, Prod.mk.injEq] at hs; rw [← hs.2] at hw; exact hw)
      | (cases hs)

theorem calmer_other {c c' : Canceller} {a : Act} (hm : c.pool.main = .returned) (hj : c.pool.joiners = []) (ha : ∀ w, a ≠ .cancel w) (hs : c.act a = some c') :
    Calmer c c' ∧ c'.pc = c.pc := by
  unfold act at hs
  split at hs
  · simp at hs
  cases a with
  | other b =>
    simp only at hs
    split at hs
    · obtain ⟨s', hs', rfl⟩ := Option.map_eq_some_iff.1 hs
      refine ⟨?_, rfl⟩
      unfold Pool.act at hs'
      split at hs'
      · simp at hs'
      cases b with
      | main w => simp [Pool.mainStep, hm] at hs'
      | joiner i w => simp [Pool.joinerStep, hj] at hs'
      | run l =>
        simp only [Pool.runStep] at hs'
        split at hs'
        · simp only [Option.some.injEq] at hs'
          exact calmer_onClass s' l (fun c => { c with budget := c.budget - 1 }) (by rw [← hs']) (fun w => ⟨rfl, id⟩) _ _
        · simp at hs'
      | final l st =>
        simp only at hs'
        obtain ⟨hr, hst⟩ := Pool.finalStep_runs hs'
        rw [Pool.finalStep_eq, if_pos (by simp [hr, hst])] at hs'
        refine calmer_onClass s' l (fun c => { c with status := st, training := false, thread := .ended }) ?_ (fun w => ⟨rfl, fun h => by cases h⟩) _ _
        split at hs' <;> simp only [Option.some.injEq] at hs' <;> rw [← hs'] <;> rfl
    · simp at hs
  | fails l =>
    simp only at hs
    split at hs
    · simp only [Option.some.injEq] at hs
      subst hs
      refine ⟨fun w hw hse => ⟨w, hw, rfl, ?_⟩, rfl⟩
      simp only [sees, List.contains_cons, Bool.not_or, Bool.and_eq_true] at hse ⊢
      exact ⟨hse.1, hse.2.2⟩
    · simp at hs
  | cancel w => exact absurd rfl (ha w)

theorem flagClass_calmer (w : Worker) (c : Canceller) (p : CancelPc) : Calmer c { flagClass w c with pc := p } := by
  unfold flagClass
  split
  · exact calmer_onClass _ w.label (fun x => { x with budget := min x.budget 1 }) rfl (fun w => ⟨rfl, id⟩) _ _
  · exact fun w hw hse => ⟨w, hw, rfl, hse⟩

theorem past_step {todo before : List String} {c c' : Canceller} {a : Act} (hn : before.Nodup) (h : Inv todo before c) (hp : Past before c c.pc)
    (hs : c.act a = some c') : Past before c' c'.pc := by
  by_cases hca : ∀ w, a ≠ .cancel w
  · obtain ⟨h1, h2⟩ := calmer_other h.main h.joiners hca hs
    rw [h2]
    exact hp.calmer h1
  · push Not at hca
    obtain ⟨weak, rfl⟩ := hca
    unfold act at hs
    split at hs
    · simp at hs
    simp only [cancelStep] at hs
    obtain ⟨-, -, -, -, h5⟩ := h
    cases hpc : c.pc <;> rw [hpc] at h5 hs hp <;> simp only [At] at h5 <;> simp only at hs
    case enter =>
      obtain ⟨g1, -, -⟩ := h5
      rw [g1.2.2.2] at hs
      simp only [if_true] at hs
      cases hcl : c.pool.classes with
      | nil =>
        rw [hcl] at hs
        simp only [Option.some.injEq] at hs
        subst hs
        intro w hw
        replace hw : w ∈ c.pool.classes := hw
        rw [hcl] at hw
        cases hw
      | cons w t =>
        rw [hcl] at hs
        simp only [Option.some.injEq] at hs
        subst hs
        intro x hx hl
        replace hx : x ∈ c.pool.classes := hx
        have hb : before = w.label :: t.map (·.label) := by
          rw [← g1.1.labels, Pool.labels, hcl]
          rfl
        have : tailFrom w.label before = before := by
          rw [hb]
          simp [tailFrom]
        rw [this, ← g1.1.labels] at hl
        exact absurd (List.mem_map_of_mem hx) hl
    case request l =>
      simp only [Option.some.injEq] at hs
      subst hs
      exact hp
    case flag l =>
      obtain ⟨g1, g2, g3⟩ := h5
      cases hfd : find l c.pool with
      | none => exact absurd (g1.1.labels ▸ g2) (find_none hfd)
      | some w =>
        rw [hfd] at hs
        simp only [Option.some.injEq] at hs
        subst hs
        exact Past.calmer (pc := .wait l) hp (flagClass_calmer w c (.wait l))
    case wait l =>
      obtain ⟨g1, g2, g3, -⟩ := h5
      cases hfd : find l c.pool with
      | none => exact absurd (g1.1.labels ▸ g2) (find_none hfd)
      | some w =>
        rw [hfd] at hs
        simp only at hs
        split at hs
        · simp at hs
        · rename_i hse
          have hlab : c.pool.classes.map (·.label) = before := g1.1.labels
          rw [hlab] at hs
          obtain ⟨hw1, hw2⟩ := find_some hfd
          have hw : ∀ x ∈ c.pool.classes, x.label = l → c.sees x = false := fun x hx hl => by
            rw [g1.1.uniq x hx w hw1 (hl.trans hw2.symm)]
            simpa using hse
          cases hsc : succ l before with
          | none =>
            rw [hsc] at hs
            simp only [Option.some.injEq] at hs
            subst hs
            intro x hx
            replace hx : x ∈ c.pool.classes := hx
            show c.sees x = false
            by_cases hl : x.label = l
            · exact hw x hx hl
            · refine hp x hx ?_
              obtain ⟨t, ht⟩ := tailFrom_self g2
              rw [ht]
              have : t = [] := by
                have := hsc
                unfold succ at this
                rw [ht, List.tail_cons, List.head?_eq_none_iff] at this
                exact this
              rw [this]
              simpa using hl
          | some m =>
            rw [hsc] at hs
            simp only [Option.some.injEq] at hs
            subst hs
            intro x hx hm
            replace hx : x ∈ c.pool.classes := hx
            show c.sees x = false
            by_cases hl : x.label = l
            · exact hw x hx hl
            · refine hp x hx ?_
              rw [tailFrom_next hn hsc, List.mem_cons]
              exact fun h => h.elim hl hm
    case join pc =>
      cases hst : c.pool.joinStep weak pc with
      | none => rw [hst] at hs; simp at hs
      | some r =>
        obtain ⟨pc', s1⟩ := r
        rw [hst] at hs
        have hsub := joinStep_sub hst
        have hp' : ∀ p, Past before ⟨s1, p, c.flagged, c.failing⟩ (.join pc) := fun p => Past.calmer hp (calmer_sub s1 hsub p c.flagged)
        cases pc' <;> simp only [Option.some.injEq] at hs <;> subst hs
        case failed => trivial
        all_goals exact hp' _
    case clear =>
      simp only [Option.some.injEq] at hs
      subst hs
      exact hp
    case returned => simp at hs

/-- **C88**: `cancelTraining()` cancels the classes one after the other in the order of their labels, and waits for each: when it comes to a class, no class before it is in
    training any more, and when it begins to join the threads, none is.  (Same conditions as `C88_background_partial`.) -/
theorem C88_waits {todo : List String} (hne : todo ≠ []) {s₀ s : Pool} (h0 : Begins todo s₀) (hp : s₀.mode = .background) (h : Pool.Reach Late s₀ s)
    (hm : s.main = .returned) (hr : ∃ w ∈ s.classes, w.thread = .running) {c : Canceller} (hc : Reach InTime (calls s) c) :
    (∀ w xs ys, c.pc = .request w.label ∨ c.pc = .flag w.label ∨ c.pc = .wait w.label → c.pool.classes = xs ++ w :: ys → ∀ x ∈ xs, c.sees x = false) ∧
    ((∃ pc, c.pc = .join pc) ∨ c.pc = .clear ∨ c.pc = .returned → ∀ x ∈ c.pool.classes, c.sees x = false) := by
  have hb := inv_start (Pool.background_reach hne h0 hp h) hm hr
  have hn : s₀.labels.Nodup := h0.labelsNodup
  have key : Inv todo s₀.labels c ∧ Past s₀.labels c c.pc := by
    induction hc with
    | refl => exact ⟨hb, trivial⟩
    | step _ ha hs ih => exact ⟨inv_step hne ih.1 ha hs, past_step hn ih.1 ih.2 hs⟩
  obtain ⟨hi, hpast⟩ := key
  refine ⟨fun w xs ys hpc hcl x hx => ?_, fun hpc => ?_⟩
  · have hat := hi.at_
    have hlab : c.pool.labels = s₀.labels := by
      rcases hpc with e | e | e <;> rw [e] at hat <;> exact hat.1.1.labels
    have hno : x.label ∉ tailFrom w.label s₀.labels := by
      have hl : s₀.labels = xs.map (·.label) ++ w.label :: ys.map (·.label) := by
        rw [← hlab, Pool.labels, hcl]
        simp
      rw [hl] at hn ⊢
      have hd := List.nodup_append.1 hn
      have ht : ∀ zs : List String, w.label ∉ zs → tailFrom w.label (zs ++ w.label :: ys.map (·.label)) = w.label :: ys.map (·.label) := by
        intro zs
        induction zs with
        | nil => intro _; simp [tailFrom]
        | cons z zs ih =>
          intro hz
          simp only [List.mem_cons, not_or] at hz
          simp only [List.cons_append, tailFrom, if_neg (Ne.symm hz.1)]
          exact ih hz.2
      rw [ht _ fun hz => hd.2.2 _ hz _ List.mem_cons_self rfl]
      exact fun hz => hd.2.2 _ (List.mem_map_of_mem hx) _ hz rfl
    have hx' : x ∈ c.pool.classes := by rw [hcl]; exact List.mem_append_left _ hx
    rcases hpc with e | e | e <;> rw [e] at hpast <;> exact hpast x hx' hno
  · rcases hpc with ⟨pc, e⟩ | e | e <;> rw [e] at hpast <;> exact hpast

/-! ### Causes of the events Cancel and Error -/

theorem acts_append (as bs : List Act) (c : Canceller) : acts (as ++ bs) c = (acts as c).bind (acts bs) := by
  induction as generalizing c with
  | nil => rfl
  | cons a as ih =>
    simp only [List.cons_append, acts]
    cases c.act a with
    | none => rfl
    | some c1 => exact ih c1

theorem flagClass_flagged (w : Worker) (c : Canceller) : ((flagClass w c).flagged = c.flagged ∨ (flagClass w c).flagged = w.label :: c.flagged) ∧
    (flagClass w c).failing = c.failing := by
  unfold flagClass
  split
  · exact ⟨Or.inr rfl, rfl⟩
  · exact ⟨Or.inl rfl, rfl⟩

/-- a step changes the flags only where `cancelTraining` sets them, and the failures only where a class fails -/
theorem act_marks {c c' : Canceller} {a : Act} (hs : c.act a = some c') :
    (c'.flagged = c.flagged ∨ ∃ w l, a = .cancel w ∧ (c.pc = .flag l ∨ c.pc = .oneFlag l) ∧ c'.flagged = l :: c.flagged) ∧
    (c'.failing = c.failing ∨ ∃ l, a = .fails l ∧ c'.failing = l :: c.failing) := by
  unfold act at hs
  split at hs
  · simp at hs
  cases a with
  | other b =>
    simp only at hs
    split at hs
    · obtain ⟨s', hs', rfl⟩ := Option.map_eq_some_iff.1 hs
      exact ⟨Or.inl rfl, Or.inl rfl⟩
    · simp at hs
  | fails l =>
    simp only at hs
    split at hs
    · simp only [Option.some.injEq] at hs
      subst hs
      exact ⟨Or.inl rfl, Or.inr ⟨l, rfl, rfl⟩⟩
    · simp at hs
  | cancel weak =>
    simp only [cancelStep] at hs
    have hfl : ∀ l w p, find l c.pool = some w → (c.pc = .flag l ∨ c.pc = .oneFlag l) → some { flagClass w c with pc := p } = some c' →
        (c'.flagged = c.flagged ∨ ∃ w l, Act.cancel weak = .cancel w ∧ (c.pc = .flag l ∨ c.pc = .oneFlag l) ∧ c'.flagged = l :: c.flagged) ∧ c'.failing = c.failing := by
      intro l w p hfd hpc e
      simp only [Option.some.injEq] at e
      subst e
      obtain ⟨h1, h2⟩ := flagClass_flagged w c
      refine ⟨h1.imp id fun h => ⟨weak, l, rfl, hpc, ?_⟩, h2⟩
      rw [← (find_some hfd).2]
      exact h
    cases hpc : c.pc <;> rw [hpc] at hs <;> simp only at hs
    case flag l =>
      cases hfd : find l c.pool with
      | none =>
        rw [hfd] at hs
        simp only [Option.some.injEq] at hs
        subst hs
        exact ⟨Or.inl rfl, Or.inl rfl⟩
      | some w =>
        rw [hfd] at hs
        obtain ⟨h1, h2⟩ := hfl l w _ hfd (Or.inl hpc) hs
        rw [hpc] at h1
        exact ⟨h1, Or.inl h2⟩
    case oneFlag l =>
      cases hfd : find l c.pool with
      | none =>
        rw [hfd] at hs
        simp only [Option.some.injEq] at hs
        subst hs
        exact ⟨Or.inl rfl, Or.inl rfl⟩
      | some w =>
        rw [hfd] at hs
        obtain ⟨h1, h2⟩ := hfl l w _ hfd (Or.inr hpc) hs
        rw [hpc] at h1
        exact ⟨h1, Or.inl h2⟩
    all_goals
      repeat' split at hs
      all_goals first
        | (simp only [Option.some.injEq] at hs; subst hs; exact ⟨Or.inl rfl, Or.inl rfl⟩)
        | (cases hs)

theorem acts_marks {c₀ c : Canceller} (h1 : c₀.flagged = []) (h2 : c₀.failing = []) (as : List Act) (h : acts as c₀ = some c) :
    (∀ l ∈ c.flagged, ∃ bs w cs c1, as = bs ++ .cancel w :: cs ∧ acts bs c₀ = some c1 ∧ (c1.pc = .flag l ∨ c1.pc = .oneFlag l)) ∧ ∀ l ∈ c.failing, Act.fails l ∈ as := by
  induction as using List.reverseRecOn generalizing c with
  | nil =>
    simp only [acts, Option.some.injEq] at h
    subst h
    rw [h1, h2]
    exact ⟨by simp, by simp⟩
  | append_singleton as a ih =>
    rw [acts_append] at h
    cases e : acts as c₀ with
    | none => rw [e] at h; cases h
    | some c1 =>
      rw [e] at h
      simp only [Option.bind_some, acts] at h
      cases e2 : c1.act a with
      | none => rw [e2] at h; cases h
      | some c2 =>
        rw [e2] at h
        simp only [Option.bind_some, Option.some.injEq] at h
        subst h
        obtain ⟨i1, i2⟩ := ih e
        obtain ⟨m1, m2⟩ := act_marks e2
        have j1 : ∀ l ∈ c1.flagged, ∃ bs w cs c3, as ++ [a] = bs ++ .cancel w :: cs ∧ acts bs c₀ = some c3 ∧ (c3.pc = .flag l ∨ c3.pc = .oneFlag l) := fun l hl => by
          obtain ⟨bs, w, cs, c3, q1, q2, q3⟩ := i1 l hl
          exact ⟨bs, w, cs ++ [a], c3, by rw [q1]; simp, q2, q3⟩
        refine ⟨fun l hl => ?_, fun l hl => ?_⟩
        · rcases m1 with m1 | ⟨w, m, rfl, hpc, m1⟩
          · exact j1 l (m1 ▸ hl)
          · rw [m1] at hl
            rcases List.mem_cons.1 hl with rfl | hl
            · exact ⟨as, w, [], c1, rfl, e, hpc⟩
            · exact j1 l hl
        · rcases m2 with m2 | ⟨m, rfl, m2⟩
          · exact List.mem_append_left _ (i2 l (m2 ▸ hl))
          · rw [m2] at hl
            rcases List.mem_cons.1 hl with rfl | hl
            · simp
            · exact List.mem_append_left _ (i2 l hl)

/-- the state in which one of the steps is taken -/
theorem acts_split {as bs : List Act} {a : Act} {c₀ c : Canceller} (h : acts (as ++ a :: bs) c₀ = some c) :
    ∃ c1 c2, acts as c₀ = some c1 ∧ c1.act a = some c2 ∧ acts bs c2 = some c := by
  rw [acts_append] at h
  cases e : acts as c₀ with
  | none => rw [e] at h; cases h
  | some c1 =>
    rw [e] at h
    simp only [Option.bind_some, acts] at h
    cases e2 : c1.act a with
    | none => rw [e2] at h; cases h
    | some c2 =>
      rw [e2] at h
      exact ⟨c1, c2, rfl, e2, h⟩

theorem act_allowed {c c' : Canceller} {b : Pool.Act} (h : c.act (.other b) = some c') : c.allowed b = true := by
  unfold act at h
  split at h
  · simp at h
  simp only at h
  split at h
  · assumption
  · simp at h

/-- **C88**: a class notifies Cancel only if `cancelTraining()` or `cancelTraining(label)` has come to it before. -/
theorem C88_cancel_asked {s : Pool} {c₀ c : Canceller} (h0 : c₀ = calls s ∨ ∃ m, c₀ = callsOne m s) {as bs : List Act} {l : String}
    (h : acts (as ++ .other (.final l .cancel) :: bs) c₀ = some c) :
    ∃ xs w ys c1, as = xs ++ .cancel w :: ys ∧ acts xs c₀ = some c1 ∧ (c1.pc = .flag l ∨ c1.pc = .oneFlag l) := by
  have hz : c₀.flagged = [] ∧ c₀.failing = [] := by rcases h0 with rfl | ⟨m, rfl⟩ <;> exact ⟨rfl, rfl⟩
  obtain ⟨c1, c2, e1, e2, -⟩ := acts_split h
  have ha := act_allowed e2
  simp only [allowed, Bool.and_eq_true] at ha
  exact (acts_marks hz.1 hz.2 as e1).1 l (by simpa using ha.1)

/-- **C88**: a class notifies Error only after it has failed, and after it has failed it notifies nothing else. -/
theorem C88_error_failed {s : Pool} {c₀ c : Canceller} (h0 : c₀ = calls s ∨ ∃ m, c₀ = callsOne m s) {as bs : List Act} {l : String} {b : Pool.Act}
    (hb : b = .run l ∨ ∃ st, b = .final l st) (h : acts (as ++ .other b :: bs) c₀ = some c) : b = .final l .error ↔ Act.fails l ∈ as := by
  have hz : c₀.flagged = [] ∧ c₀.failing = [] := by rcases h0 with rfl | ⟨m, rfl⟩ <;> exact ⟨rfl, rfl⟩
  obtain ⟨c1, c2, e1, e2, -⟩ := acts_split h
  have ha := act_allowed e2
  have hk : ∀ (xs : List Act) (d d' : Canceller), acts xs d = some d' → ∀ m ∈ d.failing, m ∈ d'.failing := by
    intro xs
    induction xs with
    | nil =>
      intro d d' e m hm
      simp only [acts, Option.some.injEq] at e
      exact e ▸ hm
    | cons x xs ih =>
      intro d d' e m hm
      simp only [acts] at e
      cases e3 : d.act x with
      | none => rw [e3] at e; cases e
      | some d1 =>
        rw [e3] at e
        refine ih d1 d' e m ?_
        rcases (act_marks e3).2 with q | ⟨n, -, q⟩
        · rw [q]; exact hm
        · rw [q]; exact List.mem_cons_of_mem _ hm
  have hfail : Act.fails l ∈ as → l ∈ c1.failing := fun hm => by
    obtain ⟨xs, ys, rfl⟩ := List.append_of_mem hm
    obtain ⟨d1, d2, q1, q2, q3⟩ := acts_split e1
    refine hk ys d2 c1 q3 l ?_
    unfold act at q2
    split at q2
    · simp at q2
    simp only at q2
    split at q2
    · simp only [Option.some.injEq] at q2
      subst q2
      simp
    · simp at q2
  constructor
  · rintro rfl
    exact (acts_marks hz.1 hz.2 as e1).2 l (by simpa [allowed] using ha)
  · intro hm
    have hl := hfail hm
    rcases hb with rfl | ⟨st, rfl⟩
    · simp [allowed, hl] at ha
    · cases st <;> simp [allowed, hl] at ha ⊢

/-- Such executions exist: the class "a" is asked to stop and notifies Cancel, the class "b" fails and notifies Error; the call returns. -/
example : ∃ as bs c, acts (as ++ .other (.final "a" .cancel) :: bs) (calls (training ["a", "b"])) = some c ∧ Act.fails "b" ∈ bs ∧ Act.other (.final "b" .error) ∈ bs ∧
    c.pc = .returned :=
  ⟨[.cancel false, .cancel false, .cancel false], [.fails "b", .cancel false, .cancel false, .cancel false, .cancel false, .other (.final "b" .error)] ++ List.replicate 10 (.cancel false), _, rfl, by decide, by decide, rfl⟩

end Canceller
end Xmm
