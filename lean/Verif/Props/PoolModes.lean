import Verif.Props.Pool
/- C53, C54 in the modes Background and Sequential, and the executions that violate them. -/
namespace Xmm
namespace Pool

/-- no class is being trained -/
def Still (s : Pool) : Prop := ∀ c ∈ s.classes, c.thread ≠ .running

theorem Still.runs {s : Pool} (h : Still s) (l : String) : s.runs l = false := not_runs h l

theorem joinStep_still {weak : Bool} {pc pc' : JoinPc} {s s' : Pool} (hs : s.joinStep weak pc = some (pc', s')) (h : Still s) : Still s' := by
  have hc : ∀ c ∈ s'.classes, c ∈ s.classes := by
    cases pc <;> simp only [joinStep] at hs
    case enter =>
      split at hs
      · simp only [Option.some.injEq, Prod.mk.injEq] at hs; obtain ⟨rfl, rfl⟩ := hs; exact fun c h => h
      · split at hs <;> simp only [Option.some.injEq, Prod.mk.injEq] at hs <;> obtain ⟨rfl, rfl⟩ := hs <;> exact fun c h => h
    case join =>
      split at hs
      · simp only [Option.some.injEq, Prod.mk.injEq] at hs; obtain ⟨rfl, rfl⟩ := hs; exact fun c h => h
      · split at hs
        · simp only [Option.some.injEq, Prod.mk.injEq] at hs; obtain ⟨rfl, rfl⟩ := hs; exact fun c h => h
        · simp at hs
    case sweep => simp only [Option.some.injEq, Prod.mk.injEq] at hs; obtain ⟨rfl, rfl⟩ := hs; exact fun c h => (List.mem_filter.1 h).1
    case unjoin => simp only [Option.some.injEq, Prod.mk.injEq] at hs; obtain ⟨rfl, rfl⟩ := hs; exact fun c h => h
    case untrain => simp only [Option.some.injEq, Prod.mk.injEq] at hs; obtain ⟨rfl, rfl⟩ := hs; exact fun c h => h
    case reset => split at hs <;> simp only [Option.some.injEq, Prod.mk.injEq] at hs <;> obtain ⟨rfl, rfl⟩ := hs <;> exact fun c h => h
    case alldone => simp only [Option.some.injEq, Prod.mk.injEq] at hs; obtain ⟨rfl, rfl⟩ := hs; exact fun c h => h
    case wait =>
      split at hs
      · simp at hs
      · simp only [Option.some.injEq, Prod.mk.injEq] at hs; obtain ⟨rfl, rfl⟩ := hs; exact fun c h => h
    case left => simp at hs
    case failed => simp at hs
  exact fun c h' => h c (hc c h')

/-- the invariant of the mode Background, if no class ends before `train` returns -/
def BMain (todo before : List String) (s : Pool) : MainPc → Prop
  | .start t => Before todo before t s ∧ todo = s.handles ++ t ∧ s.isJoining = false ∧ s.isTraining = true ∧ s.joiners = [] ∧
      ∀ c ∈ s.classes, c.label ∈ todo → c.label ∉ t → c.thread = .running
  | .store l t => Before todo before t s ∧ todo = s.handles ++ l :: t ∧ s.isJoining = false ∧ s.isTraining = true ∧ s.joiners = [] ∧
      ∀ c ∈ s.classes, c.label ∈ todo → c.label ∉ t → c.thread = .running
  | .inline _ _ => False
  | .join _ => False
  | .returned =>
      (JInv todo before .enter s ∧ s.joiners = [] ∧ ∃ c ∈ s.classes, c.thread = .running) ∨
      (∃ pc, JInv todo before pc s ∧ Still s ∧ ((pc = .left ∧ s.joiners = []) ∨ (pc ≠ .left ∧ s.joiners = [pc])))
  | .threw => False

structure BInv (todo before : List String) (s : Pool) : Prop where
  mode : s.mode = .background
  alive : s.terminated = false
  cancel : s.cancelRequired = false
  main : BMain todo before s s.main

theorem runStep_thread {s s' : Pool} {l : String} (hs : s.runStep l = some s') :
    (∀ c' ∈ s'.classes, ∃ c ∈ s.classes, c.label = c'.label ∧ c.thread = c'.thread) ∧ ∀ c ∈ s.classes, ∃ c' ∈ s'.classes, c.label = c'.label ∧ c.thread = c'.thread := by
  unfold runStep at hs
  split at hs
  · simp only [Option.some.injEq] at hs
    subst hs
    refine ⟨fun c hc => ?_, fun c hc => ?_⟩
    · obtain ⟨d, hd, ⟨hl, rfl⟩ | ⟨hl, rfl⟩⟩ := mem_onClass hc
      · exact ⟨d, hd, rfl, rfl⟩
      · exact ⟨c, hd, rfl, rfl⟩
    · refine ⟨_, List.mem_map.2 ⟨c, hc, rfl⟩, ?_⟩
      split <;> exact ⟨rfl, rfl⟩
  · simp at hs

theorem background_inv {todo before : List String} (hnd : todo.Nodup) (hne : todo ≠ []) {s s' : Pool} {a : Act} (h : BInv todo before s) (ha : Late s a)
    (hs : s.act a = some s') : BInv todo before s' := by
  obtain ⟨hmode, hal, hcr, hm⟩ := h
  unfold act at hs
  rw [hal] at hs
  simp only [Bool.false_eq_true, if_false] at hs
  cases a with
  | main weak =>
    obtain rfl : weak = false := ha.1.1 weak rfl
    simp only [mainStep] at hs
    cases hmn : s.main with
    | start todo' =>
      rw [hmn] at hm hs
      obtain ⟨h1, h2, h3, h4, h5, h6⟩ := hm
      cases todo' with
      | nil =>
        simp only [hmode, Option.some.injEq] at hs
        subst hs
        refine ⟨rfl, hal, hcr, ?_⟩
        refine Or.inl ⟨⟨h1.congr rfl rfl rfl, by simpa using h2.symm, h3, h4⟩, h5, ?_⟩
        obtain ⟨l, hl⟩ := List.exists_mem_of_ne_nil _ hne
        have hl' := h1.known l hl
        rw [← h1.labels] at hl'
        obtain ⟨c, hc, rfl⟩ := List.mem_map.1 hl'
        exact ⟨c, hc, h6 c hc hl (by simp)⟩
      | cons l t =>
        simp only [hmode, Option.some.injEq] at hs
        subst hs
        have hl : l ∈ todo := by rw [h2]; simp
        have hn : l ∉ t := by
          rw [h2] at hnd
          exact (List.nodup_cons.1 (List.nodup_append.1 hnd).2.1).1
        refine ⟨hmode, hal, hcr, (start_ok h1 hl hn).congr rfl rfl rfl, h2, h3, h4, h5, fun c hc hct hcn => ?_⟩
        obtain ⟨d, hd, ⟨hdl, rfl⟩ | ⟨hdl, rfl⟩⟩ := mem_onClass hc
        · rfl
        · exact h6 c hd hct (by simp [hdl, hcn])
    | store l t =>
      rw [hmn] at hm hs
      obtain ⟨h1, h2, h3, h4, h5, h6⟩ := hm
      simp only [Option.some.injEq] at hs
      subst hs
      exact ⟨hmode, hal, hcr, h1.congr rfl rfl rfl, by simpa using h2, h3, h4, h5, h6⟩
    | inline l t => rw [hmn] at hm; exact hm.elim
    | join pc => rw [hmn] at hm; exact hm.elim
    | returned => rw [hmn] at hs; simp at hs
    | threw => rw [hmn] at hm; exact hm.elim
  | joiner i weak =>
    obtain rfl : weak = false := ha.1.2 i weak rfl
    simp only [joinerStep] at hs
    cases hi : s.joiners[i]? with
    | none => rw [hi] at hs; simp at hs
    | some pc =>
      rw [hi] at hs
      cases hmn : s.main with
      | start t => rw [hmn] at hm; rw [hm.2.2.2.2.1] at hi; simp at hi
      | store l t => rw [hmn] at hm; rw [hm.2.2.2.2.1] at hi; simp at hi
      | inline l t => rw [hmn] at hm; exact hm.elim
      | join pc => rw [hmn] at hm; exact hm.elim
      | threw => rw [hmn] at hm; exact hm.elim
      | returned =>
        rw [hmn] at hm
        rcases hm with ⟨-, hj, -⟩ | ⟨pc0, h1, h2, ⟨rfl, hj⟩ | ⟨h3, hj⟩⟩
        · rw [hj] at hi; simp at hi
        · rw [hj] at hi; simp at hi
        · rw [hj] at hi
          obtain rfl : i = 0 := by
            cases i with
            | zero => rfl
            | succ i => simp at hi
          simp only [List.getElem?_cons_zero, Option.some.injEq] at hi
          subst hi
          simp only at hs
          cases hst : s.joinStep false pc0 with
          | none => rw [hst] at hs; simp at hs
          | some r =>
            obtain ⟨pc', s1⟩ := r
            rw [hst] at hs
            obtain ⟨g1, g2, g3, g4, g5, g6⟩ := joinStep_ok h1 hst
            have g7 := joinStep_still hst h2
            have hk : ∀ js, ((pc' = .left ∧ js = []) ∨ (pc' ≠ .left ∧ js = [pc'])) → BInv todo before { s1 with joiners := js } := by
              intro js hjs
              refine ⟨g4.trans hmode, g6.trans hal, g5.trans hcr, ?_⟩
              show BMain todo before { s1 with joiners := js } s1.main
              rw [g2, hmn]
              exact Or.inr ⟨pc', JInv.congr g1 rfl rfl rfl rfl rfl rfl, g7, hjs⟩
            cases pc' <;> simp only [Option.some.injEq] at hs <;> subst hs
            case left => exact hk _ (Or.inl ⟨rfl, by rw [g3, hj]; rfl⟩)
            case failed => exact g1.elim
            all_goals exact hk _ (Or.inr ⟨by simp, by rw [g3, hj]; rfl⟩)
  | run l =>
    simp only at hs
    have hr := runStep_runs hs
    obtain ⟨ht1, ht2⟩ := runStep_thread hs
    cases hmn : s.main with
    | start t =>
      rw [hmn] at hm
      obtain ⟨h1, h2, h3, h4, h5, h6⟩ := hm
      obtain ⟨hb, ⟨f1, f2, f3, f4, f5, f6, f7, f8⟩, hj⟩ := run_ok h1 hs
      refine ⟨f1.trans hmode, f7.trans hal, f5.trans hcr, ?_⟩
      rw [f6, hmn]
      refine ⟨hb, by rw [f2]; exact h2, by rw [f4]; exact h3, by rw [f3]; exact h4, by rw [hj]; exact h5, fun c hc => ?_⟩
      obtain ⟨d, hd, e1, e2⟩ := ht1 c hc
      rw [← e1, ← e2]
      exact h6 d hd
    | store l t =>
      rw [hmn] at hm
      obtain ⟨h1, h2, h3, h4, h5, h6⟩ := hm
      obtain ⟨hb, ⟨f1, f2, f3, f4, f5, f6, f7, f8⟩, hj⟩ := run_ok h1 hs
      refine ⟨f1.trans hmode, f7.trans hal, f5.trans hcr, ?_⟩
      rw [f6, hmn]
      refine ⟨hb, by rw [f2]; exact h2, by rw [f4]; exact h3, by rw [f3]; exact h4, by rw [hj]; exact h5, fun c hc => ?_⟩
      obtain ⟨d, hd, e1, e2⟩ := ht1 c hc
      rw [← e1, ← e2]
      exact h6 d hd
    | inline l t => rw [hmn] at hm; exact hm.elim
    | join pc => rw [hmn] at hm; exact hm.elim
    | threw => rw [hmn] at hm; exact hm.elim
    | returned =>
      rw [hmn] at hm
      rcases hm with ⟨h1, hj, c, hc, hcr'⟩ | ⟨pc0, h1, h2, h3⟩
      · obtain ⟨hb, hf, hjj⟩ := run_ok h1.1 hs
        have h1' := h1.class_step l hr (fun hb => (run_ok hb hs).1) hf
        obtain ⟨f1, f2, f3, f4, f5, f6, f7, f8⟩ := hf
        refine ⟨f1.trans hmode, f7.trans hal, f5.trans hcr, ?_⟩
        rw [f6, hmn]
        obtain ⟨c', hc', -, e2⟩ := ht2 c hc
        exact Or.inl ⟨h1', hjj.trans hj, c', hc', by rw [← e2]; exact hcr'⟩
      · rw [h2.runs l] at hr
        simp at hr
  | final l st =>
    simp only at hs
    obtain ⟨hr, hst⟩ := finalStep_runs hs
    have hmn : s.main = .returned := ha.2 l st rfl
    rw [hmn] at hm
    rcases hm with ⟨h1, hj, -⟩ | ⟨pc0, h1, h2, h3⟩
    · obtain ⟨hb, hf⟩ := closed_ok h1.1 hr hst
      have h1' := h1.class_step l hr (fun hb => (closed_ok hb hr hst).1) hf
      have hcount := hb.count
      have hmn' : (closed l st s).main = .returned := hmn
      rw [finalStep_eq, if_pos (by simp [hr, hst])] at hs
      by_cases hz : s.still - 1 = 0
      · rw [if_pos ⟨hmode, h1.2.2.1, hcr, hz⟩] at hs
        simp only [Option.some.injEq] at hs
        subst hs
        refine ⟨hmode, hal, hcr, ?_⟩
        show BMain todo before _ s.main
        rw [hmn]
        refine Or.inr ⟨.enter, JInv.congr h1' rfl rfl rfl rfl h1'.2.2.1.symm rfl, ?_, Or.inr ⟨by simp, by simp [hj]⟩⟩
        have hz' : (closed l st s).classes.countP (fun c => decide (c.thread = .running)) = 0 := by
          have : (closed l st s).still = 0 := hz
          rw [this] at hcount
          exact_mod_cast hcount.symm
        rw [List.countP_eq_zero] at hz'
        intro c hc
        simpa using hz' c hc
      · rw [if_neg (fun h => hz h.2.2.2)] at hs
        simp only [Option.some.injEq] at hs
        subst hs
        refine ⟨hmode, hal, hcr, ?_⟩
        show BMain todo before _ s.main
        rw [hmn]
        refine Or.inl ⟨h1', hj, ?_⟩
        have hz' : 0 < (closed l st s).classes.countP (fun c => decide (c.thread = .running)) := by
          have : (closed l st s).still = s.still - 1 := rfl
          rw [this] at hcount
          omega
        obtain ⟨c, hc, hct⟩ := List.countP_pos_iff.1 hz'
        exact ⟨c, hc, by simpa using hct⟩
    · rw [h2.runs l] at hr
      simp at hr

theorem background_reach {todo : List String} (hne : todo ≠ []) {s₀ s : Pool} (h0 : Begins todo s₀) (hp : s₀.mode = .background) (h : Reach Late s₀ s) :
    BInv todo s₀.labels s := by
  induction h with
  | refl =>
    refine ⟨hp, h0.alive, h0.cancel, ?_⟩
    rw [h0.main]
    exact ⟨h0.before, by simp [h0.handles], h0.joining, h0.training, h0.joiners, fun c _ h1 h2 => absurd h1 h2⟩
  | step _ ha hs ih => exact background_inv h0.todoNodup hne ih ha hs

theorem BInv.progress {todo before : List String} {s : Pool} (h : BInv todo before s) :
    s.terminated = false ∧ s.main ≠ .threw ∧ ((s.main = .returned ∧ Completed todo before s) ∨ ∃ a s', Late s a ∧ s.act a = some s') := by
  obtain ⟨hmode, hal, hcr, hm⟩ := h
  have hms : Late s (.main false) := ⟨⟨fun w h => by simpa using h.symm, fun i w h => by simp at h⟩, fun l st h => by simp at h⟩
  have hjs : ∀ i, Late s (.joiner i false) := fun i => ⟨⟨fun w h => by simp at h, fun i' w h => by simp at h; exact h.2⟩, fun l st h => by simp at h⟩
  have hmain : ∀ s', s.mainStep false = some s' → ∃ a s', Late s a ∧ s.act a = some s' := by
    intro s' hs'
    exact ⟨.main false, s', hms, by simp [act, hal, hs']⟩
  refine ⟨hal, ?_⟩
  cases hmn : s.main with
  | start t =>
    refine ⟨by simp, Or.inr ?_⟩
    cases t with
    | nil => exact hmain { s with main := .returned } (by simp [mainStep, hmn, hmode])
    | cons l t => exact hmain { s.startClass l with main := .store l t } (by simp [mainStep, hmn, hmode])
  | store l t => exact ⟨by simp, Or.inr (hmain { s with handles := s.handles ++ [l], main := .start t } (by simp [mainStep, hmn]))⟩
  | inline l t => rw [hmn] at hm; exact hm.elim
  | join pc => rw [hmn] at hm; exact hm.elim
  | threw => rw [hmn] at hm; exact hm.elim
  | returned =>
    refine ⟨by simp, ?_⟩
    rw [hmn] at hm
    rcases hm with ⟨h1, hj, c, hc, hcr'⟩ | ⟨pc0, h1, h2, ⟨rfl, hj⟩ | ⟨h3, hj⟩⟩
    · right
      have hrun : s.runs c.label = true := List.any_eq_true.2 ⟨c, hc, by simp [hcr']⟩
      obtain ⟨s', hs'⟩ : ∃ s', s.finalStep c.label .done = some s' := by
        rw [finalStep_eq, if_pos (by simp [hrun])]
        split <;> exact ⟨_, rfl⟩
      exact ⟨.final c.label .done, s', ⟨⟨fun w h => by simp at h, fun i w h => by simp at h⟩, fun _ _ _ => hmn⟩, by simp [act, hal, hs']⟩
    · exact Or.inl ⟨rfl, JInv.completed h1 hj⟩
    · right
      have hj2 : ∀ r, s.joinStep false pc0 = some r → ∃ a s', Late s a ∧ s.act a = some s' := by
        rintro ⟨pc', s1⟩ hr
        obtain ⟨s', hs'⟩ : ∃ s', s.joinerStep 0 false = some s' := by
          simp only [joinerStep, hj, List.getElem?_cons_zero, hr]
          cases pc' <;> exact ⟨_, rfl⟩
        exact ⟨.joiner 0 false, s', hjs 0, by simp [act, hal, hs']⟩
      cases pc0 with
      | enter =>
        obtain ⟨-, -, g3, g4⟩ := h1
        exact hj2 (.join, { s with isJoining := true }) (by simp [joinStep, g3, g4])
      | join =>
        cases hh : s.handles with
        | nil => exact hj2 (.sweep, s) (by simp [joinStep, hh])
        | cons l t =>
          have hq : s.quiet l = true := by
            simp only [quiet, List.all_eq_true]
            intro c hc
            simp [h2 c hc]
          exact hj2 (.join, { s with handles := t }) (by simp [joinStep, hh, hq])
      | sweep => exact hj2 _ rfl
      | unjoin => exact hj2 _ rfl
      | untrain => exact hj2 _ rfl
      | reset =>
        by_cases hc : (s.isTraining || s.classes.any (·.training)) = true
        · exact hj2 (.failed, s) (by simp only [joinStep, hc, if_true])
        · exact hj2 (.alldone, s) (by simp only [joinStep, hc]; rfl)
      | alldone => exact hj2 _ rfl
      | left => exact absurd rfl h3
      | wait => exact h1.elim
      | failed => exact h1.elim

/-- **C53** (mode Background), for every interleaving of the threads in which no class ends its training before `train` returns: as long as the training is not complete, some
    thread can take a step (by `C53_decreases`, it will be complete); no exception leaves any thread. -/
theorem C53_background_partial {todo : List String} (hne : todo ≠ []) {s₀ s : Pool} (h0 : Begins todo s₀) (hp : s₀.mode = .background) (h : Reach Late s₀ s) :
    s.terminated = false ∧ s.main ≠ .threw ∧ ((s.main = .returned ∧ Completed todo s₀.labels s) ∨ ∃ a s', Late s a ∧ s.act a = some s') :=
  (background_reach hne h0 hp h).progress

theorem JInv.over {todo before : List String} {pc : JoinPc} {s : Pool} (h : JInv todo before pc s) (ht : s.isTraining = false) :
    (∀ c ∈ s.classes, c.training = false ∧ c.thread ≠ .running) ∧ ∀ l ∈ todo, ∃ st, Outcome s.events l st := by
  cases pc with
  | enter => rw [h.2.2.2] at ht; simp at ht
  | join => rw [h.2.2.2] at ht; simp at ht
  | sweep => rw [h.2.2.2.2] at ht; simp at ht
  | unjoin => rw [h.2.2] at ht; simp at ht
  | untrain => rw [h.2.2] at ht; simp at ht
  | reset =>
    refine ⟨h.1.quiet, fun l hl => ?_⟩
    obtain ⟨st, ho, -⟩ := h.1.outcomes l hl
    exact ⟨st, ho⟩
  | alldone =>
    refine ⟨h.1.quiet, fun l hl => ?_⟩
    obtain ⟨st, ho, -⟩ := h.1.outcomes l hl
    exact ⟨st, ho⟩
  | left =>
    obtain ⟨⟨evs, he, ha⟩, -⟩ := h
    refine ⟨ha.quiet, fun l hl => ?_⟩
    obtain ⟨st, ho, -⟩ := ha.outcomes l hl
    exact ⟨st, by rw [he]; exact outcome_append ho _ (by simp)⟩
  | wait => exact h.elim
  | failed => exact h.elim

/-- **C54** (mode Parallel; mode Background if no class ends before `train` returns): the model leaves the training state only after every class has notified its outcome and
    no thread is inside the training of a class. -/
theorem C54_flag_partial {todo : List String} (hne : todo ≠ []) {s₀ s : Pool} (h0 : Begins todo s₀)
    (h : (s₀.mode = .parallel ∧ Reach Strong s₀ s) ∨ (s₀.mode = .background ∧ Reach Late s₀ s)) (ht : s.isTraining = false) :
    (∀ c ∈ s.classes, c.training = false ∧ c.thread ≠ .running) ∧ ∀ l ∈ todo, ∃ st, Outcome s.events l st := by
  rcases h with ⟨hp, h⟩ | ⟨hp, h⟩
  · have hi := parallel_reach h0 hp h
    have hm := hi.main
    cases hmn : s.main with
    | start t => rw [hmn] at hm; rw [hm.2.2.2] at ht; simp at ht
    | store l t => rw [hmn] at hm; rw [hm.2.2.2] at ht; simp at ht
    | inline l t => rw [hmn] at hm; exact hm.elim
    | join pc => rw [hmn] at hm; exact hm.1.over ht
    | returned => rw [hmn] at hm; exact JInv.over (pc := .left) hm ht
    | threw => rw [hmn] at hm; exact hm.elim
  · have hi := background_reach hne h0 hp h
    have hm := hi.main
    cases hmn : s.main with
    | start t => rw [hmn] at hm; rw [hm.2.2.2.1] at ht; simp at ht
    | store l t => rw [hmn] at hm; rw [hm.2.2.2.1] at ht; simp at ht
    | inline l t => rw [hmn] at hm; exact hm.elim
    | join pc => rw [hmn] at hm; exact hm.elim
    | returned =>
      rw [hmn] at hm
      rcases hm with ⟨h1, -, -⟩ | ⟨pc, h1, -, -⟩
      · exact h1.over ht
      · exact h1.over ht
    | threw => rw [hmn] at hm; exact hm.elim

/-- the invariant of the mode Sequential, and of numbers that are no mode -/
def SMain (todo before : List String) (s : Pool) : MainPc → Prop
  | .start t => Before todo before t s ∧ (∀ l ∈ t, l ∈ todo) ∧ t.Nodup ∧ Still s ∧ s.isTraining = true
  | .inline l t => Before todo before t s ∧ (∀ l ∈ t, l ∈ todo) ∧ t.Nodup ∧ (∀ c ∈ s.classes, c.thread = .running → c.label = l) ∧ s.isTraining = true
  | .returned => Before todo before [] s ∧ Still s ∧ s.isTraining = decide (s.mode = .other)
  | _ => False

structure SInv (todo before : List String) (s : Pool) : Prop where
  mode : s.mode = .sequential ∨ s.mode = .other
  joiners : s.joiners = []
  alive : s.terminated = false
  main : SMain todo before s s.main

theorem sequential_inv {todo before : List String} {s s' : Pool} {a : Act} (h : SInv todo before s) (hs : s.act a = some s') : SInv todo before s' := by
  obtain ⟨hmode, hj, hal, hm⟩ := h
  unfold act at hs
  rw [hal] at hs
  simp only [Bool.false_eq_true, if_false] at hs
  cases a with
  | main weak =>
    simp only [mainStep] at hs
    cases hmn : s.main with
    | start todo' =>
      rw [hmn] at hm hs
      obtain ⟨h1, h2, h3, h4, h5⟩ := hm
      cases todo' with
      | nil =>
        rcases hmode with hmode | hmode
        · simp only [hmode, Option.some.injEq] at hs
          subst hs
          exact ⟨.inl rfl, hj, hal, h1.congr rfl rfl rfl, h4, rfl⟩
        · simp only [hmode, Option.some.injEq] at hs
          subst hs
          exact ⟨.inr rfl, hj, hal, h1.congr rfl rfl rfl, h4, by simpa using h5⟩
      | cons l t =>
        have hs : some { s.startClass l with main := MainPc.inline l t } = some s' := by
          rcases hmode with hmode | hmode <;> simpa only [hmode] using hs
        simp only [Option.some.injEq] at hs
        subst hs
        obtain ⟨hn1, hn2⟩ := List.nodup_cons.1 h3
        refine ⟨hmode, hj, hal, (start_ok h1 (h2 l (by simp)) hn1).congr rfl rfl rfl, fun l' hl' => h2 l' (by simp [hl']), hn2, fun c hc hr => ?_, h5⟩
        obtain ⟨d, hd, ⟨hdl, rfl⟩ | ⟨hdl, rfl⟩⟩ := mem_onClass hc
        · exact hdl
        · exact absurd hr (h4 c hd)
    | inline l t =>
      rw [hmn] at hm hs
      obtain ⟨h1, h2, h3, h4, h5⟩ := hm
      simp only at hs
      split at hs
      · rename_i hq
        simp only [Option.some.injEq] at hs
        subst hs
        refine ⟨hmode, hj, hal, h1.congr rfl rfl rfl, h2, h3, fun c hc hr => ?_, h5⟩
        simp only [quiet, List.all_eq_true] at hq
        have := hq c hc
        simp [hr, h4 c hc hr] at this
      · simp at hs
    | store l t => rw [hmn] at hm; exact hm.elim
    | join pc => rw [hmn] at hm; exact hm.elim
    | returned => rw [hmn] at hs; simp at hs
    | threw => rw [hmn] at hm; exact hm.elim
  | joiner i weak => simp [joinerStep, hj] at hs
  | run l =>
    simp only at hs
    have hr := runStep_runs hs
    obtain ⟨ht1, -⟩ := runStep_thread hs
    cases hmn : s.main with
    | start t => rw [hmn] at hm; rw [hm.2.2.2.1.runs l] at hr; simp at hr
    | inline l t =>
      rw [hmn] at hm
      obtain ⟨h1, h2, h3, h4, h5⟩ := hm
      obtain ⟨hb, ⟨f1, f2, f3, f4, f5, f6, f7, f8⟩, hjj⟩ := run_ok h1 hs
      refine ⟨hmode.imp f1.trans f1.trans, hjj.trans hj, f7.trans hal, ?_⟩
      rw [f6, hmn]
      refine ⟨hb, h2, h3, fun c hc hr => ?_, f3.trans h5⟩
      obtain ⟨d, hd, e1, e2⟩ := ht1 c hc
      rw [← e1]
      exact h4 d hd (by rw [e2, hr])
    | store l t => rw [hmn] at hm; exact hm.elim
    | join pc => rw [hmn] at hm; exact hm.elim
    | returned => rw [hmn] at hm; rw [hm.2.1.runs l] at hr; simp at hr
    | threw => rw [hmn] at hm; exact hm.elim
  | final l st =>
    simp only at hs
    obtain ⟨hr, hst⟩ := finalStep_runs hs
    rw [finalStep_eq, if_pos (by simp [hr, hst]), if_neg (by rcases hmode with hmode | hmode <;> simp [hmode])] at hs
    simp only [Option.some.injEq] at hs
    subst hs
    cases hmn : s.main with
    | start t => rw [hmn] at hm; rw [hm.2.2.2.1.runs l] at hr; simp at hr
    | inline l' t =>
      rw [hmn] at hm
      obtain ⟨h1, h2, h3, h4, h5⟩ := hm
      obtain ⟨hb, ⟨f1, f2, f3, f4, f5, f6, f7, f8⟩⟩ := closed_ok h1 hr hst
      refine ⟨hmode.imp f1.trans f1.trans, hj, f7.trans hal, ?_⟩
      rw [f6, hmn]
      refine ⟨hb, h2, h3, fun c hc hr => ?_, f3.trans h5⟩
      obtain ⟨d, hd, e1, e2⟩ := f8 c hc hr
      rw [← e1]
      exact h4 d hd e2
    | store l t => rw [hmn] at hm; exact hm.elim
    | join pc => rw [hmn] at hm; exact hm.elim
    | returned => rw [hmn] at hm; rw [hm.2.1.runs l] at hr; simp at hr
    | threw => rw [hmn] at hm; exact hm.elim

theorem sequential_reach {todo : List String} {s₀ s : Pool} (h0 : Begins todo s₀) (hp : s₀.mode = .sequential ∨ s₀.mode = .other) (h : Reach (fun _ _ => True) s₀ s) : SInv todo s₀.labels s := by
  induction h with
  | refl =>
    refine ⟨hp, h0.joiners, h0.alive, ?_⟩
    rw [h0.main]
    exact ⟨h0.before, fun _ h => h, h0.todoNodup, fun c hc => (h0.rest c hc).2, h0.training⟩
  | step _ _ hs ih => exact sequential_inv ih hs

theorem mode_step {s s' : Pool} {a : Act} (hs : s.act a = some s') : s'.mode = s.mode := by
  have hjoin : ∀ weak pc pc' t, s.joinStep weak pc = some (pc', t) → t.mode = s.mode := by
    intro weak pc pc' t h
    cases pc <;> simp only [joinStep] at h <;> (try split at h) <;> (try split at h) <;> (try split at h) <;> simp_all <;> (obtain ⟨-, rfl⟩ := h; rfl)
  unfold act at hs
  split at hs
  · simp at hs
  cases a with
  | main weak =>
    simp only [mainStep] at hs
    split at hs
    · split at hs <;> simp only [Option.some.injEq] at hs <;> subst hs <;> rfl
    · split at hs <;> simp only [Option.some.injEq] at hs <;> subst hs <;> rfl
    · simp only [Option.some.injEq] at hs; subst hs; rfl
    · split at hs
      · simp only [Option.some.injEq] at hs; subst hs; rfl
      · simp at hs
    · split at hs
      · simp at hs
      · rename_i h; simp only [Option.some.injEq] at hs; subst hs; have := hjoin _ _ _ _ h; exact this
      · rename_i h; simp only [Option.some.injEq] at hs; subst hs; have := hjoin _ _ _ _ h; exact this
      · rename_i h; simp only [Option.some.injEq] at hs; subst hs; have := hjoin _ _ _ _ h; exact this
    · simp at hs
    · simp at hs
  | joiner i weak =>
    simp only [joinerStep] at hs
    split at hs
    · simp at hs
    · split at hs
      · simp at hs
      · rename_i h; simp only [Option.some.injEq] at hs; subst hs; have := hjoin _ _ _ _ h; exact this
      · rename_i h; simp only [Option.some.injEq] at hs; subst hs; have := hjoin _ _ _ _ h; exact this
      · rename_i h; simp only [Option.some.injEq] at hs; subst hs; have := hjoin _ _ _ _ h; exact this
  | run l =>
    simp only [runStep] at hs
    split at hs
    · simp only [Option.some.injEq] at hs; subst hs; rfl
    · simp at hs
  | final l st =>
    simp only [finalStep] at hs
    split at hs
    · split at hs <;> simp only [Option.some.injEq] at hs <;> subst hs <;> rfl
    · simp at hs

theorem mode_reach {ok : Pool → Act → Prop} {s₀ s : Pool} (h : Reach ok s₀ s) : s.mode = s₀.mode := by
  induction h with
  | refl => rfl
  | step _ _ hs ih => rw [mode_step hs, ih]

theorem sequential_outcomes {todo : List String} {s₀ s : Pool} (h0 : Begins todo s₀) (hp : s₀.mode = .sequential ∨ s₀.mode = .other) (h : Reach (fun _ _ => True) s₀ s)
    (hr : s.main = .returned) :
    s.isTraining = decide (s₀.mode = .other) ∧ (∀ l ∈ todo, ∃ st, Outcome s.events l st) ∧ s.labels = s₀.labels ∧ (∀ e ∈ s.events, e.2 ≠ .allDone) ∧
      s.joiners = [] ∧ Still s := by
  have hi := sequential_reach h0 hp h
  have hm := hi.main
  rw [hr] at hm
  obtain ⟨h1, h2, h3⟩ := hm
  refine ⟨by rw [h3, mode_reach h], fun l hl => ?_, h1.labels, fun e he => (h1.evs e he).2, hi.joiners, h2⟩
  have hl' := h1.known l hl
  rw [← h1.labels] at hl'
  obtain ⟨c, hc, rfl⟩ := List.mem_map.1 hl'
  cases h1.ok c hc with
  | old hh _ _ _ _ => exact absurd hl hh
  | pending _ hh _ _ _ => simp at hh
  | running _ _ _ hh _ _ => exact absurd hh (h2 c hc)
  | ended _ _ _ _ ho => exact ⟨_, ho⟩

/-- C53 is violated in the mode Sequential: when `train` returns, every class has notified its outcome, but the classes whose training failed are still there, and Alldone was
    not notified.  (The training state is left after the last outcome.) -/
theorem C53_sequential_violated {todo : List String} {s₀ s : Pool} (h0 : Begins todo s₀) (hp : s₀.mode = .sequential) (h : Reach (fun _ _ => True) s₀ s)
    (hr : s.main = .returned) :
    s.isTraining = false ∧ (∀ l ∈ todo, ∃ st, Outcome s.events l st) ∧ s.labels = s₀.labels ∧ ∀ e ∈ s.events, e.2 ≠ .allDone := by
  obtain ⟨q1, q2, q3, q4, -⟩ := sequential_outcomes h0 (.inl hp) h hr
  exact ⟨by rw [q1, hp]; rfl, q2, q3, q4⟩

/-- C53 is violated if the configuration was loaded from a file whose number "multithreading" is none of the three modes, which is accepted (`C86_configuration_modes_violated`): `train` trains the classes
    one after the other and returns; then every class has notified its outcome and no thread is left, but the model is still in the training state, and no thread
    makes it leave it (only a call of `cancelTraining` would). -/
theorem C53_unknown_mode_violated {todo : List String} {s₀ s : Pool} (h0 : Begins todo s₀) (hp : s₀.mode = .other) (h : Reach (fun _ _ => True) s₀ s)
    (hr : s.main = .returned) :
    (∀ l ∈ todo, ∃ st, Outcome s.events l st) ∧ s.isTraining = true ∧ ∀ a, s.act a = none := by
  obtain ⟨q1, q2, q3, q4, q5, q6⟩ := sequential_outcomes h0 (.inr hp) h hr
  refine ⟨q2, by rw [q1, hp]; rfl, fun a => ?_⟩
  cases hs : s.act a with
  | none => rfl
  | some s' =>
    exfalso
    unfold act at hs
    split at hs
    · simp at hs
    cases a with
    | main weak => simp [mainStep, hr] at hs
    | joiner i weak => simp [joinerStep, q5] at hs
    | run l => have := runStep_runs hs; rw [q6.runs l] at this; simp at this
    | final l st => have := (finalStep_runs hs).1; rw [q6.runs l] at this; simp at this

/-- a model whose classes `ls` are about to be trained -/
def begin_ (mode : Mode) (ls : List String) : Pool :=
  { mode := mode, classes := ls.map fun l => ⟨l, 2, .run, false, .none⟩, handles := [], isTraining := true, isJoining := false, cancelRequired := false, still := 0,
    main := .start ls, joiners := [], events := [], terminated := false }

theorem begin_begins (mode : Mode) {ls : List String} (h : ls.Nodup) : Begins ls (begin_ mode ls) := by
  refine ⟨rfl, ?_, ?_, h, ?_, ?_, rfl, rfl, rfl, rfl, rfl, rfl, rfl, rfl⟩
  · intro l hl; simpa [begin_, labels] using hl
  · simpa [begin_, labels, Function.comp_def] using h
  · intro c hc
    simp only [begin_, List.mem_map] at hc
    obtain ⟨l, -, rfl⟩ := hc
    simp
  · intro c hc
    simp only [begin_, List.mem_map] at hc
    obtain ⟨l, -, rfl⟩ := hc
    simp

/-- a sequence of steps is an execution -/
theorem reach_acts {ok : Pool → Act → Prop} {s₀ : Pool} : ∀ (as : List Act) {s s' : Pool}, (∀ a ∈ as, ∀ s, ok s a) → Reach ok s₀ s → acts as s = some s' → Reach ok s₀ s'
  | [], s, s', _, h, hs => by simp only [acts, Option.some.injEq] at hs; exact hs ▸ h
  | a :: as, s, s', hk, h, hs => by
    simp only [acts, Option.bind_eq_some_iff] at hs
    obtain ⟨t, h1, h2⟩ := hs
    exact reach_acts as (fun b hb => hk b (by simp [hb])) (.step h (hk a (by simp) s) h1) h2

/-- steps without spurious failure -/
def strongly (as : List Act) : Bool := as.all fun a => match a with | .main w => !w | .joiner _ w => !w | _ => true

theorem strongly_ok {as : List Act} (h : strongly as = true) : ∀ a ∈ as, ∀ s, Strong s a := by
  intro a ha s
  simp only [strongly, List.all_eq_true] at h
  have := h a ha
  cases a <;> simp_all [Strong]

/-- executions that can be continued until `Q` holds -/
theorem reach_end {ok : Pool → Act → Prop} {s₀ : Pool} (Q : Pool → Prop) (hnd : s₀.labels.Nodup)
    (hprog : ∀ s, Reach ok s₀ s → Q s ∨ ∃ a s', ok s a ∧ s.act a = some s') {s : Pool} (h : Reach ok s₀ s) : ∃ s', Reach ok s s' ∧ Reach ok s₀ s' ∧ Q s' := by
  have hn : ∀ s, Reach ok s₀ s → s.labels.Nodup := by
    intro s h
    induction h with
    | refl => exact hnd
    | step _ _ hs ih => exact ih.sublist (C53_decreases ih hs).2
  have htrans : ∀ {a b c : Pool}, Reach ok a b → Reach ok b c → Reach ok a c := by
    intro a b c h1 h2
    induction h2 with
    | refl => exact h1
    | step _ h3 h4 ih => exact .step ih h3 h4
  suffices H : ∀ (n : Nat) (s : Pool), s.remaining ≤ n → Reach ok s₀ s → ∃ s', Reach ok s s' ∧ Q s' by
    obtain ⟨s', h1, h2⟩ := H _ s (le_refl _) h
    exact ⟨s', h1, htrans h h1, h2⟩
  intro n
  induction n with
  | zero =>
    intro s hr h
    rcases hprog s h with hq | ⟨a, s', ha, hs⟩
    · exact ⟨s, .refl, hq⟩
    · have := (C53_decreases (hn s h) hs).1
      omega
  | succ n ih =>
    intro s hr h
    rcases hprog s h with hq | ⟨a, s', ha, hs⟩
    · exact ⟨s, .refl, hq⟩
    · have := (C53_decreases (hn s h) hs).1
      obtain ⟨s2, h2, h3⟩ := ih s' (by omega) (.step h ha hs)
      exact ⟨s2, htrans (.step .refl ha hs) h2, h3⟩

/-- **C53** (mode Parallel): from every state that an execution reaches, `train` can be executed to its end. -/
theorem C53_parallel_ends {todo : List String} {s₀ s : Pool} (h0 : Begins todo s₀) (hp : s₀.mode = .parallel) (h : Reach Strong s₀ s) :
    ∃ s', Reach Strong s s' ∧ s'.main = .returned ∧ Completed todo s₀.labels s' := by
  obtain ⟨s', h1, h2, h3⟩ := reach_end (fun s => s.main = .returned) h0.labelsNodup
    (fun s h => (C53_parallel_progress h0 hp h).imp id (fun h => h.2)) h
  exact ⟨s', h1, h3, C53_parallel_partial h0 hp h2 h3⟩

/-- **C53** (mode Background): from every state that an execution reaches in which no class ended before `train` returned, the training can be executed to its end. -/
theorem C53_background_ends {todo : List String} (hne : todo ≠ []) {s₀ s : Pool} (h0 : Begins todo s₀) (hp : s₀.mode = .background) (h : Reach Late s₀ s) :
    ∃ s', Reach Late s s' ∧ Completed todo s₀.labels s' := by
  obtain ⟨s', h1, h2, h3⟩ := reach_end (fun s => Completed todo s₀.labels s) h0.labelsNodup
    (fun s h => (C53_background_partial hne h0 hp h).2.2.imp (fun h => h.2) id) h
  exact ⟨s', h1, h3⟩

/-- C53 is violated in the mode Background: if the first class ends its training before the second one is started, Alldone is notified before the second class has an
    outcome; the second class then fails and is still in the model when all threads have ended, and its thread is never joined. -/
theorem C53_background_violated : ∃ s, Reach Strong (begin_ .background ["a", "b"]) s ∧ s.main = .returned ∧ s.joiners = [] ∧ s.isTraining = false ∧
    s.events = [(some "a", .done), (none, .allDone), (some "b", .error)] ∧ s.labels = ["a", "b"] ∧ s.handles = ["b"] ∧ Still s := by
  let as : List Act := [.main false, .main false, .final "a" .done, .joiner 0 false, .joiner 0 false, .joiner 0 false, .joiner 0 false, .joiner 0 false, .joiner 0 false,
    .joiner 0 false, .joiner 0 false, .main false, .main false, .main false, .final "b" .error, .joiner 0 false]
  obtain ⟨s, hs⟩ : ∃ s, acts as (begin_ .background ["a", "b"]) = some s := Option.isSome_iff_exists.1 (by decide +kernel)
  refine ⟨s, reach_acts as (strongly_ok (by decide +kernel)) .refl hs, ?_⟩
  have hk : ((acts as (begin_ .background ["a", "b"])).map fun s => decide (s.main = .returned ∧ s.joiners = [] ∧ s.isTraining = false ∧
    s.events = [(some "a", .done), (none, .allDone), (some "b", .error)] ∧ s.labels = ["a", "b"] ∧ s.handles = ["b"] ∧ ∀ c ∈ s.classes, c.thread ≠ .running)) = some true := by
    decide +kernel
  rw [hs] at hk
  simpa only [Option.map_some, Option.some.injEq, decide_eq_true_eq, Still] using hk

/-- C54 is violated in the mode Background: an execution in which the model has left the training state, so that queries are accepted, while the class `b` is being trained. -/
theorem C54_background_violated : ∃ s, Reach Strong (begin_ .background ["a", "b"]) s ∧ s.main = .returned ∧ s.isTraining = false ∧
    ∃ c ∈ s.classes, c.label = "b" ∧ c.training = true ∧ c.thread = .running := by
  let as : List Act := [.main false, .main false, .final "a" .done, .joiner 0 false, .joiner 0 false, .joiner 0 false, .joiner 0 false, .joiner 0 false, .joiner 0 false,
    .joiner 0 false, .joiner 0 false, .main false, .main false, .main false]
  obtain ⟨s, hs⟩ : ∃ s, acts as (begin_ .background ["a", "b"]) = some s := Option.isSome_iff_exists.1 (by decide +kernel)
  refine ⟨s, reach_acts as (strongly_ok (by decide +kernel)) .refl hs, ?_⟩
  have hk : ((acts as (begin_ .background ["a", "b"])).map fun s => decide (s.main = .returned ∧ s.isTraining = false ∧
    ∃ c ∈ s.classes, c.label = "b" ∧ c.training = true ∧ c.thread = .running)) = some true := by
    decide +kernel
  rw [hs] at hk
  simpa only [Option.map_some, Option.some.injEq, decide_eq_true_eq] using hk

/-- C53 is violated in the mode Background: an execution in which the detached thread resets the model just after the second class was started: `reset` throws, the exception
    leaves the thread, and `std::terminate` ends the program. -/
theorem C53_background_terminate_violated : ∃ s, Reach Strong (begin_ .background ["a", "b"]) s ∧ s.terminated = true := by
  let as : List Act := [.main false, .main false, .final "a" .done, .joiner 0 false, .joiner 0 false, .joiner 0 false, .joiner 0 false, .joiner 0 false, .joiner 0 false,
    .main false, .joiner 0 false]
  obtain ⟨s, hs⟩ : ∃ s, acts as (begin_ .background ["a", "b"]) = some s := Option.isSome_iff_exists.1 (by decide +kernel)
  refine ⟨s, reach_acts as (strongly_ok (by decide +kernel)) .refl hs, ?_⟩
  have hk : ((acts as (begin_ .background ["a", "b"])).map fun s => s.terminated) = some true := by
    decide +kernel
  rw [hs] at hk
  simpa only [Option.map_some, Option.some.injEq] using hk

/-- C53 is violated in the mode Background, also with one class: if it ends its training before its thread is stored, the training completes, but the thread is stored afterwards
    and never joined. -/
theorem C53_background_handle_violated : ∃ s, Reach Strong (begin_ .background ["a"]) s ∧ s.main = .returned ∧ s.joiners = [] ∧ s.isTraining = false ∧
    s.events = [(some "a", .done), (none, .allDone)] ∧ s.handles = ["a"] := by
  let as : List Act := [.main false, .final "a" .done, .joiner 0 false, .joiner 0 false, .joiner 0 false, .joiner 0 false, .joiner 0 false, .joiner 0 false,
    .joiner 0 false, .main false, .main false]
  obtain ⟨s, hs⟩ : ∃ s, acts as (begin_ .background ["a"]) = some s := Option.isSome_iff_exists.1 (by decide +kernel)
  refine ⟨s, reach_acts as (strongly_ok (by decide +kernel)) .refl hs, ?_⟩
  have hk : ((acts as (begin_ .background ["a"])).map fun s => decide (s.main = .returned ∧ s.joiners = [] ∧ s.isTraining = false ∧
    s.events = [(some "a", .done), (none, .allDone)] ∧ s.handles = ["a"])) = some true := by
    decide +kernel
  rw [hs] at hk
  simpa only [Option.map_some, Option.some.injEq, decide_eq_true_eq] using hk

/-- C53 is violated in the mode Parallel if `compare_exchange_weak` fails spuriously (line 490): `train` returns while the class is being trained, nothing joins its thread, and
    the model never leaves the training state. -/
theorem C53_spurious_violated : ∃ s, Reach (fun _ _ => True) (begin_ .parallel ["a"]) s ∧ s.main = .returned ∧ s.isTraining = true ∧ s.joiners = [] ∧ s.events = [] ∧
    ∃ c ∈ s.classes, c.thread = .running := by
  let as : List Act := [.main false, .main false, .main false, .main true, .main false]
  obtain ⟨s, hs⟩ : ∃ s, acts as (begin_ .parallel ["a"]) = some s := Option.isSome_iff_exists.1 (by decide +kernel)
  refine ⟨s, reach_acts as (fun _ _ _ => trivial) .refl hs, ?_⟩
  have hk : ((acts as (begin_ .parallel ["a"])).map fun s => decide (s.main = .returned ∧ s.isTraining = true ∧ s.joiners = [] ∧ s.events = [] ∧
    ∃ c ∈ s.classes, c.thread = .running)) = some true := by
    decide +kernel
  rw [hs] at hk
  simpa only [Option.map_some, Option.some.injEq, decide_eq_true_eq] using hk

/-- An execution of the mode Parallel with two classes, of which one fails: the hypotheses of C53 and C54 are met, and the model ends with the other class. -/
example : ∃ s, Begins ["a", "b"] (begin_ .parallel ["a", "b"]) ∧ Reach Strong (begin_ .parallel ["a", "b"]) s ∧ s.main = .returned ∧ s.labels = ["a"] ∧
    s.events = [(some "b", .run), (some "b", .error), (some "a", .run), (some "a", .done), (none, .allDone)] := by
  let as : List Act := [.main false, .main false, .main false, .main false, .main false, .main false, .run "b", .final "b" .error, .run "a", .final "a" .done,
    .main false, .main false, .main false, .main false, .main false, .main false, .main false, .main false]
  obtain ⟨s, hs⟩ : ∃ s, acts as (begin_ .parallel ["a", "b"]) = some s := Option.isSome_iff_exists.1 (by decide +kernel)
  refine ⟨s, begin_begins _ (by decide +kernel), reach_acts as (strongly_ok (by decide +kernel)) .refl hs, ?_⟩
  have hk : ((acts as (begin_ .parallel ["a", "b"])).map fun s => decide (s.main = .returned ∧ s.labels = ["a"] ∧
    s.events = [(some "b", .run), (some "b", .error), (some "a", .run), (some "a", .done), (none, .allDone)])) = some true := by
    decide +kernel
  rw [hs] at hk
  simpa only [Option.map_some, Option.some.injEq, decide_eq_true_eq] using hk

/-- An execution of the mode Sequential in which the class fails: it stays in the model. -/
example : ∃ s, Begins ["a"] (begin_ .sequential ["a"]) ∧ Reach (fun _ _ => True) (begin_ .sequential ["a"]) s ∧ s.main = .returned ∧ Outcome s.events "a" .error ∧ s.labels = ["a"] := by
  let as : List Act := [.main false, .final "a" .error, .main false, .main false]
  obtain ⟨s, hs⟩ : ∃ s, acts as (begin_ .sequential ["a"]) = some s := Option.isSome_iff_exists.1 (by decide +kernel)
  refine ⟨s, begin_begins _ (by decide +kernel), reach_acts as (fun _ _ _ => trivial) .refl hs, ?_⟩
  have hk : ((acts as (begin_ .sequential ["a"])).map fun s => decide (s.main = .returned ∧ eventsOf "a" s.events = [.error] ∧ s.labels = ["a"])) = some true := by
    decide +kernel
  rw [hs] at hk
  simp only [Option.map_some, Option.some.injEq, decide_eq_true_eq] at hk
  exact ⟨hk.1, ⟨Or.inr (Or.inl rfl), 0, hk.2.1⟩, hk.2.2⟩

/-- The hypotheses of the theorems on the mode Background are met: an execution that completes. -/
example : ∃ s, Begins ["a", "b"] (begin_ .background ["a", "b"]) ∧ Reach Late (begin_ .background ["a", "b"]) s ∧ Completed ["a", "b"] ["a", "b"] s := by
  have h0 := begin_begins .background (ls := ["a", "b"]) (by decide +kernel)
  obtain ⟨s, h1, h2⟩ := C53_background_ends (by simp) h0 rfl .refl
  exact ⟨s, h0, h1, h2⟩

/-- Those of the theorem on numbers that are no mode: an execution with an error. -/
example : ∃ s, Begins ["a", "b"] (begin_ .other ["a", "b"]) ∧ Reach (fun _ _ => True) (begin_ .other ["a", "b"]) s ∧ s.main = .returned ∧
    s.events = [(some "a", .error), (some "b", .run), (some "b", .done)] := by
  let as : List Act := [.main false, .final "a" .error, .main false, .main false, .run "b", .final "b" .done, .main false, .main false]
  obtain ⟨s, hs⟩ : ∃ s, acts as (begin_ .other ["a", "b"]) = some s := Option.isSome_iff_exists.1 (by decide +kernel)
  refine ⟨s, begin_begins .other (by decide +kernel), reach_acts as (fun _ _ _ => trivial) .refl hs, ?_⟩
  have hk : ((acts as (begin_ .other ["a", "b"])).map fun s => decide (s.main = .returned ∧ s.events = [(some "a", .error), (some "b", .run), (some "b", .done)])) = some true := by
    decide +kernel
  rw [hs] at hk
  simpa only [Option.map_some, Option.some.injEq, decide_eq_true_eq] using hk

end Pool
end Xmm
