import Verif.Spec.Training
import Verif.Lemmas.Loop
import Mathlib.Tactic.Linarith
import Mathlib.Tactic.Ring
import Mathlib.Tactic.NormNum
import Mathlib.Tactic.Positivity
import Mathlib.Algebra.Order.Field.Rat
set_option linter.unusedSimpArgs false
/- C52: training a class terminates with one outcome.  C79: the progression of the training. -/
namespace Xmm
namespace Trainer
open Prog (bind_def pure_def get_def set_def modify_def throw_def)
variable {V : Type}

/-- the progression after `i` iterations -/
def prog (P : EmParams) (i : Nat) : ℚ := if P.minIter < P.maxIter then (i : ℚ) / P.maxIter else (i : ℚ) / P.minIter

/-- `k` events Run -/
def Runs (P : EmParams) (evs : List TrainEvent) (k : Nat) : Prop :=
  evs.length = k ∧ ∀ i < k, evs[i]? = some ⟨.run, prog P (i + 1), i + 1⟩

theorem Runs.append {P : EmParams} {evs : List TrainEvent} {k : Nat} (h : Runs P evs k) : Runs P (evs ++ [⟨.run, prog P (k + 1), k + 1⟩]) (k + 1) := by
  refine ⟨by simp [h.1], fun i hi => ?_⟩
  rcases Nat.lt_succ_iff_lt_or_eq.mp hi with h' | h'
  · rw [List.getElem?_append_left (by rw [h.1]; exact h')]
    exact h.2 i h'
  · rw [h', List.getElem?_append_right (by rw [h.1]), h.1]
    simp

theorem Runs.outcome {P : EmParams} {evs : List TrainEvent} {k : Nat} (h : Runs P evs k) (e : TrainEvent) : OneOutcome (evs ++ [e]) k e.status := by
  refine ⟨by simp [h.1], fun i hi => ?_, e, ?_, rfl⟩
  · rw [List.getElem?_append_left (by rw [h.1]; exact hi)]
    exact ⟨_, h.2 i hi, rfl, rfl⟩
  · rw [List.getElem?_append_right (by rw [h.1]), h.1]
    simp

theorem cancel_no {E : EmEnv V} {s : Trainer V} (h : E.cancel s.checks = false) :
    cancelIfRequested E s = .ret false { s with checks := s.checks + 1 } := by
  simp [cancelIfRequested, h]

theorem cancel_yes {E : EmEnv V} {s : Trainer V} (h : E.cancel s.checks = true) :
    cancelIfRequested E s = .ret true { s with
      checks := s.checks + 1, locked := false, status := .cancel, isTraining := false, events := s.events ++ [⟨.cancel, s.progression, s.iterations⟩] } := by
  simp [cancelIfRequested, h, notify]

/-- the condition of the loop holds after `k` iterations -/
def Unstopped (E : EmEnv V) (P : EmParams) (k : Nat) : Prop :=
  k < 1000 ∧ (P.minIter ≤ P.maxIter → k < P.maxIter) ∧ (P.maxIter < P.minIter → P.minIter ≤ k → ¬ E.Converged k)

theorem At.unique {E : EmEnv V} {k : Nat} {v w : V} (h1 : E.At k v) (h2 : E.At k w) : v = w := by
  unfold EmEnv.At at h1 h2
  by_cases h : k = 0
  · rw [if_pos h] at h1 h2
    rw [h1, h2]
  · rw [if_neg h] at h1 h2
    rw [h1] at h2
    exact Option.some.inj h2

/-- in the loop, after `s.iterations` iterations -/
structure In (E : EmEnv V) (P : EmParams) (s : Trainer V) : Prop where
  locked : s.locked = true
  status : s.status = .run
  runs : Runs P s.events s.iterations
  le : s.iterations ≤ 1000
  updates : s.updates = s.iterations
  checks : s.checks = s.iterations + 1
  returned : ∀ i < s.iterations, ∃ v, E.update i = some v
  quiet : ∀ i < s.checks, E.cancel i = false
  last : E.At s.iterations s.logLik
  unstopped : ∀ i < s.iterations, Unstopped E P i

theorem In.before {E : EmEnv V} {P : EmParams} {s : Trainer V} (h : In E P s) (e : TrainEvent) :
    ∀ i < s.iterations, (s.events ++ [e])[i]? = some ⟨.run, prog P (i + 1), i + 1⟩ ∧ Unstopped E P i ∧ ∃ v, E.update i = some v := fun i hi => by
  rw [List.getElem?_append_left (by rw [h.runs.1]; exact hi)]
  exact ⟨h.runs.2 i hi, h.unstopped i hi, h.returned i hi⟩

/-- why the loop is left -/
def Stop (E : EmEnv V) (P : EmParams) (k : Nat) : Prop :=
  k = 1000 ∨ (P.minIter ≤ P.maxIter ∧ P.maxIter ≤ k) ∨ (P.maxIter < P.minIter ∧ P.minIter ≤ k ∧ E.Converged k)

/-- the training has ended in the loop -/
structure Over (E : EmEnv V) (P : EmParams) (data : Bool) (s : Trainer V) : Prop where
  unlocked : s.locked = false
  idle : s.isTraining = false
  updates : s.updates ≤ 1000
  checks : 1 ≤ s.checks
  quiet : ∀ i < s.checks - 1, E.cancel i = false
  out : ∃ k, k ≤ 1000 ∧ OneOutcome s.events k s.status ∧ (∀ i < k, s.events[i]? = some ⟨.run, prog P (i + 1), i + 1⟩ ∧ Unstopped E P i ∧ ∃ v, E.update i = some v) ∧
    ((s.status = .error ∧ E.cancel (s.checks - 1) = false ∧ (data = true → E.init = true → s.updates = k + 1) ∧
        (data = false ∨ E.init = false ∨ E.update k = none ∨ (2 ≤ k ∧ ∃ l o, E.isNan l o = true ∧ E.update k = some l ∧ E.update (k - 1) = some o))) ∨
      (s.status = .cancel ∧ E.cancel (s.checks - 1) = true ∧ s.updates = k))

theorem hasConverged_iff {E : EmEnv V} {P : EmParams} {k : Nat} {l o : V} (hk : k ≤ 1000) (h : hasConverged E P k l o = true) :
    k = 1000 ∨ (P.minIter ≤ P.maxIter ∧ P.maxIter ≤ k) ∨ (P.maxIter < P.minIter ∧ P.minIter ≤ k ∧ E.close l o = true) := by
  unfold hasConverged at h
  split at h
  · left; omega
  · split at h
    · right; left
      exact ⟨by assumption, by simpa using h⟩
    · right; right
      rename_i h1 h2
      simp only [Bool.and_eq_true, decide_eq_true_eq] at h
      exact ⟨by omega, h.1, h.2⟩

theorem not_hasConverged {E : EmEnv V} {P : EmParams} {k : Nat} {l o : V} (hl : E.At k l) (ho : E.At (k - 1) o) (h : hasConverged E P k l o = false) : Unstopped E P k := by
  unfold hasConverged at h
  split at h
  · simp at h
  · refine ⟨by omega, fun hm => ?_, fun hm hk => ?_⟩
    · rw [if_pos hm] at h
      simpa using h
    · rw [if_neg (by omega)] at h
      rintro ⟨l', o', h1, h2, h3⟩
      rw [At.unique h1 hl, At.unique h2 ho] at h3
      simp [hk, h3] at h

/-- the loop without an error before it -/
theorem emLoop_ok (E : EmEnv V) (P : EmParams) (hP : 1 ≤ P.minIter) (data : Bool) : ∀ (fuel : Nat) (old : V) (s : Trainer V), In E P s → 1000 - s.iterations < fuel →
    E.At (s.iterations - 1) old →
    ∃ r s', emLoop E P fuel false old s = .ret r s' ∧
      ((r = .converged ∧ In E P s' ∧ Stop E P s'.iterations) ∨
        (r = .returned ∧ Over E P data s'))
  | 0, _, s, _, hf, _ => by omega
  | fuel + 1, old, s, hs, hf, hold => by
    unfold emLoop
    rw [bind_of_ret (get_def s)]
    cases hc : hasConverged E P s.iterations s.logLik old with
    | true =>
      rw [if_pos rfl, pure_def]
      refine ⟨_, _, rfl, .inl ⟨rfl, hs, ?_⟩⟩
      rcases hasConverged_iff hs.le hc with h | h | ⟨h1, h2, h3⟩
      · exact .inl h
      · exact .inr (.inl h)
      · exact .inr (.inr ⟨h1, h2, _, _, hs.last, hold, h3⟩)
    | false =>
      have hu := not_hasConverged hs.last hold hc
      have hlt := hu.1
      rw [if_neg (by simp)]
      cases hcan : E.cancel s.checks with
      | true =>
        rw [bind_of_ret (cancel_yes hcan), if_pos rfl, pure_def]
        refine ⟨_, _, rfl, .inr ⟨rfl, ?_⟩⟩
        refine ⟨rfl, rfl, ?_, by simp, fun i hi => hs.quiet i (by simpa using hi), s.iterations, hs.le, hs.runs.outcome _, hs.before _, .inr ⟨rfl, by simpa using hcan, hs.updates⟩⟩
        show s.updates ≤ 1000
        rw [hs.updates]; exact hs.le
      | false =>
        rw [bind_of_ret (cancel_no hcan), if_neg (by simp), bind_of_ret (get_def _)]
        have hq : ∀ i < s.checks + 1, E.cancel i = false := fun i hi => by
          rcases Nat.lt_succ_iff_lt_or_eq.mp hi with h | h
          · exact hs.quiet i h
          · rw [h]; exact hcan
        cases hup : E.update s.updates with
        | none =>
          have hem : emUpdate E false ({ s with checks := s.checks + 1 } : Trainer V) = .ret true { s with checks := s.checks + 1, updates := s.updates + 1 } := by
            simp [emUpdate, hup]
          rw [bind_of_ret hem, bind_of_ret (get_def _)]
          simp only [Bool.true_or, if_true]
          refine ⟨_, _, rfl, .inr ⟨rfl, ?_⟩⟩
          refine ⟨rfl, rfl, ?_, by simp, fun i hi => hs.quiet i (by simpa using hi), s.iterations, hs.le, hs.runs.outcome _, hs.before _,
            .inl ⟨rfl, by simpa using hcan, fun _ _ => by simp [hs.updates], .inr (.inr (.inl ?_))⟩⟩
          · show s.updates + 1 ≤ 1000
            rw [hs.updates]; omega
          · rw [← hs.updates]; exact hup
        | some v =>
          have hem : emUpdate E false ({ s with checks := s.checks + 1 } : Trainer V) =
              .ret false { s with checks := s.checks + 1, updates := s.updates + 1, logLik := v } := by
            simp [emUpdate, hup]
          rw [bind_of_ret hem, bind_of_ret (get_def _)]
          simp only [Bool.false_or]
          have hup' : E.update s.iterations = some v := by rw [← hs.updates]; exact hup
          cases hn : (E.isNan v s.logLik && decide (1 < s.iterations)) with
          | true =>
            simp only [if_true]
            simp only [Bool.and_eq_true, decide_eq_true_eq] at hn
            refine ⟨_, _, rfl, .inr ⟨rfl, ?_⟩⟩
            refine ⟨rfl, rfl, ?_, by simp, fun i hi => hs.quiet i (by simpa using hi), s.iterations, hs.le, hs.runs.outcome _, hs.before _,
              .inl ⟨rfl, by simpa using hcan, fun _ _ => by simp [hs.updates], .inr (.inr (.inr ⟨hn.2, _, _, hn.1, hup', by have := hs.last; unfold EmEnv.At at this; rwa [if_neg (by omega)] at this⟩))⟩⟩
            show s.updates + 1 ≤ 1000
            rw [hs.updates]; omega
          | false =>
            simp only [Bool.false_eq_true, if_false]
            rw [bind_of_ret (modify_def _ _), bind_of_ret (modify_def _ _)]
            unfold notify
            rw [bind_of_ret (modify_def _ _)]
            obtain ⟨s1, hs1⟩ : ∃ s1 : Trainer V, s1 = { s with
                checks := s.checks + 1, updates := s.updates + 1, logLik := v, iterations := s.iterations + 1, progression := prog P (s.iterations + 1),
                events := s.events ++ [⟨s.status, prog P (s.iterations + 1), s.iterations + 1⟩] } := ⟨_, rfl⟩
            have hin : In E P s1 := by
              rw [hs1]
              refine ⟨hs.locked, hs.status, ?_, by simpa using hlt, by simp [hs.updates], by simp [hs.checks], ?_, hq, ?_, ?_⟩
              · show Runs P (s.events ++ [⟨s.status, _, _⟩]) (s.iterations + 1)
                rw [hs.status]
                exact hs.runs.append
              · intro i hi
                rcases Nat.lt_succ_iff_lt_or_eq.mp hi with h | h
                · exact hs.returned i h
                · rw [h]; exact ⟨v, hup'⟩
              · unfold EmEnv.At
                rw [if_neg (by simp)]
                simpa using hup'
              · intro i hi
                rcases Nat.lt_succ_iff_lt_or_eq.mp hi with h | h
                · exact hs.unstopped i h
                · rw [h]; exact hu
            obtain ⟨r, s', h1, h2⟩ := emLoop_ok E P hP data fuel s.logLik s1 hin (by rw [hs1]; simp only; omega) (by
              rw [hs1]
              exact hs.last)
            refine ⟨r, s', ?_, ?_⟩
            · rw [hs1] at h1
              exact h1
            · exact h2

/-- the loop after an error before it: there is always a first iteration -/
theorem emLoop_err (E : EmEnv V) (P : EmParams) (hP : 1 ≤ P.minIter) (data : Bool) (he : data = false ∨ E.init = false) (fuel : Nat) (hf : 0 < fuel) (old : V)
    (s : Trainer V) (hs : In E P s) (h0 : s.iterations = 0) : ∃ s', emLoop E P fuel true old s = .ret .returned s' ∧ Over E P data s' := by
  obtain ⟨fuel, rfl⟩ : ∃ n, fuel = n + 1 := ⟨fuel - 1, by omega⟩
  unfold emLoop
  rw [bind_of_ret (get_def s)]
  have hc : hasConverged E P s.iterations s.logLik old = false := by
    unfold hasConverged
    rw [h0, if_neg (by omega)]
    split
    · simp; omega
    · simp; omega
  rw [hc, if_neg (by simp)]
  have hu0 : s.updates ≤ 1000 := by rw [hs.updates]; exact hs.le
  have hr : Runs P s.events s.iterations := hs.runs
  cases hcan : E.cancel s.checks with
  | true =>
    rw [bind_of_ret (cancel_yes hcan), if_pos rfl, pure_def]
    exact ⟨_, rfl, rfl, rfl, hu0, by simp, fun i hi => hs.quiet i (by simpa using hi), s.iterations, hs.le, hr.outcome _, hs.before _, .inr ⟨rfl, by simpa using hcan, hs.updates⟩⟩
  | false =>
    rw [bind_of_ret (cancel_no hcan), if_neg (by simp), bind_of_ret (get_def _)]
    have hem : emUpdate E true ({ s with checks := s.checks + 1 } : Trainer V) = .ret true { s with checks := s.checks + 1 } := by
      simp [emUpdate]
    rw [bind_of_ret hem, bind_of_ret (get_def _)]
    simp only [Bool.true_or, if_true]
    refine ⟨_, rfl, rfl, rfl, hu0, by simp, fun i hi => hs.quiet i (by simpa using hi), s.iterations, hs.le, hr.outcome _, hs.before _, .inl ⟨rfl, by simpa using hcan, fun h1 h2 => ?_, ?_⟩⟩
    · rcases he with he | he
      · rw [h1] at he; cases he
      · rw [h2] at he; cases he
    rcases he with he | he
    · exact .inl he
    · exact .inr (.inl he)

/-- the training of a class: the events, the outcome and its reason -/
structure Trained (E : EmEnv V) (P : EmParams) (data : Bool) (s : Trainer V) (k : Nat) : Prop where
  unlocked : s.locked = false
  idle : s.isTraining = false
  updates : s.updates ≤ 1000
  le : k ≤ 1000
  outcome : OneOutcome s.events k s.status
  before : ∀ i < k, s.events[i]? = some ⟨.run, prog P (i + 1), i + 1⟩ ∧ Unstopped E P i ∧ ∃ v, E.update i = some v
  final : s.status.Final
  quiet : ∀ i < s.checks - 1, E.cancel i = false
  cancel : s.status = .cancel ↔ E.cancel (s.checks - 1) = true
  error : s.status = .error → data = false ∨ E.init = false ∨ E.update k = none ∨
    (2 ≤ k ∧ ∃ l o, E.isNan l o = true ∧ E.update k = some l ∧ E.update (k - 1) = some o)
  done : s.status = .done → data = true ∧ E.init = true ∧ (∀ i < k, ∃ v, E.update i = some v) ∧ Stop E P k
  count : data = true → E.init = true → (s.status = .done → s.updates = k) ∧ (s.status = .error → s.updates = k + 1)
  stopped : s.status = .cancel → s.updates = k

theorem Over.trained {E : EmEnv V} {P : EmParams} {data : Bool} {s : Trainer V} (h : Over E P data s) : ∃ k, Trained E P data s k := by
  obtain ⟨k, hk, ho, hb, hr⟩ := h.out
  refine ⟨k, ?_⟩
  rcases hr with ⟨h1, h2, h4, h3⟩ | ⟨h1, h2, h5⟩
  · exact ⟨h.unlocked, h.idle, h.updates, hk, ho, hb, .inr (.inl h1), h.quiet, by simp [h1, h2], fun _ => h3, by simp [h1],
      fun d1 d2 => ⟨by simp [h1], fun _ => h4 d1 d2⟩, by simp [h1]⟩
  · exact ⟨h.unlocked, h.idle, h.updates, hk, ho, hb, .inr (.inr h1), h.quiet, by simp [h1, h2], by simp [h1], by simp [h1],
      fun _ _ => ⟨by simp [h1], by simp [h1]⟩, fun _ => h5⟩

theorem train_trained (E : EmEnv V) (P : EmParams) (hP : 1 ≤ P.minIter) (data alloc : Bool) (ha : data = true → alloc = true) (fuel : Nat) (hf : 1000 < fuel)
    (s : Trainer V) (h0 : s.events = [] ∧ s.checks = 0 ∧ s.updates = 0) :
    ∃ s' k, train E P data alloc fuel s = .ret true s' ∧ Trained E P data s' k := by
  obtain ⟨e1, e2, e3⟩ := h0
  unfold train
  rw [bind_of_ret (modify_def _ _)]
  rw [if_neg (by cases data <;> simp_all)]
  simp only
  have hr0 : Runs P ([] : List TrainEvent) 0 := ⟨rfl, by simp⟩
  cases hcan : E.cancel s.checks with
  | true =>
    rw [bind_of_ret (cancel_yes (s := { s with locked := true, status := .run }) hcan), if_pos rfl, pure_def]
    refine ⟨_, 0, rfl, ⟨rfl, rfl, by simp [e3], by simp, ?_, by simp, .inr (.inr rfl), by simp [e2], by simp [hcan], by simp, by simp, by simp, by simp [e3]⟩⟩
    simp only [e1]
    exact hr0.outcome _
  | false =>
    rw [bind_of_ret (cancel_no (s := { s with locked := true, status := .run }) hcan), if_neg (by simp), bind_of_ret (modify_def _ _)]
    obtain ⟨s1, hs1⟩ : ∃ s1 : Trainer V, s1 = { s with locked := true, status := .run, checks := s.checks + 1, logLik := E.lowest, iterations := 0 } := ⟨_, rfl⟩
    have hin : In E P s1 := by
      rw [hs1]
      refine ⟨rfl, rfl, by simpa [e1] using hr0, by simp, by simp [e3], by simp [e2], by simp, ?_, by simp [EmEnv.At], by simp⟩
      intro i hi
      have : i = s.checks := by simp only at hi; omega
      rw [this]; exact hcan
    rw [← hs1]
    have hit : s1.iterations = 0 := by rw [hs1]
    cases herr : (!data || !E.init) with
    | true =>
      obtain ⟨s', h1, h2⟩ := emLoop_err E P hP data (by
        simp only [Bool.or_eq_true, Bool.not_eq_true'] at herr
        exact herr) fuel (by omega) E.lowest s1 hin hit
      rw [bind_of_ret h1]
      obtain ⟨k, hk⟩ := h2.trained (P := P)
      exact ⟨s', k, rfl, hk⟩
    | false =>
      obtain ⟨r, s', h1, h2⟩ := emLoop_ok E P hP data fuel E.lowest s1 hin (by omega) (by simp [EmEnv.At, hit])
      rw [bind_of_ret h1]
      simp only [Bool.or_eq_false_iff, Bool.not_eq_false'] at herr
      rcases h2 with ⟨rfl, h2, h4⟩ | ⟨rfl, h2⟩
      · simp only
        have hu : s'.updates ≤ 1000 := by rw [h2.updates]; exact h2.le
        cases hcan' : E.cancel s'.checks with
        | true =>
          rw [bind_of_ret (cancel_yes hcan'), if_pos rfl, pure_def]
          exact ⟨_, s'.iterations, rfl, ⟨rfl, rfl, hu, h2.le, h2.runs.outcome _, h2.before _, .inr (.inr rfl), fun i hi => h2.quiet i (by simpa using hi), by simp [hcan'],
            by simp, by simp, by simp, fun _ => h2.updates⟩⟩
        | false =>
          rw [bind_of_ret (cancel_no hcan'), if_neg (by simp)]
          unfold emTerminate notify
          simp only [bind_def, modify_def, pure_def]
          refine ⟨_, s'.iterations, rfl, ⟨rfl, rfl, hu, h2.le, h2.runs.outcome _, h2.before _, .inl rfl, fun i hi => h2.quiet i (by simpa using hi), by simp [hcan'],
            by simp, fun _ => ⟨herr.1, herr.2, h2.returned, h4⟩, fun _ _ => ⟨fun _ => h2.updates, by simp⟩, by simp⟩⟩
      · simp only
        obtain ⟨k, hk⟩ := h2.trained (P := P)
        exact ⟨s', k, rfl, hk⟩

theorem emLoop_mono (E : EmEnv V) (P : EmParams) : ∀ (fuel : Nat) (err : Bool) (old : V) (s : Trainer V) (r : Ended) (s' : Trainer V),
    emLoop E P fuel err old s = .ret r s' → r ≠ .running → emLoop E P (fuel + 1) err old s = .ret r s'
  | 0, err, old, s, r, s', h, hr => by
    simp only [emLoop, pure_def, Res.ret.injEq] at h
    exact absurd h.1.symm hr
  | fuel + 1, err, old, s, r, s', h, hr => by
    unfold emLoop at h ⊢
    simp only [bind_def, get_def] at h ⊢
    split
    · rename_i hc
      rw [if_pos hc] at h
      exact h
    · rename_i hc
      rw [if_neg hc] at h
      simp only [bind_def] at h ⊢
      cases hcc : cancelIfRequested E s with
      | ub => rw [hcc] at h; exact h
      | throw e t => rw [hcc] at h; exact h
      | ret b t =>
        rw [hcc] at h
        simp only at h ⊢
        split
        · rename_i hb
          rw [if_pos hb] at h
          exact h
        · rename_i hb
          rw [if_neg hb] at h
          simp only [bind_def, get_def] at h ⊢
          cases heu : emUpdate E err t with
          | ub => rw [heu] at h; exact h
          | throw e t' => rw [heu] at h; exact h
          | ret b' t' =>
            rw [heu] at h
            simp only at h ⊢
            split
            · rename_i hb'
              rw [if_pos hb'] at h
              exact h
            · rename_i hb'
              rw [if_neg hb'] at h
              simp only [bind_def, modify_def, notify] at h ⊢
              exact emLoop_mono E P fuel _ _ _ _ _ h hr

theorem train_mono (E : EmEnv V) (P : EmParams) (data alloc : Bool) (fuel : Nat) (s s' : Trainer V) (h : train E P data alloc fuel s = .ret true s') :
    train E P data alloc (fuel + 1) s = .ret true s' := by
  unfold train at h ⊢
  simp only [bind_def, modify_def] at h ⊢
  split
  · rename_i hc
    rw [if_pos hc] at h
    exact h
  · rename_i hc
    rw [if_neg hc] at h
    simp only [bind_def] at h ⊢
    generalize ({ s with locked := true, status := .run } : Trainer V) = s1 at h ⊢
    cases hcc : cancelIfRequested E s1 with
    | ub => rw [hcc] at h; exact h
    | throw e t => rw [hcc] at h; exact h
    | ret b t =>
      rw [hcc] at h
      simp only at h ⊢
      split
      · rename_i hb
        rw [if_pos hb] at h
        exact h
      · rename_i hb
        rw [if_neg hb] at h
        simp only [bind_def, modify_def] at h ⊢
        generalize ({ t with logLik := E.lowest, iterations := 0 } : Trainer V) = t1 at h ⊢
        cases hl : emLoop E P fuel (!data || !E.init) E.lowest t1 with
        | ub => rw [hl] at h; simp at h
        | throw e t => rw [hl] at h; simp at h
        | ret r t2 =>
          rw [hl] at h
          simp only at h
          by_cases hr : r = .running
          · subst hr
            simp at h
          · rw [emLoop_mono E P _ _ _ _ _ _ hl hr]
            exact h

theorem train_fuel {E : EmEnv V} {P : EmParams} {data alloc : Bool} {s s' : Trainer V} (h1 : train E P data alloc 1001 s = .ret true s') (fuel : Nat)
    (hf : 1000 < fuel) : train E P data alloc fuel s = .ret true s' := by
  obtain ⟨n, rfl⟩ : ∃ n, fuel = 1001 + n := ⟨fuel - 1001, by omega⟩
  clear hf
  induction n with
  | zero => exact h1
  | succ n ih => exact train_mono _ _ _ _ _ _ _ ih

/-- **C52**: the training of a class that is not training, with parameters that the attributes accept (`em_algorithm_min_iterations >= 1`), ends, whatever its steps
    return or throw and whenever another thread requests a cancellation: at most 1000 iterations; any number of events Run, one per iteration, followed by
    exactly one event Done, Error or Cancel; the lock is released.  It is cancelled if and only if the last test saw the request; an error has a reason; it
    is done only if no step has failed and the parameters told to stop, not before: after `em_algorithm_max_iterations` iterations, or, if that is less than
    `em_algorithm_min_iterations`, after the first iteration from that number on that has hardly changed the log-likelihood.  (Partial: `allocate()` must not throw.) -/
theorem C52_one_outcome_partial (E : EmEnv V) (P : EmParams) (hP : 1 ≤ P.minIter) (data : Bool) (s : Trainer V)
    (h0 : s.events = [] ∧ s.checks = 0 ∧ s.updates = 0) :
    ∃ s' k, (∀ fuel, 1000 < fuel → train E P data true fuel s = .ret true s') ∧
      OneOutcome s'.events k s'.status ∧ s'.status.Final ∧ k ≤ 1000 ∧ s'.updates ≤ 1000 ∧ s'.locked = false ∧ s'.isTraining = false ∧
      (s'.status = .cancel ↔ E.cancel (s'.checks - 1) = true) ∧ (∀ i < s'.checks - 1, E.cancel i = false) ∧
      (s'.status = .error → data = false ∨ E.init = false ∨ E.update k = none ∨
        (2 ≤ k ∧ ∃ l o, E.isNan l o = true ∧ E.update k = some l ∧ E.update (k - 1) = some o)) ∧
      (∀ i < k, ∃ v, E.update i = some v) ∧ (s'.status = .done → data = true ∧ E.init = true) ∧
      (s'.status = .done → P.minIter ≤ P.maxIter → k = min P.maxIter 1000) ∧
      (s'.status = .done → P.maxIter < P.minIter → (k = 1000 ∨ (P.minIter ≤ k ∧ E.Converged k)) ∧
        ∀ j < k, P.minIter ≤ j → ¬ E.Converged j) := by
  obtain ⟨s', k, h1, h2⟩ := train_trained E P hP data true (fun _ => rfl) 1001 (by omega) s h0
  refine ⟨s', k, train_fuel h1, h2.outcome, h2.final, h2.le, h2.updates, h2.unlocked, h2.idle, h2.cancel, h2.quiet, h2.error,
    fun i hi => (h2.before i hi).2.2, fun hd => ⟨(h2.done hd).1, (h2.done hd).2.1⟩, fun hd hm => ?_, fun hd hm => ?_⟩
  · obtain ⟨-, -, -, h3⟩ := h2.done hd
    have hk := h2.le
    have hk1 : k ≤ P.maxIter := by
      by_contra hc
      have := (h2.before P.maxIter (by omega)).2.1.2.1 hm
      omega
    rcases h3 with h | ⟨-, h⟩ | ⟨h, -⟩ <;> omega
  · refine ⟨?_, fun j hj => (h2.before j hj).2.1.2.2 hm⟩
    obtain ⟨-, -, -, h3⟩ := h2.done hd
    rcases h3 with h | ⟨h, -⟩ | ⟨-, h1, h2⟩
    · exact .inl h
    · omega
    · exact .inr ⟨h1, h2⟩

/-- **C52**: if nothing disturbs it, the training is done after exactly `em_algorithm_max_iterations` iterations (1000 at most) if that is not
    less than `em_algorithm_min_iterations`. -/
theorem C52_iterations (E : EmEnv V) (hE : E.Quiet) (P : EmParams) (hP : 1 ≤ P.minIter) (hm : P.minIter ≤ P.maxIter) (s : Trainer V)
    (h0 : s.events = [] ∧ s.checks = 0 ∧ s.updates = 0) :
    ∃ s', (∀ fuel, 1000 < fuel → train E P true true fuel s = .ret true s') ∧ OneOutcome s'.events P.limit .done := by
  obtain ⟨s', k, h1, h2, h3, -, -, -, -, h4, -, h5, -, -, h6, -⟩ := C52_one_outcome_partial E P hP true s h0
  have hd : s'.status = .done := by
    rcases h3 with h | h | h
    · exact h
    · rcases h5 h with h | h | h | ⟨-, l, o, h, -⟩
      · simp at h
      · rw [hE.init] at h; simp at h
      · obtain ⟨v, hv⟩ := hE.update k
        rw [hv] at h; simp at h
      · rw [hE.nan] at h; simp at h
    · have := h4.mp h
      rw [hE.cancel] at this
      simp at this
  refine ⟨s', h1, ?_⟩
  unfold EmParams.limit
  rw [← h6 hd hm, ← hd]
  exact h2

/-- **C52**: if nothing disturbs it and `em_algorithm_max_iterations` is less than `em_algorithm_min_iterations` (as by default), the training is done after the first iteration,
    from the number `em_algorithm_min_iterations` on, that has hardly changed the log-likelihood, and after 1000 iterations if there is none before. -/
theorem C52_convergence (E : EmEnv V) (hE : E.Quiet) (P : EmParams) (hP : 1 ≤ P.minIter) (hm : P.maxIter < P.minIter) (s : Trainer V)
    (h0 : s.events = [] ∧ s.checks = 0 ∧ s.updates = 0) :
    ∃ s' k, (∀ fuel, 1000 < fuel → train E P true true fuel s = .ret true s') ∧ OneOutcome s'.events k .done ∧ k ≤ 1000 ∧
      (k = 1000 ∨ (P.minIter ≤ k ∧ E.Converged k)) ∧ ∀ j < k, P.minIter ≤ j → ¬ E.Converged j := by
  obtain ⟨s', k, h1, h2, h3, hk, -, -, -, h4, -, h5, -, -, -, h6⟩ := C52_one_outcome_partial E P hP true s h0
  have hd : s'.status = .done := by
    rcases h3 with h | h | h
    · exact h
    · rcases h5 h with h | h | h | ⟨-, l, o, h, -⟩
      · simp at h
      · rw [hE.init] at h; simp at h
      · obtain ⟨v, hv⟩ := hE.update k
        rw [hv] at h; simp at h
      · rw [hE.nan] at h; simp at h
    · have := h4.mp h
      rw [hE.cancel] at this
      simp at this
  exact ⟨s', k, h1, hd ▸ h2, hk, h6 hd hm⟩

/-- C52 is violated if `allocate()` throws: the exception leaves `train` with the lock held, in a class that is still marked as training, and no event has
    been sent. -/
theorem C52_allocate_violated (E : EmEnv V) (P : EmParams) (fuel : Nat) (s : Trainer V) :
    ∃ s', train E P true false fuel s = .throw .lengthError s' ∧ s'.locked = true ∧ s'.isTraining = s.isTraining ∧ s'.events = s.events :=
  ⟨{ s with locked := true, status := .run }, by simp [train], rfl, rfl, rfl⟩

/-- the parameters by default: `em_algorithm_min_iterations` is 10 and `em_algorithm_max_iterations` 0 -/
def defaults : EmParams := ⟨10, 0⟩

/-- examples of the outcomes: the steps throw from number `upTo` on, the cancellation is requested from the test number `cancelAt` on, the likelihood has
    converged from step number `closeAt` on -/
def env (init : Bool) (upTo cancelAt closeAt : Nat) : EmEnv Nat :=
  { init := init, update := fun k => if k < upTo then some k else none, cancel := fun k => cancelAt ≤ k, lowest := 0, isNan := fun _ _ => false,
    close := fun l _ => closeAt ≤ l }

/-- a class whose training begins -/
def fresh : Trainer Nat := ⟨.run, 0, 0, 0, true, false, [], 0, 0⟩

/-- does `train` return with this status after this number of events? -/
def ends (r : Res (Trainer Nat) Bool) (st : Status) (n : Nat) : Bool :=
  match r with
  | .ret true s => decide (s.status = st ∧ s.events.length = n)
  | _ => false

example : ends (train (env true 2000 2000 12) defaults true true 1001 fresh) .done 14 = true := by decide +kernel
example : ends (train (env true 5 2000 12) defaults true true 1001 fresh) .error 6 = true := by decide +kernel
example : ends (train (env true 2000 7 12) defaults true true 1001 fresh) .cancel 7 = true := by decide +kernel
example : ends (train (env false 2000 2000 12) defaults true true 1001 fresh) .error 1 = true := by decide +kernel
example : ∃ E : EmEnv ℚ, E.Quiet := ⟨⟨true, fun k => some k, fun _ => false, 0, fun _ _ => false, fun _ _ => false⟩, rfl, fun _ => ⟨_, rfl⟩, fun _ => rfl, fun _ _ => rfl⟩

/-- **C79** if `em_algorithm_max_iterations` is not less than `em_algorithm_min_iterations`: the progression that the events Run report is the fraction of the iterations that
    are done; it increases, and is greater than 0 and at most 1. -/
theorem C79_progression_partial (E : EmEnv V) (P : EmParams) (hP : 1 ≤ P.minIter) (hm : P.minIter ≤ P.maxIter) (data : Bool) (s : Trainer V)
    (h0 : s.events = [] ∧ s.checks = 0 ∧ s.updates = 0) :
    ∃ s' k, (∀ fuel, 1000 < fuel → train E P data true fuel s = .ret true s') ∧ OneOutcome s'.events k s'.status ∧ s'.status.Final ∧
      ∀ (i : Nat) (e : TrainEvent), s'.events[i]? = some e → e.status = .run →
        e.progression = (e.iterations : ℚ) / P.maxIter ∧ 0 < e.progression ∧ e.progression ≤ 1 := by
  obtain ⟨s', k, h1, h2⟩ := train_trained E P hP data true (fun _ => rfl) 1001 (by omega) s h0
  refine ⟨s', k, train_fuel h1, h2.outcome, h2.final, fun i e hi hr => ?_⟩
  obtain ⟨o1, -, e', o3, o4⟩ := h2.outcome
  have hik : i < k := by
    have hl : i < s'.events.length := by
      by_contra hc
      rw [List.getElem?_eq_none (by omega)] at hi
      simp at hi
    rcases Nat.lt_or_ge i k with h | h
    · exact h
    · have : i = k := by omega
      rw [this, o3] at hi
      simp only [Option.some.injEq] at hi
      rw [← hi, o4] at hr
      rcases h2.final with h | h | h <;> rw [h] at hr <;> simp at hr
  obtain ⟨b1, b2⟩ := h2.before i hik
  rw [b1] at hi
  simp only [Option.some.injEq] at hi
  have hlt := b2.1.2.1 hm
  have hpos : (0 : ℚ) < P.maxIter := by
    have : 0 < P.maxIter := by omega
    exact_mod_cast this
  have hprog : prog P (i + 1) = ((i + 1 : Nat) : ℚ) / P.maxIter := by
    unfold prog
    split
    · rfl
    · rw [show P.minIter = P.maxIter by omega]
  rw [← hi]
  simp only [hprog]
  refine ⟨trivial, by positivity, ?_⟩
  rw [div_le_one hpos]
  exact_mod_cast hlt

/-- C79 is violated by every training that stops by convergence (as with the parameters by default) after more than `em_algorithm_min_iterations` iterations: the progression
    exceeds 1. -/
theorem C79_progression_violated (E : EmEnv V) (P : EmParams) (hP : 1 ≤ P.minIter) (hm : P.maxIter < P.minIter) (data : Bool) (s s' : Trainer V)
    (h0 : s.events = [] ∧ s.checks = 0 ∧ s.updates = 0) (h : train E P data true 1001 s = .ret true s') (hl : P.minIter + 1 < s'.events.length) :
    ∃ e ∈ s'.events, e.status = .run ∧ 1 < e.progression := by
  obtain ⟨s1, k, h1, h2⟩ := train_trained E P hP data true (fun _ => rfl) 1001 (by omega) s h0
  rw [h] at h1
  simp only [Res.ret.injEq, true_and] at h1
  subst h1
  have hk := h2.outcome.1
  have hb := (h2.before P.minIter (by omega)).1
  refine ⟨_, List.mem_of_getElem? hb, rfl, ?_⟩
  have hpos : (0 : ℚ) < P.minIter := by exact_mod_cast hP
  show 1 < prog P (P.minIter + 1)
  unfold prog
  rw [if_neg (by omega), lt_div_iff₀ hpos]
  push_cast
  linarith

example : ∃ s', train (env true 2000 2000 12) defaults true true 1001 fresh = .ret true s' ∧ defaults.minIter + 1 < s'.events.length := by
  have h : ends (train (env true 2000 2000 12) defaults true true 1001 fresh) .done 14 = true := by decide +kernel
  unfold ends at h
  split at h
  · rename_i s heq
    exact ⟨s, heq, by simp only [decide_eq_true_eq] at h; rw [h.2]; decide⟩
  · simp at h

end Trainer
end Xmm
