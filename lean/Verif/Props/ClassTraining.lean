import Verif.Model.ClassTraining
import Verif.Props.Training
import Verif.Props.GmmInit
set_option linter.unusedSimpArgs false
set_option linter.unusedSectionVars false
/- The training of a class, from the parameters to the outcome. -/
namespace Xmm
open Prog (bind_def pure_def get_def set_def modify_def throw_def undef_def)

namespace Trainee
variable {σ V : Type}

/-- the first `n` updates and their log-likelihoods -/
def steps (update : Nat → Prog σ V) : Nat → Prog σ (List V)
  | 0 => pure []
  | n + 1 => do
    let ls ← steps update n
    let l ← update n
    pure (ls ++ [l])

theorem steps_length (update : Nat → Prog σ V) : ∀ (n : Nat) (s s' : σ) (ls : List V), steps update n s = .ret ls s' → ls.length = n
  | 0, s, s', ls, h => by
    simp only [steps, pure_def, Res.ret.injEq] at h
    rw [← h.1]; rfl
  | n + 1, s, s', ls, h => by
    simp only [steps, bind_def, pure_def] at h
    cases h1 : steps update n s with
    | ub => rw [h1] at h; cases h
    | throw e t => rw [h1] at h; cases h
    | ret ls1 t =>
      rw [h1] at h
      simp only at h
      cases h2 : update n t with
      | ub => rw [h2] at h; cases h
      | throw e t => rw [h2] at h; cases h
      | ret l t' =>
        rw [h2] at h
        simp only [Res.ret.injEq] at h
        rw [← h.1]
        simp [steps_length update n s t ls1 h1]

theorem steps_succ (update : Nat → Prog σ V) (n : Nat) (s s' : σ) (ls : List V) (h : steps update (n + 1) s = .ret ls s') :
    ∃ ls1 t l, steps update n s = .ret ls1 t ∧ update n t = .ret l s' ∧ ls = ls1 ++ [l] := by
  simp only [steps, bind_def, pure_def] at h
  cases h1 : steps update n s with
  | ub => rw [h1] at h; cases h
  | throw e t => rw [h1] at h; cases h
  | ret ls1 t =>
    rw [h1] at h
    simp only at h
    cases h2 : update n t with
    | ub => rw [h2] at h; cases h
    | throw e t => rw [h2] at h; cases h
    | ret l t' =>
      rw [h2] at h
      injection h with e1 e2
      subst e2
      exact ⟨ls1, t, l, rfl, h2, e1.symm⟩

theorem steps_after (update : Nat → Prog σ V) : ∀ (n : Nat) (s s' : σ) (ls : List V), steps update n s = .ret ls s' → after update s n = some s'
  | 0, s, s', ls, h => by
    injection h with _ h
    rw [h]; rfl
  | n + 1, s, s', ls, h => by
    obtain ⟨ls1, t, l, h1, h2, -⟩ := steps_succ update n s s' ls h
    rw [after, steps_after update n s t ls1 h1]
    simp [h2]

theorem steps_prefix (update : Nat → Prog σ V) : ∀ (n : Nat) (s s' : σ) (ls : List V), steps update n s = .ret ls s' → ∀ i ≤ n,
    ∃ li si, steps update i s = .ret li si ∧ after update s i = some si
  | 0, s, s', ls, h => fun i hi => by
    rw [show i = 0 by omega]
    exact ⟨[], s, rfl, rfl⟩
  | n + 1, s, s', ls, h => fun i hi => by
    obtain ⟨ls1, t, l, h1, -, -⟩ := steps_succ update n s s' ls h
    by_cases hin : i ≤ n
    · exact steps_prefix update n s t ls1 h1 i hin
    · rw [show i = n + 1 by omega]
      exact ⟨ls, s', h, steps_after update _ s s' ls h⟩

/-- if every update returns, the class after `n` of them -/
theorem after_steps (update : Nat → Prog σ V) (s : σ) (I : Nat → σ → Prop) (h0 : I 0 s)
    (hstep : ∀ k s, I k s → ∃ v s', update k s = .ret v s' ∧ I (k + 1) s') (n : Nat) :
    ∃ ls s', steps update n s = .ret ls s' ∧ after update s n = some s' ∧ I n s' := by
  induction n with
  | zero => exact ⟨[], s, rfl, rfl, h0⟩
  | succ n ih =>
    obtain ⟨ls, s', h1, h2, h3⟩ := ih
    obtain ⟨v, s2, k1, k2⟩ := hstep n s' h3
    refine ⟨ls ++ [v], s2, ?_, ?_, k2⟩
    · rw [steps, bind_of_ret h1, bind_of_ret k1, pure_def]
    · rw [after, h2]
      simp [k1]

/-- the log-likelihood of update `n` is the last one of `n + 1` updates -/
theorem env_update {C : Compare V} {init : Bool} {update : Nat → Prog σ V} {s s' : σ} {cancel : Nat → Bool} {n : Nat} {ls : List V} {l : V}
    (h1 : steps update n s = .ret ls s') (h2 : after update s n = some s') (h : (env C init update s cancel).update n = some l) :
    ∃ s'', steps update (n + 1) s = .ret (ls ++ [l]) s'' := by
  simp only [env, h2, Option.bind_some] at h
  cases hu : update n s' with
  | ub => rw [hu] at h; cases h
  | throw e t => rw [hu] at h; cases h
  | ret v t =>
    rw [hu] at h
    simp only [Option.some.injEq] at h
    subst h
    exact ⟨t, by rw [steps, bind_of_ret h1, bind_of_ret hu, pure_def]⟩

/-- a training that is cancelled before the initialisation -/
theorem train_cancelled [Zero V] (T : Trainee σ V) (C : Compare V) (P : EmParams) (cancel : Nat → Bool) (s s1 : σ) (ha : T.allocate s = .ret () s1)
    (hP : 1 ≤ P.minIter) (hc : cancel 0 = true) : ∃ t k, T.train C P cancel s = .ret t (T.idle s1) ∧ t.status = .cancel ∧ t.updates = 0 ∧
      Trainer.Trained (env C true (T.update true) s1 cancel) P true t k := by
  have h : ∀ E : EmEnv V, E.cancel 0 = true → ∃ t, Trainer.train E P true true 1001 (start V) = .ret true t ∧ t.status = .cancel ∧
      t.events.map TrainEvent.status = [.cancel] ∧ t.updates = 0 := by
    intro E hE
    obtain ⟨t, h1, h2, h3, h4⟩ : ∃ t, Trainer.cancelIfRequested E { start V with locked := true, status := .run } = .ret true t ∧ t.status = .cancel ∧
        t.events.map TrainEvent.status = [.cancel] ∧ t.updates = 0 := ⟨_, Trainer.cancel_yes (E := E) hE, rfl, rfl, rfl⟩
    refine ⟨t, ?_, h2, h3, h4⟩
    unfold Trainer.train
    rw [bind_of_ret (modify_def _ _), if_neg (by simp)]
    refine (bind_of_ret h1).trans ?_
    rw [if_pos rfl, pure_def]
  obtain ⟨t, h1, h2, h3, h4⟩ := h (env C true (T.update true) s1 cancel) hc
  obtain ⟨t', k, g1, g2⟩ := Trainer.train_trained (env C true (T.update true) s1 cancel) P hP true true (fun _ => rfl) 1001 (by omega) (start V) ⟨rfl, rfl, rfl⟩
  rw [h1] at g1
  injection g1 with _ g1
  subst g1
  refine ⟨t, k, ?_, h2, h4, g2⟩
  unfold train
  rw [bind_of_ret ha]
  refine (bind_of_ret (s := s1) (s' := s1) (a := some true) (by rw [begin', if_pos hc]; rfl)).trans ?_
  refine (bind_of_ret (get_def s1)).trans ?_
  simp only [Option.isSome_some, Option.getD_some, h1, h4, after]
  simp [finish, bind_def, set_def, pure_def, modify_def, h2]

/-- A training whose updates all return: the events, the outcome and its reason, and the class at the end. -/
theorem train_steps [Zero V] (T : Trainee σ V) (C : Compare V) (P : EmParams) (hP : 1 ≤ P.minIter) (cancel : Nat → Bool) (hc : cancel 0 = false) (s s1 s2 : σ)
    (ok : Bool) (ha : T.allocate s = .ret () s1) (hi : T.init s1 = .ret ok s2) (I : Nat → σ → Prop) (h0 : I 0 s2)
    (hstep : ∀ k s, I k s → ∃ v s', T.update ok k s = .ret v s' ∧ I (k + 1) s') :
    ∃ t k ls s3, Trainer.Trained (env C true (T.update ok) s2 cancel) P true t k ∧ steps (T.update ok) t.updates s2 = .ret ls s3 ∧ I t.updates s3 ∧
      (t.status ≠ .cancel → 1 ≤ t.updates) ∧
      (t.status = .error → ∃ pre l o, ls = pre ++ [o, l] ∧ 1 ≤ pre.length ∧ C.isNan l o = true) ∧
      T.train C P cancel s = finish T t s3 := by
  obtain ⟨t, k, h1, h2⟩ := Trainer.train_trained (env C true (T.update ok) s2 cancel) P hP true true (fun _ => rfl) 1001 (by omega) (start V) ⟨rfl, rfl, rfl⟩
  obtain ⟨ls, s3, k1, k2, k3⟩ := after_steps (T.update ok) s2 I h0 hstep t.updates
  have hcount := h2.count rfl rfl
  refine ⟨t, k, ls, s3, h2, k1, k3, fun hs => ?_, fun hs => ?_, ?_⟩
  · rcases h2.final with h | h | h
    · rw [hcount.1 h]
      rcases (h2.done h).2.2.2 with h | h | h <;> omega
    · rw [hcount.2 h]; omega
    · exact absurd h hs
  · have hu : ∀ n, ∃ v, (env C true (T.update ok) s2 cancel).update n = some v := by
      intro n
      obtain ⟨ls, s', q1, q2, q3⟩ := after_steps (T.update ok) s2 I h0 hstep n
      obtain ⟨v, s'', e, _⟩ := hstep n s' q3
      exact ⟨v, by simp [env, q2, e]⟩
    rcases h2.error hs with h | h | h | ⟨hk, l, o, hn, hl, ho⟩
    · cases h
    · simp [env] at h
    · obtain ⟨v, hv⟩ := hu k
      rw [hv] at h; cases h
    · obtain ⟨pre, sp, p1, p2, _⟩ := after_steps (T.update ok) s2 I h0 hstep (k - 1)
      obtain ⟨so, q1⟩ := env_update p1 p2 ho
      rw [show k - 1 + 1 = k by omega] at q1
      obtain ⟨ls', s', r1, r2, _⟩ := after_steps (T.update ok) s2 I h0 hstep k
      rw [q1] at r1
      injection r1 with e1 e2
      subst e1 e2
      obtain ⟨sl, w1⟩ := env_update q1 r2 hl
      have hu2 := hcount.2 hs
      rw [hu2] at k1
      rw [w1] at k1
      injection k1 with e3 e4
      refine ⟨pre, l, o, ?_, ?_, hn⟩
      · rw [← e3]; simp
      · rw [steps_length _ _ _ _ _ p1]; omega
  · unfold train
    rw [bind_of_ret ha]
    refine (bind_of_ret (s := s1) (s' := s2) (a := some ok) (by simp [begin', hc, attempt, hi])).trans ?_
    refine (bind_of_ret (get_def s2)).trans ?_
    simp only [Option.isSome_some, Option.getD_some, h1, k2]
    simp [bind_def, set_def]

theorem env_steps {C : Compare V} {init : Bool} {update : Nat → Prog σ V} {s : σ} {cancel : Nat → Bool} : ∀ (n : Nat) (ls : List V) (s' : σ),
    steps update n s = .ret ls s' → ∀ i < n, (env C init update s cancel).update i = ls[i]?
  | 0, _, _, _, i, hi => by omega
  | n + 1, ls, s', h, i, hi => by
    obtain ⟨ls1, t, l, h1, h2, rfl⟩ := steps_succ update n s s' ls h
    have hlen := steps_length _ _ _ _ _ h1
    rcases Nat.lt_succ_iff_lt_or_eq.mp hi with hi | rfl
    · rw [List.getElem?_append_left (by omega)]
      exact env_steps n ls1 t h1 i hi
    · rw [List.getElem?_append_right (by omega), hlen]
      simp [env, steps_after _ _ _ _ _ h1, h2]

/-- the log-likelihood after `k` iterations is in the list of the log-likelihoods -/
theorem env_at {C : Compare V} {init : Bool} {update : Nat → Prog σ V} {s s' : σ} {cancel : Nat → Bool} {n : Nat} {ls : List V}
    (h : steps update n s = .ret ls s') {k : Nat} (hk : k ≤ n) (v : V) : (env C init update s cancel).At k v ↔ (C.lowest :: ls)[k]? = some v := by
  unfold EmEnv.At
  cases k with
  | zero => simp [env, eq_comm]
  | succ k =>
    rw [if_neg (by simp), Nat.add_sub_cancel, env_steps n ls s' h k (by omega), List.getElem?_cons_succ]

/-- why a training whose updates all return is done -/
theorem done_stops {T : Trainee σ V} {C : Compare V} {P : EmParams} {cancel : Nat → Bool} {s2 s3 : σ} {ok : Bool} {t : Trainer V} {k : Nat} {ls : List V}
    (ht : Trainer.Trained (env C true (T.update ok) s2 cancel) P true t k) (hl : steps (T.update ok) t.updates s2 = .ret ls s3) (hs : t.status = .done) :
    (P.minIter ≤ P.maxIter → t.updates = P.limit) ∧ (P.maxIter < P.minIter →
      (t.updates = 1000 ∨ (P.minIter ≤ t.updates ∧
        ∃ l o, (C.lowest :: ls)[t.updates]? = some l ∧ (C.lowest :: ls)[t.updates - 1]? = some o ∧ C.close l o = true)) ∧
      ∀ j < t.updates, P.minIter ≤ j → ¬ ∃ l o, (C.lowest :: ls)[j]? = some l ∧ (C.lowest :: ls)[j - 1]? = some o ∧ C.close l o = true) := by
  have hk : t.updates = k := (ht.count rfl rfl).1 hs
  have hle := ht.le
  obtain ⟨-, -, -, hst⟩ := ht.done hs
  have hb : ∀ j < k, Trainer.Unstopped (env C true (T.update ok) s2 cancel) P j := fun j h => (ht.before j h).2.1
  rw [hk] at hl ⊢
  constructor
  · intro hm
    unfold EmParams.limit
    have : 0 < k → k - 1 < P.maxIter := fun h => (hb (k - 1) (by omega)).2.1 hm
    rcases hst with h | h | h
    · have := this (by omega); omega
    · by_cases h0 : k = 0
      · omega
      · have := this (by omega); omega
    · omega
  · intro hm
    constructor
    · rcases hst with h | h | ⟨-, h1, l, o, hul, huo, hc⟩
      · exact .inl h
      · omega
      · exact .inr ⟨h1, l, o, (env_at hl (Nat.le_refl k) l).1 hul, (env_at hl (by omega) o).1 huo, hc⟩
    · rintro j hj hmj ⟨l, o, h1, h2, h3⟩
      exact (hb j hj).2.2 hm hmj ⟨l, o, (env_at hl (by omega) l).2 h1, (env_at hl (by omega) o).2 h2, h3⟩

theorem done_exact {K : Type} [Field K] [LinearOrder K] [IsStrictOrderedRing K] {T : Trainee σ K} {lowest pct : K} {P : EmParams} {cancel : Nat → Bool} {s2 s3 : σ} {ok : Bool}
    {t : Trainer K} {k : Nat} {ls : List K} (ht : Trainer.Trained (env (Compare.exact lowest pct) true (T.update ok) s2 cancel) P true t k)
    (hl : steps (T.update ok) t.updates s2 = .ret ls s3) (hs : t.status = .done) : P.StopsAt lowest pct ls t.updates := by
  obtain ⟨d1, d2⟩ := done_stops ht hl hs
  have hsm : ∀ j, SmallChange lowest pct ls j ↔ ∃ l o, ((Compare.exact lowest pct).lowest :: ls)[j]? = some l ∧ ((Compare.exact lowest pct).lowest :: ls)[j - 1]? = some o ∧
      (Compare.exact lowest pct).close l o = true := fun j => by
    unfold SmallChange
    refine exists_congr fun l => exists_congr fun o => and_congr Iff.rfl (and_congr Iff.rfl ?_)
    simp only [Compare.exact, decide_eq_true_eq]
    refine and_congr_right fun h0 => ?_
    have hl : 0 < |l| := abs_pos.2 h0
    rw [abs_div, ← mul_div_assoc, div_le_iff₀ hl]
    constructor <;> intro h <;> linarith
  exact ⟨d1, fun hm => ⟨(d2 hm).1.imp id fun h => ⟨h.1, (hsm _).2 h.2⟩, fun j hj hmj h => (d2 hm).2 j hj hmj ((hsm j).1 h)⟩⟩

/-- **C52**, for a class with all its members: if its initialisation throws, and the training is not cancelled before, `train` does not throw: it returns with the single event
    Error, no iteration is run, the class is no longer in training, and it is as the initialisation left it. -/
theorem C52_init_throws [Zero V] (T : Trainee σ V) (C : Compare V) (P : EmParams) (hP : 1 ≤ P.minIter) (cancel : Nat → Bool) (hc : cancel 0 = false) (hc1 : cancel 1 = false)
    (s s1 s2 : σ) (e : Exn) (ha : T.allocate s = .ret () s1) (hi : T.init s1 = .throw e s2) :
    ∃ t, T.train C P cancel s = .ret t (T.idle s2) ∧ t.status = .error ∧ t.events.map TrainEvent.status = [.error] ∧ t.updates = 0 ∧ t.isTraining = false ∧ t.locked = false := by
  have hconv : Trainer.hasConverged (env C false (T.update false) s2 cancel) P 0 C.lowest C.lowest = false := by
    unfold Trainer.hasConverged
    rw [if_neg (by omega)]
    by_cases hm : P.minIter ≤ P.maxIter
    · rw [if_pos hm]; simp; omega
    · rw [if_neg hm]
      have : decide (P.minIter ≤ 0) = false := by simp; omega
      rw [this, Bool.false_and]
  have h : ∃ t, Trainer.train (env C false (T.update false) s2 cancel) P true true 1001 (start V) = .ret true t ∧ t.status = .error ∧
      t.events.map TrainEvent.status = [.error] ∧ t.updates = 0 ∧ t.isTraining = false ∧ t.locked = false := by
    have hconv' : Trainer.hasConverged (env C false (T.update false) s2 cancel) P 0 (env C false (T.update false) s2 cancel).lowest
      (env C false (T.update false) s2 cancel).lowest = false := hconv
    have hc' : (env C false (T.update false) s2 cancel).cancel 0 = false := hc
    have hc1' : (env C false (T.update false) s2 cancel).cancel 1 = false := hc1
    have hi' : (env C false (T.update false) s2 cancel).init = false := rfl
    generalize env C false (T.update false) s2 cancel = E at hconv' hc' hc1' hi'
    refine ⟨{ status := .error, logLik := E.lowest, iterations := 0, progression := 0, isTraining := false, locked := false, events := [⟨.error, 0, 0⟩], checks := 2,
              updates := 0 }, ?_, ?_⟩
    · rw [show (1001 : Nat) = 1000 + 1 from rfl]
      generalize (1000 : Nat) = fuel
      simp only [Trainer.train, bind_def, modify_def, Trainer.cancelIfRequested, get_def, set_def, start, hc', pure_def, Trainer.emLoop, hconv', hi', hc1', Trainer.emUpdate,
        Trainer.notify, Bool.not_true, Bool.and_false, Bool.false_eq_true, if_false, Bool.not_false, if_true, Bool.false_or, Bool.true_or, Bool.or_true]
      rfl
    · exact ⟨rfl, rfl, rfl, rfl, rfl⟩
  obtain ⟨t, h1, h2, h3, h4, h5⟩ := h
  refine ⟨t, ?_, h2, h3, h4, h5⟩
  unfold train
  rw [bind_of_ret ha]
  refine (bind_of_ret (s := s1) (s' := s2) (a := none) (by simp [begin', hc, attempt, hi])).trans ?_
  refine (bind_of_ret (get_def s2)).trans ?_
  simp only [Option.isSome_none, Option.getD_none, h1, h4, after]
  simp [finish, bind_def, set_def, pure_def, modify_def, h2]

/-- **C52**, for a class with all its members: if update number `n` throws, after `n` updates that returned, `train` does not throw.  The training ends before that update (it is
    cancelled, or it has converged, or the log-likelihoods are not numbers), or with the event Error: then the class is no longer in training, and it is as the update that threw left
    it. -/
theorem C52_update_throws [Zero V] (T : Trainee σ V) (C : Compare V) (P : EmParams) (hP : 1 ≤ P.minIter) (cancel : Nat → Bool) (hc : cancel 0 = false) (s s1 s2 s3 s4 : σ)
    (ok : Bool) (e : Exn) (n : Nat) (ls : List V) (ha : T.allocate s = .ret () s1) (hi : T.init s1 = .ret ok s2) (hn : steps (T.update ok) n s2 = .ret ls s3)
    (he : T.update ok n s3 = .throw e s4) (ht : ∀ s, ∃ s', T.terminate s = .ret () s') :
    ∃ t s', T.train C P cancel s = .ret t s' ∧ t.status.Final ∧ t.isTraining = false ∧ t.locked = false ∧
      ((t.updates ≤ n) ∨ (t.updates = n + 1 ∧ t.status = .error ∧ s' = T.idle s4)) := by
  obtain ⟨t, k, h1, h2⟩ := Trainer.train_trained (env C true (T.update ok) s2 cancel) P hP true true (fun _ => rfl) 1001 (by omega) (start V) ⟨rfl, rfl, rfl⟩
  have hnone : (env C true (T.update ok) s2 cancel).update n = none := by
    simp only [env, steps_after _ _ _ _ _ hn, Option.bind_some, he]
  have hkn : k ≤ n := by
    by_contra hk
    obtain ⟨-, -, v, hv⟩ := h2.before n (by omega)
    rw [hnone] at hv
    cases hv
  have hcount := h2.count rfl rfl
  have hup : t.updates ≤ n ∨ (t.updates = n + 1 ∧ t.status = .error) := by
    rcases h2.final with h | h | h
    · left; have := hcount.1 h; omega
    · have := hcount.2 h
      by_cases hkn' : k = n
      · exact .inr ⟨by omega, h⟩
      · left; omega
    · left; have := h2.stopped h; omega
  have hrun : ∀ s', after (T.update ok) s2 t.updates = some s' → T.train C P cancel s = finish T t s' := by
    intro s' hs'
    unfold train
    rw [bind_of_ret ha]
    refine (bind_of_ret (s := s1) (s' := s2) (a := some ok) (by simp [begin', hc, attempt, hi])).trans ?_
    refine (bind_of_ret (get_def s2)).trans ?_
    simp only [Option.isSome_some, Option.getD_some, h1, hs']
    simp [bind_def, set_def]
  rcases hup with hu | ⟨hu, hst⟩
  · obtain ⟨li, si, -, e2⟩ := steps_prefix _ _ _ _ _ hn _ hu
    have hr := hrun si e2
    by_cases hd : t.status = .done
    · obtain ⟨s', hs'⟩ := ht si
      refine ⟨t, T.idle s', ?_, h2.final, h2.idle, h2.unlocked, .inl hu⟩
      rw [hr]
      unfold finish
      rw [if_pos hd, bind_of_ret hs']
      rfl
    · refine ⟨t, T.idle si, ?_, h2.final, h2.idle, h2.unlocked, .inl hu⟩
      rw [hr]
      simp [finish, hd, bind_def, pure_def, modify_def]
  · have hs4 : after (T.update ok) s2 t.updates = some s4 := by
      rw [hu, after, steps_after _ _ _ _ _ hn]
      simp [he]
    refine ⟨t, T.idle s4, ?_, h2.final, h2.idle, h2.unlocked, .inr ⟨hu, hst, rfl⟩⟩
    rw [hrun s4 hs4]
    simp [finish, hst, bind_def, pure_def, modify_def]

/-- a class that counts its calls: the initialisation throws if `bad`, the second update throws; both after a change -/
def failing (bad : Bool) : Trainee Nat ℝ where
  allocate := pure ()
  init := do
    Prog.modify (· + 10)
    if bad then Prog.throw .runtimeError else pure true
  update _ k := do
    Prog.modify (· + 1)
    if k = 1 then Prog.throw .runtimeError else pure 5
  terminate := pure ()
  idle n := n + 100

/-- the hypotheses of the two theorems are met -/
example : ∃ t, (failing true).train (Compare.exact (-10) 1) ⟨2, 5⟩ (fun _ => false) 0 = .ret t 110 ∧ t.status = .error := by
  obtain ⟨t, h1, h2, -⟩ := C52_init_throws (failing true) (Compare.exact (-10) 1) ⟨2, 5⟩ (by norm_num) (fun _ => false) rfl rfl 0 0 10 .runtimeError rfl rfl
  exact ⟨t, h1, h2⟩

example : ∃ t s', (failing false).train (Compare.exact (-10) 1) ⟨2, 5⟩ (fun _ => false) 0 = .ret t s' ∧ (t.updates ≤ 1 ∨ (t.status = .error ∧ s' = 112)) := by
  obtain ⟨t, s', h1, -, -, -, h2⟩ := C52_update_throws (failing false) (Compare.exact (-10) 1) ⟨2, 5⟩ (by norm_num) (fun _ => false) rfl 0 0 10 11 12 true .runtimeError 1 [5]
    rfl rfl rfl rfl (fun s => ⟨s, rfl⟩)
  exact ⟨t, s', h1, h2.imp id fun h => ⟨h.2.1, h.2.2⟩⟩

end Trainee

namespace Gmm
variable {K : Type} [Field K] [LinearOrder K]

theorem trainSteps_eq (D : Dens K) (log : K → K) (data : KData K) (ok : Bool) : ∀ n : Nat,
    Trainee.steps (trainStep D log data ok) n = trainSteps D log data ok n
  | 0 => rfl
  | n + 1 => by
    rw [Trainee.steps, trainSteps, trainSteps_eq D log data ok n]

/-- C81: the training of a mixture never fails.  For all admissible parameters, all data of the right dimension with at least one
    frame, every bound on the iterations and every moment of a cancellation, `train` returns with exactly one final event: Cancel, which is sent only if a
    cancellation was requested; Error, which is sent only if the log-likelihoods of the last two iterations are both 0; or Done.  Unless the training was
    cancelled, the class can recognise, and it is the result of the iterations that were run. -/
theorem C81_training (D : Dens ℝ) (hD : D.Sound) (log : ℝ → ℝ) (m : Gmm ℝ) (ha : m.Admissible) (hwin : 1 ≤ m.window) (sd : List ℝ)
    (data : KData ℝ) (hf : m.Fed sd data) (hreg : 1 / 10 ^ 9 ≤ m.absReg) (lowest pct : ℝ) (P : EmParams) (hP : 1 ≤ P.minIter) (cancel : Nat → Bool) :
    ∃ t m', (trainee D log Real.sqrt sd data).train (Compare.exact lowest pct) P cancel m = .ret t m' ∧
      (∃ k, OneOutcome t.events k t.status) ∧ t.status.Final ∧ t.isTraining = false ∧ t.locked = false ∧ m'.training = false ∧
      (t.status = .cancel → ∃ i, cancel i = true) ∧
      (t.status ≠ .cancel → m'.CanFilter ∧ ∃ ls m'', trainRun D log Real.sqrt sd data t.updates m = .ret ls m'' ∧ m' = { m'' with training := false } ∧
        1 ≤ t.updates ∧ (t.status = .error → ∃ pre, ls = pre ++ [0, 0])) := by
  obtain ⟨m1, ok, m2, h1, h2, -, h3, h4, -⟩ := start_ret m ha sd data hf hreg
  cases hc : cancel 0 with
  | true =>
    obtain ⟨t, k, g1, g2, -, g3⟩ := Trainee.train_cancelled (trainee D log Real.sqrt sd data) (Compare.exact lowest pct) P cancel m m1 h1 hP hc
    exact ⟨t, _, g1, ⟨k, g3.outcome⟩, g3.final, g3.idle, g3.unlocked, rfl, fun _ => ⟨0, hc⟩, fun h => absurd g2 h⟩
  | false =>
    obtain ⟨t, k, ls, s3, g1, g2, -, g4, g5, g6⟩ := Trainee.train_steps (trainee D log Real.sqrt sd data) (Compare.exact lowest pct) P hP cancel hc
      m m1 m2 ok h1 h2 (fun k m' => Going m data m' ∧ (ok = true ∨ 0 < k → m'.Ready)) ⟨h3, fun h => h4 (by simpa using h)⟩ (by
        rintro k m' ⟨q1, q2⟩
        obtain ⟨l, m'', k1, k2, k3, _⟩ := trainStep_ret D hD log data ok k m m' q1 q2
        exact ⟨l, m'', k1, k2, fun _ => k3⟩)
    have g2' : trainSteps D log data ok t.updates m2 = .ret ls s3 := by rw [← trainSteps_eq]; exact g2
    have hfin : Trainee.finish (trainee D log Real.sqrt sd data) t s3 = .ret t { s3 with training := false } := by
      unfold Trainee.finish
      by_cases hd : t.status = .done
      · rw [if_pos hd]; rfl
      · rw [if_neg hd]; rfl
    refine ⟨t, _, g6.trans hfin, ⟨k, g1.outcome⟩, g1.final, g1.idle, g1.unlocked, rfl, fun h => ⟨_, g1.cancel.1 h⟩, fun h => ?_⟩
    obtain ⟨ls', m', r1, _, r3, _⟩ := C81_trained_usable D hD log m ha hwin sd data hf hreg t.updates (g4 h)
    have r0 : trainRun D log Real.sqrt sd data t.updates m = .ret ls s3 := by
      unfold trainRun
      rw [bind_of_ret h1, bind_of_ret h2]
      exact g2'
    rw [r0] at r1
    injection r1 with e1 e2
    subst e1 e2
    refine ⟨r3, ls, s3, r0, rfl, g4 h, fun he => ?_⟩
    obtain ⟨pre, l, o, q1, _, q3⟩ := g5 he
    have : l = 0 ∧ o = 0 := by simpa [Compare.exact] using q3
    exact ⟨pre, by rw [q1, this.1, this.2]⟩

/-- **C81**, **C52**: when the training of a mixture is done.  With a maximum number of iterations that is not below the minimum, after exactly that many iterations (1000 at
    most); otherwise after the first iteration, from the minimum number on, whose log-likelihood differs from the one before by at most `em_algorithm_percent_chg` per cent (and after 1000
    iterations if there is none before). -/
theorem C81_done (D : Dens ℝ) (hD : D.Sound) (log : ℝ → ℝ) (m : Gmm ℝ) (ha : m.Admissible) (sd : List ℝ)
    (data : KData ℝ) (hf : m.Fed sd data) (hreg : 1 / 10 ^ 9 ≤ m.absReg) (lowest pct : ℝ) (P : EmParams) (hP : 1 ≤ P.minIter) (cancel : Nat → Bool) (t : Trainer ℝ) (m' : Gmm ℝ)
    (ht : (trainee D log Real.sqrt sd data).train (Compare.exact lowest pct) P cancel m = .ret t m') (hs : t.status = .done) :
    ∃ ls m'', trainRun D log Real.sqrt sd data t.updates m = .ret ls m'' ∧ P.StopsAt lowest pct ls t.updates := by
  obtain ⟨m1, ok, m2, h1, h2, -, h3, h4, -⟩ := start_ret m ha sd data hf hreg
  cases hc : cancel 0 with
  | true =>
    obtain ⟨t', k, g1, g2, -, g3⟩ := Trainee.train_cancelled (trainee D log Real.sqrt sd data) (Compare.exact lowest pct) P cancel m m1 h1 hP hc
    rw [ht] at g1
    injection g1 with g1 _
    subst g1
    rw [hs] at g2; cases g2
  | false =>
    have hst : ∀ k m', (Going m data m' ∧ (ok = true ∨ 0 < k → m'.Ready)) → ∃ v s', (trainee D log Real.sqrt sd data).update ok k m' = .ret v s' ∧
        (Going m data s' ∧ (ok = true ∨ 0 < k + 1 → s'.Ready)) := by
      rintro k m' ⟨q1, q2⟩
      obtain ⟨l, m'', k1, k2, k3, _⟩ := trainStep_ret D hD log data ok k m m' q1 q2
      exact ⟨l, m'', k1, k2, fun _ => k3⟩
    obtain ⟨t', k, ls, s3, g1, g2, -, -, -, g6⟩ := Trainee.train_steps (trainee D log Real.sqrt sd data) (Compare.exact lowest pct) P hP cancel hc
      m m1 m2 ok h1 h2 (fun k m' => Going m data m' ∧ (ok = true ∨ 0 < k → m'.Ready)) ⟨h3, fun h => h4 (by simpa using h)⟩ hst
    have hfin : ∃ m'', Trainee.finish (trainee D log Real.sqrt sd data) t' s3 = .ret t' m'' := by
      refine ⟨{ s3 with training := false }, ?_⟩
      unfold Trainee.finish
      by_cases hd : t'.status = .done
      · rw [if_pos hd]; rfl
      · rw [if_neg hd]; rfl
    obtain ⟨m'', hfin⟩ := hfin
    rw [ht, hfin] at g6
    injection g6 with g6 _
    subst g6
    have g2' : trainSteps D log data ok t.updates m2 = .ret ls s3 := by rw [← trainSteps_eq]; exact g2
    refine ⟨ls, s3, ?_, Trainee.done_exact g1 g2 hs⟩
    unfold trainRun
    rw [bind_of_ret h1, bind_of_ret h2]
    exact g2'

end Gmm
end Xmm
