import Verif.Props.Axes
import Verif.Props.PhraseOrder
set_option linter.unusedSimpArgs false
set_option linter.unusedSectionVars false
/- C98: `train` in other axes. -/
namespace Xmm
open Prog (bind_def pure_def get_def set_def modify_def throw_def undef_def)
open GmmSpec

namespace Trainee
variable {σ V : Type}

/-- Two trainings side by side, which nobody cancels before the initialisation: they make the same decisions, and the relation holds after the last update. -/
theorem train_together [Zero V] (T T' : Trainee σ V) (C : Compare V) (P : EmParams) (hP : 1 ≤ P.minIter) (cancel : Nat → Bool) (hcan : cancel 0 = false) {s s' s1 s1' s2 s2' : σ}
    {ok : Bool} (ha : T.allocate s = .ret () s1) (ha' : T'.allocate s' = .ret () s1') (hi : T.init s1 = .ret ok s2) (hi' : T'.init s1' = .ret ok s2')
    (I : Nat → σ → σ → Prop) (h0 : I 0 s2 s2')
    (hstep : ∀ k a a', I k a a' → ∃ v b b', T.update ok k a = .ret v b ∧ T'.update ok k a' = .ret v b' ∧ I (k + 1) b b') :
    ∃ t a a', I t.updates a a' ∧ (t.status ≠ .cancel → 1 ≤ t.updates) ∧ (t.status = .cancel → ∃ i, cancel i = true) ∧ T.train C P cancel s = finish T t a ∧
      T'.train C P cancel s' = finish T' t a' := by
  obtain ⟨t, k, h1, h2⟩ := Trainer.train_trained (env C true (T.update ok) s2 cancel) P hP true true (fun _ => rfl) 1001 (by omega) (start V) ⟨rfl, rfl, rfl⟩
  have henv : env C true (T'.update ok) s2' cancel = env C true (T.update ok) s2 cancel := by
    unfold env
    congr 1
    funext n
    obtain ⟨a, a', k1, k2, k3⟩ := after_related I h0 hstep n
    obtain ⟨v, b, b', e1, e2, -⟩ := hstep n a a' k3
    simp only [k1, k2, Option.bind_some, e1, e2]
  obtain ⟨a, a', k1, k2, k3⟩ := after_related I h0 hstep t.updates
  have hcount := h2.count rfl rfl
  refine ⟨t, a, a', k3, fun hs => ?_, fun hs => ⟨_, h2.cancel.1 hs⟩, ?_, ?_⟩
  · rcases h2.final with h | h | h
    · rw [hcount.1 h]
      rcases (h2.done h).2.2.2 with h | h | h <;> omega
    · rw [hcount.2 h]; omega
    · exact absurd h hs
  · unfold train
    rw [bind_of_ret ha]
    refine (bind_of_ret (s := s1) (s' := s2) (a := some ok) (by simp [begin', hcan, attempt, hi])).trans ?_
    refine (bind_of_ret (get_def s2)).trans ?_
    simp only [Option.isSome_some, Option.getD_some, h1, k1]
    simp [bind_def, set_def]
  · unfold train
    rw [bind_of_ret ha']
    refine (bind_of_ret (s := s1') (s' := s2') (a := some ok) (by simp [begin', hcan, attempt, hi'])).trans ?_
    refine (bind_of_ret (get_def s2')).trans ?_
    simp only [Option.isSome_some, Option.getD_some, henv, h1, k2]
    simp [bind_def, set_def]

end Trainee

/-- **C98** (`train` of a mixture that may be cancelled): the training ends for the same reason in the old and in the new axes, whenever a cancellation is requested.  Unless it was cancelled, it
    makes the same number of iterations, and the second mixture is the first in the new axes. -/
theorem Gmm.C98_train_cancel (m : Gmm ℝ) (ha : m.Admissible) (sd : List ℝ) (data : KData ℝ) (hf : m.Fed sd data) (hreg : 1 / 10 ^ 9 ≤ m.absReg) (A : NewAxes m.dim)
    (ho : (∀ i, A.shift i = 0) ∨ m.Steady data) (C : Compare ℝ) (P : EmParams) (hP : 1 ≤ P.minIter) (cancel : Nat → Bool) :
    ∃ t t' s s', (trainee Dens.real Real.log Real.sqrt sd data).train C P cancel m = .ret t s ∧
      (trainee Dens.real Real.log Real.sqrt (A.spread sd) (A.data data)).train C P cancel m = .ret t' s' ∧ t'.status = t.status ∧ (t.status = .cancel → ∃ i, cancel i = true) ∧
      (t.status ≠ .cancel → t' = t ∧ A.Carries s s' ∧ s.WF ∧ s'.WF ∧ (∀ g ∈ s.comps, g.UpToDate) ∧ (∀ g ∈ s'.comps, g.UpToDate) ∧ s.mode = m.mode) := by
  obtain ⟨m1, ok, m2, m2', e1, e2, e2', e4, e4', e5, e6⟩ := start_moved m ha sd data hf hreg A ho
  cases hcan : cancel 0 with
  | true =>
    obtain ⟨t, k, g1, g2, -⟩ := Trainee.train_cancelled (trainee Dens.real Real.log Real.sqrt sd data) C P cancel m m1 e1 hP hcan
    obtain ⟨t', k', g1', g2', -⟩ := Trainee.train_cancelled (trainee Dens.real Real.log Real.sqrt (A.spread sd) (A.data data)) C P cancel m m1 e1 hP hcan
    exact ⟨t, t', _, _, g1, g1', g2'.trans g2.symm, fun _ => ⟨0, hcan⟩, fun h => absurd g2 h⟩
  | false =>
  obtain ⟨t, a, a', k1, k2, k3, k4, k5⟩ := Trainee.train_together (trainee Dens.real Real.log Real.sqrt sd data) (trainee Dens.real Real.log Real.sqrt (A.spread sd) (A.data data)) C P hP
    cancel hcan e1 e1 e2 e2'
    (fun k x x' => Going m data x ∧ Going m (A.data data) x' ∧ A.Aligned x x' ∧ (ok = true ∨ 0 < k → x.InTraining data ∧ x'.InTraining (A.data data) ∧ A.Carries x x'))
    ⟨e4, e4', e5, fun h => e6 (by simpa using h)⟩ (by
      rintro k x x' ⟨q1, q2, q3, q4⟩
      obtain ⟨l, s, s', r1, r2, r3, r4, r5, r6, r7⟩ := A.step_moved ok k q1 q2 q3 q4
      exact ⟨l, s, s', r1, r2, r3, r4, r7.aligned, fun _ => ⟨r5, r6, r7⟩⟩)
  have hfin : ∀ (sd : List ℝ) (data : KData ℝ) (x : Gmm ℝ), Trainee.finish (trainee Dens.real Real.log Real.sqrt sd data) t x = .ret t { x with training := false } := by
    intro sd data x
    unfold Trainee.finish
    by_cases hd : t.status = .done
    · rw [if_pos hd]; rfl
    · rw [if_neg hd]; rfl
  refine ⟨t, t, { a with training := false }, { a' with training := false }, k4.trans (hfin _ _ _), k5.trans (hfin _ _ _), rfl, k3, fun hnc => ?_⟩
  obtain ⟨k0, -, -, k6⟩ := k1
  obtain ⟨i1, i2, i3⟩ := k6 (Or.inr (k2 hnc))
  refine ⟨rfl, ⟨i3.dim, ?_, i3.size, i3.coeffs, i3.reg, i3.mean, i3.cov⟩, ?_, ?_,
    fun g hg => (i1.comp g hg).1, fun g hg => (i2.comp g hg).1, ?_⟩
  · show ({ a' with training := false } : Gmm ℝ) = _
    rw [i3.same]
  · exact ⟨i1.wf.pos, i1.wf.comps, i1.wf.coeffs, i1.wf.beta, i1.wf.comp⟩
  · exact ⟨i2.wf.pos, i2.wf.comps, i2.wf.coeffs, i2.wf.beta, i2.wf.comp⟩
  · show a.mode = m.mode
    rw [k0.same]

/-- **C98** (`train` of a mixture): the training makes the same number of iterations in the old and in the new axes, for the same reason, and the second mixture is the first in the
    new axes. -/
theorem Gmm.C98_train (m : Gmm ℝ) (ha : m.Admissible) (sd : List ℝ) (data : KData ℝ) (hf : m.Fed sd data) (hreg : 1 / 10 ^ 9 ≤ m.absReg) (A : NewAxes m.dim)
    (ho : (∀ i, A.shift i = 0) ∨ m.Steady data) (C : Compare ℝ) (P : EmParams) (hP : 1 ≤ P.minIter) :
    ∃ t s s', (trainee Dens.real Real.log Real.sqrt sd data).train C P (fun _ => false) m = .ret t s ∧
      (trainee Dens.real Real.log Real.sqrt (A.spread sd) (A.data data)).train C P (fun _ => false) m = .ret t s' ∧ A.Carries s s' ∧ s.WF ∧ s'.WF ∧
      (∀ g ∈ s.comps, g.UpToDate) ∧ (∀ g ∈ s'.comps, g.UpToDate) ∧ s.mode = m.mode := by
  obtain ⟨t, t', s, s', h1, h2, -, h3, h4⟩ := Gmm.C98_train_cancel m ha sd data hf hreg A ho C P hP fun _ => false
  obtain ⟨rfl, h5⟩ := h4 fun h => by obtain ⟨i, hi⟩ := h3 h; cases hi
  exact ⟨_, s, s', h1, h2, h5⟩

end Xmm
