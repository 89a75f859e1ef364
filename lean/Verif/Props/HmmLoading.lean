import Verif.Model.HmmLoad
import Verif.Props.JsonLoading
import Verif.Props.ClassLoading
set_option linter.unusedSimpArgs false
set_option linter.unusedSectionVars false
/- C86 for the classes of a hidden Markov model and the parameters of K-Means and HMM classes. -/
namespace Xmm
open Prog (bind_def pure_def get_def set_def modify_def throw_def undef_def)
variable {K : Type} [Field K] [LinearOrder K] [IsStrictOrderedRing K] [JsonReal K] (nar : K → K)

/-! ### Parameters -/

/-- the values of the parameters of a K-Means class in a file -/
structure KMeansAttrs.Described (root : Json K) (realMax : K) (p : KMeansAttrs K) : Prop where
  clusters : ∃ j z, root.getKey "clusters" = .ok j ∧ j.asInt = .ok z ∧ p.clusters.value = uint z
  maxIterations : ∃ j z, root.getKey "max_iterations" = .ok j ∧ j.asInt = .ok z ∧ p.maxIterations.value = uint z
  threshold : ∃ j, root.getKey "relative_distance_threshold" = .ok j ∧ j.asFloat nar = .ok p.threshold.value
  clusters_pos : 1 ≤ p.clusters.value
  maxIterations_pos : 1 ≤ p.maxIterations.value
  threshold_lim : 0 ≤ p.threshold.value ∧ p.threshold.value ≤ realMax

/-- the values of the parameters of an HMM class in a file, except `hierarchical` -/
structure HmmAttrs.Described (root : Json K) (tiny realMax : K) (p : HmmAttrs K) : Prop where
  states : ∃ j z, root.getKey "states" = .ok j ∧ j.asInt = .ok z ∧ p.states.value = uint z
  gaussians : ∃ j z, root.getKey "gaussians" = .ok j ∧ j.asInt = .ok z ∧ p.gaussians.value = uint z
  relReg : ∃ j, root.getKey "relative_regularization" = .ok j ∧ j.asFloat nar = .ok p.relReg.value
  absReg : ∃ j, root.getKey "absolute_regularization" = .ok j ∧ j.asFloat nar = .ok p.absReg.value
  covMode : ∃ j, root.getKey "covariance_mode" = .ok j ∧ j.asInt = .ok p.covMode.value
  transMode : ∃ j, root.getKey "transition_mode" = .ok j ∧ j.asInt = .ok p.transMode.value
  regEstimator : ∃ j, root.getKey "regression_estimator" = .ok j ∧ j.asInt = .ok p.regEstimator.value
  states_pos : 1 ≤ p.states.value
  gaussians_pos : 1 ≤ p.gaussians.value
  relReg_lim : tiny ≤ p.relReg.value ∧ p.relReg.value ≤ realMax
  absReg_lim : tiny ≤ p.absReg.value ∧ p.absReg.value ≤ realMax
  covMode_lim : p.covMode.value = 0 ∨ p.covMode.value = 1
  transMode_lim : p.transMode.value = 0 ∨ p.transMode.value = 1
  regEstimator_lim : p.regEstimator.value = 0 ∨ p.regEstimator.value = 1 ∨ p.regEstimator.value = 2

namespace KMeansAttrs

theorem setClusters_ret {me n : Nat} {p p' : KMeansAttrs K} (h : setClusters me n p = .ret () p') :
    ∃ a c, p' = { p with clusters := a, changed := c } ∧ a.value = n ∧ p.clusters.limitMin ≤ n := by
  unfold setClusters at h
  split at h
  · rename_i k
    injection h with _ h
    obtain ⟨m1, m2, _⟩ := Attr.set_ret k
    exact ⟨_, _, h.symm, m1, not_lt.1 (of_decide_eq_false m2)⟩
  · cases h
  · cases h

theorem setMaxIterations_ret {me n : Nat} {p p' : KMeansAttrs K} (h : setMaxIterations me n p = .ret () p') :
    ∃ a c, p' = { p with maxIterations := a, changed := c } ∧ a.value = n ∧ p.maxIterations.limitMin ≤ n := by
  unfold setMaxIterations at h
  split at h
  · rename_i k
    injection h with _ h
    obtain ⟨m1, m2, _⟩ := Attr.set_ret k
    exact ⟨_, _, h.symm, m1, not_lt.1 (of_decide_eq_false m2)⟩
  · cases h
  · cases h

theorem setThreshold_ret {me : Nat} {x : K} {p p' : KMeansAttrs K} (h : setThreshold me x p = .ret () p') :
    ∃ a c, p' = { p with threshold := a, changed := c } ∧ a.value = x ∧ p.threshold.limitMin ≤ x ∧ x ≤ p.threshold.limitMax := by
  unfold setThreshold at h
  split at h
  · rename_i k
    injection h with _ h
    obtain ⟨m1, m2, m3⟩ := Attr.set_ret k
    exact ⟨_, _, h.symm, m1, not_lt.1 (of_decide_eq_false m2), not_lt.1 (of_decide_eq_false m3)⟩
  · cases h
  · cases h

end KMeansAttrs

/-- C86 (parameters of a K-Means class, what is accepted): after `fromJson` of any JSON that returns, the parameters are the values of the file and within their
    limits. -/
theorem C86_kmeans_parameters_accepted {me tmp : Nat} {tiny realMax : K} {root : Json K} {p p' : KMeansAttrs K}
    (h : KMeansAttrs.fromJson me nar tmp tiny realMax root p = .ret () p') : p'.Described nar root realMax := by
  unfold KMeansAttrs.fromJson at h
  split at h
  · rename_i t hr
    injection h with _ h
    unfold KMeansAttrs.readJson at hr
    obtain ⟨j1, e1, hr⟩ := bindE_inv hr
    obtain ⟨v1, f1, hr⟩ := bindE_inv hr
    obtain ⟨_, p1, g1, hr⟩ := bind_inv hr
    obtain ⟨a1, c1, rfl, r1, s1⟩ := KMeansAttrs.setClusters_ret g1
    obtain ⟨j2, e2, hr⟩ := bindE_inv hr
    obtain ⟨v2, f2, hr⟩ := bindE_inv hr
    obtain ⟨_, p2, g2, hr⟩ := bind_inv hr
    obtain ⟨a2, c2, rfl, r2, s2⟩ := KMeansAttrs.setMaxIterations_ret g2
    obtain ⟨j3, e3, hr⟩ := bindE_inv hr
    obtain ⟨v3, f3, hr⟩ := bindE_inv hr
    obtain ⟨a3, c3, rfl, r3, s3⟩ := KMeansAttrs.setThreshold_ret hr
    subst h
    exact ⟨⟨j1, v1, e1, f1, r1⟩, ⟨j2, v2, e2, f2, r2⟩, ⟨j3, e3, (show a3.value = v3 from r3).symm ▸ f3⟩, r1.symm ▸ s1, r2.symm ▸ s2, r3.symm ▸ s3⟩
  · cases h
  · cases h

namespace HmmAttrs

theorem setStates_ret {me n : Nat} {p p' : HmmAttrs K} (h : setStates me n p = .ret () p') :
    ∃ a c, p' = { p with states := a, changed := c } ∧ a.value = n ∧ p.states.limitMin ≤ n := by
  unfold setStates at h
  split at h
  · rename_i k
    injection h with _ h
    obtain ⟨m1, m2, _⟩ := Attr.set_ret k
    exact ⟨_, _, h.symm, m1, not_lt.1 (of_decide_eq_false m2)⟩
  · cases h
  · cases h

theorem setGaussians_ret {me n : Nat} {p p' : HmmAttrs K} (h : setGaussians me n p = .ret () p') :
    ∃ a c, p' = { p with gaussians := a, changed := c } ∧ a.value = n ∧ p.gaussians.limitMin ≤ n := by
  unfold setGaussians at h
  split at h
  · rename_i k
    injection h with _ h
    obtain ⟨m1, m2, _⟩ := Attr.set_ret k
    exact ⟨_, _, h.symm, m1, not_lt.1 (of_decide_eq_false m2)⟩
  · cases h
  · cases h

theorem setRelReg_ret {me : Nat} {x : K} {p p' : HmmAttrs K} (h : setRelReg me x p = .ret () p') :
    ∃ a c, p' = { p with relReg := a, changed := c } ∧ a.value = x ∧ p.relReg.limitMin ≤ x ∧ x ≤ p.relReg.limitMax := by
  unfold setRelReg at h
  split at h
  · rename_i k
    injection h with _ h
    obtain ⟨m1, m2, m3⟩ := Attr.set_ret k
    exact ⟨_, _, h.symm, m1, not_lt.1 (of_decide_eq_false m2), not_lt.1 (of_decide_eq_false m3)⟩
  · cases h
  · cases h

theorem setAbsReg_ret {me : Nat} {x : K} {p p' : HmmAttrs K} (h : setAbsReg me x p = .ret () p') :
    ∃ a c, p' = { p with absReg := a, changed := c } ∧ a.value = x ∧ p.absReg.limitMin ≤ x ∧ x ≤ p.absReg.limitMax := by
  unfold setAbsReg at h
  split at h
  · rename_i k
    injection h with _ h
    obtain ⟨m1, m2, m3⟩ := Attr.set_ret k
    exact ⟨_, _, h.symm, m1, not_lt.1 (of_decide_eq_false m2), not_lt.1 (of_decide_eq_false m3)⟩
  · cases h
  · cases h

theorem setCovMode_ret {me : Nat} {x : Int} {p p' : HmmAttrs K} (h : setCovMode me x p = .ret () p') :
    ∃ a c, p' = { p with covMode := a, changed := c } ∧ a.value = x ∧ p.covMode.limitMin ≤ x ∧ x ≤ p.covMode.limitMax := by
  unfold setCovMode at h
  split at h
  · rename_i k
    injection h with _ h
    obtain ⟨m1, m2, m3⟩ := Attr.set_ret k
    exact ⟨_, _, h.symm, m1, not_lt.1 (of_decide_eq_false m2), not_lt.1 (of_decide_eq_false m3)⟩
  · cases h
  · cases h

theorem setTransMode_ret {me : Nat} {x : Int} {p p' : HmmAttrs K} (h : setTransMode me x p = .ret () p') :
    ∃ a c, p' = { p with transMode := a, changed := c } ∧ a.value = x ∧ p.transMode.limitMin ≤ x ∧ x ≤ p.transMode.limitMax := by
  unfold setTransMode at h
  split at h
  · rename_i k
    injection h with _ h
    obtain ⟨m1, m2, m3⟩ := Attr.set_ret k
    exact ⟨_, _, h.symm, m1, not_lt.1 (of_decide_eq_false m2), not_lt.1 (of_decide_eq_false m3)⟩
  · cases h
  · cases h

theorem setRegEstimator_ret {me : Nat} {x : Int} {p p' : HmmAttrs K} (h : setRegEstimator me x p = .ret () p') :
    ∃ a c, p' = { p with regEstimator := a, changed := c } ∧ a.value = x ∧ p.regEstimator.limitMin ≤ x ∧ x ≤ p.regEstimator.limitMax := by
  unfold setRegEstimator at h
  split at h
  · rename_i k
    injection h with _ h
    obtain ⟨m1, m2, m3⟩ := Attr.set_ret k
    exact ⟨_, _, h.symm, m1, not_lt.1 (of_decide_eq_false m2), not_lt.1 (of_decide_eq_false m3)⟩
  · cases h
  · cases h

theorem setHierarchical_ret {me : Nat} {b : Bool} {p p' : HmmAttrs K} (h : setHierarchical me b p = .ret () p') :
    ∃ a c, p' = { p with hierarchical := a, changed := c } := by
  unfold setHierarchical at h
  split at h
  · injection h with _ h
    exact ⟨_, _, h.symm⟩
  · cases h
  · cases h

theorem readJson_ret {me : Nat} {tiny realMax : K} {root : Json K} {p : HmmAttrs K}
    (h : HmmAttrs.readJson me nar root (HmmAttrs.fresh me tiny realMax) = .ret () p) : p.Described nar root tiny realMax := by
  unfold HmmAttrs.readJson at h
  obtain ⟨j1, e1, h⟩ := bindE_inv h
  obtain ⟨v1, f1, h⟩ := bindE_inv h
  obtain ⟨_, p1, g1, h⟩ := bind_inv h
  obtain ⟨a1, c1, rfl, r1, s1⟩ := setStates_ret g1
  obtain ⟨j2, e2, h⟩ := bindE_inv h
  obtain ⟨v2, f2, h⟩ := bindE_inv h
  obtain ⟨_, p2, g2, h⟩ := bind_inv h
  obtain ⟨a2, c2, rfl, r2, s2⟩ := setGaussians_ret g2
  obtain ⟨j3, e3, h⟩ := bindE_inv h
  obtain ⟨v3, f3, h⟩ := bindE_inv h
  obtain ⟨_, p3, g3, h⟩ := bind_inv h
  obtain ⟨a3, c3, rfl, r3, s3⟩ := setRelReg_ret g3
  obtain ⟨j4, e4, h⟩ := bindE_inv h
  obtain ⟨v4, f4, h⟩ := bindE_inv h
  obtain ⟨_, p4, g4, h⟩ := bind_inv h
  obtain ⟨a4, c4, rfl, r4, s4⟩ := setAbsReg_ret g4
  obtain ⟨j5, e5, h⟩ := bindE_inv h
  obtain ⟨v5, f5, h⟩ := bindE_inv h
  obtain ⟨_, p5, g5, h⟩ := bind_inv h
  obtain ⟨a5, c5, rfl, r5, s5⟩ := setCovMode_ret g5
  obtain ⟨j6, e6, h⟩ := bindE_inv h
  obtain ⟨v6, f6, h⟩ := bindE_inv h
  obtain ⟨_, p6, g6, h⟩ := bind_inv h
  obtain ⟨a6, c6, rfl, r6, s6⟩ := setTransMode_ret g6
  obtain ⟨j7, e7, h⟩ := bindE_inv h
  obtain ⟨v7, f7, h⟩ := bindE_inv h
  obtain ⟨_, p7, g7, h⟩ := bind_inv h
  obtain ⟨a7, c7, rfl, r7, s7⟩ := setRegEstimator_ret g7
  obtain ⟨j8, e8, h⟩ := bindE_inv h
  obtain ⟨v8, f8, h⟩ := bindE_inv h
  obtain ⟨a8, c8, rfl⟩ := setHierarchical_ret h
  subst r3 r4 r5 r6 r7
  simp only [fresh] at s1 s2 s3 s4 s5 s6 s7
  refine ⟨⟨j1, v1, e1, f1, r1⟩, ⟨j2, v2, e2, f2, r2⟩, ⟨j3, e3, f3⟩, ⟨j4, e4, f4⟩, ⟨j5, e5, f5⟩, ⟨j6, e6, f6⟩, ⟨j7, e7, f7⟩, r1.symm ▸ s1,
    r2.symm ▸ s2, s3, s4, ?_, ?_, ?_⟩
  · show a5.value = 0 ∨ a5.value = 1; omega
  · show a6.value = 0 ∨ a6.value = 1; omega
  · show a7.value = 0 ∨ a7.value = 1 ∨ a7.value = 2; omega

end HmmAttrs

/-- C86 (parameters of an HMM class, what is accepted): after `fromJson` of any JSON that returns, the parameters are the values of the file and within their
    limits, except `hierarchical`, which is unchanged (see `C27_hmm_hierarchical_violated`). -/
theorem C86_hmm_parameters_accepted_partial {me tmp : Nat} {tiny realMax : K} {root : Json K} {p p' : HmmAttrs K}
    (h : HmmAttrs.fromJson me nar tmp tiny realMax root p = .ret () p') :
    p'.Described nar root tiny realMax ∧ p'.hierarchical.value = p.hierarchical.value := by
  unfold HmmAttrs.fromJson at h
  split at h
  · rename_i hr
    injection h with _ h
    have := HmmAttrs.readJson_ret nar hr
    subst h
    exact ⟨⟨this.1, this.2, this.3, this.4, this.5, this.6, this.7, this.8, this.9, this.10, this.11, this.12, this.13, this.14⟩, rfl⟩
  · cases h
  · cases h

/-! ### Classes -/

theorem Reads.hmm {σ : Type} (tiny realMax : K) (sh : SharedView) (z : K) (root : Json K) :
    Prog.Reads (Hmm.ofJson nar tiny realMax sh z root : Prog σ (String × Hmm K)) := by
  unfold Hmm.ofJson Hmm.readAttrs
  exact Reads.bind (Reads.lift _) fun _ => Reads.bind (Reads.lift _) fun _ => Reads.bind (Reads.bind (Reads.lift _) fun _ => Reads.build _ _) fun _ =>
    Reads.bind (Reads.build _ _) fun _ => Reads.pure _

/-- C86 (HMM classes, what is refused): if `fromJson` of any JSON throws, the class is unchanged; while it is training it always throws. -/
theorem C86_hmm_class_unchanged (tiny realMax z : K) (root : Json K) (m : Hmm K) :
    (∀ e m', Hmm.fromJson nar tiny realMax z root m = .throw e m' → m' = m) ∧
    (m.training = true → Hmm.fromJson nar tiny realMax z root m = .throw .runtimeError m) := by
  constructor
  · intro e m' h
    unfold Hmm.fromJson Hmm.checkTraining at h
    cases ht : m.training with
    | true => simp only [bind_def, get_def, ht, if_true, throw_def] at h; injection h with _ h; exact h.symm
    | false =>
      simp only [bind_def, get_def, ht, Bool.false_eq_true, if_false, pure_def] at h
      cases hq : (Hmm.ofJson nar tiny realMax ⟨m.bimodal, m.dim, m.di, m.window⟩ z root : Prog (Hmm K) (String × Hmm K)) m with
      | ret t m1 =>
        obtain rfl := (Reads.hmm nar tiny realMax _ z root).ret hq
        rw [hq] at h
        simp only [Hmm.assignFrom, bind_def, get_def, ht, Bool.false_or] at h
        by_cases h2 : t.2.training = true
        · rw [if_pos h2] at h; injection h with _ h; exact h.symm
        · rw [if_neg h2] at h; cases h
      | throw e' m1 =>
        rw [hq] at h; injection h with _ h; rw [← h]; exact (Reads.hmm nar tiny realMax _ z root).throw hq
      | ub => rw [hq] at h; cases h
  · intro ht
    simp only [Hmm.fromJson, Hmm.checkTraining, bind_def, get_def, ht, if_true, throw_def]

/-- what a mixture that was read from a file holds: the parameters and the coefficients of the file, one coefficient and one component for every declared
    Gaussian, and the components of the file -/
structure Gmm.Loaded (root : Json K) (tiny realMax : K) (m : Gmm K) : Prop where
  parameters : ∃ j p, root.getKey "parameters" = .ok j ∧ GmmAttrs.Described nar j tiny realMax p ∧ m.gaussians = p.gaussians.value ∧
    m.relReg = p.relReg.value ∧ m.absReg = p.absReg.value ∧ m.mode = if p.covMode.value = 0 then .full else .diagonal
  comps : m.comps.length = m.gaussians
  coeffs : m.coeffs.length = m.gaussians ∧ HoldsArray root "mixture_coeffs" m.coeffs
  components : m.HasComponents root

variable {nar} in
theorem Gmm.fromJson_loaded {tiny realMax z : K} {root : Json K} {m m' : Gmm K} {l : String}
    (h : Gmm.fromJson nar tiny realMax z root m = .ret l m') :
    m'.Loaded nar root tiny realMax ∧ m'.bimodal = m.bimodal ∧ m'.dim = m.dim ∧ m'.di = m.di ∧ m'.window = m.window := by
  unfold Gmm.fromJson at h
  obtain ⟨_, m1, h1, h'⟩ := bind_inv h
  clear h
  have h := h'
  clear h'
  have : m1 = m := by
    unfold Gmm.checkTraining at h1
    rw [bind_def, get_def] at h1
    simp only at h1
    split at h1
    · cases h1
    · injection h1 with _ h1; exact h1.symm
  subst this
  rw [bind_def, get_def] at h
  simp only at h
  obtain ⟨t, e, h⟩ := Reads.bind_inv (Reads.gmm nar tiny realMax _ z root) h
  obtain ⟨lab, t⟩ := t
  obtain ⟨_, q2, _, q4, q5, q6, q7, _, q9, q10, q11, q12⟩ := C86_class_accepted_partial nar e
  obtain ⟨_, m2, h2, h⟩ := bind_inv h
  injection h with _ h
  subst h
  unfold Gmm.assignFrom at h2
  rw [bind_def, get_def] at h2
  simp only at h2
  split at h2
  · cases h2
  · injection h2 with _ h2
    subst h2
    obtain ⟨js, qc⟩ := C86_class_components nar e
    exact ⟨⟨q2, q4, ⟨q5, q6⟩, ⟨js, qc⟩⟩, q9, q10, q11, q12⟩

theorem Gmm.Loaded.copy {tiny realMax : K} {root : Json K} {m : Gmm K} (h : m.Loaded nar root tiny realMax) (z : K) :
    (Gmm.copy z m).Loaded nar root tiny realMax := ⟨h.1, h.2, h.3, h.4⟩

namespace Hmm

theorem onState_inv {α : Type} {i : Nat} {f : Prog (Gmm K) α} {a m : Hmm K} {x : α} (h : onState i f a = .ret x m) :
    ∃ st st', a.sts[i]? = some st ∧ f st = .ret x st' ∧ m = { a with sts := a.sts.set i st' } := by
  unfold onState at h
  split at h
  · cases h
  · rename_i st hs
    split at h
    · rename_i x' st' hf
      injection h with h1 h2
      exact ⟨st, st', hs, h1 ▸ hf, h2.symm⟩
    · cases h
    · cases h

variable {nar} in
/-- the states that have been read -/
theorem readStates_ret {tiny realMax z : K} (js : List (Json K)) (s : Nat) {a m : Hmm K} (h : readStates nar tiny realMax z js s a = .ret () m) :
    ∃ sts, m = { a with sts := sts } ∧ sts.length = a.sts.length ∧ (js ≠ [] → s + js.length ≤ a.sts.length) ∧
      (∀ i j, js[i]? = some j → ∃ st, sts[s + i]? = some st ∧ st.Loaded nar j tiny realMax) ∧
      (∀ i, i < s ∨ s + js.length ≤ i → sts[i]? = a.sts[i]?) := by
  induction js generalizing s a with
  | nil =>
    unfold readStates at h
    injection h with _ h
    exact ⟨a.sts, h.symm, rfl, fun h => absurd rfl h, fun i j h => by simp at h, fun _ _ => rfl⟩
  | cons j js ih =>
    unfold readStates at h
    obtain ⟨l, a1, h1, h⟩ := bind_inv h
    obtain ⟨st, st', e1, e2, rfl⟩ := onState_inv h1
    obtain ⟨sts, rfl, g1, g2, g3, g4⟩ := ih (s + 1) h
    have hs : s < a.sts.length := (List.getElem?_eq_some_iff.1 e1).1
    simp only [List.length_set] at g1 g2
    refine ⟨sts, rfl, g1, fun _ => ?_, fun i j' hj => ?_, fun i hi => ?_⟩
    · cases js with
      | nil => simp; omega
      | cons x xs => have := g2 (by simp); simp at this ⊢; omega
    · cases i with
      | zero =>
        simp only [List.getElem?_cons_zero, Option.some.injEq] at hj
        subst hj
        refine ⟨st', ?_, (Gmm.fromJson_loaded e2).1⟩
        rw [Nat.add_zero, g4 s (.inl (by omega))]
        simp [hs]
      | succ i =>
        rw [List.getElem?_cons_succ] at hj
        obtain ⟨st, k1, k2⟩ := g3 i j' hj
        exact ⟨st, by rw [← k1]; congr 1; omega, k2⟩
    · simp only [List.length_cons] at hi
      rw [g4 i (by omega)]
      simp only
      rw [List.getElem?_set_ne (by omega)]

theorem loop_allocate_ret (k : Nat) {a m : Hmm K} (h : Phrase.loop k () (fun _ i => onState i Gmm.allocate) a = .ret () m) :
    ∃ sts, m = { a with sts := sts } ∧ sts.length = a.sts.length ∧
      (∀ i, i < k → ∃ st st', a.sts[i]? = some st ∧ sts[i]? = some st' ∧ Gmm.allocate st = .ret () st') ∧ ∀ i, k ≤ i → sts[i]? = a.sts[i]? := by
  induction k generalizing m with
  | zero => injection h with _ h; exact ⟨a.sts, h.symm, rfl, fun i hi => by omega, fun _ _ => rfl⟩
  | succ k ih =>
    rw [loop_succ] at h
    obtain ⟨_, m1, h1, h2⟩ := bind_inv h
    obtain ⟨sts, rfl, g1, g2, g3⟩ := ih h1
    obtain ⟨st, st', e1, e2, rfl⟩ := onState_inv h2
    simp only at e1
    have hk : k < sts.length := (List.getElem?_eq_some_iff.1 e1).1
    refine ⟨_, rfl, by simpa using g1, fun i hi => ?_, fun i hi => ?_⟩
    · by_cases hik : i = k
      · subst hik
        exact ⟨st, st', by rw [← g3 i (le_refl _), e1], by simp [hk], e2⟩
      · obtain ⟨u, u', q1, q2, q3⟩ := g2 i (by omega)
        exact ⟨u, u', q1, by simp only; rw [List.getElem?_set_ne (by omega), q2], q3⟩
    · simp only
      rw [List.getElem?_set_ne (by omega), g3 i (by omega)]

/-- the states and the sizes after `allocate()` -/
theorem allocate_inv {a m : Hmm K} (hh : a.hier = true) (h : allocate a = .ret () m) :
    ∃ sts e, m = { allocated a with sts := sts, exitP := e } ∧ sts.length = a.n ∧ e.length = a.n ∧
      ∀ st ∈ sts, st.gaussians = a.gaussians ∧ st.comps.length = a.gaussians ∧ st.coeffs = List.replicate a.gaussians 0 := by
  unfold allocate at h
  rw [bind_def, modify_def] at h
  simp only at h
  rw [bind_def, get_def] at h
  simp only at h
  obtain ⟨_, m1, h1, h2⟩ := bind_inv h
  obtain ⟨sts, rfl, g1, g2, _⟩ := loop_allocate_ret _ h1
  rw [if_pos (by exact hh)] at h2
  unfold updateExitProbabilities at h2
  rw [bind_def, get_def] at h2
  simp only at h2
  rw [if_neg (by simp [allocated, hh])] at h2
  obtain ⟨_, m2, h2, h3⟩ := bind_inv h2
  have : m2 = { allocated a with sts := sts } := by
    unfold Gauss.rd at h2
    cases hx : (Gauss.resize (allocated a).n (allocated a).exitP)[(allocated a).n - 1]? with
    | some x => rw [hx] at h2; injection h2 with _ h2; exact h2.symm
    | none => rw [hx] at h2; cases h2
  subst this
  injection h3 with _ h3
  have hl : (allocated a).sts.length = a.n := by simp [allocated]
  refine ⟨sts, _, h3.symm, g1.trans hl, ?_, ?_⟩
  · simp only [List.length_set, Gauss.resize_length]; rfl
  · intro st hst
    obtain ⟨i, hi, rfl⟩ := List.getElem_of_mem hst
    obtain ⟨u, u', q1, q2, q3⟩ := g2 i (by omega)
    rw [List.getElem?_eq_getElem hi] at q2
    injection q2 with q2
    have hu : u = newState a := by
      simp only [allocated, List.getElem?_replicate] at q1
      split at q1
      · injection q1 with q1; exact q1.symm
      · cases q1
    subst hu
    obtain ⟨g, rfl⟩ := Gmm.allocate_head q3
    rw [q2]
    refine ⟨rfl, by simp [newState], by simp [newState, Gauss.resize]⟩

end Hmm

/-- what an HMM class that was read from a file holds: the parameters of the file, the prior (if it is ergodic), the transition and the exit probabilities (if they
    are there) of the file, with the sizes that the number of states requires, and as many states as declared.  The file has at most that many
    states; each of them is loaded as it is (`Gmm.Loaded`); those that are missing have only mixture coefficients 0.  The class is a hierarchical one, whatever
    the file says. -/
structure Hmm.Loaded (root : Json K) (tiny realMax : K) (m : Hmm K) : Prop where
  parameters : ∃ j p, root.getKey "parameters" = .ok j ∧ HmmAttrs.Described nar j tiny realMax p ∧ m.n = p.states.value ∧ m.gaussians = p.gaussians.value ∧
    m.relReg = p.relReg.value ∧ m.absReg = p.absReg.value ∧ (m.mode = if p.covMode.value = 0 then .full else .diagonal) ∧
    m.ergodic = decide (p.transMode.value = 0) ∧
    m.est = if p.regEstimator.value = 0 then .full else if p.regEstimator.value = 1 then .windowed else .likeliest
  hier : m.hier = true
  n_pos : 1 ≤ m.n
  gaussians_pos : 1 ≤ m.gaussians
  ergodic : m.ergodic = true → m.prior.length = m.n ∧ m.trans.length = m.n * m.n ∧ HoldsArray root "prior" m.prior
  leftRight : m.ergodic = false → m.prior = [] ∧ m.trans.length = 2 * m.n
  transition : HoldsArray root "transition" m.trans
  exit : m.exitP.length = m.n
  exitFile : ∀ j, root.member "exitProbabilities" = .ok (some j) → ∃ l, j = .arr l ∧ l.map Json.asReal = m.exitP.map .ok
  states : ∃ js, root.getKey "states" = .ok js ∧ js.elements.length ≤ m.n ∧ m.sts.length = m.n ∧
    (∀ (i : Nat) j, js.elements[i]? = some j → ∃ s : Gmm K, m.sts[i]? = some s ∧ s.Loaded nar j tiny realMax) ∧
    (∀ (i : Nat) s, js.elements.length ≤ i → m.sts[i]? = some s → s.gaussians = m.gaussians ∧ s.coeffs = List.replicate m.gaussians 0)

/-- C86 (HMM classes, what the constructor accepts): if the construction of an HMM class from any JSON returns, the class has the label and the contents of the
    file (`Hmm.Loaded`) and the shared parameters of the model. -/
theorem C86_hmm_class_constructed_partial {σ : Type} {tiny realMax z : K} {sh : SharedView} {root : Json K} {st st' : σ} {label : String} {m : Hmm K}
    (h : Hmm.ofJson nar tiny realMax sh z root st = .ret (label, m) st') :
    (∃ j, root.getKey "label" = .ok j ∧ j.asString = .ok label) ∧ m.Loaded nar root tiny realMax ∧
    m.training = false ∧ m.bimodal = sh.bimodal ∧ m.dim = sh.dim ∧ m.di = sh.di ∧ m.window = sh.window := by
  unfold Hmm.ofJson at h
  obtain ⟨j1, e1, h⟩ := bindE_inv h
  obtain ⟨l, f1, h⟩ := bindE_inv h
  obtain ⟨p, s1, e2, h⟩ := bind_inv h
  obtain ⟨m1, s2, e3, h⟩ := bind_inv h
  injection h with h _
  injection h with h h'
  subst h h'
  obtain ⟨_, e3⟩ := build_inv e3
  unfold Hmm.readAttrs at e2
  obtain ⟨j2, f2, e2⟩ := bindE_inv e2
  obtain ⟨_, e2⟩ := build_inv e2
  have hp := (C86_hmm_parameters_accepted_partial nar e2).1
  have hn : p.states.value ≠ 0 := by have := hp.states_pos; omega
  unfold Hmm.readBody at e3
  obtain ⟨_, a1, g1, e3⟩ := bind_inv e3
  obtain ⟨sts, ex, rfl, k1, k2, k3⟩ := Hmm.allocate_inv rfl g1
  obtain ⟨_, a2, g2, e3⟩ := bind_inv e3
  obtain ⟨_, a3, g3, e3⟩ := bind_inv e3
  obtain ⟨js, k4, e3⟩ := bindE_inv e3
  obtain ⟨sts', rfl, r1, r2, r3, r4⟩ := Hmm.readStates_ret _ _ e3
  have hr : ∀ n, (Gauss.resize n ([] : List K)).length = n := fun n => by simp [Gauss.resize]
  -- the transitions
  have w2 : ∃ pr tr, a2 = { Hmm.allocated (Hmm.unread sh z p) with sts := sts, exitP := ex, prior := pr, trans := tr } ∧
      (p.transMode.value = 0 → pr.length = p.states.value ∧ tr.length = p.states.value * p.states.value ∧ HoldsArray root "prior" pr) ∧
      (p.transMode.value ≠ 0 → pr = [] ∧ tr.length = 2 * p.states.value) ∧ HoldsArray root "transition" tr := by
    unfold Hmm.readTransitions at g2
    rw [bind_def, get_def] at g2
    simp only at g2
    by_cases hm : p.transMode.value = 0
    · rw [if_pos (by simp [Hmm.allocated, Hmm.unread, hm])] at g2
      obtain ⟨ja, x1, g2⟩ := bindE_inv g2
      obtain ⟨pr, x2, g2⟩ := Reads.bind_inv (Reads.vector _ _ _) g2
      obtain ⟨jb, x3, g2⟩ := bindE_inv g2
      obtain ⟨tr, x4, g2⟩ := Reads.bind_inv (Reads.vector _ _ _) g2
      injection g2 with _ g2
      obtain ⟨y1, y2, y3⟩ := Gauss.readVector_ret x2
      obtain ⟨z1, z2, z3⟩ := Gauss.readVector_ret x4
      simp only [Hmm.allocated, Hmm.unread, hm, decide_true, if_true, hr] at y1 y2 y3 z1 z2 z3
      obtain ⟨la, u1, u2⟩ := y3 trivial hn
      obtain ⟨lb, v1, v2⟩ := z3 trivial (Nat.mul_ne_zero hn hn)
      exact ⟨pr, tr, g2.symm, fun _ => ⟨y2, z2, ⟨la, u1 ▸ x1, u2⟩⟩, fun h => absurd hm h, ⟨lb, v1 ▸ x3, v2⟩⟩
    · rw [if_neg (by simp [Hmm.allocated, Hmm.unread, hm])] at g2
      obtain ⟨jb, x3, g2⟩ := bindE_inv g2
      obtain ⟨tr, x4, g2⟩ := Reads.bind_inv (Reads.vector _ _ _) g2
      injection g2 with _ g2
      obtain ⟨z1, z2, z3⟩ := Gauss.readVector_ret x4
      simp only [Hmm.allocated, Hmm.unread, hm, decide_false, Bool.false_eq_true, if_false, hr] at z1 z2 z3
      obtain ⟨lb, v1, v2⟩ := z3 (by omega) (by omega)
      refine ⟨[], tr, ?_, fun h => absurd h hm, fun _ => ⟨rfl, by omega⟩, ⟨lb, v1 ▸ x3, v2⟩⟩
      rw [← g2]
      simp [Hmm.allocated, Hmm.unread, hm]
  obtain ⟨pr, tr, rfl, t1, t2, t3⟩ := w2
  -- the exit probabilities
  have w3 : ∃ ex', a3 = { Hmm.allocated (Hmm.unread sh z p) with sts := sts, exitP := ex', prior := pr, trans := tr } ∧ ex'.length = p.states.value ∧
      (∀ j, root.member "exitProbabilities" = .ok (some j) → ∃ l, j = .arr l ∧ l.map Json.asReal = ex'.map .ok) := by
    unfold Hmm.readExit at g3
    rw [bind_def, get_def] at g3
    simp only at g3
    obtain ⟨oe, x1, g3⟩ := bindE_inv g3
    cases oe with
    | none =>
      injection g3 with _ g3
      exact ⟨ex, g3.symm, k2, fun j hj => by rw [x1] at hj; cases hj⟩
    | some j =>
      simp only at g3
      obtain ⟨ex', x2, g3⟩ := Reads.bind_inv (Reads.vector _ _ _) g3
      injection g3 with _ g3
      obtain ⟨y1, y2, y3⟩ := Gauss.readVector_ret x2
      simp only [Hmm.allocated, Hmm.unread] at y1 y2 y3
      replace k2 : ex.length = p.states.value := k2
      obtain ⟨la, u1, u2⟩ := y3 k2.symm hn
      refine ⟨ex', g3.symm, y2.trans k2, fun j' hj => ?_⟩
      rw [x1] at hj
      injection hj with hj
      injection hj with hj
      exact ⟨la, hj ▸ u1, u2⟩
  obtain ⟨ex', rfl, q1, q2⟩ := w3
  replace k1 : sts.length = p.states.value := k1
  simp only at r1 r2 r3 r4
  rw [k1] at r1 r2
  refine ⟨⟨j1, e1, f1⟩, ⟨⟨j2, p, f2, hp, rfl, rfl, rfl, rfl, rfl, rfl, rfl⟩, rfl, hp.states_pos, hp.gaussians_pos, fun he => t1 ?_, fun he => t2 ?_, t3, q1, q2,
    ⟨js, k4, ?_, r1, fun i j hj => ?_, fun i s hi hs => ?_⟩⟩, rfl, rfl, rfl, rfl, rfl⟩
  · simpa [Hmm.allocated, Hmm.unread] using he
  · simpa [Hmm.allocated, Hmm.unread] using he
  · by_cases h0 : js.elements = []
    · rw [h0]; exact Nat.zero_le _
    · have := r2 h0
      show js.elements.length ≤ p.states.value
      omega
  · obtain ⟨s, v1, v2⟩ := r3 i j hj
    exact ⟨s, by rw [← v1, Nat.zero_add], v2⟩
  · have : sts[i]? = some s := by rw [← r4 i (.inr (by omega))]; exact hs
    obtain ⟨v1, v2, v3⟩ := k3 s (List.mem_of_getElem? this)
    exact ⟨v1, v3⟩

/-- C86 (HMM classes, what is accepted): if `fromJson` of any JSON returns on any class, the class has the label and the contents of the file, the shared
    parameters it had before, and forward and backward variables for its states; the state of the performance (whether it has begun, the variables of the
    hierarchical forward algorithm, the results) is kept. -/
theorem C86_hmm_class_accepted_partial {tiny realMax z : K} {root : Json K} {label : String} {m m' : Hmm K}
    (h : Hmm.fromJson nar tiny realMax z root m = .ret label m') :
    (∃ j, root.getKey "label" = .ok j ∧ j.asString = .ok label) ∧ m'.Loaded nar root tiny realMax ∧
    m'.training = false ∧ m'.bimodal = m.bimodal ∧ m'.dim = m.dim ∧ m'.di = m.di ∧ m'.window = m.window ∧
    (m'.alpha.length = m'.n ∧ m'.prevAlpha.length = m'.n ∧ m'.beta.length = m'.n ∧ m'.prevBeta.length = m'.n) ∧
    (m'.started = m.started ∧ m'.alpha0 = m.alpha0 ∧ m'.alpha1 = m.alpha1 ∧ m'.alpha2 = m.alpha2 ∧ m'.results = m.results) := by
  unfold Hmm.fromJson at h
  obtain ⟨_, m1, h1, h2⟩ := bind_inv h
  have : m1 = m := by
    unfold Hmm.checkTraining at h1
    rw [bind_def, get_def] at h1
    simp only at h1
    split at h1
    · cases h1
    · injection h1 with _ h1; exact h1.symm
  subst this
  rw [bind_def, get_def] at h2
  simp only at h2
  obtain ⟨⟨lab, t⟩, e, h3⟩ := Reads.bind_inv (Reads.hmm nar tiny realMax _ z root) h2
  obtain ⟨q1, q2, _, q4, q5, q6, q7⟩ := C86_hmm_class_constructed_partial nar e
  obtain ⟨_, m2, h4, h5⟩ := bind_inv h3
  injection h5 with h5 h6
  subst h6 h5
  unfold Hmm.assignFrom at h4
  rw [bind_def, get_def] at h4
  simp only at h4
  split at h4
  · cases h4
  · injection h4 with _ h4
    subst h4
    refine ⟨q1, ⟨q2.parameters, q2.hier, q2.n_pos, q2.gaussians_pos, q2.ergodic, q2.leftRight, q2.transition, q2.exit, q2.exitFile, ?_⟩, rfl, q4, q5, q6, q7,
      by simp [Gauss.resize_length], rfl, rfl, rfl, rfl, rfl⟩
    obtain ⟨js, r1, r2, r3, r4, r5⟩ := q2.states
    refine ⟨js, r1, r2, by simpa using r3, fun i j hj => ?_, fun i s hi hs => ?_⟩
    · obtain ⟨s, v1, v2⟩ := r4 i j hj
      exact ⟨Gmm.copy z s, by simp [v1], v2.copy nar z⟩
    · simp only [List.getElem?_map, Option.map_eq_some_iff] at hs
      obtain ⟨s0, v1, rfl⟩ := hs
      exact r5 i s0 hi v1

/-- C86 (HMM classes, a defect): a file with more states than declared makes the constructor write outside the vector of states (the states before the first
    excessive one being readable). -/
theorem C86_states_ub (tiny realMax z : K) (js : List (Json K)) (extra : Json K) (m : Hmm K) (hl : js.length = m.sts.length)
    (hj : ∀ j ∈ js, ∀ s ∈ m.sts, ∃ l s', Gmm.fromJson nar tiny realMax z j s = .ret l s') :
    Hmm.readStates nar tiny realMax z (js ++ [extra]) 0 m = .ub := by
  have key : ∀ (js : List (Json K)) (c : Nat) (m : Hmm K), c + js.length = m.sts.length →
      (∀ j ∈ js, ∀ i, c ≤ i → ∀ s, m.sts[i]? = some s → ∃ l s', Gmm.fromJson nar tiny realMax z j s = .ret l s') →
      Hmm.readStates nar tiny realMax z (js ++ [extra]) c m = .ub := by
    intro js
    induction js with
    | nil =>
      intro c m h _
      simp only [List.nil_append, Hmm.readStates, bind_def, Hmm.onState]
      rw [List.getElem?_eq_none (by simp at h; omega)]
    | cons j js ih =>
      intro c m h hj
      have hc : c < m.sts.length := by simp at h; omega
      obtain ⟨l, s', hg⟩ := hj j (by simp) c (le_refl _) _ (List.getElem?_eq_getElem hc)
      simp only [List.cons_append, Hmm.readStates, bind_def, Hmm.onState, List.getElem?_eq_getElem hc, hg]
      refine ih _ _ (by simp at h ⊢; omega) fun j' h' i hi s hs => hj j' (by simp [h']) i (by omega) s ?_
      simp only at hs
      rwa [List.getElem?_set_ne (by omega)] at hs
  exact key js 0 m (by omega) fun j h i _ s hs => hj j h s (List.mem_of_getElem? hs)

namespace Hmm

/-- a step that keeps the number of states and the variables of the hierarchical forward algorithm -/
def KeepsH {α : Type} (f : Prog (Hmm K) α) : Prop :=
  ∀ s x s', f s = .ret x s' → s'.n = s.n ∧ s'.alpha0 = s.alpha0 ∧ s'.hier = s.hier ∧ s'.training = s.training

namespace KeepsH

theorem bind {α β : Type} {f : Prog (Hmm K) α} {g : α → Prog (Hmm K) β} (hf : KeepsH f) (hg : ∀ a, KeepsH (g a)) : KeepsH (f >>= g) := by
  intro s x s' h
  obtain ⟨a, s1, h1, h2⟩ := bind_inv h
  obtain ⟨p1, p2, p3, p4⟩ := hf _ _ _ h1
  obtain ⟨q1, q2, q3, q4⟩ := hg a _ _ _ h2
  exact ⟨q1.trans p1, q2.trans p2, q3.trans p3, q4.trans p4⟩

theorem pure {α : Type} (a : α) : KeepsH (Pure.pure a : Prog (Hmm K) α) := by
  intro s x s' h
  injection h with _ h
  subst h
  exact ⟨rfl, rfl, rfl, rfl⟩

theorem loop {α : Type} (n : Nat) (a : α) (body : α → Nat → Prog (Hmm K) α) (h : ∀ a i, KeepsH (body a i)) : KeepsH (Phrase.loop n a body) := by
  induction n with
  | zero => exact pure a
  | succ n ih =>
    intro s x s' h'
    rw [loop_succ] at h'
    obtain ⟨a1, s1, h1, h2⟩ := bind_inv (q := fun a => body a n) h'
    obtain ⟨p1, p2, p3, p4⟩ := ih _ _ _ h1
    obtain ⟨q1, q2, q3, q4⟩ := h a1 n _ _ _ h2
    exact ⟨q1.trans p1, q2.trans p2, q3.trans p3, q4.trans p4⟩

theorem ite {α : Type} {c : Prop} [Decidable c] {f g : Prog (Hmm K) α} (hf : KeepsH f) (hg : KeepsH g) : KeepsH (if c then f else g) := by
  split
  · exact hf
  · exact hg

theorem of_reads {α : Type} {f : Prog (Hmm K) α} (h : f.Reads) : KeepsH f := by
  intro s x s' e
  obtain rfl := h.ret e
  exact ⟨rfl, rfl, rfl, rfl⟩

theorem rd {α : Type} (l : List α) (i : Nat) : KeepsH (Gauss.rd l i : Prog (Hmm K) α) := by
  intro s x s' h
  unfold Gauss.rd at h
  cases hx : l[i]? with
  | some y => rw [hx] at h; injection h with _ h; subst h; exact ⟨rfl, rfl, rfl, rfl⟩
  | none => rw [hx] at h; cases h

theorem call {α : Type} (f : Prog (Gauss K) α) (g : Gauss K) : KeepsH (Gmm.call f g : Prog (Hmm K) α) := by
  intro s x s' h
  unfold Gmm.call at h
  split at h
  · injection h with _ h; subst h; exact ⟨rfl, rfl, rfl, rfl⟩
  · cases h
  · cases h

theorem onBuf {α : Type} (f : Prog (CBuf K 1) α) : KeepsH (Hmm.onBuf f : Prog (Hmm K) α) := by
  intro s x s' h
  unfold Hmm.onBuf at h
  split at h
  · injection h with _ h; subst h; exact ⟨rfl, rfl, rfl, rfl⟩
  · cases h
  · cases h

theorem setAlpha (i : Nat) (x : K) : KeepsH (Hmm.setAlpha i x : Prog (Hmm K) Unit) := by
  intro s y s' h
  unfold Hmm.setAlpha at h
  rw [bind_def, get_def] at h
  obtain ⟨_, s1, h1, h2⟩ := bind_inv h
  injection h2 with _ h2
  subst h2
  exact ⟨rfl, rfl, rfl, rfl⟩

theorem stateProb (D : Dens K) (m : Hmm K) (x y : List K) (i : Nat) : KeepsH (Hmm.stateProb D m x y i : Prog (Hmm K) K) := by
  unfold Hmm.stateProb
  have hs : ∀ (s : Gmm K) (f : Nat → Prog (Hmm K) K), (∀ c, KeepsH (f c)) → KeepsH (Gmm.obsProbSum s f) := fun s f hf =>
    loop _ _ _ fun _ _ => bind (hf _) fun _ => pure _
  have ht : ∀ e, KeepsH (Prog.throw e : Prog (Hmm K) K) := fun e => of_reads (Reads.throws e)
  refine bind (rd _ _) fun s => ite (ite (hs _ _ fun c => ?_) (hs _ _ fun c => ?_)) (hs _ _ fun c => ?_)
  · unfold Gmm.obsProbInput
    exact ite (ht _) (bind (rd _ _) fun _ => bind (rd _ _) fun _ => bind (call _ _) fun _ => pure _)
  · unfold Gmm.obsProbBimodal
    exact ite (ht _) (bind (rd _ _) fun _ => bind (rd _ _) fun _ => bind (call _ _) fun _ => pure _)
  · unfold Gmm.obsProb
    exact ite (ht _) (bind (rd _ _) fun _ => bind (rd _ _) fun _ => bind (call _ _) fun _ => pure _)

theorem get_bind {α : Type} {f : Hmm K → Prog (Hmm K) α} (h : ∀ m, KeepsH (f m)) : KeepsH (Prog.get >>= f) := bind (of_reads Reads.get) h

theorem divideAlpha (n : Nat) (z : K) : KeepsH (Hmm.divideAlpha n z : Prog (Hmm K) Unit) :=
  loop _ _ _ fun _ _ => get_bind fun _ => bind (rd _ _) fun _ => setAlpha _ _

theorem forward (D : Dens K) (x : List K) : KeepsH (Hmm.forward D x : Prog (Hmm K) K) := by
  have hp : ∀ i, KeepsH (do let m ← Prog.get; Hmm.stateProb D m x [] i : Prog (Hmm K) K) := fun i => get_bind fun m => stateProb D m x [] i
  unfold Hmm.forward
  refine get_bind fun m => ite ?_ (bind (onBuf _) fun _ => ?_)
  · unfold Hmm.forwardUpdate
    refine bind ?_ fun _ => get_bind fun m => bind (loop _ _ _ fun _ j => get_bind fun m => bind ?_ fun _ => bind (hp _) fun _ => bind (setAlpha _ _) fun _ =>
      pure _) fun _ => ite (bind (divideAlpha _ _) fun _ => pure _) (pure _)
    · intro s x s' h; injection h with _ h; subst h; exact ⟨rfl, rfl, rfl, rfl⟩
    · unfold Hmm.predict
      refine ite (loop _ _ _ fun _ _ => bind (rd _ _) fun _ => bind (rd _ _) fun _ => pure _) (bind (rd _ _) fun _ => bind (rd _ _) fun _ => ite ?_ ?_)
      · exact bind (rd _ _) fun _ => bind (rd _ _) fun _ => pure _
      · exact bind (rd _ _) fun _ => bind (rd _ _) fun _ => pure _
  · unfold Hmm.forwardInit
    refine bind ?_ fun _ => get_bind fun m => ite (bind (divideAlpha _ _) fun _ => pure _) (bind (loop _ _ _ fun _ _ => setAlpha _ _) fun _ => pure _)
    unfold Hmm.initAlpha
    intro s
    rw [bind_def, get_def]
    simp only
    split
    · exact loop _ _ _ (fun _ _ => get_bind fun _ => bind (rd _ _) fun _ => bind (hp _) fun _ => bind (setAlpha _ _) fun _ => pure _) s
    · intro y s' h
      rw [bind_def, set_def] at h
      obtain ⟨q1, q2, q3, q4⟩ := bind (hp 0) (fun _ => bind (setAlpha _ _) fun _ => pure _) _ _ _ h
      exact ⟨q1, q2, q3, q4⟩

end KeepsH

theorem updateAlphaWindow_ub {m : Hmm K} (hh : m.hier = true) (ht : m.training = false) (ha : m.alpha0.length < m.n) : updateAlphaWindow m = .ub := by
  have hm : ∀ i, Mild (occupancy m i : Prog (Hmm K) K) := by
    intro i
    unfold occupancy
    rw [if_pos hh]
    exact Mild.bind (Mild.rd _ _) fun _ => Mild.bind (Mild.rd _ _) fun _ => Mild.pure _
  have hu : ∀ s, (occupancy m m.alpha0.length : Prog (Hmm K) K) s = .ub := by
    intro s
    unfold occupancy
    rw [if_pos hh, bind_def]
    simp [Gauss.rd, undef_def]
  have hf : (findLikeliest m : Prog (Hmm K) (Nat × K)) m = .ub := by
    unfold findLikeliest
    by_cases h0 : m.alpha0.length = 0
    · rw [bind_def]
      have := hu m
      rw [h0] at this
      rw [this]
    · rcases hm 0 m with ⟨a, e⟩ | e
      · rw [bind_of_ret e]
        refine Mild.loop_ub (m.n - 1) (m.alpha0.length - 1) (by omega) _ (fun a t => Mild.bind (hm _) fun _ => Mild.pure _) (fun a s => ?_) _ _
        rw [bind_def, show m.alpha0.length - 1 + 1 = m.alpha0.length by omega, hu]
      · rw [bind_def, e]
  unfold updateAlphaWindow checkTraining
  simp only [bind_def, get_def, ht, Bool.false_eq_true, if_false, pure_def, hf]

end Hmm

/-- C86 (HMM classes, a defect): `fromJson` does not resize the variables of the hierarchical forward algorithm.  A class loaded from a file with more states than
    it had when it was last reset (or that was never reset) reads outside these variables when it is filtered without a reset. -/
theorem C86_hmm_class_grown_ub {tiny realMax z : K} {root : Json K} {label : String} {m m' m1 : Hmm K}
    (h : Hmm.fromJson nar tiny realMax z root m = .ret label m') (ha : m.alpha0.length < m'.n)
    (D : Dens K) (log : K → K) (x : List K) (v : K) (hf : Hmm.forward D x m' = .ret v m1) : Hmm.filter D log x m' = .ub := by
  obtain ⟨_, q2, q3, _, _, _, _, _, _, q10, _⟩ := C86_hmm_class_accepted_partial nar h
  obtain ⟨p1, p2, p3, p4⟩ := Hmm.KeepsH.forward D x _ _ _ hf
  unfold Hmm.filter
  rw [bind_of_ret (a := ()) (s' := m') (by simp only [Hmm.checkTraining, bind_def, get_def, q3, Bool.false_eq_true, if_false, pure_def]),
    bind_of_ret hf, bind_def, modify_def]
  simp only
  rw [bind_def, Hmm.updateAlphaWindow_ub (by exact p3.trans q2.hier) (by exact p4.trans q3) (by show m1.alpha0.length < m1.n; rw [p1, p2, q10]; exact ha)]

end Xmm
