import Verif.Spec.ClassParams
import Verif.Props.SharedJson
/-
C27, parameters of a class: JSON and assignment.
-/
namespace Xmm
variable {K : Type} {me tmp : Nat}

theorem checkLimits_int (v a b : Int) : checkLimits ltInt v a b = decide (a ≤ v ∧ v ≤ b) := by
  simp only [checkLimits, ltInt]
  by_cases h : a ≤ v <;> by_cases h' : v ≤ b <;> simp [h, h'] <;> omega

namespace KMeansAttrs

theorem setClusters_eq {p : KMeansAttrs K} (h : p.clusters.listener = some me) (v : Nat) :
    setClusters me v p = if p.clusters.limitMin ≤ v ∧ v ≤ p.clusters.limitMax then
        .ret () { p with clusters := { p.clusters with value := v, changed := false }, changed := true }
      else .throw .domainError p := by
  by_cases hv : p.clusters.limitMin ≤ v ∧ v ≤ p.clusters.limitMax
  · simp [setClusters, SharedParams.attr_set ltNat h, SharedParams.checkLimits_nat, hv, Attr.called, flagged]
  · simp [setClusters, SharedParams.attr_set ltNat h, SharedParams.checkLimits_nat, hv]

theorem setMaxIterations_eq {p : KMeansAttrs K} (h : p.maxIterations.listener = some me) (v : Nat) :
    setMaxIterations me v p = if p.maxIterations.limitMin ≤ v ∧ v ≤ p.maxIterations.limitMax then
        .ret () { p with maxIterations := { p.maxIterations with value := v, changed := false }, changed := true }
      else .throw .domainError p := by
  by_cases hv : p.maxIterations.limitMin ≤ v ∧ v ≤ p.maxIterations.limitMax
  · simp [setMaxIterations, SharedParams.attr_set ltNat h, SharedParams.checkLimits_nat, hv, Attr.called, flagged]
  · simp [setMaxIterations, SharedParams.attr_set ltNat h, SharedParams.checkLimits_nat, hv]

theorem setThreshold_eq [LinearOrder K] {p : KMeansAttrs K} (h : p.threshold.listener = some me) (v : K) :
    setThreshold me v p = if p.threshold.limitMin ≤ v ∧ v ≤ p.threshold.limitMax then
        .ret () { p with threshold := { p.threshold with value := v, changed := false }, changed := true }
      else .throw .domainError p := by
  by_cases hv : p.threshold.limitMin ≤ v ∧ v ≤ p.threshold.limitMax
  · simp [setThreshold, SharedParams.attr_set ltReal h, SharedParams.checkLimits_real, hv, Attr.called, flagged]
  · simp [setThreshold, SharedParams.attr_set ltReal h, SharedParams.checkLimits_real, hv]

end KMeansAttrs

namespace GmmAttrs

theorem setGaussians_eq {p : GmmAttrs K} (h : p.gaussians.listener = some me) (v : Nat) :
    setGaussians me v p = if p.gaussians.limitMin ≤ v ∧ v ≤ p.gaussians.limitMax then
        .ret () { p with gaussians := { p.gaussians with value := v, changed := false }, changed := true }
      else .throw .domainError p := by
  by_cases hv : p.gaussians.limitMin ≤ v ∧ v ≤ p.gaussians.limitMax
  · simp [setGaussians, SharedParams.attr_set ltNat h, SharedParams.checkLimits_nat, hv, Attr.called, flagged]
  · simp [setGaussians, SharedParams.attr_set ltNat h, SharedParams.checkLimits_nat, hv]

theorem setRelReg_eq [LinearOrder K] {p : GmmAttrs K} (h : p.relReg.listener = some me) (v : K) :
    setRelReg me v p = if p.relReg.limitMin ≤ v ∧ v ≤ p.relReg.limitMax then
        .ret () { p with relReg := { p.relReg with value := v, changed := false }, changed := true }
      else .throw .domainError p := by
  by_cases hv : p.relReg.limitMin ≤ v ∧ v ≤ p.relReg.limitMax
  · simp [setRelReg, SharedParams.attr_set ltReal h, SharedParams.checkLimits_real, hv, Attr.called, flagged]
  · simp [setRelReg, SharedParams.attr_set ltReal h, SharedParams.checkLimits_real, hv]

theorem setAbsReg_eq [LinearOrder K] {p : GmmAttrs K} (h : p.absReg.listener = some me) (v : K) :
    setAbsReg me v p = if p.absReg.limitMin ≤ v ∧ v ≤ p.absReg.limitMax then
        .ret () { p with absReg := { p.absReg with value := v, changed := false }, changed := true }
      else .throw .domainError p := by
  by_cases hv : p.absReg.limitMin ≤ v ∧ v ≤ p.absReg.limitMax
  · simp [setAbsReg, SharedParams.attr_set ltReal h, SharedParams.checkLimits_real, hv, Attr.called, flagged]
  · simp [setAbsReg, SharedParams.attr_set ltReal h, SharedParams.checkLimits_real, hv]

theorem setCovMode_eq {p : GmmAttrs K} (h : p.covMode.listener = some me) (v : Int) :
    setCovMode me v p = if p.covMode.limitMin ≤ v ∧ v ≤ p.covMode.limitMax then
        .ret () { p with covMode := { p.covMode with value := v, changed := false }, changed := true }
      else .throw .domainError p := by
  by_cases hv : p.covMode.limitMin ≤ v ∧ v ≤ p.covMode.limitMax
  · simp [setCovMode, SharedParams.attr_set ltInt h, checkLimits_int, hv, Attr.called, flagged]
  · simp [setCovMode, SharedParams.attr_set ltInt h, checkLimits_int, hv]

end GmmAttrs

namespace HmmAttrs

theorem setStates_eq {p : HmmAttrs K} (h : p.states.listener = some me) (v : Nat) :
    setStates me v p = if p.states.limitMin ≤ v ∧ v ≤ p.states.limitMax then
        .ret () { p with states := { p.states with value := v, changed := false }, changed := true }
      else .throw .domainError p := by
  by_cases hv : p.states.limitMin ≤ v ∧ v ≤ p.states.limitMax
  · simp [setStates, SharedParams.attr_set ltNat h, SharedParams.checkLimits_nat, hv, Attr.called, flagged]
  · simp [setStates, SharedParams.attr_set ltNat h, SharedParams.checkLimits_nat, hv]

theorem setGaussians_eq {p : HmmAttrs K} (h : p.gaussians.listener = some me) (v : Nat) :
    setGaussians me v p = if p.gaussians.limitMin ≤ v ∧ v ≤ p.gaussians.limitMax then
        .ret () { p with gaussians := { p.gaussians with value := v, changed := false }, changed := true }
      else .throw .domainError p := by
  by_cases hv : p.gaussians.limitMin ≤ v ∧ v ≤ p.gaussians.limitMax
  · simp [setGaussians, SharedParams.attr_set ltNat h, SharedParams.checkLimits_nat, hv, Attr.called, flagged]
  · simp [setGaussians, SharedParams.attr_set ltNat h, SharedParams.checkLimits_nat, hv]

theorem setRelReg_eq [LinearOrder K] {p : HmmAttrs K} (h : p.relReg.listener = some me) (v : K) :
    setRelReg me v p = if p.relReg.limitMin ≤ v ∧ v ≤ p.relReg.limitMax then
        .ret () { p with relReg := { p.relReg with value := v, changed := false }, changed := true }
      else .throw .domainError p := by
  by_cases hv : p.relReg.limitMin ≤ v ∧ v ≤ p.relReg.limitMax
  · simp [setRelReg, SharedParams.attr_set ltReal h, SharedParams.checkLimits_real, hv, Attr.called, flagged]
  · simp [setRelReg, SharedParams.attr_set ltReal h, SharedParams.checkLimits_real, hv]

theorem setAbsReg_eq [LinearOrder K] {p : HmmAttrs K} (h : p.absReg.listener = some me) (v : K) :
    setAbsReg me v p = if p.absReg.limitMin ≤ v ∧ v ≤ p.absReg.limitMax then
        .ret () { p with absReg := { p.absReg with value := v, changed := false }, changed := true }
      else .throw .domainError p := by
  by_cases hv : p.absReg.limitMin ≤ v ∧ v ≤ p.absReg.limitMax
  · simp [setAbsReg, SharedParams.attr_set ltReal h, SharedParams.checkLimits_real, hv, Attr.called, flagged]
  · simp [setAbsReg, SharedParams.attr_set ltReal h, SharedParams.checkLimits_real, hv]

theorem setCovMode_eq {p : HmmAttrs K} (h : p.covMode.listener = some me) (v : Int) :
    setCovMode me v p = if p.covMode.limitMin ≤ v ∧ v ≤ p.covMode.limitMax then
        .ret () { p with covMode := { p.covMode with value := v, changed := false }, changed := true }
      else .throw .domainError p := by
  by_cases hv : p.covMode.limitMin ≤ v ∧ v ≤ p.covMode.limitMax
  · simp [setCovMode, SharedParams.attr_set ltInt h, checkLimits_int, hv, Attr.called, flagged]
  · simp [setCovMode, SharedParams.attr_set ltInt h, checkLimits_int, hv]

theorem setTransMode_eq {p : HmmAttrs K} (h : p.transMode.listener = some me) (v : Int) :
    setTransMode me v p = if p.transMode.limitMin ≤ v ∧ v ≤ p.transMode.limitMax then
        .ret () { p with transMode := { p.transMode with value := v, changed := false }, changed := true }
      else .throw .domainError p := by
  by_cases hv : p.transMode.limitMin ≤ v ∧ v ≤ p.transMode.limitMax
  · simp [setTransMode, SharedParams.attr_set ltInt h, checkLimits_int, hv, Attr.called, flagged]
  · simp [setTransMode, SharedParams.attr_set ltInt h, checkLimits_int, hv]

theorem setRegEstimator_eq {p : HmmAttrs K} (h : p.regEstimator.listener = some me) (v : Int) :
    setRegEstimator me v p = if p.regEstimator.limitMin ≤ v ∧ v ≤ p.regEstimator.limitMax then
        .ret () { p with regEstimator := { p.regEstimator with value := v, changed := false }, changed := true }
      else .throw .domainError p := by
  by_cases hv : p.regEstimator.limitMin ≤ v ∧ v ≤ p.regEstimator.limitMax
  · simp [setRegEstimator, SharedParams.attr_set ltInt h, checkLimits_int, hv, Attr.called, flagged]
  · simp [setRegEstimator, SharedParams.attr_set ltInt h, checkLimits_int, hv]

theorem setHierarchical_eq {p : HmmAttrs K} (h : p.hierarchical.listener = some me) (b : Bool) :
    setHierarchical me b p =
      .ret () { p with hierarchical := { p.hierarchical with value := b, changed := false }, changed := true } := by
  simp [setHierarchical, SharedParams.attr_set ltNever h, SharedParams.checkLimits_never, Attr.called, flagged]

end HmmAttrs

open SharedParams (liftE_ok uint_sint asInt_sint)

theorem bind_of_throw {σ α β : Type} {p : Prog σ α} {f : α → Prog σ β} {s s' : σ} {e : Exn} (h : p s = .throw e s') :
    (p >>= f) s = .throw e s' := by
  rw [Prog.bind_def, h]

theorem asInt_small [JsonReal K] {z : Int} (h0 : 0 ≤ z) (h2 : z ≤ 2) : (Json.int z : Json K).asInt = .ok z := by
  rw [Json.asInt, if_pos (by omega)]

theorem asFloat_real [Field K] (nar : K → K) (x : K) : (Json.real x : Json K).asFloat nar = .ok (nar x) := rfl

variable [Field K] [LinearOrder K] [JsonReal K] {nar : K → K} {tiny realMax : K}

theorem KMeansAttrs.readJson_eq {v : KMeansAttrs K} (h : v.values.Admissible realMax)
    (hf : nar v.values.threshold = v.values.threshold) :
    ∃ t : KMeansAttrs K, readJson tmp nar v.toJson (fresh tmp tiny realMax) = .ret () t ∧ t.values = v.values := by
  obtain ⟨h1, h2, h3, h4⟩ := h
  have g1 : v.toJson.getKey "clusters" = .ok (.int (sint v.clusters.value)) := by
    simp [toJson, Json.getKey, Json.member, List.find?]
  have g2 : v.toJson.getKey "max_iterations" = .ok (.int (sint v.maxIterations.value)) := by
    simp [toJson, Json.getKey, Json.member, List.find?]
  have g3 : v.toJson.getKey "relative_distance_threshold" = .ok (.real v.threshold.value) := by
    simp [toJson, Json.getKey, Json.member, List.find?]
  simp only [KMeansAttrs.values] at h1 h2 h3 h4 hf
  unfold readJson
  rw [bind_of_ret (by rw [g1, liftE_ok]), bind_of_ret (by rw [asInt_sint h1.2, liftE_ok]),
    bind_of_ret (by rw [uint_sint h1.2]; exact (setClusters_eq rfl _).trans (if_pos h1)),
    bind_of_ret (by rw [g2, liftE_ok]), bind_of_ret (by rw [asInt_sint h2.2, liftE_ok]),
    bind_of_ret (by rw [uint_sint h2.2]; exact (setMaxIterations_eq rfl _).trans (if_pos h2)),
    bind_of_ret (by rw [g3, liftE_ok]), bind_of_ret (by rw [asFloat_real, liftE_ok]), hf]
  exact ⟨_, (setThreshold_eq rfl _).trans (if_pos ⟨h3, h4⟩), rfl⟩

theorem GmmAttrs.readJson_eq {v : GmmAttrs K} (h1 : Count v.values.gaussians) (h2 : 0 ≤ v.values.covMode)
    (h3 : v.values.covMode ≤ 1) :
    if Regularization tiny realMax (nar v.values.relReg) ∧ Regularization tiny realMax (nar v.values.absReg) then
      ∃ t : GmmAttrs K, readJson tmp nar v.toJson (fresh tmp tiny realMax) = .ret () t ∧
        t.values = { v.values with relReg := nar v.values.relReg, absReg := nar v.values.absReg } ∧ t.Limits tiny realMax
    else ∃ t : GmmAttrs K, readJson tmp nar v.toJson (fresh tmp tiny realMax) = .throw .domainError t := by
  have g1 : v.toJson.getKey "gaussians" = .ok (.int (sint v.gaussians.value)) := by
    simp [toJson, Json.getKey, Json.member, List.find?]
  have g2 : v.toJson.getKey "relative_regularization" = .ok (.real v.relReg.value) := by
    simp [toJson, Json.getKey, Json.member, List.find?]
  have g3 : v.toJson.getKey "absolute_regularization" = .ok (.real v.absReg.value) := by
    simp [toJson, Json.getKey, Json.member, List.find?]
  have g4 : v.toJson.getKey "covariance_mode" = .ok (.int v.covMode.value) := by
    simp [toJson, Json.getKey, Json.member, List.find?]
  simp only [GmmAttrs.values] at h1 h2 h3 ⊢
  unfold readJson
  rw [bind_of_ret (by rw [g1, liftE_ok]), bind_of_ret (by rw [asInt_sint h1.2, liftE_ok]),
    bind_of_ret (by rw [uint_sint h1.2]; exact (setGaussians_eq rfl _).trans (if_pos h1)),
    bind_of_ret (by rw [g2, liftE_ok]), bind_of_ret (by rw [asFloat_real, liftE_ok])]
  by_cases c1 : Regularization tiny realMax (nar v.relReg.value)
  · rw [bind_of_ret (by exact (setRelReg_eq rfl _).trans (if_pos c1)), bind_of_ret (by rw [g3, liftE_ok]),
      bind_of_ret (by rw [asFloat_real, liftE_ok])]
    by_cases c2 : Regularization tiny realMax (nar v.absReg.value)
    · refine (if_pos (And.intro c1 c2)).mpr ?_
      rw [bind_of_ret (by exact (setAbsReg_eq rfl _).trans (if_pos c2)), bind_of_ret (by rw [g4, liftE_ok]),
        bind_of_ret (by rw [asInt_small h2 (by omega), liftE_ok])]
      exact ⟨_, (setCovMode_eq rfl _).trans (if_pos ⟨h2, h3⟩), rfl, ⟨rfl, rfl⟩, ⟨rfl, rfl⟩, ⟨rfl, rfl⟩, ⟨rfl, rfl⟩⟩
    · refine (if_neg (fun h => c2 h.2)).mpr ?_
      exact ⟨_, bind_of_throw (by exact (setAbsReg_eq rfl _).trans (if_neg c2))⟩
  · refine (if_neg (fun h => c1 h.1)).mpr ?_
    exact ⟨_, bind_of_throw (by exact (setRelReg_eq rfl _).trans (if_neg c1))⟩

set_option maxHeartbeats 2000000 in
theorem HmmAttrs.readJson_eq {v : HmmAttrs K} (h0 : Count v.values.states) (h1 : Count v.values.gaussians)
    (h2 : 0 ≤ v.values.covMode) (h3 : v.values.covMode ≤ 1) (h4 : 0 ≤ v.values.transMode) (h5 : v.values.transMode ≤ 1)
    (h6 : 0 ≤ v.values.regEstimator) (h7 : v.values.regEstimator ≤ 2) :
    if Regularization tiny realMax (nar v.values.relReg) ∧ Regularization tiny realMax (nar v.values.absReg) then
      ∃ t : HmmAttrs K, readJson tmp nar v.toJson (fresh tmp tiny realMax) = .ret () t ∧
        t.values = { v.values with relReg := nar v.values.relReg, absReg := nar v.values.absReg } ∧ t.Limits tiny realMax
    else ∃ t : HmmAttrs K, readJson tmp nar v.toJson (fresh tmp tiny realMax) = .throw .domainError t := by
  have g0 : v.toJson.getKey "states" = .ok (.int (sint v.states.value)) := by
    simp [toJson, Json.getKey, Json.member, List.find?]
  have g1 : v.toJson.getKey "gaussians" = .ok (.int (sint v.gaussians.value)) := by
    simp [toJson, Json.getKey, Json.member, List.find?]
  have g2 : v.toJson.getKey "relative_regularization" = .ok (.real v.relReg.value) := by
    simp [toJson, Json.getKey, Json.member, List.find?]
  have g3 : v.toJson.getKey "absolute_regularization" = .ok (.real v.absReg.value) := by
    simp [toJson, Json.getKey, Json.member, List.find?]
  have g4 : v.toJson.getKey "covariance_mode" = .ok (.int v.covMode.value) := by
    simp [toJson, Json.getKey, Json.member, List.find?]
  have g5 : v.toJson.getKey "transition_mode" = .ok (.int v.transMode.value) := by
    simp [toJson, Json.getKey, Json.member, List.find?]
  have g6 : v.toJson.getKey "regression_estimator" = .ok (.int v.regEstimator.value) := by
    simp [toJson, Json.getKey, Json.member, List.find?]
  have g7 : v.toJson.getKey "hierarchical" = .ok (.bool v.hierarchical.value) := by
    simp [toJson, Json.getKey, Json.member, List.find?]
  simp only [HmmAttrs.values] at h0 h1 h2 h3 h4 h5 h6 h7 ⊢
  unfold readJson
  rw [bind_of_ret (by rw [g0, liftE_ok]), bind_of_ret (by rw [asInt_sint h0.2, liftE_ok]),
    bind_of_ret (by rw [uint_sint h0.2]; exact (setStates_eq rfl _).trans (if_pos h0)),
    bind_of_ret (by rw [g1, liftE_ok]), bind_of_ret (by rw [asInt_sint h1.2, liftE_ok]),
    bind_of_ret (by rw [uint_sint h1.2]; exact (setGaussians_eq rfl _).trans (if_pos h1)),
    bind_of_ret (by rw [g2, liftE_ok]), bind_of_ret (by rw [asFloat_real, liftE_ok])]
  by_cases c1 : Regularization tiny realMax (nar v.relReg.value)
  · rw [bind_of_ret (by exact (setRelReg_eq rfl _).trans (if_pos c1)), bind_of_ret (by rw [g3, liftE_ok]),
      bind_of_ret (by rw [asFloat_real, liftE_ok])]
    by_cases c2 : Regularization tiny realMax (nar v.absReg.value)
    · refine (if_pos (And.intro c1 c2)).mpr ?_
      rw [bind_of_ret (by exact (setAbsReg_eq rfl _).trans (if_pos c2)), bind_of_ret (by rw [g4, liftE_ok]),
        bind_of_ret (by rw [asInt_small h2 (by omega), liftE_ok]), bind_of_ret (by exact (setCovMode_eq rfl _).trans (if_pos ⟨h2, h3⟩)),
        bind_of_ret (by rw [g5, liftE_ok]), bind_of_ret (by rw [asInt_small h4 (by omega), liftE_ok]),
        bind_of_ret (by exact (setTransMode_eq rfl _).trans (if_pos ⟨h4, h5⟩)),
        bind_of_ret (by rw [g6, liftE_ok]), bind_of_ret (by rw [asInt_small h6 (by omega), liftE_ok]),
        bind_of_ret (by exact (setRegEstimator_eq rfl _).trans (if_pos ⟨h6, h7⟩)),
        bind_of_ret (by rw [g7, liftE_ok]), bind_of_ret (by rw [Json.asBool, liftE_ok]), setHierarchical_eq rfl]
      exact ⟨_, rfl, rfl, ⟨rfl, rfl⟩, ⟨rfl, rfl⟩, ⟨rfl, rfl⟩, ⟨rfl, rfl⟩, ⟨rfl, rfl⟩, ⟨rfl, rfl⟩, ⟨rfl, rfl⟩⟩
    · refine (if_neg (fun h => c2 h.2)).mpr ?_
      exact ⟨_, bind_of_throw (by exact (setAbsReg_eq rfl _).trans (if_neg c2))⟩
  · refine (if_neg (fun h => c1 h.1)).mpr ?_
    exact ⟨_, bind_of_throw (by exact (setRelReg_eq rfl _).trans (if_neg c1))⟩

/-- **C27, k-means parameters, JSON.**  For every admissible valuation (the threshold is a `float`) reading back what was written restores every parameter,
    on any target, and later edits report to the target. -/
theorem C27_kmeans_json {p : KMeansAttrs K} (h : p.values.Admissible realMax) (hf : nar p.values.threshold = p.values.threshold)
    (target : KMeansAttrs K) :
    ∃ t, KMeansAttrs.fromJson me nar tmp tiny realMax p.toJson target = .ret () t ∧ t.values = p.values ∧ t.Own me := by
  obtain ⟨t, ht, hv⟩ := KMeansAttrs.readJson_eq (tmp := tmp) (tiny := tiny) h hf
  refine ⟨KMeansAttrs.assignFrom me t target, ?_, hv, rfl, rfl, rfl⟩
  rw [KMeansAttrs.fromJson, ht]

/-- **C27, k-means and GMM parameters, assignment and copy.**  Every parameter is assigned, and later edits report to the target. -/
theorem C27_assign (a b : KMeansAttrs K) (c d : GmmAttrs K) :
    (KMeansAttrs.assignFrom me a b).values = a.values ∧ (KMeansAttrs.assignFrom me a b).Own me ∧
    (KMeansAttrs.copy me a).values = a.values ∧ (KMeansAttrs.copy me a).Own me ∧
    (GmmAttrs.assignFrom me c d).values = c.values ∧ (GmmAttrs.assignFrom me c d).Own me ∧
    (GmmAttrs.copy me c).values = c.values ∧ (GmmAttrs.copy me c).Own me :=
  ⟨rfl, ⟨rfl, rfl, rfl⟩, rfl, ⟨rfl, rfl, rfl⟩, rfl, ⟨rfl, rfl, rfl, rfl⟩, rfl, rfl, rfl, rfl, rfl⟩

/-- **C27 (partial), GMM parameters, JSON.**  Reading back what was written restores every parameter on any target, when the regularizations are `float`s.
    Missing: regularizations that are not `float`s (theorem `C27_gmm_float_violated`). -/
theorem C27_gmm_json_partial {p : GmmAttrs K} (h : p.values.Admissible tiny realMax) (hr : nar p.values.relReg = p.values.relReg)
    (ha : nar p.values.absReg = p.values.absReg) (target : GmmAttrs K) :
    ∃ t, GmmAttrs.fromJson me nar tmp tiny realMax p.toJson target = .ret () t ∧ t.values = p.values ∧ t.Own me ∧ t.Limits tiny realMax := by
  obtain ⟨h1, h2, h3, h4, h5⟩ := h
  have := GmmAttrs.readJson_eq (tmp := tmp) (nar := nar) (tiny := tiny) (realMax := realMax) h1 h4 h5
  rw [hr, ha, if_pos ⟨h2, h3⟩] at this
  obtain ⟨t, ht, hv, hl⟩ := this
  refine ⟨GmmAttrs.assignFrom me t target, ?_, hv, ⟨rfl, rfl, rfl, rfl⟩, hl⟩
  rw [GmmAttrs.fromJson, ht]

/-- **C27 (violated), GMM parameters.**  The regularizations are restored only up to their conversion to `float`; if the conversion falls below the minimum,
    reading throws `domain_error`. -/
theorem C27_gmm_float_violated {p : GmmAttrs K} (h : p.values.Admissible tiny realMax) (target : GmmAttrs K) :
    if Regularization tiny realMax (nar p.values.relReg) ∧ Regularization tiny realMax (nar p.values.absReg) then
      ∃ t, GmmAttrs.fromJson me nar tmp tiny realMax p.toJson target = .ret () t ∧
        t.values = { p.values with relReg := nar p.values.relReg, absReg := nar p.values.absReg }
    else GmmAttrs.fromJson me nar tmp tiny realMax p.toJson target = .throw .domainError target := by
  obtain ⟨h1, h2, h3, h4, h5⟩ := h
  have := GmmAttrs.readJson_eq (tmp := tmp) (nar := nar) (tiny := tiny) (realMax := realMax) h1 h4 h5
  split at this
  · rename_i hc
    rw [if_pos hc]
    obtain ⟨t, ht, hv, -⟩ := this
    exact ⟨GmmAttrs.assignFrom me t target, by rw [GmmAttrs.fromJson, ht], hv⟩
  · rename_i hc
    rw [if_neg hc]
    obtain ⟨t, ht⟩ := this
    rw [GmmAttrs.fromJson, ht]

/-- **C27 (partial), HMM parameters, JSON.**  The JSON constructor restores every parameter (the regularizations being `float`s); `fromJson` on a target restores
    every parameter except `hierarchical`, which keeps the value it had in the target.  Missing: `hierarchical`, and regularizations that are not `float`s. -/
theorem C27_hmm_json_partial {p : HmmAttrs K} (h : p.values.Admissible tiny realMax) (hr : nar p.values.relReg = p.values.relReg)
    (ha : nar p.values.absReg = p.values.absReg) (target : HmmAttrs K) :
    (∃ t, HmmAttrs.readJson tmp nar p.toJson (HmmAttrs.fresh tmp tiny realMax) = .ret () t ∧ t.values = p.values) ∧
    ∃ t, HmmAttrs.fromJson me nar tmp tiny realMax p.toJson target = .ret () t ∧
      t.values = { p.values with hierarchical := target.values.hierarchical } ∧ t.Own me ∧ t.Limits tiny realMax := by
  obtain ⟨h0, h1, h2, h3, h4, h5, h6, h7, h8, h9⟩ := h
  have := HmmAttrs.readJson_eq (tmp := tmp) (nar := nar) (tiny := tiny) (realMax := realMax) h0 h1 h4 h5 h6 h7 h8 h9
  rw [hr, ha, if_pos ⟨h2, h3⟩] at this
  obtain ⟨t, ht, hv, hl⟩ := this
  refine ⟨⟨t, ht, hv⟩, HmmAttrs.assignFrom me t target, ?_, ?_, ⟨rfl, rfl, rfl, rfl, rfl, rfl, rfl, rfl⟩, hl⟩
  · rw [HmmAttrs.fromJson, ht]
  · have e1 : t.states.value = p.states.value := congrArg HmmValues.states hv
    have e2 : t.gaussians.value = p.gaussians.value := congrArg HmmValues.gaussians hv
    have e3 : t.relReg.value = p.relReg.value := congrArg HmmValues.relReg hv
    have e4 : t.absReg.value = p.absReg.value := congrArg HmmValues.absReg hv
    have e5 : t.covMode.value = p.covMode.value := congrArg HmmValues.covMode hv
    have e6 : t.transMode.value = p.transMode.value := congrArg HmmValues.transMode hv
    have e7 : t.regEstimator.value = p.regEstimator.value := congrArg HmmValues.regEstimator hv
    simp only [HmmAttrs.values, HmmAttrs.assignFrom, Attr.rebound, Attr.assign, e1, e2, e3, e4, e5, e6, e7]

/-- **C27 (partial), HMM parameters, assignment and copy.**  Copying keeps every parameter; assignment keeps every parameter except `hierarchical`, which keeps
    the value of the target. -/
theorem C27_hmm_assign_partial (a b : HmmAttrs K) :
    (HmmAttrs.copy me a).values = a.values ∧ (HmmAttrs.copy me a).Own me ∧
    (HmmAttrs.assignFrom me a b).values = { a.values with hierarchical := b.values.hierarchical } ∧ (HmmAttrs.assignFrom me a b).Own me :=
  ⟨rfl, ⟨rfl, rfl, rfl, rfl, rfl, rfl, rfl, rfl⟩, rfl, rfl, rfl, rfl, rfl, rfl, rfl, rfl, rfl⟩

/-- **C27 (violated), HMM parameters.**  A non-hierarchical configuration is lost: assigned to a new object, or saved and read into a new object, it becomes
    hierarchical. -/
theorem C27_hmm_hierarchical_violated {p : HmmAttrs K} (h : p.values.Admissible tiny realMax) (hr : nar p.values.relReg = p.values.relReg)
    (ha : nar p.values.absReg = p.values.absReg) (hh : p.values.hierarchical = false) :
    (HmmAttrs.assignFrom me p (HmmAttrs.fresh me tiny realMax)).values ≠ p.values ∧
    ∃ t, HmmAttrs.fromJson me nar tmp tiny realMax p.toJson (HmmAttrs.fresh me tiny realMax) = .ret () t ∧
      t.values.hierarchical = true ∧ t.values ≠ p.values := by
  refine ⟨fun he => ?_, ?_⟩
  · have h1 : true = p.values.hierarchical := congrArg HmmValues.hierarchical he
    rw [hh] at h1; cases h1
  · obtain ⟨t, ht, hv, _⟩ := (C27_hmm_json_partial (me := me) (tmp := tmp) h hr ha (HmmAttrs.fresh me tiny realMax)).2
    have h1 : t.values.hierarchical = true := congrArg HmmValues.hierarchical hv
    exact ⟨t, ht, h1, fun he => by rw [he, hh] at h1; cases h1⟩

/-- conversion to `float` of the numbers between 2^-67 and 2^-66 (ulp 2^-90), which contain 1e-20 -/
private def narrowTiny : ℚ → ℚ := fun q => round (q * 2 ^ 90) / 2 ^ 90

/-- 1e-20, the smallest regularization accepted, becomes smaller than 1e-20 by conversion to `float`: saved, it cannot be read back -/
example : ¬ Regularization (1 / 10 ^ 20) 1000 (narrowTiny (1 / 10 ^ 20)) := by
  unfold Regularization
  decide +kernel

/-- a valuation meeting the hypotheses of the HMM theorems: 5 states, regularizations 1/64 and 1/128, not hierarchical -/
example : ∃ p : HmmAttrs ℚ, p.values.Admissible (1 / 10 ^ 20) 1000 ∧ p.values.hierarchical = false ∧ p.values.states = 5 :=
  ⟨⟨false, ⟨5, 1, uintMax, false, some 0⟩, ⟨1, 1, uintMax, false, some 0⟩, ⟨1 / 64, 1 / 10 ^ 20, 1000, false, some 0⟩,
    ⟨1 / 128, 1 / 10 ^ 20, 1000, false, some 0⟩, ⟨0, 0, 1, false, some 0⟩, ⟨1, 0, 1, false, some 0⟩, ⟨0, 0, 2, false, some 0⟩,
    ⟨false, false, true, false, some 0⟩⟩,
    by refine ⟨⟨?_, ?_⟩, ⟨?_, ?_⟩, ⟨?_, ?_⟩, ⟨?_, ?_⟩, ?_, ?_, ?_, ?_, ?_, ?_⟩ <;> decide +kernel, rfl, rfl⟩

end Xmm
