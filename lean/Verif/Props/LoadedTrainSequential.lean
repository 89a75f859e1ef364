import Verif.Spec.LoadedTrainSequential
import Verif.Props.LoadedTrainAll
import Verif.Props.MoreStatesLoaded
import Verif.Props.UninitialisedSequential
set_option linter.unusedSectionVars false
/- C114 in the mode Sequential: a model that has been loaded learns what the original learns. -/
namespace Xmm
open TS
open Hmm HierHmm

section session
variable [JsonReal ℝ] {alive : Nat → Bool} {nar : ℝ → ℝ} {tiny realMax : ℝ}

/-- **C114 (partial), GMM, all classes in the mode Sequential.**  As `C114_gmm_all_partial`, for `train` in the mode Sequential: if the training of every class is done with the original and
    `reset()` is called (C107), the loaded model has the same classes as the original, and both report the same results on every stream.
    Missing: models with Diagonal covariances, which cannot be loaded (`C57_gmm_diagonal_violated`); classes whose training is cancelled or fails; outputs of models that are not bimodal. -/
theorem C114_gmm_all_sequential_partial (ids : JsonIds) (z : ℝ) (h1 : Regularization tiny realMax (1 / 100)) (h2 : Regularization tiny realMax (1 / 1000))
    (B : GmmBody ℝ) (s : ConfigSpec (GmmValues ℝ)) (hs : SharedSavable alive nar realMax B.shared) (hc : GmmConfig nar tiny realMax B.config s)
    (hcls : ∀ lc ∈ B.models, lc.2.Savable nar tiny realMax ∧ lc.2.Loadable ∧
      lc.2.view = ⟨B.shared.bimodal.value, B.shared.dimension.value, B.shared.dimensionInput.value, B.shared.window.value⟩)
    (hsorted : SMap.Sorted B.models) (f : Format) (hv : f.Valid) (hbi : B.shared.bimodal.value = f.bimodal) (hS : B.settings.Valid)
    (hmode : f.bimodal = true → ∀ l, B.settings.mode l = covModeOf B.config.base.covMode.value)
    (i j : Nat) (v0 w0 : World ℝ String) (hv0 : v0.sets i = none) (hw0 : w0.sets j = none) (ops : List (RecOp ℝ String)) (ha : Takes.Admissible f ops [])
    (hne : (Takes.run f ops []).1 ≠ []) (hfill : Takes.Filled (Takes.run f ops []).1)
    (D : Dens ℝ) (hD : D.Sound) (log : ℝ → ℝ) (lowest : ℝ) (cancel : String → Nat → Bool)
    (hdone : ∀ e ∈ (Takes.run f ops []).1, ∃ m, GmmModel.Done B.settings D log (Compare.exact lowest B.shared.percentChg.value) cancel f (Takes.run f ops []).1 e.2.1 m) :
    ∃ root B', GmmBody.toJson B = .ret root B ∧ GmmBody.ofJson alive ids nar tiny realMax z root = .ret () B' ∧
      ∀ r r' : MultiRes ℝ, ∃ M1 M1' M M', B.recordAndTrainSequential D log lowest cancel f i ops v0 r = .ret () M1 ∧
        B'.recordAndTrainSequential D log lowest cancel f j ops w0 r' = .ret () M1' ∧ GmmModel.reset M1 = .ret () M ∧ GmmModel.reset M1' = .ret () M' ∧
        M.Usable ∧ M'.Usable ∧ SMap.keys M'.models = SMap.keys M.models ∧ (∀ l, l ∈ SMap.keys M1.models ↔ ∃ e ∈ (Takes.run f ops []).1, e.2.1 = l) ∧
        (M.models ≠ [] → ∀ exp : ℝ → ℝ, (∀ x, 0 < exp x) → ∀ xs, xs ≠ [] → (∀ x ∈ xs, f.Sample x) →
          ∃ N N', (do GmmModel.reset; GmmModel.filterAll D log exp xs) M = .ret () N ∧ (do GmmModel.reset; GmmModel.filterAll D log exp xs) M' = .ret () N' ∧
            N'.results = { N.results with outVals := N'.results.outVals, outCov := N'.results.outCov } ∧ (f.bimodal = true → N'.results = N.results)) := by
  obtain ⟨root, B', b1, b2, b3, b4, b5⟩ := gmm_loads ids z h1 h2 B s hs hc hsorted hcls
  refine ⟨root, B', b1, b2, fun r r' => ?_⟩
  have hset := GmmBody.settings_loaded hc b3 b4
  have hpct : B'.shared.percentChg.value = B.shared.percentChg.value := congrArg SharedValues.percentChg b3
  have hload := GmmBody.loaded (z := z) hc b3 b4 b5 r r'
  have hmd : (GmmBody.model B' r').mode = (GmmBody.model B r).mode := by rw [hload]; rfl
  have hes : (GmmBody.model B' r').est = (GmmBody.model B r).est := by rw [hload]; rfl
  unfold GmmBody.recordAndTrainSequential
  rw [hset, hpct]
  exact C115_gmm_sequential_partial f hv ops ha i j v0 w0 hv0 hw0 hne hfill B.settings hS (GmmBody.model B r) (GmmBody.model B' r') hbi (by rw [hload]; exact hbi) hmode hmd hes D hD log lowest _
    cancel hdone

/-- **C114 (partial), GMM, one class in the mode Sequential.**  As `C114_gmm_partial`, for `train` on one class in the mode Sequential: if the training is done with the original and `reset()` is
    called (C108), the loaded model has the same classes as the original, and both report the same results on every stream.
    Missing: models with Diagonal covariances, which cannot be loaded (`C57_gmm_diagonal_violated`); a training that is cancelled or fails; outputs of models that are not bimodal. -/
theorem C114_gmm_sequential_partial (ids : JsonIds) (z : ℝ) (h1 : Regularization tiny realMax (1 / 100)) (h2 : Regularization tiny realMax (1 / 1000))
    (B : GmmBody ℝ) (s : ConfigSpec (GmmValues ℝ)) (hs : SharedSavable alive nar realMax B.shared) (hc : GmmConfig nar tiny realMax B.config s)
    (hcls : ∀ lc ∈ B.models, lc.2.Savable nar tiny realMax ∧ lc.2.Loadable ∧
      lc.2.view = ⟨B.shared.bimodal.value, B.shared.dimension.value, B.shared.dimensionInput.value, B.shared.window.value⟩)
    (f : Format) (hv : f.Valid) (hM : (GmmBody.model B MultiRes.empty).Holds f B.settings.window) (hS : B.settings.Valid)
    (hmode : f.bimodal = true → ∀ l, B.settings.mode l = covModeOf B.config.base.covMode.value)
    (i : Nat) (w0 : World ℝ String) (h0 : w0.sets i = none) (ops : List (RecOp ℝ String)) (ha : Takes.Admissible f ops []) (hfill : Takes.Filled (Takes.run f ops []).1)
    (D : Dens ℝ) (hD : D.Sound) (hB : D.Blind) (log : ℝ → ℝ) (lowest : ℝ) (cancel : Nat → Bool) (label : String) (hl : ∃ e ∈ (Takes.run f ops []).1, e.2.1 = label)
    (hdone : ∃ m, GmmModel.Done B.settings D log (Compare.exact lowest B.shared.percentChg.value) (fun _ => cancel) f (Takes.run f ops []).1 label m) :
    ∃ root B', GmmBody.toJson B = .ret root B ∧ GmmBody.ofJson alive ids nar tiny realMax z root = .ret () B' ∧
      ∀ r r' : MultiRes ℝ, ∃ M1 M1' M M', B.recordAndTrainClassSequential D log lowest cancel f i ops w0 label r = .ret () M1 ∧
        B'.recordAndTrainClassSequential D log lowest cancel f i ops w0 label r' = .ret () M1' ∧ GmmModel.reset M1 = .ret () M ∧ GmmModel.reset M1' = .ret () M' ∧
        M.Usable ∧ M'.Usable ∧ SMap.keys M'.models = SMap.keys M.models ∧ (∀ l ∈ SMap.keys B.models, l ≠ label → l ∈ SMap.keys M.models) ∧
        (M.models ≠ [] → ∀ exp : ℝ → ℝ, (∀ x, 0 < exp x) → ∀ xs, xs ≠ [] → (∀ x ∈ xs, f.Sample x) →
          ∃ N N', (do GmmModel.reset; GmmModel.filterAll D log exp xs) M = .ret () N ∧ (do GmmModel.reset; GmmModel.filterAll D log exp xs) M' = .ret () N' ∧
            N'.results = { N.results with outVals := N'.results.outVals, outCov := N'.results.outCov } ∧ (f.bimodal = true → N'.results = N.results)) := by
  obtain ⟨root, B', b1, b2, b3, b4, b5⟩ := gmm_loads ids z h1 h2 B s hs hc hM.sorted hcls
  obtain ⟨root1, B1, c1, c2, c3⟩ := C114_gmm_partial ids z h1 h2 B s hs hc hcls f hv hM hS hmode i w0 h0 ops ha hfill D hD hB log lowest cancel label hl
  have e1 := b1.symm.trans c1
  injection e1 with e1 _
  subst e1
  have e2 := b2.symm.trans c2
  injection e2 with _ e2
  subst e2
  refine ⟨root, B', b1, b2, fun r r' => ?_⟩
  obtain ⟨M, M', a1, a2, a3⟩ := c3 r r'
  have hset := GmmBody.settings_loaded hc b3 b4
  have hpct : B'.shared.percentChg.value = B.shared.percentChg.value := congrArg SharedValues.percentChg b3
  have hload := GmmBody.loaded (z := z) hc b3 b4 b5 r r'
  have hMr : (GmmBody.model B r).Holds f B.settings.window := ⟨hM.idle, hM.nulls, hM.sorted, hM.bimodal, hM.cls, hM.mode, hM.buf⟩
  have hMr' : (GmmBody.model B' r').Holds f B.settings.window := by rw [hload]; exact hMr.loaded z r'
  unfold GmmBody.recordAndTrainClass at a1 a2
  rw [hset, hpct] at a2
  unfold GmmBody.recordAndTrainClassSequential
  rw [hset, hpct]
  obtain ⟨M1, p1, -, -, p2⟩ := GmmModel.C108_sequential_class f hv i w0 h0 ops ha B.settings D log lowest B.shared.percentChg.value (GmmBody.model B r) hfill hS hD hMr label hl cancel
  obtain ⟨M1', q1, -, -, q2⟩ := GmmModel.C108_sequential_class f hv i w0 h0 ops ha B.settings D log lowest B.shared.percentChg.value (GmmBody.model B' r') hfill hS hD hMr' label hl cancel
  exact ⟨M1, M1', M, M', p1, q1, (p2 hdone).symm.trans a1, (q2 hdone).symm.trans a2, a3⟩

/-- **C114 (partial), hierarchical HMM in the mode Sequential.**  As `C114_hierarchical_any_partial` and `C114_hierarchical_all_partial`, for `train` in the mode Sequential, on one class and on all
    classes: if the training is done with the original and `reset()` is called (C107, C109), the loaded model has the same classes as the original, and both report the same likelihoods and
    results on every stream.
    Missing: models with Diagonal covariances or that are not hierarchical, which are not loaded as they are (`C57_hmm_rejected_violated`, `C57_hmm_hierarchical_violated`), ergodic classes,
    a training that is cancelled or fails. -/
theorem C114_hierarchical_sequential_partial (ids : JsonIds) (z z1 z2 : ℝ) (h1 : Regularization tiny realMax (1 / 100)) (h2 : Regularization tiny realMax (1 / 1000))
    (hb : Bool) (B : HierBody ℝ) (s : ConfigSpec (HmmValues ℝ)) (hs : SharedSavable alive nar realMax B.body.shared) (hc : HmmConfig nar tiny realMax B.body.config s)
    (hcls : ∀ lc ∈ B.body.models, lc.2.Savable nar tiny realMax ∧ lc.2.Loadable ∧
      lc.2.view = ⟨B.body.shared.bimodal.value, B.body.shared.dimension.value, B.body.shared.dimensionInput.value, B.body.shared.window.value⟩)
    (r : MultiRes ℝ) (f1 f2 : List ℝ) (st : Bool) (f : Format) (hv : f.Valid) (hM : (HierBody.model B r f1 f2 st).Holds f) (hS : (HierBody.model B r f1 f2 st).Settings B.em)
    (hmode : f.bimodal = true → ∀ l, ((HierBody.model B r f1 f2 st).conf l).mode = (HierBody.model B r f1 f2 st).mode)
    (i : Nat) (w0 : World ℝ String) (h0 : w0.sets i = none) (ops : List (RecOp ℝ String)) (ha : Takes.Admissible f ops [])
    (hlong : Takes.LongEnough (Takes.run f ops []).1 fun l => ((HierBody.model B r f1 f2 st).conf l).n)
    (D : Dens ℝ) (hD : D.Sound) (hB : D.Blind) (log : ℝ → ℝ) (hlog : ∀ x y, 0 < x → 0 < y → log (x * y) = log x + log y) (lowest : ℝ) (cancel : String → Nat → Bool)
    (label : String) (hl : ∃ e ∈ (Takes.run f ops []).1, e.2.1 = label) :
    ∃ root B' B0, HierBody.toJson hb B = .ret root B ∧ HierBody.ofJson alive ids nar tiny realMax z root = .ret B' B0 ∧ ∀ (r' : MultiRes ℝ) (f1' f2' : List ℝ),
      ((∃ m, HierHmm.Done z1 D log (Compare.exact lowest B.body.shared.percentChg.value) B.em cancel f (Takes.run f ops []).1 (HierBody.model B r f1 f2 st).conf
          (HierBody.model B r f1 f2 st).window label m) →
        ∃ M1 M1' M M', B.recordAndTrainClassSequential z1 D log lowest (cancel label) f i ops w0 label r f1 f2 st = .ret () M1 ∧
          B'.recordAndTrainClassSequential z2 D log lowest (cancel label) f i ops w0 label r' f1' f2' false = .ret () M1' ∧ HierHmm.reset M1 = .ret () M ∧ HierHmm.reset M1' = .ret () M' ∧
          M.Usable ∧ M'.Usable ∧ SMap.keys M'.models = SMap.keys M.models ∧ (∀ l ∈ SMap.keys B.body.models, l ≠ label → l ∈ SMap.keys M.models) ∧
          (M.models ≠ [] → ∀ exp : ℝ → ℝ, ∀ xs, xs ≠ [] → (∀ x ∈ xs, f.Sample x) →
            ∃ rs N N', (do HierHmm.reset; HierHmm.filterAll D log exp xs) M = .ret rs N ∧ (do HierHmm.reset; HierHmm.filterAll D log exp xs) M' = .ret rs N' ∧ HierHmm.SameResults N N')) ∧
      ((∀ e ∈ (Takes.run f ops []).1, ∃ m, HierHmm.Done z1 D log (Compare.exact lowest B.body.shared.percentChg.value) B.em cancel f (Takes.run f ops []).1 (HierBody.model B r f1 f2 st).conf
          (HierBody.model B r f1 f2 st).window e.2.1 m) →
        ∃ M1 M1' M M', B.recordAndTrainSequential z1 D log lowest cancel f i ops w0 r f1 f2 st = .ret () M1 ∧
          B'.recordAndTrainSequential z2 D log lowest cancel f i ops w0 r' f1' f2' false = .ret () M1' ∧ HierHmm.reset M1 = .ret () M ∧ HierHmm.reset M1' = .ret () M' ∧
          M.Usable ∧ M'.Usable ∧ SMap.keys M'.models = SMap.keys M.models ∧ (∀ l, l ∈ SMap.keys M1.models ↔ ∃ e ∈ (Takes.run f ops []).1, e.2.1 = l) ∧
          (M.models ≠ [] → ∀ exp : ℝ → ℝ, ∀ xs, xs ≠ [] → (∀ x ∈ xs, f.Sample x) →
            ∃ rs N N', (do HierHmm.reset; HierHmm.filterAll D log exp xs) M = .ret rs N ∧ (do HierHmm.reset; HierHmm.filterAll D log exp xs) M' = .ret rs N' ∧ HierHmm.SameResults N N')) := by
  obtain ⟨root, B', B0, b1, b2, b3, b4, b5, b6, b7, b8, b9, b10⟩ := hmm_loads ids z h1 h2 hb B s hs hc hM.sorted hcls hM.idle hM.top.prior hM.top.trans hM.top.row hM.top.exitTrans
  refine ⟨root, B', B0, b1, b2, fun r' f1' f2' => ?_⟩
  have hpct : B'.body.shared.percentChg.value = B.body.shared.percentChg.value := congrArg SharedValues.percentChg b3
  have hem : B'.em = B.em := by
    unfold HierBody.em
    rw [show B'.body.shared.emMin.value = B.body.shared.emMin.value from congrArg SharedValues.emMin b3,
      show B'.body.shared.emMax.value = B.body.shared.emMax.value from congrArg SharedValues.emMax b3]
  have hload := HierBody.loaded hc b3 b4 b5 b6 b7 b8 b9 b10 (fun lc hlc => (hM.cls lc hlc).1.hier) hM.hier r r' f1 f2 f1' f2' st
  have hY' : (HierBody.model B' r' f1' f2' false).Holds f := by rw [hload]; exact hM.loaded z r' f1' f2'
  have hcf : (HierBody.model B' r' f1' f2' false).conf = (HierBody.model B r f1 f2 st).conf := by rw [hload]; rfl
  have hwi : (HierBody.model B' r' f1' f2' false).window = (HierBody.model B r f1 f2 st).window := by rw [hload]; rfl
  have hmd : (HierBody.model B' r' f1' f2' false).mode = (HierBody.model B r f1 f2 st).mode := by rw [hload]; rfl
  have hes : (HierBody.model B' r' f1' f2' false).est = (HierBody.model B r f1 f2 st).est := by rw [hload]; rfl
  have hne : (Takes.run f ops []).1 ≠ [] := by obtain ⟨e, he, -⟩ := hl; exact List.ne_nil_of_mem he
  constructor
  · intro hdone
    obtain ⟨root1, B1, B2, c1, c2, c3⟩ := C114_hierarchical_any_partial ids z z1 z2 h1 h2 hb B s hs hc hcls r f1 f2 st f hv hM hS hmode i w0 h0 ops ha hlong D hD hB log hlog lowest (cancel label) label hl
    have e1 := b1.symm.trans c1
    injection e1 with e1 _
    subst e1
    have e2 := b2.symm.trans c2
    injection e2 with e2 _
    subst e2
    obtain ⟨M, M', a1, a2, a3⟩ := c3 r' f1' f2'
    unfold HierBody.recordAndTrainClass at a1 a2
    rw [hem, hpct] at a2
    unfold HierBody.recordAndTrainClassSequential
    rw [hem, hpct]
    set X := HierBody.model B r f1 f2 st with hX
    set Y := HierBody.model B' r' f1' f2' false with hY
    have hSY : Y.Settings B.em := ⟨by rw [hwi]; exact hS.window, hS.minIter, by rw [hcf]; exact hS.states, by rw [hcf]; exact hS.gaussians, by rw [hcf]; exact hS.absReg,
      by rw [hcf]; exact hS.leftRight⟩
    obtain ⟨M1, p1, -, -, p2⟩ := HierHmm.C109_sequential_class f hv i w0 h0 ops ha z1 D log lowest B.body.shared.percentChg.value B.em X hlong hS hD hlog hM label hl (cancel label)
    obtain ⟨M1', q1, -, -, q2⟩ := HierHmm.C109_sequential_class f hv i w0 h0 ops ha z2 D log lowest B.body.shared.percentChg.value B.em Y (by rw [hcf]; exact hlong) hSY hD hlog hY' label hl
      (cancel label)
    obtain ⟨w, t, s1, -⟩ := recordThen_sim f hv i w0 h0 ops ha
    obtain ⟨m, tr, k1, k2⟩ := hdone
    obtain ⟨c, tr', t1, -⟩ := class_trained s1 hv hS hlong z2 D hD log hlog lowest B.body.shared.percentChg.value cancel label hl
    obtain ⟨t2, -⟩ := alone_uninit s1 hv hS hlong z1 z2 D hD log hlog lowest B.body.shared.percentChg.value (cancel label) label hl k1 t1
    rw [← hcf, ← hwi] at t1
    exact ⟨M1, M1', M, M', p1, q1, (p2 ⟨m, tr, k1, k2⟩).2.symm.trans a1, (q2 ⟨_, tr', t1, t2.trans k2⟩).2.symm.trans a2, a3⟩
  · intro hdone
    unfold HierBody.recordAndTrainSequential
    rw [hem, hpct]
    exact C115_sequential_partial f hv ops ha i i w0 w0 h0 h0 hne (HierBody.model B r f1 f2 st) (HierBody.model B' r' f1' f2' false) hM.idle hY'.idle B.em hS hM.hier hY'.hier hlong hM.bimodal
      hY'.bimodal hM.di hY'.di (fun h => hmode (hM.bimodal.symm.trans h)) hcf hwi hmd hes z1 z2 D hD log hlog lowest _ cancel hdone

end session

namespace LoadedTrainExamples

/-- the hypotheses of `C114_gmm_all_sequential_partial` and `C114_gmm_sequential_partial` are met: a model with the classes "b" and "c", saved, and a session with the classes "a" and "b" -/
theorem loaded_train_sequential_example (ids : JsonIds) (z lowest : ℝ) (r r' : MultiRes ℝ) : letI := JsonReal.truncated
    ∃ (B B' : GmmBody ℝ) (root : Json ℝ), SMap.keys B.models = ["b", "c"] ∧ GmmBody.toJson B = .ret root B ∧
      GmmBody.ofJson (fun _ => true) ids id (1 / 1000) 1000 z root = .ret () B' ∧
      (∃ M1 M1' M M', B.recordAndTrainSequential HierHmm.halfDens Real.log lowest (fun _ _ => false) format 0 session emptyWorld r = .ret () M1 ∧
        B'.recordAndTrainSequential HierHmm.halfDens Real.log lowest (fun _ _ => false) format 0 session emptyWorld r' = .ret () M1' ∧
        GmmModel.reset M1 = .ret () M ∧ GmmModel.reset M1' = .ret () M' ∧ SMap.keys M'.models = SMap.keys M.models) ∧
      (∃ M1 M1' M M', B.recordAndTrainClassSequential HierHmm.halfDens Real.log lowest (fun _ => false) format 0 session emptyWorld "a" r = .ret () M1 ∧
        B'.recordAndTrainClassSequential HierHmm.halfDens Real.log lowest (fun _ => false) format 0 session emptyWorld "a" r' = .ret () M1' ∧
        GmmModel.reset M1 = .ret () M ∧ GmmModel.reset M1' = .ret () M' ∧ SMap.keys M'.models = SMap.keys M.models) := by
  letI := JsonReal.truncated
  obtain ⟨B, s, a1, a2, a3, a4, a5, a6, a7, a8, a9, a, -, a10, a13, a11, a12, a14⟩ := loaded_train_example
  have hd : ∀ l, (∃ e ∈ (Takes.run format session []).1, e.2.1 = l) → ∃ m, GmmModel.Done B.settings HierHmm.halfDens Real.log (Compare.exact lowest B.shared.percentChg.value) (fun _ _ => false) format
      (Takes.run format session []).1 l m := fun l hl =>
    GmmModel.half_done format a5 0 emptyWorld rfl session a8 a9 _ a7 lowest _ _ l hl ((a14 l).trans (by norm_num)) fun _ => rfl
  obtain ⟨e, he, hea⟩ := a
  obtain ⟨root, B', b1, b2, b3⟩ := C114_gmm_all_sequential_partial ids z a11 a12 B s a1 a2 a3 a6.sorted format a5 a6.bimodal a7 (fun h => by cases h) 0 0 emptyWorld emptyWorld rfl rfl session a8
    (List.ne_nil_of_mem he) a9 HierHmm.halfDens a10 Real.log lowest (fun _ _ => false) fun e he => hd _ ⟨e, he, rfl⟩
  obtain ⟨root1, B1, c1, c2, c3⟩ := C114_gmm_sequential_partial ids z a11 a12 B s a1 a2 a3 format a5 a6 a7 (fun h => by cases h) 0 emptyWorld rfl session a8 a9 HierHmm.halfDens a10 a13 Real.log
    lowest (fun _ => false) "a" ⟨e, he, hea⟩ (hd _ ⟨e, he, hea⟩)
  have e1 := b1.symm.trans c1
  injection e1 with e1 _
  subst e1
  have e2 := b2.symm.trans c2
  injection e2 with _ e2
  subst e2
  obtain ⟨M1, M1', M, M', d1, d2, d3, d4, -, -, d5, -⟩ := b3 r r'
  obtain ⟨N1, N1', N, N', k1, k2, k3, k4, -, -, k5, -⟩ := c3 r r'
  exact ⟨B, B', root, a4, b1, b2, ⟨M1, M1', M, M', d1, d2, d3, d4, d5⟩, ⟨N1, N1', N, N', k1, k2, k3, k4, k5⟩⟩

/-- one state for every class -/
theorem hmmConfigOne : letI := JsonReal.truncated
    ∃ c s, HmmConfig (K := ℝ) id (1 / 1000) 1000 c s ∧ c.base.hierarchical.value = true ∧
      ∀ l, (Configuration.paramsFor l c).params.n = 1 ∧ (Configuration.paramsFor l c).params.gaussians = 1 ∧ (Configuration.paramsFor l c).params.ergodic = false ∧
        (Configuration.paramsFor l c).params.absReg = 1 / 1000 := by
  let _ := JsonReal.truncated
  have h := C27_configuration_hmm_partial (K := ℝ) (nar := id) (tiny := 1 / 1000) (realMax := 1000) (by constructor <;> norm_num) (by constructor <;> norm_num) 0 0 0
    (fun _ => 1) (fun _ => 1) (fun _ => 1) [.default (.states 1)] _ rfl (fun _ _ => ⟨rfl, rfl⟩) 0 1 (by decide) (by decide)
    (Configuration.fresh (HmmAttrs.type (1 / 1000) 1000) 0)
  obtain ⟨c, hc, -⟩ := h
  have h : HmmConfig (K := ℝ) id (1 / 1000) 1000 { c with multithreading := 0, estimator := 1 } _ := ⟨⟨0, fun _ => 1, _, rfl, c, hc, rfl⟩, by simp, by simp, fun _ _ => ⟨rfl, rfl⟩⟩
  refine ⟨_, _, h, congrArg HmmValues.hierarchical h.means.1, fun l => ?_⟩
  have k := h.means.2 l
  simp only [HmmAttrs.params]
  refine ⟨congrArg HmmValues.states k, congrArg HmmValues.gaussians k, ?_, congrArg HmmValues.absReg k⟩
  have e := congrArg HmmValues.transMode k
  exact (congrArg (fun v : Int => decide (v = 0)) e).trans rfl

noncomputable def frames : List (RecOp ℝ String) := manyTakes [(1, "a", [[0]]), (2, "b", [[5]])]

/-- the hypotheses of `C114_hierarchical_sequential_partial` are met: a model with the classes "b" and "c", saved, and a frames with the classes "a", to be added, and "b", to be trained again -/
theorem loaded_train_hmm_frames : letI := JsonReal.truncated
    ∃ (B : HierBody ℝ) (s : ConfigSpec (HmmValues ℝ)), SharedSavable (fun _ => true) id 1000 B.body.shared ∧ HmmConfig id (1 / 1000) 1000 B.body.config s ∧
      (∀ lc ∈ B.body.models, lc.2.Savable id (1 / 1000) 1000 ∧ lc.2.Loadable ∧
        lc.2.view = ⟨B.body.shared.bimodal.value, B.body.shared.dimension.value, B.body.shared.dimensionInput.value, B.body.shared.window.value⟩) ∧
      SMap.keys B.body.models = ["b", "c"] ∧ format.Valid ∧ (HierBody.model B MultiRes.empty [] [] false).Holds format ∧
      (HierBody.model B MultiRes.empty [] [] false).Settings B.em ∧ Takes.Admissible format frames [] ∧
      (Takes.LongEnough (Takes.run format frames []).1 fun l => ((HierBody.model B MultiRes.empty [] [] false).conf l).n) ∧
      (∃ e ∈ (Takes.run format frames []).1, e.2.1 = "a") ∧ (∀ e ∈ (Takes.run format frames []).1, e.2.2.frames.length = 1) ∧
      (∀ l c, (l, c) ∈ B.body.models → ((HierBody.model B MultiRes.empty [] [] false).conf l).n ≤ c.n) ∧
      HierHmm.halfDens.Sound ∧ HierHmm.halfDens.Blind ∧ Regularization (1 / 1000) 1000 (1 / 100 : ℝ) ∧ Regularization (1 / 1000) 1000 (1 / 1000 : ℝ) := by
  let _ := JsonReal.truncated
  obtain ⟨-, -, -, -, -, -, -, -, -, -, -, -, -, g4, g5, g6, g7, -⟩ := loaded_train_example
  obtain ⟨sh, h1, v1, v2, v3, v4, v5⟩ := someShared
  obtain ⟨c, s, h2, h3, h4⟩ := hmmConfigOne
  obtain ⟨a1, a2⟩ := C102_any_takes (K := ℝ) (L := String) format [(1, "a", [[0]]), (2, "b", [[5]])] (by simp [format])
  have hB : ∀ lc ∈ ([("b", hmm), ("c", hmm)] : SMap String (Hmm ℝ)), lc.2 = hmm := by
    intro lc hlc
    simp only [List.mem_cons, List.not_mem_nil, or_false] at hlc
    rcases hlc with rfl | rfl <;> rfl
  have hlist : (Takes.run format frames []).1.map (fun e => (e.1, e.2.1, e.2.2.frames)) = [(1, "a", [[0]]), (2, "b", [[5]])] := by
    unfold frames
    rw [a2]
    simp [SMap.assign]
  have hin : ∀ e ∈ (Takes.run format frames []).1, e.2.2.frames.length = 1 := by
    intro e he
    have : (e.1, e.2.1, e.2.2.frames) ∈ (Takes.run format frames []).1.map (fun e => (e.1, e.2.1, e.2.2.frames)) := List.mem_map.2 ⟨e, he, rfl⟩
    rw [hlist] at this
    simp only [List.mem_cons, List.not_mem_nil, or_false, Prod.mk.injEq] at this
    rcases this with ⟨-, -, h⟩ | ⟨-, -, h⟩ <;> rw [h] <;> rfl
  refine ⟨⟨⟨sh, c, [("b", hmm), ("c", hmm)]⟩, [1 / 2, 1 / 2], [[1 / 2, 1 / 2], [1 / 3, 2 / 3]], [1 / 10, 1 / 10], false⟩, s, h1, h2, fun lc hlc => ?_, rfl, by simp [Format.Valid, format],
    ⟨rfl, h3, rfl, ?_, ⟨rfl, rfl, rfl, ?_, ?_, ?_, ?_, ?_, ?_, ?_⟩, v1, fun _ => v3, fun lc hlc => ?_, fun lc hlc => ?_, nofun, fun lc hlc => ?_⟩, ?_, a1, ?_, ?_, hin, fun l x hx => ?_,
    g4, g5, g6, g7⟩
  · rw [hB lc hlc]
    exact ⟨hmm_savable, .inr rfl, by simp only [v1, v2, v3, v4]; rfl⟩
  · show SMap.Sorted [("b", hmm), ("c", hmm)]
    have : ("b" : String) < "c" := by decide +kernel
    simp only [SMap.Sorted, List.pairwise_cons, List.mem_cons, List.not_mem_nil, or_false, forall_eq, this, IsEmpty.forall_iff, implies_true, List.Pairwise.nil, and_self]
  · simp [HierBody.model]
  · simp [HierBody.model]
  · norm_num [HierBody.model]
  · norm_num [HierBody.model]
  · norm_num [HierBody.model]
  · norm_num [HierBody.model]
  · norm_num [HierBody.model]
  · rw [hB lc hlc]
    exact ⟨hmm_inHierarchy, rfl, rfl, rfl, v4.symm, rfl⟩
  · rw [hB lc hlc]
    norm_num [hmm, List.range_succ]
  · rw [hB lc hlc]
    exact ⟨1, [], CBuf.Holds.init 0 1 (by omega)⟩
  · exact ⟨v4.ge, by simp only [HierBody.em, v5]; decide, fun l => by simp only [HierBody.model, (h4 l).1]; decide, fun l => (h4 l).2.1.ge,
      fun l => by simp only [HierBody.model, (h4 l).2.2.2]; norm_num, fun l => (h4 l).2.2.1⟩
  · intro e he
    refine ⟨⟨e, he, rfl, ?_⟩, ?_⟩
    · rw [hin e he]
      exact (h4 _).1.le
    · have hlen : (Takes.run format frames []).1.length = 2 := by simpa using congrArg List.length hlist
      have hle : ∀ l : List (List (List ℝ)), (∀ x ∈ l, x.length = 1) → l.flatten.length = 1 * l.length := by
        intro l hl
        induction l with
        | nil => rfl
        | cons a l ih =>
          rw [List.flatten_cons, List.length_append, ih fun x hx => hl x (List.mem_cons_of_mem _ hx), hl a List.mem_cons_self, List.length_cons]
          omega
      rw [hle _ (fun x hx => by
        simp only [Takes.frames, List.mem_map] at hx
        obtain ⟨e', he', rfl⟩ := hx
        exact hin e' (List.mem_of_mem_filter he'))]
      have : (((Takes.run format frames []).1.ofClass e.2.1).frames).length ≤ 2 := by
        simp only [Takes.frames, List.length_map]
        exact (List.length_filter_le _ _).trans hlen.le
      omega
  · have : ((1, "a", [[0]]) : Int × String × List (List ℝ)) ∈ (Takes.run format frames []).1.map (fun e => (e.1, e.2.1, e.2.2.frames)) := by rw [hlist]; exact List.mem_cons_self
    obtain ⟨e, he, h⟩ := List.mem_map.1 this
    exact ⟨e, he, congrArg (fun x => x.2.1) h⟩
  · have := hB _ hx
    simp only at this
    rw [this]
    exact (h4 l).1.le.trans (by simp [hmm])

/-- the hypotheses of `C114_hierarchical_sequential_partial`, also those about the training that is done, are met: a hierarchical model with the classes "b" and "c", saved, and a session
    with the classes "a" and "b" -/
theorem loaded_train_sequential_hmm_example (ids : JsonIds) (z z1 z2 lowest : ℝ) (hb : Bool) (r' : MultiRes ℝ) : letI := JsonReal.truncated
    ∃ (B B' : HierBody ℝ) (B0 : ModelBody ℝ (HmmAttrs ℝ) (Hmm ℝ)) (root : Json ℝ), SMap.keys B.body.models = ["b", "c"] ∧ HierBody.toJson hb B = .ret root B ∧
      HierBody.ofJson (fun _ => true) ids id (1 / 1000) 1000 z root = .ret B' B0 ∧
      (∃ M1 M1' M M', B.recordAndTrainClassSequential z1 HierHmm.halfDens Real.log lowest (fun _ => false) format 0 frames emptyWorld "a" MultiRes.empty [] [] false = .ret () M1 ∧
        B'.recordAndTrainClassSequential z2 HierHmm.halfDens Real.log lowest (fun _ => false) format 0 frames emptyWorld "a" r' [] [] false = .ret () M1' ∧
        HierHmm.reset M1 = .ret () M ∧ HierHmm.reset M1' = .ret () M' ∧ SMap.keys M'.models = SMap.keys M.models) ∧
      (∃ M1 M1' M M', B.recordAndTrainSequential z1 HierHmm.halfDens Real.log lowest (fun _ _ => false) format 0 frames emptyWorld MultiRes.empty [] [] false = .ret () M1 ∧
        B'.recordAndTrainSequential z2 HierHmm.halfDens Real.log lowest (fun _ _ => false) format 0 frames emptyWorld r' [] [] false = .ret () M1' ∧
        HierHmm.reset M1 = .ret () M ∧ HierHmm.reset M1' = .ret () M' ∧ SMap.keys M'.models = SMap.keys M.models) := by
  letI := JsonReal.truncated
  obtain ⟨B, s, a1, a2, a3, a4, a5, a6, a7, a8, a9, a, a13, a14, a10, a15, a11, a12⟩ := loaded_train_hmm_frames
  have hlog : ∀ x y : ℝ, 0 < x → 0 < y → Real.log (x * y) = Real.log x + Real.log y := fun x y hx hy => Real.log_mul hx.ne' hy.ne'
  have hd : ∀ l, (∃ e ∈ (Takes.run format frames []).1, e.2.1 = l) → ∃ m, HierHmm.Done z1 HierHmm.halfDens Real.log (Compare.exact lowest B.body.shared.percentChg.value) B.em (fun _ _ => false)
      format (Takes.run format frames []).1 (HierBody.model B MultiRes.empty [] [] false).conf (HierBody.model B MultiRes.empty [] [] false).window l m := fun l hl =>
    HierHmm.half_done format a5 0 emptyWorld rfl frames a8 _ _ a7 a9 z1 lowest _ _ l hl (fun _ => rfl) (fun p hp => by
      simp only [Takes.data, Takes.frames, List.mem_map] at hp
      obtain ⟨e, he, rfl⟩ := hp
      exact (a13 e (List.mem_of_mem_filter he)).le)
  obtain ⟨root, B', B0, b1, b2, b3⟩ := C114_hierarchical_sequential_partial ids z z1 z2 a11 a12 hb B s a1 a2 a3 MultiRes.empty [] [] false format a5 a6 a7 (fun h => by cases h) 0 emptyWorld rfl
    frames a8 a9 HierHmm.halfDens a10 a15 Real.log hlog lowest (fun _ _ => false) "a" a
  obtain ⟨c1, c2⟩ := b3 r' [] []
  obtain ⟨M1, M1', M, M', d1, d2, d3, d4, -, -, d5, -⟩ := c1 (hd _ a)
  obtain ⟨N1, N1', N, N', k1, k2, k3, k4, -, -, k5, -⟩ := c2 fun e he => hd _ ⟨e, he, rfl⟩
  exact ⟨B, B', B0, root, a4, b1, b2, ⟨M1, M1', M, M', d1, d2, d3, d4, d5⟩, ⟨N1, N1', N, N', k1, k2, k3, k4, k5⟩⟩


end LoadedTrainExamples

end Xmm
