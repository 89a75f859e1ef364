import Verif.Props.Uninitialised
import Verif.Props.LoadedTrainExamples
import Verif.Props.LoadedTrainHmmExamples
set_option linter.unusedSectionVars false
/- C114, `train` on a whole training set: a model that has been loaded learns what the original learns. -/
namespace Xmm
open TS
open Hmm HierHmm

section session
variable [JsonReal ℝ] {alive : Nat → Bool} {nar : ℝ → ℝ} {tiny realMax : ℝ}

/-- **C114 (partial), GMM, all classes.**  A mixture model that can be saved (C57), with classes of any format: `train` on a training set, with all its classes, of the model constructed from its
    JSON, even before `reset()` and whatever its results are, ends like `train` of the original, with the parameters that each of them has: both are defined and raise no exception, both models
    have the same classes afterwards, and they report the same results on every stream.
    Missing: models with Diagonal covariances, which cannot be loaded (`C57_gmm_diagonal_violated`); outputs of models that are not bimodal, which write none. -/
theorem C114_gmm_all_partial (ids : JsonIds) (z : ℝ) (h1 : Regularization tiny realMax (1 / 100)) (h2 : Regularization tiny realMax (1 / 1000))
    (B : GmmBody ℝ) (s : ConfigSpec (GmmValues ℝ)) (hs : SharedSavable alive nar realMax B.shared) (hc : GmmConfig nar tiny realMax B.config s)
    (hcls : ∀ lc ∈ B.models, lc.2.Savable nar tiny realMax ∧ lc.2.Loadable ∧
      lc.2.view = ⟨B.shared.bimodal.value, B.shared.dimension.value, B.shared.dimensionInput.value, B.shared.window.value⟩)
    (hsorted : SMap.Sorted B.models) (f : Format) (hv : f.Valid) (hbi : B.shared.bimodal.value = f.bimodal) (hS : B.settings.Valid)
    (hmode : f.bimodal = true → ∀ l, B.settings.mode l = covModeOf B.config.base.covMode.value)
    (i j : Nat) (v0 w0 : World ℝ String) (hv0 : v0.sets i = none) (hw0 : w0.sets j = none) (ops : List (RecOp ℝ String)) (ha : Takes.Admissible f ops [])
    (hne : (Takes.run f ops []).1 ≠ []) (hfill : Takes.Filled (Takes.run f ops []).1)
    (D : Dens ℝ) (hD : D.Sound) (log : ℝ → ℝ) (lowest : ℝ) (cancel : String → Nat → Bool) :
    ∃ root B', GmmBody.toJson B = .ret root B ∧ GmmBody.ofJson alive ids nar tiny realMax z root = .ret () B' ∧
      ∀ r r' : MultiRes ℝ, ∃ M M', B.recordAndTrain D log lowest cancel f i ops v0 r = .ret () M ∧ B'.recordAndTrain D log lowest cancel f j ops w0 r' = .ret () M' ∧
        M.Usable ∧ M'.Usable ∧ SMap.keys M'.models = SMap.keys M.models ∧
        (M.models ≠ [] → ∀ exp : ℝ → ℝ, (∀ x, 0 < exp x) → ∀ xs, xs ≠ [] → (∀ x ∈ xs, f.Sample x) →
          ∃ N N', (do GmmModel.reset; GmmModel.filterAll D log exp xs) M = .ret () N ∧ (do GmmModel.reset; GmmModel.filterAll D log exp xs) M' = .ret () N' ∧
            N'.results = { N.results with outVals := N'.results.outVals, outCov := N'.results.outCov } ∧ (f.bimodal = true → N'.results = N.results)) := by
  obtain ⟨root, B', b1, b2, b3, b4, b5⟩ := gmm_loads ids z h1 h2 B s hs hc hsorted hcls
  refine ⟨root, B', b1, b2, fun r r' => ?_⟩
  have hset := GmmBody.settings_loaded hc b3 b4
  have hpct : B'.shared.percentChg.value = B.shared.percentChg.value := congrArg SharedValues.percentChg b3
  have hload := GmmBody.loaded (z := z) hc b3 b4 b5 r r'
  have hmd : (GmmBody.model B' r').mode = (GmmBody.model B r).mode := by rw [hload]; rfl
  have hes : (GmmBody.model B' r').est = (GmmBody.model B r).est := by rw [hload]; rfl
  unfold GmmBody.recordAndTrain
  rw [hset, hpct]
  exact C115_gmm_partial f hv ops ha i j v0 w0 hv0 hw0 hne hfill B.settings hS (GmmBody.model B r) (GmmBody.model B' r') hbi (by rw [hload]; exact hbi) hmode hmd hes D hD log lowest _ cancel

/-- **C114 (partial), hierarchical HMM, all classes.**  A hierarchical model that can be saved (C57) and used, with LeftRight classes of any format `g` that are left from their last state only:
    `train` on a training set, with all its classes, of the model constructed from its JSON, even before `reset()` and whatever its other members are, ends like `train` of the original, with the
    parameters that each of them has, whatever the memory holds that is not initialised (`z`, `z1`, `z2`): both are defined and raise no exception, both models have the same classes
    afterwards, and they report the same likelihoods and results on every stream.
    Missing: models with Diagonal covariances or that are not hierarchical, which are not loaded as they are (`C57_hmm_rejected_violated`, `C57_hmm_hierarchical_violated`), ergodic classes. -/
theorem C114_hierarchical_all_partial (ids : JsonIds) (z z1 z2 : ℝ) (h1 : Regularization tiny realMax (1 / 100)) (h2 : Regularization tiny realMax (1 / 1000))
    (hb : Bool) (B : HierBody ℝ) (s : ConfigSpec (HmmValues ℝ)) (hs : SharedSavable alive nar realMax B.body.shared) (hc : HmmConfig nar tiny realMax B.body.config s)
    (hcls : ∀ lc ∈ B.body.models, lc.2.Savable nar tiny realMax ∧ lc.2.Loadable ∧
      lc.2.view = ⟨B.body.shared.bimodal.value, B.body.shared.dimension.value, B.body.shared.dimensionInput.value, B.body.shared.window.value⟩)
    (r : MultiRes ℝ) (f1 f2 : List ℝ) (st : Bool) (g f : Format) (hM : (HierBody.model B r f1 f2 st).Holds g) (hS : (HierBody.model B r f1 f2 st).Settings B.em)
    (hv : f.Valid) (hgf : g.bimodal = f.bimodal) (hmode : f.bimodal = true → ∀ l, ((HierBody.model B r f1 f2 st).conf l).mode = (HierBody.model B r f1 f2 st).mode)
    (i j : Nat) (v0 w0 : World ℝ String) (hv0 : v0.sets i = none) (hw0 : w0.sets j = none) (ops : List (RecOp ℝ String)) (ha : Takes.Admissible f ops [])
    (hne : (Takes.run f ops []).1 ≠ []) (hlong : Takes.LongEnough (Takes.run f ops []).1 fun l => ((HierBody.model B r f1 f2 st).conf l).n)
    (D : Dens ℝ) (hD : D.Sound) (log : ℝ → ℝ) (hlog : ∀ x y, 0 < x → 0 < y → log (x * y) = log x + log y) (lowest : ℝ) (cancel : String → Nat → Bool) :
    ∃ root B' B0, HierBody.toJson hb B = .ret root B ∧ HierBody.ofJson alive ids nar tiny realMax z root = .ret B' B0 ∧
      ∀ (r' : MultiRes ℝ) (f1' f2' : List ℝ), ∃ M M', B.recordAndTrain z1 D log lowest cancel f i ops v0 r f1 f2 st = .ret () M ∧
        B'.recordAndTrain z2 D log lowest cancel f j ops w0 r' f1' f2' false = .ret () M' ∧ M.Usable ∧ M'.Usable ∧ SMap.keys M'.models = SMap.keys M.models ∧
        (M.models ≠ [] → ∀ exp : ℝ → ℝ, ∀ xs, xs ≠ [] → (∀ x ∈ xs, f.Sample x) →
          ∃ rs N N', (do HierHmm.reset; HierHmm.filterAll D log exp xs) M = .ret rs N ∧ (do HierHmm.reset; HierHmm.filterAll D log exp xs) M' = .ret rs N' ∧ HierHmm.SameResults N N') := by
  obtain ⟨root, B', B0, b1, b2, b3, b4, b5, b6, b7, b8, b9, b10⟩ := hmm_loads ids z h1 h2 hb B s hs hc hM.sorted hcls hM.idle hM.top.prior hM.top.trans hM.top.row hM.top.exitTrans
  refine ⟨root, B', B0, b1, b2, fun r' f1' f2' => ?_⟩
  have hpct : B'.body.shared.percentChg.value = B.body.shared.percentChg.value := congrArg SharedValues.percentChg b3
  have hem : B'.em = B.em := by
    unfold HierBody.em
    rw [show B'.body.shared.emMin.value = B.body.shared.emMin.value from congrArg SharedValues.emMin b3,
      show B'.body.shared.emMax.value = B.body.shared.emMax.value from congrArg SharedValues.emMax b3]
  have hload := HierBody.loaded hc b3 b4 b5 b6 b7 b8 b9 b10 (fun lc hlc => (hM.cls lc hlc).1.hier) hM.hier r r' f1 f2 f1' f2' st
  unfold HierBody.recordAndTrain
  rw [hem, hpct]
  set X := HierBody.model B r f1 f2 st with hX
  set Y := HierBody.model B' r' f1' f2' false with hY
  have hY' : Y.Holds g := by rw [hload]; exact hM.loaded z r' f1' f2'
  exact C115_train_partial f hv ops ha i j v0 w0 hv0 hw0 hne X Y hM.idle hY'.idle B.em hS hM.hier hY'.hier hlong (hM.bimodal.trans hgf) (hY'.bimodal.trans hgf) hM.di hY'.di
    (fun h => hmode ((hM.bimodal.trans hgf).symm.trans h)) (by rw [hload]; rfl) (by rw [hload]; rfl) (by rw [hload]; rfl) (by rw [hload]; rfl) z1 z2 D hD log hlog lowest _ cancel

end session

/-! ### The hypotheses are met -/

namespace LoadedTrainExamples

/-- the hypotheses of `C114_gmm_all_partial` are met: a model with the classes "b" and "c", saved, and a session with the classes "a" and "b" -/
theorem loaded_train_all_example (ids : JsonIds) (z lowest : ℝ) (cancel : String → Nat → Bool) (r r' : MultiRes ℝ) : letI := JsonReal.truncated
    ∃ (B B' : GmmBody ℝ) (root : Json ℝ), SMap.keys B.models = ["b", "c"] ∧ GmmBody.toJson B = .ret root B ∧
      GmmBody.ofJson (fun _ => true) ids id (1 / 1000) 1000 z root = .ret () B' ∧
      ∃ M M', B.recordAndTrain HierHmm.halfDens Real.log lowest cancel format 0 session emptyWorld r = .ret () M ∧
        B'.recordAndTrain HierHmm.halfDens Real.log lowest cancel format 0 session emptyWorld r' = .ret () M' ∧ SMap.keys M'.models = SMap.keys M.models := by
  letI := JsonReal.truncated
  obtain ⟨B, s, a1, a2, a3, a4, a5, a6, a7, a8, a9, ⟨e, he, -⟩, -, a10, -, a11, a12, -⟩ := loaded_train_example
  obtain ⟨root, B', b1, b2, b3⟩ := C114_gmm_all_partial ids z a11 a12 B s a1 a2 a3 a6.sorted format a5 a6.bimodal a7 (fun h => by cases h) 0 0 emptyWorld emptyWorld rfl rfl session a8
    (List.ne_nil_of_mem he) a9 HierHmm.halfDens a10 Real.log lowest cancel
  obtain ⟨M, M', c1, c2, -, -, c3, -⟩ := b3 r r'
  exact ⟨B, B', root, a4, b1, b2, M, M', c1, c2, c3⟩

/-- the hypotheses of `C114_hierarchical_all_partial` are met: a hierarchical model with the classes "b" and "c", saved, and a session with the classes "a" and "b" -/
theorem loaded_train_all_hmm_example (ids : JsonIds) (z z1 z2 lowest : ℝ) (hb : Bool) (cancel : String → Nat → Bool) (r' : MultiRes ℝ) : letI := JsonReal.truncated
    ∃ (B B' : HierBody ℝ) (B0 : ModelBody ℝ (HmmAttrs ℝ) (Hmm ℝ)) (root : Json ℝ), SMap.keys B.body.models = ["b", "c"] ∧ HierBody.toJson hb B = .ret root B ∧
      HierBody.ofJson (fun _ => true) ids id (1 / 1000) 1000 z root = .ret B' B0 ∧
      ∃ M M', B.recordAndTrain z1 HierHmm.halfDens Real.log lowest cancel format 0 session emptyWorld MultiRes.empty [] [] false = .ret () M ∧
        B'.recordAndTrain z2 HierHmm.halfDens Real.log lowest cancel format 0 session emptyWorld r' [] [] false = .ret () M' ∧ SMap.keys M'.models = SMap.keys M.models := by
  letI := JsonReal.truncated
  obtain ⟨B, s, a1, a2, a3, a4, a5, a6, a7, a8, a9, ⟨e, he, -⟩, -, -, a10, -, a11, a12⟩ := loaded_train_hmm_example
  have hlog : ∀ x y : ℝ, 0 < x → 0 < y → Real.log (x * y) = Real.log x + Real.log y := fun x y hx hy => Real.log_mul hx.ne' hy.ne'
  obtain ⟨root, B', B0, b1, b2, b3⟩ := C114_hierarchical_all_partial ids z z1 z2 a11 a12 hb B s a1 a2 a3 MultiRes.empty [] [] false format format a6 a7 a5 rfl (fun h => by cases h) 0 0 emptyWorld
    emptyWorld rfl rfl session a8 (List.ne_nil_of_mem he) a9 HierHmm.halfDens a10 Real.log hlog lowest cancel
  obtain ⟨M, M', c1, c2, -, -, c3, -⟩ := b3 r' [] []
  exact ⟨B, B', B0, root, a4, b1, b2, M, M', c1, c2, c3⟩

end LoadedTrainExamples

end Xmm
