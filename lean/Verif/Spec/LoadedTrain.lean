import Verif.Model.LoadedModel
import Verif.Spec.Retrain
/- What training a model that has been loaded must give. -/
namespace Xmm
open TS

/-- the parameters with which a mixture model trains its classes: those of its configuration for each class and its shared parameters -/
noncomputable def GmmBody.settings (B : GmmBody ℝ) : GmmSettings ℝ where
  window := B.shared.window.value
  em := ⟨B.shared.emMin.value, B.shared.emMax.value⟩
  gaussians l := (Configuration.paramsFor l B.config).gaussians.value
  relReg l := (Configuration.paramsFor l B.config).relReg.value
  absReg l := (Configuration.paramsFor l B.config).absReg.value
  mode l := covModeOf (Configuration.paramsFor l B.config).covMode.value

/-- the model `B`, with the results `r`; a recording session, then `train(set, label)` with the parameters of `B` -/
noncomputable def GmmBody.recordAndTrainClass (D : Dens ℝ) (log : ℝ → ℝ) (lowest : ℝ) (cancel : Nat → Bool) (f : Format) (i : Nat) (ops : List (RecOp ℝ String))
    (w0 : World ℝ String) (label : String) (B : GmmBody ℝ) (r : MultiRes ℝ) : Res (GmmModel ℝ) Unit :=
  Xmm.recordAndTrainClass B.settings D log (Compare.exact lowest B.shared.percentChg.value) cancel f i ops w0 label (GmmBody.model B r)

/-- the model `B`, with the results `r`; a recording session, then `train(set)` with the parameters of `B` -/
noncomputable def GmmBody.recordAndTrain (D : Dens ℝ) (log : ℝ → ℝ) (lowest : ℝ) (cancel : String → Nat → Bool) (f : Format) (i : Nat) (ops : List (RecOp ℝ String))
    (w0 : World ℝ String) (B : GmmBody ℝ) (r : MultiRes ℝ) : Res (GmmModel ℝ) Unit :=
  Xmm.recordAndTrain B.settings D log Real.sqrt (Compare.exact lowest B.shared.percentChg.value) cancel f i ops w0 (GmmBody.model B r)

end Xmm
