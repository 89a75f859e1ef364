import Verif.Model.ModelJson
import Verif.Model.HierHmm
/-
The models of `Model/GmmFilter.lean` and `Model/HierHmm.lean`, which filter, seen from what is saved of them (`Model/ModelJson.lean`).  In /repo they are the same
objects: `GMM` and `HierarchicalHMM` with the members of `Model`, xmmModel.hpp:605-640.
-/
namespace Xmm
variable {K : Type}

/-- `multiClass_regression_estimator`, xmmModelConfiguration.hpp:40-52; the member holds 0 or 1 -/
def estimatorOf (code : Int) : Estimator := if code = 0 then .likeliest else .mixture

/-- `results` of a model that has been constructed and not reset: empty vectors, xmmModelResults.hpp:80-122 -/
def MultiRes.empty : MultiRes K := ⟨[], [], [], [], [], "", [], []⟩

/-- The parameters of a class as training copies them, xmmHmmParameters.hpp:138-182. -/
def HmmAttrs.params (p : HmmAttrs K) : HmmParams K :=
  ⟨p.states.value, p.gaussians.value, decide (p.transMode.value = 0), Hmm.estOf p.regEstimator.value, p.absReg.value, p.relReg.value, covModeOf p.covMode.value⟩

/-- The `GMM` whose saved members are `B` and whose `results` are `r`; it is not training.  With `r` empty: the model that the JSON constructor makes, xmmGmm.cpp:42. -/
def GmmBody.model (B : GmmBody K) (r : MultiRes K) : GmmModel K where
  models := B.models
  nulls := []
  bimodal := B.shared.bimodal.value
  dout := B.shared.dimension.value - B.shared.dimensionInput.value
  mode := covModeOf B.config.base.covMode.value
  est := estimatorOf B.config.estimator
  training := false
  results := r

/-- The `HierarchicalHMM` whose saved members are `B`; `r`, `front1`, `front2` and `started` are its other members.  With `r`, `front1` and `front2` empty and `started`
    false: the model that the JSON constructor makes, xmmHierarchicalHmm.cpp:50-62. -/
def HierBody.model (B : HierBody K) (r : MultiRes K) (front1 front2 : List K) (started : Bool) : HierHmm K where
  models := B.body.models
  nulls := []
  prior := B.prior
  exitTrans := B.exitTrans
  trans := B.trans
  front1 := front1
  front2 := front2
  started := started
  training := B.training
  conf l := (Configuration.paramsFor l B.body.config).params
  hier := B.body.config.base.hierarchical.value
  mode := covModeOf B.body.config.base.covMode.value
  est := estimatorOf B.body.config.estimator
  bimodal := B.body.shared.bimodal.value
  dim := B.body.shared.dimension.value
  di := B.body.shared.dimensionInput.value
  window := B.body.shared.window.value
  results := r

end Xmm
