import Verif.Model.ModelJson
import Verif.Spec.GaussianJson
import Verif.Spec.ClassParams
import Verif.Spec.SharedParams
import Verif.Spec.Configuration
/- What it means for a class or a model to have been restored from JSON, and which ones can be. -/
namespace Xmm
variable {K : Type}

/-- The class `m'` has the parameters, the weights and the components of `m`, with their likelihoods, regressions and output covariances. -/
structure Gmm.Restored (m m' : Gmm K) : Prop where
  gaussians : m'.gaussians = m.gaussians
  mode : m'.mode = m.mode
  absReg : m'.absReg = m.absReg
  relReg : m'.relReg = m.relReg
  bimodal : m'.bimodal = m.bimodal
  dim : m'.dim = m.dim
  di : m'.di = m.di
  window : m'.window = m.window
  coeffs : m'.coeffs = m.coeffs
  comps : List.Forall₂ (fun g g' => g.Restored g' ∧ g'.outCov = g.outCov) m.comps m'.comps
  idle : m'.training = false

/-- The class `m'` has the parameters, the probabilities and the states of `m`. -/
structure Hmm.Restored (m m' : Hmm K) : Prop where
  n : m'.n = m.n
  gaussians : m'.gaussians = m.gaussians
  ergodic : m'.ergodic = m.ergodic
  est : m'.est = m.est
  mode : m'.mode = m.mode
  absReg : m'.absReg = m.absReg
  relReg : m'.relReg = m.relReg
  bimodal : m'.bimodal = m.bimodal
  dim : m'.dim = m.dim
  di : m'.di = m.di
  window : m'.window = m.window
  prior : m'.prior = m.prior
  trans : m'.trans = m.trans
  exitP : m'.exitP = m.exitP
  sts : List.Forall₂ Gmm.Restored m.sts m'.sts
  idle : m'.training = false

variable [Field K] [LinearOrder K]

/-- A component whose cached quantities are up to date, as training leaves it. -/
structure Gauss.Settled (g : Gauss K) : Prop where
  plain : g.Plain
  current : Gauss.updateInverseCovariance g = .ret () g
  out : g.bimodal = false → g.outCov = []

/-- dimensions accepted by the constructor of a Gaussian distribution -/
def GoodDims (bimodal : Bool) (dim di : Nat) : Prop := (if bimodal then 2 else 1) ≤ dim ∧ di ≤ (if bimodal then dim - 1 else 0)

/-- A trained class that can be written: parameters within their limits, regularizations that are `float`s, as many weights and components as the parameters say. -/
structure Gmm.Savable (nar : K → K) (tiny realMax : K) (m : Gmm K) : Prop where
  idle : m.training = false
  gaussians : Count m.gaussians
  relReg : Regularization tiny realMax m.relReg
  absReg : Regularization tiny realMax m.absReg
  relFloat : nar m.relReg = m.relReg
  absFloat : nar m.absReg = m.absReg
  dims : GoodDims m.bimodal m.dim m.di
  coeffs : m.coeffs.length = m.gaussians
  comps : m.comps.length = m.gaussians
  settled : ∀ g ∈ m.comps, g.Settled ∧ g.dim = m.dim ∧ g.mode = m.mode

/-- the classes whose own JSON is accepted: Full mode, or one dimension -/
def Gmm.Loadable (m : Gmm K) : Prop := m.mode = .full ∨ m.dim = 1

/-- Shared parameters obtained by any history of calls, within their limits, and whose change threshold is a `float`. -/
structure SharedSavable [JsonReal K] (alive : Nat → Bool) (nar : K → K) (realMax : K) (s : SharedParams K) : Prop where
  reached : ∃ me, SharedSpec.After alive me SharedSpec.anyCall (SharedParams.fresh me realMax) s
  admissible : SharedSpec.Admissible realMax s.values
  named : s.columnNames.size ≠ 0
  float : nar s.values.percentChg = s.values.percentChg

/-- A configuration obtained by any history of edits, which means `s`, and whose regularizations are `float`s. -/
structure ConfigSavable {P V E : Type} (T : ParamType P) (run : Nat → E → Prog P Unit) (apply : E → V → V) (v0 : V) (floats : V → Prop)
    (c : Configuration P) (s : ConfigSpec V) : Prop where
  reached : ∃ me slot ops, s = ConfigSpec.after apply v0 ops ∧ ∃ c0, Configuration.history T me slot run ops (Configuration.fresh T me) = some c0 ∧
    c = { c0 with multithreading := c.multithreading, estimator := c.estimator }
  threading : 0 ≤ c.multithreading ∧ c.multithreading ≤ 2
  estimator : 0 ≤ c.estimator ∧ c.estimator ≤ 1
  float : ∀ v, s.Has v → floats v

/-- A trained class that can be written and whose JSON has the sizes that its parameters say. -/
structure Hmm.Savable (nar : K → K) (tiny realMax : K) (m : Hmm K) : Prop where
  idle : m.training = false
  n : Count m.n
  gaussians : Count m.gaussians
  relReg : Regularization tiny realMax m.relReg
  absReg : Regularization tiny realMax m.absReg
  relFloat : nar m.relReg = m.relReg
  absFloat : nar m.absReg = m.absReg
  dims : GoodDims m.bimodal m.dim m.di
  prior : if m.ergodic then m.prior.length = m.n else m.prior = []
  trans : m.trans.length = if m.ergodic then m.n * m.n else 2 * m.n
  exitP : m.exitP.length = m.n
  count : m.sts.length = m.n
  states : ∀ st ∈ m.sts, st.Savable nar tiny realMax ∧ st.bimodal = m.bimodal ∧ st.dim = m.dim ∧ st.di = m.di ∧ st.window = m.window ∧ st.mode = m.mode

/-- the classes whose own JSON is accepted: Full mode, or one dimension -/
def Hmm.Loadable (m : Hmm K) : Prop := m.mode = .full ∨ m.dim = 1

/-- the public codes of `MultiClassRegressionEstimator`: Likeliest = 0, Mixture = 1 -/
def Estimator.code : Estimator → Int
  | .likeliest => 0
  | .mixture => 1

end Xmm
