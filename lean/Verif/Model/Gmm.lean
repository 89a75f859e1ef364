import Verif.Model.KMeans
import Verif.Model.Float
import Verif.Model.CircularBuffer
import Verif.Model.StdMap
/-
Model of src/models/gmm/xmmGmmSingleClass.hpp / .cpp: one class of a Gaussian mixture model.

The vectors are lists and every access is checked: an access outside a vector is undefined behaviour.  Numbers are an
ordered field (no rounding); `log` is a parameter.  The densities of the components are the parameter `Dens`;
`Dens.real` is the one computed by the code of Verif/Model/Gaussian.lean on real numbers.

Simplification: a training set is given by the frames of its phrases (`KData`); the input part of a frame of a bimodal
phrase is its first `dimension_input` values and the output part the others (C13, C14).  A quotient by zero is 0 instead of
an infinity or a NaN: the theorems show or assume that the divisors are not zero.
-/
namespace Xmm
open Phrase (loop)
open Gauss (rd resize copyInto)

/-- The three likelihood functions of a component. -/
structure Dens (K : Type) where
  joint : List K → Prog (Gauss K) K
  input : List K → Prog (Gauss K) K
  bimodal : List K → List K → Prog (Gauss K) K

/-- a computation on `double`s started from real numbers; the result is a finite number (C29) -/
noncomputable def Dens.onReals (f : Prog (Gauss Fl) Fl) : Prog (Gauss ℝ) ℝ := fun g =>
  match f g.toFl with
  | .ret (.fin x) _ => .ret x g
  | .ret _ _ => .ub
  | .throw e _ => .throw e g
  | .ub => .ub

/-- The likelihood functions of xmmGaussianDistribution.cpp:175-296 (Verif/Model/Gaussian.lean), without rounding. -/
noncomputable def Dens.real : Dens ℝ where
  joint obs := Dens.onReals (Gauss.likelihood Fl.exact (obs.map .fin))
  input obs := Dens.onReals (Gauss.likelihoodInput Fl.exact (obs.map .fin))
  bimodal x y := Dens.onReals (Gauss.likelihoodBimodal Fl.exact (x.map .fin) (y.map .fin))

/-- `SingleClassGMM`, xmmGmmSingleClass.hpp:300-330 and the members inherited from `SingleClassProbabilisticModel`: `gaussians`,
    `mode`, `absReg`, `relReg` are `parameters`; `bimodal`, `dim`, `di`, `window` are `shared_parameters`; `reg` is
    `current_regularization`; `instant`, `logLik`, `outVals`, `outCov` are `results`. -/
structure Gmm (K : Type) where
  gaussians : Nat
  mode : CovMode
  absReg : K
  relReg : K
  bimodal : Bool
  dim : Nat
  di : Nat
  window : Nat
  comps : List (Gauss K)
  coeffs : List K
  beta : List K
  reg : List K
  training : Bool
  buf : CBuf K 1
  instant : K
  logLik : K
  outVals : List K
  outCov : List K

namespace Gmm
variable {K : Type} [Field K] [LinearOrder K]

/-- `check_training()`, xmmModelSingleClass.hpp:345-348. -/
def checkTraining : Prog (Gmm K) Unit := do
  let m ← Prog.get
  if m.training then Prog.throw .runtimeError else pure ()

/-- call of a `const` member function of a component -/
def call {σ α : Type} (f : Prog (Gauss K) α) (g : Gauss K) : Prog σ α := fun s =>
  match f g with
  | .ret a _ => .ret a s
  | .throw e _ => .throw e s
  | .ub => .ub

/-- `allocate()`, xmmGmmSingleClass.cpp:224-233. -/
def allocate : Prog (Gmm K) Unit := do
  Prog.modify fun m => { m with coeffs := resize m.gaussians m.coeffs, beta := resize m.gaussians m.beta }
  let m ← Prog.get
  match Gauss.construct m.bimodal m.dim m.di m.mode with
  | none => Prog.throw .domainError
  | some g => Prog.set { m with comps := List.replicate m.gaussians g }

/-! ### Observation probabilities -/

/-- `obsProb(observation, c)` for `c >= 0`, xmmGmmSingleClass.cpp:235-254. -/
def obsProb {σ : Type} (D : Dens K) (m : Gmm K) (obs : List K) (c : Nat) : Prog σ K := do
  if m.gaussians ≤ c then Prog.throw .outOfRange
  else do
    let w ← rd m.coeffs c
    let g ← rd m.comps c
    let p ← call (D.joint obs) g
    pure (w * p)

/-- `obsProb_input(observation_input, c)` for `c >= 0`, xmmGmmSingleClass.cpp:256-275. -/
def obsProbInput {σ : Type} (D : Dens K) (m : Gmm K) (x : List K) (c : Nat) : Prog σ K := do
  if !m.bimodal then Prog.throw .runtimeError
  else do
    let w ← rd m.coeffs c
    let g ← rd m.comps c
    let p ← call (D.input x) g
    pure (w * p)

/-- `obsProb_bimodal(observation_input, observation_output, c)` for `c >= 0`, xmmGmmSingleClass.cpp:277-299. -/
def obsProbBimodal {σ : Type} (D : Dens K) (m : Gmm K) (x y : List K) (c : Nat) : Prog σ K := do
  if !m.bimodal then Prog.throw .runtimeError
  else do
    let w ← rd m.coeffs c
    let g ← rd m.comps c
    let p ← call (D.bimodal x y) g
    pure (w * p)

/-- `obsProb(observation)`, the sum over the components, xmmGmmSingleClass.cpp:239-244; likewise `obsProb_input(x)`,
    lines 263-268, and `obsProb_bimodal(x, y)`, lines 285-291. -/
def obsProbSum {σ : Type} (m : Gmm K) (f : Nat → Prog σ K) : Prog σ K :=
  loop m.gaussians 0 (fun p c => do
    let q ← f c
    pure (p + q))

/-! ### Initialisation -/

/-- run a member function on component `c`; what it did before throwing remains -/
def onComp (c : Nat) (f : Prog (Gauss K) Unit) : Prog (Gmm K) Unit := fun m =>
  match m.comps[c]? with
  | none => .ub
  | some g => match f g with
    | .ret _ g' => .ret () { m with comps := m.comps.set c g' }
    | .throw e g' => .throw e { m with comps := m.comps.set c g' }
    | .ub => .ub

/-- `for (auto& component : components) f(component)` -/
def eachComp (f : Prog (Gauss K) Unit) : Prog (Gmm K) Unit := do
  let m ← Prog.get
  loop m.comps.length () (fun _ c => onComp c f)

/-- `addCovarianceOffset()`, xmmGmmSingleClass.cpp:557-561. -/
def addCovarianceOffset : Prog (Gmm K) Unit := do
  let m ← Prog.get
  eachComp (Gauss.regularize m.reg)

/-- `updateInverseCovariances()`, xmmGmmSingleClass.cpp:563-572: every exception becomes a `runtime_error`. -/
def updateInverseCovariances : Prog (Gmm K) Unit := fun m =>
  match eachComp Gauss.updateInverseCovariance m with
  | .throw _ m' => .throw .runtimeError m'
  | r => r

/-- The regularisation computed by `initParametersToDefault`, xmmGmmSingleClass.cpp:517-522. -/
def regularization (m : Gmm K) (sd : List K) : List K := sd.map fun s => max m.absReg (m.relReg * s)

/-- The covariance vector before regularisation, xmmGmmSingleClass.cpp:524-531. -/
def initialCov (m : Gmm K) : List K :=
  match m.mode with
  | .full => List.replicate (m.dim * m.dim) (m.absReg / 2)
  | .diagonal => List.replicate m.dim 0

/-- The default covariance of component `c` and its coefficient, xmmGmmSingleClass.cpp:523-533. -/
def initComp (c : Nat) : Prog (Gmm K) Unit := do
  let m ← Prog.get
  let g ← rd m.comps c
  Prog.set { m with comps := m.comps.set c { g with cov := initialCov m } }
  onComp c (Gauss.regularize m.reg)
  let m ← Prog.get
  let _ ← rd m.coeffs c
  Prog.set { m with coeffs := m.coeffs.set c (1 / (m.gaussians : K)) }

/-- Division of the first `n` coefficients by `z`, the loops of xmmGmmSingleClass.cpp:536-538 and 547-549. -/
def divideCoeffs (n : Nat) (z : K) : Prog (Gmm K) Unit := do
  loop n () (fun _ c => do
    let m ← Prog.get
    let w ← rd m.coeffs c
    Prog.set { m with coeffs := m.coeffs.set c (w / z) })

/-- The sum of the first `n` coefficients. -/
def sumCoeffs {σ : Type} (m : Gmm K) (n : Nat) : Prog σ K :=
  loop n 0 (fun acc c => do
    let w ← rd m.coeffs c
    pure (acc + w))

/-- `initParametersToDefault(dataStddev)`, xmmGmmSingleClass.cpp:512-539. -/
def initParametersToDefault (sd : List K) : Prog (Gmm K) Unit := do
  Prog.modify fun m => { m with reg := regularization m sd }
  let m ← Prog.get
  loop m.gaussians () (fun _ c => initComp c)
  let m ← Prog.get
  let z ← sumCoeffs m m.gaussians
  divideCoeffs m.gaussians z

/-- `normalizeMixtureCoeffs()`, xmmGmmSingleClass.cpp:541-555. -/
def normalizeMixtureCoeffs : Prog (Gmm K) Unit := do
  let m ← Prog.get
  let z ← sumCoeffs m m.gaussians
  if 0 < z then divideCoeffs m.gaussians z
  else loop m.gaussians () (fun _ c => do
    let m ← Prog.get
    let _ ← rd m.coeffs c
    Prog.set { m with coeffs := m.coeffs.set c (1 / (m.gaussians : K)) })

/-! ### Expectation-maximisation -/

/-- The probability of a frame for component `c`, xmmGmmSingleClass.cpp:412-418. -/
def frameProb {σ : Type} (D : Dens K) (m : Gmm K) (frame : List K) (c : Nat) : Prog σ K :=
  if m.bimodal then obsProbBimodal D m (frame.take m.di) (frame.drop m.di) c else obsProb D m frame c

/-- The probability used in the E step, xmmGmmSingleClass.cpp:412-423: zero is replaced by 1e-100.  (The densities
    are finite by C29, so the tests for NaN and infinity of lines 420-421 are left out.) -/
def emProb {σ : Type} (D : Dens K) (m : Gmm K) (frame : List K) (c : Nat) : Prog σ K := do
  let p ← frameProb D m frame c
  pure (if p = 0 then 1 / 10 ^ 100 else p)

/-- The E step for one frame, xmmGmmSingleClass.cpp:410-430: the normalised probabilities of the components and the
    normalisation constant. -/
def posterior {σ : Type} (D : Dens K) (m : Gmm K) (frame : List K) : Prog σ (List K × K) := do
  let ps ← (List.range m.gaussians).mapM (emProb D m frame)
  let z := ps.sum
  pure (ps.map (fun p => p / z), z)

/-- A sum over all frames weighted by the probabilities of component `c`: the loops of lines 443-453, 464-477 and
    488-500 of xmmGmmSingleClass.cpp. -/
def weighted {σ : Type} (post : List (List K)) (frames : List (List K)) (c : Nat) (f : List K → Prog σ K) : Prog σ K :=
  (post.zip frames).foldlM (fun acc qx => do
    let p ← rd qx.1 c
    let v ← f qx.2
    pure (acc + p * v)) 0

/-- The new mean of component `c`, xmmGmmSingleClass.cpp:442-455. -/
def newMean {σ : Type} (post frames : List (List K)) (dim c : Nat) (e : K) : Prog σ (List K) :=
  (List.range dim).mapM (fun d => do
    let s ← weighted post frames c (fun x => rd x d)
    pure (s / e))

/-- One cell of the new covariance, xmmGmmSingleClass.cpp:464-478 (Full) and 488-501 (Diagonal, `i = j`). -/
def newCov {σ : Type} (post frames : List (List K)) (mean : List K) (c : Nat) (e : K) (i j : Nat) : Prog σ K := do
  let s ← weighted post frames c (fun x => do
    let xi ← rd x i
    let mi ← rd mean i
    let xj ← rd x j
    let mj ← rd mean j
    pure ((xi - mi) * (xj - mj)))
  pure (s / e)

/-- The new covariance of component `c` in Full mode, xmmGmmSingleClass.cpp:462-483: the upper triangle is computed and copied
    to the lower one. -/
def newCovFull {σ : Type} (post frames : List (List K)) (mean : List K) (dim c : Nat) (e : K) (cov : List K) :
    Prog σ (List K) :=
  loop dim cov (fun cov i => loop (dim - i) cov (fun cov k => do
    let v ← newCov post frames mean c e i (i + k)
    let _ ← rd cov (i * dim + (i + k))
    let cov := cov.set (i * dim + (i + k)) v
    if i ≠ i + k then do
      let _ ← rd cov ((i + k) * dim + i)
      pure (cov.set ((i + k) * dim + i) v)
    else pure cov))

/-- The new covariance of component `c` in Diagonal mode, xmmGmmSingleClass.cpp:487-502. -/
def newCovDiagonal {σ : Type} (post frames : List (List K)) (mean : List K) (dim c : Nat) (e : K) (cov : List K) :
    Prog σ (List K) :=
  loop dim cov (fun cov i => do
    let v ← newCov post frames mean c e i i
    let _ ← rd cov i
    pure (cov.set i v))

/-- The new covariance of component `c`, xmmGmmSingleClass.cpp:458-504. -/
def newCovMode {σ : Type} (mode : CovMode) (post frames : List (List K)) (mean : List K) (dim c : Nat) (e : K) (cov : List K) :
    Prog σ (List K) :=
  match mode with
  | .full => newCovFull post frames mean dim c e cov
  | .diagonal => newCovDiagonal post frames mean dim c e cov

/-- `E[c]`, the total probability of component `c`, xmmGmmSingleClass.cpp:428. -/
def totalOf (post : List (List K)) (c : Nat) : K := (post.map fun q => q.getD c 0).sum

/-- The M step for the mean of component `c`, xmmGmmSingleClass.cpp:441-456. -/
def updateMean (post frames : List (List K)) (c : Nat) : Prog (Gmm K) Unit := do
  let m ← Prog.get
  let g ← rd m.comps c
  let mean ← newMean post frames m.dim c (totalOf post c)
  let mean ← copyInto mean g.mean
  Prog.set { m with comps := m.comps.set c { g with mean := mean } }

/-- The M step for the covariance of component `c`, xmmGmmSingleClass.cpp:458-504. -/
def updateCov (post frames : List (List K)) (c : Nat) : Prog (Gmm K) Unit := do
  let m ← Prog.get
  let g ← rd m.comps c
  let cov ← newCovMode m.mode post frames g.mean m.dim c (totalOf post c) g.cov
  Prog.set { m with comps := m.comps.set c { g with cov := cov } }

/-- The M step for the coefficient of component `c`, xmmGmmSingleClass.cpp:435-438. -/
def updateCoeff (post : List (List K)) (c : Nat) : Prog (Gmm K) Unit := do
  let m ← Prog.get
  let _ ← rd m.coeffs c
  Prog.set { m with coeffs := m.coeffs.set c (totalOf post c / (post.length : K)) }

/-- The M step, xmmGmmSingleClass.cpp:435-504. -/
def mStep (post frames : List (List K)) : Prog (Gmm K) Unit := do
  let m ← Prog.get
  loop m.gaussians () (fun _ c => updateCoeff post c)
  loop m.gaussians () (fun _ c => updateMean post frames c)
  loop m.gaussians () (fun _ c => updateCov post frames c)

/-- `emAlgorithmUpdate(trainingSet)`, xmmGmmSingleClass.cpp:390-510: the log-likelihood of the data before the update. -/
def emUpdate (D : Dens K) (log : K → K) (data : KData K) : Prog (Gmm K) K := do
  let m ← Prog.get
  let r ← data.frames.mapM (posterior D m)
  mStep (r.map Prod.fst) data.frames
  addCovarianceOffset
  updateInverseCovariances
  pure (r.map fun q => log q.2).sum

end Gmm
end Xmm
