import Verif.Model.Gmm
import Verif.Model.Training
/-
Model of the initialisation of a Gaussian mixture before expectation-maximisation, src/models/gmm/xmmGmmSingleClass.cpp:88-94 and 301-388, and of
the sequence of steps that `train` runs on it (xmmModelSingleClass.cpp:114-187).

Simplification: the sums of `initCovariances_fullyObserved` are computed cell by cell instead of frame by frame (the cells do not
depend on each other and each cell receives the same terms in the same order).  `float` is exact.
-/
namespace Xmm
open Phrase (loop)
open Gauss (rd)

namespace Gmm
variable {K : Type} [Field K] [LinearOrder K]

/-- `KMeans kmeans(parameters.gaussians.get())` with `initialization_mode = Biased`, xmmGmmSingleClass.cpp:305-306, xmmKMeans.cpp:43-47; the
    other parameters by default, xmmKMeansParameters.cpp:35-39. -/
def initialKMeans (clusters : Nat) : KMeans K where
  clusters := clusters
  maxIter := 50
  threshold := 1 / 10 ^ 20
  biased := true
  dim := 1
  centers := []
  distances := []
  likeliest := 0

/-- `kmeans.train(trainingSet)`, xmmGmmSingleClass.cpp:307: the centers.  (`random()` is not called in the Biased mode.) -/
def kmeansCenters {σ : Type} (sqrt : K → K) (sd : List K) (data : KData K) (clusters : Nat) : Prog σ (List K) := fun s =>
  match KMeans.train sqrt (fun _ _ => 0) sd data (initialKMeans clusters) with
  | .ret _ k => .ret k.centers s
  | .throw e _ => .throw e s
  | .ub => .ub

/-- The mean of component `c`, the inner loop of xmmGmmSingleClass.cpp:309-311. -/
def meanFromCenters (centers : List K) (c : Nat) : Prog (Gmm K) Unit := do
  let m ← Prog.get
  let g ← rd m.comps c
  let mean ← loop m.dim g.mean (fun mean d => do
    let x ← rd centers (c * m.dim + d)
    let _ ← rd mean d
    pure (mean.set d x))
  Prog.set { m with comps := m.comps.set c { g with mean := mean } }

/-- `initMeansWithKMeans(trainingSet)`, xmmGmmSingleClass.cpp:301-313. -/
def initMeansWithKMeans (sqrt : K → K) (sd : List K) (data : KData K) : Prog (Gmm K) Unit := do
  if data.phrases.isEmpty then pure ()
  else do
    let m ← Prog.get
    let centers ← kmeansCenters sqrt sd data m.gaussians
    loop m.gaussians () (fun _ c => meanFromCenters centers c)

/-- A sum over the frames of segment `n` of every phrase, each phrase being cut in `parts` segments of equal length: the loops of
    xmmGmmSingleClass.cpp:333-363, in which `offset` is `n * step`. -/
def segmentSum {σ : Type} (data : KData K) (parts n : Nat) (f : List K → Prog σ K) : Prog σ K :=
  data.phrases.foldlM (fun acc phrase => loop (phrase.length / parts) acc (fun acc t => do
    let x ← rd phrase (n * (phrase.length / parts) + t)
    let v ← f x
    pure (acc + v))) 0

/-- `factor[n]`, xmmGmmSingleClass.cpp:362: the number of frames of a segment, the same for every `n`. -/
def segmentFrames (data : KData K) (parts : Nat) : Nat := (data.phrases.map fun phrase => phrase.length / parts).sum

/-- One cell of the covariance of component `n`, xmmGmmSingleClass.cpp:341-387: the mean of the products minus the product of the means. -/
def initCov {σ : Type} (data : KData K) (parts n d1 d2 : Nat) : Prog σ K := do
  let s ← segmentSum data parts n (fun x => do
    let a ← rd x d1
    let b ← rd x d2
    pure (a * b))
  let m1 ← segmentSum data parts n (fun x => rd x d1)
  let m2 ← segmentSum data parts n (fun x => rd x d2)
  pure (s / (segmentFrames data parts : K) - m1 / (segmentFrames data parts : K) * (m2 / (segmentFrames data parts : K)))

/-- The covariance of component `n`, xmmGmmSingleClass.cpp:322-388, in the Full mode or in the Diagonal mode. -/
def initCovMode {σ : Type} (mode : CovMode) (data : KData K) (parts n dim : Nat) : Prog σ (List K) :=
  match mode with
  | .full => (List.range (dim * dim)).mapM (fun k => initCov data parts n (k / dim) (k % dim))
  | .diagonal => (List.range dim).mapM (fun d => initCov data parts n d d)

/-- Assignment of the covariance of component `n`, xmmGmmSingleClass.cpp:322-388. -/
def initCovComp (data : KData K) (n : Nat) : Prog (Gmm K) Unit := do
  let m ← Prog.get
  let g ← rd m.comps n
  let cov ← initCovMode m.mode data m.gaussians n m.dim
  Prog.set { m with comps := m.comps.set n { g with cov := cov } }

/-- `initCovariances_fullyObserved(trainingSet)`, xmmGmmSingleClass.cpp:315-388.  The result tells whether the covariances are numbers: if
    every phrase has fewer frames than there are components, `factor[n]` is 0 and every cell is 0/0, a NaN. -/
def initCovariances (data : KData K) : Prog (Gmm K) Bool := do
  if data.phrases.isEmpty then pure true
  else do
    let m ← Prog.get
    loop m.gaussians () (fun _ n => initCovComp data n)
    pure (decide (segmentFrames data m.gaussians ≠ 0))

/-- `emAlgorithmInit(trainingSet)`, xmmGmmSingleClass.cpp:88-94; `sd` is `trainingSet->standardDeviation()`.  The result is false if the covariances are
    NaN: then `addCovarianceOffset` leaves them so, and `updateInverseCovariances` returns (its tests compare with a NaN, xmmMatrix.hpp:291-292 and
    xmmGaussianDistribution.cpp:429) and makes the inverses and the determinants NaN; these numbers are not in the model. -/
def emInit (sqrt : K → K) (sd : List K) (data : KData K) : Prog (Gmm K) Bool := do
  initParametersToDefault sd
  initMeansWithKMeans sqrt sd data
  let ok ← initCovariances data
  if ok then do
    addCovarianceOffset
    updateInverseCovariances
    pure true
  else pure false

/-- The likelihood functions of components whose covariance is NaN: every answer is the floor 1e-180, because `p` is a NaN
    (xmmGaussianDistribution.cpp:201, 239, 293; see C29). -/
def _root_.Xmm.Dens.floor : Dens K where
  joint _ := pure (1 / 10 ^ 180)
  input _ := pure (1 / 10 ^ 180)
  bimodal _ _ := pure (1 / 10 ^ 180)

/-- The step number `k` of the training (from 0), after an initialisation with the result `ok`: the first step replaces the covariances, so
    that only this one may meet those that are NaN. -/
def trainStep (D : Dens K) (log : K → K) (data : KData K) (ok : Bool) (k : Nat) : Prog (Gmm K) K :=
  if ok || 0 < k then emUpdate D log data else emUpdate Dens.floor log data

/-- `n` steps of training: the log-likelihoods. -/
def trainSteps (D : Dens K) (log : K → K) (data : KData K) (ok : Bool) : Nat → Prog (Gmm K) (List K)
  | 0 => pure []
  | n + 1 => do
    let ls ← trainSteps D log data ok n
    let l ← trainStep D log data ok n
    pure (ls ++ [l])

/-- What `train(trainingSet)` does to the mixture when it runs `n` iterations, xmmModelSingleClass.cpp:114-187. -/
def trainRun (D : Dens K) (log sqrt : K → K) (sd : List K) (data : KData K) (n : Nat) : Prog (Gmm K) (List K) := do
  allocate
  let ok ← emInit sqrt sd data
  trainSteps D log data ok n

end Gmm
end Xmm
