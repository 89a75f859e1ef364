import Verif.Model.CircularBuffer
import Verif.Model.Gaussian
import Verif.Model.StdMap
import Mathlib.Data.String.Basic
/-
Model of the parts of recognition and regression that Gaussian mixtures and hidden Markov models have in common: the smoothing of
the likelihood of a class and the results of a model with several classes
(src/core/model/xmmModelResults.hpp, src/models/gmm/xmmGmm.cpp, src/models/hmm/xmmHierarchicalHmm.cpp).
-/
namespace Xmm
open Phrase (loop)
open Gauss (rd)
variable {K : Type} [Field K] [LinearOrder K]

/-- The smoothing of the log-likelihood: `SingleClassGMM::updateResults()`, xmmGmmSingleClass.cpp:633-641, where `l` is
    `log(results.instant_likelihood)`; the result is `results.log_likelihood`.  The same code is in
    `SingleClassHMM::updateResults()`, xmmHmmSingleClass.cpp:1286-1292. -/
def smooth (l : K) : Prog (CBuf K 1) K := do
  CBuf.pushScalar l
  let b ← Prog.get
  let s ← loop b.count 0 (fun acc i => do
    let v ← CBuf.at' 0 i
    pure (acc + v))
  pure (s / (b.count : K))

/-- `SingleClassProbabilisticModel::reset()` on the likelihood buffer, xmmModelSingleClass.cpp:227-228. -/
def resetBuffer (window : Nat) : Prog (CBuf K 1) Unit := do
  CBuf.resize 0 window
  CBuf.clear

/-- `for (d = 0; d < n; d++) dst[d] += b * src[d]`: the accumulation of outputs and covariances in
    `SingleClassGMM::regression`, xmmGmmSingleClass.cpp:590-603, and in `GMM::filter`, xmmGmm.cpp:142-160.  (There the loop for the values
    and the loop for the covariance are interleaved; they act on different vectors.  A full covariance is visited row by row.) -/
def addScaled {σ : Type} (n : Nat) (b : K) (src dst : List K) : Prog σ (List K) :=
  loop n dst (fun dst d => do
    let y ← rd dst d
    let x ← rd src d
    pure (dst.set d (y + b * x)))

/-- number of cells of an output covariance, xmmGmmSingleClass.cpp:580-585 -/
def outCells (mode : CovMode) (dout : Nat) : Nat :=
  match mode with
  | .full => dout * dout
  | .diagonal => dout

/-- `ClassResults`, xmmModelResults.hpp:47-72. -/
structure ClassRes (K : Type) where
  instant : K
  logLik : K
  outVals : List K
  outCov : List K
  deriving DecidableEq

/-- `Results`, xmmModelResults.hpp:82-121. -/
structure MultiRes (K : Type) where
  inst : List K
  instNorm : List K
  smoothed : List K
  smoothedNorm : List K
  smoothedLog : List K
  likeliest : String
  outVals : List K
  outCov : List K
  deriving DecidableEq

/-- `MultiClassRegressionEstimator`, xmmModelConfiguration.hpp:40-52. -/
inductive Estimator where
  | likeliest | mixture
  deriving DecidableEq, Repr

namespace MultiRes

/-- write of `v[i]` -/
def wr {σ : Type} (v : List K) (i : Nat) (x : K) : Prog σ (List K) :=
  if i < v.length then pure (v.set i x) else Prog.undef

/-- Copy of the results of class number `i`, xmmGmm.cpp:58-68 = xmmHierarchicalHmm.cpp:470-482. -/
def writeClass (exp : K → K) (i : Nat) (c : ClassRes K) : Prog (MultiRes K) Unit := do
  let r ← Prog.get
  let inst ← wr r.inst i c.instant
  let slog ← wr r.smoothedLog i c.logLik
  let l ← rd slog i
  let sm ← wr r.smoothed i (exp l)
  let p ← rd inst i
  let instNorm ← wr r.instNorm i p
  let q ← rd sm i
  let smNorm ← wr r.smoothedNorm i q
  Prog.set { r with inst := inst, smoothedLog := slog, smoothed := sm, instNorm := instNorm, smoothedNorm := smNorm }

/-- `if (i == 0 || smoothed_log_likelihoods[i] > max) ...`, xmmGmm.cpp:73-76 = xmmHierarchicalHmm.cpp:487-490. -/
def pickLikeliest (i : Nat) (label : String) (best l : K) : Prog (MultiRes K) K := fun r =>
  if i = 0 ∨ best < l then .ret l { r with likeliest := label } else .ret best r

/-- The division of the normalised likelihoods, xmmGmm.cpp:79-83 = xmmHierarchicalHmm.cpp:494-498. -/
def divideNorms (n : Nat) (zi zs : K) : Prog (MultiRes K) Unit :=
  loop n () (fun _ i => do
    let r ← Prog.get
    let a ← rd r.instNorm i
    let b ← rd r.smoothedNorm i
    Prog.set { r with instNorm := r.instNorm.set i (a / zi), smoothedNorm := r.smoothedNorm.set i (b / zs) })

/-- First loop of `updateResults()`: accumulates the number of the class, the greatest log-likelihood and the two sums,
    xmmGmm.cpp:57-77 = xmmHierarchicalHmm.cpp:469-492. -/
def copyClasses (exp : K → K) (cls : List (String × ClassRes K)) : Prog (MultiRes K) (Nat × K × K × K) :=
  cls.foldlM (fun (acc : Nat × K × K × K) lc => do
    writeClass exp acc.1 lc.2
    let r ← Prog.get
    let a ← rd r.instNorm acc.1
    let b ← rd r.smoothedNorm acc.1
    let l ← rd r.smoothedLog acc.1
    let best ← pickLikeliest acc.1 lc.1 acc.2.1 l
    pure (acc.1 + 1, best, acc.2.2.1 + a, acc.2.2.2 + b)) (0, 0, 0, 0)

/-- `GMM::updateResults()`, xmmGmm.cpp:52-84, the same code as `HierarchicalHMM::updateResults()`, xmmHierarchicalHmm.cpp:464-499. -/
def updateResults (exp : K → K) (cls : List (String × ClassRes K)) : Prog (MultiRes K) Unit := do
  let acc ← copyClasses exp cls
  divideNorms cls.length acc.2.2.1 acc.2.2.2

/-- The vectors of `GMM::reset()`, xmmGmm.cpp:87-102 = `HierarchicalHMM::reset()`, xmmHierarchicalHmm.cpp:363-379; `n` is `size()`. -/
def resetResults (n : Nat) (bimodal : Bool) (dout : Nat) (mode : CovMode) (r : MultiRes K) : MultiRes K :=
  { r with
    inst := Gauss.resize n r.inst
    instNorm := Gauss.resize n r.instNorm
    smoothed := Gauss.resize n r.smoothed
    smoothedNorm := Gauss.resize n r.smoothedNorm
    smoothedLog := Gauss.resize n r.smoothedLog
    outVals := if bimodal then Gauss.resize dout r.outVals else r.outVals
    outCov := if bimodal then List.replicate (outCells mode dout) 0 else r.outCov }

/-- One class in the loop of the mixture estimator, xmmGmm.cpp:141-161 = xmmHierarchicalHmm.cpp:436-458. -/
def addClass (dout : Nat) (mode : CovMode) (acc : Nat × List K × List K) (c : ClassRes K) : Prog (MultiRes K) (Nat × List K × List K) := do
  let r ← Prog.get
  let b ← rd r.smoothedNorm acc.1
  let vals ← addScaled dout b c.outVals acc.2.1
  let cov ← addScaled (outCells mode dout) b c.outCov acc.2.2
  pure (acc.1 + 1, vals, cov)

/-- The mixture estimator, xmmGmm.cpp:131-162 = xmmHierarchicalHmm.cpp:426-459. -/
def mixOutputs (dout : Nat) (mode : CovMode) (cls : List (String × ClassRes K)) : Prog (MultiRes K) Unit := do
  let acc ← cls.foldlM (fun acc lc => addClass dout mode acc lc.2)
    (0, List.replicate dout 0, List.replicate (outCells mode dout) 0)
  Prog.modify fun r => { r with outVals := acc.2.1, outCov := acc.2.2 }

end MultiRes
end Xmm
