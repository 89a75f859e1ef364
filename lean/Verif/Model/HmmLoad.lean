import Verif.Model.ModelJson
/-
Model of `operator=` and `fromJson` of one class of a hidden Markov model, src/models/hmm/xmmHmmSingleClass.cpp.
-/
namespace Xmm
open Gauss (resize)
namespace Hmm
variable {K : Type} [Field K] [LinearOrder K] [JsonReal K] (nar : K → K) (tiny realMax : K)

/-- `operator=`, xmmHmmSingleClass.cpp:78-95 and xmmModelSingleClass.cpp:83-99: the buffer, the results, `forward_initialized_`, `alpha_h` and the window of
    states of the target are kept, its forward and backward variables are resized.  Simplification: the vector of states is replaced by copies; where an
    existing state is assigned instead (the vector has room), its own buffer and results are kept, which a class never reads. -/
def assignFrom (z : K) (src : Hmm K) : Prog (Hmm K) Unit := do
  let dst ← Prog.get
  if dst.training || src.training then Prog.throw .runtimeError
  else Prog.set { src with
      sts := src.sts.map (Gmm.copy z)
      alpha := resize src.n dst.alpha, prevAlpha := resize src.n dst.prevAlpha, beta := resize src.n dst.beta, prevBeta := resize src.n dst.prevBeta
      alpha0 := dst.alpha0, alpha1 := dst.alpha1, alpha2 := dst.alpha2, started := dst.started, training := false
      winMin := dst.winMin, winMax := dst.winMax, winNorm := dst.winNorm, buf := dst.buf, instant := dst.instant, logLik := dst.logLik
      progress := dst.progress, exitLik := dst.exitLik, exitRatio := dst.exitRatio, likeliest := dst.likeliest, outVals := dst.outVals, outCov := dst.outCov }

/-- `fromJson`, xmmHmmSingleClass.cpp:1339-1347: a temporary with the same `shared_parameters` is built and assigned.  The result is the new label. -/
def fromJson (z : K) (root : Json K) : Prog (Hmm K) String := do
  checkTraining
  let m ← Prog.get
  let t ← ofJson nar tiny realMax ⟨m.bimodal, m.dim, m.di, m.window⟩ z root
  assignFrom z t.2
  pure t.1

end Hmm
end Xmm
