import Verif.Model.KMeansTrain
import Verif.Spec.GmmTrain
import Verif.Spec.KMeans
/- What clustering a recording session must do. -/
namespace Xmm
open TS

/-- The program of the user: a new training set, the calls `ops` on it (exceptions are caught), then `train` of the k-means model.  A call that is not defined makes the
    program undefined. -/
def recordAndCluster {K : Type} [Field K] [LinearOrder K] (sqrt : K → K) (rnd : Nat → Nat → K) (f : Format) (i : Nat) (ops : List (RecOp K String)) (w0 : World K String) :
    Prog (KMeans K) Unit := fun m =>
  match openSet i f.bimodal f.dim f.di w0 with
  | .ret _ w1 =>
    match recRun i ops w1 with
    | some (w, _) =>
      match w.sets i with
      | some t => KMeans.trainSet sqrt rnd w t m
      | none => .ub
    | none => .ub
  | _ => .ub

/-- the initial centers: in the Biased mode the means of equal segments of the take with the lowest number, in the Random mode random points within the standard deviation
    of all frames -/
noncomputable def Takes.start (f : Format) (τ : Takes ℝ String) (biased : Bool) (clusters : Nat) (rnd : Nat → Nat → ℝ) (k d : Nat) : ℝ :=
  if biased then KMeans.segmentMean (τ.frames.headD []) ((τ.frames.headD []).length / clusters) k d
  else Real.sqrt (GmmSpec.covariance τ.frames.flatten d d) * (2 * rnd k d - 1)

/-- observations, one after the other; exceptions are caught by the caller -/
def KMeans.follow {K : Type} [Field K] [LinearOrder K] (sqrt : K → K) (fmax : K) : List (List K) → KMeans K → Option (KMeans K)
  | [], m => some m
  | x :: xs, m =>
    match filter sqrt fmax x m with
    | .ret _ m' => follow sqrt fmax xs m'
    | .throw _ m' => follow sqrt fmax xs m'
    | .ub => none

end Xmm
