import Verif.Spec.Axes
import Verif.Spec.GmmTrain
/- Recording sessions, observations and answers in other axes. -/
namespace Xmm
open TS

namespace NewAxes
variable {d : Nat} (A : NewAxes d)

/-- the takes `τ'` are the takes `τ` in the new axes: the same labels, and the takes with each label hold the same frames in the same order, in the new axes -/
structure CarriesTakes (τ τ' : Takes ℝ String) : Prop where
  labels : ∀ l, (∃ e ∈ τ', e.2.1 = l) ↔ ∃ e ∈ τ, e.2.1 = l
  frames : ∀ l, (τ'.ofClass l).frames = (τ.ofClass l).frames.map fun p => p.map A.frame

/-- what the user gives to `filter`, in the new axes: a whole frame, or the columns of the input modality -/
def observation (f : Format) (x : List ℝ) : List ℝ := if f.bimodal then A.input f.di x else A.frame x

/-- the prediction `r'` (values and covariance of the output) is the prediction `r` in the new axes.  Column `k` of the frames is element `k - di` of the output. -/
structure CarriesPrediction (di : Nat) (mode : CovMode) (r r' : List ℝ × List ℝ) : Prop where
  sizes : r.1.length = d - di ∧ r'.1.length = d - di ∧ r.2.length = outCells mode (d - di) ∧ r'.2.length = outCells mode (d - di)
  vals : ∀ k : Fin d, di ≤ k.val → r'.1.getD (k.val - di) 0 = A.sign k * r.1.getD ((A.axis k).val - di) 0 + A.shift k
  full : mode = .full → ∀ i j : Fin d, di ≤ i.val → di ≤ j.val → r'.2.getD ((i.val - di) * (d - di) + (j.val - di)) 0 =
    A.sign i * A.sign j * r.2.getD (((A.axis i).val - di) * (d - di) + ((A.axis j).val - di)) 0
  diagonal : mode = .diagonal → ∀ k : Fin d, di ≤ k.val → r'.2.getD (k.val - di) 0 = r.2.getD ((A.axis k).val - di) 0

end NewAxes

/-- the likelihoods of all classes and the likeliest class are the same -/
structure MultiRes.SameLikelihoods (r r' : MultiRes ℝ) : Prop where
  inst : r'.inst = r.inst
  instNorm : r'.instNorm = r.instNorm
  smoothed : r'.smoothed = r.smoothed
  smoothedNorm : r'.smoothedNorm = r.smoothedNorm
  smoothedLog : r'.smoothedLog = r.smoothedLog
  likeliest : r'.likeliest = r.likeliest

end Xmm
