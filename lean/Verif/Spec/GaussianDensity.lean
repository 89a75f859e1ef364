import Verif.Spec.Gaussian
import Verif.Model.Float
import Mathlib.Analysis.SpecialFunctions.Pow.Real
/- The multivariate normal density. -/
namespace Xmm

/-- density at offset `v` from the mean of the normal distribution with covariance `S` -/
noncomputable def normalPdf {n : Nat} (S : Matrix (Fin n) (Fin n) ℝ) (v : Fin n → ℝ) : ℝ :=
  Real.exp (-(1 / 2) * (v ⬝ᵥ S⁻¹.mulVec v)) / Real.sqrt ((2 * Real.pi) ^ n * S.det)

/-- the code never reports less than this -/
noncomputable def likelihoodFloor : ℝ := 1 / 10 ^ 180

/-- the difference between an observation and the mean -/
def Gauss.offset (g : Gauss ℝ) (obs : List ℝ) : Fin g.dim → ℝ := fun i => obs.getD i.val 0 - g.mean.getD i.val 0

/-- the difference between an observation of the input and the mean of the input -/
def Gauss.offsetIn (g : Gauss ℝ) (obs : List ℝ) : Fin g.di → ℝ := fun i => obs.getD i.val 0 - g.mean.getD i.val 0

end Xmm
