import Verif.Spec.Gmm
import Verif.Spec.GaussianDensity
import Mathlib.LinearAlgebra.Matrix.PosDef
/- What an iteration of expectation-maximisation may lose: the effect of the regularisation, and of the floor of the likelihoods. -/
namespace Xmm

/-- the covariance is positive definite, and the stored inverse and determinant are its inverse and its determinant -/
structure Gauss.UpToDate (g : Gauss ℝ) : Prop where
  wf : g.WF
  pos : g.sigma.PosDef
  inv : g.precision * g.sigma = 1
  det : g.det = g.sigma.det

/-- the covariance is at least the diagonal matrix of `reg` -/
def Gauss.AtLeast (reg : List ℝ) (g : Gauss ℝ) : Prop :=
  ∀ v : Nat → ℝ, ∑ i ∈ Finset.range g.dim, reg.getD i 0 * v i ^ 2 ≤ ∑ i ∈ Finset.range g.dim, ∑ j ∈ Finset.range g.dim, v i * g.covAt i j * v j

/-- the part of the regularisation in the covariance: the trace of `sigma⁻¹ * diag(reg)`.  It is between 0 and the dimension; near 0 when the regularisation is
    small with respect to the variances. -/
noncomputable def Gauss.regPart (reg : List ℝ) (g : Gauss ℝ) : ℝ := ∑ i : Fin g.dim, reg.getD i.val 0 * g.sigma⁻¹ i i

namespace Gmm

/-- a mixture during its training: the coefficients are a probability distribution without zeros, the inverses are up to date, the covariances are regularised -/
structure InTraining (m : Gmm ℝ) (data : KData ℝ) : Prop where
  wf : m.WF
  trains : m.Trains data
  coeffs : IsDistribution m.coeffs
  pos : ∀ w ∈ m.coeffs, 0 < w
  reg : ∀ i < m.dim, 1 / 10 ^ 9 ≤ m.reg.getD i 0
  comp : ∀ g ∈ m.comps, g.UpToDate ∧ g.AtLeast m.reg

/-- the normal density of component `c` at the frame `x` -/
noncomputable def pdf (m : Gmm ℝ) (x : List ℝ) (c : Nat) : ℝ :=
  match m.comps[c]? with
  | some g => normalPdf g.sigma (g.offset x)
  | none => 0

/-- the density never less than 1e-180, as `likelihood` reports it -/
noncomputable def floored (m : Gmm ℝ) (x : List ℝ) (c : Nat) : ℝ := max likelihoodFloor (m.pdf x c)

/-- the log-likelihood of the frames -/
noncomputable def logLikelihood (m : Gmm ℝ) (frames : List (List ℝ)) : ℝ :=
  (frames.map fun x => Real.log (∑ c ∈ Finset.range m.gaussians, m.coeffs.getD c 0 * m.floored x c)).sum

/-- the part of the regularisation in the covariance of component `c` -/
noncomputable def regPart (m : Gmm ℝ) (c : Nat) : ℝ :=
  match m.comps[c]? with
  | some g => g.regPart m.reg
  | none => 0

/-- what the floor adds to the densities: for each frame, the average over the components, weighted by their responsibilities.  It is zero if no density is
    below 1e-180. -/
noncomputable def floorPart (m : Gmm ℝ) (frames : List (List ℝ)) : ℝ :=
  (frames.map fun x => ∑ c ∈ Finset.range m.gaussians, m.coeffs.getD c 0 * m.floored x c / (∑ j ∈ Finset.range m.gaussians, m.coeffs.getD j 0 * m.floored x j) *
    (Real.log (m.floored x c) - Real.log (m.pdf x c))).sum

end Gmm
end Xmm
