import Verif.Spec.HmmInit
/- A mixture of one component: the normal distribution of the training data. -/
namespace Xmm
open GmmSpec

/-- `m'` is the normal distribution fitted to the frames, with the parameters of `m`: one component of weight 1, whose mean is the average of the frames, and
    whose covariance is that of the frames (in Diagonal mode only the variances), plus `reg` on the diagonal -/
structure Gmm.Normal (m : Gmm ℝ) (reg : Nat → ℝ) (frames : List (List ℝ)) (m' : Gmm ℝ) : Prop where
  coeffs : m'.coeffs = [1]
  comps : ∃ g : Gauss ℝ, m'.comps = [g] ∧ (∀ k < m.dim, g.mean.getD k 0 = average frames fun x => x.getD k 0) ∧
    ∀ i < m.dim, ∀ j < m.dim, g.covAt i j = (if m.mode = .diagonal ∧ i ≠ j then 0 else covariance frames i j) + (if i = j then reg i else 0)

end Xmm
