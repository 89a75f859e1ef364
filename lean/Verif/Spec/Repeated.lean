import Verif.Model.KMeans
import Verif.Spec.BaumWelch
import Mathlib.Data.List.Perm.Basic
import Mathlib.Data.List.Flatten
/- Every phrase recorded several times. -/
namespace Xmm
variable {K : Type}

/-- Every phrase of `data` is `k` times in `data'`, in any order; the first phrase is the same. -/
structure KData.Repeated (k : Nat) (data data' : KData K) : Prop where
  times : 1 ≤ k
  dim : data'.dim = data.dim
  perm : data'.phrases.Perm (List.replicate k data.phrases).flatten
  first : data'.phrases.head? = data.phrases.head?

/-- the same coefficients, means and covariances -/
structure Gmm.SameValues [Field K] (a b : Gmm K) : Prop where
  coeff : ∀ c < a.gaussians, b.coeffs.getD c 0 = a.coeffs.getD c 0
  mean : ∀ (c : Nat) (g g' : Gauss K), a.comps[c]? = some g → b.comps[c]? = some g' → ∀ i < a.dim, g'.mean.getD i 0 = g.mean.getD i 0
  cov : ∀ (c : Nat) (g g' : Gauss K), a.comps[c]? = some g → b.comps[c]? = some g' → ∀ i < a.dim, ∀ j < a.dim, g'.covAt i j = g.covAt i j

end Xmm
