import Verif.Spec.JsonFile
import Verif.Spec.Gaussian
import Verif.Model.ModelJson
/- What the JSON file of a class says about its components, for C86. -/
namespace Xmm
variable {K : Type}

/-- the dimensions, the covariance mode, the mean and the covariance of the distribution are those of the file -/
structure Gauss.Described [Field K] [LinearOrder K] [JsonReal K] (root : Json K) (g : Gauss K) : Prop where
  bimodal : HoldsMode root g.bimodal
  dimension : HoldsSize root "dimension" (if g.bimodal then 2 else 1) g.dim
  dimensionInput : HoldsSize root "dimension_input" (if g.bimodal then 1 else 0) g.di
  mode : ∃ j c, root.getKey "covariance_mode" = .ok j ∧ j.asInt = .ok c ∧ (c = 0 ∧ g.mode = .full ∨ c = 1 ∧ g.mode = .diagonal)
  values : g.dim ≠ 0 → HoldsArray root "mean" g.mean ∧ HoldsArray root "covariance" g.cov

/-- the vectors of the distribution have the sizes that its dimensions require, and what it caches fits its covariance: the stored inverse is the inverse of
    the covariance matrix, and, if it is bimodal, the inverse stored for the input is the inverse of the input block -/
structure Gauss.Coherent [Field K] (g : Gauss K) : Prop where
  sizes : g.WF
  left : g.precision * g.sigma = 1
  right : g.sigma * g.precision = 1
  input : g.bimodal = true → ∀ hle : g.di ≤ g.dim, g.precisionIn * g.sigmaIn hle = 1 ∧ g.sigmaIn hle * g.precisionIn = 1

/-- the file has one component for every Gaussian of the class, and every component of the class is the one of the file, its cached values computed -/
def Gmm.HasComponents [Field K] [LinearOrder K] [JsonReal K] (root : Json K) (m : Gmm K) : Prop :=
  ∃ js, root.getKey "components" = .ok js ∧ js.elements.length = m.gaussians ∧
    ∀ (i : Nat) (j : Json K), js.elements[i]? = some j → ∃ g, m.comps[i]? = some g ∧ g.Described j ∧ g.Coherent

end Xmm
