import Verif.Spec.JsonFile
import Verif.Spec.SharedParams
/- What the JSON file of shared parameters says, for C86. -/
namespace Xmm
variable {K : Type} [Field K] [LinearOrder K] [JsonReal K] (nar : K → K)

/-- The values are those of the file, where a missing member has its default value, and within the limits of the attributes. -/
structure SharedValues.Described (root : Json K) (realMax : K) (v : SharedValues K) : Prop where
  mode : HoldsMode root v.bimodal
  dim : HoldsSize root "dimension" (if v.bimodal then 2 else 1) v.dimension
  di : HoldsSize root "dimension_input" (if v.bimodal then 1 else 0) v.dimensionInput
  emMin : HoldsSize root "em_algorithm_min_iterations" 10 v.emMin
  emMax : HoldsSize root "em_algorithm_max_iterations" 0 v.emMax
  percentChg : ∃ j, root.getOr "em_algorithm_percent_chg" (.real (1 / 100)) = .ok j ∧ j.asFloat nar = .ok v.percentChg
  window : HoldsSize root "likelihood_window" 1 v.window
  dim_min : (if v.bimodal then 2 else 1) ≤ v.dimension
  di_min : (if v.bimodal then 1 else 0) ≤ v.dimensionInput
  di_max : v.dimensionInput < v.dimension
  emMin_pos : 1 ≤ v.emMin
  percentChg_lim : 0 ≤ v.percentChg ∧ v.percentChg ≤ realMax
  window_pos : 1 ≤ v.window
  count : v.columnNames.length = v.dimension
  names : ∀ i s, v.columnNames[i]? = some s →
    ∃ node j, root.getKey "column_names" = .ok node ∧ node.getIndexOr i (.str "") = .ok j ∧ j.asString = .ok s

end Xmm
