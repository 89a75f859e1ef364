import Verif.Spec.JsonFile
import Verif.Model.TrainingSetJson
import Verif.Spec.TrainingSet
/- What the JSON file of a training set says, for C86. -/
namespace Xmm
variable {K : Type}

/-- the member `key` of the file reads as the text `s` -/
def HoldsText [JsonReal K] (root : Json K) (key : String) (s : String) : Prop :=
  ∃ j, root.getKey key = .ok j ∧ j.asString = .ok s

/-- the names of the file, in order, completed by empty names -/
def HoldsNames [JsonReal K] (root : Json K) (names : List String) : Prop :=
  ∃ node, root.getKey "column_names" = .ok node ∧ node.size ≤ names.length ∧
    (∀ i, i < node.size → ∃ j s, node.getIndexOr i (.str "") = .ok j ∧ j.asString = .ok s ∧ names[i]? = some s) ∧
    ∀ i, node.size ≤ i → i < names.length → names[i]? = some ""

/-- the index under which an element of `phrases` is to be stored -/
def indexOf [JsonReal K] (p : Json K) : Option Int :=
  match p.getKey "index" with
  | .ok j => match j.asInt with
    | .ok k => some k
    | .error _ => none
  | .error _ => none

/-- the element of the file that decides what is stored under the index `k`: the first one with this index -/
def elementAt [JsonReal K] (ps : List (Json K)) (k : Int) : Option (Json K) := ps.find? fun p => decide (indexOf p = some k)

namespace TS

/-- The attributes of a training set are those of the file and within their limits. -/
structure HasAttributes [Zero K] [DecidableEq K] [JsonReal K] (root : Json K) (t : TSet String) : Prop where
  own : t.own = true
  mode : HoldsMode root t.bimodal
  dim : HoldsSize root "dimension" (if t.bimodal then 2 else 1) t.dims.dim
  di : HoldsSize root "dimension_input" (if t.bimodal then 1 else 0) t.dims.di
  dim_min : (if t.bimodal then 2 else 1) ≤ t.dims.dim
  di_min : (if t.bimodal then 1 else 0) ≤ t.dims.di
  di_max : t.dims.di < t.dims.dim
  names : HoldsNames root t.cols
  count : t.cols.length = t.dims.dim

/-- The phrases of a training set are those of the file: there is a phrase exactly under the indices of the file, and it is `like` the (first) element
    of the file with this index. -/
def HasPhrases [JsonReal K] (root : Json K) (t : TSet String) (like : Json K → Nat → Prop) : Prop :=
  ∃ node, root.getKey "phrases" = .ok node ∧ (∀ p ∈ elements node, indexOf p ≠ none) ∧
    ∀ k, match elementAt (elements node) k with
      | none => ¬ ∃ r, t.Holds k r
      | some p => ∃ r, t.Holds k r ∧ like p r

end TS
end Xmm
