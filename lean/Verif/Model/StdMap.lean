import Mathlib.Order.Defs.LinearOrder
import Mathlib.Order.Basic
import Mathlib.Data.Nat.Basic
import Mathlib.Tactic.Tauto
/-
`std::map<K,V>` as used throughout /repo/src (e.g. `callbacks_` xmmEvents.hpp:109, `class_parameters_`
xmmModelConfiguration.hpp:150, `models` xmmModel.hpp:560, `phrases_` xmmTrainingSet.hpp:350): a list of entries
visited by iteration in increasing key order.
-/
namespace Xmm

/-- entries in iteration order -/
abbrev SMap (κ : Type u) (ν : Type v) := List (κ × ν)

namespace SMap
variable {κ : Type u} {ν : Type v} [LinearOrder κ]

/-- `find(k)` (also `count(k) > 0`). -/
def find? (k : κ) : SMap κ ν → Option ν
  | [] => none
  | (k', v) :: m => if k = k' then some v else find? k m

/-- `operator[](k) = v`: overwrite, or insert at the place given by the key order. -/
def assign (k : κ) (v : ν) : SMap κ ν → SMap κ ν
  | [] => [(k, v)]
  | (k', v') :: m =>
    if k < k' then (k, v) :: (k', v') :: m
    else if k = k' then (k, v) :: m
    else (k', v') :: assign k v m

/-- `insert({k, v})`: does nothing if the key is present. -/
def insertNew (k : κ) (v : ν) (m : SMap κ ν) : SMap κ ν :=
  match find? k m with
  | some _ => m
  | none => assign k v m

/-- `erase(k)`. -/
def erase (k : κ) : SMap κ ν → SMap κ ν
  | [] => []
  | (k', v') :: m => if k = k' then m else (k', v') :: erase k m

/-- keys in iteration order -/
def keys (m : SMap κ ν) : List κ := m.map Prod.fst

/-- the representation invariant of `std::map` -/
def Sorted (m : SMap κ ν) : Prop := m.Pairwise (fun a b => a.1 < b.1)

end SMap
end Xmm
