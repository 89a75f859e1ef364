import Verif.Model.StdMap
/-
Model of src/core/common/xmmEvents.hpp.
-/
namespace Xmm

/-- `EventGenerator`, src/core/common/xmmEvents.hpp:46-110. `callbacks_` maps the owner's address to the bound
    method; `μ` is the type of methods.  A call is recorded as (owner, method, event). -/
abbrev EventGen (μ : Type) := SMap Nat μ

namespace EventGen
variable {μ ε : Type}

/-- `addListener`, lines 70-75. `std::map::insert` keeps an existing entry. -/
def addListener (owner : Nat) (m : μ) (g : EventGen μ) : EventGen μ := SMap.insertNew owner m g

/-- `removeListener`, lines 85-88. The method argument is ignored. -/
def removeListener (owner : Nat) (_m : μ) (g : EventGen μ) : EventGen μ := SMap.erase owner g

/-- `removeListeners`, line 93. -/
def removeListeners (_g : EventGen μ) : EventGen μ := []

/-- `notifyListeners`, lines 99-103: the list of calls made, in order. Simplification: a callback does not modify
    the generator it is called from (no callback of /repo/src does). -/
def notifyListeners (e : ε) (g : EventGen μ) : List (Nat × μ × ε) := g.map fun c => (c.1, c.2, e)

/-- Public operations. -/
inductive Op (μ : Type) where
  | add (owner : Nat) (m : μ)
  | remove (owner : Nat) (m : μ)
  | removeAll

/-- One public call. -/
def step (g : EventGen μ) : Op μ → EventGen μ
  | .add o m => addListener o m g
  | .remove o m => removeListener o m g
  | .removeAll => removeListeners g

end EventGen
end Xmm
