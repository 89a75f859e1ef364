import Verif.Model.Events
/-
Who should be called, as a function of the history of registrations only.
-/
namespace Xmm.EventSpec
variable {μ : Type}

/-- The method registered for `owner`: the first one added since the owner's last removal. -/
def registered (owner : Nat) : List (EventGen.Op μ) → Option μ :=
  List.foldl (fun cur op => match op with
    | .add o m => if o = owner then (match cur with | none => some m | some m' => some m') else cur
    | .remove o _ => if o = owner then none else cur
    | .removeAll => none) none

end Xmm.EventSpec
