import Verif.Model.Attribute
/-
Specification vocabulary for attributes, written on histories of public calls, without reference to the
attribute's state.
-/
namespace Xmm.AttrSpec
open Xmm.Attr (Op)
variable {α : Type}

/-- Lower limit in force after a history: the last one set, or the initial one. -/
def limitMinAfter (lo : α) (h : List (Op α)) : α :=
  h.foldl (fun l op => match op with | .limitMin x => x | _ => l) lo

/-- Upper limit in force after a history. -/
def limitMaxAfter (hi : α) (h : List (Op α)) : α :=
  h.foldl (fun l op => match op with | .limitMax x => x | _ => l) hi

/-- Listener registered after a history: the argument of the last registration. -/
def listenerAfter (o : Option Nat) (h : List (Op α)) : Option Nat :=
  h.foldl (fun l op => match op with | .listen x => x | _ => l) o

/-- The set call made after history `h` with value `v` is in range. -/
def Accepted [LE α] (lo hi : α) (h : List (Op α)) (v : α) : Prop :=
  limitMinAfter lo h ≤ v ∧ v ≤ limitMaxAfter hi h

/-- The history contains no change of limits. -/
def LimitsFixed (h : List (Op α)) : Prop :=
  ∀ op ∈ h, match op with | .limitMin _ => False | .limitMax _ => False | _ => True

end Xmm.AttrSpec
