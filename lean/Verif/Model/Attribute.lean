import Verif.Model.Cpp
/-
Model of src/core/common/xmmAttribute.hpp and .cpp (scalar and vector attributes).
-/
namespace Xmm

/-- `checkLimits<T>` for the numeric and enum types: src/core/common/xmmAttribute.cpp:40-103
    (also xmmHmmParameters.cpp:165-193).  `true` means "does not throw".
    The code tests `value < limit_min || value > limit_max`; the comparison is a parameter so that
    floating-point comparison with NaN can be instantiated. -/
def checkLimits {α : Type} (lt : α → α → Bool) (value limitMin limitMax : α) : Bool :=
  !(lt value limitMin || lt limitMax value)

/-- `Attribute<T>`: fields of src/core/common/xmmAttribute.hpp:243-261 and `changed` (line 117).
    `callback_` is modelled by the identity of the owner object bound in it (lines 132-140);
    `none` is the empty `std::function`. -/
structure Attr (α : Type) where
  value : α
  limitMin : α
  limitMax : α
  changed : Bool
  listener : Option Nat
  deriving DecidableEq, Repr

/-- One call of a listener: which owner is called, and the attribute value it can read at that time. -/
structure Notification (α : Type) where
  owner : Nat
  seen : α
  deriving DecidableEq, Repr

namespace Attr
variable {α : Type} (lt : α → α → Bool)

/-- `Attribute::set`, src/core/common/xmmAttribute.hpp:192-197.  The result lists the callback invocations.
    Simplification: what the owner's callback does is not part of this model (the composite models
    SharedParameters / Phrase / TrainingSet / GaussianDistribution model their callbacks). -/
def set (v : α) (silently : Bool := false) : Prog (Attr α) (List (Notification α)) := do
  let a ← Prog.get
  if !(checkLimits lt v a.limitMin a.limitMax) then
    Prog.throw .domainError
  else do
    Prog.set { a with value := v, changed := true }
    match a.listener with
    | some owner => if silently then pure [] else pure [⟨owner, v⟩]
    | none => pure []

/-- Constructor, src/core/common/xmmAttribute.hpp:148-153: `set(value, true); changed = false`.
    `none`: the constructor throws. -/
def construct (v lo hi : α) : Option (Attr α) :=
  match set lt v true ⟨v, lo, hi, false, none⟩ with
  | .ret _ a => some { a with changed := false }
  | _ => none

/-- `setLimitMin`, src/core/common/xmmAttribute.hpp:209-211 (the current value is not re-validated). -/
def setLimitMin (lo : α) : Prog (Attr α) Unit := Prog.modify fun a => { a with limitMin := lo }

/-- `setLimitMax`, src/core/common/xmmAttribute.hpp:217-219. -/
def setLimitMax (hi : α) : Prog (Attr α) Unit := Prog.modify fun a => { a with limitMax := hi }

/-- `onAttributeChange(owner, method)`, src/core/common/xmmAttribute.hpp:132-140: binds the owner, or
    clears the callback when the owner is null. -/
def onAttributeChange (owner : Option Nat) : Prog (Attr α) Unit :=
  Prog.modify fun a => { a with listener := owner }

/-- Copy constructor, src/core/common/xmmAttribute.hpp:160-165: value and limits only. -/
def copyConstruct (src : Attr α) : Attr α :=
  { value := src.value, limitMin := src.limitMin, limitMax := src.limitMax,
    changed := false, listener := none }

/-- The assignment operator *as documented* and as written in the member template
    src/core/common/xmmAttribute.hpp:173-182.  A member template is never a copy-assignment operator
    (C++11 12.8p17-18), so for a source of the same type `Attribute<T>` this function is not the one
    selected by overload resolution. -/
def documentedAssign (dst src : Attr α) : Attr α :=
  { dst with value := src.value, limitMin := src.limitMin, limitMax := src.limitMax, changed := false }

/-- The assignment that runs for `a = b` with both of type `Attribute<T>`: the implicitly declared
    copy-assignment operator, which is memberwise (all fields of lines 243-261 and 117, `callback_`
    included). -/
def assign (_dst src : Attr α) : Attr α := src

/-- Public operations of an attribute. -/
inductive Op (α : Type) where
  | set (v : α) (silently : Bool)
  | limitMin (lo : α)
  | limitMax (hi : α)
  | listen (owner : Option Nat)

/-- One public call; a caught exception leaves the state of the throw. -/
def step (a : Attr α) : Op α → Attr α × List (Notification α)
  | .set v s => match Attr.set lt v s a with
      | .ret ns a' => (a', ns)
      | .throw _ a' => (a', [])
      | .ub => (a, [])
  | .limitMin lo => match setLimitMin lo a with | .ret _ a' => (a', []) | _ => (a, [])
  | .limitMax hi => match setLimitMax hi a with | .ret _ a' => (a', []) | _ => (a, [])
  | .listen o => match onAttributeChange o a with | .ret _ a' => (a', []) | _ => (a, [])

/-- A history of public calls: final state, and the callback invocations of each call in order. -/
def run (a : Attr α) : List (Op α) → Attr α × List (List (Notification α))
  | [] => (a, [])
  | op :: ops =>
    let (a', ns) := step lt a op
    let (a'', nss) := run a' ops
    (a'', ns :: nss)

end Attr

/-- `Attribute<std::vector<T>>`: src/core/common/xmmAttribute.hpp:271-451. -/
structure VAttr (α : Type) where
  value : List α
  limitMin : α
  limitMax : α
  size : Nat
  changed : Bool
  listener : Option Nat
  deriving DecidableEq, Repr

namespace VAttr
variable {α : Type} (lt : α → α → Bool)

/-- `set`, src/core/common/xmmAttribute.hpp:342-352. The boolean result says whether the listener is called. -/
def set (v : List α) (silently : Bool := false) : Prog (VAttr α) Bool := do
  let a ← Prog.get
  if 0 < a.size ∧ v.length ≠ a.size then Prog.throw .domainError
  else if !(v.all fun x => checkLimits lt x a.limitMin a.limitMax) then Prog.throw .domainError
  else do
    Prog.set { a with value := v, changed := true }
    pure (!silently && a.listener.isSome)

/-- `at`, src/core/common/xmmAttribute.hpp:365-371: checked against `size_`, then an unchecked
    vector access. -/
def at' (index : Nat) : Prog (VAttr α) α := do
  let a ← Prog.get
  if index < a.size then
    match a.value[index]? with
    | some x => pure x
    | none => Prog.undef
  else Prog.throw .outOfRange

/-- `resize`, src/core/common/xmmAttribute.hpp:405-408. `dflt` is `T()`. -/
def resize (dflt : α) (n : Nat) : Prog (VAttr α) Unit :=
  Prog.modify fun a =>
    { a with value := a.value.take n ++ List.replicate (n - a.value.length) dflt, size := n }

/-- Public operations. -/
inductive Op (α : Type) where
  | set (v : List α) (silently : Bool)
  | resize (n : Nat)

/-- One public call. -/
def step (dflt : α) (a : VAttr α) : Op α → VAttr α
  | .set v s => match VAttr.set lt v s a with
      | .ret _ a' => a' | .throw _ a' => a' | .ub => a
  | .resize n => match VAttr.resize dflt n a with
      | .ret _ a' => a' | .throw _ a' => a' | .ub => a

end VAttr
end Xmm
