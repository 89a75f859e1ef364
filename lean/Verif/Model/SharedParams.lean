import Verif.Model.Attribute
import Verif.Model.Json
import Mathlib.Order.Defs.LinearOrder
/-
Model of src/core/model/xmmModelSharedParameters.cpp / .hpp: the parameters shared by all the classes of a model, with the
effects of the change callbacks.

Conventions.  An object has an identity `me`.  `alive o` says whether the object with identity `o` still exists.  The
callback of an attribute is the identity of the object bound in it (Model/Attribute.lean).  `unsigned int` values are
naturals below 2^32.  `nar` is the conversion of a `double` to `float` (left abstract: any function).
-/
namespace Xmm

/-- `std::numeric_limits<unsigned int>::max()`: the default upper limit of an unsigned attribute
    (src/core/common/xmmAttribute.hpp:236-238). -/
def uintMax : Nat := 4294967295

/-- conversion of an `int` to `unsigned int` -/
def uint (z : Int) : Nat := (z % 4294967296).toNat

/-- `static_cast<int>` of an `unsigned int` -/
def sint (n : Nat) : Int := if n < 2147483648 then n else (n : Int) - 4294967296

/-- subtraction of 1 on `unsigned int` -/
def uintPred (n : Nat) : Nat := if n = 0 then uintMax else n - 1

/-- comparison of two `unsigned int` in `checkLimits<unsigned int>`, src/core/common/xmmAttribute.cpp:62-70 -/
def ltNat (a b : Nat) : Bool := decide (a < b)

/-- comparison of two `double` in `checkLimits<double>`, src/core/common/xmmAttribute.cpp:98-105 (finite values) -/
def ltReal {K : Type} [LT K] [DecidableLT K] (a b : K) : Bool := decide (a < b)

/-- `checkLimits<bool>` and `checkLimits<std::string>` accept everything: src/core/common/xmmAttribute.cpp:36-38, 107-110 -/
def ltNever {α : Type} (_ _ : α) : Bool := false

/-- the result of a JSON accessor inside a program -/
def liftE {σ α : Type} : Except Exn α → Prog σ α
  | .ok a => pure a
  | .error e => Prog.throw e

namespace Json
variable {K : Type}

/-- `asFloat()`, json_value.cpp:776-796: the number, converted to `float` -/
def asFloat [Field K] (nar : K → K) (j : Json K) : Except Exn K :=
  match j.asReal with
  | .ok x => .ok (nar x)
  | .error e => .error e

/-- `get(key, defaultValue)`, json_value.cpp:1066-1078 -/
def getOr (root : Json K) (key : String) (dflt : Json K) : Except Exn (Json K) :=
  match member key root with
  | .error e => .error e
  | .ok (some v) => .ok v
  | .ok none => .ok dflt

/-- `get(index, defaultValue)`, json_value.cpp:1009-1012 -/
def getIndexOr (node : Json K) (i : Nat) (dflt : Json K) : Except Exn (Json K) :=
  match node with
  | .null => .ok dflt
  | .arr l => .ok (match l[i]? with | some v => v | none => dflt)
  | _ => .error .jsonLogicError

end Json

/-- `SharedParameters`: the attributes of src/core/model/xmmModelSharedParameters.hpp:104-149. -/
structure SharedParams (K : Type) where
  bimodal : Attr Bool
  dimension : Attr Nat
  dimensionInput : Attr Nat
  columnNames : VAttr String
  emMin : Attr Nat
  emMax : Attr Nat
  percentChg : Attr K
  window : Attr Nat

namespace SharedParams
variable {K : Type}

section
variable (alive : Nat → Bool) (me : Nat)

/-- What happens when `set` invokes the callback bound to `owner` (`std::bind(listenerMethod, owner, _1)`,
    src/core/common/xmmAttribute.hpp:132-140, 196): `own` is the branch of
    `SharedParameters::onAttributeChange` (xmmModelSharedParameters.cpp:144-160) that applies when the owner is this object; when the
    owner is another live object none of the comparisons `attr_pointer == &…` holds; when it has been destroyed the call of
    the virtual method is undefined behaviour.  `done` is `attr_pointer->changed = false` (line 161). -/
def notify {α : Type} (ns : List (Notification α)) (own done : Prog (SharedParams K) Unit) : Prog (SharedParams K) Unit :=
  match ns with
  | [] => pure ()
  | n :: _ =>
    if n.owner = me then do own; done
    else if alive n.owner then done
    else Prog.undef

/-- an attribute operation on the field `dimension_input` -/
def onInput {α : Type} (p : Prog (Attr Nat) α) : Prog (SharedParams K) α := fun s =>
  match p s.dimensionInput with
  | .ret a x => .ret a { s with dimensionInput := x }
  | .throw e x => .throw e { s with dimensionInput := x }
  | .ub => .ub

/-- an attribute operation on the field `dimension` -/
def onDimension {α : Type} (p : Prog (Attr Nat) α) : Prog (SharedParams K) α := fun s =>
  match p s.dimension with
  | .ret a x => .ret a { s with dimension := x }
  | .throw e x => .throw e { s with dimension := x }
  | .ub => .ub

/-- an attribute operation on the field `bimodal` -/
def onBimodal {α : Type} (p : Prog (Attr Bool) α) : Prog (SharedParams K) α := fun s =>
  match p s.bimodal with
  | .ret a x => .ret a { s with bimodal := x }
  | .throw e x => .throw e { s with bimodal := x }
  | .ub => .ub

/-- an attribute operation on the field `column_names` -/
def onColumns {α : Type} (p : Prog (VAttr String) α) : Prog (SharedParams K) α := fun s =>
  match p s.columnNames with
  | .ret a x => .ret a { s with columnNames := x }
  | .throw e x => .throw e { s with columnNames := x }
  | .ub => .ub

/-- an attribute operation on the field `em_algorithm_min_iterations` -/
def onEmMin {α : Type} (p : Prog (Attr Nat) α) : Prog (SharedParams K) α := fun s =>
  match p s.emMin with
  | .ret a x => .ret a { s with emMin := x }
  | .throw e x => .throw e { s with emMin := x }
  | .ub => .ub

/-- an attribute operation on the field `em_algorithm_max_iterations` -/
def onEmMax {α : Type} (p : Prog (Attr Nat) α) : Prog (SharedParams K) α := fun s =>
  match p s.emMax with
  | .ret a x => .ret a { s with emMax := x }
  | .throw e x => .throw e { s with emMax := x }
  | .ub => .ub

/-- an attribute operation on the field `em_algorithm_percent_chg` -/
def onPercent {α : Type} (p : Prog (Attr K) α) : Prog (SharedParams K) α := fun s =>
  match p s.percentChg with
  | .ret a x => .ret a { s with percentChg := x }
  | .throw e x => .throw e { s with percentChg := x }
  | .ub => .ub

/-- an attribute operation on the field `likelihood_window` -/
def onWindow {α : Type} (p : Prog (Attr Nat) α) : Prog (SharedParams K) α := fun s =>
  match p s.window with
  | .ret a x => .ret a { s with window := x }
  | .throw e x => .throw e { s with window := x }
  | .ub => .ub

/-- `attr_pointer->changed = false`, xmmModelSharedParameters.cpp:161 -/
def unchanged {α : Type} : Prog (Attr α) Unit := Prog.modify fun a => { a with changed := false }

/-- `dimension_input.set(k)`; the callback has no branch for this attribute (xmmModelSharedParameters.cpp:144-162). -/
def setDimensionInput (k : Nat) : Prog (SharedParams K) Unit := do
  let ns ← onInput (Attr.set ltNat k)
  notify alive me ns (pure ()) (onInput unchanged)

/-- `dimension.set(n)` with the branch `attr_pointer == &dimension` of the callback, xmmModelSharedParameters.cpp:157-160. -/
def setDimension (n : Nat) : Prog (SharedParams K) Unit := do
  let ns ← onDimension (Attr.set ltNat n)
  notify alive me ns
    (do let s ← Prog.get
        onInput (Attr.setLimitMax (uintPred s.dimension.value))
        onColumns (VAttr.resize "" s.dimension.value))
    (onDimension unchanged)

/-- The branch `attr_pointer == &bimodal` of the callback, xmmModelSharedParameters.cpp:145-156. -/
def bimodalChanged : Prog (SharedParams K) Unit := do
  let s ← Prog.get
  if s.bimodal.value then do
    onDimension (Attr.setLimitMin 2)
    let s ← Prog.get
    if s.dimension.value < 2 then setDimension alive me 2
    onInput (Attr.setLimitMin 1)
    let s ← Prog.get
    if s.dimensionInput.value < 1 then setDimensionInput alive me 1
  else do
    onDimension (Attr.setLimitMin 1)
    let s ← Prog.get
    if s.dimension.value < 1 then setDimension alive me 1
    onInput (Attr.setLimitMax 0)
    setDimensionInput alive me 0

/-- `bimodal.set(b)` -/
def setBimodal (b : Bool) : Prog (SharedParams K) Unit := do
  let ns ← onBimodal (Attr.set ltNever b)
  notify alive me ns (bimodalChanged alive me) (onBimodal unchanged)

/-- `column_names.set(names)`; `changed` is not observable and the callback has no branch for this attribute. -/
def setColumnNames (names : List String) : Prog (SharedParams K) Unit := do
  let s ← Prog.get
  let called ← onColumns (VAttr.set ltNever names)
  if called then
    notify alive me (match s.columnNames.listener with | some o => [(⟨o, ()⟩ : Notification Unit)] | none => [])
      (pure ()) (onColumns (Prog.modify fun a => { a with changed := false }))

/-- `em_algorithm_min_iterations.set(n)` -/
def setEmMin (n : Nat) : Prog (SharedParams K) Unit := do
  let ns ← onEmMin (Attr.set ltNat n)
  notify alive me ns (pure ()) (onEmMin unchanged)

/-- `em_algorithm_max_iterations.set(n)` -/
def setEmMax (n : Nat) : Prog (SharedParams K) Unit := do
  let ns ← onEmMax (Attr.set ltNat n)
  notify alive me ns (pure ()) (onEmMax unchanged)

/-- `em_algorithm_percent_chg.set(x)` -/
def setPercentChg [LT K] [DecidableLT K] (x : K) : Prog (SharedParams K) Unit := do
  let ns ← onPercent (Attr.set ltReal x)
  notify alive me ns (pure ()) (onPercent unchanged)

/-- `likelihood_window.set(n)` -/
def setWindow (n : Nat) : Prog (SharedParams K) Unit := do
  let ns ← onWindow (Attr.set ltNat n)
  notify alive me ns (pure ()) (onWindow unchanged)

/-- Default constructor, xmmModelSharedParameters.cpp:35-59.  `realMax` is the largest `double`. -/
def fresh [Field K] (realMax : K) : SharedParams K where
  bimodal := ⟨false, false, true, false, some me⟩
  dimension := ⟨1, 1, uintMax, false, some me⟩
  dimensionInput := ⟨0, 0, 0, false, some me⟩
  columnNames := ⟨[], "", "", 0, false, some me⟩
  emMin := ⟨10, 1, uintMax, false, some me⟩
  emMax := ⟨0, 0, uintMax, false, some me⟩
  percentChg := ⟨1 / 100, 0, realMax, false, some me⟩
  window := ⟨1, 1, uintMax, false, some me⟩

/-- Copy constructor, xmmModelSharedParameters.cpp:61-85: the attributes are copied without their callback and bound to the new
    object. -/
def copy (src : SharedParams K) : SharedParams K where
  bimodal := { src.bimodal with changed := false, listener := some me }
  dimension := { src.dimension with changed := false, listener := some me }
  dimensionInput := { src.dimensionInput with changed := false, listener := some me }
  columnNames := { src.columnNames with changed := false, listener := some me }
  emMin := { src.emMin with changed := false, listener := some me }
  emMax := { src.emMax with changed := false, listener := some me }
  percentChg := { src.percentChg with changed := false, listener := some me }
  window := { src.window with changed := false, listener := some me }

/-- `operator=` from another object, xmmModelSharedParameters.cpp:106-119: every attribute is assigned with the implicitly
    declared copy assignment (`Attr.assign`, callback included) and the callbacks are not bound again. -/
def assignFrom (src : SharedParams K) : Prog (SharedParams K) Unit := Prog.modify fun dst =>
  { bimodal := Attr.assign dst.bimodal src.bimodal
    dimension := Attr.assign dst.dimension src.dimension
    dimensionInput := Attr.assign dst.dimensionInput src.dimensionInput
    columnNames := src.columnNames
    emMin := Attr.assign dst.emMin src.emMin
    emMax := Attr.assign dst.emMax src.emMax
    percentChg := Attr.assign dst.percentChg src.percentChg
    window := Attr.assign dst.window src.window }

/-- `for (i …) root["column_names"][i] = column_names.at(i)`, xmmModelSharedParameters.cpp:126-127: the values from index `i` on -/
def namesFrom (v : VAttr String) : Nat → Nat → Except (Option Exn) (List String)
  | _, 0 => .ok []
  | i, n + 1 =>
    match VAttr.at' i v with
    | .ret x _ => match namesFrom v (i + 1) n with
      | .ok l => .ok (x :: l)
      | .error e => .error e
    | .throw e _ => .error (some e)
    | .ub => .error none

/-- `toJson`, xmmModelSharedParameters.cpp:121-133.  The node `column_names` exists only if there is at least one name. -/
def toJson : Prog (SharedParams K) (Json K) := do
  let s ← Prog.get
  match namesFrom s.columnNames 0 s.columnNames.value.length with
  | .error (some e) => Prog.throw e
  | .error none => Prog.undef
  | .ok names => pure <| .obj <|
      [("bimodal", .bool s.bimodal.value),
       ("dimension", .int (sint s.dimension.value)),
       ("dimension_input", .int (sint s.dimensionInput.value))] ++
      (if names = [] then [] else [("column_names", .arr (names.map .str))]) ++
      [("em_algorithm_min_iterations", .int s.emMin.value),
       ("em_algorithm_max_iterations", .int s.emMax.value),
       ("em_algorithm_percent_chg", .real s.percentChg.value),
       ("likelihood_window", .int (sint s.window.value))]

variable [Field K] [DecidableEq K] [JsonReal K] [LT K] [DecidableLT K] (nar : K → K)

/-- the loop reading the column names, xmmModelSharedParameters.cpp:100-102 -/
def readNames (root : Json K) : Nat → Nat → Except Exn (List String)
  | _, 0 => .ok []
  | i, n + 1 => do
    let node ← root.getKey "column_names"
    let x ← node.getIndexOr i (.str "")
    let s ← x.asString
    let l ← readNames root (i + 1) n
    pure (s :: l)

/-- the body of the JSON constructor, run on a default-constructed object: xmmModelSharedParameters.cpp:87-104 -/
def readJson (root : Json K) : Prog (SharedParams K) Unit := do
  let j ← liftE (root.getOr "bimodal" (.bool false))
  let b ← liftE j.asBool
  setBimodal alive me b
  let s ← Prog.get
  let j ← liftE (root.getOr "dimension" (.int (if s.bimodal.value then 2 else 1)))
  let d ← liftE j.asInt
  setDimension alive me (uint d)
  let s ← Prog.get
  let j ← liftE (root.getOr "dimension_input" (.int (if s.bimodal.value then 1 else 0)))
  let k ← liftE j.asInt
  setDimensionInput alive me (uint k)
  let j ← liftE (root.getOr "em_algorithm_min_iterations" (.int 10))
  let v ← liftE j.asInt
  setEmMin alive me (uint v)
  let j ← liftE (root.getOr "em_algorithm_max_iterations" (.int 0))
  let v ← liftE j.asInt
  setEmMax alive me (uint v)
  let j ← liftE (root.getOr "em_algorithm_percent_chg" (.real (1 / 100)))
  let v ← liftE (j.asFloat nar)
  setPercentChg alive me v
  let j ← liftE (root.getOr "likelihood_window" (.int 1))
  let v ← liftE j.asInt
  setWindow alive me (uint v)
  let s ← Prog.get
  let names ← liftE (readNames root 0 s.dimension.value)
  setColumnNames alive me names

/-- JSON constructor -/
def ofJson (realMax : K) (root : Json K) : Res (SharedParams K) Unit :=
  readJson alive me nar root (fresh me realMax)

/-- `fromJson`, xmmModelSharedParameters.cpp:135-142: a temporary object `tmp` is built and assigned; the `catch` clause rethrows.
    The temporary is destroyed on return. -/
def fromJson (tmp : Nat) (realMax : K) (root : Json K) : Prog (SharedParams K) Unit := fun s =>
  match ofJson alive tmp nar realMax root with
  | .ret _ t => assignFrom t s
  | .throw e _ => .throw e s
  | .ub => .ub

end
end SharedParams
end Xmm
