import Verif.Model.Cpp
import Verif.Model.StdMap
import Mathlib.Data.Rat.Defs
import Mathlib.Algebra.Field.Defs
import Mathlib.Algebra.Field.Rat
import Mathlib.Data.String.Basic
/-
Model of src/core/common/xmmJson.hpp / xmmJson.cpp and of the part of jsoncpp
(dependencies/jsoncpp/src/json_value.cpp) they use.  JSON text is not modelled: a `Json` is the in-memory tree.
-/
namespace Xmm

/-- `Json::Value` (json_value.cpp).  `intValue` and `uintValue` are merged into an unbounded `int`, `realValue` holds a
    number of the field `K`.  An `arrayValue` is, in jsoncpp, a map from indices; here a list (every array built by
    /repo/src has all its indices assigned). -/
inductive Json (K : Type) where
  | null
  | bool (b : Bool)
  | int (z : Int)
  | real (x : K)
  | str (s : String)
  | arr (l : List (Json K))
  | obj (m : List (String × Json K))

/-- Conversions of a `double` that jsoncpp performs with libc: truncation to `int` when in range
    (`InRange(value, minInt, maxInt)` then `Int(value)`, json_value.cpp:657-660), and printing
    (`valueToString(double)`, json_value.cpp:631).  Their result is left abstract. -/
class JsonReal (K : Type) where
  /-- `none` when the value is out of the range of `int` -/
  toInt : K → Option Int
  /-- printing -/
  print : K → String

/-- concrete instance for examples: truncation, and a fixed text -/
instance : JsonReal ℚ where
  toInt q := if q ≥ -2147483648 ∧ q ≤ 2147483647 then some (q.num.tdiv q.den) else none
  print _ := "0"

namespace Json
variable {K : Type}

/-- `isArray()`, json_value.cpp:1303. -/
def isArray : Json K → Bool
  | .arr _ => true
  | _ => false

/-- `isInt()`, json_value.cpp:1219-1232 (the `realValue` case is answered by `JsonReal.toInt` being defined; the code also
    requires the value to be integral). -/
def isInt [Field K] [DecidableEq K] [JsonReal K] : Json K → Bool
  | .int z => decide (-2147483648 ≤ z ∧ z ≤ 2147483647)
  | .real x => match JsonReal.toInt x with | some z => decide ((z : K) = x) | none => false
  | _ => false

/-- `isString()`, json_value.cpp:1301. -/
def isString : Json K → Bool
  | .str _ => true
  | _ => false

/-- `size()`, json_value.cpp:851-873. -/
def size : Json K → Nat
  | .arr l => l.length
  | .obj m => m.length
  | _ => 0

/-- `asInt()`, json_value.cpp:649-670. -/
def asInt [JsonReal K] : Json K → Except Exn Int
  | .int z => if -2147483648 ≤ z ∧ z ≤ 2147483647 then .ok z else .error .jsonLogicError
  | .real x => match JsonReal.toInt x with | some z => .ok z | none => .error .jsonLogicError
  | .null => .ok 0
  | .bool b => .ok (if b then 1 else 0)
  | _ => .error .jsonLogicError

/-- `asFloat()` / `asDouble()`, json_value.cpp:754-796 (the narrowing to `float` is exact here). -/
def asReal [Field K] : Json K → Except Exn K
  | .int z => .ok (z : K)
  | .real x => .ok x
  | .null => .ok 0
  | .bool b => .ok (if b then 1 else 0)
  | _ => .error .jsonLogicError

/-- `asBool()`, json_value.cpp:798-815. -/
def asBool [Zero K] [DecidableEq K] : Json K → Except Exn Bool
  | .bool b => .ok b
  | .null => .ok false
  | .int z => .ok (decide (z ≠ 0))
  | .real x => .ok (decide (x ≠ 0))
  | _ => .error .jsonLogicError

/-- `asString()`, json_value.cpp:614-638. -/
def asString [JsonReal K] : Json K → Except Exn String
  | .null => .ok ""
  | .str s => .ok s
  | .bool b => .ok (if b then "true" else "false")
  | .int z => .ok (toString z)
  | .real x => .ok (JsonReal.print x)
  | _ => .error .jsonLogicError

/-- `find(key)` underlying `isMember` and the const `operator[](key)`, json_value.cpp:1016-1038, 1148-1160:
    a null value has no member, a value that is neither null nor an object raises. -/
def member (key : String) : Json K → Except Exn (Option (Json K))
  | .null => .ok none
  | .obj m => .ok (m.find? (fun e => e.1 = key) |>.map Prod.snd)
  | _ => .error .jsonLogicError

/-- const `operator[](key)`: a missing member reads as null. -/
def getKey (key : String) (root : Json K) : Except Exn (Json K) :=
  match member key root with
  | .error e => .error e
  | .ok (some v) => .ok v
  | .ok none => .ok .null

/-- const `operator[](index)`, json_value.cpp:940-951. -/
def getIndex (i : Nat) : Json K → Except Exn (Json K)
  | .null => .ok .null
  | .arr l => .ok (match l[i]? with | some v => v | none => .null)
  | _ => .error .jsonLogicError

end Json

/-- Element types of the JSON array helpers: `root[i] = a[i]` on one side (`Json::Value` constructors), the accessor
    used by the reader on the other. -/
structure JsonCodec (K T : Type) where
  enc : T → Json K
  dec : Json K → Except Exn T

/-- `float`/`double`: xmmJson.cpp:36-47, 49-58, 83-96, 98-110 -/
def realCodec (K : Type) [Field K] : JsonCodec K K := ⟨.real, Json.asReal⟩
/-- the generic template: `asInt`, xmmJson.hpp:253-263, 298-308 -/
def intCodec (K : Type) [JsonReal K] : JsonCodec K Int := ⟨.int, Json.asInt⟩
/-- `bool`: xmmJson.cpp:60-69, 112-123 -/
def boolCodec (K : Type) [Zero K] [DecidableEq K] : JsonCodec K Bool := ⟨.bool, Json.asBool⟩
/-- `std::string`: xmmJson.cpp:71-81, 125-137 -/
def stringCodec (K : Type) [JsonReal K] : JsonCodec K String := ⟨.str, Json.asString⟩

section
variable {K T : Type}

/-- `array2json(a, n)` (xmmJson.hpp:236-244) and `vector2json(a)` (xmmJson.hpp:280-288): the node is resized to `n` (which
    makes it an array even for `n = 0`) and every index is assigned. -/
def vector2json (c : JsonCodec K T) (a : List T) : Json K := .arr (a.map c.enc)

/-- The loop `for (auto it : root) a[i++] = it.as…()` shared by all readers. -/
def readLoop (c : JsonCodec K T) : List (Json K) → Nat → Prog (List T) Unit
  | [], _ => pure ()
  | it :: its, i => do
    match c.dec it with
    | .error e => Prog.throw e
    | .ok v =>
      let a ← Prog.get
      if i < a.length then
        Prog.set (a.set i v)
        readLoop c its (i + 1)
      else Prog.undef

/-- `json2array` (xmmJson.hpp:253-263 and the specialisations xmmJson.cpp:36-81), and the generic `json2vector`
    (xmmJson.hpp:298-308), on a target `a` of any length. -/
def json2array (c : JsonCodec K T) (root : Json K) (n : Nat) : Prog (List T) Unit := do
  match root with
  | .arr l =>
    if l.length ≠ n then Prog.throw .jsonValueError
    else readLoop c l 0
  | _ => Prog.throw .jsonTypeError

/-- The specialisations of `json2vector` for float, double, bool and string, xmmJson.cpp:83-137: return at once if
    `n == 0`. -/
def json2vector (c : JsonCodec K T) (root : Json K) (n : Nat) : Prog (List T) Unit :=
  if n = 0 then pure () else json2array c root n

end

end Xmm
