import Verif.Model.Phrase
import Verif.Model.SharedParams
/-
Model of the JSON input and output of src/core/trainingset/xmmPhrase.cpp.  Products of lengths and dimensions are not reduced
modulo 2^32.
-/
namespace Xmm

/-- A cell of a block of `float`s on which `json2array` works; a cell that was never written is never sent to JSON. -/
def cellCodec (K : Type) [Field K] : JsonCodec K (Option K) where
  enc c := match c with
    | some x => .real x
    | none => .null
  dec j := match j.asReal with
    | .ok x => .ok (some x)
    | .error e => .error e

namespace Phrase
variable {K : Type}

/-- `array2json(p, n)`, xmmJson.hpp:236-244, on a data block: reading a cell that does not exist or was never written is
    undefined behaviour (`none`); nothing is read if `n = 0`. -/
def block2json [Field K] (p : Ptr K) (n : Nat) : Option (Json K) :=
  ((List.range n).mapM p.read).map (vector2json (realCodec K))

/-- The members written before the data, xmmPhrase.cpp:445-452: `column_names` exists only if there is at least one name. -/
def jsonHead (p : Phrase K) : List (String × Json K) :=
  [("bimodal", .bool p.bimodal),
   ("dimension", .int (sint p.dimension)),
   ("dimension_input", .int (sint p.dimensionInput)),
   ("length", .int (sint p.length)),
   ("label", .str p.label)] ++
  (if p.columnNames = [] then [] else [("column_names", .arr (p.columnNames.map .str))])

/-- `toJson`, xmmPhrase.cpp:444-462; `none` is undefined behaviour. -/
def toJson [Field K] (p : Phrase K) : Option (Json K) :=
  if p.bimodal then do
    let a ← block2json p.data0 (p.length * p.dimensionInput)
    let b ← block2json p.data1 (p.length * p.outDim)
    pure (.obj (p.jsonHead ++ [("data_input", a), ("data_output", b)]))
  else do
    let a ← block2json p.data0 (p.length * p.dimension)
    pure (.obj (p.jsonHead ++ [("data", a)]))

/-- The loop over the column names, xmmPhrase.cpp:125-127 (and xmmTrainingSet.cpp:91-93): `names[i] = …` is not checked. -/
def readNames {σ : Type} [JsonReal K] (node : Json K) : Nat → Nat → List String → Prog σ (List String)
  | _, 0, names => pure names
  | i, n + 1, names => do
    let j ← liftE (node.getIndexOr i (.str ""))
    let s ← liftE j.asString
    if i < names.length then readNames node (i + 1) n (names.set i s) else Prog.undef

/-- `new float[n]` followed by `json2array(node, data, n)`, xmmPhrase.cpp:137-149 (`reallocate` of a null pointer only allocates). -/
def readBlock {σ : Type} [Field K] (node : Json K) (n : Nat) : Prog σ (Ptr K) := fun s =>
  match json2array (cellCodec K) node n (List.replicate n none) with
  | .ret _ l => .ret (.cells l) s
  | .throw e _ => .throw e s
  | .ub => .ub

/-- The members set before the names, label and data are read, xmmPhrase.cpp:94-121, for accepted dimensions. -/
def blank (K : Type) (b : Bool) (d k : Nat) : Phrase K :=
  { ownMemory := true, bimodal := b, empty := true, length := 0, inputLength := 0, outputLength := 0, maxLength := 0,
    dimension := d, dimMin := if b then 2 else 1, dimensionInput := k, diMin := if b then 1 else 0,
    diMax := if b then d - 1 else 0,
    label := "", columnNames := [], data0 := .null, data1 := if b then .null else .garbage }

/-- The attributes read by the JSON constructor, xmmPhrase.cpp:108-121: the phrase before its names, label and data. -/
def readDims {σ : Type} [Field K] [DecidableEq K] [JsonReal K] (root : Json K) : Prog σ (Phrase K) := do
  let j ← liftE (root.getOr "bimodal" (.bool false))
  let b ← liftE j.asBool
  let j ← liftE (root.getOr "dimension" (.int (if b then 2 else 1)))
  let d ← liftE j.asInt
  if uint d < (if b then 2 else 1) then Prog.throw .domainError
  else do
    let diMin := if b then 1 else 0
    let diMax := if b then uint d - 1 else 0
    let j ← liftE (root.getOr "dimension_input" (.int (if b then 1 else 0)))
    let k ← liftE j.asInt
    if uint k < diMin ∨ diMax < uint k then Prog.throw .domainError
    else pure (blank K b (uint d) (uint k))

/-- The data read by the JSON constructor, xmmPhrase.cpp:136-149. -/
def readData {σ : Type} [Field K] (root : Json K) (p : Phrase K) : Prog σ (Phrase K) :=
  if p.bimodal then do
    let j ← liftE (root.getKey "data_input")
    let a ← readBlock j (p.length * p.dimensionInput)
    let j ← liftE (root.getKey "data_output")
    let b ← readBlock j (p.length * p.outDim)
    pure { p with data0 := a, data1 := b }
  else do
    let j ← liftE (root.getKey "data")
    let a ← readBlock j (p.length * p.dimension)
    pure { p with data0 := a }

/-- The JSON constructor, xmmPhrase.cpp:93-150.  `label.set` notifies nobody: there is no listener yet. -/
def ofJson {σ : Type} [Field K] [DecidableEq K] [JsonReal K] (root : Json K) : Prog σ (Phrase K) := do
  let p ← readDims root
  let node ← liftE (root.getKey "column_names")
  let names ← readNames node 0 node.size (List.replicate p.dimension "")
  let j ← liftE (root.getKey "label")
  let label ← liftE j.asString
  let j ← liftE (root.getOr "length" (.int 0))
  let n ← liftE j.asInt
  readData root
    { p with columnNames := names, label := label, length := uint n, maxLength := uint n, inputLength := uint n,
             outputLength := uint n, empty := uint n == 0 }

/-- `fromJson`, xmmPhrase.cpp:464-471: the JSON constructor on a temporary, `operator=` (xmmPhrase.cpp:152-209, which deletes the
    previous data), then the destruction of the temporary. -/
def fromJson [Field K] [DecidableEq K] [JsonReal K] (root : Json K) : Prog (Phrase K) Unit := do
  let tmp ← ofJson root
  let p ← Prog.get
  if !p.destroy then Prog.undef
  else
    match tmp.copy with
    | none => Prog.undef
    | some q => if tmp.destroy then Prog.set q else Prog.undef

end Phrase
end Xmm
