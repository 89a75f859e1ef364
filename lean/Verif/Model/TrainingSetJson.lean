import Verif.Model.TrainingSet
import Verif.Model.PhraseJson
/-
Model of the JSON input and output of src/core/trainingset/xmmTrainingSet.cpp.  Labels are strings.
-/
namespace Xmm.TS
variable {K : Type}

/-- `column_names.at(i)` for `i < n`, xmmTrainingSet.cpp:414-415 (`Attribute::at` checks the index, xmmAttribute.hpp:553-559). -/
def namesTo (n : Nat) (cols : List String) : Except Exn (List String) :=
  if n ≤ cols.length then .ok (cols.take n) else .error .outOfRange

/-- One element of `phrases`, xmmTrainingSet.cpp:421-422: the phrase, then its index. -/
def phraseNode [Field K] (k : Int) (o : PhraseObj K String) : Option (Json K) :=
  match ({ o.ph with label := o.label } : Phrase K).toJson with
  | some (.obj m) => some (.obj (m ++ [("index", .int k)]))
  | _ => none

/-- The members written by `toJson`, xmmTrainingSet.cpp:410-424 (`dimension` is at least 1, so `column_names` is always written). -/
def setNode (t : TSet String) (names : List String) (nodes : List (Json K)) : Json K := .obj
  [("bimodal", .bool t.bimodal), ("dimension", .int (sint t.dims.dim)), ("dimension_input", .int (sint t.dims.di)),
   ("column_names", .arr (names.map .str)), ("phrases", .arr nodes)]

/-- `toJson`, xmmTrainingSet.cpp:409-427. -/
def toJson [Field K] (i : Nat) : Prog (World K String) (Json K) := do
  let t ← getSet i
  let w ← Prog.get
  let names ← liftE (namesTo t.dims.dim t.cols)
  match t.phrases.mapM fun e => phraseNode e.1 (w.obj e.2) with
  | none => Prog.undef
  | some nodes => pure (setNode t names nodes)

/-- The values visited by `for (auto p : node)`, json_value.cpp:1420-1460: elements of an array, members of an object, nothing
    otherwise. -/
def elements : Json K → List (Json K)
  | .arr l => l
  | .obj m => m.map Prod.snd
  | _ => []

/-- The members before the attributes are read, xmmTrainingSet.cpp:73-86. -/
def TSet.blank (b : Bool) : TSet String :=
  { own := true, bimodal := b,
    dims := { dim := 0, dimMin := if b then 2 else 1, di := 0, diMin := if b then 1 else 0, diMax := if b then 2 else 0 },
    cols := [], labels := [], phrases := [], subs := [] }

/-- `phrases_.insert(k, r)`: nothing if the key is present -/
def insertPhrase (i : Nat) (k : Int) (r : Nat) : Prog (World K String) Unit := do
  let t ← getSet i
  Prog.modify fun w => w.putSet i (some { t with phrases := SMap.insertNew k r t.phrases })

/-- `phrases_[k]->events.addListener(this, …)`, xmmTrainingSet.cpp:101-102 -/
def listenAt (i : Nat) (k : Int) : Prog (World K String) Unit := do
  let t ← getSet i
  match t.phrases.find? k with
  | some r => listen i r
  | none => Prog.undef

/-- The loop over the phrases, xmmTrainingSet.cpp:98-103. -/
def loadPhrases [Field K] [DecidableEq K] [JsonReal K] (i : Nat) : List (Json K) → Prog (World K String) Unit
  | [] => pure ()
  | p :: ps => do
    let j ← liftE (p.getKey "index")
    let k ← liftE j.asInt
    let ph ← Phrase.ofJson p
    let r ← alloc ⟨ph, ph.label, []⟩
    insertPhrase i k r
    listenAt i k
    loadPhrases i ps

/-- The body of the JSON constructor on a blank object at `i`, xmmTrainingSet.cpp:87-104. -/
def readJson [Field K] [DecidableEq K] [JsonReal K] (i : Nat) (root : Json K) (b : Bool) : Prog (World K String) Unit := do
  let j ← liftE (root.getOr "dimension" (.int (if b then 2 else 1)))
  let d ← liftE j.asInt
  setDim i (uint d)
  let j ← liftE (root.getOr "dimension_input" (.int (if b then 1 else 0)))
  let k ← liftE j.asInt
  setDi i (uint k)
  let t ← getSet i
  let node ← liftE (root.getKey "column_names")
  let names ← Phrase.readNames node 0 node.size (List.replicate t.dims.dim "")
  setCols i names
  let node ← liftE (root.getKey "phrases")
  loadPhrases i (elements node)
  update i

/-- The JSON constructor at an unused address, xmmTrainingSet.cpp:73-104; if it throws there is no object. -/
def ofJson [Field K] [DecidableEq K] [JsonReal K] (i : Nat) (root : Json K) : Prog (World K String) Unit := do
  let w ← Prog.get
  match w.sets i with
  | some _ => Prog.undef
  | none => do
    let j ← liftE (root.getOr "bimodal" (.bool false))
    let b ← liftE j.asBool
    Prog.set (w.putSet i (some (TSet.blank b)))
    fun w1 => match readJson i root b w1 with
      | .throw e w2 => .throw e (w2.putSet i none)
      | r => r

/-- `fromJson`, xmmTrainingSet.cpp:429-436: the JSON constructor on a temporary at the unused address `tmp`, `operator=`, and the
    destruction of the temporary (also when the assignment throws). -/
def fromJson [Field K] [DecidableEq K] [JsonReal K] (i : Nat) (root : Json K) (tmp : Nat) : Prog (World K String) Unit := do
  ofJson tmp root
  fun w1 => match assign i tmp w1 with
    | .ret _ w2 => .ret () (w2.putSet tmp none)
    | .throw e w2 => .throw e (w2.putSet tmp none)
    | .ub => .ub

end Xmm.TS
