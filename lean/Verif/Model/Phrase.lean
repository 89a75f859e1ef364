import Verif.Model.Cpp
/-
Model of src/core/trainingset/xmmPhrase.hpp and xmmPhrase.cpp: recording, reading, copying.
(Statistics, rescaling and JSON are in Verif/Model/PhraseStats.lean and PhraseJson.lean.)
-/
namespace Xmm

/-- A `float*` of a phrase: null, uninitialised, or pointing to a block of cells; a cell that was allocated but never
    written holds `none`. -/
inductive Ptr (K : Type) where
  | null
  | garbage
  | cells (l : List (Option K))
  deriving DecidableEq, Repr

namespace Ptr
variable {K : Type}

/-- uninitialised? -/
def isGarbage : Ptr K → Bool
  | .garbage => true
  | _ => false

/-- null? -/
def isNull : Ptr K → Bool
  | .null => true
  | _ => false

/-- Read `p[i]`: `none` is undefined behaviour (null, wild, out of bounds or uninitialised). -/
def read (p : Ptr K) (i : Nat) : Option K :=
  match p with
  | .cells l => match l[i]? with
    | some c => c
    | none => none
  | _ => none

/-- `std::copy(first, last, p + off)`: `none` is undefined behaviour. -/
def write (p : Ptr K) (off : Nat) (vals : List K) : Option (Ptr K) :=
  match p with
  | .cells l =>
    if off + vals.length ≤ l.length then
      some (.cells (l.take off ++ vals.map some ++ l.drop (off + vals.length)))
    else none
  | _ => none

/-- `reallocate(src, dim_src, dim_dst)`, src/core/trainingset/xmmPhrase.hpp:526-539: `none` is undefined behaviour
    (copying from outside the source block). -/
def reallocate (p : Ptr K) (dimSrc dimDst : Nat) : Option (Ptr K) :=
  match p with
  | .null => some (.cells (List.replicate dimDst none))
  | .garbage => none
  | .cells l =>
    let n := if dimDst > dimSrc then dimSrc else dimDst
    if n ≤ l.length then some (.cells (l.take n ++ List.replicate (dimDst - n) none)) else none

end Ptr

/-- `AllocationBlockSize`, src/core/trainingset/xmmPhrase.hpp:472. -/
def allocationBlockSize : Nat := 256

/-- `xmm::Phrase`: fields of src/core/trainingset/xmmPhrase.hpp:436-516.
    The attributes `dimension` and `dimension_input` are represented by their value and the limits that can change
    (`dimMin`, `diMin`, `diMax`; `dimension` has no upper limit but the type's).  `events` (the training set listening to
    label changes) is modelled in Verif/Model/TrainingSet.lean. -/
structure Phrase (K : Type) where
  ownMemory : Bool
  bimodal : Bool
  empty : Bool
  length : Nat
  inputLength : Nat
  outputLength : Nat
  maxLength : Nat
  dimension : Nat
  dimMin : Nat
  dimensionInput : Nat
  diMin : Nat
  diMax : Nat
  label : String
  columnNames : List String
  data0 : Ptr K
  data1 : Ptr K
  deriving DecidableEq, Repr

namespace Phrase
variable {K : Type}

/-- `dimension.get() - dimension_input.get()` on `unsigned int` (wraps around below 0). -/
def outDim (p : Phrase K) : Nat :=
  if p.dimensionInput ≤ p.dimension then p.dimension - p.dimensionInput
  else 4294967296 - (p.dimensionInput - p.dimension)

/-- `Phrase(memoryMode, multimodality)`, xmmPhrase.cpp:37-55. In unimodal mode `data_[1]` does not exist; the model
    keeps it `garbage`. -/
def construct (K : Type) (own bimodal : Bool) : Phrase K :=
  { ownMemory := own, bimodal := bimodal, empty := true, length := 0, inputLength := 0, outputLength := 0,
    maxLength := 0,
    dimension := if bimodal then 2 else 1, dimMin := if bimodal then 2 else 1,
    dimensionInput := if bimodal then 1 else 0,
    diMin := if bimodal then 1 else 0, diMax := if bimodal then 2 else 0,
    label := "", columnNames := [], data0 := .null, data1 := if bimodal then .null else .garbage }

/-- Lift an operation on pointers: `none` is undefined behaviour. -/
def orUB {α : Type} : Option α → Prog (Phrase K) α
  | some a => pure a
  | none => Prog.undef

/-- `trim()`, xmmPhrase.cpp:537-542. -/
def trim : Prog (Phrase K) Unit := Prog.modify fun p =>
  if p.bimodal then
    { p with length := min p.inputLength p.outputLength, empty := max p.inputLength p.outputLength == 0 }
  else p

/-- `reallocateLength()`, xmmPhrase.cpp:544-557. -/
def reallocateLength : Prog (Phrase K) Unit := do
  let p ← Prog.get
  let md := if p.bimodal then p.dimensionInput else p.dimension
  let d0 ← orUB (p.data0.reallocate (p.maxLength * md) ((p.maxLength + allocationBlockSize) * md))
  if p.bimodal then
    let d1 ← orUB (p.data1.reallocate (p.maxLength * p.outDim) ((p.maxLength + allocationBlockSize) * p.outDim))
    Prog.set { p with data0 := d0, data1 := d1, maxLength := p.maxLength + allocationBlockSize }
  else
    Prog.set { p with data0 := d0, maxLength := p.maxLength + allocationBlockSize }

/-- The test before each recording, xmmPhrase.cpp:356-358, 387-389 and 407-409. -/
def ensureRoom (len : Nat) : Prog (Phrase K) Unit := do
  let p ← Prog.get
  if len ≥ p.maxLength ∨ p.maxLength = 0 then reallocateLength else pure ()

/-- `record(observation)`, xmmPhrase.cpp:346-377. With `dimension_input > dimension` the iterator range of the output copy
    is reversed: undefined behaviour. -/
def record (obs : List K) : Prog (Phrase K) Unit := do
  let p ← Prog.get
  if !p.ownMemory then Prog.throw .runtimeError
  else if p.bimodal && p.inputLength != p.outputLength then Prog.throw .runtimeError
  else if obs.length ≠ p.dimension then Prog.throw .invalidArgument
  else do
    ensureRoom p.length
    let p ← Prog.get
    if p.bimodal then
      if p.dimensionInput > p.dimension then Prog.undef
      else
        let d0 ← orUB (p.data0.write (p.inputLength * p.dimensionInput) (obs.take p.dimensionInput))
        let d1 ← orUB (p.data1.write (p.outputLength * p.outDim) (obs.drop p.dimensionInput))
        Prog.set { p with data0 := d0, data1 := d1, inputLength := p.inputLength + 1,
                          outputLength := p.outputLength + 1, length := p.length + 1, empty := false }
    else
      let d0 ← orUB (p.data0.write (p.length * p.dimension) obs)
      Prog.set { p with data0 := d0, inputLength := p.inputLength + 1, length := p.length + 1, empty := false }

/-- `record_input(observation)`, xmmPhrase.cpp:379-396. -/
def recordInput (obs : List K) : Prog (Phrase K) Unit := do
  let p ← Prog.get
  if !p.ownMemory then Prog.throw .runtimeError
  else if !p.bimodal then Prog.throw .runtimeError
  else if obs.length ≠ p.dimensionInput then Prog.throw .invalidArgument
  else do
    ensureRoom p.inputLength
    let p ← Prog.get
    let d0 ← orUB (p.data0.write (p.inputLength * p.dimensionInput) obs)
    Prog.set { p with data0 := d0, inputLength := p.inputLength + 1 }
    trim
    Prog.modify fun p => { p with empty := false }

/-- `record_output(observation)`, xmmPhrase.cpp:398-416. -/
def recordOutput (obs : List K) : Prog (Phrase K) Unit := do
  let p ← Prog.get
  if !p.ownMemory then Prog.throw .runtimeError
  else if !p.bimodal then Prog.throw .runtimeError
  else if obs.length ≠ p.outDim then Prog.throw .invalidArgument
  else do
    ensureRoom p.outputLength
    let p ← Prog.get
    let d1 ← orUB (p.data1.write (p.outputLength * p.outDim) obs)
    Prog.set { p with data1 := d1, outputLength := p.outputLength + 1 }
    trim
    Prog.modify fun p => { p with empty := false }

/-- `clear()`, xmmPhrase.cpp:418-426. -/
def clear : Prog (Phrase K) Unit := do
  let p ← Prog.get
  if !p.ownMemory then Prog.throw .runtimeError
  else Prog.set { p with length := 0, inputLength := 0, outputLength := 0, empty := true }

/-- `clearInput()`, xmmPhrase.cpp:428-434. -/
def clearInput : Prog (Phrase K) Unit := do
  let p ← Prog.get
  if !p.ownMemory then Prog.throw .runtimeError
  else do
    Prog.set { p with length := if !p.bimodal then 0 else p.length, inputLength := 0 }
    trim

/-- `clearOutput()`, xmmPhrase.cpp:436-442. -/
def clearOutput : Prog (Phrase K) Unit := do
  let p ← Prog.get
  if !p.ownMemory then Prog.throw .runtimeError
  else do
    Prog.set { p with length := if !p.bimodal then 0 else p.length, outputLength := 0 }
    trim

/-- `std::vector<std::string>::resize(n)`. -/
def resizeNames (n : Nat) (l : List String) : List String := l.take n ++ List.replicate (n - l.length) ""

/-- The data part of `onAttributeChange`, xmmPhrase.cpp:560-577, for `dimension` or `dimension_input`.
    `delete data_[0]` on memory from `new[]` is treated as `delete[]`.  For a shared bimodal phrase line 574 deletes the
    user's (non-null) memory: undefined behaviour. -/
def resetData : Prog (Phrase K) Unit := do
  let p ← Prog.get
  let p' := { p with length := 0, inputLength := 0, outputLength := 0, maxLength := 0, empty := true,
                     data0 := .null, columnNames := resizeNames p.dimension p.columnNames }
  if p.ownMemory && p.data0.isGarbage then Prog.undef
  else if p.bimodal then
    if p.ownMemory then Prog.set { p' with data1 := .null }
    else if p.data1.isNull then Prog.set p' else Prog.undef
  else Prog.set p'

/-- `dimension.set(d)`: limits, then `onAttributeChange`, xmmPhrase.cpp:559-585
    (`dimension.get() - 1` does not wrap because the lower limit is at least 1). -/
def setDimension (d : Nat) : Prog (Phrase K) Unit := do
  let p ← Prog.get
  if d < p.dimMin then Prog.throw .domainError
  else do
    Prog.set { p with dimension := d }
    resetData
    Prog.modify fun p => { p with diMax := d - 1 }

/-- `dimension_input.set(d)`. -/
def setDimensionInput (d : Nat) : Prog (Phrase K) Unit := do
  let p ← Prog.get
  if d < p.diMin ∨ p.diMax < d then Prog.throw .domainError
  else do
    Prog.set { p with dimensionInput := d }
    resetData

/-- `getValue(index, dim)`, xmmPhrase.cpp:233-252. -/
def getValue (index dim : Nat) : Prog (Phrase K) K := do
  let p ← Prog.get
  if dim ≥ p.dimension then Prog.throw .outOfRange
  else if p.bimodal then
    if dim < p.dimensionInput then
      if index ≥ p.inputLength then Prog.throw .outOfRange
      else orUB (p.data0.read (index * p.dimensionInput + dim))
    else
      if index ≥ p.outputLength then Prog.throw .outOfRange
      else orUB (p.data1.read (index * p.outDim + dim - p.dimensionInput))
  else if index ≥ p.length then Prog.throw .outOfRange
  else orUB (p.data0.read (index * p.dimension + dim))

/-- `getPointer(index)`, xmmPhrase.cpp:254-262. The result is the offset into `data_[0]`. -/
def getPointer (index : Nat) : Prog (Phrase K) Nat := do
  let p ← Prog.get
  if index ≥ p.length then Prog.throw .outOfRange
  else if p.bimodal then Prog.throw .runtimeError
  else pure (index * p.dimension)

/-- `getPointer_input(index)`, xmmPhrase.cpp:264-271: offset into `data_[0]`. -/
def getPointerInput (index : Nat) : Prog (Phrase K) Nat := do
  let p ← Prog.get
  if index ≥ p.length then Prog.throw .outOfRange
  else if !p.bimodal then Prog.throw .runtimeError
  else pure (index * p.dimensionInput)

/-- `getPointer_output(index)`, xmmPhrase.cpp:273-280: offset into `data_[1]`. -/
def getPointerOutput (index : Nat) : Prog (Phrase K) Nat := do
  let p ← Prog.get
  if index ≥ p.length then Prog.throw .outOfRange
  else if !p.bimodal then Prog.throw .runtimeError
  else pure (index * p.outDim)

/-- `connect(pointer, length)`, xmmPhrase.cpp:282-294; `mem` is the user's array. -/
def connect (mem : List K) (len : Nat) : Prog (Phrase K) Unit := do
  let p ← Prog.get
  if p.ownMemory then Prog.throw .runtimeError
  else if p.bimodal then Prog.throw .runtimeError
  else Prog.set { p with data0 := .cells (mem.map some), inputLength := len, length := len, empty := false }

/-- `connect(pointer_input, pointer_output, length)`, xmmPhrase.cpp:296-309. -/
def connectBoth (memIn memOut : List K) (len : Nat) : Prog (Phrase K) Unit := do
  let p ← Prog.get
  if p.ownMemory then Prog.throw .runtimeError
  else if !p.bimodal then Prog.throw .runtimeError
  else do
    Prog.set { p with data0 := .cells (memIn.map some), data1 := .cells (memOut.map some),
                      inputLength := len, outputLength := len }
    trim
    Prog.modify fun p => { p with empty := false }

/-- `connect_input(pointer, length)`, xmmPhrase.cpp:311-321. -/
def connectInput (mem : List K) (len : Nat) : Prog (Phrase K) Unit := do
  let p ← Prog.get
  if p.ownMemory then Prog.throw .runtimeError
  else if !p.bimodal then Prog.throw .runtimeError
  else do
    Prog.set { p with data0 := .cells (mem.map some), inputLength := len }
    trim
    Prog.modify fun p => { p with empty := false }

/-- `connect_output(pointer, length)`, xmmPhrase.cpp:323-333. -/
def connectOutput (mem : List K) (len : Nat) : Prog (Phrase K) Unit := do
  let p ← Prog.get
  if p.ownMemory then Prog.throw .runtimeError
  else if !p.bimodal then Prog.throw .runtimeError
  else do
    Prog.set { p with data1 := .cells (mem.map some), outputLength := len }
    trim
    Prog.modify fun p => { p with empty := false }

/-- `disconnect()`, xmmPhrase.cpp:335-344. -/
def disconnect : Prog (Phrase K) Unit := do
  let p ← Prog.get
  if p.ownMemory then Prog.throw .runtimeError
  else Prog.set { p with data0 := .null, data1 := if p.bimodal then .null else p.data1,
                         length := 0, inputLength := 0, outputLength := 0, empty := true }

/-- Copying `max_length * modality_dim` cells of a block into a fresh one (xmmPhrase.cpp:74-76, 79-81, 188-196). -/
def copyBlock (src : Ptr K) (n : Nat) : Option (Ptr K) :=
  match src with
  | .cells l => if n ≤ l.length then some (.cells (l.take n)) else none
  | _ => if n = 0 then some (.cells []) else none

/-- Copy constructor, xmmPhrase.cpp:57-91, and (identical data path) `operator=`, xmmPhrase.cpp:152-209, seen as
    producing the new object.  With `max_length_ == 0` the pointers `data_[0]`, `data_[1]` stay uninitialised; for a
    shared-memory source the code writes through the uninitialised (constructor) or dangling/previous (assignment)
    `data_`: undefined behaviour. -/
def copy (src : Phrase K) : Option (Phrase K) :=
  if src.ownMemory then
    if src.maxLength > 0 then do
      let md := if src.bimodal then src.dimensionInput else src.dimension
      let d0 ← copyBlock src.data0 (src.maxLength * md)
      if src.bimodal then do
        let d1 ← copyBlock src.data1 (src.maxLength * src.outDim)
        pure { src with data0 := d0, data1 := d1 }
      else pure { src with data0 := d0, data1 := .garbage }
    else some { src with data0 := .garbage, data1 := .garbage }
  else none

/-- Destructor, xmmPhrase.cpp:211-219: deleting an uninitialised pointer is undefined behaviour. `true` = fine. -/
def destroy (p : Phrase K) : Bool :=
  if p.ownMemory then
    (!p.data0.isGarbage) && (if p.bimodal then !p.data1.isGarbage else true)
  else true

/-- Public operations that modify an own-memory phrase. -/
inductive Op (K : Type) where
  | record (obs : List K)
  | recordInput (obs : List K)
  | recordOutput (obs : List K)
  | clear
  | clearInput
  | clearOutput
  | setDimension (d : Nat)
  | setDimensionInput (d : Nat)

/-- One public call. -/
def step : Op K → Prog (Phrase K) Unit
  | .record o => record o
  | .recordInput o => recordInput o
  | .recordOutput o => recordOutput o
  | .clear => clear
  | .clearInput => clearInput
  | .clearOutput => clearOutput
  | .setDimension d => setDimension d
  | .setDimensionInput d => setDimensionInput d

/-- A history of public calls whose exceptions are caught by the caller: the final state and the exceptions.
    `none`: undefined behaviour occurred. -/
def run : List (Op K) → Phrase K → Option (Phrase K × List (Option Exn))
  | [], p => some (p, [])
  | op :: ops, p =>
    match step op p with
    | .ret _ p' => (run ops p').map fun r => (r.1, none :: r.2)
    | .throw e p' => (run ops p').map fun r => (r.1, some e :: r.2)
    | .ub => none

end Phrase
end Xmm
