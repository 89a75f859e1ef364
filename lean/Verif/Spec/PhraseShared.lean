import Verif.Model.PhraseShared
/-
What a user expects of a phrase in shared memory: a window on the arrays that they have connected.
-/
namespace Xmm.PhraseSpec
variable {K : Type}

/-- An array of the user and the number of frames they have announced. -/
abbrev Window (K : Type) := Option (List K × Nat)

/-- frames announced; none if no array is connected -/
def Window.len (a : Window K) : Nat := (a.map Prod.snd).getD 0

/-- cell `i` of the array -/
def Window.cell (a : Window K) (i : Nat) : Option K := a.bind fun m => m.1[i]?

/-- the user writes to the array -/
def Window.poke (a : Window K) (i : Nat) (v : K) : Window K := a.map fun m => (m.1.set i v, m.2)

/-- A phrase in shared memory.  In unimodal mode the array is `input`.  `connected`: has an array been connected since the
    phrase was constructed, disconnected or given another dimension? -/
structure View (K : Type) where
  bimodal : Bool
  dim : Nat
  di : Nat
  diMin : Nat
  diMax : Nat
  input : Window K
  output : Window K
  connected : Bool

/-- a new phrase -/
def View.new (K : Type) (b : Bool) : View K :=
  if b then ⟨true, 2, 1, 1, 2, none, none, false⟩ else ⟨false, 1, 0, 0, 0, none, none, false⟩

/-- values per frame of the array `input` -/
def View.inDim (v : View K) : Nat := if v.bimodal then v.di else v.dim

/-- number of frames: the shorter modality -/
def View.size (v : View K) : Nat := if v.bimodal then min v.input.len v.output.len else v.input.len

/-- the phrase lets go of all arrays -/
def View.cut (v : View K) : View K := { v with input := none, output := none, connected := false }

/-- Effect of an event and the exception raised, if any. -/
def View.step (v : View K) : Phrase.SOp K → View K × Option Exn
  | .call (.setDimension d) =>
    if d < (if v.bimodal then 2 else 1) then (v, some .domainError) else ({ v.cut with dim := d, diMax := d - 1 }, none)
  | .call (.setDimensionInput d) =>
    if d < v.diMin ∨ v.diMax < d then (v, some .domainError) else ({ v.cut with di := d }, none)
  | .call _ => (v, some .runtimeError)
  | .connect m n => if v.bimodal then (v, some .runtimeError) else ({ v with input := some (m, n), connected := true }, none)
  | .connectBoth m m' n =>
    if v.bimodal then ({ v with input := some (m, n), output := some (m', n), connected := true }, none)
    else (v, some .runtimeError)
  | .connectInput m n =>
    if v.bimodal then ({ v with input := some (m, n), connected := true }, none) else (v, some .runtimeError)
  | .connectOutput m n =>
    if v.bimodal then ({ v with output := some (m, n), connected := true }, none) else (v, some .runtimeError)
  | .disconnect => (v.cut, none)
  | .pokeInput i x => ({ v with input := v.input.poke i x }, none)
  | .pokeOutput i x => ({ v with output := v.output.poke i x }, none)

/-- A whole history. -/
def View.run : List (Phrase.SOp K) → View K → View K × List (Option Exn)
  | [], v => (v, [])
  | op :: ops, v =>
    let r := v.step op
    let r' := View.run ops r.1
    (r'.1, r.2 :: r'.2)

/-- What the user owes the phrase: an array has room for the frames they announce, and a bimodal phrase changes its
    dimensions only while no output array is connected (otherwise: `C101_dimension_change_ub`). -/
def View.Fair (v : View K) : Phrase.SOp K → Prop
  | .connect m n => n * v.dim ≤ m.length
  | .connectBoth m m' n => n * v.di ≤ m.length ∧ n * (v.dim - v.di) ≤ m'.length
  | .connectInput m n => n * v.di ≤ m.length
  | .connectOutput m n => n * (v.dim - v.di) ≤ m.length
  | .call (.setDimension _) => v.output = none
  | .call (.setDimensionInput _) => v.output = none
  | _ => True

/-- every event of the history is fair -/
def View.Admissible : List (Phrase.SOp K) → View K → Prop
  | [], _ => True
  | op :: ops, v => v.Fair op ∧ View.Admissible ops (v.step op).1

/-- The value at frame `t`, column `d`: the corresponding cell of the user's array; `none` if there is no such frame or
    column. -/
def View.value (v : View K) (t d : Nat) : Option K :=
  if v.dim ≤ d then none
  else if v.bimodal then
    if d < v.di then (if t < v.input.len then v.input.cell (t * v.di + d) else none)
    else (if t < v.output.len then v.output.cell (t * (v.dim - v.di) + (d - v.di)) else none)
  else if t < v.input.len then v.input.cell (t * v.dim + d) else none

end Xmm.PhraseSpec
