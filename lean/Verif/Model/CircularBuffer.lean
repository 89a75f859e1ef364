import Verif.Model.Cpp
import Mathlib.Algebra.Field.Defs
/-
Model of src/core/common/xmmCircularbuffer.hpp.
-/
namespace Xmm

/-- `CircularBuffer<T, channels>`: fields of src/core/common/xmmCircularbuffer.hpp:172-191.
    `data_` is an array of `channels` vectors that are always resized and written at the same index
    (lines 57-59, 104-106, 117-119, 151-153); the model stores, for each index, the tuple of the channels. -/
structure CBuf (α : Type) (channels : Nat) where
  data : List (Fin channels → α)
  length : Nat
  current : Nat
  full : Bool

namespace CBuf
variable {α : Type} {channels : Nat}

/-- `std::vector::resize(n)` with new elements value-initialised to `dflt`. -/
def vecResize {β : Type} (dflt : β) (n : Nat) (l : List β) : List β :=
  l.take n ++ List.replicate (n - l.length) dflt

/-- Constructor, lines 55-62. `dflt` is `T()`. -/
def construct (dflt : α) (channels length : Nat) : CBuf α channels :=
  { data := vecResize (fun _ => dflt) length [], length := length, current := 0, full := false }

/-- `size_t()`, line 136. -/
def count (b : CBuf α channels) : Nat := if b.full then b.length else b.current

/-- `operator()(channel, index)`, lines 68-75. The final access is an unchecked vector access. -/
def at' (channel index : Nat) : Prog (CBuf α channels) α := do
  let b ← Prog.get
  if h : channel < channels then
    let m := if b.full then b.length else b.current
    if index ≥ m then Prog.throw .outOfRange
    else match b.data[index]? with
      | some v => pure (v ⟨channel, h⟩)
      | none => Prog.undef
  else Prog.throw .outOfRange

/-- `clear()`, lines 80-83. -/
def clear : Prog (CBuf α channels) Unit := Prog.modify fun b => { b with current := 0, full := false }

/-- `push(std::vector<T> const&)` / `push(T const*)`, lines 103-123 (for one channel also the scalar
    overload, lines 90-97).  Writing past the vector and `% 0` are undefined behaviour. -/
def push (v : Fin channels → α) : Prog (CBuf α channels) Unit := do
  let b ← Prog.get
  if b.current < b.data.length then
    let cur := b.current + 1
    let full := if cur = b.length then true else b.full
    if b.length = 0 then Prog.undef
    else Prog.set { b with data := b.data.set b.current v, current := cur % b.length, full := full }
  else Prog.undef

/-- Scalar overload of `push`, lines 90-97: throws `invalid_argument` on a multi-channel buffer. -/
def pushScalar (v : α) : Prog (CBuf α channels) Unit :=
  if channels > 1 then Prog.throw .invalidArgument else push (fun _ => v)

/-- `resize(length)`, lines 142-154. -/
def resize (dflt : α) (n : Nat) : Prog (CBuf α channels) Unit := do
  let b ← Prog.get
  if n = b.length then pure ()
  else
    let (full, cur) :=
      if n > b.length then (false, b.current)
      else if b.current ≥ n then (true, 0)
      else (b.full, b.current)
    Prog.set { data := vecResize (fun _ => dflt) n b.data, length := n, current := cur, full := full }

/-- `mean()`, lines 160-170: accumulate the first `size` slots of every channel, divide by the count.
    (Exact arithmetic.  For an empty buffer the code divides by zero: here the result is left undefined.) -/
def mean {K : Type} [Field K] {channels : Nat} : Prog (CBuf K channels) (Fin channels → K) := do
  let b ← Prog.get
  let size := if b.full then b.length else b.current
  if size = 0 ∨ b.data.length < size then Prog.undef
  else pure fun c => (b.data.take size).foldl (fun acc slot => acc + slot c) 0 / (size : K)

/-- Public mutating operations. -/
inductive Op (α : Type) (channels : Nat) where
  | push (v : Fin channels → α)
  | clear
  | resize (n : Nat)

/-- One public call. -/
def step (dflt : α) : Op α channels → Prog (CBuf α channels) Unit
  | .push v => push v
  | .clear => clear
  | .resize n => resize dflt n

/-- A history of public calls. -/
def run (dflt : α) : List (Op α channels) → Prog (CBuf α channels) Unit
  | [] => pure ()
  | op :: ops => do step dflt op; run dflt ops

end CBuf
end Xmm
