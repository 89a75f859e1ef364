import Verif.Model.Phrase
/-
Phrases whose data blocks live in a shared heap: the same operations as Verif/Model/Phrase.lean, with the addresses of
`data_[0]` and `data_[1]` made explicit so that sharing and dangling pointers can be observed.
-/
namespace Xmm

/-- The value of a `float*`. -/
inductive Addr where
  | null
  | wild
  | at (n : Nat)
  deriving DecidableEq, Repr

/-- Heap of float blocks; addresses from `next` on have never been used. -/
structure Heap (K : Type) where
  cells : Nat → Option (List (Option K))
  next : Nat

namespace Heap
variable {K : Type}

/-- what a pointer points to; a freed block is as bad as an uninitialised pointer -/
def ptr (h : Heap K) : Addr → Ptr K
  | .null => .null
  | .wild => .garbage
  | .at n => match h.cells n with
    | some l => .cells l
    | none => .garbage

/-- overwrite the contents of a block -/
def put (h : Heap K) (n : Nat) (l : Option (List (Option K))) : Heap K :=
  { h with cells := fun m => if m = n then l else h.cells m }

/-- `delete[]` (of null: nothing) -/
def free (h : Heap K) : Addr → Heap K
  | .at n => h.put n none
  | _ => h

/-- `new float[…]` then filling it -/
def alloc (h : Heap K) (l : List (Option K)) : Heap K × Addr :=
  ({ cells := fun m => if m = h.next then some l else h.cells m, next := h.next + 1 }, .at h.next)

/-- Effect on one data pointer of an operation that turned its contents into `p'`: written in place if the block was
    not replaced, in a new block if it was (`reallocate`, xmmPhrase.hpp:526-539: new block, copy, `delete[]` the old one),
    nothing if it was set to null (xmmPhrase.cpp:566-575; the old block is deleted for `data_[0]`, leaked for
    `data_[1]`: `del`). -/
def store (h : Heap K) (a : Addr) (inPlace del : Bool) (p' : Ptr K) : Heap K × Addr :=
  match p' with
  | .null => (if del then h.free a else h, .null)
  | .garbage => (h, .wild)
  | .cells l =>
    match inPlace, a with
    | true, .at n => (h.put n (some l), .at n)
    | _, _ => (h.free a).alloc l

end Heap

/-- A phrase object: its scalar fields (`hdr`, whose data fields are not used) and its data pointers. -/
structure HPhrase (K : Type) where
  hdr : Phrase K
  a0 : Addr
  a1 : Addr

namespace HPhrase
variable {K : Type}

/-- the phrase seen through the heap -/
def view (h : Heap K) (o : HPhrase K) : Phrase K :=
  { o.hdr with data0 := h.ptr o.a0, data1 := if o.hdr.bimodal then h.ptr o.a1 else .garbage }

/-- Write the phrase `p'` back after an operation on `o`; the blocks were replaced iff `max_length_` changed. -/
def storeBack (h : Heap K) (o : HPhrase K) (p' : Phrase K) : Heap K × HPhrase K :=
  let keep := p'.maxLength == o.hdr.maxLength
  let r0 := h.store o.a0 keep true p'.data0
  if p'.bimodal then
    let r1 := r0.1.store o.a1 keep false p'.data1
    (r1.1, ⟨p', r0.2, r1.2⟩)
  else (r0.1, ⟨p', r0.2, .wild⟩)

/-- One call on a phrase in the heap: `none` is undefined behaviour. -/
def step (op : Phrase.Op K) (h : Heap K) (o : HPhrase K) : Option (Heap K × HPhrase K × Option Exn) :=
  match Phrase.step op (view h o) with
  | .ret _ p' => let r := storeBack h o p'; some (r.1, r.2, none)
  | .throw e p' => let r := storeBack h o p'; some (r.1, r.2, some e)
  | .ub => none

/-- Copy construction, xmmPhrase.cpp:57-91: fresh blocks. -/
def copy (h : Heap K) (src : HPhrase K) : Option (Heap K × HPhrase K) :=
  match Phrase.copy (view h src) with
  | none => none
  | some q =>
    let r0 := h.store .null false false q.data0
    if q.bimodal then
      let r1 := r0.1.store .null false false q.data1
      some (r1.1, ⟨q, r0.2, r1.2⟩)
    else some (r0.1, ⟨q, r0.2, .wild⟩)

/-- Assignment `dst = src` between distinct own-memory phrases, xmmPhrase.cpp:152-209: delete the blocks of `dst`
    (undefined behaviour if a pointer is wild), then copy. -/
def assign (h : Heap K) (dst src : HPhrase K) : Option (Heap K × HPhrase K) :=
  if (view h dst).data0.isGarbage || (dst.hdr.bimodal && (view h dst).data1.isGarbage) then none
  else
    let h1 := if dst.hdr.bimodal then h.free dst.a1 else h
    copy (h1.free dst.a0) src

/-- An interleaved history of calls on two phrases (`true`: the first). -/
def run2 : List (Bool × Phrase.Op K) → Heap K → HPhrase K → HPhrase K →
    Option (Heap K × HPhrase K × HPhrase K × List (Option Exn))
  | [], h, o1, o2 => some (h, o1, o2, [])
  | (true, op) :: ops, h, o1, o2 =>
    match step op h o1 with
    | none => none
    | some (h', o1', e) => (run2 ops h' o1' o2).map fun r => (r.1, r.2.1, r.2.2.1, e :: r.2.2.2)
  | (false, op) :: ops, h, o1, o2 =>
    match step op h o2 with
    | none => none
    | some (h', o2', e) => (run2 ops h' o1 o2').map fun r => (r.1, r.2.1, r.2.2.1, e :: r.2.2.2)

/-- An empty heap. -/
def _root_.Xmm.Heap.empty (K : Type) : Heap K := ⟨fun _ => none, 0⟩

/-- A newly constructed own-memory phrase, xmmPhrase.cpp:37-55. -/
def new (K : Type) (bimodal : Bool) : HPhrase K := ⟨Phrase.construct K true bimodal, .null, .null⟩

end HPhrase
end Xmm
