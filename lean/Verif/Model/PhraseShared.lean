import Verif.Model.Phrase
/-
Histories of a phrase in shared memory (src/core/trainingset/xmmPhrase.cpp:282-344): the calls of its user, and what the
user does with the arrays that they have connected.
-/
namespace Xmm.Phrase
variable {K : Type}

/-- What happens to a phrase in shared memory.  `call` is one of the calls that also exist for a phrase with its own memory;
    `pokeInput` and `pokeOutput` are writes of the user to the array that is connected (the phrase holds the user's pointer,
    xmmPhrase.cpp:290, 303-304, 317 and 329, so that the array is `data_[0]` or `data_[1]` itself). -/
inductive SOp (K : Type) where
  | call (op : Op K)
  | connect (mem : List K) (len : Nat)
  | connectBoth (memIn memOut : List K) (len : Nat)
  | connectInput (mem : List K) (len : Nat)
  | connectOutput (mem : List K) (len : Nat)
  | disconnect
  | pokeInput (i : Nat) (v : K)
  | pokeOutput (i : Nat) (v : K)

/-- The user writes to cell `i` of their array; a pointer that the phrase does not hold any more is not affected.
    (A write outside of the array is the user's fault and does nothing here.) -/
def poke (i : Nat) (v : K) : Ptr K → Ptr K
  | .cells l => .cells (l.set i (some v))
  | p => p

/-- One event: xmmPhrase.cpp:282-344, or a write of the user. -/
def sstep : SOp K → Prog (Phrase K) Unit
  | .call op => step op
  | .connect m n => connect m n
  | .connectBoth m m' n => connectBoth m m' n
  | .connectInput m n => connectInput m n
  | .connectOutput m n => connectOutput m n
  | .disconnect => disconnect
  | .pokeInput i v => Prog.modify fun p => { p with data0 := poke i v p.data0 }
  | .pokeOutput i v => Prog.modify fun p => { p with data1 := poke i v p.data1 }

/-- A history of a phrase whose exceptions are caught by the caller, xmmPhrase.cpp:282-344: the final state and the
    exceptions.  `none`: undefined behaviour occurred. -/
def srun : List (SOp K) → Phrase K → Option (Phrase K × List (Option Exn))
  | [], p => some (p, [])
  | op :: ops, p =>
    match sstep op p with
    | .ret _ p' => (srun ops p').map fun r => (r.1, none :: r.2)
    | .throw e p' => (srun ops p').map fun r => (r.1, some e :: r.2)
    | .ub => none

end Xmm.Phrase
