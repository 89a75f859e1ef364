import Verif.Model.Phrase
import Mathlib.Algebra.Order.Field.Basic
/-
Model of the statistics and rescaling of src/core/trainingset/xmmPhrase.cpp:473-535.
-/
namespace Xmm.Phrase
variable {K : Type}

/-- `for (t = 0; t < n; t++) acc = body(acc, t)` in the outcome monad. -/
def loop {σ α : Type} (n : Nat) (init : α) (body : α → Nat → Prog σ α) : Prog σ α :=
  (List.range n).foldlM body init

/-- One entry of `mean()`, xmmPhrase.cpp:476-480. -/
def meanAt [Field K] (d : Nat) : Prog (Phrase K) K := do
  let p ← Prog.get
  let s ← loop p.length 0 (fun acc t => do let v ← getValue t d; pure (acc + v))
  pure (s / (p.length : K))

/-- `mean()`, xmmPhrase.cpp:473-483. -/
def mean [Field K] : Prog (Phrase K) (List K) := do
  let p ← Prog.get
  (List.range p.dimension).mapM meanAt

/-- One entry of `standardDeviation()`, xmmPhrase.cpp:489-495; `sqrt` is `sqrtf`, `m` the entry of `mean()`. -/
def stddevAt [Field K] (sqrt : K → K) (d : Nat) (m : K) : Prog (Phrase K) K := do
  let p ← Prog.get
  let s ← loop p.length 0 (fun acc t => do
    let v ← getValue t d
    let w ← getValue t d
    pure (acc + (v - m) * (w - m)))
  pure (sqrt (s / (p.length : K)))

/-- `standardDeviation()`, xmmPhrase.cpp:485-498. -/
def standardDeviation [Field K] (sqrt : K → K) : Prog (Phrase K) (List K) := do
  let p ← Prog.get
  (List.range p.dimension).mapM (fun d => do let m ← meanAt d; stddevAt sqrt d m)

/-- One entry of `minmax()`, xmmPhrase.cpp:501-508. `fmax`, `flowest` are the limits of the float type. -/
def minmaxAt [LinearOrder K] (fmax flowest : K) (d : Nat) : Prog (Phrase K) (K × K) := do
  let p ← Prog.get
  loop p.length (fmax, flowest) (fun acc t => do
    let v ← getValue t d
    let w ← getValue t d
    pure (min v acc.1, max w acc.2))

/-- `minmax()`, xmmPhrase.cpp:500-511. -/
def minmax [LinearOrder K] (fmax flowest : K) : Prog (Phrase K) (List (K × K)) := do
  let p ← Prog.get
  (List.range p.dimension).mapM (minmaxAt fmax flowest)

/-- `p[i] -= offset[d]; p[i] *= gain[d];` on the cells of a block: undefined behaviour (`none`) outside the block, on a
    cell that was never written, or outside the vectors. -/
def rescaleCell [Field K] (ptr : Ptr K) (i d : Nat) (offset gain : List K) : Option (Ptr K) :=
  match ptr.read i, offset[d]?, gain[d]? with
  | some v, some o, some g => ptr.write i [(v - o) * g]
  | _, _, _ => none

/-- The inner loops of `rescale`, xmmPhrase.cpp:518-521, 523-526, 529-532: `d` from `lo` to `lo + n - 1`, on the row
    starting at `base`. -/
def rescaleRow [Field K] (base lo n : Nat) (offset gain : List K) (ptr : Ptr K) : Option (Ptr K) :=
  (List.range n).foldlM (fun ptr k => rescaleCell ptr (base + (lo + k)) (lo + k) offset gain) ptr

/-- One iteration of the outer loop of `rescale`, xmmPhrase.cpp:515-533. -/
def rescaleFrame [Field K] (offset gain : List K) (t : Nat) : Prog (Phrase K) Unit := do
  let p ← Prog.get
  if p.bimodal then do
    let i ← getPointerInput t
    let d0 ← orUB (rescaleRow i 0 p.dimensionInput offset gain p.data0)
    Prog.set { p with data0 := d0 }
    let o ← getPointerOutput t
    let d1 ← orUB (rescaleRow o p.dimensionInput (p.dimension - p.dimensionInput) offset gain p.data1)
    Prog.set { p with data0 := d0, data1 := d1 }
  else do
    let i ← getPointer t
    let d0 ← orUB (rescaleRow i 0 p.dimension offset gain p.data0)
    Prog.set { p with data0 := d0 }

/-- `rescale(offset, gain)`, xmmPhrase.cpp:513-535. -/
def rescale [Field K] (offset gain : List K) : Prog (Phrase K) Unit := do
  let p ← Prog.get
  loop p.length () (fun _ t => rescaleFrame offset gain t)

end Xmm.Phrase
