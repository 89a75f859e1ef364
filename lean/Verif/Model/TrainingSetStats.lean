import Verif.Model.PhraseStats
/-
Model of the statistics and rescaling of src/core/trainingset/xmmTrainingSet.cpp:316-407.

The phrases of a set are shared pointers: `Store K` maps references to phrase objects and a training set is the list of
the references it holds, in the order of its map.  Simplification: the loops over phrases and over dimensions are
exchanged in `mean`, `standardDeviation` and `minmax` (every entry `d` is accumulated independently, in the same order).
-/
namespace Xmm.TSStats
open Phrase
variable {K : Type}

/-- the phrase objects behind the shared pointers -/
abbrev Store (K : Type) := Nat → Phrase K

/-- call a method on the phrase behind a shared pointer (`phrase.second->…`) -/
def on {α : Type} (r : Nat) (f : Prog (Phrase K) α) : Prog (Store K) α := fun o =>
  match f (o r) with
  | .ret a p => .ret a (fun q => if q = r then p else o q)
  | .throw e p => .throw e (fun q => if q = r then p else o q)
  | .ub => .ub

/-- `phrase.second->size()` summed over the set, xmmTrainingSet.cpp:322-326 / 342-347 (`total_length`). -/
def totalLength (refs : List Nat) : Prog (Store K) Nat :=
  refs.foldlM (fun acc r => do
    let n ← on r (do let p ← Prog.get; pure p.length)
    pure (acc + n)) 0

/-- One entry of `mean()`, xmmTrainingSet.cpp:320-330. -/
def meanAt [Field K] (refs : List Nat) (d : Nat) : Prog (Store K) K := do
  let s ← refs.foldlM (fun acc r => on r (do
    let p ← Prog.get
    loop p.length acc (fun acc t => do let v ← getValue t d; pure (acc + v)))) 0
  let n ← totalLength refs
  pure (s / (n : K))

/-- `mean()`, xmmTrainingSet.cpp:316-332. -/
def mean [Field K] (dim : Nat) (refs : List Nat) : Prog (Store K) (List K) :=
  (List.range dim).mapM (meanAt refs)

/-- One entry of `standardDeviation()`, xmmTrainingSet.cpp:339-352; `m` is the entry of `mean()`. -/
def stddevAt [Field K] (sqrt : K → K) (refs : List Nat) (d : Nat) (m : K) : Prog (Store K) K := do
  let s ← refs.foldlM (fun acc r => on r (do
    let p ← Prog.get
    loop p.length acc (fun acc t => do
      let v ← getValue t d
      let w ← getValue t d
      pure (acc + (v - m) * (w - m))))) 0
  let n ← totalLength refs
  pure (sqrt (s / (n : K)))

/-- `standardDeviation()`, xmmTrainingSet.cpp:334-354. -/
def standardDeviation [Field K] (sqrt : K → K) (dim : Nat) (refs : List Nat) : Prog (Store K) (List K) :=
  (List.range dim).mapM (fun d => do let m ← meanAt refs d; stddevAt sqrt refs d m)

/-- One entry of `minmax()`, xmmTrainingSet.cpp:356-393: `bimodal`, `di` are the attributes of the set. -/
def minmaxAt [LinearOrder K] (fmax flowest : K) (bimodal : Bool) (di : Nat) (refs : List Nat) (d : Nat) :
    Prog (Store K) (K × K) :=
  refs.foldlM (fun acc r => on r (do
    let p ← Prog.get
    let n := if bimodal then (if d < di then p.inputLength else p.outputLength) else p.length
    loop n acc (fun acc t => do
      let v ← getValue t d
      let w ← getValue t d
      pure (min v acc.1, max w acc.2)))) (fmax, flowest)

/-- `minmax()`, xmmTrainingSet.cpp:356-393. -/
def minmax [LinearOrder K] (fmax flowest : K) (bimodal : Bool) (dim di : Nat) (refs : List Nat) :
    Prog (Store K) (List (K × K)) :=
  (List.range dim).mapM (minmaxAt fmax flowest bimodal di refs)

/-- `rescale(offset, gain)`, xmmTrainingSet.cpp:395-400. -/
def rescale [Field K] (offset gain : List K) : List Nat → Prog (Store K) Unit
  | [] => pure ()
  | r :: rs => do
    on r (Phrase.rescale offset gain)
    rescale offset gain rs

/-- `normalize()`, xmmTrainingSet.cpp:402-407. -/
def normalize [Field K] (sqrt : K → K) (dim : Nat) (refs : List Nat) : Prog (Store K) Unit := do
  let offset ← mean dim refs
  let sd ← standardDeviation sqrt dim refs
  rescale offset (sd.map (fun g => 1 / g)) refs

end Xmm.TSStats
