import Verif.Model.TrainingSetStats
import Verif.Model.TrainingSet
import Verif.Model.KMeans
/-
A recording session: a training set filled through its own interface, src/core/trainingset/xmmTrainingSet.cpp:217-283, and what training reads of
it.
-/
namespace Xmm

/-- The frames of a phrase, column by column: `getValue(t, d)` for `t < size()`, `d < dimension`, e.g. xmmKMeans.cpp:149-156 and
    xmmGmmSingleClass.cpp:342-352.  Simplification: where the code reads whole frames through `getPointer`, `getPointer_input` and
    `getPointer_output` (xmmGmmSingleClass.cpp:414-417), these point to the same cells (`C16_getPointer`, `C16_getPointer_bimodal`). -/
def Phrase.readFrames {K : Type} : Prog (Phrase K) (List (List K)) := do
  let p ← Prog.get
  (List.range p.length).mapM fun t => (List.range p.dimension).mapM fun d => Phrase.getValue t d

/-- the frames of the phrases of a set, in the order of its map: `for (auto it = trainingSet->begin(); …)`, xmmTrainingSet.hpp:119-124 -/
def TSStats.allFrames {K : Type} (refs : List Nat) : Prog (TSStats.Store K) (List (List (List K))) :=
  refs.mapM fun r => TSStats.on r Phrase.readFrames

namespace TS
variable {K L : Type} [LinearOrder L]

/-- the phrase objects of a world -/
def World.store (w : World K L) : TSStats.Store K := fun r => (w.obj r).ph

/-- A call of a member function of `getPhrase(k)`, xmmTrainingSet.cpp:217-220; the pointer is null if there is no such phrase. -/
def takeOp (i : Nat) (k : Int) (op : Phrase.Op K) : Prog (World K L) Unit := do
  let t ← getSet i
  match SMap.find? k t.phrases with
  | none => Prog.undef
  | some r => phraseOp r op

/-- `getPhrase(k)->label.set(l)`, xmmTrainingSet.cpp:217-220. -/
def takeLabel (i : Nat) (k : Int) (l : L) : Prog (World K L) Unit := do
  let t ← getSet i
  match SMap.find? k t.phrases with
  | none => Prog.undef
  | some r => userRelabel r l

/-- What the user of a training set does in a recording session: `addPhrase(k, label)`, recording into or clearing phrase `k`, changing its
    label, removing it, removing a class, clearing the set (xmmTrainingSet.cpp:217-275). -/
inductive RecOp (K L : Type) where
  | add (k : Int) (l : L)
  | call (k : Int) (op : Phrase.Op K)
  | relabel (k : Int) (l : L)
  | remove (k : Int)
  | removeClass (l : L)
  | clear

/-- One call, xmmTrainingSet.cpp:217-275. -/
def recStep [Inhabited L] (i : Nat) : RecOp K L → Prog (World K L) Unit
  | .add k l => addLabel i k l
  | .call k op => takeOp i k op
  | .relabel k l => takeLabel i k l
  | .remove k => TS.remove i k
  | .removeClass l => removeClass i l
  | .clear => TS.clear i

/-- A session, xmmTrainingSet.cpp:217-275; exceptions are caught by the caller.  `none`: undefined behaviour. -/
def recRun [Inhabited L] (i : Nat) : List (RecOp K L) → World K L → Option (World K L × List (Option Exn))
  | [], w => some (w, [])
  | op :: ops, w =>
    match recStep i op w with
    | .ret _ w' => (recRun i ops w').map fun r => (r.1, none :: r.2)
    | .throw e w' => (recRun i ops w').map fun r => (r.1, some e :: r.2)
    | .ub => none

/-- Creation of a training set with its own memory and its dimensions, xmmTrainingSet.cpp:36-50 and 143-164. -/
def openSet (i : Nat) (b : Bool) (dim di : Nat) : Prog (World K L) Unit := do
  newSet i true b
  setDim i dim
  if b then setDi i di else pure ()

end TS
end Xmm
