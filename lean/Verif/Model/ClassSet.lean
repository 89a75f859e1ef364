import Verif.Model.Cpp
import Verif.Model.StdMap
import Mathlib.Data.String.Basic
/-
The set of classes of a model: the template `Model<SingleClassModel, ModelType>`, src/core/model/xmmModel.hpp, for any type `C` of single-class models.
What depends on the type of model is in Model/GmmFilter.lean and Model/HierHmm.lean; the threads are in Model/Pool.lean.
-/
namespace Xmm

/-- The members `models` and `is_training_`, src/core/model/xmmModel.hpp:480, 613 -/
structure ClassSet (C : Type) where
  models : SMap String C
  training : Bool

namespace ClassSet
variable {C : Type}

/-- `checkTraining()`, src/core/model/xmmModel.hpp:552-556 (`is_joining_` is false outside `joinTraining`) -/
def checkTraining : Prog (ClassSet C) Unit := fun M => if M.training then .throw .runtimeError M else .ret () M

/-- `size()`, src/core/model/xmmModel.hpp:172-174: it does not call `checkTraining`. -/
def size : Prog (ClassSet C) Nat := fun M => .ret M.models.length M

/-- `hasClass(label)`, src/core/model/xmmModel.hpp:181-184 -/
def hasClass (label : String) : Prog (ClassSet C) Bool := do
  checkTraining
  let M ← Prog.get
  pure (SMap.find? label M.models).isSome

/-- The loop of `getIndex`, src/core/model/xmmModel.hpp:193-199, `i` being the value of the variable before the loop -/
def indexFrom (label : String) : Int → SMap String C → Int
  | _, [] => -1
  | i, (l, _) :: m => if l = label then i + 1 else indexFrom label (i + 1) m

/-- `getIndex(label)`, src/core/model/xmmModel.hpp:191-201 -/
def getIndex (label : String) : Prog (ClassSet C) Int := do
  checkTraining
  let M ← Prog.get
  pure (indexFrom label (-1) M.models)

/-- `reset()`, src/core/model/xmmModel.hpp:404-410; `r` is `reset()` of the classes, none of which is training (they do not throw). -/
def reset (r : C → C) : Prog (ClassSet C) Unit := do
  checkTraining
  Prog.modify fun M => { M with models := M.models.map fun lc => (lc.1, r lc.2) }

/-- `removeClass(label)`, src/core/model/xmmModel.hpp:207-216, if the class `label` is not training: `cancelTraining(label)` has no effect on the classes. -/
def removeClass (r : C → C) (label : String) : Prog (ClassSet C) Unit := do
  let M ← Prog.get
  match SMap.find? label M.models with
  | none => Prog.throw .outOfRange
  | some _ => do
    Prog.set { M with models := SMap.erase label M.models }
    reset r

/-- `clear()`, src/core/model/xmmModel.hpp:221-225, no training in progress -/
def clear (r : C → C) : Prog (ClassSet C) Unit := do
  Prog.modify fun M => { M with models := [] }
  reset r

/-- `addModelForClass(label)`, src/core/model/xmmModel.hpp:579-596: `fresh` is a new class, `conf` sets the parameters that the
    configuration gives to the label. -/
def addModelForClass (fresh : String → C) (conf : String → C → C) (label : String) : Prog (ClassSet C) Unit :=
  Prog.modify fun M =>
    let m := SMap.insertNew label (fresh label) M.models
    match SMap.find? label m with
    | none => M
    | some c => { M with models := SMap.assign label (conf label c) m }

/-- The end of a training with threads: the classes whose training failed are erased, `is_training_ = false`, `reset()`; src/core/model/xmmModel.hpp:495-512 -/
def joinTraining (r : C → C) (ok : String → Bool) : Prog (ClassSet C) Unit := do
  Prog.modify fun M => { M with models := M.models.filter fun lc => ok lc.1, training := false }
  reset r

/-- `train(trainingSet)`, src/core/model/xmmModel.hpp:246-301 (mode Parallel), for a training set with the labels `labels`; `trained` is what the training does to the classes,
    `ok` tells the classes whose training does not fail. -/
def train (fresh : String → C) (conf : String → C → C) (trained r : C → C) (labels : List String) (ok : String → Bool) : Prog (ClassSet C) Unit := do
  if labels.isEmpty then pure ()
  else do
    clear r
    Prog.modify fun M => { M with training := true }
    labels.foldlM (fun _ l => addModelForClass fresh conf l) ()
    Prog.modify fun M => { M with models := M.models.map fun lc => (lc.1, trained lc.2) }
    joinTraining r ok

/-- `train(trainingSet, label)`, src/core/model/xmmModel.hpp:312-361 (mode Parallel), for a label of the training set whose dimensions are those of the model; `ok`: the training
    of the class does not fail. -/
def trainClass (fresh : String → C) (conf : String → C → C) (trained r : C → C) (label : String) (ok : Bool) : Prog (ClassSet C) Unit := do
  Prog.modify fun M => { M with training := true }
  addModelForClass fresh conf label
  Prog.modify fun M => { M with models := M.models.map fun lc => if lc.1 = label then (lc.1, trained lc.2) else lc }
  joinTraining r fun l => l ≠ label || ok

end ClassSet
end Xmm
