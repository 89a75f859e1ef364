import Verif.Model.ClassSet
import Verif.Model.SharedParams
/-
The calls `train` and `cancelTraining` of a model with its shared parameters, src/core/model/xmmModel.hpp:246-393: what they do before the first class is trained, where
they may throw, and what is left then.  What happens after that is `ClassSet.joinTraining` (mode Parallel); the threads are in Model/Pool.lean.
-/
namespace Xmm

/-- A model: its classes, `is_training_` and `shared_parameters`, src/core/model/xmmModel.hpp:465, 480, 613 -/
structure TrainableModel (C K : Type) where
  set : ClassSet C
  shared : SharedParams K

/-- What a model reads of a training set: `labels()` (none if the set is empty), `dimension`, `dimension_input` and `column_names`,
    src/core/trainingset/xmmTrainingSet.hpp:296-309 -/
structure SetView where
  labels : List String
  dim : Nat
  di : Nat
  columns : List String
  deriving DecidableEq, Repr

namespace TrainableModel
variable {C K : Type}

/-- a call that concerns the classes -/
def onSet {α : Type} (p : Prog (ClassSet C) α) : Prog (TrainableModel C K) α := fun t =>
  match p t.set with
  | .ret a s => .ret a { t with set := s }
  | .throw e s => .throw e { t with set := s }
  | .ub => .ub

/-- a call of `shared_parameters` -/
def onShared {α : Type} (p : Prog (SharedParams K) α) : Prog (TrainableModel C K) α := fun t =>
  match p t.shared with
  | .ret a s => .ret a { t with shared := s }
  | .throw e s => .throw e { t with shared := s }
  | .ub => .ub

variable (alive : Nat → Bool) (me : Nat)

/-- "Fetch training set parameters", src/core/model/xmmModel.hpp:253-259 and 333-339 -/
def adopt (s : SetView) : Prog (TrainableModel C K) Unit := do
  onShared (SharedParams.setDimension alive me s.dim)
  let t ← Prog.get
  if t.shared.bimodal.value then onShared (SharedParams.setDimensionInput alive me s.di)
  onShared (SharedParams.setColumnNames alive me s.columns)

/-- `cancelTraining()`, src/core/model/xmmModel.hpp:365-376, if no class is being trained and no class has failed since the last sweep -/
def cancelTraining (r : C → C) : Prog (TrainableModel C K) Unit := do
  let t ← Prog.get
  if t.set.training then onSet (ClassSet.joinTraining r fun _ => true) else pure ()

/-- `cancelTraining(label)`, src/core/model/xmmModel.hpp:382-393, if no class is being trained and no class has failed since the last sweep -/
def cancelClass (r : C → C) (label : String) : Prog (TrainableModel C K) Unit := do
  let t ← Prog.get
  if t.set.training && (SMap.find? label t.set.models).isSome then onSet (ClassSet.joinTraining r fun _ => true) else pure ()

/-- `clear()`, src/core/model/xmmModel.hpp:221-225 -/
def clear (r : C → C) : Prog (TrainableModel C K) Unit := do
  cancelTraining r
  onSet (ClassSet.clear r)

variable (fresh : String → C) (conf : String → C → C) (trained r : C → C)

/-- `train(trainingSet)`, src/core/model/xmmModel.hpp:246-301 (mode Parallel); `ok` tells the classes whose training does not fail.  The loop of lines 261-271 finds no class: `clear()`
    was called before. -/
def train (s : SetView) (ok : String → Bool) : Prog (TrainableModel C K) Unit := do
  if s.labels.isEmpty then pure ()
  else do
    cancelTraining r
    clear r
    onSet (Prog.modify fun M => { M with training := true })
    adopt alive me s
    onSet (s.labels.foldlM (fun _ l => ClassSet.addModelForClass fresh conf l) ())
    onSet (Prog.modify fun M => { M with models := M.models.map fun lc => (lc.1, trained lc.2) })
    onSet (ClassSet.joinTraining r ok)

/-- `train(trainingSet, label)`, src/core/model/xmmModel.hpp:312-361 (mode Parallel); `ok`: the training of the class does not fail. -/
def trainClass (s : SetView) (label : String) (ok : Bool) : Prog (TrainableModel C K) Unit := do
  if label ∉ s.labels then Prog.throw .outOfRange
  else do
    cancelClass r label
    let t ← Prog.get
    if 0 < t.set.models.length ∧
        (t.shared.dimension.value ≠ s.dim ∨ (t.shared.bimodal.value = true ∧ t.shared.dimensionInput.value ≠ s.di)) then Prog.throw .runtimeError
    else do
      onSet (Prog.modify fun M => { M with training := true })
      adopt alive me s
      onSet (ClassSet.addModelForClass fresh conf label)
      onSet (Prog.modify fun M => { M with models := M.models.map fun lc => if lc.1 = label then (lc.1, trained lc.2) else lc })
      onSet (ClassSet.joinTraining r fun l => decide (l ≠ label) || ok)

end TrainableModel
end Xmm
