import Verif.Model.ModelCopy
import Verif.Model.LoadedModel
import Verif.Model.Events
/-
`fromJson` on a model that exists: src/core/model/xmmModel.hpp:449-458 (inherited by `GMM`) and src/models/hmm/xmmHierarchicalHmm.cpp:519-527, with the JSON constructors,
xmmModel.hpp:103-120 and xmmHierarchicalHmm.cpp:50-62, and `operator=`, xmmModel.hpp:127-155 and xmmHierarchicalHmm.cpp:64-77.

The objects are those of Verif/Model/ModelCopy.lean; for each model, `listeners` is its member `training_events`.
-/
namespace Xmm
namespace Copies
open World
variable {M μ : Type} (F : Family M)

/-- The models of a program and the listeners of each of them (`training_events`, xmmModel.hpp:475). -/
structure Heard (M μ : Type) where
  world : World M
  listeners : Nat → EventGen μ

/-- a function on the models alone -/
def onWorld {α : Type} (p : Prog (World M) α) : Prog (Heard M μ) α := fun s =>
  match p s.world with
  | .ret a w => .ret a { s with world := w }
  | .throw e w => .throw e { s with world := w }
  | .ub => .ub

/-- `training_events = g` of the model number `i` -/
def setListeners (i : Nat) (g : EventGen μ) : Prog (Heard M μ) Unit :=
  Prog.modify fun s => { s with listeners := fun j => if j = i then g else s.listeners j }

/-- What a JSON constructor makes: the values of `shared_parameters` and the state of the model, or an exception. -/
abbrev ReadModel (M : Type) := Res Unit (SharedView × M)

/-- The JSON constructor, xmmModel.hpp:103-120: a new model, to which nobody listens; if it throws there is no object. -/
def construct (read : ReadModel M) (i : Nat) : Prog (Heard M μ) Unit := fun s =>
  match read with
  | .ub => .ub
  | .throw e _ => .throw e s
  | .ret vm _ => (do
    onWorld (create i vm.1 vm.2)
    setListeners i []) s

/-- `Model::operator=`, xmmModel.hpp:127-155: as `assign`, with `training_events = src.training_events`, line 139; `keep old new` is `new` with the members of the derived class that
    this operator does not assign. -/
def assignModel (keep : M → M → M) (dst src : Nat) : Prog (Heard M μ) Unit := do
  let d ← onWorld (getObj dst)
  let o ← onWorld (getObj src)
  if dst = src then pure ()
  else if F.training d.state then Prog.throw .runtimeError
  else if F.training o.state then Prog.throw .runtimeError
  else do
    onWorld (Prog.modify fun w => (w.allocShared (w.shared o.ptr)).put dst (some ⟨w.next, o.classPtr, keep d.state (F.copy (w.attached F o))⟩))
    let s ← Prog.get
    setListeners dst (s.listeners src)

/-- the rest of a block in which `tmp` is a local variable: it is destroyed at the end and by exceptions -/
def withLocal (tmp : Nat) (p : Prog (Heard M μ) Unit) : Prog (Heard M μ) Unit := fun s =>
  match p s with
  | .ret _ s' => onWorld (destroy tmp) s'
  | .throw e s' => match onWorld (destroy tmp) s' with
    | .ret _ s'' => .throw e s''
    | .throw e' s'' => .throw e' s''
    | .ub => .ub
  | .ub => .ub

/-- `Model::fromJson`, xmmModel.hpp:449-458: `tmp` is the number of the temporary. -/
def modelFromJson (keep : M → M → M) (read : ReadModel M) (i tmp : Nat) : Prog (Heard M μ) Unit := do
  let _ ← onWorld (getObj i)
  let s ← Prog.get
  let saved := s.listeners i
  construct read tmp
  withLocal tmp do
    assignModel F keep i tmp
    setListeners i saved

/-- `HierarchicalHMM::fromJson`, xmmHierarchicalHmm.cpp:519-527: `operator=` of the derived class assigns all members, 64-77. -/
def hierFromJson (read : ReadModel M) (i tmp : Nat) : Prog (Heard M μ) Unit := do
  let o ← onWorld (getObj i)
  if F.training o.state then Prog.throw .runtimeError
  else do
    construct read tmp
    withLocal tmp (assignModel F (fun _ s => s) i tmp)

end Copies

section
variable {K : Type} [Field K] [LinearOrder K] [JsonReal K] (alive : Nat → Bool) (ids : JsonIds) (nar : K → K) (tiny realMax : K)

/-- what the JSON constructor of `GMM` makes of `root`, xmmGmm.cpp:42 -/
def GmmBody.read (z : K) (root : Json K) : Copies.ReadModel (GmmModel K) :=
  match GmmBody.ofJson alive ids nar tiny realMax z root with
  | .ret _ B => .ret (B.view, GmmBody.model B MultiRes.empty) ()
  | .throw e _ => .throw e ()
  | .ub => .ub

/-- what the JSON constructor of `HierarchicalHMM` makes of `root`, xmmHierarchicalHmm.cpp:50-62 -/
def HierBody.read (z : K) (root : Json K) : Copies.ReadModel (HierHmm K) :=
  match HierBody.ofJson alive ids nar tiny realMax z root with
  | .ret B _ => .ret (B.body.view, HierBody.model B MultiRes.empty [] [] false) ()
  | .throw e _ => .throw e ()
  | .ub => .ub

/-- `fromJson` of the `GMM` number `i`: the temporary is a `Model`, so `results` is not assigned, xmmModel.hpp:452-453. -/
def gmmFromJson {μ : Type} (z : K) (root : Json K) (i tmp : Nat) : Prog (Copies.Heard (GmmModel K) μ) Unit :=
  Copies.modelFromJson (gmmFamily z) (fun old new => { new with results := old.results }) (GmmBody.read alive ids nar tiny realMax z root) i tmp

/-- `fromJson` of the `HierarchicalHMM` number `i`, xmmHierarchicalHmm.cpp:519-527. -/
def hmmFromJson {μ : Type} (z : K) (root : Json K) (i tmp : Nat) : Prog (Copies.Heard (HierHmm K) μ) Unit :=
  Copies.hierFromJson (hmmFamily z) (HierBody.read alive ids nar tiny realMax z root) i tmp

end
end Xmm
