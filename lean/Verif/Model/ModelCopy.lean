import Verif.Model.ModelJson
/-
Copies of models and their shared parameters: src/core/model/xmmModel.hpp:55-155, 312-361, 579-596, src/models/gmm/xmmGmm.cpp:36-50, src/models/hmm/xmmHierarchicalHmm.cpp:39-77.

A model owns a `SharedParameters` object through a `shared_ptr`, and each of its classes holds a `shared_ptr` to such an object as well: to that of the model for
a class created by the model, to that of the source for a class that was copied.  `World` keeps these objects in a heap, by address; of each of them only what recognition reads
is kept (`SharedView`).  The models of Verif/Model/GmmFilter.lean and HierHmm.lean contain the values that they read of `shared_parameters`; `Family.attach` puts there what the
pointers lead to, before every call.
-/
namespace Xmm
namespace Copies

/-- What this file needs of a type of models: `attach own cls` gives the model the shared parameters `own` and its class `l` the shared parameters `cls l`; `has l` tells whether
    there is a class `l`; `training` is `is_training_`; `copy` is the state of the copy of a model. -/
structure Family (M : Type) where
  attach : SharedView → (String → SharedView) → M → M
  has : String → M → Bool
  training : M → Bool
  copy : M → M

/-- A model: the address of its shared parameters, the addresses held by its classes, and its state. -/
structure Obj (M : Type) where
  ptr : Nat
  classPtr : String → Nat
  state : M

/-- The objects of a program: shared parameters (`next` is the first unused address) and models. -/
structure World (M : Type) where
  shared : Nat → SharedView
  next : Nat
  obj : Nat → Option (Obj M)

namespace World
variable {M : Type} (F : Family M)

/-- what the pointers of a model lead to -/
def attached (w : World M) (o : Obj M) : M := F.attach (w.shared o.ptr) (fun l => w.shared (o.classPtr l)) o.state

/-- the model number `i`, as a call on it finds it -/
def view (w : World M) (i : Nat) : Option M := (w.obj i).map (w.attached F)

/-- replace the model number `i` -/
def put (w : World M) (i : Nat) (o : Option (Obj M)) : World M := { w with obj := fun j => if j = i then o else w.obj j }

/-- `std::make_shared<SharedParameters>` with the values `v` -/
def allocShared (w : World M) (v : SharedView) : World M :=
  { w with shared := fun a => if a = w.next then v else w.shared a, next := w.next + 1 }

end World
open World

variable {M : Type} (F : Family M)

/-- the model number `i` -/
def getObj (i : Nat) : Prog (World M) (Obj M) := do
  let w ← Prog.get
  match w.obj i with
  | some o => pure o
  | none => Prog.undef

/-- A constructor, xmmModel.hpp:55-72: new shared parameters with the values `v`, and the state `s` (a model without class). -/
def create (i : Nat) (v : SharedView) (s : M) : Prog (World M) Unit := do
  let w ← Prog.get
  match w.obj i with
  | some _ => Prog.undef
  | none => Prog.set ((w.allocShared v).put i (some ⟨w.next, fun _ => w.next, s⟩))

/-- What the copy constructor and `operator=` have in common, xmmModel.hpp:78-97, 127-155: new shared parameters, and classes that keep the pointers of those of the source. -/
def copyTo (dst : Nat) (o : Obj M) : Prog (World M) Unit :=
  Prog.modify fun w => (w.allocShared (w.shared o.ptr)).put dst (some ⟨w.next, o.classPtr, F.copy (w.attached F o)⟩)

/-- The copy constructor, xmmModel.hpp:78-97 and those of the derived classes; if it throws there is no object. -/
def copyConstruct (src dst : Nat) : Prog (World M) Unit := do
  let w ← Prog.get
  match w.obj dst with
  | some _ => Prog.undef
  | none => do
    let o ← getObj src
    if F.training o.state then Prog.throw .runtimeError else copyTo F dst o

/-- `operator=`, xmmModel.hpp:127-155 and those of the derived classes: `models.clear()` is called before the copy, so the classes are copied by their copy constructors. -/
def assign (dst src : Nat) : Prog (World M) Unit := do
  let d ← getObj dst
  let o ← getObj src
  if dst = src then pure ()
  else if F.training d.state then Prog.throw .runtimeError
  else if F.training o.state then Prog.throw .runtimeError
  else copyTo F dst o

/-- a change of the attributes of `shared_parameters` of the model number `i`, by the user -/
def params (i : Nat) (g : SharedView → SharedView) : Prog (World M) Unit := do
  let o ← getObj i
  Prog.modify fun w => { w with shared := fun a => if a = o.ptr then g (w.shared a) else w.shared a }

/-- `train(trainingSet)`, xmmModel.hpp:246-301: `s` is the state that the training leaves, whatever it is; the classes have been deleted and created again. -/
def train (i : Nat) (s : M) : Prog (World M) Unit := do
  let o ← getObj i
  Prog.modify fun w => w.put i (some ⟨o.ptr, fun _ => o.ptr, s⟩)

/-- `train(trainingSet, label)`, xmmModel.hpp:312-361 with `addModelForClass`, 579-596: a class that exists is kept, with its pointer. -/
def trainClass (i : Nat) (label : String) (s : M) : Prog (World M) Unit := do
  let o ← getObj i
  Prog.modify fun w => w.put i (some ⟨o.ptr, fun l => if l = label ∧ ¬ F.has l o.state then o.ptr else o.classPtr l, s⟩)

/-- a call of a member function that does not change pointers (`filter`, `reset`, `removeClass`, changes of `configuration`...) -/
def call {α : Type} (i : Nat) (f : Prog M α) : Prog (World M) α := fun w =>
  match w.obj i with
  | none => .ub
  | some o => match f (w.attached F o) with
    | .ret a s => .ret a (w.put i (some { o with state := s }))
    | .throw e s => .throw e (w.put i (some { o with state := s }))
    | .ub => .ub

/-- the destructor -/
def destroy (i : Nat) : Prog (World M) Unit := do
  let _ ← getObj i
  Prog.modify fun w => w.put i none

/-- the operations of a program on its models -/
inductive Op (M : Type) where
  | create (i : Nat) (v : SharedView) (s : M)
  | copyConstruct (src dst : Nat)
  | assign (dst src : Nat)
  | params (i : Nat) (g : SharedView → SharedView)
  | train (i : Nat) (s : M)
  | trainClass (i : Nat) (label : String) (s : M)
  | call (i : Nat) (f : Prog M Unit)
  | destroy (i : Nat)

/-- one operation -/
def step : Op M → Prog (World M) Unit
  | .create i v s => create i v s
  | .copyConstruct src dst => copyConstruct F src dst
  | .assign dst src => assign F dst src
  | .params i g => params i g
  | .train i s => train i s
  | .trainClass i l s => trainClass F i l s
  | .call i f => call F i f
  | .destroy i => destroy i

/-- a history; exceptions are caught by the program, undefined behaviour ends it -/
def run : List (Op M) → World M → Option (World M)
  | [], w => some w
  | op :: ops, w => match step F op w with
    | .ret _ w' => run ops w'
    | .throw _ w' => run ops w'
    | .ub => none

/-- no object exists -/
def World.empty : World M := ⟨fun _ => ⟨false, 1, 0, 1⟩, 0, fun _ => none⟩

end Copies

/-- a class that reads the shared parameters `v` -/
def Gmm.attach {K : Type} (v : SharedView) (m : Gmm K) : Gmm K := { m with bimodal := v.bimodal, dim := v.dim, di := v.di, window := v.window }

/-- a class that reads the shared parameters `v`; its states hold the same pointer, xmmHmmSingleClass.cpp:109-123 -/
def Hmm.attach {K : Type} (v : SharedView) (m : Hmm K) : Hmm K :=
  { m with bimodal := v.bimodal, dim := v.dim, di := v.di, window := v.window, sts := m.sts.map (Gmm.attach v) }

section
variable {K : Type} [Field K] [LinearOrder K]

/-- `GMM`: the copy constructor, xmmGmm.cpp:38-40, copies `results`, and the classes with their copy constructor; members of a class that it leaves uninitialised have the
    value `z` -/
def gmmFamily (z : K) : Copies.Family (GmmModel K) where
  attach own cls M := { M with bimodal := own.bimodal, dout := own.dim - own.di, models := M.models.map fun lc => (lc.1, lc.2.attach (cls lc.1)) }
  has l M := (SMap.find? l M.models).isSome
  training M := M.training
  copy M := { M with models := M.models.map fun lc => (lc.1, lc.2.copy z), training := false }

/-- `HierarchicalHMM`: copy constructor, xmmHierarchicalHmm.cpp:39-48 -/
def hmmFamily (z : K) : Copies.Family (HierHmm K) where
  attach own cls M := { M with
    bimodal := own.bimodal, dim := own.dim, di := own.di, window := own.window, models := M.models.map fun lc => (lc.1, lc.2.attach (cls lc.1)) }
  has l M := (SMap.find? l M.models).isSome
  training M := M.training
  copy M := { M with models := M.models.map fun lc => (lc.1, lc.2.copy z), training := false, started := false }

end
end Xmm
