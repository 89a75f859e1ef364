import Verif.Model.Phrase
import Verif.Model.Events
import Mathlib.Algebra.Order.Group.Int
/-
Model of src/core/trainingset/xmmTrainingSet.hpp and xmmTrainingSet.cpp (phrases, labels, dimensions, copies).
Statistics are in Verif/Model/TrainingSetStats.lean.

Phrases are objects shared through `std::shared_ptr`: they live in a store (`World.obj`) and training sets hold references.
Simplification: phrase objects are never destroyed (reference counting is not modelled).
-/
namespace Xmm.TS

/-- The attributes `dimension` and `dimension_input` of a training set: values and the limits that the code sets
    (xmmTrainingSet.cpp:45-48).  `dimension` has no other upper limit than its type's. -/
structure Dims where
  dim : Nat
  dimMin : Nat
  di : Nat
  diMin : Nat
  diMax : Nat
  deriving DecidableEq, Repr

/-- Constructor, xmmTrainingSet.cpp:45-48. -/
def Dims.new (b : Bool) : Dims :=
  { dim := if b then 2 else 1, dimMin := if b then 2 else 1, di := if b then 1 else 0,
    diMin := if b then 1 else 0, diMax := if b then 2 else 0 }

/-- A class-specific sub training set, the values of `sub_training_sets_` (xmmTrainingSet.hpp:358).  It is a `TrainingSet`
    whose own labels and sub sets are never filled (xmmTrainingSet.cpp:297-313 writes its `phrases_` directly). -/
structure Sub where
  dims : Dims
  cols : List String
  phrases : SMap Int Nat
  deriving DecidableEq, Repr

/-- `xmm::TrainingSet`, fields of xmmTrainingSet.hpp:297-358.  `labels_` is a `std::set`, here a map to `Unit`.
    `column_names` is a vector attribute whose `size_` is always the length of its value (it is only changed by
    `resize`, xmmTrainingSet.cpp:49 and 153, and `set` checks the length). -/
structure TSet (L : Type) where
  own : Bool
  bimodal : Bool
  dims : Dims
  cols : List String
  labels : SMap L Unit
  phrases : SMap Int Nat
  subs : SMap L Sub

/-- A `Phrase` object held by `shared_ptr`s: its data, its `label` attribute and the owners registered in its
    `events` (xmmPhrase.hpp:516).  (`ph.label` is not used: labels are of an arbitrary ordered type `L`.) -/
structure PhraseObj (K L : Type) where
  ph : Phrase K
  label : L
  listeners : EventGen Unit

/-- All the objects of a program. References below `next` are allocated. A training set that does not exist, or not any
    more, is `none`. -/
structure World (K L : Type) where
  obj : Nat → PhraseObj K L
  next : Nat
  sets : Nat → Option (TSet L)

variable {K L : Type} [LinearOrder L]

/-- overwrite a phrase object -/
def World.putObj (w : World K L) (r : Nat) (o : PhraseObj K L) : World K L :=
  { w with obj := fun r' => if r' = r then o else w.obj r' }

/-- overwrite a training set -/
def World.putSet (w : World K L) (i : Nat) (t : Option (TSet L)) : World K L :=
  { w with sets := fun i' => if i' = i then t else w.sets i' }

/-- access a training set; undefined behaviour if it does not exist -/
def getSet (i : Nat) : Prog (World K L) (TSet L) := do
  let w ← Prog.get
  match w.sets i with
  | some t => pure t
  | none => Prog.undef

/-- run a member function of a phrase object -/
def onPhrase (r : Nat) (f : Prog (Phrase K) Unit) : Prog (World K L) Unit := fun w =>
  match f (w.obj r).ph with
  | .ret _ p => .ret () (w.putObj r { w.obj r with ph := p })
  | .throw e p => .throw e (w.putObj r { w.obj r with ph := p })
  | .ub => .ub

/-- new elements of `column_names` are empty: xmmAttribute.hpp:593-596 -/
def resizeCols (n : Nat) (l : List String) : List String := l.take n ++ List.replicate (n - l.length) ""

/-- Constructor, xmmTrainingSet.cpp:36-50. -/
def TSet.new (own bimodal : Bool) : TSet L :=
  { own := own, bimodal := bimodal, dims := Dims.new bimodal,
    cols := resizeCols (Dims.new bimodal).dim [], labels := [], phrases := [], subs := [] }

/-- The labels of the phrases: xmmTrainingSet.cpp:292-295. -/
def labelsOf (lab : Nat → L) (phrases : SMap Int Nat) : SMap L Unit :=
  phrases.foldl (fun acc e => SMap.insertNew (lab e.2) () acc) []

/-- `sub.dimension.set(d)` on a sub set without phrases: limits, then `onAttributeChange`, xmmTrainingSet.cpp:143-155. -/
def Sub.setDim (d : Nat) (s : Sub) : Sub × Option Exn :=
  if d < s.dims.dimMin then (s, some .domainError)
  else ({ s with dims := { s.dims with dim := d, diMax := d - 1 }, cols := resizeCols d s.cols }, none)

/-- `sub.dimension_input.set(d)` (with or without notification: a sub set's listener changes nothing without phrases). -/
def Sub.setDi (d : Nat) (s : Sub) : Sub × Option Exn :=
  if d < s.dims.diMin ∨ s.dims.diMax < d then (s, some .domainError)
  else ({ s with dims := { s.dims with di := d } }, none)

/-- The sub set of one label, xmmTrainingSet.cpp:298-312, as left when the code returns or throws. -/
def makeSub (lab : Nat → L) (t : TSet L) (l : L) : Sub × Option Exn :=
  let s0 : Sub := ⟨Dims.new t.bimodal, resizeCols (Dims.new t.bimodal).dim [], []⟩
  match s0.setDim t.dims.dim with
  | (s1, some e) => (s1, some e)
  | (s1, none) =>
    match s1.setDi t.dims.di with
    | (s2, some e) => (s2, some e)
    | (s2, none) =>
      ({ s2 with
          cols := t.cols,
          phrases := (t.phrases.filter fun e => decide (lab e.2 = l)).foldl (fun m e => SMap.assign e.1 e.2 m) s2.phrases },
        none)

/-- The loop over the labels in `update()`, xmmTrainingSet.cpp:297-313. -/
def updateLoop (lab : Nat → L) : List L → TSet L → TSet L × Option Exn
  | [], t => (t, none)
  | l :: ls, t =>
    match makeSub lab t l with
    | (s, some e) => ({ t with subs := SMap.assign l s t.subs }, some e)
    | (s, none) => updateLoop lab ls { t with subs := SMap.assign l s t.subs }

/-- `update()`, xmmTrainingSet.cpp:291-314. -/
def updateSet (lab : Nat → L) (t : TSet L) : TSet L × Option Exn :=
  let labels := labelsOf lab t.phrases
  updateLoop lab labels.keys { t with labels := labels, subs := [] }

/-- `update()` as a member function of the training set at `i`. -/
def update (i : Nat) : Prog (World K L) Unit := do
  let t ← getSet i
  let w ← Prog.get
  match updateSet (fun r => (w.obj r).label) t with
  | (t', none) => Prog.set (w.putSet i (some t'))
  | (t', some e) => do
    Prog.set (w.putSet i (some t'))
    Prog.throw e

/-- `events.notifyListeners` of a phrase whose label changed: `onPhraseEvent` of every registered training set,
    xmmTrainingSet.cpp:285-289. -/
def notify : List Nat → Prog (World K L) Unit
  | [] => pure ()
  | i :: is => do
    update i
    notify is

/-- `phrase->label.set(l)`: the value, then xmmPhrase.cpp:580-583. -/
def relabel (r : Nat) (l : L) : Prog (World K L) Unit := do
  let w ← Prog.get
  Prog.set (w.putObj r { w.obj r with label := l })
  notify (EventGen.notifyListeners () (w.obj r).listeners |>.map Prod.fst)

/-- `make_shared<Phrase>(…)` -/
def alloc (o : PhraseObj K L) : Prog (World K L) Nat := do
  let w ← Prog.get
  Prog.set { w.putObj w.next o with next := w.next + 1 }
  pure w.next

/-- `phrases_[k] = r` -/
def putPhrase (i : Nat) (k : Int) (r : Nat) : Prog (World K L) Unit := do
  let t ← getSet i
  Prog.modify fun w => w.putSet i (some { t with phrases := SMap.assign k r t.phrases })

/-- `phrases_[k]->events.addListener(this, …)` -/
def listen (i : Nat) (r : Nat) : Prog (World K L) Unit :=
  Prog.modify fun w => w.putObj r { w.obj r with listeners := EventGen.addListener i () (w.obj r).listeners }

/-- `addPhrase(k, label)`, xmmTrainingSet.cpp:222-233. -/
def addLabel [Inhabited L] (i : Nat) (k : Int) (l : L) : Prog (World K L) Unit := do
  let t ← getSet i
  let r ← alloc ⟨Phrase.construct K t.own t.bimodal, default, []⟩
  putPhrase i k r
  listen i r
  onPhrase r (Phrase.setDimension t.dims.dim)
  onPhrase r (Phrase.setDimensionInput t.dims.di)
  Prog.modify fun w =>
    w.putObj r { w.obj r with ph := { (w.obj r).ph with columnNames := t.cols }, label := l }
  update i

/-- `addPhrase(k, phrase)` by reference, xmmTrainingSet.cpp:235-241: a copy of the phrase `p` labelled `l`. -/
def addCopy (i : Nat) (k : Int) (p : Phrase K) (l : L) : Prog (World K L) Unit :=
  match Phrase.copy p with
  | none => Prog.undef
  | some q => do
    let r ← alloc ⟨q, l, []⟩
    putPhrase i k r
    listen i r
    update i

/-- `addPhrase(k, shared_ptr)`, xmmTrainingSet.cpp:243-249. A reference that is not allocated (a null pointer) is undefined
    behaviour. -/
def addShared (i : Nat) (k : Int) (r : Nat) : Prog (World K L) Unit := do
  let w ← Prog.get
  if r < w.next then do
    putPhrase i k r
    listen i r
    update i
  else Prog.undef

/-- `removePhrase(k)`, xmmTrainingSet.cpp:251-254. -/
def remove (i : Nat) (k : Int) : Prog (World K L) Unit := do
  let t ← getSet i
  Prog.modify fun w => w.putSet i (some { t with phrases := SMap.erase k t.phrases })
  update i

/-- The `while` loop of `removePhrasesOfClass`, xmmTrainingSet.cpp:256-267. Each iteration removes a phrase; the counter
    bounds the number of iterations and running out of it is reported as undefined behaviour (shown not to happen). -/
def removeClassLoop (i : Nat) (l : L) : Nat → Prog (World K L) Unit
  | 0 => Prog.undef
  | n + 1 => do
    let t ← getSet i
    let w ← Prog.get
    match List.find? (fun e => decide ((w.obj e.2).label = l)) t.phrases with
    | some e => do
      remove i e.1
      removeClassLoop i l n
    | none => pure ()

/-- `removePhrasesOfClass(label)`, xmmTrainingSet.cpp:256-269. -/
def removeClass (i : Nat) (l : L) : Prog (World K L) Unit := do
  let t ← getSet i
  removeClassLoop i l (t.phrases.length + 1)
  update i

/-- `clear()`, xmmTrainingSet.cpp:271-275. -/
def clear (i : Nat) : Prog (World K L) Unit := do
  let t ← getSet i
  Prog.modify fun w => w.putSet i (some { t with subs := [], phrases := [], labels := [] })

/-- Call a member function of each phrase in turn (the loops of xmmTrainingSet.cpp:145-147 and 157-159). -/
def eachPhrase (f : Prog (Phrase K) Unit) : List (Int × Nat) → Prog (World K L) Unit
  | [] => pure ()
  | e :: es => do
    onPhrase e.2 f
    eachPhrase f es

/-- A silent attribute change on each sub set in turn, as left when the code returns or throws. -/
def eachSub (f : Sub → Sub × Option Exn) : SMap L Sub → SMap L Sub × Option Exn
  | [] => ([], none)
  | (l, s) :: m =>
    match f s with
    | (s', some e) => ((l, s') :: m, some e)
    | (s', none) => let r := eachSub f m; ((l, s') :: r.1, r.2)

/-- `sub.dimension.set(d, true)`: the listener is not called, so `column_names` and the limit of `dimension_input` keep
    their previous values (xmmTrainingSet.cpp:148-151). -/
def Sub.setDimSilently (d : Nat) (s : Sub) : Sub × Option Exn :=
  if d < s.dims.dimMin then (s, some .domainError) else ({ s with dims := { s.dims with dim := d } }, none)

/-- change the sub sets of a training set -/
def onSubs (i : Nat) (f : Sub → Sub × Option Exn) : Prog (World K L) Unit := do
  let t ← getSet i
  let r := eachSub f t.subs
  Prog.modify fun w => w.putSet i (some { t with subs := r.1 })
  match r.2 with
  | none => pure ()
  | some e => Prog.throw e

/-- `dimension.set(d)`: xmmAttribute.hpp:192-197, then `onAttributeChange`, xmmTrainingSet.cpp:143-155. -/
def setDim (i : Nat) (d : Nat) : Prog (World K L) Unit := do
  let t ← getSet i
  if d < t.dims.dimMin then Prog.throw .domainError
  else do
    Prog.modify fun w => w.putSet i (some { t with dims := { t.dims with dim := d } })
    eachPhrase (Phrase.setDimension d) t.phrases
    onSubs i (Sub.setDimSilently d)
    let t ← getSet i
    Prog.modify fun w => w.putSet i (some
      { t with cols := resizeCols d t.cols, dims := { t.dims with diMax := d - 1 } })

/-- `dimension_input.set(d)`: xmmAttribute.hpp:192-197, then xmmTrainingSet.cpp:156-164. -/
def setDi (i : Nat) (d : Nat) : Prog (World K L) Unit := do
  let t ← getSet i
  if d < t.dims.diMin ∨ t.dims.diMax < d then Prog.throw .domainError
  else do
    Prog.modify fun w => w.putSet i (some { t with dims := { t.dims with di := d } })
    eachPhrase (Phrase.setDimensionInput d) t.phrases
    onSubs i (Sub.setDi d)

/-- `sub.column_names.set(c, true)` on a sub set. -/
def Sub.setCols (c : List String) (s : Sub) : Sub × Option Exn :=
  if 0 < s.cols.length ∧ c.length ≠ s.cols.length then (s, some .domainError) else ({ s with cols := c }, none)

/-- `column_names.set(c)`: xmmAttribute.hpp:530-540 (string specialisation), then xmmTrainingSet.cpp:165-174. -/
def setCols (i : Nat) (c : List String) : Prog (World K L) Unit := do
  let t ← getSet i
  if 0 < t.cols.length ∧ c.length ≠ t.cols.length then Prog.throw .domainError
  else do
    Prog.modify fun w => w.putSet i (some { t with cols := c })
    eachPhrase (Prog.modify fun p => { p with columnNames := c }) t.phrases
    onSubs i (Sub.setCols c)

/-- construct a training set at an unused address -/
def newSet (i : Nat) (own bimodal : Bool) : Prog (World K L) Unit := do
  let w ← Prog.get
  match w.sets i with
  | some _ => Prog.undef
  | none => Prog.set (w.putSet i (some (TSet.new own bimodal)))

/-- Copy constructor, xmmTrainingSet.cpp:52-71.  `phrases_(src.phrases_)` copies the `shared_ptr`s; the `insert` of line 65
    finds every key already present and so discards the deep copy it was given; line 67 registers the new training set on
    the phrases of the source.  The discarded deep copies are destroyed: undefined behaviour for phrases that were never
    recorded to or are in shared memory (see `Phrase.copy` and `Phrase.destroy`). -/
def copyConstruct (src i : Nat) : Prog (World K L) Unit := do
  let t ← getSet src
  let w ← Prog.get
  match w.sets i with
  | some _ => Prog.undef
  | none =>
    if t.phrases.all (fun e => match Phrase.copy (w.obj e.2).ph with | some q => q.destroy | none => false) then do
      Prog.set (w.putSet i (some { t with subs := [] }))
      listenAll i t.phrases
      update i
    else Prog.undef
where
  /-- lines 67-68 for every phrase -/
  listenAll (i : Nat) : List (Int × Nat) → Prog (World K L) Unit
    | [] => pure ()
    | e :: es => do
      listen i e.2
      listenAll i es

/-- The loop of `operator=`, xmmTrainingSet.cpp:120-125: deep copies, inserted in an empty map. -/
def copyPhrases (i : Nat) : List (Int × Nat) → Prog (World K L) Unit
  | [] => pure ()
  | e :: es => do
    let w ← Prog.get
    match Phrase.copy (w.obj e.2).ph with
    | none => Prog.undef
    | some q => do
      let r ← alloc ⟨q, (w.obj e.2).label, []⟩
      putPhrase i e.1 r
      listen i r
      copyPhrases i es

/-- `operator=`, xmmTrainingSet.cpp:106-129, on an existing training set. -/
def assign (i src : Nat) : Prog (World K L) Unit := do
  let s ← getSet src
  let _ ← getSet i
  if i = src then pure ()
  else do
    Prog.modify fun w => w.putSet i (some
      { own := s.own, bimodal := s.bimodal, dims := s.dims, cols := s.cols, labels := s.labels, phrases := [], subs := [] })
    copyPhrases i s.phrases
    update i

/-- Destructor, xmmTrainingSet.cpp:131: the phrases keep the training set in their listeners. -/
def destroy (i : Nat) : Prog (World K L) Unit := do
  let _ ← getSet i
  Prog.modify fun w => w.putSet i none

/-- a phrase constructed by the user with `make_shared<Phrase>` -/
def newPhrase [Inhabited L] (own bimodal : Bool) : Prog (World K L) Unit := do
  let _ ← alloc ⟨Phrase.construct K own bimodal, default, []⟩
  pure ()

/-- a member function of a phrase called by the user -/
def phraseOp (r : Nat) (op : Phrase.Op K) : Prog (World K L) Unit := do
  let w ← Prog.get
  if r < w.next then onPhrase r (Phrase.step op) else Prog.undef

/-- `phrase->label.set(l)` called by the user -/
def userRelabel (r : Nat) (l : L) : Prog (World K L) Unit := do
  let w ← Prog.get
  if r < w.next then relabel r l else Prog.undef

/-- Public operations of a program using training sets and phrases. -/
inductive Op (K L : Type) where
  | newSet (i : Nat) (own bimodal : Bool)
  | copyConstruct (src i : Nat)
  | assign (i src : Nat)
  | destroy (i : Nat)
  | newPhrase (own bimodal : Bool)
  | phraseOp (r : Nat) (op : Phrase.Op K)
  | relabel (r : Nat) (l : L)
  | addLabel (i : Nat) (k : Int) (l : L)
  | addCopy (i : Nat) (k : Int) (p : Phrase K) (l : L)
  | addShared (i : Nat) (k : Int) (r : Nat)
  | remove (i : Nat) (k : Int)
  | removeClass (i : Nat) (l : L)
  | clear (i : Nat)
  | setDim (i : Nat) (d : Nat)
  | setDi (i : Nat) (d : Nat)
  | setCols (i : Nat) (c : List String)

/-- One public call. -/
def step [Inhabited L] : Op K L → Prog (World K L) Unit
  | .newSet i o b => newSet i o b
  | .copyConstruct s i => copyConstruct s i
  | .assign i s => assign i s
  | .destroy i => destroy i
  | .newPhrase o b => newPhrase o b
  | .phraseOp r op => phraseOp r op
  | .relabel r l => userRelabel r l
  | .addLabel i k l => addLabel i k l
  | .addCopy i k p l => addCopy i k p l
  | .addShared i k r => addShared i k r
  | .remove i k => remove i k
  | .removeClass i l => removeClass i l
  | .clear i => clear i
  | .setDim i d => setDim i d
  | .setDi i d => setDi i d
  | .setCols i c => setCols i c

/-- A history of calls whose exceptions are caught. `none`: undefined behaviour occurred. -/
def run [Inhabited L] : List (Op K L) → World K L → Option (World K L × List (Option Exn))
  | [], w => some (w, [])
  | op :: ops, w =>
    match step op w with
    | .ret _ w' => (run ops w').map fun r => (r.1, none :: r.2)
    | .throw e w' => (run ops w').map fun r => (r.1, some e :: r.2)
    | .ub => none

/-- no object exists -/
def World.empty [Inhabited L] : World K L := ⟨fun _ => ⟨Phrase.construct K true false, default, []⟩, 0, fun _ => none⟩

end Xmm.TS
