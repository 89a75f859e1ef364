import Verif.Model.Training
/-
Model of the training of the classes of a model by several threads, src/core/model/xmmModel.hpp:246-361 (`train`), 487-519 (`joinTraining`) and 524-546
(`onTrainingEvent`): a transition system, whose states are what the threads share and the position of every thread.

What happens between two steps of one thread is arbitrary: any other thread may take any number of steps.  The steps are the accesses to the shared members
(`is_training_`, `is_joining_`, `training_threads_`, `models`, the status of the classes) in the order of the source.  The body of `onTrainingEvent`, which holds
`event_mutex_`, is one step, and so are the start of a class (lines 281-290: the three assignments, then the creation of the thread) and the sweep of the failed
classes (lines 495-509).  What one class does between its events is `Model/Training.lean`.
-/
namespace Xmm

/-- `MultithreadingMode`, src/core/model/xmmModelConfiguration.hpp:40-62; `other`: a number that is none of the three, which `fromJson` accepts (line 119). -/
inductive Mode where
  | sequential | parallel | background | other
  deriving DecidableEq, Repr

/-- The thread of a class: not started, inside `SingleClassModel::train`, ended -/
inductive Thread where
  | none | running | ended
  deriving DecidableEq, Repr

/-- What the other threads see of a class: its label, `training_status.status`, `is_training_` and its thread.  `budget` bounds the number of events Run that its
    training may still notify (at most 1000, theorem `C52_one_outcome_partial`). -/
structure Worker where
  label : String
  budget : Nat
  status : Status
  training : Bool
  thread : Thread
  deriving DecidableEq, Repr

/-- Positions in `joinTraining`, src/core/model/xmmModel.hpp:487-519: `enter` 488-490, `join` the loop 491-494, `sweep` 495-509, `unjoin` 510, `untrain` 511, `reset` 512,
    `alldone` 513-514, `wait` the loop 516-517; `left`: it has returned, `failed`: an exception has left it. -/
inductive JoinPc where
  | enter | join | sweep | unjoin | untrain | reset | alldone | wait | left | failed
  deriving DecidableEq, Repr

/-- Positions of the thread that calls `train`, src/core/model/xmmModel.hpp:279-300: `start todo` at the head of the loop, the classes `todo` remain; `store l todo` the thread of
    the class `l` is created and not yet stored in `training_threads_`; `inline l todo` inside `it->second.train(...)` (Sequential); `join pc` in `joinTraining`; `returned`;
    `threw`: an exception has left `train`. -/
inductive MainPc where
  | start (todo : List String) | store (l : String) (todo : List String) | inline (l : String) (todo : List String)
  | join (pc : JoinPc) | returned | threw
  deriving DecidableEq, Repr

/-- The shared members of a model in training: `configuration.multithreading`, `models`, the keys of `training_threads_`, `is_training_`, `is_joining_`,
    `cancel_required_`, `models_still_training_`; the position of the main thread and of the detached threads that run `joinTraining`; the events that the listeners of the
    model have received (label, status; the label of Alldone is "", here `none`); whether `std::terminate` was called. -/
structure Pool where
  mode : Mode
  classes : List Worker
  handles : List String
  isTraining : Bool
  isJoining : Bool
  cancelRequired : Bool
  still : Int
  main : MainPc
  joiners : List JoinPc
  events : List (Option String × Status)
  terminated : Bool
  deriving DecidableEq, Repr

namespace Pool

/-- access to `models[l]` -/
def onClass (l : String) (f : Worker → Worker) (s : Pool) : Pool :=
  { s with classes := s.classes.map fun c => if c.label = l then f c else c }

/-- the thread of the class `l` does not run (`std::thread::join` returns) -/
def quiet (s : Pool) (l : String) : Bool := s.classes.all fun c => !decide (c.label = l ∧ c.thread = .running)

/-- `it->second.is_training_ = true; … models_still_training_++; std::thread(…)`, src/core/model/xmmModel.hpp:281-290; the thread begins with
    `training_status.status = Run` (src/core/model/xmmModelSingleClass.cpp:118). -/
def startClass (l : String) (s : Pool) : Pool :=
  { s.onClass l (fun c => { c with training := true, status := .run, thread := .running }) with still := s.still + 1 }

/-- One step of `joinTraining` (src/core/model/xmmModel.hpp:487-519).  `weak`: `compare_exchange_weak` fails although the flag has the expected value, which the standard
    allows.  `none`: the thread is blocked. -/
def joinStep (weak : Bool) (pc : JoinPc) (s : Pool) : Option (JoinPc × Pool) :=
  match pc with
  | .enter =>
    if !s.isTraining then some (.left, s)
    else if s.isJoining || weak then some (.wait, s)
    else some (.join, { s with isJoining := true })
  | .join =>
    match s.handles with
    | [] => some (.sweep, s)
    | l :: t => if s.quiet l then some (.join, { s with handles := t }) else none
  | .sweep => some (.unjoin, { s with classes := s.classes.filter fun c => !decide (c.status = .cancel ∨ c.status = .error) })
  | .unjoin => some (.untrain, { s with isJoining := false })
  | .untrain => some (.reset, { s with isTraining := false })
  | .reset => if s.isTraining || s.classes.any (·.training) then some (.failed, s) else some (.alldone, s)
  | .alldone => some (.left, { s with events := s.events ++ [(none, .allDone)] })
  | .wait => if s.isJoining then none else some (.left, s)
  | .left => none
  | .failed => none

/-- One step of the thread that called `train`, src/core/model/xmmModel.hpp:279-300 -/
def mainStep (weak : Bool) (s : Pool) : Option Pool :=
  match s.main with
  | .start [] =>
    match s.mode with
    | .parallel => some { s with main := .join .enter }
    | .background | .other => some { s with main := .returned }
    | .sequential => some { s with isTraining := false, main := .returned }
  | .start (l :: t) =>
    match s.mode with
    | .sequential | .other => some { s.startClass l with main := .inline l t }
    | .parallel | .background => some { s.startClass l with main := .store l t }
  | .store l t => some { s with handles := s.handles ++ [l], main := .start t }
  | .inline l t => if s.quiet l then some { s with main := .start t } else none
  | .join pc =>
    match s.joinStep weak pc with
    | none => none
    | some (.left, s') => some { s' with main := .returned }
    | some (.failed, s') => some { s' with main := .threw }
    | some (pc', s') => some { s' with main := .join pc' }
  | .returned => none
  | .threw => none

/-- One step of the detached thread number `i` (it is removed when it ends; an exception that leaves it calls `std::terminate`) -/
def joinerStep (i : Nat) (weak : Bool) (s : Pool) : Option Pool :=
  match s.joiners[i]? with
  | none => none
  | some pc =>
    match s.joinStep weak pc with
    | none => none
    | some (.left, s') => some { s' with joiners := s'.joiners.eraseIdx i }
    | some (.failed, s') => some { s' with joiners := s'.joiners.eraseIdx i, terminated := true }
    | some (pc', s') => some { s' with joiners := s'.joiners.set i pc' }

/-- The class `l` is being trained -/
def runs (s : Pool) (l : String) : Bool := s.classes.any fun c => decide (c.label = l ∧ c.thread = .running)

/-- `onTrainingEvent` with an event Run of the class `l`, src/core/model/xmmModel.hpp:524-528 -/
def runStep (l : String) (s : Pool) : Option Pool :=
  if s.classes.any fun c => decide (c.label = l ∧ c.thread = .running ∧ 0 < c.budget) then
    some { s.onClass l (fun c => { c with budget := c.budget - 1 }) with events := s.events ++ [(some l, .run)] }
  else none

/-- The last event of the training of the class `l` and `onTrainingEvent`, src/core/model/xmmModel.hpp:524-546; then the thread ends. -/
def finalStep (l : String) (st : Status) (s : Pool) : Option Pool :=
  if s.runs l && decide (st = .done ∨ st = .error ∨ st = .cancel) then
    let s' : Pool := { s.onClass l (fun c => { c with status := st, training := false, thread := .ended }) with
      events := s.events ++ [(some l, st)], still := s.still - 1 }
    if s'.mode = .background ∧ s'.isJoining = false ∧ s'.cancelRequired = false ∧ s'.still = 0 then
      some { s' with isJoining := false, joiners := s'.joiners ++ [.enter] }
    else some s'
  else none

/-- Who takes the next step -/
inductive Act where
  | main (weak : Bool) | joiner (i : Nat) (weak : Bool) | run (l : String) | final (l : String) (st : Status)
  deriving DecidableEq, Repr

/-- One step of the system; nothing happens after `std::terminate` -/
def act (a : Act) (s : Pool) : Option Pool :=
  if s.terminated then none
  else match a with
    | .main weak => s.mainStep weak
    | .joiner i weak => s.joinerStep i weak
    | .run l => s.runStep l
    | .final l st => s.finalStep l st

/-- The steps of `as`, in order -/
def acts : List Act → Pool → Option Pool
  | [], s => some s
  | a :: as, s => (s.act a).bind (acts as)

end Pool
end Xmm
