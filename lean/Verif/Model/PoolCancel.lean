import Verif.Model.Pool
/-
Model of `Model::cancelTraining()` and `Model::cancelTraining(label)`, src/core/model/xmmModel.hpp:366-393, called by some thread while the threads of `Model/Pool.lean`
run.  The steps are again the accesses to the shared members in the order of the source, and the other threads may take any number of steps between two of them.

A class that fails lowers its own `is_training_` before it notifies Error (src/core/model/xmmModelSingleClass.cpp:162-166): these are two steps here, and the cancelling thread
sees the class as not in training between them.

Simplifications: `joinTraining`, which reads `is_training_` of the classes in `reset` after it has joined their threads, does not see the first of the two steps.  The loops that wait (lines 371-372 and 387-388) are blocked instead of spinning.  Data races on the members that are not atomic are not
undefined behaviour here: only the use of a class that was removed from `models` is.
-/
namespace Xmm

/-- Positions in `cancelTraining()`, src/core/model/xmmModel.hpp:366-377: `enter` the test of line 367; for the class `l` that the iterator designates, `request l` line 369,
    `flag l` line 370, `wait l` the loop 371-372 and the increment of the iterator; `join pc` in `joinTraining` (line 374); `clear` line 376.
    Positions in `cancelTraining(label)`, lines 383-393: `one l` line 384, `oneRequest l` 385, `oneFlag l` 386, `oneWait l` 387-388, `oneCheck` 389; then `join` (line 390) and
    `clear` (line 392).
    `returned`: the call has returned; `threw`: an exception has left it; `undefined`: the behaviour is undefined. -/
inductive CancelPc where
  | enter | request (l : String) | flag (l : String) | wait (l : String)
  | one (l : String) | oneRequest (l : String) | oneFlag (l : String) | oneWait (l : String) | oneCheck
  | join (pc : JoinPc) | clear | returned | threw | undefined
  deriving DecidableEq, Repr

/-- A model in training and a thread that cancels the training; `flagged`: the classes whose `cancel_training_` is set; `failing`: the classes that have failed and lowered
    their `is_training_`, and have not yet notified Error. -/
structure Canceller where
  pool : Pool
  pc : CancelPc
  flagged : List String
  failing : List String
  deriving DecidableEq, Repr

namespace Canceller

/-- The class of label `l`, if the model has it -/
def find (l : String) (s : Pool) : Option Worker := s.classes.find? fun c => decide (c.label = l)

/-- The labels from `l` on -/
def tailFrom (l : String) : List String → List String
  | [] => []
  | a :: t => if a = l then a :: t else tailFrom l t

/-- The label that the iterator designates after its increment from `l` (`std::map` is ordered as `classes`) -/
def succ (l : String) (ls : List String) : Option String := (tailFrom l ls).tail.head?

/-- `isTraining()` of the class `w`, as the cancelling thread sees it -/
def sees (c : Canceller) (w : Worker) : Bool := w.training && !c.failing.contains w.label

/-- `SingleClassProbabilisticModel::cancelTraining` on the class `w`, src/core/model/xmmModelSingleClass.cpp:207-211: the flag is set only if the class is in training.  The
    training of the class looks at the flag before every iteration (line 144) and before its end (line 181): at most one more event Run can follow. -/
def flagClass (w : Worker) (c : Canceller) : Canceller :=
  if c.sees w then
    { c with pool := c.pool.onClass w.label (fun x => { x with budget := min x.budget 1 }), flagged := w.label :: c.flagged }
  else c

/-- One step of `cancelTraining()` or `cancelTraining(label)`, src/core/model/xmmModel.hpp:366-377 and 383-393.  `none`: the thread waits.  The iterator of the loop 368-373
    designates a class that another thread may remove (line 502): then its use is undefined.  In `cancelTraining(label)` `models[label]` would insert a class without parameters
    if the label is gone: this is not modelled further, and counted as undefined too. -/
def cancelStep (weak : Bool) (c : Canceller) : Option Canceller :=
  match c.pc with
  | .enter =>
    if c.pool.isTraining then
      match c.pool.classes with
      | [] => some { c with pc := .join .enter }
      | w :: _ => some { c with pc := .request w.label }
    else some { c with pc := .clear }
  | .request l => some { c with pool := { c.pool with cancelRequired := true }, pc := .flag l }
  | .flag l =>
    match find l c.pool with
    | none => some { c with pc := .undefined }
    | some w => some { flagClass w c with pc := .wait l }
  | .wait l =>
    match find l c.pool with
    | none => some { c with pc := .undefined }
    | some w =>
      if c.sees w then none
      else match succ l (c.pool.classes.map (·.label)) with
        | none => some { c with pc := .join .enter }
        | some m => some { c with pc := .request m }
  | .one l =>
    if c.pool.isTraining && (find l c.pool).isSome then some { c with pc := .oneRequest l }
    else some { c with pc := .clear }
  | .oneRequest l => some { c with pool := { c.pool with cancelRequired := true }, pc := .oneFlag l }
  | .oneFlag l =>
    match find l c.pool with
    | none => some { c with pc := .undefined }
    | some w => some { flagClass w c with pc := .oneWait l }
  | .oneWait l =>
    match find l c.pool with
    | none => some { c with pc := .undefined }
    | some w => if c.sees w then none else some { c with pc := .oneCheck }
  | .oneCheck => if c.pool.still = 0 then some { c with pc := .join .enter } else some { c with pc := .clear }
  | .join pc =>
    match c.pool.joinStep weak pc with
    | none => none
    | some (.left, s) => some { c with pool := s, pc := .clear }
    | some (.failed, s) => some { c with pool := s, pc := .threw }
    | some (pc', s) => some { c with pool := s, pc := .join pc' }
  | .clear => some { c with pool := { c.pool with cancelRequired := false }, pc := .returned }
  | .returned => none
  | .threw => none
  | .undefined => none

/-- Who takes the next step: a thread of the model, the class `l` that fails, or the thread that cancels -/
inductive Act where
  | other (a : Pool.Act) | fails (l : String) | cancel (weak : Bool)
  deriving DecidableEq, Repr

/-- A class notifies Cancel only if its flag is set (src/core/model/xmmModelSingleClass.cpp:213-222), and Error only, and nothing else, after it has failed (lines 162-166) -/
def allowed (c : Canceller) : Pool.Act → Bool
  | .run l => !c.failing.contains l
  | .final l .cancel => c.flagged.contains l && !c.failing.contains l
  | .final l .error => c.failing.contains l
  | .final l _ => !c.failing.contains l
  | _ => true

/-- One step of the system; nothing happens after `std::terminate` or undefined behaviour.  `fails l`: line 162 of src/core/model/xmmModelSingleClass.cpp. -/
def act (a : Act) (c : Canceller) : Option Canceller :=
  if c.pool.terminated || decide (c.pc = .undefined) then none
  else match a with
    | .other b => if c.allowed b then (c.pool.act b).map fun s => { c with pool := s } else none
    | .fails l => if c.pool.runs l && !c.failing.contains l then some { c with failing := l :: c.failing } else none
    | .cancel weak => c.cancelStep weak

/-- The steps of `as`, in order -/
def acts : List Act → Canceller → Option Canceller
  | [], c => some c
  | a :: as, c => (c.act a).bind (acts as)

end Canceller
end Xmm
