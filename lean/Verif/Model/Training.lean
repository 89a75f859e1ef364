import Verif.Model.Cpp
import Mathlib.Algebra.Field.Rat
import Mathlib.Algebra.Order.Field.Basic
/-
Model of the training of one class, src/core/model/xmmModelSingleClass.cpp:114-221 (`train` and what it calls).  The expectation-maximisation
steps of the model (`allocate`, `emAlgorithmInit`, `emAlgorithmUpdate`) are modelled elsewhere; here each of them may return or throw, and
another thread may request the cancellation at any time.
-/
namespace Xmm

/-- `TrainingEvent::Status`, src/core/model/xmmModelSingleClass.hpp:54-79. -/
inductive Status where
  | run | error | cancel | done | allDone
  deriving DecidableEq, Repr

/-- What the class does not decide.  `V` are the values of type `double`.
    `init`: `emAlgorithmInit` returns (it throws otherwise); `update k`: the likelihood returned by the call number `k` of `emAlgorithmUpdate` (`none`: it
    throws); `cancel k`: the value of `cancel_training_` when it is read for the time number `k`; `lowest` is
    `-std::numeric_limits<double>::max()`; `isNan l o` is `isnan(100. * fabs((l - o) / o))`, `close l o` is `100. * fabs((l - o) / l) <= em_algorithm_percent_chg`. -/
structure EmEnv (V : Type) where
  init : Bool
  update : Nat → Option V
  cancel : Nat → Bool
  lowest : V
  isNan : V → V → Bool
  close : V → V → Bool

/-- The attributes `em_algorithm_min_iterations` and `em_algorithm_max_iterations`, src/core/model/xmmModelSharedParameters.hpp:110-125. -/
structure EmParams where
  minIter : Nat
  maxIter : Nat

/-- An event as it is notified: status, progression, iterations (`TrainingEvent`, src/core/model/xmmModelSingleClass.hpp:96-170; the log-likelihood and
    the label are left out).  Progressions are exact. -/
structure TrainEvent where
  status : Status
  progression : ℚ
  iterations : Nat
  deriving DecidableEq

/-- The members that `train` reads and writes: `training_status` (`status`, `logLik`, `iterations`, `progression`), `is_training_`, `training_mutex_`
    (`locked`), the events notified to the listeners; `checks` and `updates` count the reads of `cancel_training_` and the calls of `emAlgorithmUpdate`. -/
structure Trainer (V : Type) where
  status : Status
  logLik : V
  iterations : Nat
  progression : ℚ
  isTraining : Bool
  locked : Bool
  events : List TrainEvent
  checks : Nat
  updates : Nat

namespace Trainer
variable {V : Type}

/-- `training_events.notifyListeners(training_status)` -/
def notify : Prog (Trainer V) Unit := Prog.modify fun s =>
  { s with events := s.events ++ [⟨s.status, s.progression, s.iterations⟩] }

/-- `cancelTrainingIfRequested()`, xmmModelSingleClass.cpp:213-221. -/
def cancelIfRequested (E : EmEnv V) : Prog (Trainer V) Bool := do
  let s ← Prog.get
  Prog.set { s with checks := s.checks + 1 }
  if !E.cancel s.checks then pure false
  else do
    Prog.modify fun s => { s with locked := false, status := .cancel }
    notify
    Prog.modify fun s => { s with isTraining := false }
    pure true

/-- `emAlgorithmHasConverged(step, log_prob, old_log_prob)`, xmmModelSingleClass.cpp:189-199. -/
def hasConverged (E : EmEnv V) (P : EmParams) (step : Nat) (l old : V) : Bool :=
  if 1000 ≤ step then true
  else if P.minIter ≤ P.maxIter then P.maxIter ≤ step
  else P.minIter ≤ step && E.close l old

/-- `emAlgorithmUpdate` in the loop, xmmModelSingleClass.cpp:145-152: is there an error? -/
def emUpdate (E : EmEnv V) (err : Bool) : Prog (Trainer V) Bool := do
  if err then pure true
  else do
    let s ← Prog.get
    Prog.set { s with updates := s.updates + 1 }
    match E.update s.updates with
    | none => pure true
    | some v => do
      Prog.modify fun s => { s with logLik := v }
      pure false

/-- How the loop ends. -/
inductive Ended where
  /-- the condition of the loop is false -/
  | converged
  /-- `train` returns from the loop -/
  | returned
  /-- still in the loop after the number of iterations of the model -/
  | running
  deriving DecidableEq

/-- The loop of `train`, xmmModelSingleClass.cpp:139-179, for at most the given number of evaluations of its condition; `err` is `trainingError`, `old` is
    `old_log_prob`. -/
def emLoop (E : EmEnv V) (P : EmParams) : Nat → Bool → V → Prog (Trainer V) Ended
  | 0, _, _ => pure .running
  | fuel + 1, err, old => do
    let s ← Prog.get
    if hasConverged E P s.iterations s.logLik old then pure .converged
    else do
      if ← cancelIfRequested E then pure .returned
      else do
        let s ← Prog.get
        let old := s.logLik
        let err ← emUpdate E err
        let s ← Prog.get
        let err := err || (E.isNan s.logLik old && decide (1 < s.iterations))
        if err then do
          Prog.modify fun s => { s with isTraining := false, locked := false, status := .error }
          notify
          pure .returned
        else do
          Prog.modify fun s => { s with iterations := s.iterations + 1 }
          Prog.modify fun s => { s with
            progression := if P.minIter < P.maxIter then (s.iterations : ℚ) / P.maxIter else (s.iterations : ℚ) / P.minIter }
          notify
          emLoop E P fuel err old

/-- `emAlgorithmTerminate()`, xmmModelSingleClass.cpp:201-205. -/
def emTerminate : Prog (Trainer V) Unit := do
  Prog.modify fun s => { s with status := .done }
  notify
  Prog.modify fun s => { s with isTraining := false }

/-- `train(trainingSet)`, xmmModelSingleClass.cpp:114-187; `data`: there is a training set and it is not empty; `alloc`: `allocate()` returns (it may throw, for
    lack of memory).  `fuel` bounds the evaluations of the condition of the loop; the result is `false` if they do not suffice. -/
def train (E : EmEnv V) (P : EmParams) (data alloc : Bool) (fuel : Nat) : Prog (Trainer V) Bool := do
  Prog.modify fun s => { s with locked := true, status := .run }
  if data && !alloc then Prog.throw .lengthError
  else do
    let err := !data
    if ← cancelIfRequested E then pure true
    else do
      let err := err || !E.init
      Prog.modify fun s => { s with logLik := E.lowest, iterations := 0 }
      match ← emLoop E P fuel err E.lowest with
      | .running => pure false
      | .returned => pure true
      | .converged => do
        if ← cancelIfRequested E then pure true
        else do
          emTerminate
          Prog.modify fun s => { s with locked := false }
          pure true

end Trainer
end Xmm
