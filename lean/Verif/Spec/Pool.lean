import Verif.Model.Pool
import Verif.Spec.Training
/-
What the training of the classes of a model must do, whatever the order in which the threads take their steps.
-/
namespace Xmm
namespace Pool

/-- The labels of the classes of the model -/
def labels (s : Pool) : List String := s.classes.map (·.label)

/-- A state in which the thread that called `train` is about to start the classes `todo`, and no other thread runs.  For `train(set)` the classes `todo` are all the classes of
    the model; for `train(set, label)` there is one, and the other classes were trained before. -/
structure Begins (todo : List String) (s : Pool) : Prop where
  main : s.main = .start todo
  known : ∀ l ∈ todo, l ∈ s.labels
  labelsNodup : s.labels.Nodup
  todoNodup : todo.Nodup
  rest : ∀ c ∈ s.classes, c.training = false ∧ c.thread ≠ .running
  old : ∀ c ∈ s.classes, c.label ∉ todo → c.status ≠ .cancel ∧ c.status ≠ .error
  handles : s.handles = []
  training : s.isTraining = true
  joining : s.isJoining = false
  cancel : s.cancelRequired = false
  still : s.still = 0
  joiners : s.joiners = []
  events : s.events = []
  alive : s.terminated = false

/-- The states that the steps allowed by `ok` lead to, in any order -/
inductive Reach (ok : Pool → Act → Prop) (s₀ : Pool) : Pool → Prop
  | refl : Reach ok s₀ s₀
  | step {s s' : Pool} {a : Act} : Reach ok s₀ s → ok s a → s.act a = some s' → Reach ok s₀ s'

/-- All orders of the steps; `compare_exchange_weak` does not fail spuriously. -/
def Strong (_ : Pool) (a : Act) : Prop := (∀ w, a = .main w → w = false) ∧ ∀ i w, a = .joiner i w → w = false

/-- The same, and no class ends its training before `train` has returned to the caller. -/
def Late (s : Pool) (a : Act) : Prop := Strong s a ∧ ∀ l st, a = .final l st → s.main = .returned

/-- The events of the class `l` -/
def eventsOf (l : String) (evs : List (Option String × Status)) : List Status := (evs.filter (·.1 = some l)).map (·.2)

/-- The training of the class `l` is over with the outcome `st`: any number of events Run, then `st`. -/
def Outcome (evs : List (Option String × Status)) (l : String) (st : Status) : Prop :=
  st.Final ∧ ∃ k, eventsOf l evs = List.replicate k .run ++ [st]

/-- The training of the classes `todo` of a model that had the classes `before` is over: the model has left the training state; every class of `todo` had one outcome, and the
    model has exactly the classes that were not trained and those whose outcome is Done, in the same order; none of them is in training; the last event is Alldone, and
    there is no other one. -/
structure Completed (todo before : List String) (s : Pool) : Prop where
  training : s.isTraining = false
  joining : s.isJoining = false
  handles : s.handles = []
  still : s.still = 0
  joiners : s.joiners = []
  order : s.labels.Sublist before
  others : ∀ l ∈ before, l ∉ todo → l ∈ s.labels
  outcomes : ∀ l ∈ todo, ∃ st, Outcome s.events l st ∧ (l ∈ s.labels ↔ st = .done)
  quiet : ∀ c ∈ s.classes, c.training = false ∧ c.thread ≠ .running
  alldone : ∃ evs, s.events = evs ++ [(none, .allDone)] ∧ ∀ e ∈ evs, e.1 ≠ none ∧ e.2 ≠ .allDone

end Pool
end Xmm
