/-
Outcomes of C++ member functions.  Not a model of a particular file: this is the vocabulary in which every
other model file is written (see DESIGN.md, "Modelling conventions").
-/
namespace Xmm

/-- The exception classes thrown by /repo/src (std exceptions, `xmm::JsonException` with its
    `JsonErrorType`, src/core/common/xmmJson.hpp:127-147) and by jsoncpp
    (`Json::throwLogicError`, dependencies/jsoncpp/include/assertions.h:20-32). -/
inductive Exn where
  | runtimeError | outOfRange | invalidArgument | domainError | lengthError
  | jsonMissingNode | jsonTypeError | jsonValueError
  | jsonLogicError
  deriving DecidableEq, Repr

/-- Outcome of running a C++ function on a state `σ`:
    normal return, exception (with the state as it is when the exception leaves the function: C++ does not
    roll back), or undefined behaviour. -/
inductive Res (σ : Type u) (α : Type v) where
  | ret (a : α) (s : σ)
  | throw (e : Exn) (s : σ)
  | ub
  deriving Repr, DecidableEq

/-- A C++ function with result `α` acting on a state `σ`. -/
def Prog (σ : Type u) (α : Type v) := σ → Res σ α

namespace Prog

/-- Sequencing: an exception or undefined behaviour stops the execution. -/
@[inline] def bind {σ : Type u} {α : Type v} {β : Type w} (p : Prog σ α) (f : α → Prog σ β) : Prog σ β :=
  fun s => match p s with
  | .ret a s' => f a s'
  | .throw e s' => .throw e s'
  | .ub => .ub

@[inline] def pure {σ : Type u} {α : Type v} (a : α) : Prog σ α := fun s => .ret a s

instance {σ : Type u} : Monad (Prog.{u, v} σ) where
  pure := Prog.pure
  bind := Prog.bind

/-- read the state -/
@[inline] def get {σ : Type u} : Prog σ σ := fun s => .ret s s
/-- overwrite the state -/
@[inline] def set {σ : Type u} (s : σ) : Prog σ Unit := fun _ => .ret () s
/-- modify the state -/
@[inline] def modify {σ : Type u} (f : σ → σ) : Prog σ Unit := fun s => .ret () (f s)
/-- `throw e` -/
@[inline] def throw {σ : Type u} {α : Type v} (e : Exn) : Prog σ α := fun s => .throw e s
/-- undefined behaviour -/
@[inline] def undef {σ : Type u} {α : Type v} : Prog σ α := fun _ => .ub

@[simp] theorem bind_def {σ : Type u} {α β : Type v} (p : Prog σ α) (f : α → Prog σ β) (s : σ) :
    (p >>= f) s = match p s with
      | .ret a s' => f a s'
      | .throw e s' => .throw e s'
      | .ub => .ub := rfl
@[simp] theorem pure_def {σ : Type u} {α : Type v} (a : α) (s : σ) :
    (Pure.pure a : Prog σ α) s = .ret a s := rfl
@[simp] theorem get_def {σ : Type u} (s : σ) : (get : Prog σ σ) s = .ret s s := rfl
@[simp] theorem set_def {σ : Type u} (s s' : σ) : (set s : Prog σ Unit) s' = .ret () s := rfl
@[simp] theorem modify_def {σ : Type u} (f : σ → σ) (s : σ) :
    (modify f : Prog σ Unit) s = .ret () (f s) := rfl
@[simp] theorem throw_def {σ : Type u} {α : Type v} (e : Exn) (s : σ) :
    (throw e : Prog σ α) s = .throw e s := rfl
@[simp] theorem undef_def {σ : Type u} {α : Type v} (s : σ) : (undef : Prog σ α) s = .ub := rfl

end Prog

namespace Res

/-- The state an object is in after a call, whether it returned or threw.
    `none` when the call had undefined behaviour. -/
def stateAfter {σ : Type u} {α : Type v} : Res σ α → Option σ
  | .ret _ s => some s
  | .throw _ s => some s
  | .ub => none

end Res

end Xmm
