import Verif.Model.ClassSet
/-
Which classes a model has, in terms of the calls made before.
-/
namespace Xmm

/-- The calls that change the set of classes.  `train ls failed`: training set with the labels `ls`, of which `failed` cannot be trained. -/
inductive SetOp where
  | train (ls : List String) (failed : String → Bool)
  | trainClass (l : String) (fails : Bool)
  | removeClass (l : String)
  | clear
  | reset

/-- Is the class `l` in the model after one call, if it was (not) before? -/
def SetOp.after (l : String) (had : Bool) : SetOp → Bool
  | .train ls failed => if ls = [] then had else decide (l ∈ ls) && !failed l
  | .trainClass l' fails => if l' = l then !fails else had
  | .removeClass l' => if l' = l then false else had
  | .clear => false
  | .reset => had

/-- Is the class `l` in the model after the calls `ops`, from an empty model? -/
def present (ops : List SetOp) (l : String) : Bool := ops.foldl (fun had op => op.after l had) false

namespace ClassSet
variable {C : Type}

/-- What the type of model defines: a new class, the effect of the configuration, of the training and of `reset` on a class -/
structure Kind (C : Type) where
  fresh : String → C
  conf : String → C → C
  trained : C → C
  reset : C → C

/-- One call -/
def call (T : Kind C) : SetOp → Prog (ClassSet C) Unit
  | .train ls failed => train T.fresh T.conf T.trained T.reset ls fun l => !failed l
  | .trainClass l fails => trainClass T.fresh T.conf T.trained T.reset l (!fails)
  | .removeClass l => removeClass T.reset l
  | .clear => clear T.reset
  | .reset => reset T.reset

/-- The calls `ops`, whose exceptions the caller catches; `none`: undefined behaviour -/
def history (T : Kind C) : List SetOp → ClassSet C → Option (ClassSet C)
  | [], M => some M
  | op :: ops, M => match call T op M with
    | .ret _ M' => history T ops M'
    | .throw _ M' => history T ops M'
    | .ub => none

/-- a model without classes -/
def empty : ClassSet C := ⟨[], false⟩

end ClassSet
end Xmm
