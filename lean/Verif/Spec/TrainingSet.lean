import Verif.Model.TrainingSet
/-
What a user expects of a training set.
-/
namespace Xmm.TS
variable {K L : Type} [LinearOrder L]

/-- The phrase stored under index `k` is the object `r`. -/
def TSet.Holds {L : Type} (t : TSet L) (k : Int) (r : Nat) : Prop := t.phrases.find? k = some r

/-- The label index agrees with the labels `lab` of the phrases: `labels()` is the set of labels of the phrases, and the
    set returned by `getPhrasesOfClass(l)` holds exactly the phrases labelled `l`, under the same indices (no set is
    returned if there is none). -/
def Exact (lab : Nat → L) (t : TSet L) : Prop :=
  (∀ l, l ∈ t.labels.keys ↔ ∃ k r, t.Holds k r ∧ lab r = l) ∧
  ∀ l, match t.subs.find? l with
    | none => ¬ ∃ k r, t.Holds k r ∧ lab r = l
    | some s => (∃ k r, t.Holds k r ∧ lab r = l) ∧ ∀ k r, s.phrases.find? k = some r ↔ (t.Holds k r ∧ lab r = l)

/-- The input dimension is below the dimension. -/
def TSet.Coherent {L : Type} (t : TSet L) : Prop := t.dims.di < t.dims.dim

/-- every existing training set is coherent -/
def World.Coherent (w : World K L) : Prop := ∀ i t, w.sets i = some t → t.Coherent

/-- Does this call add, remove, copy or relabel phrases? -/
def Op.updates : Op K L → Bool
  | .newSet _ _ _ | .destroy _ | .newPhrase _ _ | .phraseOp _ _ | .clear _ | .setDim _ _ | .setDi _ _ | .setCols _ _ => false
  | _ => true

/-- The history makes no call that adds, removes, copies or relabels phrases while some training set has an input
    dimension that is not below its dimension.  (Exceptions of earlier calls are caught.) -/
def Admissible [Inhabited L] : List (Op K L) → World K L → Prop
  | [], _ => True
  | op :: ops, w => (op.updates = true → w.Coherent) ∧
    match step op w with
    | .ret _ w' => Admissible ops w'
    | .throw _ w' => Admissible ops w'
    | .ub => True

end Xmm.TS
