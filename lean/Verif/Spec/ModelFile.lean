import Verif.Spec.JsonFile
import Verif.Model.ModelJson
/- What the JSON files of a configuration and of a model say, for C86. -/
namespace Xmm
variable {K : Type}

/-- The configuration is the one of the file, where `good j p` says that the parameters `p` are those of the file `j`: the default parameters, the two modes, and parameters exactly for the labels of
    the file. -/
structure Configuration.Described {P : Type} [JsonReal K] (good : Json K → P → Prop) (root : Json K) (c : Configuration P) : Prop where
  base : ∃ j, root.getKey "default_parameters" = .ok j ∧ good j c.base
  multithreading : ∃ j, root.getOr "multithreading" (.int 0) = .ok j ∧ j.asInt = .ok c.multithreading
  estimator : ∃ j, root.getOr "multiClass_regression_estimator" (.int 0) = .ok j ∧ j.asInt = .ok c.estimator
  classes : ∃ node names, root.getKey "class_parameters" = .ok node ∧ Configuration.memberNames node = .ok names ∧
    ∀ l, match SMap.find? l c.classParams with
      | none => l ∉ names
      | some p => l ∈ names ∧ ∃ j, node.getKey l = .ok j ∧ good j p

/-- the label of an element of `models` -/
def labelOf [JsonReal K] (j : Json K) : Option String :=
  match j.getKey "label" with
  | .ok s => match s.asString with
    | .ok l => some l
    | .error _ => none
  | .error _ => none

/-- the element of the file that decides what the class `l` is: the first one with this label -/
def classAt [JsonReal K] (js : List (Json K)) (l : String) : Option (Json K) := js.find? fun j => decide (labelOf j = some l)

/-- There are classes exactly for the labels of the file, and the class of a label is `like` the first element of the file with this label.  The labels of a map are sorted, each once. -/
def HasClasses [JsonReal K] {C : Type} (root : Json K) (models : SMap String C) (like : Json K → C → Prop) : Prop :=
  ∃ node, root.getKey "models" = .ok node ∧ (∀ j ∈ node.elements, labelOf j ≠ none) ∧ SMap.Sorted models ∧
    ∀ l, match classAt node.elements l, SMap.find? l models with
      | none, none => True
      | some j, some c => like j c
      | _, _ => False

/-- the member `key` of the file is the array of the rows `rows` -/
def HoldsRows [Field K] (root : Json K) (key : String) (rows : List (List K)) : Prop :=
  ∃ node, root.getKey key = .ok node ∧ ∀ (i : Nat) (r : List K), rows[i]? = some r → ∃ l, node.getIndex i = .ok (.arr l) ∧ l.map Json.asReal = r.map .ok

end Xmm
