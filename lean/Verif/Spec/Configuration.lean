import Verif.Model.Configuration
import Verif.Spec.ClassParams
/-
What a configuration means: default parameters, and parameters of its own for some labels (vocabulary of C28).
-/
namespace Xmm

/-- The meaning of a configuration: `own l` are the parameters of the label `l` if it has been given some -/
structure ConfigSpec (V : Type) where
  default : V
  own : String → Option V

/-- Calls on a configuration: an edit `e` of a default parameter, an edit of a parameter of `configuration[l]`, the expression `configuration[l]` alone, `reset()`, `reset(l)` -/
inductive ConfigOp (E : Type) where
  | default (e : E)
  | label (l : String) (e : E)
  | access (l : String)
  | reset
  | resetLabel (l : String)

namespace ConfigSpec
variable {V E : Type}

/-- the parameters that apply to the label `l` -/
def effective (c : ConfigSpec V) (l : String) : V := (c.own l).getD c.default

/-- the parameters `v` are given to the label `l`, nothing else changes -/
def give (l : String) (v : V) (c : ConfigSpec V) : ConfigSpec V := { c with own := fun l' => if l' = l then some v else c.own l' }

/-- the effect of one call, `apply e` being the effect of an edit on parameters -/
def step (apply : E → V → V) (c : ConfigSpec V) : ConfigOp E → ConfigSpec V
  | .default e => { c with default := apply e c.default }
  | .label l e => c.give l (apply e (c.effective l))
  | .access l => c.give l (c.effective l)
  | .reset => { c with own := fun _ => none }
  | .resetLabel l => { c with own := fun l' => if l' = l then none else c.own l' }

/-- the configuration after the calls `ops`, from the parameters `v` for every label -/
def after (apply : E → V → V) (v : V) (ops : List (ConfigOp E)) : ConfigSpec V := ops.foldl (step apply) ⟨v, fun _ => none⟩

/-- the parameters that appear in a configuration -/
def Has (s : ConfigSpec V) (v : V) : Prop := v = s.default ∨ ∃ l, s.own l = some v

end ConfigSpec

/-! ### Edits of one parameter: accepted when within the limits, otherwise without effect -/

inductive GmmEdit (K : Type) where
  | gaussians (n : Nat) | relReg (x : K) | absReg (x : K) | covMode (m : Int)

inductive HmmEdit (K : Type) where
  | states (n : Nat) | gaussians (n : Nat) | relReg (x : K) | absReg (x : K) | covMode (m : Int) | transMode (m : Int) | regEstimator (m : Int)
  | hierarchical (b : Bool)

instance (n : Nat) : Decidable (Count n) := inferInstanceAs (Decidable (_ ∧ _))

section
variable {K : Type} [LE K] [DecidableLE K] (tiny realMax : K)

def GmmEdit.apply : GmmEdit K → GmmValues K → GmmValues K
  | .gaussians n, v => if Count n then { v with gaussians := n } else v
  | .relReg x, v => if Regularization tiny realMax x then { v with relReg := x } else v
  | .absReg x, v => if Regularization tiny realMax x then { v with absReg := x } else v
  | .covMode m, v => if 0 ≤ m ∧ m ≤ 1 then { v with covMode := m } else v

def HmmEdit.apply : HmmEdit K → HmmValues K → HmmValues K
  | .states n, v => if Count n then { v with states := n } else v
  | .gaussians n, v => if Count n then { v with gaussians := n } else v
  | .relReg x, v => if Regularization tiny realMax x then { v with relReg := x } else v
  | .absReg x, v => if Regularization tiny realMax x then { v with absReg := x } else v
  | .covMode m, v => if 0 ≤ m ∧ m ≤ 1 then { v with covMode := m } else v
  | .transMode m, v => if 0 ≤ m ∧ m ≤ 1 then { v with transMode := m } else v
  | .regEstimator m, v => if 0 ≤ m ∧ m ≤ 2 then { v with regEstimator := m } else v
  | .hierarchical b, v => { v with hierarchical := b }
end

/-! ### The same calls on the model -/

section
variable {K : Type} [LT K] [DecidableLT K]

/-- the call on the object `id` -/
def GmmEdit.run (id : Nat) : GmmEdit K → Prog (GmmAttrs K) Unit
  | .gaussians n => GmmAttrs.setGaussians id n
  | .relReg x => GmmAttrs.setRelReg id x
  | .absReg x => GmmAttrs.setAbsReg id x
  | .covMode m => GmmAttrs.setCovMode id m

@[inherit_doc GmmEdit.run]
def HmmEdit.run (id : Nat) : HmmEdit K → Prog (HmmAttrs K) Unit
  | .states n => HmmAttrs.setStates id n
  | .gaussians n => HmmAttrs.setGaussians id n
  | .relReg x => HmmAttrs.setRelReg id x
  | .absReg x => HmmAttrs.setAbsReg id x
  | .covMode m => HmmAttrs.setCovMode id m
  | .transMode m => HmmAttrs.setTransMode id m
  | .regEstimator m => HmmAttrs.setRegEstimator id m
  | .hierarchical b => HmmAttrs.setHierarchical id b
end

namespace Configuration
variable {P E : Type} (T : ParamType P) (me : Nat) (slot : String → Nat) (run : Nat → E → Prog P Unit)

/-- one call -/
def call : ConfigOp E → Prog (Configuration P) Unit
  | .default e => editDefault (run me e)
  | .label l e => edit T slot l (run (slot l) e)
  | .access l => do let _ ← index T slot l
  | .reset => resetAll
  | .resetLabel l => resetLabel l

/-- the calls `ops`, whose exceptions the caller catches; `none`: undefined behaviour -/
def history : List (ConfigOp E) → Configuration P → Option (Configuration P)
  | [], c => some c
  | op :: ops, c => match (call T me slot run op c).stateAfter with
    | some c' => history ops c'
    | none => none

end Configuration
end Xmm
