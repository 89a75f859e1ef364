import Verif.Model.ClassParams
import Verif.Model.StdMap
import Mathlib.Data.String.Basic
/-
Model of src/core/model/xmmModelConfiguration.hpp: the template `Configuration<ModelType>`, for any type `P` of class parameters.
-/
namespace Xmm

/-- The member functions of `ClassParameters<ModelType>` that the template uses: `fresh me` is the default constructor of the object `me`, `assignFrom me src dst` is
    `operator=`, `copy me src` the copy constructor (see Model/ClassParams.lean). -/
structure ParamType (P : Type) where
  fresh : Nat → P
  assignFrom : Nat → P → P → P
  copy : Nat → P → P

/-- the two instances of the template: xmmGmmParameters.cpp, xmmHmmParameters.cpp -/
def GmmAttrs.type {K : Type} [Field K] (tiny realMax : K) : ParamType (GmmAttrs K) := ⟨fun me => fresh me tiny realMax, assignFrom, copy⟩
@[inherit_doc GmmAttrs.type]
def HmmAttrs.type {K : Type} [Field K] (tiny realMax : K) : ParamType (HmmAttrs K) := ⟨fun me => fresh me tiny realMax, assignFrom, copy⟩

/-- `Configuration<ModelType>`, xmmModelConfiguration.hpp:90, 217-229: the base class object (the default parameters), the two enumerations (as `int` codes; Sequential 0,
    Parallel 1, Background 2; Likeliest 0, Mixture 1; lines 44-81) and `class_parameters_`. -/
structure Configuration (P : Type) where
  base : P
  multithreading : Int
  estimator : Int
  classParams : SMap String P

namespace Configuration
variable {P : Type} (T : ParamType P) (me : Nat) (slot : String → Nat)

/-- default constructor, xmmModelConfiguration.hpp:98-100.  `me` is the identity of the object, `slot l` that of the parameters of the label `l`
    (the nodes of a `std::map` do not move). -/
def fresh : Configuration P := ⟨T.fresh me, 1, 0, []⟩

/-- the copy of a map: every element is copy-constructed.  (So does the assignment of maps in libstdc++; libc++ assigns to the nodes it can reuse.) -/
def copyMap (m : SMap String P) : SMap String P := m.map fun lp => (lp.1, T.copy (slot lp.1) lp.2)

/-- copy constructor, xmmModelConfiguration.hpp:106-110 -/
def copy (src : Configuration P) : Configuration P :=
  ⟨T.copy me src.base, src.multithreading, src.estimator, copyMap T slot src.classParams⟩

/-- `operator=`, xmmModelConfiguration.hpp:134-143 -/
def assignFrom (src dst : Configuration P) : Configuration P :=
  ⟨T.assignFrom me src.base dst.base, src.multithreading, src.estimator, copyMap T slot src.classParams⟩

/-- `operator[](label)`, xmmModelConfiguration.hpp:152-157: `class_parameters_[label] = *this` default-constructs an element and assigns it.  The result is the
    value of the object that the returned reference designates. -/
def index (label : String) : Prog (Configuration P) P := do
  let c ← Prog.get
  match SMap.find? label c.classParams with
  | some p => pure p
  | none => do
    let p := T.assignFrom (slot label) c.base (T.fresh (slot label))
    Prog.set { c with classParams := SMap.assign label p c.classParams }
    pure p

/-- call of `f` on the element `label` of `class_parameters_`, whose value is `p` -/
def within (label : String) (f : Prog P Unit) (p : P) : Prog (Configuration P) Unit := fun c =>
  match f p with
  | .ret _ p' => .ret () { c with classParams := SMap.assign label p' c.classParams }
  | .throw e p' => .throw e { c with classParams := SMap.assign label p' c.classParams }
  | .ub => .ub

/-- `configuration[label].f()`, where `f` is a call on the object `slot label` -/
def edit (label : String) (f : Prog P Unit) : Prog (Configuration P) Unit := do
  let p ← index T slot label
  within label f p

/-- `configuration.f()`, where `f` is a call on the base class object -/
def editDefault (f : Prog P Unit) : Prog (Configuration P) Unit := fun c =>
  match f c.base with
  | .ret _ p' => .ret () { c with base := p' }
  | .throw e p' => .throw e { c with base := p' }
  | .ub => .ub

/-- `includes(label)`, xmmModelConfiguration.hpp:165-167 -/
def includes (label : String) : Prog (Configuration P) Bool := fun c => .ret (SMap.find? label c.classParams).isSome c

/-- `reset()`, xmmModelConfiguration.hpp:172 -/
def resetAll : Prog (Configuration P) Unit := Prog.modify fun c => { c with classParams := [] }

/-- `reset(label)`, xmmModelConfiguration.hpp:178-182 -/
def resetLabel (label : String) : Prog (Configuration P) Unit := do
  let c ← Prog.get
  match SMap.find? label c.classParams with
  | some _ => Prog.set { c with classParams := SMap.erase label c.classParams }
  | none => pure ()

/-- the right-hand side of the assignment of `models[label].parameters` in `addModelForClass`, xmmModel.hpp:591-595 -/
def paramsFor (label : String) (c : Configuration P) : P :=
  match SMap.find? label c.classParams with
  | some p => p
  | none => c.base

/-! ### JSON -/
section
variable {K : Type} (write : P → Json K)

/-- `toJson`, xmmModelConfiguration.hpp:188-198; `write` is `ClassParameters::toJson`.  Without class parameters there is no member "class_parameters". -/
def toJson (c : Configuration P) : Json K := .obj
  ([("multithreading", .int c.multithreading),
    ("multiClass_regression_estimator", .int c.estimator),
    ("default_parameters", write c.base)] ++
   match c.classParams with
   | [] => []
   | m => [("class_parameters", .obj (m.map fun lp => (lp.1, write lp.2)))])

variable [Field K] [JsonReal K] (read : Nat → Json K → Prog P Unit)

/-- `getMemberNames()`, jsoncpp json_value.cpp:1168-1183 -/
def memberNames (j : Json K) : Except Exn (List String) :=
  match j with
  | .null => .ok []
  | .obj m => .ok (m.map Prod.fst)
  | _ => .error .jsonLogicError

/-- the element that `class_parameters_[label]` designates: default-constructed if there was none -/
def element (label : String) (c : Configuration P) : P :=
  match SMap.find? label c.classParams with
  | some p => p
  | none => T.fresh (slot label)

/-- the loop of the JSON constructor, xmmModelConfiguration.hpp:125-127 -/
def readClasses (node : Json K) : List String → Prog (Configuration P) Unit
  | [] => pure ()
  | label :: labels => do
    let j ← liftE (node.getKey label)
    let c ← Prog.get
    within label (read (slot label) j) (element T slot label c)
    readClasses node labels

/-- body of the JSON constructor, on a default-constructed object: xmmModelConfiguration.hpp:116-128; `read id` is `fromJson` of the `ClassParameters` object `id` -/
def readJson (root : Json K) : Prog (Configuration P) Unit := do
  let j ← liftE (root.getKey "default_parameters")
  editDefault (read me j)
  let j ← liftE (root.getOr "multithreading" (.int 0))
  let z ← liftE j.asInt
  Prog.modify fun c => { c with multithreading := z }
  let j ← liftE (root.getOr "multiClass_regression_estimator" (.int 0))
  let z ← liftE j.asInt
  Prog.modify fun c => { c with estimator := z, classParams := [] }
  let j ← liftE (root.getKey "class_parameters")
  let members ← liftE (memberNames j)
  readClasses T slot read j members

/-- `fromJson`, xmmModelConfiguration.hpp:205-212: a temporary (`tmp`, with the parameters `tslot`) is read and assigned -/
def fromJson (tmp : Nat) (tslot : String → Nat) (root : Json K) : Prog (Configuration P) Unit := fun c =>
  match readJson T tmp tslot read root (fresh T tmp) with
  | .ret _ t => .ret () (assignFrom T me slot t c)
  | .throw e _ => .throw e c
  | .ub => .ub

end
end Configuration
end Xmm
