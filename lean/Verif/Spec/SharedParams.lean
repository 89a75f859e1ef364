import Verif.Model.SharedParams
/-
What a user of the shared parameters sees, and the vocabulary of properties C26 and C27.
-/
namespace Xmm

/-- the values returned by `get()` on each attribute -/
structure SharedValues (K : Type) where
  bimodal : Bool
  dimension : Nat
  dimensionInput : Nat
  columnNames : List String
  emMin : Nat
  emMax : Nat
  percentChg : K
  window : Nat
  deriving DecidableEq, Repr

/-- the values of the attributes -/
def SharedParams.values {K : Type} (s : SharedParams K) : SharedValues K :=
  ⟨s.bimodal.value, s.dimension.value, s.dimensionInput.value, s.columnNames.value, s.emMin.value, s.emMax.value,
   s.percentChg.value, s.window.value⟩

namespace SharedSpec
variable {K : Type}

/-- the dimensions of a model make sense: bimodal means at least one input and one output column, unimodal means that there
    is no input modality -/
def Coherent (v : SharedValues K) : Prop :=
  (v.bimodal = true → 2 ≤ v.dimension ∧ 1 ≤ v.dimensionInput ∧ v.dimensionInput < v.dimension) ∧
  (v.bimodal = false → v.dimensionInput = 0)

/-- one call `attribute.set(value)` -/
inductive Op (K : Type) where
  | bimodal (b : Bool)
  | dimension (n : Nat)
  | dimensionInput (k : Nat)
  | columnNames (l : List String)
  | emMin (n : Nat)
  | emMax (n : Nat)
  | percentChg (x : K)
  | window (n : Nat)

variable [LT K] [DecidableLT K]

/-- the call on the object `me` -/
def call (alive : Nat → Bool) (me : Nat) : Op K → Prog (SharedParams K) Unit
  | .bimodal b => SharedParams.setBimodal alive me b
  | .dimension n => SharedParams.setDimension alive me n
  | .dimensionInput k => SharedParams.setDimensionInput alive me k
  | .columnNames l => SharedParams.setColumnNames alive me l
  | .emMin n => SharedParams.setEmMin alive me n
  | .emMax n => SharedParams.setEmMax alive me n
  | .percentChg x => SharedParams.setPercentChg alive me x
  | .window n => SharedParams.setWindow alive me n

/-- `s'` is reached from `s` by a sequence of calls, exceptions being caught, each call being allowed by `ok` in view of
    the values before the call -/
inductive After (alive : Nat → Bool) (me : Nat) (ok : SharedValues K → Op K → Prop) (s : SharedParams K) :
    SharedParams K → Prop
  | start : After alive me ok s s
  | step {s' s'' : SharedParams K} {op : Op K} : After alive me ok s s' → ok s'.values op →
      (call alive me op s').stateAfter = some s'' → After alive me ok s s''

/-- no restriction on the calls -/
def anyCall (_ : SharedValues K) (_ : Op K) : Prop := True

/-- the calls for which the parameters stay coherent: bimodal is not switched off (except redundantly, before the dimension is
    chosen), the dimension is not lowered to the input dimension, and the input dimension is only set in bimodal mode -/
def careful (v : SharedValues K) : Op K → Prop
  | .bimodal b => b = true ∨ (v.bimodal = false ∧ v.dimension = 1)
  | .dimension n => v.bimodal = true → v.dimensionInput < n ∨ n < 2
  | .dimensionInput k => v.bimodal = true ∨ k = 0
  | _ => True

/-- every value fits the types and the limits of a default-constructed object, and the dimensions make sense -/
def Admissible [Zero K] [LE K] (realMax : K) (v : SharedValues K) : Prop :=
  Coherent v ∧ 1 ≤ v.dimension ∧ v.dimension ≤ uintMax ∧ v.columnNames.length = v.dimension ∧
  1 ≤ v.emMin ∧ v.emMin < 2147483648 ∧ v.emMax < 2147483648 ∧ 0 ≤ v.percentChg ∧ v.percentChg ≤ realMax ∧
  1 ≤ v.window ∧ v.window ≤ uintMax

end SharedSpec
end Xmm
