import Verif.Model.ClassParams
/-
What `get()` returns on each parameter of a class, and the valuations accepted by the limits documented in the headers (vocabulary of C27).
-/
namespace Xmm

/-- the parameters of a k-means class -/
structure KMeansValues (K : Type) where
  clusters : Nat
  maxIterations : Nat
  threshold : K
  deriving DecidableEq

/-- the parameters of a GMM class; covariance mode 0 is Full, 1 is Diagonal -/
structure GmmValues (K : Type) where
  gaussians : Nat
  relReg : K
  absReg : K
  covMode : Int
  deriving DecidableEq

/-- the parameters of a HMM class; transition mode 0 is Ergodic, 1 is LeftRight; estimator 0 is Full, 1 Windowed, 2 Likeliest -/
structure HmmValues (K : Type) where
  states : Nat
  gaussians : Nat
  relReg : K
  absReg : K
  covMode : Int
  transMode : Int
  regEstimator : Int
  hierarchical : Bool
  deriving DecidableEq

variable {K : Type}

def KMeansAttrs.values (p : KMeansAttrs K) : KMeansValues K := ⟨p.clusters.value, p.maxIterations.value, p.threshold.value⟩
def GmmAttrs.values (p : GmmAttrs K) : GmmValues K := ⟨p.gaussians.value, p.relReg.value, p.absReg.value, p.covMode.value⟩
def HmmAttrs.values (p : HmmAttrs K) : HmmValues K :=
  ⟨p.states.value, p.gaussians.value, p.relReg.value, p.absReg.value, p.covMode.value, p.transMode.value, p.regEstimator.value,
   p.hierarchical.value⟩

/-- an admissible count -/
def Count (n : Nat) : Prop := 1 ≤ n ∧ n ≤ uintMax

variable [LE K]

def KMeansValues.Admissible [Zero K] (realMax : K) (v : KMeansValues K) : Prop :=
  Count v.clusters ∧ Count v.maxIterations ∧ 0 ≤ v.threshold ∧ v.threshold ≤ realMax

/-- a regularization within its limits -/
def Regularization (tiny realMax x : K) : Prop := tiny ≤ x ∧ x ≤ realMax

instance [DecidableLE K] (tiny realMax x : K) : Decidable (Regularization tiny realMax x) :=
  inferInstanceAs (Decidable (_ ∧ _))

def GmmValues.Admissible (tiny realMax : K) (v : GmmValues K) : Prop :=
  Count v.gaussians ∧ Regularization tiny realMax v.relReg ∧ Regularization tiny realMax v.absReg ∧ 0 ≤ v.covMode ∧ v.covMode ≤ 1

def HmmValues.Admissible (tiny realMax : K) (v : HmmValues K) : Prop :=
  Count v.states ∧ Count v.gaussians ∧ Regularization tiny realMax v.relReg ∧ Regularization tiny realMax v.absReg ∧
  0 ≤ v.covMode ∧ v.covMode ≤ 1 ∧ 0 ≤ v.transMode ∧ v.transMode ≤ 1 ∧ 0 ≤ v.regEstimator ∧ v.regEstimator ≤ 2

/-- edits of the parameters report to the object itself -/
def KMeansAttrs.Own (me : Nat) (p : KMeansAttrs K) : Prop :=
  p.clusters.listener = some me ∧ p.maxIterations.listener = some me ∧ p.threshold.listener = some me
def GmmAttrs.Own (me : Nat) (p : GmmAttrs K) : Prop :=
  p.gaussians.listener = some me ∧ p.relReg.listener = some me ∧ p.absReg.listener = some me ∧ p.covMode.listener = some me
def HmmAttrs.Own (me : Nat) (p : HmmAttrs K) : Prop :=
  p.states.listener = some me ∧ p.gaussians.listener = some me ∧ p.relReg.listener = some me ∧ p.absReg.listener = some me ∧
  p.covMode.listener = some me ∧ p.transMode.listener = some me ∧ p.regEstimator.listener = some me ∧
  p.hierarchical.listener = some me

/-- the documented limits: counts from 1, regularizations from `tiny`, the values of the enumerations -/
def GmmAttrs.Limits (tiny realMax : K) (p : GmmAttrs K) : Prop :=
  (p.gaussians.limitMin = 1 ∧ p.gaussians.limitMax = uintMax) ∧ (p.relReg.limitMin = tiny ∧ p.relReg.limitMax = realMax) ∧
  (p.absReg.limitMin = tiny ∧ p.absReg.limitMax = realMax) ∧ (p.covMode.limitMin = 0 ∧ p.covMode.limitMax = 1)
@[inherit_doc GmmAttrs.Limits]
def HmmAttrs.Limits (tiny realMax : K) (p : HmmAttrs K) : Prop :=
  (p.states.limitMin = 1 ∧ p.states.limitMax = uintMax) ∧ (p.gaussians.limitMin = 1 ∧ p.gaussians.limitMax = uintMax) ∧
  (p.relReg.limitMin = tiny ∧ p.relReg.limitMax = realMax) ∧ (p.absReg.limitMin = tiny ∧ p.absReg.limitMax = realMax) ∧
  (p.covMode.limitMin = 0 ∧ p.covMode.limitMax = 1) ∧ (p.transMode.limitMin = 0 ∧ p.transMode.limitMax = 1) ∧
  (p.regEstimator.limitMin = 0 ∧ p.regEstimator.limitMax = 2)

end Xmm
