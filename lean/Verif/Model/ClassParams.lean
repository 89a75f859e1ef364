import Verif.Model.SharedParams
/-
Model of the parameters of a class: src/models/kmeans/xmmKMeansParameters.cpp, src/models/gmm/xmmGmmParameters.cpp, src/models/hmm/xmmHmmParameters.cpp.

Conventions as in Model/SharedParams.lean: `me` is the identity of the object, `nar` the conversion of a `double` to `float`.  Values of an enumeration are
their `int` codes.  The callback `onAttributeChange` only sets `changed` of the object bound in the attribute (`changed = true; attr_pointer->changed = false`);
when that object is not `me`, its `changed` flag is not part of this model.
-/
namespace Xmm

/-- comparison of two enumeration values in `checkLimits`: xmmGaussianDistribution.cpp:706-715, xmmHmmParameters.cpp:164-192 -/
def ltInt (a b : Int) : Bool := decide (a < b)

/-- the attribute after `set` returned with the notifications `ns`: `attr_pointer->changed = false` when the callback ran -/
def Attr.called {α : Type} (ns : List (Notification α)) (a : Attr α) : Attr α :=
  match ns with
  | [] => a
  | _ :: _ => { a with changed := false }

/-- the flag `changed` of `me` after a call of `set` that returned the notifications `ns` -/
def flagged {α : Type} (me : Nat) (ns : List (Notification α)) (changed : Bool) : Bool :=
  match ns with
  | [] => changed
  | n :: _ => if n.owner = me then true else changed

/-- an attribute assigned with `=` and then bound to `me`: xmmKMeansParameters.cpp:74-82, xmmGmmParameters.cpp:93-105, xmmHmmParameters.cpp:110-131 -/
def Attr.rebound {α : Type} (me : Nat) (dst src : Attr α) : Attr α := { Attr.assign dst src with listener := some me }

/-- an attribute copied by the copy constructor and then bound to `me` -/
def Attr.copied {α : Type} (me : Nat) (src : Attr α) : Attr α := { Attr.copyConstruct src with listener := some me }

/-! ### k-means -/

/-- `ClassParameters<KMeans>`, src/models/kmeans/xmmKMeansParameters.hpp:101-117 -/
structure KMeansAttrs (K : Type) where
  changed : Bool
  clusters : Attr Nat
  maxIterations : Attr Nat
  threshold : Attr K

namespace KMeansAttrs
variable {K : Type} (me : Nat)

/-- default constructor, xmmKMeansParameters.cpp:35-46; `tiny` is 1e-20, `realMax` the largest `float` -/
def fresh [Field K] (tiny realMax : K) : KMeansAttrs K :=
  ⟨true, ⟨1, 1, uintMax, false, some me⟩, ⟨50, 1, uintMax, false, some me⟩, ⟨tiny, 0, realMax, false, some me⟩⟩

/-- copy constructor, xmmKMeansParameters.cpp:48-60 -/
def copy (src : KMeansAttrs K) : KMeansAttrs K :=
  ⟨true, src.clusters.copied me, src.maxIterations.copied me, src.threshold.copied me⟩

/-- `operator=`, xmmKMeansParameters.cpp:70-85 -/
def assignFrom (src dst : KMeansAttrs K) : KMeansAttrs K :=
  ⟨true, dst.clusters.rebound me src.clusters, dst.maxIterations.rebound me src.maxIterations, dst.threshold.rebound me src.threshold⟩

/-- `clusters.set(n)` -/
def setClusters (n : Nat) : Prog (KMeansAttrs K) Unit := fun p =>
  match Attr.set ltNat n false p.clusters with
  | .ret ns a => .ret () { p with clusters := a.called ns, changed := flagged me ns p.changed }
  | .throw e a => .throw e { p with clusters := a }
  | .ub => .ub

/-- `max_iterations.set(n)` -/
def setMaxIterations (n : Nat) : Prog (KMeansAttrs K) Unit := fun p =>
  match Attr.set ltNat n false p.maxIterations with
  | .ret ns a => .ret () { p with maxIterations := a.called ns, changed := flagged me ns p.changed }
  | .throw e a => .throw e { p with maxIterations := a }
  | .ub => .ub

/-- `relative_distance_threshold.set(x)` -/
def setThreshold [LT K] [DecidableLT K] (x : K) : Prog (KMeansAttrs K) Unit := fun p =>
  match Attr.set ltReal x false p.threshold with
  | .ret ns a => .ret () { p with threshold := a.called ns, changed := flagged me ns p.changed }
  | .throw e a => .throw e { p with threshold := a }
  | .ub => .ub

/-- `toJson`, xmmKMeansParameters.cpp:87-93 -/
def toJson (p : KMeansAttrs K) : Json K := .obj
  [("clusters", .int (sint p.clusters.value)),
   ("max_iterations", .int (sint p.maxIterations.value)),
   ("relative_distance_threshold", .real p.threshold.value)]

variable [Field K] [JsonReal K] [LT K] [DecidableLT K] (nar : K → K)

/-- body of the JSON constructor, on a default-constructed object: xmmKMeansParameters.cpp:62-68 -/
def readJson (root : Json K) : Prog (KMeansAttrs K) Unit := do
  let j ← liftE (root.getKey "clusters")
  let v ← liftE j.asInt
  setClusters me (uint v)
  let j ← liftE (root.getKey "max_iterations")
  let v ← liftE j.asInt
  setMaxIterations me (uint v)
  let j ← liftE (root.getKey "relative_distance_threshold")
  let v ← liftE (j.asFloat nar)
  setThreshold me v

/-- `fromJson`, xmmKMeansParameters.cpp:95-102: a temporary is built and assigned -/
def fromJson (tmp : Nat) (tiny realMax : K) (root : Json K) : Prog (KMeansAttrs K) Unit := fun p =>
  match readJson tmp nar root (fresh tmp tiny realMax) with
  | .ret _ t => .ret () (assignFrom me t p)
  | .throw e _ => .throw e p
  | .ub => .ub

end KMeansAttrs

/-! ### GMM -/

/-- `ClassParameters<GMM>`, src/models/gmm/xmmGmmParameters.hpp:100-122 -/
structure GmmAttrs (K : Type) where
  changed : Bool
  gaussians : Attr Nat
  relReg : Attr K
  absReg : Attr K
  covMode : Attr Int

namespace GmmAttrs
variable {K : Type} (me : Nat)

/-- default constructor, xmmGmmParameters.cpp:35-49; `tiny` is 1e-20, `realMax` the largest `double`.  The JSON constructor starts with the same members
    (lines 67-81). -/
def fresh [Field K] (tiny realMax : K) : GmmAttrs K :=
  ⟨true, ⟨10, 1, uintMax, false, some me⟩, ⟨1 / 100, tiny, realMax, false, some me⟩, ⟨1 / 1000, tiny, realMax, false, some me⟩,
   ⟨0, 0, 1, false, some me⟩⟩

/-- copy constructor, xmmGmmParameters.cpp:51-65 -/
def copy (src : GmmAttrs K) : GmmAttrs K :=
  ⟨true, src.gaussians.copied me, src.relReg.copied me, src.absReg.copied me, src.covMode.copied me⟩

/-- `operator=`, xmmGmmParameters.cpp:89-108 -/
def assignFrom (src dst : GmmAttrs K) : GmmAttrs K :=
  ⟨true, dst.gaussians.rebound me src.gaussians, dst.relReg.rebound me src.relReg, dst.absReg.rebound me src.absReg,
   dst.covMode.rebound me src.covMode⟩

/-- `gaussians.set(n)` -/
def setGaussians (n : Nat) : Prog (GmmAttrs K) Unit := fun p =>
  match Attr.set ltNat n false p.gaussians with
  | .ret ns a => .ret () { p with gaussians := a.called ns, changed := flagged me ns p.changed }
  | .throw e a => .throw e { p with gaussians := a }
  | .ub => .ub

/-- `relative_regularization.set(x)` -/
def setRelReg [LT K] [DecidableLT K] (x : K) : Prog (GmmAttrs K) Unit := fun p =>
  match Attr.set ltReal x false p.relReg with
  | .ret ns a => .ret () { p with relReg := a.called ns, changed := flagged me ns p.changed }
  | .throw e a => .throw e { p with relReg := a }
  | .ub => .ub

/-- `absolute_regularization.set(x)` -/
def setAbsReg [LT K] [DecidableLT K] (x : K) : Prog (GmmAttrs K) Unit := fun p =>
  match Attr.set ltReal x false p.absReg with
  | .ret ns a => .ret () { p with absReg := a.called ns, changed := flagged me ns p.changed }
  | .throw e a => .throw e { p with absReg := a }
  | .ub => .ub

/-- `covariance_mode.set(m)` -/
def setCovMode (m : Int) : Prog (GmmAttrs K) Unit := fun p =>
  match Attr.set ltInt m false p.covMode with
  | .ret ns a => .ret () { p with covMode := a.called ns, changed := flagged me ns p.changed }
  | .throw e a => .throw e { p with covMode := a }
  | .ub => .ub

/-- `toJson`, xmmGmmParameters.cpp:110-117 -/
def toJson (p : GmmAttrs K) : Json K := .obj
  [("gaussians", .int (sint p.gaussians.value)),
   ("relative_regularization", .real p.relReg.value),
   ("absolute_regularization", .real p.absReg.value),
   ("covariance_mode", .int p.covMode.value)]

variable [Field K] [JsonReal K] [LT K] [DecidableLT K] (nar : K → K)

/-- body of the JSON constructor, xmmGmmParameters.cpp:82-87 -/
def readJson (root : Json K) : Prog (GmmAttrs K) Unit := do
  let j ← liftE (root.getKey "gaussians")
  let v ← liftE j.asInt
  setGaussians me (uint v)
  let j ← liftE (root.getKey "relative_regularization")
  let v ← liftE (j.asFloat nar)
  setRelReg me v
  let j ← liftE (root.getKey "absolute_regularization")
  let v ← liftE (j.asFloat nar)
  setAbsReg me v
  let j ← liftE (root.getKey "covariance_mode")
  let v ← liftE j.asInt
  setCovMode me v

/-- `fromJson`, xmmGmmParameters.cpp:119-126 -/
def fromJson (tmp : Nat) (tiny realMax : K) (root : Json K) : Prog (GmmAttrs K) Unit := fun p =>
  match readJson tmp nar root (fresh tmp tiny realMax) with
  | .ret _ t => .ret () (assignFrom me t p)
  | .throw e _ => .throw e p
  | .ub => .ub

end GmmAttrs

/-! ### HMM -/

/-- `ClassParameters<HMM>`, src/models/hmm/xmmHmmParameters.hpp:138-181 -/
structure HmmAttrs (K : Type) where
  changed : Bool
  states : Attr Nat
  gaussians : Attr Nat
  relReg : Attr K
  absReg : Attr K
  covMode : Attr Int
  transMode : Attr Int
  regEstimator : Attr Int
  hierarchical : Attr Bool

namespace HmmAttrs
variable {K : Type} (me : Nat)

/-- default constructor, xmmHmmParameters.cpp:35-61: `CovarianceMode::Full` and `RegressionEstimator::Full` have code 0, `TransitionMode::LeftRight` code 1
    (xmmHmmParameters.hpp:53-83). -/
def fresh [Field K] (tiny realMax : K) : HmmAttrs K :=
  ⟨true, ⟨10, 1, uintMax, false, some me⟩, ⟨1, 1, uintMax, false, some me⟩, ⟨1 / 100, tiny, realMax, false, some me⟩,
   ⟨1 / 1000, tiny, realMax, false, some me⟩, ⟨0, 0, 1, false, some me⟩, ⟨1, 0, 1, false, some me⟩, ⟨0, 0, 2, false, some me⟩,
   ⟨true, false, true, false, some me⟩⟩

/-- copy constructor, xmmHmmParameters.cpp:63-89 -/
def copy (src : HmmAttrs K) : HmmAttrs K :=
  ⟨true, src.states.copied me, src.gaussians.copied me, src.relReg.copied me, src.absReg.copied me, src.covMode.copied me,
   src.transMode.copied me, src.regEstimator.copied me, src.hierarchical.copied me⟩

/-- `operator=`, xmmHmmParameters.cpp:106-135: `hierarchical` is bound again (line 130) but not assigned. -/
def assignFrom (src dst : HmmAttrs K) : HmmAttrs K :=
  ⟨true, dst.states.rebound me src.states, dst.gaussians.rebound me src.gaussians, dst.relReg.rebound me src.relReg,
   dst.absReg.rebound me src.absReg, dst.covMode.rebound me src.covMode, dst.transMode.rebound me src.transMode,
   dst.regEstimator.rebound me src.regEstimator, { dst.hierarchical with listener := some me }⟩

/-- `states.set(n)` -/
def setStates (n : Nat) : Prog (HmmAttrs K) Unit := fun p =>
  match Attr.set ltNat n false p.states with
  | .ret ns a => .ret () { p with states := a.called ns, changed := flagged me ns p.changed }
  | .throw e a => .throw e { p with states := a }
  | .ub => .ub

/-- `gaussians.set(n)` -/
def setGaussians (n : Nat) : Prog (HmmAttrs K) Unit := fun p =>
  match Attr.set ltNat n false p.gaussians with
  | .ret ns a => .ret () { p with gaussians := a.called ns, changed := flagged me ns p.changed }
  | .throw e a => .throw e { p with gaussians := a }
  | .ub => .ub

/-- `relative_regularization.set(x)` -/
def setRelReg [LT K] [DecidableLT K] (x : K) : Prog (HmmAttrs K) Unit := fun p =>
  match Attr.set ltReal x false p.relReg with
  | .ret ns a => .ret () { p with relReg := a.called ns, changed := flagged me ns p.changed }
  | .throw e a => .throw e { p with relReg := a }
  | .ub => .ub

/-- `absolute_regularization.set(x)` -/
def setAbsReg [LT K] [DecidableLT K] (x : K) : Prog (HmmAttrs K) Unit := fun p =>
  match Attr.set ltReal x false p.absReg with
  | .ret ns a => .ret () { p with absReg := a.called ns, changed := flagged me ns p.changed }
  | .throw e a => .throw e { p with absReg := a }
  | .ub => .ub

/-- `covariance_mode.set(m)` -/
def setCovMode (m : Int) : Prog (HmmAttrs K) Unit := fun p =>
  match Attr.set ltInt m false p.covMode with
  | .ret ns a => .ret () { p with covMode := a.called ns, changed := flagged me ns p.changed }
  | .throw e a => .throw e { p with covMode := a }
  | .ub => .ub

/-- `transition_mode.set(m)` -/
def setTransMode (m : Int) : Prog (HmmAttrs K) Unit := fun p =>
  match Attr.set ltInt m false p.transMode with
  | .ret ns a => .ret () { p with transMode := a.called ns, changed := flagged me ns p.changed }
  | .throw e a => .throw e { p with transMode := a }
  | .ub => .ub

/-- `regression_estimator.set(m)` -/
def setRegEstimator (m : Int) : Prog (HmmAttrs K) Unit := fun p =>
  match Attr.set ltInt m false p.regEstimator with
  | .ret ns a => .ret () { p with regEstimator := a.called ns, changed := flagged me ns p.changed }
  | .throw e a => .throw e { p with regEstimator := a }
  | .ub => .ub

/-- `hierarchical.set(b)` -/
def setHierarchical (b : Bool) : Prog (HmmAttrs K) Unit := fun p =>
  match Attr.set ltNever b false p.hierarchical with
  | .ret ns a => .ret () { p with hierarchical := a.called ns, changed := flagged me ns p.changed }
  | .throw e a => .throw e { p with hierarchical := a }
  | .ub => .ub

/-- `toJson`, xmmHmmParameters.cpp:137-148 -/
def toJson (p : HmmAttrs K) : Json K := .obj
  [("states", .int (sint p.states.value)),
   ("gaussians", .int (sint p.gaussians.value)),
   ("relative_regularization", .real p.relReg.value),
   ("absolute_regularization", .real p.absReg.value),
   ("covariance_mode", .int p.covMode.value),
   ("transition_mode", .int p.transMode.value),
   ("regression_estimator", .int p.regEstimator.value),
   ("hierarchical", .bool p.hierarchical.value)]

variable [Field K] [DecidableEq K] [JsonReal K] [LT K] [DecidableLT K] (nar : K → K)

/-- body of the JSON constructor, xmmHmmParameters.cpp:91-104 -/
def readJson (root : Json K) : Prog (HmmAttrs K) Unit := do
  let j ← liftE (root.getKey "states")
  let v ← liftE j.asInt
  setStates me (uint v)
  let j ← liftE (root.getKey "gaussians")
  let v ← liftE j.asInt
  setGaussians me (uint v)
  let j ← liftE (root.getKey "relative_regularization")
  let v ← liftE (j.asFloat nar)
  setRelReg me v
  let j ← liftE (root.getKey "absolute_regularization")
  let v ← liftE (j.asFloat nar)
  setAbsReg me v
  let j ← liftE (root.getKey "covariance_mode")
  let v ← liftE j.asInt
  setCovMode me v
  let j ← liftE (root.getKey "transition_mode")
  let v ← liftE j.asInt
  setTransMode me v
  let j ← liftE (root.getKey "regression_estimator")
  let v ← liftE j.asInt
  setRegEstimator me v
  let j ← liftE (root.getKey "hierarchical")
  let v ← liftE j.asBool
  setHierarchical me v

/-- `fromJson`, xmmHmmParameters.cpp:150-157 -/
def fromJson (tmp : Nat) (tiny realMax : K) (root : Json K) : Prog (HmmAttrs K) Unit := fun p =>
  match readJson tmp nar root (fresh tmp tiny realMax) with
  | .ret _ t => .ret () (assignFrom me t p)
  | .throw e _ => .throw e p
  | .ub => .ub

end HmmAttrs
end Xmm
