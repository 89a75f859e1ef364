import Verif.Model.Gaussian
import Verif.Model.SharedParams
/-
Model of the JSON input and output and of the copies of src/core/distributions/xmmGaussianDistribution.cpp.

`GaussObj` adds to a distribution the objects bound in the callbacks of its attributes: the copy constructor binds them to the new object, `operator=` copies
them (the implicit copy assignment of `Attribute`, see Model/Attribute.lean).  Products of dimensions are not reduced modulo 2^32.
-/
namespace Xmm
namespace Gauss
variable {K : Type}

/-- `static_cast<int>` of a covariance mode, xmmGaussianDistribution.hpp:85-94 -/
def modeCode : CovMode → Int
  | .full => 0
  | .diagonal => 1

/-- `covariance_mode.set(static_cast<CovarianceMode>(code))` on a default-constructed attribute: the limits are the first and last enumerators,
    xmmGaussianDistribution.cpp:706-720 -/
def modeOf (code : Int) : Except Exn CovMode :=
  if code = 0 then .ok .full else if code = 1 then .ok .diagonal else .error .domainError

/-- `toJson`, xmmGaussianDistribution.cpp:332-351 -/
def toJson [Field K] (g : Gauss K) : Json K := .obj
  [("bimodal", .bool g.bimodal),
   ("dimension", .int (sint g.dim)),
   ("dimension_input", .int (sint g.di)),
   ("covariance_mode", .int (modeCode g.mode)),
   ("mean", vector2json (realCodec K) g.mean),
   ("covariance", vector2json (realCodec K) g.cov),
   ("inverse_covariance", vector2json (realCodec K) g.inv),
   ("covariance_determinant", .real g.det),
   ("inverse_covariance_input", vector2json (realCodec K) g.invIn),
   ("covariance_determinant_input", .real g.detIn),
   ("output_covariance", vector2json (realCodec K) g.outCov)]

/-- `json2vector(node, v, n)` on one of the vectors of the object -/
def readVector {σ : Type} [Field K] (node : Json K) (n : Nat) (v : List K) : Prog σ (List K) := fun s =>
  match json2vector (realCodec K) node n v with
  | .ret _ v' => .ret v' s
  | .throw e _ => .throw e s
  | .ub => .ub

/-- The JSON constructor, xmmGaussianDistribution.cpp:86-116: the attributes are default-constructed, so that `dimension` and `dimension_input` have the limits of
    their type; the callbacks are bound at the end. -/
def ofJson {σ : Type} [Field K] [DecidableEq K] [JsonReal K] (root : Json K) : Prog σ (Gauss K) := do
  let j ← liftE (root.getOr "bimodal" (.bool false))
  let bimodal ← liftE j.asBool
  let j ← liftE (root.getOr "dimension" (.int (if bimodal then 2 else 1)))
  let dim ← liftE j.asInt
  let j ← liftE (root.getOr "dimension_input" (.int (if bimodal then 1 else 0)))
  let di ← liftE j.asInt
  let j ← liftE (root.getKey "covariance_mode")
  let code ← liftE j.asInt
  let mode ← liftE (modeOf code)
  let g : Gauss K := allocate ⟨bimodal, uint dim, 0, uint di, uintMax, mode, [], [], [], 0, [], 0, []⟩
  let j ← liftE (root.getKey "mean")
  let mean ← readVector j g.dim g.mean
  let j ← liftE (root.getKey "covariance")
  let cov ← readVector j (g.dim * g.dim) g.cov
  let j ← liftE (root.getKey "inverse_covariance")
  let inv ← readVector j (g.dim * g.dim) g.inv
  let j ← liftE (root.getOr "covariance_determinant" (.real 0))
  let det ← liftE j.asReal
  let j ← liftE (root.getKey "inverse_covariance_input")
  let invIn ← readVector j (g.di * g.di) g.invIn
  let j ← liftE (root.getOr "covariance_determinant_input" (.real 0))
  let detIn ← liftE j.asReal
  pure { g with mean := mean, cov := cov, inv := inv, det := det, invIn := invIn, detIn := detIn }

end Gauss

/-- a distribution with the objects bound in the callbacks of `dimension`, `dimension_input` and `covariance_mode` -/
structure GaussObj (K : Type) where
  g : Gauss K
  onDim : Option Nat
  onDi : Option Nat
  onMode : Option Nat

namespace GaussObj
variable {K : Type}

/-- constructor of the object `me`, xmmGaussianDistribution.cpp:47-64 -/
def construct [Zero K] (me : Nat) (bimodal : Bool) (dim di : Nat) (mode : CovMode) : Option (GaussObj K) :=
  (Gauss.construct bimodal dim di mode).map fun g => ⟨g, some me, some me, some me⟩

/-- copy constructor, xmmGaussianDistribution.cpp:66-84 -/
def copy (me : Nat) (src : GaussObj K) : GaussObj K := ⟨src.g, some me, some me, some me⟩

/-- `operator=`, xmmGaussianDistribution.cpp:118-135: every member, with the callbacks of the attributes -/
def assignFrom (src _dst : GaussObj K) : GaussObj K := src

/-- JSON constructor of the object `me` -/
def ofJson {σ : Type} [Field K] [DecidableEq K] [JsonReal K] (me : Nat) (root : Json K) : Prog σ (GaussObj K) := do
  let g ← Gauss.ofJson root
  pure ⟨g, some me, some me, some me⟩

/-- `fromJson`, xmmGaussianDistribution.cpp:353-360: a temporary is built and assigned -/
def fromJson [Field K] [DecidableEq K] [JsonReal K] (tmp : Nat) (root : Json K) : Prog (GaussObj K) Unit := do
  let t ← ofJson tmp root
  Prog.modify (assignFrom t)

section
variable (alive : Nat → Bool) (me : Nat)

/-- The effect of a callback bound to `owner`, xmmGaussianDistribution.cpp:137-172: `own` when it is this object; nothing when it is another live object (none of the
    comparisons of addresses holds); undefined behaviour when the object has been destroyed. -/
def notify (owner : Option Nat) (own : Prog (GaussObj K) Unit) : Prog (GaussObj K) Unit :=
  match owner with
  | none => pure ()
  | some o => if o = me then own else if alive o then pure () else Prog.undef

/-- run a function of the distribution -/
def onGauss {α : Type} (p : Prog (Gauss K) α) : Prog (GaussObj K) α := fun s =>
  match p s.g with
  | .ret a g => .ret a { s with g := g }
  | .throw e g => .throw e { s with g := g }
  | .ub => .ub

/-- `dimension.set(d)`: src/core/common/xmmAttribute.hpp:191-198, then lines 138-143 of the callback -/
def setDim [Zero K] (d : Nat) : Prog (GaussObj K) Unit := do
  let s ← Prog.get
  if d < s.g.dimMin then Prog.throw .domainError
  else do
    Prog.modify fun s => { s with g := { s.g with dim := d } }
    notify alive me s.onDim (Prog.modify fun s => { s with g := Gauss.allocate { s.g with diMax := s.g.dim - 1 } })

/-- `dimension_input.set(d)`, likewise, lines 141-143 -/
def setDi [Zero K] (d : Nat) : Prog (GaussObj K) Unit := do
  let s ← Prog.get
  if s.g.diMax < d then Prog.throw .domainError
  else do
    Prog.modify fun s => { s with g := { s.g with di := d } }
    notify alive me s.onDi (Prog.modify fun s => { s with g := Gauss.allocate s.g })

/-- `covariance_mode.set(m)`, likewise, lines 144-170 -/
def setMode [Field K] [LinearOrder K] (m : CovMode) : Prog (GaussObj K) Unit := do
  let s ← Prog.get
  Prog.modify fun s => { s with g := { s.g with mode := m } }
  notify alive me s.onMode (onGauss (Gauss.setMode m))

end
end GaussObj
end Xmm
