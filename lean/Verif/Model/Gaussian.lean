import Verif.Model.Matrix
import Verif.Model.PhraseStats
import Mathlib.Data.Rat.Defs
/-
Model of src/core/distributions/xmmGaussianDistribution.hpp / .cpp: attributes, covariance update, likelihoods, regression
and conversion to and from ellipses.  JSON is in Verif/Model/GaussianJson.lean.

The vectors are lists and every access is checked: an access outside a vector is undefined behaviour.
-/
namespace Xmm

/-- `GaussianDistribution::CovarianceMode`, xmmGaussianDistribution.hpp:85-94. -/
inductive CovMode where
  | full | diagonal
  deriving DecidableEq, Repr

/-- `GaussianDistribution`, fields of xmmGaussianDistribution.hpp:291-360.  The attributes are their values and the
    limits that the code sets (`dimMin`: constructor line 51; `diMax`: line 52 and `onAttributeChange` line 139; the
    lower limit of `dimension_input` is 0 and `dimension` has no upper limit but its type's). -/
structure Gauss (F : Type) where
  bimodal : Bool
  dim : Nat
  dimMin : Nat
  di : Nat
  diMax : Nat
  mode : CovMode
  mean : List F
  cov : List F
  inv : List F
  det : F
  invIn : List F
  detIn : F
  outCov : List F
  deriving DecidableEq, Repr

namespace Gauss
open Phrase (loop)

/-- `v[i]`: undefined behaviour outside the vector -/
def rd {σ F : Type} (l : List F) (i : Nat) : Prog σ F :=
  match l[i]? with
  | some v => pure v
  | none => Prog.undef

/-- `v.resize(n)`: new elements are value-initialised -/
def resize {F : Type} [Zero F] (n : Nat) (l : List F) : List F := l.take n ++ List.replicate (n - l.length) 0

/-- `std::copy(src, src + n, v.begin())`: undefined behaviour when `v` is shorter than `n` -/
def copyInto {σ F : Type} (src dst : List F) : Prog σ (List F) :=
  if src.length ≤ dst.length then pure (src ++ dst.drop src.length) else Prog.undef

/-- `dimension_output = dimension - dimension_input` on `unsigned int`, xmmGaussianDistribution.cpp:251, 304, 449.  When the
    input dimension exceeds the dimension the difference wraps around to a huge number and the loops and copies that
    follow run outside the vectors: undefined behaviour. -/
def outDim {σ F : Type} (g : Gauss F) : Prog σ Nat := if g.dim < g.di then Prog.undef else pure (g.dim - g.di)

section Attributes
variable {K : Type} [Zero K]

/-- `allocate()`, xmmGaussianDistribution.cpp:361-374. -/
def allocate (g : Gauss K) : Gauss K :=
  match g.mode with
  | .full =>
    { g with mean := resize g.dim g.mean, cov := resize (g.dim * g.dim) g.cov, inv := resize (g.dim * g.dim) g.inv,
             invIn := if g.bimodal then resize (g.di * g.di) g.invIn else g.invIn }
  | .diagonal =>
    { g with mean := resize g.dim g.mean, cov := resize g.dim g.cov, inv := resize g.dim g.inv,
             invIn := if g.bimodal then resize g.di g.invIn else g.invIn }

/-- Constructor, xmmGaussianDistribution.cpp:47-64: the attributes check their limits (`none`: it throws). -/
def construct (bimodal : Bool) (dim di : Nat) (mode : CovMode) : Option (Gauss K) :=
  if dim < (if bimodal then 2 else 1) then none
  else if (if bimodal then dim - 1 else 0) < di then none
  else some (allocate
    { bimodal := bimodal, dim := dim, dimMin := if bimodal then 2 else 1, di := di,
      diMax := if bimodal then dim - 1 else 0, mode := mode, mean := [], cov := [], inv := [], det := 0,
      invIn := [], detIn := 0, outCov := [] })

/-- `dimension.set(d)` with `onAttributeChange`, xmmGaussianDistribution.cpp:137-143. -/
def setDim (d : Nat) : Prog (Gauss K) Unit := do
  let g ← Prog.get
  if d < g.dimMin then Prog.throw .domainError
  else Prog.set (allocate { g with dim := d, diMax := d - 1 })

/-- `dimension_input.set(d)` with `onAttributeChange`, xmmGaussianDistribution.cpp:141-143. -/
def setDi (d : Nat) : Prog (Gauss K) Unit := do
  let g ← Prog.get
  if g.diMax < d then Prog.throw .domainError
  else Prog.set (allocate { g with di := d })

end Attributes

section Update
variable {K : Type} [Field K] [LinearOrder K]

/-- `regularize(regularization)`, xmmGaussianDistribution.cpp:376-386. -/
def regularize (reg : List K) : Prog (Gauss K) Unit := do
  let g ← Prog.get
  loop g.dim () (fun _ d => do
    let g ← Prog.get
    let r ← rd reg d
    let i := match g.mode with | .full => d * g.dim + d | .diagonal => d
    let c ← rd g.cov i
    Prog.set { g with cov := g.cov.set i (c + r) })

/-- A `Matrix<double>` of `r × c` cells read from a vector: cell `(i,j)` is `v[idx i j]`.  Undefined behaviour if a cell
    lies outside the vector. -/
def matrixOf {σ : Type} (r c : Nat) (v : List K) (idx : Nat → Nat → Nat) : Prog σ (Mat K) :=
  if (∀ i < r, ∀ j < c, idx i j < v.length) then
    pure ⟨r, c, Flat.fill r c fun i j => v.getD (idx i j) 0⟩
  else Prog.undef

/-- the cells of a matrix in row-major order -/
def cells (m : Mat K) : List K := List.ofFn m.data

/-- run a function of `Matrix` that may throw -/
def lift {σ α : Type} : Except Exn α → Prog σ α
  | .ok a => pure a
  | .error e => Prog.throw e

/-- `updateOutputCovariance()`, xmmGaussianDistribution.cpp:444-503. -/
def updateOutputCovariance : Prog (Gauss K) Unit := do
  let g ← Prog.get
  if !g.bimodal then Prog.throw .runtimeError
  else do
    let dout ← outDim g
    match g.mode with
    | .diagonal =>
      if g.dim ≤ g.cov.length then
        Prog.set { g with outCov := (g.cov.take g.dim).drop g.di }
      else Prog.undef
    | .full => do
      let covIn ← matrixOf g.di g.di g.cov (fun d1 d2 => d1 * g.dim + d2)
      let (inverse, _) ← lift covIn.pinv
      let covGs ← matrixOf g.di dout g.cov (fun d1 d2 => d1 * g.dim + g.di + d2)
      let covSg ← matrixOf dout g.di g.cov (fun d1 d2 => (g.di + d1) * g.dim + d2)
      let tmp ← lift (inverse.product covGs)
      let covMod ← lift (covSg.product tmp)
      let covOut ← matrixOf dout dout g.cov (fun d1 d2 => (g.di + d1) * g.dim + g.di + d2)
      Prog.set { g with outCov := List.zipWith (fun a b => a - b) (cells covOut) (cells covMod) }

/-- The Full branch of `updateInverseCovariance()`, xmmGaussianDistribution.cpp:389-424. -/
def updateInverseFull : Prog (Gauss K) Unit := do
  let g ← Prog.get
  let covMat ← matrixOf g.dim g.dim g.cov (fun i j => i * g.dim + j)
  let (inverse, det) ← lift covMat.pinv
  let inv ← copyInto (cells inverse) g.inv
  Prog.set { g with det := det, inv := inv }
  if g.bimodal then do
    let covIn ← matrixOf g.di g.di g.cov (fun d1 d2 => d1 * g.dim + d2)
    let (inverseIn, detIn) ← lift covIn.pinv
    let invIn ← copyInto (cells inverseIn) g.invIn
    Prog.set { g with det := det, inv := inv, detIn := detIn, invIn := invIn }
  else pure ()

/-- The Diagonal branch of `updateInverseCovariance()`, xmmGaussianDistribution.cpp:425-438. -/
def updateInverseDiagonal : Prog (Gauss K) Unit := do
  Prog.modify fun g => { g with det := 1, detIn := 1 }
  let g ← Prog.get
  loop g.dim () (fun _ d => do
    let g ← Prog.get
    let c ← rd g.cov d
    if c ≤ 0 then Prog.throw .runtimeError
    else do
      let _ ← rd g.inv d
      Prog.modify fun g => { g with inv := g.inv.set d (1 / c), det := g.det * c }
      if g.bimodal && d < g.di then do
        let _ ← rd g.invIn d
        Prog.modify fun g => { g with invIn := g.invIn.set d (1 / c), detIn := g.detIn * c }
      else pure ())

/-- the end of `updateInverseCovariance()`, xmmGaussianDistribution.cpp:439-441 -/
def updateOutputIfBimodal : Prog (Gauss K) Unit := do
  let g ← Prog.get
  if g.bimodal then updateOutputCovariance else pure ()

/-- `updateInverseCovariance()`, xmmGaussianDistribution.cpp:388-442. -/
def updateInverseCovariance : Prog (Gauss K) Unit := do
  let g ← Prog.get
  match g.mode with
  | .full => updateInverseFull
  | .diagonal => updateInverseDiagonal
  updateOutputIfBimodal

/-- The conversion of the covariance when `covariance_mode` changes to Diagonal, xmmGaussianDistribution.cpp:146-153. -/
def toDiagonal : Prog (Gauss K) Unit := do
  let g ← Prog.get
  let c ← (List.range g.dim).mapM (fun d => rd g.cov (d * g.dim + d))
  Prog.set { g with cov := c, inv := resize g.dim g.inv,
                    invIn := if g.bimodal then resize g.di g.invIn else g.invIn }

/-- The conversion of the covariance when `covariance_mode` changes to Full, xmmGaussianDistribution.cpp:154-165. -/
def toFull : Prog (Gauss K) Unit := do
  let g ← Prog.get
  let c ← (List.range g.dim).mapM (fun d => rd g.cov d)
  Prog.set { g with cov := List.ofFn (Flat.fill g.dim g.dim fun i j => if i = j then c.getD i 0 else 0),
                    inv := resize (g.dim * g.dim) g.inv,
                    invIn := if g.bimodal then resize (g.di * g.di) g.invIn else g.invIn }

/-- `covariance_mode.set(m)` with `onAttributeChange`, xmmGaussianDistribution.cpp:144-170. -/
def setMode (m : CovMode) : Prog (Gauss K) Unit := do
  Prog.modify fun g => { g with mode := m }
  match m with
  | .diagonal => toDiagonal
  | .full => toFull
  updateInverseCovariance
  updateOutputIfBimodal

/-- `regression(observation_input, predicted_output)`, xmmGaussianDistribution.cpp:298-329: the predicted output. -/
def regression (x : List K) : Prog (Gauss K) (List K) := do
  let g ← Prog.get
  if !g.bimodal then Prog.throw .runtimeError
  else do
    let dout ← outDim g
    match g.mode with
    | .full =>
      (List.range dout).mapM (fun d => do
        let m ← rd g.mean (g.di + d)
        loop g.di m (fun acc e => do
          let tmp ← loop g.di 0 (fun tmp f => do
            let a ← rd g.invIn (e * g.di + f)
            let b ← rd x f
            let c ← rd g.mean f
            pure (tmp + a * (b - c)))
          let s ← rd g.cov ((d + g.di) * g.dim + e)
          pure (acc + s * tmp)))
    | .diagonal => (List.range dout).mapM (fun d => rd g.mean (g.di + d))

end Update

/-- Arithmetic of a floating-point type: any interpretation of the operations used by the likelihoods.  `lit` converts the
    literals of the code, `pi` is `M_PI`; comparisons and classification are those of <cmath>. -/
structure Arith (F : Type) where
  add : F → F → F
  sub : F → F → F
  mul : F → F → F
  div : F → F → F
  exp : F → F
  sqrt : F → F
  pow : F → Nat → F
  lit : ℚ → F
  pi : F
  lt : F → F → Bool
  eq : F → F → Bool
  isnan : F → Bool
  isinf : F → Bool

section Likelihood
variable {F : Type} (A : Arith F)

/-- `double p = exp(-0.5 * dist) / sqrt(det * pow(2 * M_PI, double(n)))` then the guard, xmmGaussianDistribution.cpp:197-203,
    235-241, 289-295. -/
def density (dist det : F) (n : Nat) : F :=
  let p := A.div (A.exp (A.mul (A.lit (-1 / 2)) dist)) (A.sqrt (A.mul det (A.pow (A.mul (A.lit 2) A.pi) n)))
  if A.lt p (A.lit (1 / 10 ^ 180)) || A.isnan p || A.isinf p then A.lit (1 / 10 ^ 180) else p

/-- `(observation[k] - mean[k])` -/
def diff {σ : Type} (obs mean : List F) (i j : Nat) : Prog σ F := do
  let a ← rd obs i
  let b ← rd mean j
  pure (A.sub a b)

/-- The loop of `likelihood` that accumulates the squared Mahalanobis distance, xmmGaussianDistribution.cpp:181-197. -/
def distance (g : Gauss F) (obs : List F) : Prog (Gauss F) F :=
  match g.mode with
  | .full => loop g.dim (A.lit 0) (fun dist l => do
      let tmp ← loop g.dim (A.lit 0) (fun tmp k => do
        let a ← rd g.inv (l * g.dim + k)
        let b ← diff A obs g.mean k k
        pure (A.add tmp (A.mul a b)))
      let c ← diff A obs g.mean l l
      pure (A.add dist (A.mul c tmp)))
  | .diagonal => loop g.dim (A.lit 0) (fun dist l => do
      let a ← rd g.inv l
      let b ← diff A obs g.mean l l
      let c ← diff A obs g.mean l l
      pure (A.add dist (A.mul (A.mul a b) c)))

/-- `likelihood(observation)`, xmmGaussianDistribution.cpp:175-204. -/
def likelihood (obs : List F) : Prog (Gauss F) F := do
  let g ← Prog.get
  if A.eq g.det (A.lit 0) then Prog.throw .runtimeError
  else do
    let dist ← distance A g obs
    pure (density A dist g.det g.dim)

/-- The loop of `likelihood_input` that accumulates the squared Mahalanobis distance, xmmGaussianDistribution.cpp:218-234. -/
def distanceInput (g : Gauss F) (obs : List F) : Prog (Gauss F) F :=
  match g.mode with
  | .full => loop g.di (A.lit 0) (fun dist l => do
      let tmp ← loop g.di (A.lit 0) (fun tmp k => do
        let a ← rd g.invIn (l * g.di + k)
        let b ← diff A obs g.mean k k
        pure (A.add tmp (A.mul a b)))
      let c ← diff A obs g.mean l l
      pure (A.add dist (A.mul c tmp)))
  | .diagonal => loop g.di (A.lit 0) (fun dist l => do
      let a ← rd g.inv l
      let b ← diff A obs g.mean l l
      let c ← diff A obs g.mean l l
      pure (A.add dist (A.mul (A.mul a b) c)))

/-- `likelihood_input(observation_input)`, xmmGaussianDistribution.cpp:206-242. -/
def likelihoodInput (obs : List F) : Prog (Gauss F) F := do
  let g ← Prog.get
  if !g.bimodal then Prog.throw .runtimeError
  else if A.eq g.detIn (A.lit 0) then Prog.throw .runtimeError
  else do
    let dist ← distanceInput A g obs
    pure (density A dist g.detIn g.di)

/-- The loop of `likelihood_bimodal` that accumulates the squared Mahalanobis distance, xmmGaussianDistribution.cpp:256-288. -/
def distanceBimodal (g : Gauss F) (x y : List F) : Prog (Gauss F) F :=
  match g.mode with
  | .full => loop g.dim (A.lit 0) (fun dist l => do
      let tmp ← loop g.di (A.lit 0) (fun tmp k => do
        let a ← rd g.inv (l * g.dim + k)
        let b ← diff A x g.mean k k
        pure (A.add tmp (A.mul a b)))
      let tmp ← loop (g.dim - g.di) tmp (fun tmp k => do
        let a ← rd g.inv (l * g.dim + g.di + k)
        let b ← diff A y g.mean k (g.di + k)
        pure (A.add tmp (A.mul a b)))
      if l < g.di then do
        let c ← diff A x g.mean l l
        pure (A.add dist (A.mul c tmp))
      else do
        let c ← diff A y g.mean (l - g.di) l
        pure (A.add dist (A.mul c tmp)))
  | .diagonal => do
      let dist ← loop g.di (A.lit 0) (fun dist l => do
        let a ← rd g.inv l
        let b ← diff A x g.mean l l
        let c ← diff A x g.mean l l
        pure (A.add dist (A.mul (A.mul a b) c)))
      loop (g.dim - g.di) dist (fun dist k => do
        let a ← rd g.inv (g.di + k)
        let b ← diff A y g.mean k (g.di + k)
        let c ← diff A y g.mean k (g.di + k)
        pure (A.add dist (A.mul (A.mul a b) c)))

/-- `likelihood_bimodal(observation_input, observation_output)`, xmmGaussianDistribution.cpp:244-296. -/
def likelihoodBimodal (x y : List F) : Prog (Gauss F) F := do
  let g ← Prog.get
  if !g.bimodal then Prog.throw .runtimeError
  else if A.eq g.det (A.lit 0) then Prog.throw .runtimeError
  else do
    let _ ← outDim g
    let dist ← distanceBimodal A g x y
    pure (density A dist g.det g.dim)

end Likelihood

end Gauss
end Xmm
