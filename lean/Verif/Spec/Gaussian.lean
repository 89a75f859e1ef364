import Verif.Model.Gaussian
import Mathlib.Data.Matrix.Mul
import Mathlib.LinearAlgebra.Matrix.Determinant.Basic
import Mathlib.LinearAlgebra.Matrix.NonsingularInverse
/- The mathematical objects held by a `GaussianDistribution`. -/
namespace Xmm
variable {K : Type}

/-- the `r × c` matrix stored row by row in a vector -/
def matOf [Zero K] (r c : Nat) (v : List K) : Matrix (Fin r) (Fin c) K := fun i j => v.getD (i.val * c + j.val) 0

/-- the vector stored in a list -/
def vecOf [Zero K] (n : Nat) (v : List K) : Fin n → K := fun i => v.getD i.val 0

namespace Gauss

/-- the covariance matrix of a distribution -/
def sigma [Zero K] (g : Gauss K) : Matrix (Fin g.dim) (Fin g.dim) K :=
  match g.mode with
  | .full => matOf g.dim g.dim g.cov
  | .diagonal => Matrix.diagonal (vecOf g.dim g.cov)

/-- entry `(i, j)` of the covariance matrix, by numbers -/
def covAt [Zero K] (g : Gauss K) (i j : Nat) : K :=
  match g.mode with
  | .full => g.cov.getD (i * g.dim + j) 0
  | .diagonal => if i = j then g.cov.getD i 0 else 0

/-- the stored inverse covariance matrix -/
def precision [Zero K] (g : Gauss K) : Matrix (Fin g.dim) (Fin g.dim) K :=
  match g.mode with
  | .full => matOf g.dim g.dim g.inv
  | .diagonal => Matrix.diagonal (vecOf g.dim g.inv)

/-- the covariance matrix of the input modality: the first `di` rows and columns -/
def sigmaIn [Zero K] (g : Gauss K) (h : g.di ≤ g.dim) : Matrix (Fin g.di) (Fin g.di) K :=
  fun i j => g.sigma (Fin.castLE h i) (Fin.castLE h j)

/-- the stored inverse covariance matrix of the input modality -/
def precisionIn [Zero K] (g : Gauss K) : Matrix (Fin g.di) (Fin g.di) K :=
  match g.mode with
  | .full => matOf g.di g.di g.invIn
  | .diagonal => Matrix.diagonal (vecOf g.di g.invIn)

/-- index `di + i` of the output modality -/
def outIx (g : Gauss K) (i : Fin (g.dim - g.di)) : Fin g.dim := ⟨g.di + i.val, by have := i.isLt; omega⟩

/-- covariance between output and input -/
def sigmaOutIn [Zero K] (g : Gauss K) (h : g.di ≤ g.dim) : Matrix (Fin (g.dim - g.di)) (Fin g.di) K :=
  fun i j => g.sigma (g.outIx i) (Fin.castLE h j)

/-- covariance between input and output -/
def sigmaInOut [Zero K] (g : Gauss K) (h : g.di ≤ g.dim) : Matrix (Fin g.di) (Fin (g.dim - g.di)) K :=
  fun i j => g.sigma (Fin.castLE h i) (g.outIx j)

/-- covariance of the output -/
def sigmaOut [Zero K] (g : Gauss K) : Matrix (Fin (g.dim - g.di)) (Fin (g.dim - g.di)) K :=
  fun i j => g.sigma (g.outIx i) (g.outIx j)

/-- the stored conditional output covariance -/
def outCovariance [Zero K] (g : Gauss K) : Matrix (Fin (g.dim - g.di)) (Fin (g.dim - g.di)) K :=
  match g.mode with
  | .full => matOf (g.dim - g.di) (g.dim - g.di) g.outCov
  | .diagonal => Matrix.diagonal (vecOf (g.dim - g.di) g.outCov)

/-- the sizes of the vectors agree with the dimensions and the mode -/
structure WF (g : Gauss K) : Prop where
  mean : g.mean.length = g.dim
  cov : g.cov.length = (match g.mode with | .full => g.dim * g.dim | .diagonal => g.dim)
  inv : g.inv.length = (match g.mode with | .full => g.dim * g.dim | .diagonal => g.dim)
  invIn : g.bimodal = true → g.invIn.length = (match g.mode with | .full => g.di * g.di | .diagonal => g.di)
  le : g.bimodal = true → g.di ≤ g.dim

end Gauss
end Xmm
