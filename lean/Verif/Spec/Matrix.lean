import Verif.Model.Matrix
import Mathlib.LinearAlgebra.Matrix.Determinant.Basic
import Mathlib.LinearAlgebra.Matrix.NonsingularInverse
/-
The mathematical matrix represented by a row-major array: entry `(i,j)` is `data[i * ncols + j]`.
-/
namespace Xmm

/-- entry `(i,j)` is `data[i * c + j]` -/
def Flat.toMatrix {K : Type*} {r c : Nat} (a : Flat K r c) : Matrix (Fin r) (Fin c) K :=
  fun i j => a ⟨i.val * c + j.val, flat_lt i.isLt j.isLt⟩

/-- `m` holds the mathematical `r × c` matrix `M`. -/
def Mat.Holds {K : Type*} {r c : Nat} (m : Mat K) (M : Matrix (Fin r) (Fin c) K) : Prop :=
  ∃ (hr : m.nrows = r) (hc : m.ncols = c), ∀ i j, m.data.toMatrix i j = M (Fin.cast hr i) (Fin.cast hc j)

end Xmm
