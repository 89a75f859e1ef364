import Verif.Model.Cpp
import Verif.Model.Flat
import Mathlib.Algebra.Order.Field.Basic
import Mathlib.Algebra.Order.Group.Abs
/-
Model of src/core/common/xmmMatrix.hpp (exact arithmetic over an ordered field).
-/
namespace Xmm

/-- `Matrix<T>`, src/core/common/xmmMatrix.hpp:55-83: dimensions and flat row-major data.
    Simplification: `data`/`_data`/`ownData` are one array (the iterator aliasing is modelled separately in
    `MatrixHandle` below). -/
structure Mat (K : Type*) where
  nrows : Nat
  ncols : Nat
  data : Flat K nrows ncols

namespace Mat
variable {K : Type*}

/-- `transpose()`, lines 195-203. -/
def transpose (m : Mat K) : Mat K :=
  { nrows := m.ncols, ncols := m.nrows,
    data := Flat.fill m.ncols m.nrows fun i j => m.data.at j i }

/-- `sum()`, lines 172-176 (the accumulator is a `float`; exact here). -/
def sum [Zero K] [Add K] (m : Mat K) : K := sumLoop (m.nrows * m.ncols) fun i => m.data i

/-- `product(mat)`, lines 211-226. -/
def product [Zero K] [Add K] [Mul K] (m mat : Mat K) : Except Exn (Mat K) :=
  if h : m.ncols = mat.nrows then
    .ok { nrows := m.nrows, ncols := mat.ncols,
          data := Flat.fill m.nrows mat.ncols fun i j =>
            sumLoop m.ncols fun k => m.data.at i k * mat.data.at ⟨k.val, h ▸ k.isLt⟩ j }
  else .error .runtimeError

/-- `swap_lines(i, j)`, lines 334-341. -/
def swapLines {r c : Nat} (a : Flat K r c) (i j : Fin r) : Flat K r c :=
  Flat.fill r c fun p k => if p = i then a.at j k else if p = j then a.at i k else a.at p k

/-- `swap_columns(i, j)`, lines 348-355. -/
def swapColumns {r c : Nat} (a : Flat K r c) (i j : Fin c) : Flat K r c :=
  Flat.fill r c fun k p => if p = i then a.at k j else if p = j then a.at k i else a.at k p

section GaussJordan
variable [Field K] [LinearOrder K]

/-- `kEpsilonPseudoInverse()`, line 61. -/
def epsilonPseudoInverse : K := 1 / 10 ^ 9

/-- Column `k` of the left half of the augmented `n × 2n` matrix. -/
def leftCol {n : Nat} (k : Fin n) : Fin (n * 2) := ⟨k.val, by have := k.isLt; omega⟩
/-- Column `n + k`: column `k` of the right half. -/
def rightCol {n : Nat} (k : Fin n) : Fin (n * 2) := ⟨n + k.val, by have := k.isLt; omega⟩

/-- "Create matrix", lines 280-290: `mat` is zero-initialised, the left half is the input and the right half the
    identity. -/
def augment {n : Nat} (a : Flat K n n) : Flat K n (n * 2) :=
  Flat.fill n (n * 2) fun i j =>
    if h : j.val < n then a.at i ⟨j.val, h⟩ else if j.val = n + i.val then 1 else 0

/-- The pivot search `while (fabs(mat[i,k]) < eps) { i++; if (i == n) throw }`, lines 293-300. -/
def findPivot {n : Nat} (mat : Flat K n (n * 2)) (k : Fin n) (i : Nat) (hi : i < n) : Except Exn (Fin n) :=
  if |mat.at ⟨i, hi⟩ (leftCol k)| < epsilonPseudoInverse then
    if h : i + 1 = n then .error .runtimeError
    else findPivot mat k (i + 1) (by omega)
  else .ok ⟨i, hi⟩
termination_by n - i

/-- Lines 308-322: `new_mat` is the matrix with row `k` divided by the pivot and the multiples of that row
    subtracted from all the others.  (`new_mat` starts as a copy of `mat`; each cell is updated once.) -/
def eliminate {n : Nat} (mat : Flat K n (n * 2)) (k : Fin n) : Flat K n (n * 2) :=
  Flat.fill n (n * 2) fun i j =>
    if i = k then mat.at k j / mat.at k (leftCol k)
    else mat.at i j - mat.at i (leftCol k) * (mat.at k j / mat.at k (leftCol k))

/-- The body of the main loop for one column `k`, lines 291-323, on (`mat`, `*det`, ghost counter of calls of
    `swap_lines`; the code has no such counter). -/
def pivotStep {n : Nat} (k : Fin n) (s : Flat K n (n * 2) × K × Nat) :
    Except Exn (Flat K n (n * 2) × K × Nat) :=
  match findPivot s.1 k k.val k.isLt with
  | .error e => .error e
  | .ok i =>
    let det := s.2.1 * s.1.at i (leftCol k)
    let mat := if i ≠ k then swapLines s.1 i k else s.1
    let swaps := if i ≠ k then s.2.2 + 1 else s.2.2
    .ok (eliminate mat k, det, swaps)

/-- The main loop `for (k = 0; k < n; k++)`, line 291, from column `k`. -/
def pivotLoop {n : Nat} (k : Nat) (s : Flat K n (n * 2) × K × Nat) :
    Except Exn (Flat K n (n * 2) × K × Nat) :=
  if h : k < n then
    match pivotStep ⟨k, h⟩ s with
    | .error e => .error e
    | .ok s' => pivotLoop (k + 1) s'
  else .ok s
termination_by n - k

/-- `gauss_jordan_inverse(det)`, lines 270-327: the inverse, the value left in `*det`, and the ghost counter. -/
def gaussJordanSwaps (m : Mat K) : Except Exn (Mat K × K × Nat) :=
  if h : m.nrows = m.ncols then
    let a : Flat K m.nrows m.nrows := Flat.fill _ _ fun i j => m.data.at i ⟨j.val, h ▸ j.isLt⟩
    match pivotLoop 0 (augment a, 1, 0) with
    | .error e => .error e
    | .ok (mat, det, swaps) =>
      .ok ({ nrows := m.nrows, ncols := m.nrows,
             data := Flat.fill _ _ fun i j => mat.at i (rightCol j) }, det, swaps)
  else .error .runtimeError

/-- `gauss_jordan_inverse(det)` without the ghost counter. -/
def gaussJordanInverse (m : Mat K) : Except Exn (Mat K × K) :=
  match gaussJordanSwaps m with
  | .error e => .error e
  | .ok (inv, det, _) => .ok (inv, det)

/-- `pinv(det)`, lines 234-260. `gauss_jordan_inverse` never returns a null pointer, so the square case always
    leaves at line 239 or throws. -/
def pinv (m : Mat K) : Except Exn (Mat K × K) :=
  if m.nrows = m.ncols then gaussJordanInverse m
  else
    let transp := m.transpose
    if m.nrows ≥ m.ncols then do
      let prod ← transp.product m
      let (dst, _) ← prod.gaussJordanInverse
      let inverse ← dst.product transp
      pure (inverse, 0)
    else do
      let prod ← m.product transp
      let (dst, _) ← prod.gaussJordanInverse
      let inverse ← transp.product dst
      pure (inverse, 0)

end GaussJordan
end Mat
end Xmm
