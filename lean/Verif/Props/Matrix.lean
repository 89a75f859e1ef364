import Verif.Lemmas.Matrix
import Mathlib.LinearAlgebra.Matrix.Notation
/-
C08 – C11: matrices.  `m.Holds M` (Verif/Spec/Matrix.lean) says that the object `m` stores the mathematical
matrix `M` in row-major order; `*`, `ᵀ`, `det`, `1` are Mathlib's.
-/
namespace Xmm
open Mat Matrix

section
variable {K : Type*}

theorem Mat.holds_iff {r c : Nat} (d : Flat K r c) (M : Matrix (Fin r) (Fin c) K) :
    (⟨r, c, d⟩ : Mat K).Holds M ↔ ∀ i j, d.at i j = M i j := by
  constructor
  · rintro ⟨hr, hc, h⟩ i j; exact h i j
  · intro h; exact ⟨rfl, rfl, h⟩

/-- destructure a represented matrix -/
theorem Mat.Holds.elim {r c : Nat} {m : Mat K} {M : Matrix (Fin r) (Fin c) K} (h : m.Holds M) :
    ∃ d : Flat K r c, m = ⟨r, c, d⟩ ∧ ∀ i j, d.at i j = M i j := by
  obtain ⟨r', c', d⟩ := m
  obtain ⟨hr, hc, h⟩ := h
  simp only at hr hc
  subst hr; subst hc
  exact ⟨d, rfl, h⟩

/-- every matrix can be stored -/
theorem Mat.exists_holds {r c : Nat} (M : Matrix (Fin r) (Fin c) K) : ∃ m : Mat K, m.Holds M :=
  ⟨⟨r, c, Flat.fill r c fun i j => M i j⟩, (Mat.holds_iff _ _).2 (fun i j => by simp)⟩

/-- C08 (transpose): the result stores the transpose. -/
theorem C08_transpose {r c : Nat} (m : Mat K) (M : Matrix (Fin r) (Fin c) K) (h : m.Holds M) :
    m.transpose.Holds Mᵀ := by
  obtain ⟨d, rfl, hd⟩ := h.elim
  exact (Mat.holds_iff _ _).2 fun i j => by simp [hd]

/-- C08 (involution): transposing twice gives back the same object contents. -/
theorem C08_transpose_transpose (m : Mat K) : m.transpose.transpose = m := by
  obtain ⟨r, c, d⟩ := m
  simp only [Mat.transpose, Mat.mk.injEq, heq_eq_eq, true_and]
  exact Flat.ext fun i j => by simp

/-- C08 (product): with matching inner dimensions the product returns the matrix product. -/
theorem C08_product [Field K] {r c d : Nat} (m p : Mat K) (M : Matrix (Fin r) (Fin c) K)
    (P : Matrix (Fin c) (Fin d) K) (hm : m.Holds M) (hp : p.Holds P) :
    ∃ q, m.product p = .ok q ∧ q.Holds (M * P) := by
  obtain ⟨a, rfl, ha⟩ := hm.elim
  obtain ⟨b, rfl, hb⟩ := hp.elim
  refine ⟨_, dif_pos rfl, (Mat.holds_iff _ _).2 fun i j => ?_⟩
  simp [ha, hb, Matrix.mul_apply]

/-- C08 (product, errors): `product` throws exactly when the inner dimensions differ, and then `runtime_error`. -/
theorem C08_product_throws [Field K] (m p : Mat K) :
    (∀ e, m.product p = .error e ↔ e = .runtimeError ∧ m.ncols ≠ p.nrows) := by
  intro e
  unfold product
  split
  · rename_i h; simp [h]
  · rename_i h; simp [h, eq_comm]

/-- Non-vacuity of C08: a 2×3 matrix is stored, multiplied by its transpose. -/
example : ∃ m q : Mat ℚ, m.Holds !![1, 2, 3; 4, 5, 6] ∧ m.product m.transpose = .ok q ∧
    q.Holds !![14, 32; 32, 77] := by
  obtain ⟨m, hm⟩ := Mat.exists_holds (!![1, 2, 3; 4, 5, 6] : Matrix (Fin 2) (Fin 3) ℚ)
  obtain ⟨q, hq, hQ⟩ := C08_product m m.transpose _ _ hm (C08_transpose m _ hm)
  refine ⟨m, q, hm, hq, ?_⟩
  convert hQ using 1
  ext i j
  fin_cases i <;> fin_cases j <;> simp [Matrix.mul_apply, Fin.sum_univ_succ] <;> norm_num

end

section
variable {K : Type*} [Field K] [LinearOrder K] [IsStrictOrderedRing K]

theorem Mat.gaussJordanSwaps_sound {n : Nat} {m x : Mat K} {A : Matrix (Fin n) (Fin n) K} {d : K} {w : Nat}
    (hm : m.Holds A) (h : m.gaussJordanSwaps = .ok (x, d, w)) :
    ∃ X : Matrix (Fin n) (Fin n) K, x.Holds X ∧ X * A = 1 ∧ A * X = 1 ∧ d = (-1) ^ w * A.det := by
  obtain ⟨a, rfl, ha⟩ := hm.elim
  have hA : (Flat.fill n n fun i j => a.at i j : Flat K n n).toMatrix = A := by
    ext i j; rw [toMatrix_apply]; simp [ha]
  simp only [gaussJordanSwaps, dif_pos] at h
  split at h
  · simp at h
  · rename_i mat d' w' hloop
    simp only [Except.ok.injEq, Prod.mk.injEq] at h
    obtain ⟨rfl, rfl, rfl⟩ := h
    obtain ⟨h1, h2, h3⟩ := pivotLoop_sound _ mat d' w' hloop
    rw [hA] at h1 h2 h3
    exact ⟨R mat, (Mat.holds_iff _ _).2 fun i j => by simp [R], h1, h2, h3⟩

theorem Mat.gaussJordan_sound {n : Nat} {m x : Mat K} {A : Matrix (Fin n) (Fin n) K} {d : K}
    (hm : m.Holds A) (h : m.gaussJordanInverse = .ok (x, d)) :
    ∃ X : Matrix (Fin n) (Fin n) K, x.Holds X ∧ X * A = 1 ∧ A * X = 1 ∧ (d = A.det ∨ d = -A.det) := by
  unfold gaussJordanInverse at h
  split at h
  · simp at h
  · rename_i inv det w hs
    simp only [Except.ok.injEq, Prod.mk.injEq] at h
    obtain ⟨rfl, rfl⟩ := h
    obtain ⟨X, h1, h2, h3, h4⟩ := Mat.gaussJordanSwaps_sound hm hs
    refine ⟨X, h1, h2, h3, ?_⟩
    rcases neg_one_pow_eq_or K w with hw | hw <;> simp [h4, hw]

omit [IsStrictOrderedRing K] in
theorem findPivot_error {n : Nat} (mat : Flat K n (n * 2)) (k : Fin n) (i : Nat) (hi : i < n) (e : Exn)
    (h : findPivot mat k i hi = .error e) : e = .runtimeError := by
  fun_induction findPivot mat k i hi with
  | case1 => simpa [eq_comm] using h
  | case2 i hi h1 h2 ih => exact ih h
  | case3 => simp at h

omit [IsStrictOrderedRing K] in
theorem pivotLoop_error {n : Nat} (k : Nat) (s : Flat K n (n * 2) × K × Nat) (e : Exn)
    (h : pivotLoop k s = .error e) : e = .runtimeError := by
  fun_induction pivotLoop k s with
  | case1 k s hk e' hs =>
    unfold pivotStep at hs
    split at hs
    · rename_i e'' hf
      have := findPivot_error _ _ _ _ _ hf
      simp only [Except.error.injEq] at h hs
      rw [← h, ← hs, this]
    · simp at hs
  | case2 k s hlt s1 hstep ih => exact ih h
  | case3 => simp at h

/-- C09 (soundness): if inverting a square matrix returns, the result is a two-sided inverse, whatever row
    exchanges took place. -/
theorem C09_inverse_sound {n : Nat} (m x : Mat K) (d : K) (A : Matrix (Fin n) (Fin n) K) (hm : m.Holds A)
    (h : m.pinv = .ok (x, d)) :
    ∃ X : Matrix (Fin n) (Fin n) K, x.Holds X ∧ X * A = 1 ∧ A * X = 1 := by
  obtain ⟨a, rfl, _⟩ := hm.elim
  simp only [pinv, if_true] at h
  obtain ⟨X, h1, h2, h3, _⟩ := Mat.gaussJordan_sound hm h
  exact ⟨X, h1, h2, h3⟩

/-- C09 (singular input): a singular matrix makes the inversion throw `runtime_error`; it never returns. -/
theorem C09_singular_throws {n : Nat} (m : Mat K) (A : Matrix (Fin n) (Fin n) K) (hm : m.Holds A)
    (hA : A.det = 0) : m.pinv = .error .runtimeError := by
  cases h : m.pinv with
  | ok r =>
    obtain ⟨X, _, h2, _⟩ := C09_inverse_sound m r.1 r.2 A hm h
    have := congrArg Matrix.det h2
    rw [Matrix.det_mul, hA, mul_zero, Matrix.det_one] at this
    exact absurd this zero_ne_one
  | error e =>
    obtain ⟨a, rfl, _⟩ := hm.elim
    simp only [pinv, if_true, gaussJordanInverse, gaussJordanSwaps, dif_pos] at h
    split at h
    · rename_i e' he
      split at he
      · rename_i e'' hl
        have := pivotLoop_error _ _ _ hl
        simp only [Except.error.injEq] at h he
        rw [← h, ← he, this]
      · simp at he
    · simp at h

omit [IsStrictOrderedRing K] in
/-- C09 (no division by zero): whatever the contents of the working array, when the pivot search of column `k`
    succeeds with row `i ≥ k`, the value the code divides by – entry `(k,k)` after the row exchange – has
    magnitude at least 1e-9. -/
theorem C09_divisor_bounded_away_from_zero {n : Nat} (mat : Flat K n (n * 2)) (k i : Fin n)
    (h : findPivot mat k k.val k.isLt = .ok i) :
    k ≤ i ∧ (1 : K) / 10 ^ 9 ≤ |(if i ≠ k then swapLines mat i k else mat).at k (leftCol k)| := by
  have key : ∀ (j : Nat) (hj : j < n), findPivot mat k j hj = .ok i →
      j ≤ i.val ∧ (1 : K) / 10 ^ 9 ≤ |mat.at i (leftCol k)| := by
    intro j hj hf
    fun_induction findPivot mat k j hj with
    | case1 => simp at hf
    | case2 j hj h1 h2 ih => have := ih hf; exact ⟨by omega, this.2⟩
    | case3 j hj h1 =>
      simp only [Except.ok.injEq] at hf
      subst hf
      exact ⟨le_refl _, not_lt.1 h1⟩
  obtain ⟨h1, h2⟩ := key _ _ h
  refine ⟨h1, ?_⟩
  split
  · rw [swap_eq_submatrix, Equiv.swap_apply_right]; exact h2
  · rename_i hik
    simp only [ne_eq, not_not] at hik
    rw [← hik]; rw [← hik] at h2; exact h2

/-- C10 (partial).  Full property: the reported determinant is the determinant.
    Proved: it is the determinant up to sign, and with `w` row exchanges it is exactly `(-1)^w · det`, hence the
    determinant whenever no row exchange was needed.  Missing (false, see `C10_violated`): the sign when an odd
    number of exchanges took place. -/
theorem C10_det_partial {n : Nat} (m : Mat K) (A : Matrix (Fin n) (Fin n) K) (hm : m.Holds A) (x : Mat K) (d : K)
    (h : m.pinv = .ok (x, d)) :
    |d| = |A.det| ∧
    ∃ w, m.gaussJordanSwaps = .ok (x, d, w) ∧ d = (-1) ^ w * A.det ∧ (w = 0 → d = A.det) := by
  obtain ⟨a, rfl, _⟩ := hm.elim
  simp only [pinv, if_true] at h
  unfold gaussJordanInverse at h
  split at h
  · simp at h
  · rename_i inv det w hs
    simp only [Except.ok.injEq, Prod.mk.injEq] at h
    obtain ⟨rfl, rfl⟩ := h
    obtain ⟨X, h1, h2, h3, h4⟩ := Mat.gaussJordanSwaps_sound hm hs
    refine ⟨?_, w, hs, h4, fun hw => by simpa [hw] using h4⟩
    rcases neg_one_pow_eq_or K w with hw | hw <;> simp [h4, hw]

/-- C11 (tall): for a matrix with more rows than columns, if `pinv` returns `X` then `X * A = 1`. -/
theorem C11_tall {r c : Nat} (hrc : c < r) (m x : Mat K) (d : K) (A : Matrix (Fin r) (Fin c) K) (hm : m.Holds A)
    (h : m.pinv = .ok (x, d)) :
    ∃ X : Matrix (Fin c) (Fin r) K, x.Holds X ∧ X * A = 1 ∧ d = 0 := by
  have hT := C08_transpose m A hm
  obtain ⟨a, ha, _⟩ := hm.elim
  have hr : m.nrows = r := by rw [ha]
  have hc : m.ncols = c := by rw [ha]
  obtain ⟨p, hp, hP⟩ := C08_product _ _ _ _ hT hm
  have h1 : ¬ m.nrows = m.ncols := by omega
  have h2 : m.nrows ≥ m.ncols := by omega
  simp only [pinv, if_neg h1, if_pos h2, hp, bind, Except.bind] at h
  cases hg : p.gaussJordanInverse with
  | error e => simp [hg] at h
  | ok y =>
    obtain ⟨X, hX, hX1, _, _⟩ := Mat.gaussJordan_sound hP (x := y.1) (d := y.2) hg
    obtain ⟨q, hq, hQ⟩ := C08_product _ _ _ _ hX hT
    simp only [hg, hq, pure, Except.pure, Except.ok.injEq, Prod.mk.injEq] at h
    refine ⟨X * Aᵀ, h.1 ▸ hQ, ?_, h.2.symm⟩
    rw [Matrix.mul_assoc]; exact hX1

/-- C11 (wide): for a matrix with more columns than rows, if `pinv` returns `X` then `A * X = 1`. -/
theorem C11_wide {r c : Nat} (hrc : r < c) (m x : Mat K) (d : K) (A : Matrix (Fin r) (Fin c) K) (hm : m.Holds A)
    (h : m.pinv = .ok (x, d)) :
    ∃ X : Matrix (Fin c) (Fin r) K, x.Holds X ∧ A * X = 1 ∧ d = 0 := by
  have hT := C08_transpose m A hm
  obtain ⟨a, ha, _⟩ := hm.elim
  have hr : m.nrows = r := by rw [ha]
  have hc : m.ncols = c := by rw [ha]
  obtain ⟨p, hp, hP⟩ := C08_product _ _ _ _ hm hT
  have h1 : ¬ m.nrows = m.ncols := by omega
  have h2 : ¬ m.nrows ≥ m.ncols := by omega
  simp only [pinv, if_neg h1, if_neg h2, hp, bind, Except.bind] at h
  cases hg : p.gaussJordanInverse with
  | error e => simp [hg] at h
  | ok y =>
    obtain ⟨X, hX, _, hX2, _⟩ := Mat.gaussJordan_sound hP (x := y.1) (d := y.2) hg
    obtain ⟨q, hq, hQ⟩ := C08_product _ _ _ _ hT hX
    simp only [hg, hq, pure, Except.pure, Except.ok.injEq, Prod.mk.injEq] at h
    refine ⟨Aᵀ * X, h.1 ▸ hQ, ?_, h.2.symm⟩
    rw [← Matrix.mul_assoc]; exact hX2

end

/-! ### A class of matrices for which inversion is complete -/
section
variable {K : Type*} [Field K] [LinearOrder K] [IsStrictOrderedRing K]

theorem pivotLoop_diagonal {n : Nat} (e : Fin n → K) (he : ∀ i, (1 : K) / 10 ^ 9 ≤ |e i|) (k : Nat)
    (mat : Flat K n (n * 2)) (d : K)
    (hL : ∀ i j : Fin n, mat.at i (leftCol j) = if i = j then (if i.val < k then 1 else e i) else 0) :
    ∃ mat' d', pivotLoop k (mat, d, 0) = .ok (mat', d', 0) := by
  by_cases hk : k < n
  · have hkk : mat.at ⟨k, hk⟩ (leftCol ⟨k, hk⟩) = e ⟨k, hk⟩ := by simp [hL]
    have hpos : (0 : K) < 1 / 10 ^ 9 := by positivity
    have hne : e ⟨k, hk⟩ ≠ 0 := by
      intro h0
      have := he ⟨k, hk⟩
      rw [h0, abs_zero] at this
      exact absurd hpos (not_lt.2 this)
    have hp : findPivot mat ⟨k, hk⟩ k hk = .ok ⟨k, hk⟩ := by
      rw [findPivot, if_neg]
      rw [hkk]; exact not_lt.2 (he _)
    have hstep : pivotStep ⟨k, hk⟩ (mat, d, 0) = .ok (eliminate mat ⟨k, hk⟩, d * e ⟨k, hk⟩, 0) := by
      simp [pivotStep, hp, hkk]
    rw [pivotLoop, dif_pos hk, hstep]
    apply pivotLoop_diagonal e he (k + 1)
    intro i j
    simp only [eliminate, Flat.at_fill, hL]
    by_cases hik : i = ⟨k, hk⟩
    · subst hik
      by_cases hj : (⟨k, hk⟩ : Fin n) = j
      · subst hj; simp [hne]
      · simp [hj]
    · have hik' : i.val ≠ k := fun h => hik (Fin.ext h)
      have : i.val < k + 1 ↔ i.val < k := by omega
      simp [hik, this]
  · rw [pivotLoop, dif_neg hk]; exact ⟨_, _, rfl⟩
termination_by n - k

/-- C09/C10 (completeness on diagonal matrices): a diagonal matrix whose diagonal entries all have magnitude at
    least 1e-9 is always inverted, and the reported determinant is the product of the entries. -/
theorem C10_diagonal_exact {n : Nat} (e : Fin n → K) (he : ∀ i, (1 : K) / 10 ^ 9 ≤ |e i|) (m : Mat K)
    (hm : m.Holds (Matrix.diagonal e)) :
    ∃ x, m.pinv = .ok (x, ∏ i, e i) ∧ x.Holds (Matrix.diagonal fun i => (e i)⁻¹) := by
  obtain ⟨a, rfl, ha⟩ := hm.elim
  have hfill : (Flat.fill n n fun i j => a.at i j) = a := Flat.ext fun i j => by simp
  have hL : ∀ i j : Fin n, (augment a).at i (leftCol j) = if i = j then (if i.val < 0 then 1 else e i) else 0 := by
    intro i j
    simp [augment, leftCol, ha, Matrix.diagonal_apply]
  obtain ⟨mat, d, hrun⟩ := pivotLoop_diagonal e he 0 (augment a) 1 hL
  have hpinv : (⟨n, n, a⟩ : Mat K).gaussJordanSwaps =
      .ok (⟨n, n, Flat.fill _ _ fun i j => mat.at i (rightCol j)⟩, d, 0) := by
    simp only [gaussJordanSwaps, dif_pos, hfill, hrun]
  obtain ⟨X, hX, h1, h2, h3⟩ := Mat.gaussJordanSwaps_sound hm hpinv
  have hne : ∀ i, e i ≠ 0 := by
    intro i h0
    have := he i
    rw [h0, abs_zero] at this
    have hpos : (0 : K) < 1 / 10 ^ 9 := by positivity
    exact absurd hpos (not_lt.2 this)
  have hXd : X = Matrix.diagonal fun i => (e i)⁻¹ := by
    have h4 : Matrix.diagonal e * Matrix.diagonal (fun i => (e i)⁻¹) = 1 := by
      rw [Matrix.diagonal_mul_diagonal, ← Matrix.diagonal_one]
      congr 1; funext i; exact mul_inv_cancel₀ (hne i)
    calc X = X * (Matrix.diagonal e * Matrix.diagonal (fun i => (e i)⁻¹)) := by rw [h4, Matrix.mul_one]
      _ = _ := by rw [← Matrix.mul_assoc, h1, Matrix.one_mul]
  refine ⟨_, ?_, hXd ▸ hX⟩
  simp only [pinv, if_true, gaussJordanInverse, hpinv, h3, pow_zero, one_mul, Matrix.det_diagonal]

/-- Non-vacuity. -/
example : ∀ i, (1 : ℚ) / 10 ^ 9 ≤ |(![2, -3, 1/2] : Fin 3 → ℚ) i| := by
  intro i; fin_cases i <;> norm_num [abs_of_pos]

end

/-! ### Concrete runs -/

section
variable {K : Type} [Field K] [LinearOrder K] [IsStrictOrderedRing K]

/-- a positive definite matrix whose first pivot is below 1e-9 -/
def pdWitness : Matrix (Fin 2) (Fin 2) K := !![1/10^10, 1/2; 1/2, 10^10]

/-- the array storing it -/
def pdArray : Flat K 2 2 := Flat.fill 2 2 fun i j => pdWitness i j

omit [IsStrictOrderedRing K] in
theorem pivotLoop_next {n : Nat} (k : Nat) (h : k < n) (s s' : Flat K n (n * 2) × K × Nat)
    (hs : pivotStep ⟨k, h⟩ s = .ok s') : pivotLoop k s = pivotLoop (k + 1) s' := by
  rw [pivotLoop, dif_pos h, hs]

theorem pdWitness_run : ∃ mat, pivotLoop 0 (augment pdArray, (1 : K), 0) = .ok (mat, -3/4, 1) := by
  have e1 : findPivot (augment (pdArray (K := K))) 0 0 (by decide) = .ok 1 := by
    rw [findPivot, if_pos, dif_neg (by decide), findPivot, if_neg]
    · rfl
    · simp [augment, leftCol, pdArray, pdWitness, epsilonPseudoInverse]; norm_num [abs_of_pos]
    · simp [augment, leftCol, pdArray, pdWitness, epsilonPseudoInverse]; norm_num [abs_of_pos]
  have e2 : pivotStep 0 (augment pdArray, (1 : K), 0) =
      .ok (eliminate (swapLines (augment pdArray) 1 0) 0, 1/2, 1) := by
    simp only [pivotStep, Fin.val_zero, e1]
    simp [augment, leftCol, pdArray, pdWitness]
  have h11 : (eliminate (swapLines (augment (pdArray (K := K))) 1 0) 0).at 1 (leftCol 1) = -3/2 := by
    simp [eliminate, swapLines, augment, leftCol, pdArray, pdWitness]; norm_num
  have e3 : findPivot (eliminate (swapLines (augment (pdArray (K := K))) 1 0) 0) 1 1 (by decide) = .ok 1 := by
    rw [findPivot, if_neg]
    · rfl
    · show ¬ |(eliminate (swapLines (augment pdArray) 1 0) 0).at 1 (leftCol 1)| < _
      rw [h11, epsilonPseudoInverse]; norm_num [abs_of_neg]
  have e4 : pivotStep 1 (eliminate (swapLines (augment pdArray) 1 0) 0, (1/2 : K), 1) =
      .ok (eliminate (eliminate (swapLines (augment pdArray) 1 0) 0) 1, -3/4, 1) := by
    simp only [pivotStep, Fin.val_one, e3, h11]
    simp; norm_num
  refine ⟨eliminate (eliminate (swapLines (augment pdArray) 1 0) 0) 1, ?_⟩
  rw [pivotLoop_next 0 (by decide) _ _ e2, pivotLoop_next 1 (by decide) _ _ e4, pivotLoop,
    dif_neg (by decide)]

/-- the inversion of `pdWitness` reports the determinant with the wrong sign -/
theorem pdWitness_pinv : ∃ (m x : Mat K), m.Holds pdWitness ∧ m.pinv = .ok (x, -3/4) ∧ (pdWitness (K := K)).det = 3/4 := by
  obtain ⟨mat, hrun⟩ := pdWitness_run (K := K)
  refine ⟨⟨2, 2, pdArray⟩, ⟨2, 2, Flat.fill _ _ fun i j => mat.at i (rightCol j)⟩,
    (Mat.holds_iff _ _).2 (fun i j => by simp [pdArray]), ?_, ?_⟩
  rotate_left
  · simp [pdWitness, Matrix.det_fin_two]; norm_num
  · have hfill : (Flat.fill 2 2 fun i j => (pdArray (K := K)).at i j) = pdArray := Flat.ext fun i j => by simp
    simp only [pinv, if_true, gaussJordanInverse, gaussJordanSwaps, dif_pos, hfill, hrun]

end

/-- C10 violated: for this symmetric positive definite matrix (determinant 3/4) the inversion succeeds but reports
    the determinant −3/4, because a row exchange does not flip the sign. -/
theorem C10_violated : ∃ (m x : Mat ℚ) (d : ℚ), m.Holds pdWitness ∧ m.pinv = .ok (x, d) ∧
    d = -3/4 ∧ (pdWitness : Matrix (Fin 2) (Fin 2) ℚ).det = 3/4 := by
  obtain ⟨m, x, h1, h2, h3⟩ := pdWitness_pinv (K := ℚ)
  exact ⟨m, x, _, h1, h2, rfl, h3⟩

/-- The inversion run above also shows the hypotheses of C09 and C10 are met by a matrix that needs a row exchange. -/
example : ∃ (m x : Mat ℚ) (d : ℚ), m.Holds pdWitness ∧ m.pinv = .ok (x, d) := by
  obtain ⟨m, x, d, h1, h2, _⟩ := C10_violated
  exact ⟨m, x, d, h1, h2⟩

/-- Non-vacuity of `C09_singular_throws`: a singular matrix without a zero entry. -/
example : (!![1, 2; 2, 4] : Matrix (Fin 2) (Fin 2) ℚ).det = 0 := by
  simp [Matrix.det_fin_two]; norm_num

end Xmm
