import Verif.Props.Matrix
import Mathlib.Tactic.Linarith
import Mathlib.Tactic.Ring
import Mathlib.Algebra.Order.BigOperators.Ring.Finset
set_option linter.unusedSimpArgs false
/-
C68: a symmetric matrix whose quadratic form is at least 1e-9 (times the squared length) is always inverted, without any row
exchange, so the reported determinant is exact and positive.
-/
namespace Xmm
open Mat
variable {K : Type*} [Field K] [LinearOrder K] [IsStrictOrderedRing K]

/-- the quadratic form of a matrix -/
def quad {n : Nat} (A : Matrix (Fin n) (Fin n) K) (v : Fin n → K) : K := ∑ i, ∑ j, v i * A i j * v j

/-- symmetric from row `k` on, with quadratic form at least 1e-9 on the vectors whose first `k` coordinates are zero -/
structure RegularFrom {n : Nat} (k : Nat) (A : Matrix (Fin n) (Fin n) K) : Prop where
  symm : ∀ i j : Fin n, k ≤ i.val → k ≤ j.val → A i j = A j i
  quad : ∀ v : Fin n → K, (∀ i : Fin n, i.val < k → v i = 0) → 1 / 10 ^ 9 * ∑ i, v i ^ 2 ≤ quad A v

theorem RegularFrom.pivot {n : Nat} {k : Fin n} {A : Matrix (Fin n) (Fin n) K} (h : RegularFrom k.val A) :
    1 / 10 ^ 9 ≤ A k k := by
  have := h.quad (Pi.single k 1) (fun i hi => by
    rw [Pi.single_eq_of_ne]
    intro he; subst he; omega)
  have e1 : ∑ i, (Pi.single k (1 : K) : Fin n → K) i ^ 2 = 1 := by
    rw [Finset.sum_eq_single k]
    · simp
    · intro b _ hb; simp [Pi.single_eq_of_ne hb]
    · simp
  have e2 : Xmm.quad A (Pi.single k 1) = A k k := by
    unfold Xmm.quad
    rw [Finset.sum_eq_single k]
    · rw [Finset.sum_eq_single k]
      · simp
      · intro b _ hb; simp [Pi.single_eq_of_ne hb]
      · simp
    · intro b _ hb; simp [Pi.single_eq_of_ne hb]
    · simp
  rw [e1, e2, mul_one] at this
  exact this

/-- one elimination step keeps the invariant -/
theorem RegularFrom.step {n : Nat} {k : Fin n} {A B : Matrix (Fin n) (Fin n) K} (h : RegularFrom k.val A)
    (hB : ∀ i j, i ≠ k → B i j = A i j - A i k * (A k j / A k k)) : RegularFrom (k.val + 1) B := by
  have hp : (0 : K) < A k k := lt_of_lt_of_le (by positivity) h.pivot
  constructor
  · intro i j hi hj
    have hik : i ≠ k := by rintro rfl; omega
    have hjk : j ≠ k := by rintro rfl; omega
    rw [hB i j hik, hB j i hjk, h.symm i j (by omega) (by omega), h.symm k j (le_refl _) (by omega),
      h.symm i k (by omega) (le_refl _)]
    ring
  · intro v hv
    set s := ∑ j, A k j * v j with hs
    have hvk : v k = 0 := hv k (by omega)
    have hs' : ∑ i, v i * A i k = s := by
      rw [hs]
      refine Finset.sum_congr rfl fun i _ => ?_
      by_cases hi : i.val < k.val
      · rw [hv i (by omega)]; ring
      · rw [h.symm i k (by omega) (le_refl _)]; ring
    have hqB : Xmm.quad B v = Xmm.quad A v - s ^ 2 / A k k := by
      have : ∀ i, ∑ j, v i * B i j * v j = (∑ j, v i * A i j * v j) - v i * A i k * (s / A k k) := by
        intro i
        by_cases hik : i = k
        · subst hik; simp [hvk]
        · rw [hs, Finset.sum_div, Finset.mul_sum, ← Finset.sum_sub_distrib]
          refine Finset.sum_congr rfl fun j _ => ?_
          rw [hB i j hik]; ring
      unfold Xmm.quad
      rw [Finset.sum_congr rfl fun i _ => this i, Finset.sum_sub_distrib, ← Finset.sum_mul, hs']
      ring
    set u : Fin n → K := fun i => v i + if i = k then - (s / A k k) else 0 with hu
    have huk : ∀ i : Fin n, i.val < k.val → u i = 0 := by
      intro i hi
      have : i ≠ k := by rintro rfl; omega
      simp only [hu, if_neg this, add_zero]
      exact hv i (by omega)
    have hqu : Xmm.quad A u = Xmm.quad A v - s ^ 2 / A k k := by
      have e1 : ∀ i, ∑ j, u i * A i j * u j = (∑ j, u i * A i j * v j) - u i * A i k * (s / A k k) := by
        intro i
        have : ∑ j, u i * A i j * u j = ∑ j, (u i * A i j * v j + if j = k then - (u i * A i k * (s / A k k)) else 0) := by
          refine Finset.sum_congr rfl fun j _ => ?_
          simp only [hu]
          by_cases hj : j = k
          · subst hj; simp only [if_true]; ring
          · simp only [hj, if_false, add_zero]
        rw [this, Finset.sum_add_distrib, Finset.sum_ite_eq' Finset.univ k]
        simp only [Finset.mem_univ, if_true]
        ring
      have e2 : ∑ i, ∑ j, u i * A i j * v j = Xmm.quad A v - s / A k k * s := by
        have : ∀ i, ∑ j, u i * A i j * v j = (∑ j, v i * A i j * v j) + if i = k then - (s / A k k * s) else 0 := by
          intro i
          by_cases hi : i = k
          · subst hi
            simp only [hu, if_true, hvk, zero_add, zero_mul, Finset.sum_const_zero]
            rw [hs, ← neg_mul, Finset.mul_sum]
            refine Finset.sum_congr rfl fun j _ => ?_
            ring
          · simp only [hu, hi, if_false, add_zero]
        rw [Finset.sum_congr rfl fun i _ => this i, Finset.sum_add_distrib, Finset.sum_ite_eq' Finset.univ k]
        simp only [Finset.mem_univ, if_true, Xmm.quad]
        ring
      have e3 : ∑ i, u i * A i k = 0 := by
        have : ∀ i, u i * A i k = v i * A i k + if i = k then - s else 0 := by
          intro i
          by_cases hi : i = k
          · subst hi; simp only [hu, if_true, add_mul, neg_mul, div_mul_cancel₀ _ hp.ne']
          · simp only [hu, hi, if_false, add_zero]
        rw [Finset.sum_congr rfl fun i _ => this i, Finset.sum_add_distrib, Finset.sum_ite_eq' Finset.univ k, hs']
        simp
      conv_lhs => unfold Xmm.quad
      rw [Finset.sum_congr rfl fun i _ => e1 i, Finset.sum_sub_distrib, ← Finset.sum_mul, e3, e2]
      ring
    have hle : ∑ i, v i ^ 2 ≤ ∑ i, u i ^ 2 := by
      refine Finset.sum_le_sum fun i _ => ?_
      by_cases hi : i = k
      · subst hi; rw [hvk]; simp only [ne_eq, OfNat.ofNat_ne_zero, not_false_eq_true, zero_pow]; exact sq_nonneg _
      · simp only [hu, hi, if_false, add_zero]; exact le_refl _
    rw [hqB, ← hqu]
    refine le_trans ?_ (h.quad u huk)
    exact mul_le_mul_of_nonneg_left hle (by positivity)

/-- the loop never exchanges rows and never throws -/
theorem pivotLoop_regular {n : Nat} (k : Nat) (mat : Flat K n (n * 2)) (d : K) (hd : 0 < d)
    (h : RegularFrom k (L mat)) : ∃ mat' d', pivotLoop k (mat, d, 0) = .ok (mat', d', 0) ∧ 0 < d' := by
  by_cases hk : k < n
  · have hpiv : 1 / 10 ^ 9 ≤ mat.at ⟨k, hk⟩ (leftCol ⟨k, hk⟩) := RegularFrom.pivot (k := ⟨k, hk⟩) h
    have hpos : (0 : K) < mat.at ⟨k, hk⟩ (leftCol ⟨k, hk⟩) := lt_of_lt_of_le (by positivity) hpiv
    have hp : findPivot mat ⟨k, hk⟩ k hk = .ok ⟨k, hk⟩ := by
      rw [findPivot, if_neg]
      rw [abs_of_pos hpos]
      exact not_lt.2 hpiv
    have hstep : pivotStep ⟨k, hk⟩ (mat, d, 0) = .ok (eliminate mat ⟨k, hk⟩,
        d * mat.at ⟨k, hk⟩ (leftCol ⟨k, hk⟩), 0) := by
      simp [pivotStep, hp]
    rw [pivotLoop, dif_pos hk, hstep]
    apply pivotLoop_regular (k + 1) _ _ (mul_pos hd hpos)
    refine RegularFrom.step (k := ⟨k, hk⟩) (A := L mat) h fun i j hij => ?_
    simp only [L, eliminate, Flat.at_fill, if_neg hij]
  · rw [pivotLoop, dif_neg hk]; exact ⟨_, _, rfl, hd⟩
termination_by n - k

/-- C68: a symmetric matrix whose quadratic form is at least 1e-9 times the squared length is always inverted, and the reported
    determinant is the determinant, which is positive. -/
theorem C68_regular_inverse {n : Nat} (m : Mat K) (A : Matrix (Fin n) (Fin n) K) (hm : m.Holds A)
    (hs : ∀ i j, A i j = A j i) (hq : ∀ v : Fin n → K, 1 / 10 ^ 9 * ∑ i, v i ^ 2 ≤ ∑ i, ∑ j, v i * A i j * v j) :
    ∃ x X, m.pinv = .ok (x, A.det) ∧ 0 < A.det ∧ x.Holds X ∧ X * A = 1 ∧ A * X = 1 := by
  obtain ⟨a, rfl, ha⟩ := hm.elim
  have hfill : (Flat.fill n n fun i j => a.at i j) = a := Flat.ext fun i j => by simp
  have hL : L (augment a) = A := by
    ext i j
    simp [L, augment, leftCol, ha]
  obtain ⟨mat, d, hrun, hd⟩ := pivotLoop_regular 0 (augment a) 1 one_pos
    (hL ▸ ⟨fun i j _ _ => hs i j, fun v _ => hq v⟩)
  have hpinv : (⟨n, n, a⟩ : Mat K).gaussJordanSwaps =
      .ok (⟨n, n, Flat.fill _ _ fun i j => mat.at i (rightCol j)⟩, d, 0) := by
    simp only [gaussJordanSwaps, dif_pos, hfill, hrun]
  obtain ⟨X, hX, h1, h2, h3⟩ := Mat.gaussJordanSwaps_sound hm hpinv
  rw [pow_zero, one_mul] at h3
  refine ⟨_, X, ?_, h3 ▸ hd, hX, h1, h2⟩
  simp only [pinv, if_true, gaussJordanInverse, hpinv, h3]

/-- Non-vacuity: a correlated covariance matrix. -/
example : ∀ v : Fin 2 → ℚ, 1 / 10 ^ 9 * ∑ i, v i ^ 2 ≤ ∑ i, ∑ j, v i * (!![2, 1; 1, 2] : Matrix (Fin 2) (Fin 2) ℚ) i j * v j := by
  intro v
  simp only [Fin.sum_univ_two, Matrix.of_apply, Matrix.cons_val', Matrix.cons_val_zero, Matrix.cons_val_one,
    Matrix.cons_val_fin_one]
  nlinarith [sq_nonneg (v 0 + v 1), sq_nonneg (v 0), sq_nonneg (v 1)]

end Xmm
