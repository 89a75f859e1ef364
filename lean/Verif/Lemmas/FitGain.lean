import Verif.Lemmas.LogDet
import Verif.Spec.GaussianDensity
/- The normal distribution with the weighted mean and covariance of some observations fits them best, up to the regularisation. -/
namespace Xmm
open Matrix

theorem normalPdf_pos {n : Nat} {S : Matrix (Fin n) (Fin n) ℝ} (hS : 0 < S.det) (v : Fin n → ℝ) : 0 < normalPdf S v := by
  unfold normalPdf
  have := Real.pi_pos
  positivity

theorem log_normalPdf {n : Nat} {S : Matrix (Fin n) (Fin n) ℝ} (hS : 0 < S.det) (v : Fin n → ℝ) :
    Real.log (normalPdf S v) = -(1 / 2) * (v ⬝ᵥ S⁻¹.mulVec v) - 1 / 2 * (n * Real.log (2 * Real.pi) + Real.log S.det) := by
  have h2 := Real.pi_pos
  have hp : 0 < (2 * Real.pi) ^ n * S.det := by positivity
  unfold normalPdf
  rw [Real.log_div (Real.exp_pos _).ne' (Real.sqrt_pos.2 hp).ne', Real.log_exp, Real.log_sqrt hp.le, Real.log_mul (by positivity) hS.ne', Real.log_pow]
  ring

theorem quad_expand {n : Nat} (P : Matrix (Fin n) (Fin n) ℝ) (v : Fin n → ℝ) : v ⬝ᵥ P.mulVec v = ∑ i, ∑ j, v i * P i j * v j := by
  simp only [dotProduct, mulVec, Finset.mul_sum, mul_assoc]

section
variable {ι : Type} [Fintype ι] {n : Nat} (w : ι → ℝ) (x : ι → Fin n → ℝ)

/-- the weighted mean is the best one -/
theorem quad_mean (μ μ' : Fin n → ℝ) (hμ : ∀ i, ∑ p, w p * (x p i - μ' i) = 0) (P : Matrix (Fin n) (Fin n) ℝ) :
    ∑ p, w p * ((fun i => x p i - μ i) ⬝ᵥ P.mulVec fun i => x p i - μ i) =
      (∑ p, w p * ((fun i => x p i - μ' i) ⬝ᵥ P.mulVec fun i => x p i - μ' i)) + (∑ p, w p) * ((fun i => μ' i - μ i) ⬝ᵥ P.mulVec fun i => μ' i - μ i) := by
  have h1 : ∀ i j : Fin n, ∑ p, w p * ((x p i - μ' i) * P i j * (μ' j - μ j)) = 0 := fun i j => by
    have e : ∀ p, w p * ((x p i - μ' i) * P i j * (μ' j - μ j)) = w p * (x p i - μ' i) * (P i j * (μ' j - μ j)) := fun p => by ring
    simp only [e, ← Finset.sum_mul, hμ, zero_mul]
  have h2 : ∀ i j : Fin n, ∑ p, w p * ((μ' i - μ i) * P i j * (x p j - μ' j)) = 0 := fun i j => by
    have e : ∀ p, w p * ((μ' i - μ i) * P i j * (x p j - μ' j)) = w p * (x p j - μ' j) * ((μ' i - μ i) * P i j) := fun p => by ring
    simp only [e, ← Finset.sum_mul, hμ, zero_mul]
  simp only [quad_expand, Finset.mul_sum, Finset.sum_mul]
  rw [Finset.sum_comm, Finset.sum_comm (s := (Finset.univ : Finset ι)) (f := fun p i => ∑ j, w p * ((x p i - μ' i) * P i j * (x p j - μ' j))),
    ← Finset.sum_add_distrib]
  refine Finset.sum_congr rfl fun i _ => ?_
  rw [Finset.sum_comm, Finset.sum_comm (s := (Finset.univ : Finset ι)) (f := fun p j => w p * ((x p i - μ' i) * P i j * (x p j - μ' j))),
    ← Finset.sum_add_distrib]
  refine Finset.sum_congr rfl fun j _ => ?_
  have e : ∀ p, w p * ((x p i - μ i) * P i j * (x p j - μ j)) = w p * ((x p i - μ' i) * P i j * (x p j - μ' j)) + w p * ((μ' i - μ i) * P i j * (μ' j - μ j)) +
      w p * ((x p i - μ' i) * P i j * (μ' j - μ j)) + w p * ((μ' i - μ i) * P i j * (x p j - μ' j)) := fun p => by ring
  simp only [e, Finset.sum_add_distrib, h1, h2, add_zero]

/-- the average of a quadratic form depends on the weighted covariance only -/
theorem quad_cov (N : ℝ) (μ' : Fin n → ℝ) (A : Matrix (Fin n) (Fin n) ℝ) (r : Fin n → ℝ) (diag : Prop) [Decidable diag]
    (hA : ∀ i j, N * A i j = (if diag ∧ i ≠ j then 0 else ∑ p, w p * ((x p i - μ' i) * (x p j - μ' j))) + if i = j then N * r i else 0)
    (hsymm : ∀ i j, A i j = A j i) (P : Matrix (Fin n) (Fin n) ℝ) (hP : diag → ∀ i j, i ≠ j → P i j = 0) :
    ∑ p, w p * ((fun i => x p i - μ' i) ⬝ᵥ P.mulVec fun i => x p i - μ' i) = N * ((P * A).trace - ∑ i, r i * P i i) := by
  have e1 : ∑ p, w p * ((fun i => x p i - μ' i) ⬝ᵥ P.mulVec fun i => x p i - μ' i) =
      ∑ i, ∑ j, P i j * ∑ p, w p * ((x p i - μ' i) * (x p j - μ' j)) := by
    simp only [quad_expand, Finset.mul_sum]
    rw [Finset.sum_comm]
    refine Finset.sum_congr rfl fun i _ => ?_
    rw [Finset.sum_comm]
    refine Finset.sum_congr rfl fun j _ => Finset.sum_congr rfl fun p _ => ?_
    ring
  have e2 : ∀ i j, P i j * ∑ p, w p * ((x p i - μ' i) * (x p j - μ' j)) = N * (P i j * A j i) - if i = j then N * (r i * P i i) else 0 := by
    intro i j
    rw [hsymm j i, ← mul_assoc, mul_comm N, mul_assoc, hA i j]
    by_cases hij : i = j
    · subst hij
      simp only [ne_eq, not_true, and_false, if_false, if_true]
      ring
    · by_cases hd : diag
      · simp [hP hd i j hij, hij]
      · simp [hij, hd]
  rw [e1, Finset.sum_congr rfl fun i _ => Finset.sum_congr rfl fun j _ => e2 i j]
  simp only [Finset.sum_sub_distrib, Finset.sum_ite_eq, Finset.mem_univ, if_true, Matrix.trace, Matrix.diag, Matrix.mul_apply, mul_sub, Finset.mul_sum]

/-- replacing the mean and covariance by the weighted ones with the regularisation `r` lowers the weighted log-likelihood at most by the effect of the regularisation -/
theorem fit_gain (hw : ∀ p, 0 ≤ w p) (μ μ' : Fin n → ℝ) (A S : Matrix (Fin n) (Fin n) ℝ) (r : Fin n → ℝ) (diag : Prop) [Decidable diag] (hA : A.PosDef)
    (hS : S.PosDef) (hμ : ∀ i, ∑ p, w p * (x p i - μ' i) = 0)
    (hc : ∀ i j, (∑ p, w p) * A i j = (if diag ∧ i ≠ j then 0 else ∑ p, w p * ((x p i - μ' i) * (x p j - μ' j))) + if i = j then (∑ p, w p) * r i else 0)
    (hd : diag → ∀ i j, i ≠ j → S i j = 0) :
    -((∑ p, w p) / 2 * (∑ i, r i * S⁻¹ i i - ∑ i, r i * A⁻¹ i i)) ≤
      ∑ p, w p * (Real.log (normalPdf A fun i => x p i - μ' i) - Real.log (normalPdf S fun i => x p i - μ i)) := by
  have inv_diag : ∀ B : Matrix (Fin n) (Fin n) ℝ, (∀ i j, i ≠ j → B i j = 0) → ∀ i j, i ≠ j → B⁻¹ i j = 0 := by
    intro B hB i j hij
    have : B = Matrix.diagonal fun i => B i i := by
      ext a b
      by_cases hab : a = b
      · subst hab; simp
      · rw [Matrix.diagonal_apply_ne _ hab, hB a b hab]
    rw [this, Matrix.inv_diagonal, Matrix.diagonal_apply_ne _ hij]
  have hdA : diag → ∀ i j, i ≠ j → A i j * (∑ p, w p) = 0 := fun h i j hij => by
    rw [mul_comm, hc i j]; simp [h, hij]
  set N := ∑ p, w p with hN
  have hN0 : 0 ≤ N := Finset.sum_nonneg fun p _ => hw p
  have symm : ∀ B : Matrix (Fin n) (Fin n) ℝ, B.PosDef → ∀ i j, B i j = B j i := fun B hB i j => by
    have := congrFun (congrFun hB.1 i) j
    simpa [Matrix.conjTranspose_apply] using this.symm
  have expand : ∀ (B : Matrix (Fin n) (Fin n) ℝ) (hB : B.PosDef) (ν : Fin n → ℝ), ∑ p, w p * Real.log (normalPdf B fun i => x p i - ν i) =
      -(1 / 2) * (∑ p, w p * ((fun i => x p i - ν i) ⬝ᵥ B⁻¹.mulVec fun i => x p i - ν i)) - N * (1 / 2 * (n * Real.log (2 * Real.pi) + Real.log B.det)) := by
    intro B hB ν
    simp only [log_normalPdf hB.det_pos, mul_sub, Finset.sum_sub_distrib, ← Finset.sum_mul, hN, Finset.mul_sum]
    congr 1
    exact Finset.sum_congr rfl fun p _ => by ring
  rcases hN0.eq_or_lt with h0 | hpos
  · have hz : ∀ p, w p = 0 := fun p => (Finset.sum_eq_zero_iff_of_nonneg fun p _ => hw p).1 (hN ▸ h0.symm) p (Finset.mem_univ p)
    simp [hz, ← h0]
  have hdA' : diag → ∀ i j, i ≠ j → A i j = 0 := fun h i j hij => (mul_eq_zero.1 (hdA h i j hij)).resolve_right hpos.ne'
  have q1 := quad_cov w x N μ' A r diag hc (symm A hA) A⁻¹ (fun h => inv_diag A (hdA' h))
  have q2 := quad_cov w x N μ' A r diag hc (symm A hA) S⁻¹ (fun h => inv_diag S (hd h))
  have q3 := quad_mean w x μ μ' hμ S⁻¹
  rw [← hN] at q3
  have q4 : 0 ≤ (fun i => μ' i - μ i) ⬝ᵥ S⁻¹.mulVec fun i => μ' i - μ i := by
    have := hS.inv.posSemidef.dotProduct_mulVec_nonneg (fun i => μ' i - μ i)
    simpa using this
  have hu : IsUnit A.det := isUnit_iff_ne_zero.2 hA.det_pos.ne'
  have q5 : (A⁻¹ * A).trace = n := by rw [Matrix.nonsing_inv_mul A hu]; simp
  have q6 := logdet_le A S hA hS
  have e : ∑ p, w p * (Real.log (normalPdf A fun i => x p i - μ' i) - Real.log (normalPdf S fun i => x p i - μ i)) =
      N / 2 * ((Real.log S.det + (S⁻¹ * A).trace - Real.log A.det - n) + ((fun i => μ' i - μ i) ⬝ᵥ S⁻¹.mulVec fun i => μ' i - μ i) -
        (∑ i, r i * S⁻¹ i i - ∑ i, r i * A⁻¹ i i)) := by
    simp only [mul_sub (w _), Finset.sum_sub_distrib]
    rw [expand A hA μ', expand S hS μ, q1, q3, q2, q5]
    ring
  rw [e]
  have : 0 ≤ N / 2 * ((Real.log S.det + (S⁻¹ * A).trace - Real.log A.det - n) + ((fun i => μ' i - μ i) ⬝ᵥ S⁻¹.mulVec fun i => μ' i - μ i)) :=
    mul_nonneg (by linarith) (by linarith)
  linarith [mul_sub (N / 2) ((Real.log S.det + (S⁻¹ * A).trace - Real.log A.det - n) + ((fun i => μ' i - μ i) ⬝ᵥ S⁻¹.mulVec fun i => μ' i - μ i))
        (∑ i, r i * S⁻¹ i i - ∑ i, r i * A⁻¹ i i)]

end
end Xmm
