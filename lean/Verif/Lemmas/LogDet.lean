import Mathlib.Analysis.SpecialFunctions.Log.Basic
import Mathlib.Analysis.Matrix.Order
import Mathlib.Analysis.Matrix.PosDef
import Mathlib.LinearAlgebra.Matrix.PosDef
/- Positive definite matrices: determinant and trace. -/
namespace Xmm
open Matrix
open scoped MatrixOrder

theorem logdet_le_trace {n : Nat} (B : Matrix (Fin n) (Fin n) ℝ) (hB : B.PosDef) : Real.log B.det + n ≤ B.trace := by
  have hd : B.det = ∏ i, hB.1.eigenvalues i := by simpa using hB.1.det_eq_prod_eigenvalues
  have ht : B.trace = ∑ i, hB.1.eigenvalues i := by simpa using hB.1.trace_eq_sum_eigenvalues
  rw [hd, ht, Real.log_prod (fun i _ => (hB.eigenvalues_pos i).ne')]
  have : ∑ i, Real.log (hB.1.eigenvalues i) ≤ ∑ i, (hB.1.eigenvalues i - 1) :=
    Finset.sum_le_sum fun i _ => Real.log_le_sub_one_of_pos (hB.eigenvalues_pos i)
  simp only [Finset.sum_sub_distrib, Finset.sum_const, Finset.card_univ, Fintype.card_fin, nsmul_eq_mul, mul_one] at this
  linarith

/-- of all covariances, the one of the data has the highest likelihood -/
theorem logdet_le {n : Nat} (A S : Matrix (Fin n) (Fin n) ℝ) (hA : A.PosDef) (hS : S.PosDef) :
    Real.log A.det + n ≤ Real.log S.det + (S⁻¹ * A).trace := by
  obtain ⟨C, hC⟩ := CStarAlgebra.nonneg_iff_eq_star_mul_self.mp hS.inv.posSemidef.nonneg
  rw [Matrix.star_eq_conjTranspose] at hC
  have hdS : 0 < S.det := hS.det_pos
  have hdC : C.det * C.det = S.det⁻¹ := by
    have := congrArg Matrix.det hC
    rw [Matrix.det_nonsing_inv, Matrix.det_mul, Matrix.det_conjTranspose, Ring.inverse_eq_inv'] at this
    simpa using this.symm
  have hC0 : C.det ≠ 0 := by
    intro h
    rw [h] at hdC
    have := inv_pos.2 hdS
    simp at hdC
    linarith
  have hu : IsUnit C := (Matrix.isUnit_iff_isUnit_det C).2 (isUnit_iff_ne_zero.2 hC0)
  have hB : (C * A * Cᴴ).PosDef := by
    have := hA.conjTranspose_mul_mul_same (B := Cᴴ) (by
      intro x y hxy
      have hd : IsUnit Cᴴ := by
        rw [Matrix.isUnit_iff_isUnit_det, Matrix.det_conjTranspose]; simpa using hC0
      exact Matrix.mulVec_injective_of_isUnit hd hxy)
    simpa using this
  have h := logdet_le_trace _ hB
  have ht : (C * A * Cᴴ).trace = (S⁻¹ * A).trace := by
    rw [hC, Matrix.trace_mul_comm, ← Matrix.mul_assoc]
  have hdet : (C * A * Cᴴ).det = A.det / S.det := by
    rw [Matrix.det_mul, Matrix.det_mul, Matrix.det_conjTranspose]
    simp only [star_trivial]
    rw [div_eq_mul_inv, ← hdC]; ring
  rw [ht, hdet, Real.log_div hA.det_pos.ne' hdS.ne'] at h
  linarith

/-- if the quadratic form of `S` is at least that of the diagonal matrix of `r`, the diagonal of the inverse is at most `1 / r` -/
theorem inv_diag_le {n : Nat} (S : Matrix (Fin n) (Fin n) ℝ) (hS : S.PosDef) (r : Fin n → ℝ) (hr : ∀ i, 0 ≤ r i)
    (hq : ∀ v : Fin n → ℝ, ∑ i, r i * v i ^ 2 ≤ v ⬝ᵥ S.mulVec v) (d : Fin n) : 0 ≤ S⁻¹ d d ∧ r d * S⁻¹ d d ≤ 1 := by
  have hpos : 0 < S⁻¹ d d := hS.inv.diag_pos
  refine ⟨hpos.le, ?_⟩
  have hu : IsUnit S.det := isUnit_iff_ne_zero.2 hS.det_pos.ne'
  have h := hq (fun i => S⁻¹ i d)
  have hm : S.mulVec (fun i => S⁻¹ i d) = fun i => if i = d then 1 else 0 := by
    funext i
    have := congrFun (congrFun (Matrix.mul_nonsing_inv S hu) i) d
    rw [Matrix.mul_apply, Matrix.one_apply] at this
    exact this
  rw [hm] at h
  have e : (fun i => S⁻¹ i d) ⬝ᵥ (fun i => if i = d then (1 : ℝ) else 0) = S⁻¹ d d := by
    simp [dotProduct]
  rw [e] at h
  have h1 : r d * S⁻¹ d d ^ 2 ≤ ∑ i, r i * S⁻¹ i d ^ 2 :=
    Finset.single_le_sum (f := fun i => r i * S⁻¹ i d ^ 2) (fun i _ => mul_nonneg (hr i) (sq_nonneg _)) (Finset.mem_univ d)
  have h2 : r d * S⁻¹ d d * S⁻¹ d d ≤ 1 * S⁻¹ d d := by nlinarith
  exact le_of_mul_le_mul_right h2 hpos

/-- Jensen's inequality for the logarithm, for the ratio of two sums -/
theorem log_sum_ge {n : Nat} (s s' : Nat → ℝ) (hn : 1 ≤ n) (hs : ∀ c < n, 0 < s c) (hs' : ∀ c < n, 0 < s' c) :
    Real.log (∑ c ∈ Finset.range n, s c) + ∑ c ∈ Finset.range n, s c / (∑ j ∈ Finset.range n, s j) * (Real.log (s' c) - Real.log (s c)) ≤
      Real.log (∑ c ∈ Finset.range n, s' c) := by
  set S := ∑ j ∈ Finset.range n, s j with hS
  set S' := ∑ j ∈ Finset.range n, s' j with hS'
  have hne : (Finset.range n).Nonempty := ⟨0, Finset.mem_range.2 hn⟩
  have pS : 0 < S := Finset.sum_pos (fun c hc => hs c (Finset.mem_range.1 hc)) hne
  have pS' : 0 < S' := Finset.sum_pos (fun c hc => hs' c (Finset.mem_range.1 hc)) hne
  have key : ∀ c ∈ Finset.range n, s c / S * (Real.log (s' c) - Real.log (s c)) ≤
      s c / S * (Real.log S' - Real.log S) + (s' c / S' - s c / S) := by
    intro c hc
    have a := hs c (Finset.mem_range.1 hc)
    have b := hs' c (Finset.mem_range.1 hc)
    have h := Real.log_le_sub_one_of_pos (x := s' c / s c / (S' / S)) (by positivity)
    rw [Real.log_div (by positivity) (by positivity), Real.log_div b.ne' a.ne', Real.log_div pS'.ne' pS.ne'] at h
    have h2 := mul_le_mul_of_nonneg_left h (show (0 : ℝ) ≤ s c / S by positivity)
    have e : s c / S * (s' c / s c / (S' / S) - 1) = s' c / S' - s c / S := by
      field_simp
    rw [e] at h2
    linarith
  have h := Finset.sum_le_sum key
  rw [Finset.sum_add_distrib, Finset.sum_sub_distrib, ← Finset.sum_mul, ← Finset.sum_div, ← Finset.sum_div, ← hS, ← hS',
    div_self pS.ne', div_self pS'.ne'] at h
  linarith

/-- Gibbs' inequality -/
theorem gibbs {n : Nat} (w w' : Nat → ℝ) (hw : ∀ c < n, 0 < w c) (hw' : ∀ c < n, 0 < w' c) (h1 : ∑ c ∈ Finset.range n, w c = 1)
    (h1' : ∑ c ∈ Finset.range n, w' c = 1) : 0 ≤ ∑ c ∈ Finset.range n, w' c * (Real.log (w' c) - Real.log (w c)) := by
  have key : ∀ c ∈ Finset.range n, w' c - w c ≤ w' c * (Real.log (w' c) - Real.log (w c)) := by
    intro c hc
    have a := hw c (Finset.mem_range.1 hc)
    have b := hw' c (Finset.mem_range.1 hc)
    have h := Real.log_le_sub_one_of_pos (x := w c / w' c) (by positivity)
    rw [Real.log_div a.ne' b.ne'] at h
    have h2 := mul_le_mul_of_nonneg_left h b.le
    have e : w' c * (w c / w' c - 1) = w c - w' c := by field_simp
    rw [e] at h2
    linarith
  have h := Finset.sum_le_sum key
  rw [Finset.sum_sub_distrib, h1, h1'] at h
  linarith

end Xmm
