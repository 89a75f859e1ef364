import Verif.Spec.Matrix
import Verif.Lemmas.Flat
import Mathlib.Tactic.FieldSimp
import Mathlib.Algebra.BigOperators.Field
import Mathlib.Algebra.Order.Ring.Rat
import Mathlib.Tactic.NormNum
namespace Xmm
namespace Mat
variable {K : Type*}

theorem toMatrix_apply {r c : Nat} (a : Flat K r c) (i : Fin r) (j : Fin c) : a.toMatrix i j = a.at i j := rfl

section
variable [Field K] [LinearOrder K] [IsStrictOrderedRing K]

/-- left half -/
def L {n : Nat} (m : Flat K n (n * 2)) : Matrix (Fin n) (Fin n) K := fun i j => m.at i (leftCol j)
/-- right half -/
def R {n : Nat} (m : Flat K n (n * 2)) : Matrix (Fin n) (Fin n) K := fun i j => m.at i (rightCol j)

theorem eps_pos : (0 : K) < epsilonPseudoInverse := by
  unfold epsilonPseudoInverse; positivity

theorem findPivot_ok {n : Nat} (mat : Flat K n (n * 2)) (k : Fin n) (i : Nat) (hi : i < n) (p : Fin n)
    (h : findPivot mat k i hi = .ok p) : i ≤ p.val ∧ mat.at p (leftCol k) ≠ 0 := by
  fun_induction findPivot mat k i hi with
  | case1 => simp at h
  | case2 i hi h1 h2 ih => have := ih h; exact ⟨by omega, this.2⟩
  | case3 i hi h1 =>
    simp only [Except.ok.injEq] at h
    subst h
    refine ⟨le_refl _, fun h0 => ?_⟩
    simp only [h0, abs_zero] at h1
    exact h1 eps_pos

/-- loop invariant after `k` columns -/
structure Inv {n : Nat} (A : Matrix (Fin n) (Fin n) K) (k : Nat) (s : Flat K n (n * 2) × K × Nat) : Prop where
  rows : R s.1 * A = L s.1
  cols : ∀ j : Fin n, j.val < k → ∀ i : Fin n, L s.1 i j = if i = j then 1 else 0
  det : (L s.1).det * s.2.1 = (-1) ^ s.2.2 * A.det

omit [IsStrictOrderedRing K] in
theorem inv_augment {n : Nat} (a : Flat K n n) : Inv a.toMatrix 0 (augment a, 1, 0) := by
  have hL : L (augment a) = a.toMatrix := by
    ext i j
    simp [L, augment, leftCol, toMatrix_apply]
  have hR : R (augment a) = 1 := by
    ext i j
    simp only [R, augment, Flat.at_fill, rightCol, Matrix.one_apply]
    rw [dif_neg (by omega)]
    congr 1
    simp [Fin.ext_iff, eq_comm]
  constructor
  · simp [hL, hR]
  · intro j hj; omega
  · simp [hL]

omit [Field K] [LinearOrder K] [IsStrictOrderedRing K] in
theorem swap_eq_submatrix {n c : Nat} (m : Flat K n c) (i k : Fin n) (p : Fin n) (j : Fin c) :
    (swapLines m i k).at p j = m.at (Equiv.swap i k p) j := by
  simp only [swapLines, Flat.at_fill, Equiv.swap_apply_def]
  split
  · rfl
  · split <;> rfl

omit [LinearOrder K] [IsStrictOrderedRing K] in
theorem inv_swap {n : Nat} {A : Matrix (Fin n) (Fin n) K} {k : Fin n} {m : Flat K n (n * 2)} {d : K} {w : Nat}
    (h : Inv A k.val (m, d, w)) (i : Fin n) (hi : k.val ≤ i.val) (hik : i ≠ k) :
    Inv A k.val (swapLines m i k, d, w + 1) := by
  have hL : L (swapLines m i k) = (L m).submatrix (Equiv.swap i k) id := by
    ext p j; simp [L, swap_eq_submatrix]
  have hR : R (swapLines m i k) = (R m).submatrix (Equiv.swap i k) id := by
    ext p j; simp [R, swap_eq_submatrix]
  constructor
  · show R (swapLines m i k) * A = L (swapLines m i k)
    rw [hL, hR, ← h.rows]
    ext p j; simp [Matrix.mul_apply]
  · intro j hj p
    show L (swapLines m i k) p j = _
    rw [hL]
    simp only [Matrix.submatrix_apply, id]
    rw [h.cols j hj]
    have : (Equiv.swap i k p = j) ↔ p = j := by
      rw [Equiv.swap_apply_def]
      split
      · rename_i h1; subst h1
        constructor
        · rintro rfl; omega
        · rintro rfl; omega
      · split
        · rename_i h1; subst h1
          constructor
          · rintro rfl; omega
          · rintro rfl; omega
        · rfl
    simp [this]
  · show (L (swapLines m i k)).det * d = (-1) ^ (w + 1) * A.det
    rw [hL, Matrix.det_permute]
    have hd := h.det
    simp only at hd
    rw [Equiv.Perm.sign_swap hik]
    simp only [Units.val_neg, Units.val_one, Int.cast_neg, Int.cast_one, neg_mul, one_mul]
    rw [hd]; ring

theorem inv_eliminate {n : Nat} {A : Matrix (Fin n) (Fin n) K} {k : Fin n} {m : Flat K n (n * 2)} {d : K} {w : Nat}
    (h : Inv A k.val (m, d, w)) (hp : m.at k (leftCol k) ≠ 0) :
    Inv A (k.val + 1) (eliminate m k, d * m.at k (leftCol k), w) := by
  have hL : ∀ i j, L (eliminate m k) i j =
      if i = k then L m k j / L m k k else L m i j - L m i k * (L m k j / L m k k) := by
    intro i j; simp [L, eliminate]
  have hR : ∀ i j, R (eliminate m k) i j =
      if i = k then R m k j / L m k k else R m i j - L m i k * (R m k j / L m k k) := by
    intro i j; simp [R, L, eliminate]
  have hp' : L m k k ≠ 0 := hp
  have hrows : ∀ i j, ∑ t, R m i t * A t j = L m i j := fun i j => by
    have := congrFun (congrFun h.rows i) j
    simpa [Matrix.mul_apply] using this
  constructor
  · ext i j
    show (R (eliminate m k) * A) i j = L (eliminate m k) i j
    rw [Matrix.mul_apply, hL]
    by_cases hik : i = k
    · simp only [hR, hik, if_true]
      rw [← hrows k j, Finset.sum_div]
      apply Finset.sum_congr rfl; intro t _; ring
    · simp only [hR, hik, if_false]
      rw [← hrows i j, ← hrows k j, Finset.sum_div, Finset.mul_sum, ← Finset.sum_sub_distrib]
      apply Finset.sum_congr rfl; intro t _; ring
  · intro j hj i
    show L (eliminate m k) i j = _
    rw [hL]
    by_cases hjk : j = k
    · subst hjk
      by_cases hik : i = j
      · simp [hik, hp']
      · simp [hik, hp']
    · have hjlt : j.val < k.val := by
        have : j.val ≠ k.val := fun h => hjk (Fin.ext h)
        omega
      have h1 := h.cols j hjlt
      simp only at h1
      rw [h1 k, h1 i]
      have : ¬ k = j := fun h => hjk h.symm
      by_cases hik : i = k
      · subst hik; simp [this]
      · simp [hik, this]
  · -- determinant
    have h1 : (L (eliminate m k)).det * L m k k = (L m).det := by
      let B : Matrix (Fin n) (Fin n) K := (L m).updateRow k ((L m k k)⁻¹ • L m k)
      have hB : B.det = (L m k k)⁻¹ * (L m).det := by
        show ((L m).updateRow k ((L m k k)⁻¹ • L m k)).det = _
        rw [Matrix.det_updateRow_smul, Matrix.updateRow_eq_self]
      have hE : (L (eliminate m k)).det = B.det := by
        apply Matrix.det_eq_of_forall_row_eq_smul_add_const
          (fun i => if i = k then 0 else - L m i k) k (by simp)
        intro i j
        rw [hL]
        have hBk : B k j = L m k j / L m k k := by
          show ((L m).updateRow k ((L m k k)⁻¹ • L m k)) k j = _
          simp [Matrix.updateRow_self]; ring
        rw [hBk]
        by_cases hik : i = k
        · subst hik; simp [hBk]
        · have hBi : B i j = L m i j := by
            show ((L m).updateRow k ((L m k k)⁻¹ • L m k)) i j = _
            rw [Matrix.updateRow_ne hik]
          simp only [hik, if_false, hBi]; ring
      rw [hE, hB]; field_simp
    show (L (eliminate m k)).det * (d * m.at k (leftCol k)) = (-1) ^ w * A.det
    have h2 : (L (eliminate m k)).det * (d * m.at k (leftCol k)) = (L m).det * d := by
      rw [← h1]; show _ * (d * L m k k) = _; ring
    rw [h2]; exact h.det

theorem inv_pivotStep {n : Nat} {A : Matrix (Fin n) (Fin n) K} {k : Fin n} {s s' : Flat K n (n * 2) × K × Nat}
    (h : Inv A k.val s) (hs : pivotStep k s = .ok s') : Inv A (k.val + 1) s' := by
  obtain ⟨m, d, w⟩ := s
  unfold pivotStep at hs
  cases hf : findPivot m k k.val k.isLt with
  | error e => simp [hf] at hs
  | ok i =>
    obtain ⟨hki, hne⟩ := findPivot_ok m k k.val k.isLt i hf
    simp only [hf, Except.ok.injEq] at hs
    by_cases hik : i = k
    · subst hik
      simp only [ne_eq, not_true, if_false] at hs
      rw [← hs]
      exact inv_eliminate h hne
    · simp only [ne_eq, hik, not_false_eq_true, if_true] at hs
      have h1 := inv_swap h i hki hik
      have h2 : (swapLines m i k).at k (leftCol k) = m.at i (leftCol k) := by
        rw [swap_eq_submatrix, Equiv.swap_apply_right]
      rw [← hs, ← h2]
      exact inv_eliminate h1 (by rw [h2]; exact hne)

theorem inv_pivotLoop {n : Nat} {A : Matrix (Fin n) (Fin n) K} (k : Nat) (hk : k ≤ n)
    (s s' : Flat K n (n * 2) × K × Nat)
    (h : Inv A k s) (hs : pivotLoop k s = .ok s') : Inv A n s' := by
  fun_induction pivotLoop k s with
  | case1 => simp at hs
  | case2 k s hlt s1 hstep ih =>
    exact ih (by omega) (inv_pivotStep (k := ⟨k, hlt⟩) h hstep) hs
  | case3 k s hlt =>
    obtain rfl : k = n := by omega
    simp only [Except.ok.injEq] at hs
    subst hs; exact h

/-- Soundness of the main loop. -/
theorem pivotLoop_sound {n : Nat} (a : Flat K n n) (mat : Flat K n (n * 2)) (d : K) (w : Nat)
    (hs : pivotLoop 0 (augment a, 1, 0) = .ok (mat, d, w)) :
    R mat * a.toMatrix = 1 ∧ a.toMatrix * R mat = 1 ∧ d = (-1) ^ w * a.toMatrix.det := by
  have h := inv_pivotLoop 0 (Nat.zero_le _) _ _ (inv_augment a) hs
  have hL : L mat = 1 := by
    ext i j
    rw [Matrix.one_apply]
    exact h.cols j j.isLt i
  have h1 : R mat * a.toMatrix = 1 := by rw [← hL]; exact h.rows
  refine ⟨h1, mul_eq_one_comm.mp h1, ?_⟩
  have := h.det
  simpa [hL] using this

end
end Mat
end Xmm
