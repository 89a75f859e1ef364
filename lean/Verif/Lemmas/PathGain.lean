import Verif.Spec.BaumWelch
import Mathlib.Analysis.SpecialFunctions.Log.Basic
import Mathlib.Algebra.BigOperators.Field
/- Jensen's inequality for sums of weights that may vanish, and for the paths of a hidden Markov model. -/
namespace Xmm

/-- Jensen's inequality; a weight `s` may be zero, and `s'` is positive where `s` is -/
theorem log_sum_ge_of {ι : Type} (A : Finset ι) (s s' : ι → ℝ) (h0 : ∀ c ∈ A, 0 ≤ s c) (h0' : ∀ c ∈ A, 0 ≤ s' c) (hp : ∀ c ∈ A, 0 < s c → 0 < s' c)
    (hS : 0 < ∑ c ∈ A, s c) :
    Real.log (∑ c ∈ A, s c) + ∑ c ∈ A, s c / (∑ j ∈ A, s j) * (Real.log (s' c) - Real.log (s c)) ≤ Real.log (∑ c ∈ A, s' c) := by
  set S := ∑ j ∈ A, s j with hSd
  set S' := ∑ j ∈ A, s' j with hS'd
  have pS' : 0 < S' := by
    obtain ⟨c, hc, hc'⟩ := Finset.exists_lt_of_sum_lt (f := fun _ => (0 : ℝ)) (g := s) (s := A) (by simpa using hS)
    exact lt_of_lt_of_le (hp c hc hc') (Finset.single_le_sum h0' hc)
  have key : ∀ c ∈ A, s c / S * (Real.log (s' c) - Real.log (s c)) ≤ s c / S * (Real.log S' - Real.log S) + (s' c / S' - s c / S) := by
    intro c hc
    rcases (h0 c hc).eq_or_lt with h | h
    · rw [← h]
      have := div_nonneg (h0' c hc) pS'.le
      simpa using this
    · have h' := hp c hc h
      have hx : 0 < s' c * S / (s c * S') := by positivity
      have hl := Real.log_le_sub_one_of_pos hx
      rw [Real.log_div (by positivity) (by positivity), Real.log_mul h'.ne' hS.ne', Real.log_mul h.ne' pS'.ne'] at hl
      have h2 := mul_le_mul_of_nonneg_left hl (div_nonneg h.le hS.le)
      have e : s c / S * (s' c * S / (s c * S') - 1) = s' c / S' - s c / S := by
        field_simp
      rw [e] at h2
      nlinarith
  have h := Finset.sum_le_sum key
  rw [Finset.sum_add_distrib, Finset.sum_sub_distrib, ← Finset.sum_mul, ← Finset.sum_div, ← Finset.sum_div, div_self hS.ne', div_self pS'.ne'] at h
  linarith

/-- the weights `a`, as shares of their sum, fit themselves better than the shares `w` do -/
theorem gibbs_of {ι : Type} (A : Finset ι) (a w : ι → ℝ) (h0 : ∀ c ∈ A, 0 ≤ a c) (hw : ∀ c ∈ A, 0 ≤ w c) (hp : ∀ c ∈ A, 0 < a c → 0 < w c) :
    -((∑ c ∈ A, a c) * Real.log (∑ c ∈ A, w c)) ≤ ∑ c ∈ A, a c * (Real.log (a c / ∑ j ∈ A, a j) - Real.log (w c)) := by
  rcases (Finset.sum_nonneg h0).eq_or_lt with h | h
  · have hz : ∀ c ∈ A, a c = 0 := fun c hc => (Finset.sum_eq_zero_iff_of_nonneg h0).1 h.symm c hc
    rw [← h, zero_mul, neg_zero]
    exact Finset.sum_nonneg fun c hc => by rw [hz c hc, zero_mul]
  · have j := log_sum_ge_of A a w h0 hw hp h
    set S := ∑ c ∈ A, a c with hS
    have e : ∀ c ∈ A, a c * (Real.log (a c / S) - Real.log (w c)) = -(S * (a c / S * (Real.log (w c) - Real.log (a c)))) - a c * Real.log S := by
      intro c hc
      rcases (h0 c hc).eq_or_lt with h1 | h1
      · rw [← h1]; simp
      · rw [Real.log_div h1.ne' h.ne']
        field_simp
        ring
    rw [Finset.sum_congr rfl e, Finset.sum_sub_distrib, Finset.sum_neg_distrib, ← Finset.mul_sum, ← Finset.sum_mul, ← hS]
    have := mul_le_mul_of_nonneg_left j h.le
    linarith

open HmmSpec

section Paths
variable {n : Nat} (π π' : Nat → ℝ) (A A' : Nat → Nat → ℝ) (b b' : Nat → Nat → ℝ) (T : Nat)

/-- the average over the paths of a function of one state -/
theorem sum_post (t : Nat) (f : Nat → ℝ) :
    ∑ s : Fin (T + 1) → Fin n, pathWeight π A b s / total n π A b T * f (s (Fin.ofNat (T + 1) t)) = ∑ i ∈ Finset.range n, post n π A b T t i * f i := by
  unfold post atState
  simp only [Finset.sum_div, Finset.sum_mul]
  rw [Finset.sum_comm]
  refine Finset.sum_congr rfl fun s _ => ?_
  rw [Finset.sum_eq_single (s (Fin.ofNat (T + 1) t)).val]
  · rw [if_pos rfl]
  · intro i _ hi
    rw [if_neg (Ne.symm hi), zero_div, zero_mul]
  · intro h
    exact absurd (Finset.mem_range.2 (s (Fin.ofNat (T + 1) t)).isLt) h

/-- the average over the paths of a function of two states in a row -/
theorem sum_postStep (t : Nat) (f : Nat → Nat → ℝ) :
    ∑ s : Fin (T + 1) → Fin n, pathWeight π A b s / total n π A b T * f (s (Fin.ofNat (T + 1) t)) (s (Fin.ofNat (T + 1) (t + 1))) =
      ∑ i ∈ Finset.range n, ∑ j ∈ Finset.range n, postStep n π A b T t i j * f i j := by
  unfold postStep atStates
  simp only [Finset.sum_div, Finset.sum_mul]
  rw [Finset.sum_congr rfl fun i _ => Finset.sum_comm, Finset.sum_comm]
  refine Finset.sum_congr rfl fun s _ => ?_
  rw [Finset.sum_eq_single (s (Fin.ofNat (T + 1) t)).val]
  · rw [Finset.sum_eq_single (s (Fin.ofNat (T + 1) (t + 1))).val]
    · rw [if_pos ⟨rfl, rfl⟩]
    · intro i _ hi
      rw [if_neg (fun h => hi h.2.symm), zero_div, zero_mul]
    · intro h
      exact absurd (Finset.mem_range.2 (s (Fin.ofNat (T + 1) (t + 1))).isLt) h
  · intro i _ hi
    refine Finset.sum_eq_zero fun j _ => ?_
    rw [if_neg (fun h => hi h.1.symm), zero_div, zero_mul]
  · intro h
    exact absurd (Finset.mem_range.2 (s (Fin.ofNat (T + 1) t)).isLt) h

/-- a sequence does not start in a state that has no start probability -/
theorem post_start_zero {i : Nat} (h : π i = 0) : post n π A b T 0 i = 0 := by
  unfold post atState
  rw [Finset.sum_eq_zero, zero_div]
  intro s _
  by_cases hs : (s (Fin.ofNat (T + 1) 0) : Nat) = i
  · rw [if_pos hs]
    have : π (s 0) = 0 := by rw [show (s 0 : Nat) = i from hs]; exact h
    simp [pathWeight, this]
  · rw [if_neg hs]

/-- there is no transition of probability zero -/
theorem postStep_zero {t i j : Nat} (ht : t < T) (h : A i j = 0) : postStep n π A b T t i j = 0 := by
  unfold postStep atStates
  rw [Finset.sum_eq_zero, zero_div]
  intro s _
  by_cases hs : (s (Fin.ofNat (T + 1) t) : Nat) = i ∧ (s (Fin.ofNat (T + 1) (t + 1)) : Nat) = j
  · rw [if_pos hs]
    have e1 : Fin.ofNat (T + 1) t = Fin.castSucc ⟨t, ht⟩ := by
      ext; simp [Fin.ofNat, Nat.mod_eq_of_lt (show t < T + 1 by omega)]
    have e2 : Fin.ofNat (T + 1) (t + 1) = Fin.succ ⟨t, ht⟩ := by
      ext; simp [Fin.ofNat, Nat.mod_eq_of_lt (show t + 1 < T + 1 by omega)]
    rw [e1, e2] at hs
    have : (∏ t : Fin T, A (s t.castSucc) (s t.succ)) = 0 := Finset.prod_eq_zero (Finset.mem_univ ⟨t, ht⟩) (by rw [hs.1, hs.2]; exact h)
    simp [pathWeight, this]
  · rw [if_neg hs]

/-- what other parameters gain on one sequence: at least the average over the paths of the gains of their factors -/
theorem path_gain (hπ : ∀ i < n, 0 ≤ π i) (hπ' : ∀ i < n, 0 ≤ π' i) (hA : ∀ i < n, ∀ j < n, 0 ≤ A i j) (hA' : ∀ i < n, ∀ j < n, 0 ≤ A' i j)
    (hb : ∀ t ≤ T, ∀ i < n, 0 < b t i) (hb' : ∀ t ≤ T, ∀ i < n, 0 < b' t i) (htot : 0 < total n π A b T)
    (hpπ : ∀ i < n, 0 < post n π A b T 0 i → 0 < π' i) (hpA : ∀ t < T, ∀ i < n, ∀ j < n, 0 < postStep n π A b T t i j → 0 < A' i j) :
    Real.log (total n π A b T) + (∑ i ∈ Finset.range n, post n π A b T 0 i * (Real.log (π' i) - Real.log (π i)) +
      ∑ t ∈ Finset.range T, ∑ i ∈ Finset.range n, ∑ j ∈ Finset.range n, postStep n π A b T t i j * (Real.log (A' i j) - Real.log (A i j)) +
      ∑ t ∈ Finset.range (T + 1), ∑ i ∈ Finset.range n, post n π A b T t i * (Real.log (b' t i) - Real.log (b t i))) ≤
    Real.log (total n π' A' b' T) := by
  have w0 : ∀ s : Fin (T + 1) → Fin n, 0 ≤ pathWeight π A b s := fun s =>
    mul_nonneg (mul_nonneg (hπ _ (s 0).isLt) (Finset.prod_nonneg fun t _ => hA _ (s _).isLt _ (s _).isLt))
      (Finset.prod_nonneg fun t _ => (hb t (by omega) _ (s t).isLt).le)
  have w0' : ∀ s : Fin (T + 1) → Fin n, 0 ≤ pathWeight π' A' b' s := fun s =>
    mul_nonneg (mul_nonneg (hπ' _ (s 0).isLt) (Finset.prod_nonneg fun t _ => hA' _ (s _).isLt _ (s _).isLt))
      (Finset.prod_nonneg fun t _ => (hb' t (by omega) _ (s t).isLt).le)
  have ofT : ∀ t : Fin T, Fin.ofNat (T + 1) t.val = t.castSucc ∧ Fin.ofNat (T + 1) (t.val + 1) = t.succ := fun t => by
    constructor
    · ext; simp [Fin.ofNat, Nat.mod_eq_of_lt (show t.val < T + 1 by omega)]
    · ext; simp [Fin.ofNat, Nat.mod_eq_of_lt (show t.val + 1 < T + 1 by omega)]
  have ofT1 : ∀ t : Fin (T + 1), Fin.ofNat (T + 1) t.val = t := fun t => by
    ext; simp [Fin.ofNat, Nat.mod_eq_of_lt t.isLt]
  -- the factors of a possible path
  have fac : ∀ s : Fin (T + 1) → Fin n, 0 < pathWeight π A b s → 0 < π (s 0) ∧ ∀ t : Fin T, 0 < A (s t.castSucc) (s t.succ) := by
    intro s hs
    have h1 : π (s 0) ≠ 0 := fun h => by simp [pathWeight, h] at hs
    have h2 : (∏ t : Fin T, A (s t.castSucc) (s t.succ)) ≠ 0 := fun h => by simp [pathWeight, h] at hs
    refine ⟨lt_of_le_of_ne (hπ _ (s 0).isLt) h1.symm, fun t => lt_of_le_of_ne (hA _ (s _).isLt _ (s _).isLt) fun h => h2 ?_⟩
    exact Finset.prod_eq_zero (Finset.mem_univ t) h.symm
  have fac' : ∀ s : Fin (T + 1) → Fin n, 0 < pathWeight π A b s → 0 < π' (s 0) ∧ ∀ t : Fin T, 0 < A' (s t.castSucc) (s t.succ) := by
    intro s hs
    constructor
    · refine hpπ _ (s 0).isLt (div_pos ?_ htot)
      refine lt_of_lt_of_le hs ?_
      unfold atState
      have := Finset.single_le_sum (f := fun s' : Fin (T + 1) → Fin n => if (s' (Fin.ofNat (T + 1) 0) : Nat) = (s 0 : Nat) then pathWeight π A b s' else 0)
        (fun s' _ => by split_ifs; exacts [w0 s', le_refl _]) (Finset.mem_univ s)
      refine le_trans (le_of_eq ?_) this
      rw [if_pos]
      rfl
    · intro t
      refine hpA t.val t.isLt _ (s t.castSucc).isLt _ (s t.succ).isLt (div_pos ?_ htot)
      refine lt_of_lt_of_le hs ?_
      unfold atStates
      have := Finset.single_le_sum (f := fun s' : Fin (T + 1) → Fin n => if (s' (Fin.ofNat (T + 1) t.val) : Nat) = (s t.castSucc : Nat) ∧
          (s' (Fin.ofNat (T + 1) (t.val + 1)) : Nat) = (s t.succ : Nat) then pathWeight π A b s' else 0)
        (fun s' _ => by split_ifs; exacts [w0 s', le_refl _]) (Finset.mem_univ s)
      refine le_trans (le_of_eq ?_) this
      rw [if_pos]
      rw [(ofT t).1, (ofT t).2]
      exact ⟨rfl, rfl⟩
  have logw : ∀ (p : Nat → ℝ) (B : Nat → Nat → ℝ) (e : Nat → Nat → ℝ) (s : Fin (T + 1) → Fin n), 0 < p (s 0) → (∀ t : Fin T, 0 < B (s t.castSucc) (s t.succ)) →
      (∀ t ≤ T, ∀ i < n, 0 < e t i) → 0 < pathWeight p B e s ∧
      Real.log (pathWeight p B e s) = Real.log (p (s 0)) + ∑ t : Fin T, Real.log (B (s t.castSucc) (s t.succ)) + ∑ t : Fin (T + 1), Real.log (e t (s t)) := by
    intro p B e s h1 h2 h3
    have q2 : 0 < ∏ t : Fin T, B (s t.castSucc) (s t.succ) := Finset.prod_pos fun t _ => h2 t
    have q3 : 0 < ∏ t : Fin (T + 1), e t (s t) := Finset.prod_pos fun t _ => h3 t (by omega) _ (s t).isLt
    refine ⟨by unfold pathWeight; positivity, ?_⟩
    unfold pathWeight
    rw [Real.log_mul (mul_pos h1 q2).ne' q3.ne', Real.log_mul h1.ne' q2.ne', Real.log_prod fun t _ => (h2 t).ne',
      Real.log_prod fun (t : Fin (T + 1)) _ => (h3 t (by omega) _ (s t).isLt).ne']
  have j := log_sum_ge_of Finset.univ (fun s : Fin (T + 1) → Fin n => pathWeight π A b s) (fun s => pathWeight π' A' b' s) (fun s _ => w0 s) (fun s _ => w0' s)
    (fun s _ hs => (logw π' A' b' s (fac' s hs).1 (fac' s hs).2 hb').1) htot
  refine le_trans (le_of_eq ?_) j
  rw [show (∑ s : Fin (T + 1) → Fin n, pathWeight π A b s) = total n π A b T from rfl]
  congr 1
  have split : ∀ s : Fin (T + 1) → Fin n, pathWeight π A b s / total n π A b T * (Real.log (pathWeight π' A' b' s) - Real.log (pathWeight π A b s)) =
      pathWeight π A b s / total n π A b T * (Real.log (π' (s (Fin.ofNat (T + 1) 0))) - Real.log (π (s (Fin.ofNat (T + 1) 0)))) +
      ∑ t ∈ Finset.range T, pathWeight π A b s / total n π A b T * (Real.log (A' (s (Fin.ofNat (T + 1) t)) (s (Fin.ofNat (T + 1) (t + 1)))) -
        Real.log (A (s (Fin.ofNat (T + 1) t)) (s (Fin.ofNat (T + 1) (t + 1))))) +
      ∑ t ∈ Finset.range (T + 1), pathWeight π A b s / total n π A b T * (Real.log (b' t (s (Fin.ofNat (T + 1) t))) - Real.log (b t (s (Fin.ofNat (T + 1) t)))) := by
    intro s
    rcases (w0 s).eq_or_lt with h | h
    · rw [← h]; simp
    · rw [(logw π A b s (fac s h).1 (fac s h).2 hb).2, (logw π' A' b' s (fac' s h).1 (fac' s h).2 hb').2, ← Finset.mul_sum, ← Finset.mul_sum,
        ← mul_add, ← mul_add]
      congr 1
      rw [Finset.sum_range, Finset.sum_range]
      simp only [(ofT _).1, (ofT _).2, ofT1]
      rw [show Fin.ofNat (T + 1) 0 = 0 from rfl, Finset.sum_sub_distrib, Finset.sum_sub_distrib]
      ring
  rw [Finset.sum_congr rfl fun s _ => split s, Finset.sum_add_distrib, Finset.sum_add_distrib,
    Finset.sum_comm (s := Finset.univ) (t := Finset.range T), Finset.sum_comm (s := Finset.univ) (t := Finset.range (T + 1))]
  rw [sum_post π A b T 0 fun i => Real.log (π' i) - Real.log (π i)]
  congr 1
  · congr 1
    exact Finset.sum_congr rfl fun t _ => (sum_postStep π A b T t fun i j => Real.log (A' i j) - Real.log (A i j)).symm
  · exact Finset.sum_congr rfl fun t _ => (sum_post π A b T t fun i => Real.log (b' t i) - Real.log (b t i)).symm

end Paths
end Xmm
