import Verif.Spec.Hmm
import Mathlib.Algebra.BigOperators.Fin
import Mathlib.Tactic.Ring
/- Sums over state paths satisfy the forward recursion. -/
namespace Xmm.HmmSpec
variable {K : Type} [Field K] [LinearOrder K]

theorem pathWeight_snoc {n : Nat} (π : Nat → K) (A : Nat → Nat → K) (b : Nat → Nat → K) {T : Nat} (s : Fin (T + 1) → Fin n) (j : Fin n) :
    pathWeight π A b (Fin.snoc (α := fun _ => Fin n) s j : Fin (T + 2) → Fin n) =
      pathWeight π A b s * A (s (Fin.last T)) j * b (T + 1) j := by
  unfold pathWeight
  rw [Fin.prod_univ_castSucc (n := T + 1), Fin.prod_univ_castSucc (n := T)]
  have h0 : (Fin.snoc (α := fun _ => Fin n) s j : Fin (T + 2) → Fin n) 0 = s 0 := by
    have := Fin.snoc_castSucc (α := fun _ : Fin (T + 2) => Fin n) (x := j) (p := s) (i := 0)
    simpa using this
  have hc : ∀ t : Fin (T + 1), (Fin.snoc (α := fun _ => Fin n) s j : Fin (T + 2) → Fin n) t.castSucc = s t := fun t => by simp
  have hl : (Fin.snoc (α := fun _ => Fin n) s j : Fin (T + 2) → Fin n) (Fin.last (T + 1)) = j := by simp
  have hlast : (Fin.last T).succ = Fin.last (T + 1) := rfl
  have hs : ∀ t : Fin T, (Fin.snoc (α := fun _ => Fin n) s j : Fin (T + 2) → Fin n) (t.castSucc).succ = s t.succ := fun t => by
    have : (t.castSucc).succ = (t.succ).castSucc := rfl
    rw [this, hc]
  simp only [h0, hc, hl, hlast, hs, Fin.val_castSucc, Fin.val_last]
  ring

theorem endingIn_zero (n : Nat) (π : Nat → K) (A : Nat → Nat → K) (b : Nat → Nat → K) (j : Nat) (hj : j < n) :
    endingIn n π A b 0 j = π j * b 0 j := by
  unfold endingIn
  rw [Finset.sum_eq_single (fun _ => (⟨j, hj⟩ : Fin n))]
  · simp [pathWeight]
  · intro s _ hs
    rw [if_neg]
    intro h
    apply hs
    funext t
    have : t = Fin.last 0 := by ext; simp
    rw [this]; exact Fin.ext h
  · intro h; exact absurd (Finset.mem_univ _) h

theorem total_eq_sum (n : Nat) (π : Nat → K) (A : Nat → Nat → K) (b : Nat → Nat → K) (T : Nat) :
    total n π A b T = ∑ j ∈ Finset.range n, endingIn n π A b T j := by
  unfold total endingIn
  rw [Finset.sum_comm]
  refine Finset.sum_congr rfl fun s _ => ?_
  rw [Finset.sum_ite_eq, if_pos (Finset.mem_range.2 (s (Fin.last T)).2)]

/-- the forward recursion -/
theorem endingIn_succ (n : Nat) (π : Nat → K) (A : Nat → Nat → K) (b : Nat → Nat → K) (T j : Nat) (hj : j < n) :
    endingIn n π A b (T + 1) j = (∑ i ∈ Finset.range n, endingIn n π A b T i * A i j) * b (T + 1) j := by
  have h1 : endingIn n π A b (T + 1) j =
      ∑ p : Fin n × (Fin (T + 1) → Fin n), if (p.1 : Nat) = j then pathWeight π A b p.2 * A (p.2 (Fin.last T)) p.1 * b (T + 1) p.1 else 0 := by
    unfold endingIn
    rw [← Equiv.sum_comp (Fin.snocEquiv (fun _ : Fin (T + 2) => Fin n))]
    refine Finset.sum_congr rfl fun p _ => ?_
    have hp : (Fin.snocEquiv fun _ : Fin (T + 2) => Fin n) p = (Fin.snoc (α := fun _ => Fin n) p.2 p.1 : Fin (T + 2) → Fin n) := by
      funext t; rfl
    rw [hp, pathWeight_snoc]
    simp
  rw [h1, Fintype.sum_prod_type, Finset.sum_eq_single (⟨j, hj⟩ : Fin n)]
  · simp only [if_true]
    rw [Finset.sum_mul]
    have h2 : ∀ i ∈ Finset.range n, endingIn n π A b T i * A i j * b (T + 1) j =
        ∑ s : Fin (T + 1) → Fin n, if (s (Fin.last T) : Nat) = i then pathWeight π A b s * A i j * b (T + 1) j else 0 := by
      intro i _
      unfold endingIn
      rw [Finset.sum_mul, Finset.sum_mul]
      refine Finset.sum_congr rfl fun s _ => ?_
      split <;> simp
    rw [Finset.sum_congr rfl h2, Finset.sum_comm]
    refine Finset.sum_congr rfl fun s _ => ?_
    rw [Finset.sum_ite_eq, if_pos (Finset.mem_range.2 (s (Fin.last T)).2)]
  · intro k _ hk
    refine Finset.sum_eq_zero fun s _ => ?_
    rw [if_neg]
    intro h; exact hk (Fin.ext h)
  · intro h; exact absurd (Finset.mem_univ _) h

end Xmm.HmmSpec
