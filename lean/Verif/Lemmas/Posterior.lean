import Verif.Lemmas.Paths
import Mathlib.Algebra.BigOperators.Field
import Verif.Spec.BaumWelch
/- Sums over the paths through a state: forward times backward. -/
namespace Xmm.HmmSpec
variable {K : Type} [Field K] [LinearOrder K] (n : Nat) (π : Nat → K) (A : Nat → Nat → K) (b : Nat → Nat → K)

/-- the sum over the paths of `d` more states from `i` at time `t` -/
def onward : Nat → Nat → Nat → K
  | _, 0, _ => 1
  | t, d + 1, i => ∑ j ∈ Finset.range n, A i j * b (t + 1) j * onward (t + 1) d j

/-- one step back from the weights `f` at time `t + 1` -/
def back (t : Nat) (f : Nat → K) (i : Nat) : K := ∑ j ∈ Finset.range n, A i j * b (t + 1) j * f j

/-- `d` steps back to time `t` -/
def backs : Nat → Nat → (Nat → K) → Nat → K
  | _, 0, f => f
  | t, d + 1, f => back n A b t (backs (t + 1) d f)

theorem onward_eq (d t i : Nat) : onward n A b t d i = backs n A b t d (fun _ => 1) i := by
  induction d generalizing t i with
  | zero => rfl
  | succ d ih =>
    simp only [onward, backs, back]
    exact Finset.sum_congr rfl fun j _ => by rw [ih]

theorem backs_last (d t : Nat) (f : Nat → K) : backs n A b t d (back n A b (t + d) f) = backs n A b t (d + 1) f := by
  induction d generalizing t with
  | zero => rfl
  | succ d ih =>
    have := ih (t + 1)
    rw [show t + 1 + d = t + (d + 1) by omega] at this
    rw [backs, this]; rfl

/-- the sum over the paths with a property, weighted by the last state -/
def throughF (T : Nat) (P : (Fin (T + 1) → Fin n) → Prop) [DecidablePred P] (f : Nat → K) : K :=
  ∑ s : Fin (T + 1) → Fin n, if P s then pathWeight π A b s * f (s (Fin.last T)) else 0

theorem throughF_succ (T : Nat) (P : (Fin (T + 2) → Fin n) → Prop) [DecidablePred P] (Q : (Fin (T + 1) → Fin n) → Prop) [DecidablePred Q]
    (h : ∀ s j, P (Fin.snoc (α := fun _ => Fin n) s j) ↔ Q s) (f : Nat → K) :
    throughF n π A b (T + 1) P f = throughF n π A b T Q (back n A b T f) := by
  unfold throughF
  rw [← Equiv.sum_comp (Fin.snocEquiv (fun _ : Fin (T + 2) => Fin n)), Fintype.sum_prod_type, Finset.sum_comm]
  refine Finset.sum_congr rfl fun s _ => ?_
  have hp : ∀ j, (Fin.snocEquiv fun _ : Fin (T + 2) => Fin n) (j, s) = (Fin.snoc (α := fun _ => Fin n) s j : Fin (T + 2) → Fin n) := by
    intro j; funext t; rfl
  simp only [hp, h]
  by_cases hq : Q s
  · simp only [hq, if_true]
    rw [back, Finset.mul_sum, Finset.sum_range]
    refine Finset.sum_congr rfl fun j _ => ?_
    rw [pathWeight_snoc]
    simp only [Fin.snoc_last]
    ring
  · simp [hq]

theorem ofNat_last (T : Nat) : Fin.ofNat (T + 1) T = Fin.last T := by ext; simp

theorem ofNat_castSucc {T t : Nat} (h : t ≤ T) : Fin.ofNat (T + 2) t = (Fin.ofNat (T + 1) t).castSucc := by
  ext
  simp [Nat.mod_eq_of_lt (show t < T + 1 by omega), Nat.mod_eq_of_lt (show t < T + 2 by omega)]

theorem through_eq (T t : Nat) (ht : t ≤ T) (i : Nat) (f : Nat → K) :
    throughF n π A b T (fun s => (s (Fin.ofNat (T + 1) t) : Nat) = i) f = endingIn n π A b t i * backs n A b t (T - t) f i := by
  induction T generalizing f with
  | zero =>
    obtain rfl : t = 0 := by omega
    simp only [throughF, endingIn, Finset.sum_mul, Nat.sub_zero, backs, ofNat_last]
    refine Finset.sum_congr rfl fun s _ => ?_
    split
    · next h => rw [h]
    · simp
  | succ T ih =>
    by_cases h : t = T + 1
    · subst h
      simp only [throughF, endingIn, Finset.sum_mul, Nat.sub_self, backs, ofNat_last]
      refine Finset.sum_congr rfl fun s _ => ?_
      split
      · next h => rw [h]
      · simp
    · have ht' : t ≤ T := by omega
      rw [throughF_succ n π A b T _ (fun s => (s (Fin.ofNat (T + 1) t) : Nat) = i) (by
        intro s j; rw [ofNat_castSucc ht', Fin.snoc_castSucc]), ih ht', show T + 1 - t = (T - t) + 1 by omega,
        ← backs_last n A b (T - t) t f, show t + (T - t) = T by omega]

/-- forward times backward -/
theorem atState_eq (T t : Nat) (ht : t ≤ T) (i : Nat) :
    atState n π A b T t i = endingIn n π A b t i * onward n A b t (T - t) i := by
  rw [onward_eq, ← through_eq n π A b T t ht i]
  simp [atState, throughF]

theorem through2_eq (T t : Nat) (ht : t < T) (i j : Nat) (hi : i < n) (hj : j < n) (f : Nat → K) :
    throughF n π A b T (fun s => (s (Fin.ofNat (T + 1) t) : Nat) = i ∧ (s (Fin.ofNat (T + 1) (t + 1)) : Nat) = j) f =
      endingIn n π A b t i * A i j * b (t + 1) j * backs n A b (t + 1) (T - (t + 1)) f j := by
  induction T generalizing f with
  | zero => omega
  | succ T ih =>
    by_cases h : t = T
    · subst h
      unfold throughF
      rw [← Equiv.sum_comp (Fin.snocEquiv (fun _ : Fin (t + 2) => Fin n)), Fintype.sum_prod_type, Finset.sum_comm]
      have hp : ∀ k s, (Fin.snocEquiv fun _ : Fin (t + 2) => Fin n) (k, s) = (Fin.snoc (α := fun _ => Fin n) s k : Fin (t + 2) → Fin n) := by
        intro j s; funext t; rfl
      simp only [hp, ofNat_castSucc le_rfl, ofNat_last, Fin.snoc_castSucc, Fin.snoc_last, pathWeight_snoc, Nat.sub_self, backs]
      rw [endingIn, Finset.sum_mul, Finset.sum_mul, Finset.sum_mul]
      refine Finset.sum_congr rfl fun s _ => ?_
      rw [Finset.sum_eq_single (⟨j, hj⟩ : Fin n)]
      · by_cases hs : (s (Fin.last t) : Nat) = i
        · simp [hs]
        · simp [hs]
      · intro k _ hk
        rw [if_neg]
        rintro ⟨-, e⟩; exact hk (Fin.ext e)
      · intro h; exact absurd (Finset.mem_univ _) h
    · have ht' : t < T := by omega
      rw [throughF_succ n π A b T _ (fun s => (s (Fin.ofNat (T + 1) t) : Nat) = i ∧ (s (Fin.ofNat (T + 1) (t + 1)) : Nat) = j) (by
        intro s k; rw [ofNat_castSucc ht'.le, ofNat_castSucc (show t + 1 ≤ T by omega), Fin.snoc_castSucc, Fin.snoc_castSucc]), ih ht',
        show T + 1 - (t + 1) = (T - (t + 1)) + 1 by omega, ← backs_last n A b (T - (t + 1)) (t + 1) f,
        show t + 1 + (T - (t + 1)) = T by omega]

theorem atStates_eq (T t : Nat) (ht : t < T) (i j : Nat) (hi : i < n) (hj : j < n) :
    atStates n π A b T t i j = endingIn n π A b t i * A i j * b (t + 1) j * onward n A b (t + 1) (T - (t + 1)) j := by
  rw [onward_eq, ← through2_eq n π A b T t ht i j hi hj]
  simp [atStates, throughF]

/-- the posterior probabilities of the states sum to one -/
theorem post_sum (T t : Nat) (h : total n π A b T ≠ 0) : ∑ i ∈ Finset.range n, post n π A b T t i = 1 := by
  unfold post
  rw [← Finset.sum_div]
  rw [div_eq_one_iff_eq h]
  unfold atState total
  rw [Finset.sum_comm]
  refine Finset.sum_congr rfl fun s _ => ?_
  rw [Finset.sum_ite_eq, if_pos (Finset.mem_range.2 (s _).2)]

/-- the posterior probabilities of the transitions out of a state sum to that of the state -/
theorem postStep_sum (T t i : Nat) : ∑ j ∈ Finset.range n, postStep n π A b T t i j = post n π A b T t i := by
  unfold post postStep
  rw [← Finset.sum_div]
  congr 1
  unfold atState atStates
  rw [Finset.sum_comm]
  refine Finset.sum_congr rfl fun s _ => ?_
  by_cases hs : (s (Fin.ofNat (T + 1) t) : Nat) = i
  · simp only [hs, true_and, if_true]
    rw [Finset.sum_ite_eq, if_pos (Finset.mem_range.2 (s _).2)]
  · simp only [hs, false_and, if_false, Finset.sum_const_zero]

/-- the posterior probabilities of the transitions into a state sum to that of the state -/
theorem postStep_sum_into (T t j : Nat) : ∑ i ∈ Finset.range n, postStep n π A b T t i j = post n π A b T (t + 1) j := by
  unfold post postStep
  rw [← Finset.sum_div]
  congr 1
  unfold atState atStates
  rw [Finset.sum_comm]
  refine Finset.sum_congr rfl fun s _ => ?_
  by_cases hs : (s (Fin.ofNat (T + 1) (t + 1)) : Nat) = j
  · simp only [hs, and_true, if_true]
    rw [Finset.sum_ite_eq, if_pos (Finset.mem_range.2 (s _).2)]
  · simp only [hs, and_false, if_false, Finset.sum_const_zero]

end Xmm.HmmSpec
