import Verif.Model.Flat
import Mathlib.Algebra.BigOperators.Fin
namespace Xmm

@[simp] theorem sumLoop_eq_sum {K : Type*} [AddCommMonoid K] (n : Nat) (f : Fin n → K) :
    sumLoop n f = ∑ k, f k := by
  unfold sumLoop
  induction n with
  | zero => simp
  | succ n ih => rw [Fin.foldl_succ_last, ih, Fin.sum_univ_castSucc]

@[simp] theorem Flat.at_fill {K : Type*} {r c : Nat} (f : Fin r → Fin c → K) (i : Fin r) (j : Fin c) :
    (Flat.fill r c f).at i j = f i j := by
  have hc : 0 < c := Nat.lt_of_le_of_lt (Nat.zero_le _) j.isLt
  unfold Flat.at Flat.fill
  congr 1
  · apply Fin.ext
    show (i.val * c + j.val) / c = i.val
    rw [Nat.add_comm, Nat.add_mul_div_right _ _ hc, Nat.div_eq_of_lt j.isLt, Nat.zero_add]
  · apply Fin.ext
    show (i.val * c + j.val) % c = j.val
    rw [Nat.mul_add_mod_self_right, Nat.mod_eq_of_lt j.isLt]

theorem Flat.ext {K : Type*} {r c : Nat} {a b : Flat K r c} (h : ∀ i j, a.at i j = b.at i j) : a = b := by
  funext p
  have := h ⟨p.val / c, flat_div_lt p.isLt⟩ ⟨p.val % c, flat_mod_lt p.isLt⟩
  unfold Flat.at at this
  convert this using 2 <;> exact Fin.ext (Nat.div_add_mod' p.val c).symm

end Xmm
