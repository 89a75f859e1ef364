import Mathlib.Algebra.Group.Defs
import Mathlib.Data.Fin.Basic
import Mathlib.Tactic.Linarith
import Mathlib.Tactic.Ring
/-
Vocabulary for numeric loops over flat C arrays (see DESIGN.md, "Modelling conventions").
-/
namespace Xmm

/-- `acc = 0; for (k = 0; k < n; k++) acc += f(k);` -/
def sumLoop {K : Type*} [Zero K] [Add K] (n : Nat) (f : Fin n → K) : K :=
  Fin.foldl n (fun acc k => acc + f k) 0

theorem flat_lt {r c i j : Nat} (hi : i < r) (hj : j < c) : i * c + j < r * c := by
  calc i * c + j < i * c + c := by omega
    _ = (i + 1) * c := by ring
    _ ≤ r * c := Nat.mul_le_mul_right c hi

/-- A flat row-major array of `r` rows of `c` values: entry `(i,j)` is at index `i * c + j`, the index being
    checked against the array size when the term is elaborated. -/
abbrev Flat (K : Type*) (r c : Nat) := Fin (r * c) → K

/-- `data[i * c + j]` -/
def Flat.at {K : Type*} {r c : Nat} (a : Flat K r c) (i : Fin r) (j : Fin c) : K :=
  a ⟨i.val * c + j.val, flat_lt i.isLt j.isLt⟩

theorem flat_div_lt {r c p : Nat} (h : p < r * c) : p / c < r :=
  Nat.div_lt_of_lt_mul (by rwa [Nat.mul_comm] at h)

theorem flat_mod_lt {r c p : Nat} (h : p < r * c) : p % c < c :=
  Nat.mod_lt _ (by rcases Nat.eq_zero_or_pos c with rfl | h' ; simp at h; exact h')

/-- `for (i = 0; i < r; i++) for (j = 0; j < c; j++) out[i * c + j] = f(i, j);`
    (every cell is written exactly once) -/
def Flat.fill {K : Type*} (r c : Nat) (f : Fin r → Fin c → K) : Flat K r c := fun p =>
  f ⟨p.val / c, flat_div_lt p.isLt⟩ ⟨p.val % c, flat_mod_lt p.isLt⟩

end Xmm
