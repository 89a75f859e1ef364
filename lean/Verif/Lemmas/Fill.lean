import Verif.Lemmas.Smoothing
set_option linter.unusedSectionVars false
/- Loops that write the cells of a vector one after the other. -/
namespace Xmm
open Phrase (loop)
open Gauss (rd rd_lt)
open Prog (bind_def pure_def get_def set_def modify_def throw_def undef_def)
variable {K : Type} [Field K] [LinearOrder K]

/-- A loop that writes `f t` into cell `t` and adds `g t` to its accumulator; `put l` is the state with the vector `l`. -/
theorem loop_fill_sum {σ : Type} (put : List K → σ) (n : Nat) (l0 : List K) (hl : l0.length = n) (f g : Nat → K)
    (body : K → Nat → Prog σ K)
    (h : ∀ t < n, ∀ (acc : K) (l : List K), l.length = n → (∀ c, t ≤ c → c < n → l.getD c 0 = l0.getD c 0) →
      (∀ c < t, l.getD c 0 = f c) → body acc t (put l) = .ret (acc + g t) (put (l.set t (f t)))) (z : K) :
    loop n z body (put l0) = .ret (z + ∑ t ∈ Finset.range n, g t) (put ((List.range n).map f)) := by
  obtain ⟨a, s, h1, l, h2, h3, h4, h5⟩ := loop_state n z body (put l0)
    (fun t a s => ∃ l : List K, s = put l ∧ a = z + ∑ i ∈ Finset.range t, g i ∧ l.length = n ∧
      ∀ c < n, l.getD c 0 = if c < t then f c else l0.getD c 0)
    ⟨l0, rfl, by simp, hl, fun c _ => by simp⟩ (by
      rintro t ht a s ⟨l, rfl, rfl, h3, h4⟩
      refine ⟨_, _, h t ht _ l h3 (fun c h1 h2 => by rw [h4 c h2, if_neg (by omega)])
        (fun c hc => by rw [h4 c (by omega), if_pos hc]), l.set t (f t), rfl, ?_, by simpa using h3, ?_⟩
      · rw [Finset.sum_range_succ, add_assoc]
      · intro c hc
        rw [getD_set _ _ _ _ _ (by omega), h4 c hc]
        by_cases h : c = t
        · rw [if_pos h, if_pos (by omega), h]
        · rw [if_neg h]
          by_cases h' : c < t
          · rw [if_pos h', if_pos (by omega)]
          · rw [if_neg h', if_neg (by omega)])
  rw [h1, h2, h3, eq_map_range_of_getD l n f h4 fun i hi => by rw [h5 i hi, if_pos hi]]

/-- A loop that writes `f t` into cell `t`. -/
theorem loop_fill {σ : Type} (put : List K → σ) (n : Nat) (l0 : List K) (hl : l0.length = n) (f : Nat → K)
    (body : Nat → Prog σ Unit)
    (h : ∀ t < n, ∀ (l : List K), l.length = n → (∀ c, t ≤ c → c < n → l.getD c 0 = l0.getD c 0) →
      (∀ c < t, l.getD c 0 = f c) → body t (put l) = .ret () (put (l.set t (f t)))) :
    loop n () (fun _ t => body t) (put l0) = .ret () (put ((List.range n).map f)) := by
  obtain ⟨a, s, h1, l, h2, h4, h5⟩ := loop_state n () (fun _ t => body t) (put l0)
    (fun t _ s => ∃ l : List K, s = put l ∧ l.length = n ∧ ∀ c < n, l.getD c 0 = if c < t then f c else l0.getD c 0)
    ⟨l0, rfl, hl, fun c _ => by simp⟩ (by
      rintro t ht a s ⟨l, rfl, h3, h4⟩
      refine ⟨_, _, h t ht l h3 (fun c h1 h2 => by rw [h4 c h2, if_neg (by omega)])
        (fun c hc => by rw [h4 c (by omega), if_pos hc]), l.set t (f t), rfl, by simpa using h3, ?_⟩
      intro c hc
      rw [getD_set _ _ _ _ _ (by omega), h4 c hc]
      by_cases h : c = t
      · rw [if_pos h, if_pos (by omega), h]
      · rw [if_neg h]
        by_cases h' : c < t
        · rw [if_pos h', if_pos (by omega)]
        · rw [if_neg h', if_neg (by omega)])
  rw [h1, h2, eq_map_range_of_getD l n f h4 fun i hi => by rw [h5 i hi, if_pos hi]]

/-- a list is the list of its values -/
theorem eq_map_getD (l : List K) (n : Nat) (h : l.length = n) : l = (List.range n).map fun i => l.getD i 0 :=
  eq_map_range_of_getD l n _ h fun _ _ => rfl

end Xmm
