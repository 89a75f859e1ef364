import Verif.Lemmas.Gaussian
/- Loops by invariants. -/
namespace Xmm
open Phrase (loop)

theorem bind_of_ret {σ α β : Type} {p : Prog σ α} {f : α → Prog σ β} {s s' : σ} {a : α} (h : p s = .ret a s') :
    (p >>= f) s = f a s' := by
  rw [Prog.bind_def, h]

/-- a loop that leaves the state alone, by an invariant on the accumulator -/
theorem loop_inv {σ α : Type} (n : Nat) (init : α) (body : α → Nat → Prog σ α) (s : σ) (I : Nat → α → Prop) (h0 : I 0 init)
    (hstep : ∀ t < n, ∀ a, I t a → ∃ a', body a t s = .ret a' s ∧ I (t + 1) a') :
    ∃ a, loop n init body s = .ret a s ∧ I n a := by
  induction n with
  | zero => exact ⟨init, rfl, h0⟩
  | succ n ih =>
    obtain ⟨a, h1, h2⟩ := ih fun t ht => hstep t (by omega)
    obtain ⟨a', h3, h4⟩ := hstep n (by omega) a h2
    exact ⟨a', by rw [loop_succ, h1]; exact h3, h4⟩

/-- a loop over a list that leaves the state alone, by an invariant on the elements already visited -/
theorem foldlM_inv {σ α β : Type} (l : List β) (init : α) (body : α → β → Prog σ α) (s : σ) (I : List β → α → Prop)
    (h0 : I [] init)
    (hstep : ∀ pre b, b ∈ l → ∀ a, I pre a → ∃ a', body a b s = .ret a' s ∧ I (pre ++ [b]) a') :
    ∃ a, (l.foldlM body init : Prog σ α) s = .ret a s ∧ I l a := by
  have gen : ∀ (l pre : List β) (init : α), I pre init →
      (∀ pre b, b ∈ l → ∀ a, I pre a → ∃ a', body a b s = .ret a' s ∧ I (pre ++ [b]) a') →
      ∃ a, (l.foldlM body init : Prog σ α) s = .ret a s ∧ I (pre ++ l) a := by
    intro l
    induction l with
    | nil => intro pre init h _; exact ⟨init, rfl, by simpa using h⟩
    | cons b l ih =>
      intro pre init h hs
      obtain ⟨a', h1, h2⟩ := hs pre b List.mem_cons_self init h
      obtain ⟨a, h3, h4⟩ := ih (pre ++ [b]) a' h2 fun pre c hc => hs pre c (List.mem_cons_of_mem _ hc)
      refine ⟨a, ?_, by simpa using h4⟩
      simp only [List.foldlM_cons, Prog.bind_def, h1]
      exact h3
  simpa using gen l [] init h0 hstep

/-- reading a list after a write -/
theorem getD_set {α : Type} (l : List α) (i j : Nat) (v z : α) (hi : i < l.length) :
    (l.set i v).getD j z = if j = i then v else l.getD j z := by
  by_cases h : j = i
  · subst h
    simp [List.getD_eq_getElem?_getD, List.getElem?_set_self hi]
  · rw [if_neg h, List.getD_eq_getElem?_getD, List.getElem?_set_ne (Ne.symm h), ← List.getD_eq_getElem?_getD]

/-- cells of a row-major array are distinct -/
theorem cell_inj {n k d k' d' : Nat} (hd : d < n) (hd' : d' < n) (h : k * n + d = k' * n + d') : k = k' ∧ d = d' := by
  have q1 : (k * n + d) / n = k := by
    rw [Nat.mul_comm, Nat.mul_add_div (by omega), Nat.div_eq_of_lt hd, Nat.add_zero]
  have q2 : (k' * n + d') / n = k' := by
    rw [Nat.mul_comm, Nat.mul_add_div (by omega), Nat.div_eq_of_lt hd', Nat.add_zero]
  have : k = k' := by rw [← q1, h, q2]
  subst this
  exact ⟨rfl, by omega⟩

theorem getD_replicate {α : Type} (n j : Nat) (z : α) : (List.replicate n z).getD j z = z := by
  simp only [List.getD_eq_getElem?_getD, List.getElem?_replicate]
  split <;> rfl

end Xmm
