import Verif.Lemmas.Calm
import Mathlib.Data.List.Flatten
import Mathlib.Algebra.BigOperators.Group.List.Basic
/- Lists that contain every element of another list a number of times more. -/
namespace Xmm
open Prog (bind_def pure_def get_def set_def modify_def throw_def undef_def)

/-- `l'` is `k` copies of `l`, in any order -/
def Copies {α : Type} (k : Nat) (l l' : List α) : Prop := l'.Perm (List.replicate k l).flatten

namespace Copies
variable {α β : Type} {k : Nat} {l l' : List α}

theorem map (h : Copies k l l') (f : α → β) : Copies k (l.map f) (l'.map f) := by
  have := List.Perm.map f h
  rwa [List.map_flatten, List.map_replicate] at this

theorem filter (h : Copies k l l') (p : α → Bool) : Copies k (l.filter p) (l'.filter p) := by
  have := List.Perm.filter p h
  rwa [List.filter_flatten, List.map_replicate] at this

theorem flatten {l l' : List (List α)} (h : Copies k l l') : Copies k l.flatten l'.flatten := by
  have := List.Perm.flatten h
  rwa [List.flatten_flatten, List.map_replicate] at this

theorem length (h : Copies k l l') : l'.length = k * l.length := by
  rw [h.length_eq]
  simp

theorem sum [AddCommMonoid α] (h : Copies k l l') : l'.sum = k • l.sum := by
  rw [h.sum_eq, List.sum_flatten, List.map_replicate, List.sum_replicate]

theorem mem (h : Copies k l l') (hk : 1 ≤ k) {x : α} : x ∈ l' ↔ x ∈ l := by
  rw [h.mem_iff, List.mem_flatten]
  constructor
  · rintro ⟨m, hm, hx⟩
    rw [(List.mem_replicate.1 hm).2] at hx
    exact hx
  · intro hx
    exact ⟨l, List.mem_replicate.2 ⟨by omega, rfl⟩, hx⟩

theorem eq_nil (h : Copies k l l') (hk : 1 ≤ k) : l' = [] ↔ l = [] := by
  simp only [List.eq_nil_iff_forall_not_mem, h.mem hk]

end Copies

section sums
variable {σ β K : Type} [AddCommMonoid K]

theorem sumM_ret {g : β → Prog σ K} {v : β → K} : ∀ {l : List β}, (∀ e ∈ l, ∀ s, g e s = .ret (v e) s) → ∀ (a : K) (s : σ), l.foldlM (addTo g) a s = .ret (a + (l.map v).sum) s
  | [], _, a, s => by simp [pure_def]
  | e :: l, h, a, s => by
    rw [List.foldlM_cons, bind_of_ret (a := a + v e) (s' := s) (by simp only [addTo, bind_def, h e List.mem_cons_self, pure_def]),
      sumM_ret (fun x hx => h x (List.mem_cons_of_mem _ hx))]
    rw [List.map_cons, List.sum_cons, add_assoc]

theorem sumM_ub {g : β → Prog σ K} (hg : ∀ e, (g e).Calm) : ∀ {l : List β}, (∃ e ∈ l, ∀ s, g e s = .ub) → ∀ (a : K) (s : σ), l.foldlM (addTo g) a s = .ub
  | [], h, _, _ => by simp at h
  | x :: l, h, a, s => by
    rw [List.foldlM_cons, bind_def]
    rcases hg x with ⟨v, hv⟩ | hv
    · simp only [addTo, bind_def, hv, pure_def]
      refine sumM_ub hg ?_ _ s
      obtain ⟨e, he, hu⟩ := h
      rcases List.mem_cons.1 he with rfl | he
      · have := hu s
        rw [hv s] at this
        cases this
      · exact ⟨e, he, hu⟩
    · simp only [addTo, bind_def, hv]

/-- the sum over the copies is a multiple of the sum -/
theorem sumM_copies {g : β → Prog σ K} (hg : ∀ e, (g e).Calm) {k : Nat} (hk : 1 ≤ k) {l l' : List β} (h : Copies k l l') :
    (∃ S, (∀ a s, l.foldlM (addTo g) a s = .ret (a + S) s) ∧ ∀ a s, l'.foldlM (addTo g) a s = .ret (a + k • S) s) ∨
      ((∀ a s, l.foldlM (addTo g) a s = .ub) ∧ ∀ a s, l'.foldlM (addTo g) a s = .ub) := by
  classical
  by_cases hu : ∃ e ∈ l, ∀ s, g e s = .ub
  · refine Or.inr ⟨sumM_ub hg hu, sumM_ub hg ?_⟩
    obtain ⟨e, he, hu⟩ := hu
    exact ⟨e, (h.mem hk).2 he, hu⟩
  · have hv : ∀ e ∈ l, ∃ v, ∀ s, g e s = .ret v s := fun e he => by
      rcases hg e with hv | hv
      · exact hv
      · exact absurd ⟨e, he, hv⟩ hu
    let v : β → K := fun e => if h : ∃ v, ∀ s, g e s = .ret v s then h.choose else 0
    have hr : ∀ e ∈ l, ∀ s, g e s = .ret (v e) s := fun e he => by
      have := hv e he
      simp only [v, dif_pos this]
      exact this.choose_spec
    refine Or.inl ⟨(l.map v).sum, sumM_ret hr, fun a s => ?_⟩
    rw [sumM_ret (v := v) fun e he => hr e ((h.mem hk).1 he), (h.map v).sum]

end sums
end Xmm
