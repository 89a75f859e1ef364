import Verif.Props.KMeansTrain
import Mathlib.Tactic.Ring
set_option linter.unusedSimpArgs false
set_option linter.unusedSectionVars false
/- k-means: the total squared distance never increases. -/
namespace Xmm.KMeans

theorem sum_sq_expand (l : List ℝ) (p : ℝ) :
    (l.map fun x => (x - p) ^ 2).sum = (l.map fun x => x ^ 2).sum - 2 * p * l.sum + (l.length : ℝ) * p ^ 2 := by
  induction l with
  | nil => simp
  | cons a l ih => simp only [List.map_cons, List.sum_cons, List.length_cons, ih]; push_cast; ring

/-- the mean minimises the sum of squared deviations -/
theorem mean_minimises (l : List ℝ) (hl : l ≠ []) (p : ℝ) :
    (l.map fun x => (x - l.sum / (l.length : ℝ)) ^ 2).sum ≤ (l.map fun x => (x - p) ^ 2).sum := by
  have hn : (0 : ℝ) < l.length := by exact_mod_cast List.length_pos_iff.2 hl
  rw [sum_sq_expand, sum_sq_expand]
  have h : l.sum = (l.length : ℝ) * (l.sum / (l.length : ℝ)) := by field_simp
  set m := l.sum / (l.length : ℝ) with hm
  have : 0 ≤ (l.length : ℝ) * (m - p) ^ 2 := mul_nonneg hn.le (sq_nonneg _)
  rw [h]
  nlinarith

open Classical in
/-- a sum over the frames, cluster by cluster -/
theorem sum_by_cluster {clusters dim : Nat} (c : List ℝ) (frames : List (List ℝ)) (a : List ℝ → Nat)
    (ha : ∀ x ∈ frames, Nearest clusters dim c x (a x)) (f : List ℝ → Nat → ℝ) :
    (frames.map fun x => f x (a x)).sum =
      ∑ k ∈ Finset.range clusters, ((members clusters dim c frames k).map fun x => f x k).sum := by
  induction frames with
  | nil => simp [members]
  | cons x l ih =>
    have hx := ha x List.mem_cons_self
    rw [List.map_cons, List.sum_cons, ih fun y hy => ha y (List.mem_cons_of_mem _ hy)]
    have hm : ∀ k, ((members clusters dim c (x :: l) k).map fun x => f x k).sum =
        (if k = a x then f x k else 0) + ((members clusters dim c l k).map fun x => f x k).sum := by
      intro k
      by_cases hk : k = a x
      · subst hk; simp [members, hx]
      · have : ¬ Nearest clusters dim c x k := fun h => hk (h.unique hx)
        simp [members, this, hk]
    rw [Finset.sum_congr rfl fun k _ => hm k, Finset.sum_add_distrib, Finset.sum_ite_eq', if_pos (Finset.mem_range.2 hx.1)]

theorem list_sum_finset (l : List (List ℝ)) (n : Nat) (g : List ℝ → Nat → ℝ) :
    (l.map fun x => ∑ d ∈ Finset.range n, g x d).sum = ∑ d ∈ Finset.range n, (l.map fun x => g x d).sum := by
  induction l with
  | nil => simp
  | cons a l ih => simp [ih, Finset.sum_add_distrib]

/-- C65: one iteration of k-means does not increase the total squared distance between the frames and their nearest
    centers. -/
theorem C65_inertia_decreases {σ : Type} (clusters dim : Nat) (prev c : List ℝ) (frames : List (List ℝ)) (s : σ)
    (hf : ∀ x ∈ frames, x.length = dim) (hp : prev.length = clusters * dim) (h1 : 1 ≤ clusters)
    (hc : updateCenters Real.sqrt prev clusters dim frames s = .ret c s)
    (a b : List ℝ → Nat) (ha : ∀ x ∈ frames, Nearest clusters dim prev x (a x))
    (hb : ∀ x ∈ frames, Nearest clusters dim c x (b x)) :
    inertia dim c frames b ≤ inertia dim prev frames a := by
  obtain ⟨_, c', e1, e2, e3⟩ := C34_update_is_mean clusters dim prev frames hf hp h1 s
  rw [hc] at e1
  obtain ⟨rfl, _⟩ := Res.ret.inj e1
  have step1 : inertia dim c frames b ≤ inertia dim c frames a :=
    List.sum_le_sum fun x hx => (hb x hx).2.1 _ (ha x hx).1
  refine step1.trans ?_
  unfold inertia
  rw [sum_by_cluster prev frames a ha fun x k => sqDist dim x c k,
    sum_by_cluster prev frames a ha fun x k => sqDist dim x prev k]
  refine Finset.sum_le_sum fun k hk => ?_
  have hk := Finset.mem_range.1 hk
  simp only [sqDist]
  rw [list_sum_finset, list_sum_finset]
  refine Finset.sum_le_sum fun d hd => ?_
  have hd := Finset.mem_range.1 hd
  rw [e3 k hk d hd]
  by_cases hm : members clusters dim prev frames k = []
  · simp [hm]
  · rw [if_neg hm]
    have := mean_minimises ((members clusters dim prev frames k).map fun x => x.getD d 0) (by simpa using hm)
      (center prev dim k d)
    simpa [meanOf, List.map_map, Function.comp_def] using this

open Classical in
/-- the hypotheses hold: every frame has a nearest center, before and after the iteration -/
example : ∃ (c : List ℝ) (a b : List ℝ → Nat), updateCenters Real.sqrt [0, 4] 2 1 [[0], [1], [5]] () = .ret c () ∧
    (∀ x ∈ [[0], [1], [5]], Nearest 2 1 [0, 4] x (a x)) ∧ ∀ x ∈ [[0], [1], [5]], Nearest 2 1 c x (b x) := by
  have hf : ∀ x ∈ ([[0], [1], [5]] : List (List ℝ)), x.length = 1 := by simp
  obtain ⟨h1, c, h2, h3, _⟩ := C34_update_is_mean 2 1 [0, 4] [[0], [1], [5]] hf rfl (by decide) ()
  obtain ⟨h4, _⟩ := C34_update_is_mean 2 1 c [[0], [1], [5]] hf h3 (by decide) ()
  refine ⟨c, fun x => if h : ∃ k, Nearest 2 1 [0, 4] x k then h.choose else 0,
    fun x => if h : ∃ k, Nearest 2 1 c x k then h.choose else 0, h2, fun x hx => ?_, fun x hx => ?_⟩
  · obtain ⟨k, hk, _⟩ := h1 x hx
    have h : ∃ k, Nearest 2 1 [0, 4] x k := ⟨k, hk⟩
    simp only [dif_pos h]; exact h.choose_spec
  · obtain ⟨k, hk, _⟩ := h4 x hx
    have h : ∃ k, Nearest 2 1 c x k := ⟨k, hk⟩
    simp only [dif_pos h]; exact h.choose_spec

end Xmm.KMeans
