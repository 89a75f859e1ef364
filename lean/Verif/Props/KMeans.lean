import Verif.Spec.KMeans
import Verif.Lemmas.Loop
import Mathlib.Analysis.SpecialFunctions.Sqrt
import Mathlib.Tactic.Linarith
import Mathlib.Tactic.FieldSimp
import Mathlib.Tactic.NormNum
set_option linter.unusedSimpArgs false
set_option linter.unusedSectionVars false
/- k-means: assignment, centers, training. -/
namespace Xmm.KMeans
open Phrase (loop)
open Gauss (rd resize rd_lt loop_sum)
open Prog (bind_def pure_def get_def set_def modify_def throw_def undef_def)

theorem dist_ret {σ : Type} (a : List ℝ) (ia : Nat) (b : List ℝ) (ib dim : Nat) (ha : ia + dim ≤ a.length)
    (hb : ib + dim ≤ b.length) (s : σ) :
    dist Real.sqrt a ia b ib dim s =
      .ret (Real.sqrt (∑ d ∈ Finset.range dim, (a.getD (ia + d) 0 - b.getD (ib + d) 0) ^ 2)) s := by
  have h := loop_sum dim (0 : ℝ) (fun acc d => do
      let x ← rd a (ia + d)
      let y ← rd b (ib + d)
      pure (acc + (x - y) * (x - y)))
    (fun d => (a.getD (ia + d) 0 - b.getD (ib + d) 0) ^ 2) s (by
      intro acc d hd
      simp only [bind_def, pure_def]
      rw [rd_lt (by omega) 0]
      simp only
      rw [rd_lt (by omega) 0]
      simp [sq])
  simp only [dist, bind_def, h, pure_def, zero_add]

theorem cell_le {clusters dim k : Nat} (hk : k < clusters) : k * dim + dim ≤ clusters * dim := by
  calc k * dim + dim = (k + 1) * dim := by rw [Nat.succ_mul]
    _ ≤ clusters * dim := Nat.mul_le_mul_right _ hk

theorem dist_frame {σ : Type} {clusters dim k : Nat} (x c : List ℝ) (hx : x.length = dim)
    (hc : c.length = clusters * dim) (hk : k < clusters) (s : σ) :
    dist Real.sqrt x 0 c (k * dim) dim s = .ret (Real.sqrt (sqDist dim x c k)) s := by
  rw [dist_ret _ _ _ _ _ (by omega) (by rw [hc]; exact cell_le hk)]
  simp [sqDist, center]

theorem sqDist_nonneg (dim : Nat) (x c : List ℝ) (k : Nat) : 0 ≤ sqDist dim x c k :=
  Finset.sum_nonneg fun _ _ => sq_nonneg _

theorem sqrt_lt_iff (dim : Nat) (x c : List ℝ) (k j : Nat) :
    Real.sqrt (sqDist dim x c k) < Real.sqrt (sqDist dim x c j) ↔ sqDist dim x c k < sqDist dim x c j :=
  Real.sqrt_lt_sqrt_iff (sqDist_nonneg _ _ _ _)

theorem nearest_ret {σ : Type} {clusters dim : Nat} (prev x : List ℝ) (hx : x.length = dim)
    (hp : prev.length = clusters * dim) (h1 : 1 ≤ clusters) (s : σ) :
    ∃ k, nearest Real.sqrt prev x clusters dim s = .ret k s ∧ Nearest clusters dim prev x k := by
  have h0 := dist_frame (σ := σ) x prev hx hp (k := 0) (by omega) s
  rw [Nat.zero_mul] at h0
  obtain ⟨r, hr, hi⟩ := loop_inv (clusters - 1) (0, Real.sqrt (sqDist dim x prev 0)) (fun acc k => do
      let δ ← dist Real.sqrt x 0 prev ((k + 1) * dim) dim
      pure (if δ < acc.2 then (k + 1, δ) else acc)) s
    (fun t acc => acc.1 ≤ t ∧ acc.2 = Real.sqrt (sqDist dim x prev acc.1) ∧
      (∀ j ≤ t, sqDist dim x prev acc.1 ≤ sqDist dim x prev j) ∧ ∀ j < acc.1, sqDist dim x prev acc.1 < sqDist dim x prev j)
    ⟨le_refl _, rfl, fun j hj => by rw [Nat.le_zero.1 hj], fun j hj => by simp at hj⟩ (by
      rintro t ht ⟨k, m⟩ ⟨i1, i2, i3, i4⟩
      simp only at i1 i2 i3 i4 ⊢
      simp only [bind_def, dist_frame x prev hx hp (show t + 1 < clusters by omega), pure_def]
      refine ⟨_, rfl, ?_⟩
      by_cases hlt : Real.sqrt (sqDist dim x prev (t + 1)) < m
      · rw [if_pos hlt]
        rw [i2, sqrt_lt_iff] at hlt
        refine ⟨le_refl _, rfl, fun j hj => ?_, fun j hj => ?_⟩
        · simp only
          rcases Nat.lt_or_ge j (t + 1) with h | h
          · exact le_of_lt (lt_of_lt_of_le hlt (i3 j (by omega)))
          · rw [show j = t + 1 by omega]
        · simp only at hj ⊢
          exact lt_of_lt_of_le hlt (i3 j (by omega))
      · rw [if_neg hlt]
        rw [i2, sqrt_lt_iff] at hlt
        refine ⟨by simp only; omega, i2, fun j hj => ?_, i4⟩
        simp only
        rcases Nat.lt_or_ge j (t + 1) with h | h
        · exact i3 j (by omega)
        · rw [show j = t + 1 by omega]; exact not_lt.1 hlt)
  refine ⟨r.1, ?_, by have := hi.1; omega, fun j hj => hi.2.2.1 j (by omega), hi.2.2.2⟩
  simp only [nearest, bind_def, h0, hr, pure_def]

theorem Nearest.unique {clusters dim : Nat} {c x : List ℝ} {k j : Nat} (h : Nearest clusters dim c x k)
    (h' : Nearest clusters dim c x j) : k = j := by
  rcases lt_trichotomy k j with hlt | he | hlt
  · exact absurd (h'.2.2 k hlt) (not_lt.2 (h.2.1 j h'.1))
  · exact he
  · exact absurd (h.2.2 j hlt) (not_lt.2 (h'.2.1 k h.1))

theorem addFrame_ret {σ : Type} {clusters dim : Nat} (x c : List ℝ) (n : List Nat) (k : Nat) (hx : x.length = dim)
    (hc : c.length = clusters * dim) (hn : n.length = clusters) (hk : k < clusters) (s : σ) :
    ∃ c', addFrame x dim k (c, n) s = .ret (c', n.set k (n.getD k 0 + 1)) s ∧ c'.length = clusters * dim ∧
      ∀ j, ∀ d < dim, center c' dim j d = center c dim j d + if j = k then x.getD d 0 else 0 := by
  obtain ⟨c', h1, h2, h3⟩ := loop_inv dim c (fun c d => do
      let v ← rd x d
      let y ← rd c (k * dim + d)
      pure (c.set (k * dim + d) (y + v))) s
    (fun t c' => c'.length = clusters * dim ∧ ∀ j, ∀ d < dim, center c' dim j d =
      center c dim j d + if j = k ∧ d < t then x.getD d 0 else 0)
    ⟨hc, by simp⟩ (by
      rintro t ht c1 ⟨i1, i2⟩
      have hlt : k * dim + t < c1.length := by rw [i1]; exact flat_lt hk ht
      simp only [bind_def, pure_def]
      rw [rd_lt (by omega) 0]
      simp only
      rw [rd_lt hlt 0]
      refine ⟨_, rfl, by simp [i1], fun j d hd => ?_⟩
      simp only [center] at i2 ⊢
      rw [getD_set _ _ _ _ _ hlt]
      by_cases he : j * dim + d = k * dim + t
      · rw [if_pos he]
        obtain ⟨rfl, rfl⟩ := cell_inj hd ht he
        rw [i2 _ _ hd]
        simp
      · rw [if_neg he, i2 j d hd]
        congr 1
        by_cases hjk : j = k
        · subst hjk
          have : d ≠ t := fun hdt => he (by rw [hdt])
          have : d < t ↔ d < t + 1 := by omega
          simp [this]
        · simp [hjk])
  refine ⟨c', ?_, h2, fun j d hd => by simpa [hd] using h3 j d hd⟩
  simp only [addFrame, bind_def, pure_def]
  rw [rd_lt (by omega) 0]
  simp only [h1]

open Classical in
theorem members_append (clusters dim : Nat) (c : List ℝ) (pre : List (List ℝ)) (x : List ℝ) (k : Nat) :
    members clusters dim c (pre ++ [x]) k =
      members clusters dim c pre k ++ if Nearest clusters dim c x k then [x] else [] := by
  by_cases h : Nearest clusters dim c x k <;> simp [members, List.filter_append, h]

open Classical in
theorem accumulate_ret {σ : Type} {clusters dim : Nat} (prev : List ℝ) (frames : List (List ℝ))
    (hf : ∀ x ∈ frames, x.length = dim) (hp : prev.length = clusters * dim) (h1 : 1 ≤ clusters) (s : σ) :
    ∃ r, accumulate Real.sqrt prev clusters dim frames s = .ret r s ∧ r.1.length = clusters * dim ∧
      r.2.length = clusters ∧
      (∀ k < clusters, r.2.getD k 0 = (members clusters dim prev frames k).length) ∧
      ∀ k, ∀ d < dim, center r.1 dim k d = ((members clusters dim prev frames k).map fun x => x.getD d 0).sum := by
  obtain ⟨r, h1, h2⟩ := foldlM_inv frames (List.replicate (clusters * dim) 0, List.replicate clusters 0)
    (fun acc frame => do
      let k ← nearest Real.sqrt prev frame clusters dim
      addFrame frame dim k acc) s
    (fun pre r => r.1.length = clusters * dim ∧ r.2.length = clusters ∧
      (∀ k < clusters, r.2.getD k 0 = (members clusters dim prev pre k).length) ∧
      ∀ k, ∀ d < dim, center r.1 dim k d = ((members clusters dim prev pre k).map fun x => x.getD d 0).sum)
    ⟨by simp, by simp, fun k _ => by rw [getD_replicate]; rfl, fun k d _ => by
      rw [center, getD_replicate]; simp [members]⟩ (by
      rintro pre x hx ⟨c, n⟩ ⟨i1, i2, i3, i4⟩
      obtain ⟨k, e1, e2⟩ := nearest_ret prev x (hf x hx) hp h1 s
      obtain ⟨c', e3, e4, e5⟩ := addFrame_ret x c n k (hf x hx) i1 i2 e2.1 s
      refine ⟨_, by simp only [bind_def, e1]; exact e3, e4, by simpa using i2, fun j hj => ?_, fun j d hd => ?_⟩
      · have hk := e2.1
        have h4 := i3 j hj
        simp only at i2 h4 ⊢
        rw [getD_set _ _ _ _ _ (by omega), members_append]
        by_cases hjk : j = k
        · subst hjk
          rw [if_pos rfl, if_pos e2, h4]; simp
        · rw [if_neg hjk, if_neg fun h => hjk (h.unique e2), h4]; simp
      · have h4 := i4 j d hd
        simp only at h4
        rw [e5 j d hd, members_append, h4]
        by_cases hjk : j = k
        · subst hjk
          rw [if_pos rfl, if_pos e2]; simp
        · rw [if_neg hjk, if_neg fun h => hjk (h.unique e2)]; simp)
  exact ⟨r, h1, h2⟩

theorem average_ret {σ : Type} {clusters dim : Nat} (sums : List ℝ) (counts : List Nat)
    (hs : sums.length = clusters * dim) (hn : counts.length = clusters) (s : σ) :
    ∃ c, average clusters dim sums counts s = .ret c s ∧ c.length = clusters * dim ∧
      ∀ k < clusters, ∀ d < dim, center c dim k d =
        if 0 < counts.getD k 0 then center sums dim k d / (counts.getD k 0 : ℝ) else center sums dim k d := by
  obtain ⟨c, h1, h2, h3⟩ := loop_inv clusters sums (fun c k => do
      let n ← rd counts k
      if 0 < n then
        loop dim c (fun c d => do
          let x ← rd c (k * dim + d)
          pure (c.set (k * dim + d) (x / (n : ℝ))))
      else pure c) s
    (fun t c => c.length = clusters * dim ∧ ∀ k, ∀ d < dim, center c dim k d =
        if k < t ∧ 0 < counts.getD k 0 then center sums dim k d / (counts.getD k 0 : ℝ) else center sums dim k d)
    ⟨hs, by simp⟩ (by
      rintro t ht c ⟨i1, i2⟩
      simp only [bind_def]
      rw [rd_lt (by omega) 0]
      simp only
      by_cases hpos : 0 < counts.getD t 0
      · rw [if_pos hpos]
        obtain ⟨c', e1, e2, e3⟩ := loop_inv dim c (fun c d => do
            let x ← rd c (t * dim + d)
            pure (c.set (t * dim + d) (x / (counts.getD t 0 : ℝ)))) s
          (fun u c' => c'.length = clusters * dim ∧ ∀ k, ∀ d < dim, center c' dim k d =
            if k = t ∧ d < u then center c dim k d / (counts.getD t 0 : ℝ) else center c dim k d)
          ⟨i1, by simp⟩ (by
            rintro u hu c1 ⟨j1, j2⟩
            have hlt : t * dim + u < c1.length := by rw [j1]; exact flat_lt ht hu
            simp only [bind_def, pure_def]
            rw [rd_lt hlt 0]
            refine ⟨_, rfl, by simp [j1], fun k d hd => ?_⟩
            simp only [center] at j2 ⊢
            rw [getD_set _ _ _ _ _ hlt]
            by_cases he : k * dim + d = t * dim + u
            · rw [if_pos he]
              obtain ⟨rfl, rfl⟩ := cell_inj hd hu he
              rw [j2 _ _ hd]
              simp
            · rw [if_neg he, j2 k d hd]
              by_cases hkt : k = t
              · subst hkt
                have : d ≠ u := fun hdt => he (by rw [hdt])
                have : d < u ↔ d < u + 1 := by omega
                simp [this]
              · simp [hkt])
        refine ⟨c', e1, e2, fun k d hd => ?_⟩
        rw [e3 k d hd, i2 k d hd]
        by_cases hkt : k = t
        · subst hkt; rw [if_pos ⟨rfl, hd⟩, if_neg (fun h => absurd h.1 (lt_irrefl _)), if_pos ⟨Nat.lt_succ_self _, hpos⟩]
        · have : k < t ↔ k < t + 1 := by omega
          simp [hkt, this]
      · rw [if_neg hpos]
        refine ⟨c, rfl, i1, fun k d hd => ?_⟩
        rw [i2 k d hd]
        by_cases hkt : k = t
        · subst hkt; rw [if_neg fun h => hpos h.2, if_neg fun h => hpos h.2]
        · have : k < t ↔ k < t + 1 := by omega
          simp [this])
  exact ⟨c, h1, h2, fun k hk d hd => by simpa [hk] using h3 k d hd⟩

/-- C34: one iteration of k-means, on frames of the right dimension and at least one cluster, never fails; every frame has
    one nearest center (the lowest index on ties), and the new position of each center is the mean of the frames whose
    nearest center it was.  A center that was the nearest of no frame moves to the origin. -/
theorem C34_update_is_mean {σ : Type} (clusters dim : Nat) (prev : List ℝ) (frames : List (List ℝ))
    (hf : ∀ x ∈ frames, x.length = dim) (hp : prev.length = clusters * dim) (h1 : 1 ≤ clusters) (s : σ) :
    (∀ x ∈ frames, ∃! k, Nearest clusters dim prev x k) ∧
    ∃ c, updateCenters Real.sqrt prev clusters dim frames s = .ret c s ∧ c.length = clusters * dim ∧
      ∀ k < clusters, ∀ d < dim, center c dim k d =
        if members clusters dim prev frames k = [] then 0 else meanOf (members clusters dim prev frames k) d := by
  refine ⟨fun x hx => ?_, ?_⟩
  · obtain ⟨k, _, hk⟩ := nearest_ret prev x (hf x hx) hp h1 s
    exact ⟨k, hk, fun j hj => hj.unique hk⟩
  · obtain ⟨r, e1, e2, e3, e4, e5⟩ := accumulate_ret prev frames hf hp h1 s
    obtain ⟨c, a1, a2, a3⟩ := average_ret r.1 r.2 e2 e3 s
    refine ⟨c, by simp only [updateCenters, bind_def, e1]; exact a1, a2, fun k hk d hd => ?_⟩
    rw [a3 k hk d hd, e4 k hk, e5 k d hd]
    by_cases hm : members clusters dim prev frames k = []
    · simp [hm]
    · have : 0 < (members clusters dim prev frames k).length := List.length_pos_iff.2 hm
      rw [if_pos this, if_neg hm, meanOf]

/-- C34 (`filter`): with the distances allocated by `reset()`, an observation of the right dimension at a finite distance
    (below the largest `float`) from every center is assigned to the nearest center, the lowest index on ties, and the
    distances to all centers are reported. -/
theorem C34_filter (m : KMeans ℝ) (fmax : ℝ) (x : List ℝ) (hx : x.length = m.dim)
    (hc : m.centers.length = m.clusters * m.dim) (hd : m.distances.length = m.clusters) (h1 : 1 ≤ m.clusters)
    (hfin : ∀ k < m.clusters, Real.sqrt (sqDist m.dim x m.centers k) < fmax) :
    ∃ m', filter Real.sqrt fmax x m = .ret () m' ∧ m' = { m with distances := m'.distances, likeliest := m'.likeliest } ∧
      Nearest m.clusters m.dim m.centers x m'.likeliest ∧ m'.distances.length = m.clusters ∧
      ∀ k < m.clusters, m'.distances.getD k 0 = Real.sqrt (sqDist m.dim x m.centers k) := by
  obtain ⟨r, hr, i1, i2, i3⟩ := loop_inv m.clusters (m.distances, 0, fmax) (fun acc k => do
      let δ ← dist Real.sqrt x 0 m.centers (k * m.dim) m.dim
      let _ ← rd acc.1 k
      pure (if δ < acc.2.2 then (acc.1.set k δ, k, δ) else (acc.1.set k δ, acc.2))) m
    (fun t acc => acc.1.length = m.clusters ∧
      (∀ k < t, acc.1.getD k 0 = Real.sqrt (sqDist m.dim x m.centers k)) ∧
      ((t = 0 ∧ acc.2.2 = fmax) ∨ (acc.2.1 < t ∧ acc.2.2 = Real.sqrt (sqDist m.dim x m.centers acc.2.1) ∧
        (∀ j < t, sqDist m.dim x m.centers acc.2.1 ≤ sqDist m.dim x m.centers j) ∧
        ∀ j < acc.2.1, sqDist m.dim x m.centers acc.2.1 < sqDist m.dim x m.centers j)))
    ⟨hd, by simp, Or.inl ⟨rfl, rfl⟩⟩ (by
      rintro t ht ⟨ds, l, mn⟩ ⟨i1, i2, i3⟩
      simp only at i1 i2 i3 ⊢
      simp only [bind_def, dist_frame x m.centers hx hc ht, pure_def]
      rw [rd_lt (by omega) 0]
      refine ⟨_, rfl, ?_⟩
      have hset : ∀ k < t + 1, (ds.set t (Real.sqrt (sqDist m.dim x m.centers t))).getD k 0 =
          Real.sqrt (sqDist m.dim x m.centers k) := by
        intro k hk
        rw [getD_set _ _ _ _ _ (by omega)]
        by_cases hkt : k = t
        · rw [if_pos hkt, hkt]
        · rw [if_neg hkt]; exact i2 k (by omega)
      by_cases hlt : Real.sqrt (sqDist m.dim x m.centers t) < mn
      · rw [if_pos hlt]
        refine ⟨by simpa using i1, hset, Or.inr ⟨by simp, rfl, ?_, ?_⟩⟩
        · intro j hj
          simp only
          rcases i3 with ⟨h0, _⟩ | ⟨_, h2, h3, _⟩
          · rw [show j = t by omega]
          · rw [h2, sqrt_lt_iff] at hlt
            rcases Nat.lt_or_ge j t with h | h
            · exact le_of_lt (lt_of_lt_of_le hlt (h3 j h))
            · rw [show j = t by omega]
        · intro j hj
          simp only at hj ⊢
          rcases i3 with ⟨h0, _⟩ | ⟨_, h2, h3, _⟩
          · omega
          · rw [h2, sqrt_lt_iff] at hlt
            exact lt_of_lt_of_le hlt (h3 j hj)
      · rw [if_neg hlt]
        refine ⟨by simpa using i1, hset, Or.inr ?_⟩
        rcases i3 with ⟨h0, h2⟩ | ⟨h0, h2, h3, h4⟩
        · exact absurd (h2 ▸ hfin t ht) hlt
        · rw [h2, sqrt_lt_iff] at hlt
          refine ⟨by simp only; omega, h2, fun j hj => ?_, h4⟩
          simp only
          rcases Nat.lt_or_ge j t with h | h
          · exact h3 j h
          · rw [show j = t by omega]; exact not_lt.1 hlt)
  refine ⟨{ m with distances := r.1, likeliest := r.2.1 }, ?_, rfl, ?_, i1, i2⟩
  · simp only [filter, bind_def, get_def]
    rw [if_neg (by simp [hx])]
    simp only [bind_def]
    rw [show (fun acc k => _ : List ℝ × ℕ × ℝ → ℕ → Prog (KMeans ℝ) (List ℝ × ℕ × ℝ)) = _ from rfl, hr]
    rfl
  · rcases i3 with ⟨h0, _⟩ | ⟨h0, _, h3, h4⟩
    · omega
    · exact ⟨h0, h3, h4⟩

end Xmm.KMeans
