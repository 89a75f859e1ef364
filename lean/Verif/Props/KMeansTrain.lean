import Verif.Props.KMeans
set_option linter.unusedSimpArgs false
set_option linter.unusedSectionVars false
/- k-means: the training loop. -/
namespace Xmm.KMeans
open Phrase (loop)
open Gauss (rd resize rd_lt loop_sum resize_length)
open Prog (bind_def pure_def get_def set_def modify_def throw_def undef_def)

theorem dist_centers {σ : Type} {clusters dim k l : Nat} (a b : List ℝ) (ha : a.length = clusters * dim)
    (hb : b.length = clusters * dim) (hk : k < clusters) (hl : l < clusters) (s : σ) :
    dist Real.sqrt a (k * dim) b (l * dim) dim s = .ret (gap dim a b k l) s := by
  rw [dist_ret _ _ _ _ _ (by rw [ha]; exact cell_le hk) (by rw [hb]; exact cell_le hl)]
  rfl

theorem spread_ret {σ : Type} {clusters dim : Nat} (c : List ℝ) (hc : c.length = clusters * dim) (s : σ) :
    spread Real.sqrt clusters dim c s = .ret (spreadOf clusters dim c) s := by
  have h := loop_sum (σ := σ) clusters (0 : ℝ) (fun m k => loop clusters m (fun m l =>
      if k ≠ l then do
        let δ ← dist Real.sqrt c (k * dim) c (l * dim) dim
        pure (m + δ)
      else pure m)) (fun k => ∑ l ∈ Finset.range clusters, if k = l then 0 else gap dim c c k l) s (by
    intro m k hk
    exact loop_sum clusters m _ (fun l => if k = l then 0 else gap dim c c k l) s (by
      intro m l hl
      by_cases hkl : k = l
      · rw [if_neg (not_not.2 hkl), if_pos hkl]; simp
      · rw [if_pos hkl, if_neg hkl]
        simp only [bind_def, dist_centers c c hc hc hk hl, pure_def]))
  rw [zero_add] at h
  exact h

theorem variation_ret {σ : Type} {clusters dim : Nat} (p c : List ℝ) (hp : p.length = clusters * dim)
    (hc : c.length = clusters * dim) (s : σ) :
    variation Real.sqrt clusters dim p c s = .ret (maxMove clusters dim p c) s := by
  obtain ⟨v, h1, h2⟩ := loop_inv clusters (0 : ℝ) (fun v k => do
      let δ ← dist Real.sqrt p (k * dim) c (k * dim) dim
      pure (if δ > v then δ else v)) s
    (fun t v => v = (Finset.range t).fold max 0 fun k => gap dim p c k k) (by simp) (by
      rintro t ht v rfl
      simp only [bind_def, dist_centers p c hp hc ht ht, pure_def]
      refine ⟨_, rfl, ?_⟩
      rw [Finset.range_add_one, Finset.fold_insert Finset.notMem_range_self]
      by_cases h : gap dim p c t t > Finset.fold max 0 (fun k => gap dim p c k k) (Finset.range t)
      · rw [if_pos h, max_eq_left (le_of_lt h)]
      · rw [if_neg h, max_eq_right (not_lt.1 h)])
  rw [maxMove, ← h2]; exact h1

open Classical in
theorem converged_ret {σ : Type} {clusters dim : Nat} (thr : ℝ) (p c : List ℝ) (hp : p.length = clusters * dim)
    (hc : c.length = clusters * dim) (s : σ) :
    converged Real.sqrt thr clusters dim p c s = .ret (decide (Converged thr clusters dim p c)) s := by
  simp only [converged, bind_def, spread_ret c hc, variation_ret p c hp hc]
  by_cases h : clusters * (clusters - 1) = 0 ∨ spreadOf clusters dim c = 0
  · rw [if_pos h]
    have : ¬ Converged thr clusters dim p c := by
      rintro ⟨h1, h2, _⟩
      rcases h with h | h
      · rcases Nat.mul_eq_zero.1 h with h | h <;> omega
      · exact h2 h
    simp [this]
  · rw [if_neg h]
    simp only [not_or] at h
    have h2 : 2 ≤ clusters := by
      by_contra hlt
      exact h.1 (by
        rcases Nat.eq_zero_or_pos clusters with h0 | h0
        · simp [h0]
        · rw [show clusters = 1 by omega])
    simp only [pure_def, Res.ret.injEq, and_true, Converged, h2, true_and, h.2, not_false_iff, ne_eq]

/-- the training loop with `n` iterations left -/
theorem iterate_ret {σ : Type} {clusters dim : Nat} (thr : ℝ) (frames : List (List ℝ))
    (hf : ∀ x ∈ frames, x.length = dim) (h1 : 1 ≤ clusters) (s : σ) (n : Nat) (c0 : List ℝ)
    (hc : c0.length = clusters * dim) :
    ∃ (k : Nat) (c : Nat → List ℝ), k ≤ n ∧ c 0 = c0 ∧
      iterate Real.sqrt thr clusters dim frames n c0 s = .ret (c k) s ∧
      (∀ i ≤ k, (c i).length = clusters * dim) ∧
      (∀ i < k, updateCenters Real.sqrt (c i) clusters dim frames s = .ret (c (i + 1)) s) ∧
      (∀ i, i + 1 < k → ¬ Converged thr clusters dim (c i) (c (i + 1))) ∧
      (k = n ∨ (0 < k ∧ Converged thr clusters dim (c (k - 1)) (c k))) := by
  induction n generalizing c0 with
  | zero => exact ⟨0, fun _ => c0, le_refl _, rfl, rfl, fun i _ => hc, by simp, by simp, Or.inl rfl⟩
  | succ n ih =>
    obtain ⟨_, c1, u1, u2, _⟩ := C34_update_is_mean clusters dim c0 frames hf hc h1 s
    have hcv := converged_ret thr c0 c1 hc u2 s
    by_cases hstop : Converged thr clusters dim c0 c1
    · refine ⟨1, fun i => if i = 0 then c0 else c1, by omega, rfl, ?_, ?_, ?_, by omega, Or.inr ⟨by omega, by simpa⟩⟩
      · simp [iterate, u1, hcv, hstop]
      · intro i _; simp only; split <;> assumption
      · intro i hi
        rw [show i = 0 by omega]; simpa using u1
    · obtain ⟨k, c, a1, a2, a3, a4, a5, a6, a7⟩ := ih c1 u2
      refine ⟨k + 1, fun i => if i = 0 then c0 else c (i - 1), by omega, rfl, ?_, ?_, ?_, ?_, ?_⟩
      · simp [iterate, u1, hcv, hstop, a3]
      · intro i hi
        by_cases h : i = 0
        · simp [h, hc]
        · simp only [h, if_false]; exact a4 _ (by omega)
      · intro i hi
        by_cases h : i = 0
        · simp [h, a2, u1]
        · obtain ⟨j, rfl⟩ := Nat.exists_eq_succ_of_ne_zero h
          have := a5 j (by omega)
          simpa using this
      · intro i hi
        by_cases h : i = 0
        · simp [h, a2, hstop]
        · obtain ⟨j, rfl⟩ := Nat.exists_eq_succ_of_ne_zero h
          have := a6 j (by omega)
          simpa using this
      · rcases a7 with h | ⟨h, h'⟩
        · exact Or.inl (by omega)
        · refine Or.inr ⟨by omega, ?_⟩
          obtain ⟨j, rfl⟩ := Nat.exists_eq_succ_of_ne_zero (Nat.pos_iff_ne_zero.1 h)
          simpa using h'

/-- C66: without biased initialisation each value of a center is drawn between minus and plus the standard deviation of its dimension
    (when the random numbers are between 0 and 1): `sd * (2 r - 1)`. -/
theorem C66_random_init {σ : Type} (rnd : Nat → Nat → ℝ) {clusters dim : Nat} (sd c : List ℝ) (hs : dim ≤ sd.length)
    (hc : c.length = clusters * dim) (s : σ) :
    ∃ c', initRandom rnd clusters dim sd c s = .ret c' s ∧ c'.length = clusters * dim ∧
      (∀ k < clusters, ∀ d < dim, center c' dim k d = sd.getD d 0 * (2 * rnd k d - 1)) ∧
      ((∀ k d, 0 ≤ rnd k d ∧ rnd k d ≤ 1) → ∀ k < clusters, ∀ d < dim, |center c' dim k d| ≤ |sd.getD d 0|) := by
  obtain ⟨c', h1, h2, h3⟩ := loop_inv clusters c (fun c k => loop dim c (fun c d => do
      let s ← rd sd d
      let _ ← rd c (k * dim + d)
      pure (c.set (k * dim + d) (s * (2 * rnd k d - 1))))) s (fun t c => c.length = clusters * dim ∧
    ∀ k < t, ∀ d < dim, center c dim k d = sd.getD d 0 * (2 * rnd k d - 1)) ⟨hc, fun k hk => by omega⟩ (by
    rintro k hk c ⟨hc, hv⟩
    obtain ⟨c', g1, g2, g3, g4⟩ := loop_inv dim c (fun c d => do
        let s ← rd sd d
        let _ ← rd c (k * dim + d)
        pure (c.set (k * dim + d) (s * (2 * rnd k d - 1)))) s (fun t c => c.length = clusters * dim ∧
      (∀ k' < k, ∀ d < dim, center c dim k' d = sd.getD d 0 * (2 * rnd k' d - 1)) ∧
      ∀ d < t, center c dim k d = sd.getD d 0 * (2 * rnd k d - 1)) ⟨hc, hv, fun d hd => by omega⟩ (by
      rintro d hd c ⟨hc, hv, hw⟩
      have hlt : k * dim + d < c.length := by rw [hc]; exact flat_lt hk hd
      simp only [bind_def]
      rw [rd_lt (by omega) 0]
      simp only
      rw [rd_lt hlt 0]
      refine ⟨_, rfl, by simpa using hc, fun k' hk' d' hd' => ?_, fun d' hd' => ?_⟩
      · unfold center
        rw [getD_set _ _ _ _ _ hlt, if_neg fun h => by have := (cell_inj hd' hd h).1; omega]
        exact hv k' hk' d' hd'
      · unfold center
        rw [getD_set _ _ _ _ _ hlt]
        by_cases h : d' = d
        · rw [if_pos (by rw [h]), h]
        · rw [if_neg (by omega)]
          exact hw d' (by omega))
    refine ⟨c', g1, g2, fun k' hk' d hd => ?_⟩
    by_cases h : k' = k
    · subst h; exact g4 d hd
    · exact g3 k' (by omega) d hd)
  refine ⟨c', h1, h2, h3, fun hr k hk d hd => ?_⟩
  rw [h3 k hk d hd, abs_mul]
  have := hr k d
  exact mul_le_of_le_one_right (abs_nonneg _) (abs_le.2 ⟨by linarith, by linarith⟩)

theorem initRandom_ret {σ : Type} (rnd : Nat → Nat → ℝ) {clusters dim : Nat} (sd c : List ℝ) (hs : dim ≤ sd.length)
    (hc : c.length = clusters * dim) (s : σ) :
    ∃ c', initRandom rnd clusters dim sd c s = .ret c' s ∧ c'.length = clusters * dim := by
  obtain ⟨c', h1, h2, _⟩ := C66_random_init rnd sd c hs hc s
  exact ⟨c', h1, h2⟩

/-- C66: the biased initialisation, with frames of the right dimension, puts each center on the mean of its segment of the
    first phrase: with `n` the number of frames divided by the number of clusters, center `k` is the mean of the frames
    `k·n … (k+1)·n - 1`.  With fewer frames than clusters all centers are at the origin. -/
theorem C66_biased_init {σ : Type} {clusters dim : Nat} (phrase : List (List ℝ)) (c : List ℝ)
    (hf : ∀ x ∈ phrase, x.length = dim) (hc : c.length = clusters * dim) (s : σ) :
    ∃ c', initBiased clusters dim phrase c s = .ret c' s ∧ c'.length = clusters * dim ∧
      (∀ k < clusters, ∀ d < dim, center c' dim k d = segmentMean phrase (phrase.length / clusters) k d) ∧
      (phrase.length < clusters → ∀ k < clusters, ∀ d < dim, center c' dim k d = 0) := by
  set n := phrase.length / clusters with hn
  have hseg : ∀ k < clusters, ∀ t < n, k * n + t < phrase.length := by
    intro k hk t ht
    have h1 : k * n + t < clusters * n := flat_lt hk ht
    have h2 : clusters * n ≤ phrase.length := Nat.mul_div_le _ _
    omega
  obtain ⟨c', h1, h2, h3⟩ := loop_inv clusters c (fun c k => do
      let step := phrase.length / clusters
      let c ← loop dim c (fun c d => do
        let _ ← rd c (k * dim + d)
        pure (c.set (k * dim + d) 0))
      loop step c (fun c t => loop dim c (fun c d => do
        let f ← rd phrase (k * step + t)
        let v ← rd f d
        let x ← rd c (k * dim + d)
        pure (c.set (k * dim + d) (x + v / (step : ℝ)))))) s
    (fun t c' => c'.length = clusters * dim ∧ ∀ k < t, ∀ d < dim, center c' dim k d = segmentMean phrase n k d)
    ⟨hc, by simp⟩ (by
      rintro k hk c1 ⟨i1, i2⟩
      obtain ⟨c2, e1, e2, e3, e4⟩ := loop_inv dim c1 (fun c d => do
          let _ ← rd c (k * dim + d)
          pure (c.set (k * dim + d) 0)) s
        (fun t c => c.length = clusters * dim ∧ (∀ d < t, center c dim k d = 0) ∧
          ∀ j < k, ∀ d < dim, center c dim j d = center c1 dim j d)
        ⟨i1, by simp, by simp⟩ (by
          rintro t ht c ⟨j1, j2, j3⟩
          have hlt : k * dim + t < c.length := by rw [j1]; exact flat_lt hk ht
          simp only [bind_def, pure_def]
          rw [rd_lt hlt 0]
          refine ⟨_, rfl, by simp [j1], fun d hd => ?_, fun j hj d hd => ?_⟩
          · simp only [center] at j2 ⊢
            rw [getD_set _ _ _ _ _ hlt]
            by_cases hdt : d = t
            · rw [if_pos (by rw [hdt])]
            · rw [if_neg (by omega)]; exact j2 d (by omega)
          · simp only [center] at j3 ⊢
            rw [getD_set _ _ _ _ _ hlt, if_neg (fun he => by
              have := (cell_inj hd ht he).1; omega)]
            exact j3 j hj d hd)
      obtain ⟨c3, f1, f2, f3, f4⟩ := loop_inv n c2 (fun c t => loop dim c (fun c d => do
          let f ← rd phrase (k * n + t)
          let v ← rd f d
          let x ← rd c (k * dim + d)
          pure (c.set (k * dim + d) (x + v / (n : ℝ))))) s
        (fun t c => c.length = clusters * dim ∧
          (∀ d < dim, center c dim k d = ∑ u ∈ Finset.range t, (phrase.getD (k * n + u) []).getD d 0 / (n : ℝ)) ∧
          ∀ j < k, ∀ d < dim, center c dim j d = center c1 dim j d)
        ⟨e2, fun d hd => by simpa using e3 d hd, e4⟩ (by
          rintro t ht c ⟨j1, j2, j3⟩
          obtain ⟨c', g1, g2, g3, g4⟩ := loop_inv dim c (fun c d => do
              let f ← rd phrase (k * n + t)
              let v ← rd f d
              let x ← rd c (k * dim + d)
              pure (c.set (k * dim + d) (x + v / (n : ℝ)))) s
            (fun e c' => c'.length = clusters * dim ∧
              (∀ d < dim, center c' dim k d = center c dim k d +
                if d < e then (phrase.getD (k * n + t) []).getD d 0 / (n : ℝ) else 0) ∧
              ∀ j < k, ∀ d < dim, center c' dim j d = center c1 dim j d)
            ⟨j1, by simp, j3⟩ (by
              rintro e he c' ⟨l1, l2, l3⟩
              have hlt : k * dim + e < c'.length := by rw [l1]; exact flat_lt hk he
              have hp := hseg k hk t ht
              have hlen : (phrase.getD (k * n + t) []).length = dim := by
                rw [List.getD_eq_getElem?_getD, List.getElem?_eq_getElem hp]
                exact hf _ (List.getElem_mem hp)
              simp only [bind_def, pure_def]
              rw [rd_lt hp []]
              simp only
              rw [rd_lt (by omega) 0]
              simp only
              rw [rd_lt hlt 0]
              refine ⟨_, rfl, by simp [l1], fun d hd => ?_, fun j hj d hd => ?_⟩
              · have q := l2 d hd
                simp only [center] at q ⊢
                rw [getD_set _ _ _ _ _ hlt]
                by_cases hde : d = e
                · subst hde
                  rw [if_neg (lt_irrefl _), add_zero] at q
                  rw [if_pos rfl, if_pos (Nat.lt_succ_self _), q]
                · rw [if_neg (by omega), q]
                  have : d < e ↔ d < e + 1 := by omega
                  simp only [this]
              · simp only [center] at l3 ⊢
                rw [getD_set _ _ _ _ _ hlt, if_neg (fun hcell => by
                  have := (cell_inj hd he hcell).1; omega)]
                exact l3 j hj d hd)
          refine ⟨c', g1, g2, fun d hd => ?_, g4⟩
          rw [g3 d hd, if_pos hd, j2 d hd, Finset.sum_range_succ])
      refine ⟨c3, by simp only [bind_def, e1]; exact f1, f2, fun j hj d hd => ?_⟩
      rcases Nat.lt_or_ge j k with h | h
      · rw [f4 j h d hd]; exact i2 j h d hd
      · rw [show j = k by omega]; exact f3 d hd)
  refine ⟨c', h1, h2, h3, fun hlt k hk d hd => ?_⟩
  rw [h3 k hk d hd, hn, Nat.div_eq_of_lt hlt]
  simp [segmentMean]

/-- well-formed training data: every frame has the dimension of the training set, and the standard deviation has one value
    per dimension (C24) -/
structure _root_.Xmm.KData.WF (data : KData ℝ) (sd : List ℝ) : Prop where
  frames : ∀ x ∈ data.frames, x.length = data.dim
  sd : data.dim ≤ sd.length

/-- C35: `train()` on non-empty well-formed data, with at least one cluster, terminates normally whatever the random numbers
    are, after at most `max_iterations` updates of the centers: the centers it leaves are the last of a sequence in which
    each one is the update (C34) of the previous one, the sequence stops early only when the convergence criterion holds,
    and it does stop the first time it holds.  With a single cluster it never holds, so all iterations are run. -/
theorem C35_train_terminates (m : KMeans ℝ) (rnd : Nat → Nat → ℝ) (sd : List ℝ) (data : KData ℝ) (hw : data.WF sd)
    (hne : data.phrases ≠ []) (h1 : 1 ≤ m.clusters) :
    ∃ (k : Nat) (c : Nat → List ℝ), k ≤ m.maxIter ∧
      train Real.sqrt rnd sd data m = .ret () { m with dim := data.dim, centers := c k } ∧
      (∀ i ≤ k, (c i).length = m.clusters * data.dim) ∧
      (∀ i < k, updateCenters Real.sqrt (c i) m.clusters data.dim data.frames m = .ret (c (i + 1)) m) ∧
      (∀ i, i + 1 < k → ¬ Converged m.threshold m.clusters data.dim (c i) (c (i + 1))) ∧
      (k < m.maxIter → 0 < k ∧ Converged m.threshold m.clusters data.dim (c (k - 1)) (c k)) ∧
      (m.clusters = 1 → k = m.maxIter) ∧
      (∀ j < m.clusters, ∀ d < data.dim, center (c 0) data.dim j d = if m.biased then
        segmentMean (data.phrases.headD []) ((data.phrases.headD []).length / m.clusters) j d else sd.getD d 0 * (2 * rnd j d - 1)) := by
  cases hp : data.phrases with
  | nil => exact absurd hp hne
  | cons first rest =>
    have hfirst : ∀ x ∈ first, x.length = data.dim := fun x hx =>
      hw.frames x (by simp only [KData.frames, hp, List.flatten_cons, List.mem_append]; exact Or.inl hx)
    set m1 : KMeans ℝ := { m with dim := data.dim, centers := resize (m.clusters * data.dim) m.centers } with hm1
    have hl1 : m1.centers.length = m.clusters * data.dim := resize_length _ _
    have hinit : ∃ c0 : List ℝ, initCenters (σ := KMeans ℝ) rnd sd first m1 m1 = .ret c0 m1 ∧
        c0.length = m.clusters * data.dim ∧ ∀ j < m.clusters, ∀ d < data.dim, center c0 data.dim j d = if m.biased then
          segmentMean first (first.length / m.clusters) j d else sd.getD d 0 * (2 * rnd j d - 1) := by
      by_cases hb : m1.biased = true
      · obtain ⟨c, e1, e2, e3, _⟩ := C66_biased_init (σ := KMeans ℝ) first m1.centers hfirst hl1 m1
        exact ⟨c, by rw [initCenters, if_pos hb]; exact e1, e2, fun j hj d hd => by rw [if_pos hb]; exact e3 j hj d hd⟩
      · obtain ⟨c, e1, e2, e3, _⟩ := C66_random_init (σ := KMeans ℝ) rnd sd m1.centers hw.sd hl1 m1
        exact ⟨c, by rw [initCenters, if_neg hb]; exact e1, e2, fun j hj d hd => by rw [if_neg hb]; exact e3 j hj d hd⟩
    obtain ⟨c0, e1, e2, e3⟩ := hinit
    obtain ⟨k, c, a1, a2, a3, a4, a5, a6, a7⟩ := iterate_ret (σ := KMeans ℝ) m.threshold data.frames hw.frames h1 m1 m.maxIter c0 e2
    refine ⟨k, c, a1, ?_, a4, fun i hi => ?_, a6, fun hlt => ?_, fun hone => ?_, fun j hj d hd => by rw [a2]; exact e3 j hj d hd⟩
    · simp only [train, hp, bind_def, modify_def, get_def]
      rw [← hm1, e1]
      simp only [set_def]
      rw [a3]
    · obtain ⟨_, u, u1, _, _⟩ := C34_update_is_mean m.clusters data.dim (c i) data.frames hw.frames (a4 i (by omega)) h1 m1
      obtain ⟨_, v, v1, v2, v3⟩ := C34_update_is_mean m.clusters data.dim (c i) data.frames hw.frames (a4 i (by omega)) h1 m
      have hb := a5 i hi
      -- the update does not depend on the state
      rw [v1]
      have : v = c (i + 1) := by
        obtain ⟨_, u', w1, w2, w3⟩ := C34_update_is_mean m.clusters data.dim (c i) data.frames hw.frames (a4 i (by omega)) h1 m1
        rw [hb] at w1
        obtain ⟨w1, _⟩ := Res.ret.inj w1
        rw [w1]
        refine ext_centers v2 w2 fun k hk d hd => ?_
        rw [v3 k hk d hd, w3 k hk d hd]
      rw [this]
    · rcases a7 with h | h
      · omega
      · exact h
    · rcases a7 with h | ⟨_, h, _⟩
      · exact h
      · omega
where
  ext_centers {clusters dim : Nat} {a b : List ℝ} (ha : a.length = clusters * dim) (hb : b.length = clusters * dim)
      (h : ∀ k < clusters, ∀ d < dim, center a dim k d = center b dim k d) : a = b := by
    apply List.ext_getElem (by rw [ha, hb])
    intro i hi hi'
    have hi2 : i < clusters * dim := by omega
    have hd : 0 < dim := Nat.pos_of_ne_zero fun h0 => by simp [h0] at hi2
    have := h (i / dim) ((Nat.div_lt_iff_lt_mul hd).2 hi2) (i % dim) (Nat.mod_lt _ hd)
    simp only [center, Nat.div_add_mod', List.getD_eq_getElem?_getD, List.getElem?_eq_getElem hi,
      List.getElem?_eq_getElem hi', Option.getD_some] at this
    exact this

/-- C35: what `train()` finds is the clustering of the frames from the initial centers: the means of the segments of the first phrase in the Biased mode, in the Random mode the
    random points within the standard deviation. -/
theorem C35_clustering (m : KMeans ℝ) (rnd : Nat → Nat → ℝ) (sd : List ℝ) (data : KData ℝ) (hw : data.WF sd) (hne : data.phrases ≠ []) (h1 : 1 ≤ m.clusters) :
    ∃ c, train Real.sqrt rnd sd data m = .ret () { m with dim := data.dim, centers := c } ∧ c.length = m.clusters * data.dim ∧
      IsClustering m.threshold m.clusters m.maxIter data.dim data.frames (fun j d => if m.biased then
        segmentMean (data.phrases.headD []) ((data.phrases.headD []).length / m.clusters) j d else sd.getD d 0 * (2 * rnd j d - 1)) c := by
  obtain ⟨n, cs, g1, g2, g3, g4, g5, g6, -, g8⟩ := C35_train_terminates m rnd sd data hw hne h1
  refine ⟨cs n, g2, g3 n le_rfl, n, cs, rfl, g1, g8, fun i hi k hk d hd => ?_, g5, g6⟩
  obtain ⟨-, u, u1, -, u3⟩ := C34_update_is_mean m.clusters data.dim (cs i) data.frames hw.frames (g3 i (by omega)) h1 m
  rw [g4 i hi] at u1
  injection u1 with u1
  rw [u1]
  exact u3 k hk d hd

/-- C34: after training and `reset()`, the hypotheses of `C34_filter` hold. -/
theorem C34_ready_after_reset (m : KMeans ℝ) (rnd : Nat → Nat → ℝ) (sd : List ℝ) (data : KData ℝ) (hw : data.WF sd)
    (hne : data.phrases ≠ []) (h1 : 1 ≤ m.clusters) :
    ∃ m', (train Real.sqrt rnd sd data >>= fun _ => reset) m = .ret () m' ∧ m'.dim = data.dim ∧
      m'.clusters = m.clusters ∧ m'.centers.length = m'.clusters * m'.dim ∧ m'.distances.length = m'.clusters := by
  obtain ⟨k, c, _, h2, h3, _⟩ := C35_train_terminates m rnd sd data hw hne h1
  refine ⟨{ m with dim := data.dim, centers := c k, distances := resize m.clusters m.distances }, ?_, rfl, rfl,
    h3 k (le_refl _), resize_length _ _⟩
  simp only [bind_def, h2, reset, modify_def]

/-- An observation of another dimension is rejected, and nothing changes. -/
theorem C34_filter_wrong_dimension (m : KMeans ℝ) (fmax : ℝ) (x : List ℝ) (hx : x.length ≠ m.dim) :
    filter Real.sqrt fmax x m = .throw .runtimeError m := by
  simp only [filter, bind_def, get_def]
  rw [if_pos hx]; rfl

/-- C34 violated without `reset()`: filtering with a model that was just trained writes outside the (empty) vector of
    distances. -/
theorem C34_filter_without_reset_ub (m : KMeans ℝ) (fmax : ℝ) (x : List ℝ) (hx : x.length = m.dim)
    (hc : m.centers.length = m.clusters * m.dim) (hd : m.distances.length < m.clusters) :
    filter Real.sqrt fmax x m = .ub := by
  set body : List ℝ × Nat × ℝ → Nat → Prog (KMeans ℝ) (List ℝ × Nat × ℝ) := fun acc k => do
      let δ ← dist Real.sqrt x 0 m.centers (k * m.dim) m.dim
      let _ ← rd acc.1 k
      pure (if δ < acc.2.2 then (acc.1.set k δ, k, δ) else (acc.1.set k δ, acc.2)) with hbody
  have hpre : ∃ a, loop m.distances.length (m.distances, 0, fmax) body m = .ret a m ∧
      a.1.length = m.distances.length :=
    loop_inv _ _ body m (fun _ a => a.1.length = m.distances.length) rfl (by
      rintro t ht ⟨ds, r⟩ hl
      simp only at hl
      simp only [hbody, bind_def, dist_frame x m.centers hx hc (show t < m.clusters by omega), pure_def]
      rw [rd_lt (by omega) 0]
      refine ⟨_, rfl, ?_⟩
      split <;> simpa using hl)
  obtain ⟨a, h1, h2⟩ := hpre
  have hub : ∀ n, m.distances.length < n → n ≤ m.clusters → loop n (m.distances, 0, fmax) body m = .ub := by
    intro n
    induction n with
    | zero => omega
    | succ n ih =>
      intro h3 h4
      rw [loop_succ]
      rcases Nat.lt_or_ge m.distances.length n with h | h
      · rw [ih h (by omega)]
      · have : n = m.distances.length := by omega
        subst this
        rw [h1]
        simp only [hbody, bind_def, dist_frame x m.centers hx hc (show m.distances.length < m.clusters by omega)]
        simp [rd, List.getElem?_eq_none (show a.1.length ≤ m.distances.length by omega)]
  simp only [filter, bind_def, get_def]
  rw [if_neg (by simp [hx])]
  simp only [bind_def]
  rw [show (fun acc k => _ : List ℝ × ℕ × ℝ → ℕ → Prog (KMeans ℝ) (List ℝ × ℕ × ℝ)) = body from rfl,
    hub m.clusters hd (le_refl _)]

/-- the hypotheses hold of a training set of two phrases -/
example : ∃ (data : KData ℝ) (sd : List ℝ), data.WF sd ∧ data.phrases ≠ [] ∧ data.frames = [[0], [1], [5]] :=
  ⟨⟨1, [[[0], [1]], [[5]]]⟩, [1], ⟨by simp [KData.frames], by simp⟩, by simp, rfl⟩

end Xmm.KMeans
