import Verif.Props.PhraseOrderHmm
import Verif.Props.AxesOrigin
/- C100: the first phrase matters, and the hypotheses of C100 are met. -/
namespace Xmm

/-! ### The first phrase -/
namespace KMeans

/-- two clusters, the first centers taken from the first phrase -/
noncomputable def two : KMeans ℝ :=
  { clusters := 2, maxIter := 50, threshold := 1 / 10 ^ 20, biased := true, dim := 0, centers := [], distances := [], likeliest := 0 }

/-- a phrase that stays where it is, and one that moves -/
noncomputable def stayMove : KData ℝ := ⟨1, [[[1], [1]], [[1], [3]]]⟩

/-- the same phrases, the one that moves first -/
noncomputable def moveStay : KData ℝ := ⟨1, [[[1], [3]], [[1], [1]]]⟩

theorem sqDist_one (x : ℝ) (c : List ℝ) (k : Nat) : sqDist 1 [x] c k = (x - center c 1 k 0) ^ 2 := by simp [sqDist]

theorem near_first {c : List ℝ} {x : ℝ} (h : (x - center c 1 0 0) ^ 2 ≤ (x - center c 1 1 0) ^ 2) : Nearest 2 1 c [x] 0 ∧ ¬ Nearest 2 1 c [x] 1 := by
  refine ⟨⟨by decide, fun j hj => ?_, fun j hj => by omega⟩, fun h' => ?_⟩
  · have : j = 0 ∨ j = 1 := by omega
    rcases this with rfl | rfl
    · exact le_rfl
    · rw [sqDist_one, sqDist_one]; exact h
  · have := h'.2.2 0 (by decide)
    rw [sqDist_one, sqDist_one] at this
    exact absurd this (not_lt.2 h)

theorem near_second {c : List ℝ} {x : ℝ} (h : (x - center c 1 1 0) ^ 2 < (x - center c 1 0 0) ^ 2) : Nearest 2 1 c [x] 1 ∧ ¬ Nearest 2 1 c [x] 0 := by
  refine ⟨⟨by decide, fun j hj => ?_, fun j hj => ?_⟩, fun h' => ?_⟩
  · have : j = 0 ∨ j = 1 := by omega
    rcases this with rfl | rfl
    · rw [sqDist_one, sqDist_one]; exact h.le
    · exact le_rfl
  · have : j = 0 := by omega
    subst this
    rw [sqDist_one, sqDist_one]; exact h
  · have := h'.2.1 1 (by decide)
    rw [sqDist_one, sqDist_one] at this
    exact absurd h (not_lt.2 this)

theorem stayMove_wf : stayMove.WF [1] := ⟨by simp [stayMove, KData.frames], le_rfl⟩

theorem moveStay_wf : moveStay.WF [1] := ⟨by simp [moveStay, KData.frames], le_rfl⟩

/-- one update of k-means, by the centers it finds -/
theorem update_centers {c c' : List ℝ} {frames : List (List ℝ)} {s : KMeans ℝ} (hf : ∀ x ∈ frames, x.length = 1) (hc : c.length = 2 * 1)
    (hu : updateCenters Real.sqrt c 2 1 frames s = .ret c' s) (k : Nat) (hk : k < 2) :
    center c' 1 k 0 = if members 2 1 c frames k = [] then 0 else meanOf (members 2 1 c frames k) 0 := by
  obtain ⟨c2, a1, -, a2⟩ := (C34_update_is_mean 2 1 c frames hf hc (by decide) s).2
  rw [hu] at a1
  injection a1 with a1 _
  subst a1
  exact a2 k hk 0 (by decide)

theorem stayMove_center (rnd : Nat → Nat → ℝ) : ∃ m', train Real.sqrt rnd [1] stayMove two = .ret () m' ∧ center m'.centers 1 0 0 = 3 / 2 := by
  obtain ⟨n, c, -, h1, h2, h3, -, h5, -, h6⟩ := C35_train_terminates two rnd [1] stayMove stayMove_wf (by simp [stayMove]) (by simp [two])
  refine ⟨_, h1, ?_⟩
  have hn : 0 < n := by
    by_cases h : n < two.maxIter
    · exact (h5 h).1
    · simp [two] at h; omega
  have step : ∀ i < n, (center (c i) 1 0 0 = 1 ∧ center (c i) 1 1 0 = 1) ∨ (center (c i) 1 0 0 = 3 / 2 ∧ center (c i) 1 1 0 = 0) →
      center (c (i + 1)) 1 0 0 = 3 / 2 ∧ center (c (i + 1)) 1 1 0 = 0 := by
    intro i hi h
    have e : ∀ x, x = 1 ∨ x = 3 → Nearest 2 1 (c i) [x] 0 ∧ ¬ Nearest 2 1 (c i) [x] 1 := fun x hx => near_first (by
      rcases h with ⟨a, b⟩ | ⟨a, b⟩ <;> rw [a, b] <;> rcases hx with rfl | rfl <;> norm_num)
    obtain ⟨p1, p2⟩ := e 1 (Or.inl rfl)
    obtain ⟨p3, p4⟩ := e 3 (Or.inr rfl)
    have m0 : members 2 1 (c i) stayMove.frames 0 = [[1], [1], [1], [3]] := by simp [members, stayMove, KData.frames, p1, p3]
    have m1 : members 2 1 (c i) stayMove.frames 1 = [] := by simp [members, stayMove, KData.frames, p2, p4]
    have hu := update_centers (fun x hx => stayMove_wf.1 x hx) (h2 i hi.le) (h3 i hi)
    rw [hu 0 (by decide), hu 1 (by decide), m0, m1]
    simp [meanOf]
    norm_num
  have key : ∀ i < n, center (c (i + 1)) 1 0 0 = 3 / 2 ∧ center (c (i + 1)) 1 1 0 = 0 := by
    intro i
    induction i with
    | zero =>
      intro hi
      refine step 0 hi (Or.inl ⟨?_, ?_⟩)
      · have := h6 0 (by simp [two]) 0 (by simp [stayMove])
        simpa [two, stayMove, segmentMean] using this
      · have := h6 1 (by simp [two]) 0 (by simp [stayMove])
        simpa [two, stayMove, segmentMean] using this
    | succ i ih => exact fun hi => step (i + 1) hi (Or.inr (ih (by omega)))
  have := (key (n - 1) (by omega)).1
  rwa [Nat.sub_add_cancel hn] at this

theorem moveStay_center (rnd : Nat → Nat → ℝ) : ∃ m', train Real.sqrt rnd [1] moveStay two = .ret () m' ∧ center m'.centers 1 0 0 = 1 := by
  obtain ⟨n, c, -, h1, h2, h3, -, -, -, h6⟩ := C35_train_terminates two rnd [1] moveStay moveStay_wf (by simp [moveStay]) (by simp [two])
  refine ⟨_, h1, ?_⟩
  have key : ∀ i ≤ n, center (c i) 1 0 0 = 1 ∧ center (c i) 1 1 0 = 3 := by
    intro i
    induction i with
    | zero =>
      intro hi
      refine ⟨?_, ?_⟩
      · have := h6 0 (by simp [two]) 0 (by simp [moveStay])
        simpa [two, moveStay, segmentMean] using this
      · have := h6 1 (by simp [two]) 0 (by simp [moveStay])
        simpa [two, moveStay, segmentMean] using this
    | succ i ih =>
      intro hi
      obtain ⟨a, b⟩ := ih (by omega)
      obtain ⟨p1, p2⟩ := near_first (c := c i) (x := 1) (by rw [a, b]; norm_num)
      obtain ⟨p3, p4⟩ := near_second (c := c i) (x := 3) (by rw [a, b]; norm_num)
      have m0 : members 2 1 (c i) moveStay.frames 0 = [[1], [1], [1]] := by simp [members, moveStay, KData.frames, p1, p4]
      have m1 : members 2 1 (c i) moveStay.frames 1 = [[3]] := by simp [members, moveStay, KData.frames, p2, p3]
      have hu := update_centers (fun x hx => moveStay_wf.1 x hx) (h2 i (by omega)) (h3 i (by omega))
      rw [hu 0 (by decide), hu 1 (by decide), m0, m1]
      simp [meanOf]
      norm_num
  exact (key n le_rfl).1

/-- **C100 violated** when the first phrase changes: the first centers are the averages of the segments of the first phrase (xmmKMeans.cpp:110-127), and the clustering found from them depends
    on which phrase that is.  Two clusters, the frames 1, 1 in one phrase and 1, 3 in the other: the first center ends at 3/2 or at 1. -/
theorem C100_first_phrase_violated (rnd : Nat → Nat → ℝ) : ∃ (m : KMeans ℝ) (data data' : KData ℝ) (sd : List ℝ) (u u' : KMeans ℝ), data.Shuffled data' ∧ data.WF sd ∧
    train Real.sqrt rnd sd data m = .ret () u ∧ train Real.sqrt rnd sd data' m = .ret () u' ∧ center u.centers 1 0 0 = 3 / 2 ∧ center u'.centers 1 0 0 = 1 := by
  obtain ⟨u, h1, h2⟩ := stayMove_center rnd
  obtain ⟨u', h3, h4⟩ := moveStay_center rnd
  exact ⟨two, stayMove, moveStay, [1], u, u', ⟨rfl, List.Perm.swap _ _ _⟩, stayMove_wf, h1, h3, h2, h4⟩

/-- the hypotheses of `C100_clusters` are met: with random first centers the two orders give the same clusters -/
example (rnd : Nat → Nat → ℝ) : train Real.sqrt rnd [1] moveStay { two with biased := false } = train Real.sqrt rnd [1] stayMove { two with biased := false } :=
  C100_clusters _ rnd [1] stayMove moveStay stayMove_wf (by simp [two]) ⟨rfl, List.Perm.swap _ _ _⟩ (by simp)

end KMeans

/-! ### The hypotheses are met -/

/-- three phrases -/
noncomputable def threePhrases : KData ℝ := ⟨1, [[[0], [10]], [[1], [2], [3]], [[7]]]⟩

/-- the same three, the last two exchanged -/
noncomputable def threeSwapped : KData ℝ := ⟨1, [[[0], [10]], [[7]], [[1], [2], [3]]]⟩

example (cancel : Nat → Bool) : ∃ t m', (Gmm.trainee Dens.real Real.log Real.sqrt [1] threePhrases).train (Compare.exact (-10) 1) ⟨10, 0⟩ cancel Gmm.pair = .ret t m' ∧
    (Gmm.trainee Dens.real Real.log Real.sqrt [1] threeSwapped).train (Compare.exact (-10) 1) ⟨10, 0⟩ cancel Gmm.pair = .ret t m' :=
  Gmm.C100_training Dens.real Dens.real_sound Real.log Gmm.pair Gmm.pair_admissible [1] threePhrases threeSwapped
    ⟨rfl, by simp [threePhrases, KData.frames, Gmm.pair], by simp [threePhrases, KData.frames], rfl⟩ (by show (1 : ℝ) / 10 ^ 9 ≤ 1; norm_num)
    ⟨⟨rfl, (List.Perm.swap _ _ _).cons _⟩, rfl⟩ _ _ (by simp) cancel

namespace Hmm

/-- `initData` with the phrases exchanged: the one that is shorter than the number of states comes first -/
noncomputable def initSwapped : KData ℝ := { dim := 1, phrases := [[[3]], [[0], [1], [2], [4], [8]]] }

example (h : Bool) (cancel : Nat → Bool) : ∃ t u u',
    (trainee Dens.real Real.log Real.sqrt (Compare.exact (-10) 1) ⟨10, 0⟩ (fun d => deviations d.dim d.frames) initData).train (Compare.exact (-10) 1) ⟨10, 0⟩ cancel
      (initExample 2 false h) = .ret t u ∧
    (trainee Dens.real Real.log Real.sqrt (Compare.exact (-10) 1) ⟨10, 0⟩ (fun d => deviations d.dim d.frames) initSwapped).train (Compare.exact (-10) 1) ⟨10, 0⟩ cancel
      (initExample 2 false h) = .ret t u' ∧ u'.sts = u.sts ∧ u'.trans = u.trans ∧ u'.prior = u.prior := by
  obtain ⟨h1, h2, h3, h4, h5, _⟩ := initExample_ok 2 (by omega) false h
  obtain ⟨t, u, u', k1, k2, k3, -⟩ := C100_training Dens.real Dens.real_sound Real.log (fun x y hx hy => Real.log_mul hx.ne' hy.ne') (initExample 2 false h) h1 rfl h3
    initData initSwapped h2 ⟨_, .head _, by simp [initExample]⟩ h4 h5 ⟨⟨rfl, List.Perm.swap _ _ _⟩, by simp [initData, initSwapped, initExample]⟩ (-10) 1 ⟨10, 0⟩ (by simp) cancel
  exact ⟨t, u, u', k1, k2, by rw [k3], by rw [k3], by rw [k3]⟩

/-- one state, Ergodic: the first of the phrases is the same -/
example (h : Bool) (cancel : Nat → Bool) : ∃ t u u',
    (trainee Dens.real Real.log Real.sqrt (Compare.exact (-10) 1) ⟨10, 0⟩ (fun d => deviations d.dim d.frames) threePhrases).train (Compare.exact (-10) 1) ⟨10, 0⟩ cancel
      (initExample 1 true h) = .ret t u ∧
    (trainee Dens.real Real.log Real.sqrt (Compare.exact (-10) 1) ⟨10, 0⟩ (fun d => deviations d.dim d.frames) threeSwapped).train (Compare.exact (-10) 1) ⟨10, 0⟩ cancel
      (initExample 1 true h) = .ret t u' ∧ u'.sts = u.sts := by
  obtain ⟨h1, h2, h3, h4, h5, _⟩ := initExample_ok 1 (by omega) true h
  obtain ⟨t, u, u', k1, k2, k3⟩ := C100_training_one_state Dens.real Dens.real_sound Real.log (fun x y hx hy => Real.log_mul hx.ne' hy.ne') (initExample 1 true h) h1 rfl h3
    threePhrases threeSwapped ⟨rfl, by simp [threePhrases, KData.frames, initExample], by simp [threePhrases, KData.frames]⟩ (by simp [threePhrases]) ⟨_, .head _, by simp⟩
    (by simp [threePhrases, KData.frames]) h5 ⟨⟨rfl, (List.Perm.swap _ _ _).cons _⟩, by simp [threePhrases, threeSwapped, initExample]⟩ (-10) 1 ⟨10, 0⟩ (by simp) cancel
  exact ⟨t, u, u', k1, k2, by rw [k3]⟩

end Hmm
end Xmm
