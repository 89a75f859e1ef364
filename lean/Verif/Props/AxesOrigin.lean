import Verif.Props.Axes
set_option linter.unusedSimpArgs false
set_option linter.unusedSectionVars false
/- C98: the origin matters when k-means leaves a center without frames. -/
namespace Xmm.Gmm
open GmmSpec

/-- two components in dimension 1 -/
noncomputable def pair : Gmm ℝ where
  gaussians := 2
  mode := .full
  absReg := 1
  relReg := 0
  bimodal := false
  dim := 1
  di := 0
  window := 1
  comps := []
  coeffs := []
  beta := []
  reg := []
  training := false
  buf := ⟨[fun _ => 0], 1, 0, false⟩
  instant := 0
  logLik := 0
  outVals := []
  outCov := []

/-- one frame, then two frames, at the same place -/
noncomputable def still (v : ℝ) : KData ℝ := ⟨1, [[[v]], [[v], [v]]]⟩

theorem still_frames (v : ℝ) : (still v).frames = [[v], [v], [v]] := rfl

theorem pair_admissible : pair.Admissible := ⟨by decide, by decide, by decide⟩

theorem still_fed (v : ℝ) : pair.Fed [0] (still v) := ⟨rfl, by simp [still_frames, pair], by simp [still_frames], rfl⟩

theorem still_long (v : ℝ) : pair.LongPhrase (still v) := ⟨[[v], [v]], by simp [still], by simp [pair]⟩

/-- the first iteration, when the covariances are 1 -/
theorem first_step (v : ℝ) (a b : ℝ) (hc : ∀ cs, KMeans.IsClustering (1 / 10 ^ 20) 2 50 1 [[v], [v], [v]] (KMeans.segmentMean [[v]] 0) cs →
      KMeans.center cs 1 0 0 = a ∧ KMeans.center cs 1 1 0 = b) :
    ∃ s, trainRun Dens.real Real.log Real.sqrt [0] (still v) 1 pair = .ret [3 * Real.log
      (1 / 2 * max likelihoodFloor (Real.exp (-(1 / 2) * (v - a) ^ 2) / Real.sqrt (2 * Real.pi)) +
        1 / 2 * max likelihoodFloor (Real.exp (-(1 / 2) * (v - b) ^ 2) / Real.sqrt (2 * Real.pi)))] s := by
  obtain ⟨g, g1, hw⟩ := Gmm.allocate_ret pair pair_admissible.gaussians pair_admissible.dim pair_admissible.di
  set m1 : Gmm ℝ := { pair with
    coeffs := Gauss.resize pair.gaussians pair.coeffs, beta := Gauss.resize pair.gaussians pair.beta, comps := List.replicate pair.gaussians g } with hm1
  have n1 : m1.gaussians = 2 := rfl
  have n2 : m1.dim = 1 := rfl
  have hf1 : m1.Fed [0] (still v) := ⟨rfl, (still_fed v).frame, (still_fed v).some, rfl⟩
  have hr1 : (1 : ℝ) / 10 ^ 9 ≤ m1.absReg := by show (1 : ℝ) / 10 ^ 9 ≤ 1; norm_num
  obtain ⟨s, k1, k2, k3, k4⟩ := C82_initialised m1 hw [0] (still v) hf1 (still_long v) hr1
  have hin := init_inTraining m1 s hw [0] (still v) hf1 (still_long v) hr1 k1
  obtain ⟨s', u1, -, -⟩ := emUpdate_inTraining Dens.real Real.log (still v) s hin.wf hin.coeffs hin.trains hin.reg s.floored
    (UpToDate.density hin.wf (fun g hg => (hin.comp g hg).1) _ hin.trains.frame) (fun x _ c _ => floored_pos s x c)
  refine ⟨s', ?_⟩
  rw [trainRun, bind_of_ret g1, bind_of_ret k1]
  simp only [trainSteps, trainStep, Bool.true_or, if_true]
  rw [bind_of_ret (show (pure [] : Prog (Gmm ℝ) (List ℝ)) s = .ret [] s from rfl), bind_of_ret u1, Prog.pure_def]
  have hgs : s.gaussians = 2 := by rw [k2.same]; rfl
  have hdim : s.dim = 1 := by rw [k2.same]; rfl
  obtain ⟨cs, c1, c2⟩ := k2.mean
  rw [n1, n2] at c1
  obtain ⟨d1, d2⟩ := hc cs (by simpa [still, KData.frames] using c1)
  have hpdf : ∀ c < 2, s.floored [v] c = max likelihoodFloor (Real.exp (-(1 / 2) * (v - KMeans.center cs 1 c 0) ^ 2) / Real.sqrt (2 * Real.pi)) := by
    intro c hc
    obtain ⟨g, hg, hgc⟩ := getElem_comp hin.wf (hgs.symm ▸ hc)
    obtain ⟨-, gd, -⟩ := hin.wf.comp g hg
    have hmean : g.mean.getD 0 0 = KMeans.center cs 1 c 0 := c2 c g hgc 0 (by rw [n2]; decide)
    have hcov : g.covAt 0 0 = 1 := by
      rw [k2.cov c g hgc 0 (by rw [n2]; decide) 0 (by rw [n2]; decide)]
      have : segmentOf (still v) m1.gaussians c = [[v]] := by
        have : c = 0 ∨ c = 1 := by omega
        rw [n1]
        rcases this with rfl | rfl <;> simp [segmentOf, still]
      rw [this]
      simp [covariance, average, hm1, pair]
    have hm : covMatrix g 1 = 1 := by
      ext i j
      have hi : i = 0 := Subsingleton.elim _ _
      have hj : j = 0 := Subsingleton.elim _ _
      subst hi hj
      simpa [covMatrix] using hcov
    unfold floored pdf
    rw [hgc]
    simp only
    rw [(covMatrix_eq g 1 (gd.trans hdim)).2.1, hm]
    have hoff : (fun i : Fin 1 => [v].getD i.val 0 - g.mean.getD i.val 0) = fun _ => v - KMeans.center cs 1 c 0 := by
      funext i
      have hi : i = 0 := Subsingleton.elim _ _
      subst hi
      rw [← hmean]; rfl
    rw [hoff]
    unfold normalPdf
    rw [inv_one, Matrix.one_mulVec, Matrix.det_one, pow_one, mul_one]
    simp only [dotProduct, Finset.univ_unique, Finset.sum_const, Finset.card_singleton, one_smul, sq]
  congr 1
  simp only [List.nil_append]
  rw [still_frames]
  simp only [List.map_cons, List.map_nil, List.sum_cons, List.sum_nil, hin.total]
  simp only [hgs, Finset.sum_range_succ, Finset.sum_range_zero]
  have hco : ∀ c < 2, s.coeffs.getD c 0 = 1 / 2 := by
    intro c hc
    rw [k2.coeffs]
    have : c = 0 ∨ c = 1 := by omega
    rcases this with rfl | rfl <;> simp [hm1, pair]
  rw [hpdf 0 (by decide), hpdf 1 (by decide), hco 0 (by decide), hco 1 (by decide), d1, d2]
  congr 1
  ring_nf

/-- k-means at the origin -/
theorem centers_zero (cs : List ℝ) (h : KMeans.IsClustering (1 / 10 ^ 20) 2 50 1 [[0], [0], [0]] (KMeans.segmentMean [[0]] 0) cs) :
    KMeans.center cs 1 0 0 = 0 ∧ KMeans.center cs 1 1 0 = 0 := by
  obtain ⟨n, c, rfl, h1, h2, h3, -, -⟩ := h
  have key : ∀ i ≤ n, ∀ k < 2, KMeans.center (c i) 1 k 0 = 0 := by
    intro i hi k hk
    cases i with
    | zero => rw [h2 k hk 0 (by decide)]; simp [KMeans.segmentMean]
    | succ i =>
      rw [h3 i (by omega) k hk 0 (by decide)]
      split
      · rfl
      · unfold KMeans.meanOf
        have : ((KMeans.members 2 1 (c i) [[0], [0], [0]] k).map fun x => x.getD 0 0).sum = 0 := by
          refine List.sum_eq_zero fun y hy => ?_
          obtain ⟨x, hx, rfl⟩ := List.mem_map.1 hy
          have := (List.mem_filter.1 hx).1
          simp at this
          rw [this]; rfl
        rw [this, zero_div]
  exact ⟨key n le_rfl 0 (by decide), key n le_rfl 1 (by decide)⟩

/-- k-means away from the origin -/
theorem centers_one (cs : List ℝ) (h : KMeans.IsClustering (1 / 10 ^ 20) 2 50 1 [[1], [1], [1]] (KMeans.segmentMean [[1]] 0) cs) :
    KMeans.center cs 1 0 0 = 1 ∧ KMeans.center cs 1 1 0 = 0 := by
  obtain ⟨n, c, rfl, h1, h2, h3, -, h5⟩ := h
  have step : ∀ i < n, (KMeans.center (c i) 1 0 0 = 0 ∨ KMeans.center (c i) 1 0 0 = 1) → KMeans.center (c i) 1 1 0 = 0 →
      KMeans.center (c (i + 1)) 1 0 0 = 1 ∧ KMeans.center (c (i + 1)) 1 1 0 = 0 := by
    intro i hi ha hb
    have hd : ∀ k, KMeans.sqDist 1 [1] (c i) k = (1 - KMeans.center (c i) 1 k 0) ^ 2 := fun k => by simp [KMeans.sqDist]
    have hle : KMeans.sqDist 1 [1] (c i) 0 ≤ KMeans.sqDist 1 [1] (c i) 1 := by
      rw [hd, hd, hb]
      rcases ha with ha | ha <;> rw [ha] <;> norm_num
    have n0 : KMeans.Nearest 2 1 (c i) [1] 0 := ⟨by decide, fun j hj => by
      have : j = 0 ∨ j = 1 := by omega
      rcases this with rfl | rfl
      · exact le_rfl
      · exact hle, fun j hj => by omega⟩
    have n1 : ¬ KMeans.Nearest 2 1 (c i) [1] 1 := fun h => absurd (h.2.2 0 (by decide)) (not_lt.2 hle)
    have m0 : KMeans.members 2 1 (c i) [[1], [1], [1]] 0 = [[1], [1], [1]] := by simp [KMeans.members, n0]
    have m1 : KMeans.members 2 1 (c i) [[1], [1], [1]] 1 = [] := by simp [KMeans.members, n1]
    rw [h3 i hi 0 (by decide) 0 (by decide), h3 i hi 1 (by decide) 0 (by decide), m0, m1]
    simp [KMeans.meanOf]
    norm_num
  have key : ∀ i < n, KMeans.center (c (i + 1)) 1 0 0 = 1 ∧ KMeans.center (c (i + 1)) 1 1 0 = 0 := by
    intro i
    induction i with
    | zero =>
      intro hi
      exact step 0 hi (Or.inl (by rw [h2 0 (by decide) 0 (by decide)]; simp [KMeans.segmentMean])) (by rw [h2 1 (by decide) 0 (by decide)]; simp [KMeans.segmentMean])
    | succ i ih =>
      intro hi
      obtain ⟨a, b⟩ := ih (by omega)
      exact step (i + 1) hi (Or.inr a) b
  have hn : 0 < n := by
    by_cases h : n < 50
    · exact (h5 h).1
    · omega
  have := key (n - 1) (by omega)
  rwa [Nat.sub_add_cancel hn] at this

/-- the frames of `still 1`, with the origin moved there -/
noncomputable def toOrigin : NewAxes 1 where
  axis := Equiv.refl _
  sign _ := 1
  shift _ := -1
  unit _ := Or.inl rfl

theorem toOrigin_still : toOrigin.data (still 1) = still 0 := by
  have : toOrigin.frame [1] = [0] := by simp [NewAxes.frame, toOrigin]
  simp [NewAxes.data, still, this]

/-- **C98 violated**: when the first phrase has fewer frames than there are components, or when k-means leaves a center without frames, that center is at the origin, and the
    training depends on where the origin is.  Three frames at the same place, two components: the log-likelihood of the first iteration is not the same if the place is the origin. -/
theorem C98_origin_violated : ∃ (m : Gmm ℝ) (sd : List ℝ) (data : KData ℝ) (A : NewAxes m.dim), m.Admissible ∧ m.Fed sd data ∧ 1 / 10 ^ 9 ≤ m.absReg ∧
    ∃ ls s ls' s', trainRun Dens.real Real.log Real.sqrt sd data 1 m = .ret ls s ∧
      trainRun Dens.real Real.log Real.sqrt (A.spread sd) (A.data data) 1 m = .ret ls' s' ∧ ls ≠ ls' := by
  obtain ⟨s, h1⟩ := first_step 1 1 0 centers_one
  obtain ⟨s', h2⟩ := first_step 0 0 0 centers_zero
  have e1 : toOrigin.spread [0] = [0] := by simp [NewAxes.spread, toOrigin]
  rw [← toOrigin_still] at h2
  nth_rw 1 [← e1] at h2
  refine ⟨pair, [0], still 1, toOrigin, pair_admissible, still_fed 1, by show (1 : ℝ) / 10 ^ 9 ≤ 1; norm_num, _, s, _, s', h1, h2, ?_⟩
  · intro h
    simp only [List.cons.injEq, and_true] at h
    have hpi := Real.pi_pos
    have hq : 0 < Real.sqrt (2 * Real.pi) := Real.sqrt_pos.2 (by positivity)
    have hbig : likelihoodFloor < 1 / Real.sqrt (2 * Real.pi) := by
      have h9 : Real.sqrt (2 * Real.pi) ≤ 10 := by
        rw [Real.sqrt_le_left (by norm_num)]
        have := Real.pi_le_four
        nlinarith
      have : (1 : ℝ) / 10 ≤ 1 / Real.sqrt (2 * Real.pi) := one_div_le_one_div_of_le hq h9
      refine lt_of_lt_of_le ?_ this
      unfold likelihoodFloor
      norm_num
    have hexp : Real.exp (-(1 / 2) * (1 - 0) ^ 2) < 1 := by
      rw [Real.exp_lt_one_iff]; norm_num
    have hlt : max likelihoodFloor (Real.exp (-(1 / 2) * (1 - 0) ^ 2) / Real.sqrt (2 * Real.pi)) < 1 / Real.sqrt (2 * Real.pi) :=
      max_lt hbig ((div_lt_div_iff_of_pos_right hq).2 hexp)
    have hpos : 0 < max likelihoodFloor (Real.exp (-(1 / 2) * (1 - 0) ^ 2) / Real.sqrt (2 * Real.pi)) :=
      lt_of_lt_of_le (by unfold likelihoodFloor; positivity) (le_max_left _ _)
    have e0 : max likelihoodFloor (Real.exp (-(1 / 2) * ((1 : ℝ) - 1) ^ 2) / Real.sqrt (2 * Real.pi)) = 1 / Real.sqrt (2 * Real.pi) := by
      rw [sub_self]; simp only [ne_eq, OfNat.ofNat_ne_zero, not_false_eq_true, zero_pow, mul_zero, Real.exp_zero]
      exact max_eq_right hbig.le
    have e1 : max likelihoodFloor (Real.exp (-(1 / 2) * ((0 : ℝ) - 0) ^ 2) / Real.sqrt (2 * Real.pi)) = 1 / Real.sqrt (2 * Real.pi) := by
      rw [sub_self]; simp only [ne_eq, OfNat.ofNat_ne_zero, not_false_eq_true, zero_pow, mul_zero, Real.exp_zero]
      exact max_eq_right hbig.le
    rw [e0, e1] at h
    have := Real.log_lt_log (by positivity) (show 1 / 2 * (1 / Real.sqrt (2 * Real.pi)) + 1 / 2 * max likelihoodFloor (Real.exp (-(1 / 2) * ((1 : ℝ) - 0) ^ 2) / Real.sqrt (2 * Real.pi)) <
      1 / 2 * (1 / Real.sqrt (2 * Real.pi)) + 1 / 2 * (1 / Real.sqrt (2 * Real.pi)) by linarith)
    linarith

/-- with one component and a first phrase that is not empty, the origin does not matter -/
theorem steady_one (m : Gmm ℝ) (h1 : m.gaussians = 1) (data : KData ℝ) (hne : data.phrases.headD [] ≠ []) : m.Steady data := by
  refine ⟨by rw [h1]; exact List.length_pos_iff.2 hne, ?_⟩
  intro n cs _ _ _ _ i _ k hk
  rw [h1] at hk ⊢
  have : k = 0 := by omega
  subst this
  have hall : ∀ x, KMeans.Nearest 1 m.dim (cs i) x 0 := fun x => ⟨by decide, fun j hj => by
    have : j = 0 := by omega
    rw [this], fun j hj => by omega⟩
  have : KMeans.members 1 m.dim (cs i) data.frames 0 = data.frames := by simp [KMeans.members, hall]
  rw [this]
  intro h
  apply hne
  unfold KData.frames at h
  rw [List.flatten_eq_nil_iff] at h
  cases hp : data.phrases with
  | nil => rfl
  | cons p r => exact h p (by rw [hp]; exact List.mem_cons_self)

/-- two places -/
noncomputable def apart : KData ℝ := ⟨1, [[[0], [10]]]⟩

theorem apart_steady : pair.Steady apart := by
  refine ⟨by simp [apart, pair], ?_⟩
  show KMeans.NoneIdle (1 / 10 ^ 20) 2 50 1 [[0], [10]] (KMeans.segmentMean [[0], [10]] 1)
  intro n c hn h2 h3 _
  have hd : ∀ i (x : ℝ) k, KMeans.sqDist 1 [x] (c i) k = (x - KMeans.center (c i) 1 k 0) ^ 2 := fun i x k => by simp [KMeans.sqDist]
  have near : ∀ i, KMeans.center (c i) 1 0 0 = 0 → KMeans.center (c i) 1 1 0 = 10 →
      KMeans.members 2 1 (c i) [[0], [10]] 0 = [[0]] ∧ KMeans.members 2 1 (c i) [[0], [10]] 1 = [[10]] := by
    intro i ha hb
    have a0 : KMeans.Nearest 2 1 (c i) [0] 0 := ⟨by decide, fun j hj => by
      have : j = 0 ∨ j = 1 := by omega
      rcases this with rfl | rfl
      · exact le_rfl
      · rw [hd, hd, ha, hb]; norm_num, fun j hj => by omega⟩
    have a1 : ¬ KMeans.Nearest 2 1 (c i) [0] 1 := fun h => by
      have := h.2.1 0 (by decide)
      rw [hd, hd, ha, hb] at this; norm_num at this
    have b0 : ¬ KMeans.Nearest 2 1 (c i) [10] 0 := fun h => by
      have := h.2.1 1 (by decide)
      rw [hd, hd, ha, hb] at this; norm_num at this
    have b1 : KMeans.Nearest 2 1 (c i) [10] 1 := ⟨by decide, fun j hj => by
      have : j = 0 ∨ j = 1 := by omega
      rcases this with rfl | rfl
      · rw [hd, hd, ha, hb]; norm_num
      · exact le_rfl, fun j hj => by
      have : j = 0 := by omega
      subst this
      rw [hd, hd, ha, hb]; norm_num⟩
    constructor
    · simp [KMeans.members, a0, b0]
    · simp [KMeans.members, a1, b1]
  have key : ∀ i ≤ n, KMeans.center (c i) 1 0 0 = 0 ∧ KMeans.center (c i) 1 1 0 = 10 := by
    intro i
    induction i with
    | zero =>
      intro _
      rw [h2 0 (by decide) 0 (by decide), h2 1 (by decide) 0 (by decide)]
      simp [KMeans.segmentMean]
    | succ i ih =>
      intro hi
      obtain ⟨a, b⟩ := ih (by omega)
      obtain ⟨p, q⟩ := near i a b
      rw [h3 i (by omega) 0 (by decide) 0 (by decide), h3 i (by omega) 1 (by decide) 0 (by decide), p, q]
      simp [KMeans.meanOf]
  intro i hi k hk
  obtain ⟨a, b⟩ := key i (by omega)
  obtain ⟨p, q⟩ := near i a b
  have : k = 0 ∨ k = 1 := by omega
  rcases this with rfl | rfl
  · rw [p]; simp
  · rw [q]; simp

/-- Non-vacuity of C98: two components, two places, the axis reversed and the origin moved; the hypotheses hold, so the two trainings are related. -/
example : ∃ (m : Gmm ℝ) (data : KData ℝ) (A : NewAxes m.dim), m.Admissible ∧ m.bimodal = false ∧ 1 ≤ m.window ∧ BufOk m.buf ∧ m.gaussians = 2 ∧
    m.Fed (deviations m.dim data.frames) data ∧ 1 / 10 ^ 9 ≤ m.absReg ∧ m.Steady data ∧ A.frame [10] = [-3] :=
  ⟨pair, apart, ⟨Equiv.refl _, fun _ => -1, fun _ => 7, fun _ => Or.inr rfl⟩, pair_admissible, rfl, le_refl _, rfl, rfl,
    ⟨rfl, by simp [apart, KData.frames, pair], by simp [apart, KData.frames], by simp [deviations]⟩, by show (1 : ℝ) / 10 ^ 9 ≤ 1; norm_num, apart_steady, by
      simp [NewAxes.frame, pair]; norm_num⟩

end Xmm.Gmm
