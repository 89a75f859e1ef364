import Verif.Props.GaussianDensity
import Verif.Props.GaussianUpdate
import Verif.Props.MatrixRegular
set_option linter.unusedSimpArgs false
set_option linter.unusedSectionVars false
/- C68: Gaussian distributions with a sufficiently regularised covariance. -/
namespace Xmm
open Prog (bind_def pure_def get_def set_def modify_def throw_def undef_def)
open Gauss
variable {K : Type} [Field K] [LinearOrder K] [IsStrictOrderedRing K]

/-- the covariance is symmetric and its quadratic form is at least 1e-9 times the squared length -/
structure Gauss.Regular (g : Gauss K) : Prop where
  symm : ∀ i < g.dim, ∀ j < g.dim, g.covAt i j = g.covAt j i
  quad : ∀ v : Nat → K, 1 / 10 ^ 9 * ∑ i ∈ Finset.range g.dim, v i ^ 2 ≤
    ∑ i ∈ Finset.range g.dim, ∑ j ∈ Finset.range g.dim, v i * g.covAt i j * v j

theorem Gauss.Regular.sigma {g : Gauss K} (h : g.Regular) (n : Nat) (hn : n ≤ g.dim) (v : Fin n → K) :
    1 / 10 ^ 9 * ∑ i, v i ^ 2 ≤ ∑ i, ∑ j, v i * g.sigma (Fin.castLE hn i) (Fin.castLE hn j) * v j := by
  set u : Nat → K := fun i => if hi : i < n then v ⟨i, hi⟩ else 0 with hu
  have hui : ∀ i : Fin n, u i.val = v i := fun i => by simp [hu]
  have hz : ∀ i, i ∉ Finset.range n → u i = 0 := fun i hi => by
    rw [Finset.mem_range] at hi
    simp [hu, hi]
  have hsub : Finset.range n ⊆ Finset.range g.dim := Finset.range_subset_range.2 hn
  have e1 : ∑ i, v i ^ 2 = ∑ i ∈ Finset.range g.dim, u i ^ 2 := by
    rw [← Finset.sum_subset hsub (fun i _ hi => by rw [hz i hi]; ring), Finset.sum_range]
    exact Finset.sum_congr rfl fun i _ => by rw [hui]
  have e2 : ∑ i, ∑ j, v i * g.sigma (Fin.castLE hn i) (Fin.castLE hn j) * v j =
      ∑ i ∈ Finset.range g.dim, ∑ j ∈ Finset.range g.dim, u i * g.covAt i j * u j := by
    rw [← Finset.sum_subset hsub (fun i _ hi => by
      rw [hz i hi]; simp), Finset.sum_range]
    refine Finset.sum_congr rfl fun i _ => ?_
    rw [← Finset.sum_subset hsub (fun j _ hj => by rw [hz j hj]; simp), Finset.sum_range]
    refine Finset.sum_congr rfl fun j _ => ?_
    rw [hui, hui, sigma_covAt]; rfl
  rw [e1, e2]
  exact h.quad u

theorem Gauss.Regular.variance {g : Gauss K} (h : g.Regular) (i : Nat) (hi : i < g.dim) : 1 / 10 ^ 9 ≤ g.covAt i i := by
  have := h.quad (fun k => if k = i then 1 else 0)
  have e1 : ∑ k ∈ Finset.range g.dim, (if k = i then (1 : K) else 0) ^ 2 = 1 := by
    rw [Finset.sum_eq_single i]
    · simp
    · intro b _ hb; simp [hb]
    · intro h0; exact absurd (Finset.mem_range.2 hi) h0
  have e2 : ∑ k ∈ Finset.range g.dim, ∑ j ∈ Finset.range g.dim,
      (if k = i then (1 : K) else 0) * g.covAt k j * (if j = i then 1 else 0) = g.covAt i i := by
    rw [Finset.sum_eq_single i]
    · rw [Finset.sum_eq_single i]
      · simp
      · intro b _ hb; simp [hb]
      · intro h0; exact absurd (Finset.mem_range.2 hi) h0
    · intro b _ hb; simp [hb]
    · intro h0; exact absurd (Finset.mem_range.2 hi) h0
  rw [e1, e2, mul_one] at this
  exact this

theorem updateOutput_ret (g : Gauss K) (hw : g.WF)
    (hfull : g.mode = .full → g.bimodal = true → ∃ y d, (covMatIn g).pinv = .ok (y, d)) :
    ∃ v, updateOutputIfBimodal g = .ret () { g with outCov := v } := by
  simp only [updateOutputIfBimodal, bind_def, get_def]
  rcases bool_cases g.bimodal with hb | hb
  · simp only [hb, Bool.false_eq_true, if_false, pure_def]
    exact ⟨g.outCov, by rw [← hb]⟩
  · rw [if_pos hb]
    rcases mode_cases g with hm | hm
    · obtain ⟨y, d, hp⟩ := hfull hm hb
      obtain ⟨v, h1, _⟩ := (Gauss.updateOutput_full g hw hm hb).2 y d hp
      exact ⟨v, h1⟩
    · exact ⟨_, Gauss.updateOutput_diagonal g hw hm hb⟩

/-- C68: a distribution whose covariance is symmetric with quadratic form at least 1e-9 is always inverted, and the determinants it
    reports are the determinants, which are positive. -/
theorem C68_gaussian_inverts (g : Gauss K) (hw : g.WF) (h : g.Regular) :
    ∃ g', updateInverseCovariance g = .ret () g' ∧ g'.det = g'.sigma.det ∧ 0 < g'.det ∧
      (g.bimodal = true → ∀ hle : g'.di ≤ g'.dim, g'.detIn = (g'.sigmaIn hle).det ∧ 0 < g'.detIn) := by
  have key : ∃ g', updateInverseCovariance g = .ret () g' ∧ (g.mode = .full → g'.det = g'.sigma.det ∧ 0 < g'.det ∧
      (g.bimodal = true → ∀ hle : g'.di ≤ g'.dim, g'.detIn = (g'.sigmaIn hle).det ∧ 0 < g'.detIn)) := by
    rcases mode_cases g with hm | hm
    · have hs : ∀ i j, g.sigma i j = g.sigma j i := fun i j => by
        rw [sigma_covAt, sigma_covAt, h.symm _ i.isLt _ j.isLt]
      obtain ⟨x, X, hp, hpos, hX, _⟩ := C68_regular_inverse (covMat g) g.sigma (covMat_holds g hm) hs
        (fun v => h.sigma g.dim (le_refl _) v)
      have hlx : (cells x).length = g.dim * g.dim := by
        have := Gauss.pinv_cells (Gauss.covMat_holds g hm) hp
        exact this.1
      rcases bool_cases g.bimodal with hb | hb
      · have hf : updateInverseFull g = .ret () { g with det := g.sigma.det, inv := cells x } := by
          rw [updateInverseFull_eq g hw hm]
          simp only [hp, hb, Bool.false_eq_true, if_false]
        obtain ⟨v, ho⟩ := updateOutput_ret { g with det := g.sigma.det, inv := cells x }
          ⟨hw.mean, hw.cov, by simp only [hm, hlx], hw.invIn, hw.le⟩ (fun _ h => by
            have h' : g.bimodal = true := h
            rw [hb] at h'; cases h')
        rw [updateInverse_full g hm, hf]
        exact ⟨_, ho, fun _ => ⟨rfl, hpos, fun h => by rw [hb] at h; cases h⟩⟩
      · have hle := hw.le hb
        obtain ⟨y, Y, hq, hpos', hY, _⟩ := C68_regular_inverse (covMatIn g) (g.sigmaIn hle) (covMatIn_holds g hm hle)
          (fun i j => hs _ _) (fun v => h.sigma g.di hle v)
        have hly : (cells y).length = g.di * g.di := (Gauss.pinv_cells (Gauss.covMatIn_holds g hm hle) hq).1
        have hf : updateInverseFull g = .ret () { g with
            det := g.sigma.det, inv := cells x, detIn := (g.sigmaIn hle).det, invIn := cells y } := by
          rw [updateInverseFull_eq g hw hm]
          simp only [hp, hq, hb, if_true]
        obtain ⟨v, ho⟩ := updateOutput_ret { g with
            det := g.sigma.det, inv := cells x, detIn := (g.sigmaIn hle).det, invIn := cells y } ⟨hw.mean, hw.cov, by simp only [hm, hlx], fun _ => by simp only [hm, hly], hw.le⟩
          (fun _ _ => ⟨y, _, hq⟩)
        rw [updateInverse_full g hm, hf]
        exact ⟨_, ho, fun _ => ⟨rfl, hpos, fun _ _ => ⟨rfl, hpos'⟩⟩⟩
    · have hp : ∀ i < g.dim, 0 < g.cov.getD i 0 := by
        intro i hi
        have := h.variance i hi
        simp only [Gauss.covAt, hm, if_true] at this
        exact lt_of_lt_of_le (by positivity) this
      obtain ⟨v, ho⟩ := updateOutput_ret (Gauss.diagState g g.dim) (diagState_spec g hw hm hp).1 (fun h0 _ => by
        have h' : g.mode = .full := h0
        rw [hm] at h'; cases h')
      rw [updateInverse_diagonal g hm, (Gauss.updateInverseDiagonal_eq g hw hm).1 hp]
      exact ⟨_, ho, fun h0 => by rw [hm] at h0; cases h0⟩
  obtain ⟨g', hu, hfull⟩ := key
  refine ⟨g', hu, ?_⟩
  rcases mode_cases g with hm | hm
  · exact hfull hm
  · have d := C31_determinant g g' hw hu
    exact ⟨(d.1 hm).1, (d.1 hm).2, fun hb hle => (d.2.2 hb hle).1 hm⟩

/-- C68: with such a covariance the likelihood is the normal density, floored at 1e-180, for every observation; no exception, and
    no wrong sign of the determinant. -/
theorem C68_likelihood_is_density (g : Gauss ℝ) (hw : g.WF) (h : g.Regular) :
    ∃ g', updateInverseCovariance g = .ret () g' ∧ ∀ obs : List ℝ, g.dim ≤ obs.length →
      likelihood Fl.exact (obs.map .fin) g'.toFl =
        .ret (.fin (max likelihoodFloor (normalPdf g'.sigma (g'.offset obs)))) g'.toFl := by
  obtain ⟨g', hu, hd, hpos, _⟩ := C68_gaussian_inverts g hw h
  exact ⟨g', hu, fun obs ho => C60_likelihood_is_density g g' hw hu (hd ▸ hpos) hpos obs ho⟩

/-- Non-vacuity: a correlated two-dimensional distribution. -/
example : ∃ g : Gauss ℚ, g.WF ∧ g.Regular ∧ g.mode = .full ∧ g.covAt 0 1 = 1 := by
  refine ⟨{
    bimodal := false, dim := 2, dimMin := 1, di := 0, diMax := 0, mode := .full, mean := [0, 0],
    cov := [2, 1, 1, 2], inv := [1, 0, 0, 1], det := 1, invIn := [], detIn := 1, outCov := [] },
    ⟨rfl, rfl, rfl, by simp, by simp⟩, ⟨?_, ?_⟩, rfl, rfl⟩
  · intro i hi j hj
    simp only at hi hj
    interval_cases i <;> interval_cases j <;> rfl
  · intro v
    simp only [Finset.sum_range_succ, Finset.sum_range_zero, Gauss.covAt]
    simp only [List.getD_eq_getElem?_getD, Nat.zero_mul, Nat.one_mul, Nat.zero_add, Nat.reduceAdd, Nat.add_zero]
    simp
    nlinarith [sq_nonneg (v 0 + v 1), sq_nonneg (v 0), sq_nonneg (v 1)]

end Xmm
