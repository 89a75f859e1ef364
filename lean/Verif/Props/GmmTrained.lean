import Verif.Props.GmmRecognition
set_option linter.unusedSimpArgs false
set_option linter.unusedSectionVars false
/- A mixture that has been trained can be used for recognition (C36, C38, C40, C51). -/
namespace Xmm.Gmm
open Prog (bind_def pure_def get_def set_def modify_def throw_def undef_def)
open GmmSpec RecSpec
variable {K : Type} [Field K] [LinearOrder K] [IsStrictOrderedRing K]

/-- inverting the covariance of a bimodal distribution sizes its output covariance -/
theorem outCov_length (g g' : Gauss K) (hw : g.WF) (h : Gauss.updateInverseCovariance g = .ret () g') (hb : g.bimodal = true) :
    g'.outCov.length = outCells g.mode (g.dim - g.di) := by
  have key : ∀ g1 g2 : Gauss K, g1.WF → g1.bimodal = true → Gauss.updateOutputIfBimodal g1 = .ret () g2 →
      g2.outCov.length = outCells g1.mode (g1.dim - g1.di) := by
    intro g1 g2 hw1 hb1 ho
    simp only [Gauss.updateOutputIfBimodal, bind_def, get_def, hb1, if_true] at ho
    rcases mode_cases g1 with hm | hm
    · obtain ⟨h1, h2⟩ := Gauss.updateOutput_full g1 hw1 hm hb1
      cases hp : (Gauss.covMatIn g1).pinv with
      | error e' => rw [h1 e' hp] at ho; cases ho
      | ok r =>
        obtain ⟨v, e', hv, _⟩ := h2 r.1 r.2 hp
        rw [e'] at ho
        cases ho
        simp only [hv, outCells, hm]
    · rw [Gauss.updateOutput_diagonal g1 hw1 hm hb1] at ho
      cases ho
      have hc : g1.cov.length = g1.dim := by have := hw1.cov; rw [hm] at this; exact this
      simp only [outCells, hm, List.length_drop, hc]
  rcases mode_cases g with hm | hm
  · rw [updateInverse_full g hm] at h
    cases hf : Gauss.updateInverseFull g with
    | ret a g1 =>
      rw [hf] at h
      have hi := (full_inverted g g1 hw hm hf).1
      rw [key g1 g' hi.wf (hi.same.bimodal.trans hb) h, hi.same.mode, hi.same.dim, hi.same.di]
    | ub => rw [hf] at h; cases h
    | throw e1 g1 => rw [hf] at h; cases h
  · rw [updateInverse_diagonal g hm] at h
    rcases Gauss.first_nonpos (fun i => g.cov.getD i 0) g.dim with hp | ⟨j, hj, hc, hp⟩
    · rw [(Gauss.updateInverseDiagonal_eq g hw hm).1 hp] at h
      have hs := diagState_spec g hw hm hp
      rw [key _ g' hs.1 (hs.2.1.bimodal.trans hb) h, hs.2.1.mode, hs.2.1.dim, hs.2.1.di]
    · rw [(Gauss.updateInverseDiagonal_eq g hw hm).2 j hj hc hp] at h
      cases h

theorem updateInverses_out (m m' : Gmm K) (hw : m.WF) (h : updateInverseCovariances m = .ret () m') (hb : m.bimodal = true) :
    ∀ g ∈ m'.comps, g.outCov.length = outCells m.mode (m.dim - m.di) := by
  obtain ⟨l, _, h2⟩ := eachComp_throws Gauss.updateInverseCovariance (fun _ _ => True) (fun _ => trivial) m (by
    intro g hg
    have w := (hw.comp g hg).1
    cases hr : Gauss.updateInverseCovariance g with
    | ret a g' => exact ⟨g', trivial, Or.inl rfl⟩
    | throw e g' => exact ⟨g', trivial, Or.inr ⟨e, rfl⟩⟩
    | ub => exact absurd hr (C31_no_ub g w))
  rcases h2 with ⟨h2, h4⟩ | ⟨e, h2⟩
  · simp only [updateInverseCovariances, h2] at h
    cases h
    intro g' hg'
    rw [List.forall₂_iff_get] at h4
    obtain ⟨i, hi, rfl⟩ := List.getElem_of_mem hg'
    have hi' : i < m.comps.length := by rw [h4.1]; exact hi
    have e := h4.2 i hi' hi
    simp only [List.get_eq_getElem] at e
    obtain ⟨w, r1, r2, r3, r4⟩ := hw.comp _ (List.getElem_mem hi')
    rw [outCov_length _ _ w e (r4.trans hb), r1, r2, r3]
  · simp only [updateInverseCovariances, h2] at h
    cases h

/-- Training makes recognition possible: after an iteration of expectation-maximisation that returned, the mixture fulfils the
    hypotheses of C38, C40 and C51. -/
theorem C38_trained_filters (D : Dens K) (hD : D.Sound) (log : K → K) (data : KData K) (m m' : Gmm K) (ll : K) (hr : m.Ready)
    (ht : m.Trains data) (hi : m.training = false) (hwin : 1 ≤ m.window) (h : emUpdate D log data m = .ret ll m') :
    m'.CanFilter := by
  obtain ⟨m1, e, _, _, h4⟩ := C36_em_update D hD log data m hr ht
  have hr' := (h4 _ _ h).1
  rw [h] at e
  cases e
  obtain ⟨dens, hd, hp⟩ := densities_exist D hD m hr data.frames ht.frame
  obtain ⟨m2, hu, run⟩ := emUpdate_run D log data m hr.wf ht dens hd
  obtain ⟨m3, hu3, hrun3⟩ := C67_em_update_exact D log data m hr.wf ht dens hd
  have h3 : m3 = m' := by
    rcases hrun3 with ⟨hrun, _⟩ | hrun
    · rw [hrun] at h; cases h; rfl
    · rw [hrun] at h; cases h
  subst h3
  have hsame := hu3.same
  have ho : updateInverseCovariances m2 = .ret () m3 := by
    rw [run] at h
    obtain ⟨a, s1, h5, h6⟩ := bind_ret h
    rw [pure_def] at h6
    cases h6
    exact h5
  refine ⟨hr', by rw [hsame]; exact hi, by rw [hsame]; exact hwin, fun hb => ?_⟩
  have s2 := hu.same
  have b2 : m2.bimodal = m3.bimodal := by rw [s2, hsame]
  have b3 : m2.mode = m3.mode := by rw [s2, hsame]
  have b4 : m2.dim = m3.dim := by rw [s2, hsame]
  have b5 : m2.di = m3.di := by rw [s2, hsame]
  have := updateInverses_out m2 m3 hu.wf ho (b2.trans hb)
  rw [b3, b4, b5] at this
  exact this

/-- Non-vacuity: a bimodal mixture of two components (one input, one output), with the likelihoods of the code. -/
theorem usable_exists : ∃ m : Gmm ℝ, m.CanFilter ∧ m.bimodal = true ∧ m.gaussians = 2 ∧ BufOk m.buf ∧ Logs m.buf m.window [] ∧ m.Fits [1] ∧
    Dens.real.Sound ∧ m.mode = .full ∧ m.dim = 2 ∧ m.di = 1 ∧ m.reg = [1 / 1000, 1 / 1000] := by
  let g : ℝ → Gauss ℝ := fun μ => {
    bimodal := true, dim := 2, dimMin := 2, di := 1, diMax := 1, mode := .full, mean := [μ, μ], cov := [1, 0, 0, 1],
    inv := [1, 0, 0, 1], det := 1, invIn := [1], detIn := 1, outCov := [1] }
  refine ⟨{
    gaussians := 2, mode := .full, absReg := 1 / 1000, relReg := 1 / 100, bimodal := true, dim := 2, di := 1, window := 3,
    comps := [g 0, g 4], coeffs := [1 / 4, 3 / 4], beta := [0, 0], reg := [1 / 1000, 1 / 1000], training := false,
    buf := CBuf.construct 0 1 3, instant := 0, logLik := 0, outVals := [], outCov := [] }, ⟨⟨⟨by simp, rfl, rfl, rfl, ?_⟩,
    ⟨by intro x hx; simp at hx; rcases hx with rfl | rfl <;> norm_num, by norm_num⟩, ?_⟩, rfl, by simp, ?_⟩, rfl, rfl, rfl,
    CBuf.Holds.init 0 3 (by omega), by simp [Fits], Dens.real_sound, rfl, rfl, rfl, rfl⟩
  · intro g' hg'
    simp only [List.mem_cons, List.not_mem_nil, or_false] at hg'
    rcases hg' with rfl | rfl <;> exact ⟨⟨rfl, rfl, rfl, fun _ => rfl, by simp [g]⟩, rfl, rfl, rfl, rfl⟩
  · intro g' hg'
    simp only [List.mem_cons, List.not_mem_nil, or_false] at hg'
    rcases hg' with rfl | rfl <;> simp [g]
  · intro _ g' hg'
    simp only [List.mem_cons, List.not_mem_nil, or_false] at hg'
    rcases hg' with rfl | rfl <;> rfl

end Xmm.Gmm
