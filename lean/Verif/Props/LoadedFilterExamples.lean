import Verif.Props.LoadedFilter
import Verif.Props.ModelJsonExamples
import Verif.Props.GmmTrained
/- C90: the hypotheses are met by concrete models. -/
namespace Xmm
set_option linter.unusedSectionVars false

theorem Dens.onReals_answer {f : Prog (Gauss Fl) Fl} {g g' : Gauss ℝ} (h : (f g'.toFl).answer = (f g.toFl).answer) :
    (Dens.onReals f g').answer = (Dens.onReals f g).answer := by
  unfold Dens.onReals
  cases h1 : f g.toFl with
  | ret a s =>
    cases h2 : f g'.toFl with
    | ret b t =>
      rw [h1, h2] at h
      simp only [Res.answer, Option.some.injEq, Except.ok.injEq] at h
      subst h
      cases b <;> rfl
    | throw e t => rw [h1, h2] at h; simp [Res.answer] at h
    | ub => rw [h1, h2] at h; simp [Res.answer] at h
  | throw e s =>
    cases h2 : f g'.toFl with
    | ret b t => rw [h1, h2] at h; simp [Res.answer] at h
    | throw e' t =>
      rw [h1, h2] at h
      simp only [Res.answer, Option.some.injEq, Except.error.injEq] at h
      subst h
      rfl
    | ub => rw [h1, h2] at h; simp [Res.answer] at h
  | ub =>
    cases h2 : f g'.toFl with
    | ret b t => rw [h1, h2] at h; simp [Res.answer] at h
    | throw e t => rw [h1, h2] at h; simp [Res.answer] at h
    | ub => rfl

theorem Gauss.Restored.toFl {g g' : Gauss ℝ} (h : g.Restored g') : g.toFl.Restored g'.toFl := by
  obtain ⟨h1, h2, h3, h4, h5, h6, h7, h8, h9, h10⟩ := h
  constructor <;> simp only [Gauss.toFl, *]

/-- The likelihood functions of the code use nothing but what is saved of a component. -/
theorem Dens.real_blind : Dens.real.Blind where
  joint _ _ _ h := Dens.onReals_answer (Gauss.Restored.likelihood _ h.toFl _)
  input _ _ _ h := Dens.onReals_answer (Gauss.Restored.likelihoodInput _ h.toFl _)
  bimodal _ _ _ _ h := Dens.onReals_answer (Gauss.Restored.likelihoodBimodal _ h.toFl _ _)

namespace ModelJsonExamples

/-- likelihoods of rational numbers: the same for all observations -/
def dens : Dens ℚ := ⟨fun _ => pure 1, fun _ => pure 1, fun _ _ => pure 1⟩

theorem dens_sound : dens.Sound := ⟨fun _ _ _ _ _ => ⟨1, rfl, by norm_num⟩, fun _ _ _ _ _ _ => ⟨1, rfl, by norm_num⟩, fun _ _ _ _ _ _ _ _ => ⟨1, rfl, by norm_num⟩⟩

theorem dens_blind : dens.Blind := ⟨fun _ _ _ _ => rfl, fun _ _ _ _ => rfl, fun _ _ _ _ _ => rfl⟩

theorem gmmConfigFull : ∃ c s, GmmConfig (K := ℚ) id (1 / 1000) 1000 c s ∧ c.base.covMode.value = 0 := by
  have h := C27_configuration_gmm_partial (K := ℚ) (nar := id) (tiny := 1 / 1000) (realMax := 1000) (by constructor <;> norm_num) (by constructor <;> norm_num) 0 0 0
    (fun _ => 1) (fun _ => 1) (fun _ => 1) [.default (.gaussians 2), .label "a" (.relReg (1 / 10))] _ rfl (fun _ _ => ⟨rfl, rfl⟩) 0 1 (by decide) (by decide)
    (Configuration.fresh (GmmAttrs.type (1 / 1000) 1000) 0)
  obtain ⟨c, hc, -⟩ := h
  have h : GmmConfig (K := ℚ) id (1 / 1000) 1000 { c with multithreading := 0, estimator := 1 } _ := ⟨⟨0, fun _ => 1, _, rfl, c, hc, rfl⟩, by simp, by simp, fun _ _ => ⟨rfl, rfl⟩⟩
  exact ⟨_, _, h, congrArg GmmValues.covMode h.base⟩

theorem hmmConfigFull : ∃ c s, HmmConfig (K := ℚ) id (1 / 1000) 1000 c s ∧ c.base.covMode.value = 0 ∧ c.base.hierarchical.value = true := by
  have h := C27_configuration_hmm_partial (K := ℚ) (nar := id) (tiny := 1 / 1000) (realMax := 1000) (by constructor <;> norm_num) (by constructor <;> norm_num) 0 0 0
    (fun _ => 1) (fun _ => 1) (fun _ => 1) [.default (.states 2), .label "a" (.relReg (1 / 10))] _ rfl (fun _ _ => ⟨rfl, rfl⟩) 0 1 (by decide) (by decide)
    (Configuration.fresh (HmmAttrs.type (1 / 1000) 1000) 0)
  obtain ⟨c, hc, -⟩ := h
  have h : HmmConfig (K := ℚ) id (1 / 1000) 1000 { c with multithreading := 0, estimator := 1 } _ := ⟨⟨0, fun _ => 1, _, rfl, c, hc, rfl⟩, by simp, by simp, fun _ _ => ⟨rfl, rfl⟩⟩
  exact ⟨_, _, h, congrArg HmmValues.covMode h.means.1, congrArg HmmValues.hierarchical h.means.1⟩

theorem gmm_can : (gmm gauss).CanFilter := by
  have hg : ∀ g' ∈ (gmm gauss).comps, g' = gauss := fun g' h => by simpa [gmm] using h
  refine ⟨⟨⟨by simp [gmm], rfl, rfl, rfl, ?_⟩, ⟨by intro x hx; simp [gmm] at hx; rcases hx with rfl | rfl <;> norm_num, by norm_num [gmm]⟩, ?_⟩, rfl, by simp [gmm], ?_⟩
  · intro g' h
    rw [hg g' h]
    exact ⟨⟨rfl, rfl, rfl, fun _ => rfl, by simp [gauss]⟩, rfl, rfl, rfl, rfl⟩
  · intro g' h
    rw [hg g' h]
    simp [gauss]
  · intro _ g' h
    rw [hg g' h]
    rfl

/-- the hypotheses of `C90_gmm_partial` and of `C90_gmm_without_reset_ub` are met by a bimodal model with two classes -/
theorem gmm_saved : ∃ (B : GmmBody ℚ) (s : ConfigSpec (GmmValues ℚ)), SharedSavable (fun _ => true) id 1000 B.shared ∧ GmmConfig id (1 / 1000) 1000 B.config s ∧
    SMap.Sorted B.models ∧ (∀ lc ∈ B.models, lc.2.Savable id (1 / 1000) 1000 ∧ lc.2.Loadable ∧
      lc.2.view = ⟨B.shared.bimodal.value, B.shared.dimension.value, B.shared.dimensionInput.value, B.shared.window.value⟩) ∧ B.models.map Prod.fst = ["a", "b"] ∧
    (∀ lc ∈ B.models, lc.2.CanFilter ∧ BufOk lc.2.buf) ∧ B.shared.bimodal.value = true ∧ (∀ lc ∈ B.models, Gauss.modeCode lc.2.mode = B.config.base.covMode.value) ∧
    dens.Sound ∧ dens.Blind ∧ ∀ x ∈ [[1], [4]], ∀ lc ∈ B.models, lc.2.Fits x := by
  obtain ⟨sh, h1, v1, v2, v3, v4⟩ := someShared
  obtain ⟨c, s, h2, h3⟩ := gmmConfigFull
  have hB : ∀ lc ∈ ([("a", gmm gauss), ("b", gmm gauss)] : SMap String (Gmm ℚ)), lc.2 = gmm gauss := by
    intro lc hlc
    simp only [List.mem_cons, List.not_mem_nil, or_false] at hlc
    rcases hlc with rfl | rfl <;> rfl
  refine ⟨⟨sh, c, [("a", gmm gauss), ("b", gmm gauss)]⟩, s, h1, h2, sortedAB _ _, fun lc hlc => ?_, rfl, fun lc hlc => ?_, v1, fun lc hlc => ?_, dens_sound, dens_blind, fun x hx lc hlc => ?_⟩
  · rw [hB lc hlc]
    exact ⟨gmm_savable gauss_settled rfl, Or.inl rfl, by simp only [v1, v2, v3, v4]; rfl⟩
  · rw [hB lc hlc]
    exact ⟨gmm_can, rfl⟩
  · rw [hB lc hlc, h3]
    rfl
  · rw [hB lc hlc]
    simp only [List.mem_cons, List.not_mem_nil, or_false] at hx
    rcases hx with rfl | rfl <;> simp [Gmm.Fits, gmm]

theorem hmm_inHierarchy : (hmm gauss [0, 1 / 10]).InHierarchy := by
  have hg : ∀ st ∈ (hmm gauss [0, 1 / 10]).sts, st = gmm gauss := fun g' h => by simpa [hmm] using h
  refine ⟨⟨⟨by simp [hmm], rfl, nofun, rfl, ?_⟩, ⟨?_, ?_, ?_, ?_⟩, rfl, by simp [hmm], ?_⟩, rfl, rfl, ?_, ?_, ?_, ?_⟩
  · intro st h
    rw [hg st h]
    exact ⟨rfl, rfl, rfl, rfl, rfl⟩
  · intro i hi
    replace hi : i < 2 := hi
    interval_cases i <;> norm_num [HmmSpec.start, hmm]
  · norm_num [HmmSpec.start, Finset.sum_range_succ, hmm]
  · intro i hi j hj
    replace hi : i < 2 := hi
    replace hj : j < 2 := hj
    interval_cases i <;> interval_cases j <;> norm_num [HmmSpec.step, hmm]
  · intro i hi
    replace hi : i < 2 := hi
    interval_cases i <;> norm_num [HmmSpec.step, Finset.sum_range_succ, hmm]
  · intro st h
    rw [hg st h]
    exact ⟨gmm_can, 1, [], CBuf.Holds.init (channels := 1) (0 : ℚ) 1 (by omega)⟩
  · intro i hi
    replace hi : i < 2 := hi
    interval_cases i <;> norm_num [hmm]
  · intro i hi
    replace hi : i < 2 := hi
    interval_cases i <;> norm_num [hmm]
  · intro v hv
    simp only [hmm, List.mem_cons, List.not_mem_nil, or_false] at hv
    rcases hv with rfl | rfl | rfl | rfl <;> norm_num
  · intro _
    norm_num [hmm]

/-- the hypotheses of `C90_hierarchical_partial` and of `C90_hierarchical_without_reset_violated` are met by a bimodal model with two classes -/
theorem hmm_saved : ∃ (B : HierBody ℚ) (s : ConfigSpec (HmmValues ℚ)), SharedSavable (fun _ => true) id 1000 B.body.shared ∧ HmmConfig id (1 / 1000) 1000 B.body.config s ∧
    (∀ lc ∈ B.body.models, lc.2.Savable id (1 / 1000) 1000 ∧ lc.2.Loadable ∧
      lc.2.view = ⟨B.body.shared.bimodal.value, B.body.shared.dimension.value, B.body.shared.dimensionInput.value, B.body.shared.window.value⟩) ∧
    (HierBody.model B MultiRes.empty [] [] false).Trained ∧ B.body.models.map Prod.fst = ["a", "b"] ∧ (∀ lc ∈ B.body.models, lc.2.ergodic = false) ∧ dens.Sound ∧ dens.Blind ∧
    ∀ x ∈ [[1], [4]], ∀ lc ∈ B.body.models, lc.2.Fits x := by
  obtain ⟨sh, h1, v1, v2, v3, v4⟩ := someShared
  obtain ⟨c, s, h2, h3, h4⟩ := hmmConfigFull
  have hB : ∀ lc ∈ ([("a", hmm gauss [0, 1 / 10]), ("b", hmm gauss [0, 1 / 10])] : SMap String (Hmm ℚ)), lc.2 = hmm gauss [0, 1 / 10] := by
    intro lc hlc
    simp only [List.mem_cons, List.not_mem_nil, or_false] at hlc
    rcases hlc with rfl | rfl <;> rfl
  refine ⟨⟨⟨sh, c, [("a", hmm gauss [0, 1 / 10]), ("b", hmm gauss [0, 1 / 10])]⟩, [1 / 2, 1 / 2], [[1 / 2, 1 / 2], [1 / 3, 2 / 3]], [1 / 10, 1 / 10], false⟩, s, h1, h2,
    fun lc hlc => ?_, ⟨rfl, ⟨rfl, rfl, rfl, ?_, ?_, ?_, ?_, ?_, ?_, ?_⟩, h4, rfl, sortedAB _ _, fun lc hlc => ?_, fun _ lc hlc => ?_, fun lc hlc he => ?_⟩, rfl, fun lc hlc => ?_,
    dens_sound, dens_blind, fun x hx lc hlc => ?_⟩
  · rw [hB lc hlc]
    exact ⟨hmm_savable gauss_settled rfl, Or.inl rfl, by simp only [v1, v2, v3, v4]; rfl⟩
  · simp [HierBody.model]
  · simp [HierBody.model]
  · norm_num [HierBody.model]
  · norm_num [HierBody.model]
  · norm_num [HierBody.model]
  · norm_num [HierBody.model]
  · norm_num [HierBody.model]
  · rw [hB lc hlc]
    exact ⟨hmm_inHierarchy, v1.symm, by simp only [HierBody.model, v2, v3]; rfl, rfl⟩
  · rw [hB lc hlc]
    show CovMode.full = covModeOf c.base.covMode.value
    rw [h3]
    rfl
  · rw [hB lc hlc] at he
    cases he
  · rw [hB lc hlc]
    rfl
  · rw [hB lc hlc]
    simp only [List.mem_cons, List.not_mem_nil, or_false] at hx
    rcases hx with rfl | rfl <;> simp [Hmm.Fits, hmm]

end ModelJsonExamples
end Xmm
