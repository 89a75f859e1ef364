import Verif.Props.LoadedTrainHmm
import Verif.Props.LoadedTrainExamples
import Verif.Props.LoadedFilterExamples
set_option linter.unusedSectionVars false
/- C114: the hypotheses are met by a concrete hierarchical hidden Markov model and a concrete session. -/
namespace Xmm.LoadedTrainExamples
open Xmm TS

/-- two states for every class -/
theorem hmmConfig : letI := JsonReal.truncated
    ∃ c s, HmmConfig (K := ℝ) id (1 / 1000) 1000 c s ∧ c.base.hierarchical.value = true ∧
      ∀ l, (Configuration.paramsFor l c).params.n = 2 ∧ (Configuration.paramsFor l c).params.gaussians = 1 ∧ (Configuration.paramsFor l c).params.ergodic = false ∧
        (Configuration.paramsFor l c).params.absReg = 1 / 1000 := by
  let _ := JsonReal.truncated
  have h := C27_configuration_hmm_partial (K := ℝ) (nar := id) (tiny := 1 / 1000) (realMax := 1000) (by constructor <;> norm_num) (by constructor <;> norm_num) 0 0 0
    (fun _ => 1) (fun _ => 1) (fun _ => 1) [.default (.states 2)] _ rfl (fun _ _ => ⟨rfl, rfl⟩) 0 1 (by decide) (by decide)
    (Configuration.fresh (HmmAttrs.type (1 / 1000) 1000) 0)
  obtain ⟨c, hc, -⟩ := h
  have h : HmmConfig (K := ℝ) id (1 / 1000) 1000 { c with multithreading := 0, estimator := 1 } _ := ⟨⟨0, fun _ => 1, _, rfl, c, hc, rfl⟩, by simp, by simp, fun _ _ => ⟨rfl, rfl⟩⟩
  refine ⟨_, _, h, congrArg HmmValues.hierarchical h.means.1, fun l => ?_⟩
  have k := h.means.2 l
  simp only [HmmAttrs.params]
  refine ⟨congrArg HmmValues.states k, congrArg HmmValues.gaussians k, ?_, congrArg HmmValues.absReg k⟩
  have e := congrArg HmmValues.transMode k
  exact (congrArg (fun v : Int => decide (v = 0)) e).trans rfl

/-- a class of a hierarchical model: two states, left to right -/
noncomputable def hmm : Hmm ℝ where
  n := 2
  gaussians := 2
  ergodic := false
  est := .windowed
  absReg := 1 / 100
  relReg := 1 / 10
  mode := .diagonal
  bimodal := false
  dim := 1
  di := 0
  window := 1
  sts := [gmm, gmm]
  prior := []
  trans := [1 / 2, 1 / 2, 1, 0]
  alpha := [0, 0]
  prevAlpha := [0, 0]
  beta := [0, 0]
  prevBeta := [0, 0]
  alpha0 := []
  alpha1 := []
  alpha2 := []
  exitP := [0, 1 / 10]
  hier := true
  started := false
  training := false
  winMin := 0
  winMax := 0
  winNorm := 0
  buf := CBuf.construct 0 1 1
  instant := 0
  logLik := 0
  progress := 0
  exitLik := 0
  exitRatio := 0
  likeliest := 0
  outVals := []
  outCov := []

theorem hmm_savable : hmm.Savable id (1 / 1000) 1000 := by
  refine ⟨rfl, by simp only [hmm]; decide, by simp only [hmm]; decide, by constructor <;> simp only [hmm] <;> norm_num, by constructor <;> simp only [hmm] <;> norm_num, rfl, rfl,
    by constructor <;> simp [hmm], rfl, rfl, rfl, rfl, ?_⟩
  intro st hst
  simp only [hmm, List.mem_cons, List.not_mem_nil, or_false, or_self] at hst
  subst hst
  exact ⟨gmm_savable, rfl, rfl, rfl, rfl, rfl⟩

theorem hmm_inHierarchy : hmm.InHierarchy := by
  have hg : ∀ st ∈ hmm.sts, st = gmm := fun g' h => by simpa [hmm] using h
  refine ⟨⟨⟨by simp [hmm], rfl, nofun, rfl, ?_⟩, ⟨?_, ?_, ?_, ?_⟩, rfl, by simp [hmm], ?_⟩, rfl, rfl, ?_, ?_, ?_, ?_⟩
  · intro st h
    rw [hg st h]
    exact ⟨rfl, rfl, rfl, rfl, rfl⟩
  · intro i hi
    replace hi : i < 2 := hi
    interval_cases i <;> norm_num [HmmSpec.start, hmm]
  · norm_num [HmmSpec.start, Finset.sum_range_succ, hmm]
  · intro i hi j hj
    replace hi : i < 2 := hi
    replace hj : j < 2 := hj
    interval_cases i <;> interval_cases j <;> norm_num [HmmSpec.step, hmm]
  · intro i hi
    replace hi : i < 2 := hi
    interval_cases i <;> norm_num [HmmSpec.step, Finset.sum_range_succ, hmm]
  · intro st h
    rw [hg st h]
    exact ⟨gmm_can, 1, [], CBuf.Holds.init (channels := 1) (0 : ℝ) 1 (by omega)⟩
  · intro i hi
    replace hi : i < 2 := hi
    interval_cases i <;> norm_num [hmm]
  · intro i hi
    replace hi : i < 2 := hi
    interval_cases i <;> norm_num [hmm]
  · intro v hv
    simp only [hmm, List.mem_cons, List.not_mem_nil, or_false] at hv
    rcases hv with rfl | rfl | rfl | rfl <;> norm_num
  · intro _
    norm_num [hmm]

/-- the hypotheses of `C114_hierarchical_partial` are met: a model with the classes "b" and "c", saved, and a session with the classes "a", to be added, and "b", to be trained again -/
theorem loaded_train_hmm_example : letI := JsonReal.truncated
    ∃ (B : HierBody ℝ) (s : ConfigSpec (HmmValues ℝ)), SharedSavable (fun _ => true) id 1000 B.body.shared ∧ HmmConfig id (1 / 1000) 1000 B.body.config s ∧
      (∀ lc ∈ B.body.models, lc.2.Savable id (1 / 1000) 1000 ∧ lc.2.Loadable ∧
        lc.2.view = ⟨B.body.shared.bimodal.value, B.body.shared.dimension.value, B.body.shared.dimensionInput.value, B.body.shared.window.value⟩) ∧
      SMap.keys B.body.models = ["b", "c"] ∧ format.Valid ∧ (HierBody.model B MultiRes.empty [] [] false).Holds format ∧
      (HierBody.model B MultiRes.empty [] [] false).Settings B.em ∧ Takes.Admissible format session [] ∧
      (Takes.LongEnough (Takes.run format session []).1 fun l => ((HierBody.model B MultiRes.empty [] [] false).conf l).n) ∧
      (∃ e ∈ (Takes.run format session []).1, e.2.1 = "a") ∧ (∃ e ∈ (Takes.run format session []).1, e.2.1 = "b") ∧
      (∀ l c, (l, c) ∈ B.body.models → ((HierBody.model B MultiRes.empty [] [] false).conf l).n ≤ c.n) ∧
      HierHmm.halfDens.Sound ∧ HierHmm.halfDens.Blind ∧ Regularization (1 / 1000) 1000 (1 / 100 : ℝ) ∧ Regularization (1 / 1000) 1000 (1 / 1000 : ℝ) := by
  let _ := JsonReal.truncated
  obtain ⟨-, -, -, -, -, -, -, -, -, g1, -, g2, g3, g4, g5, g6, g7, -⟩ := loaded_train_example
  obtain ⟨sh, h1, v1, v2, v3, v4, v5⟩ := someShared
  obtain ⟨c, s, h2, h3, h4⟩ := hmmConfig
  obtain ⟨a1, a2⟩ := C102_any_takes (K := ℝ) (L := String) format [(1, "a", [[0], [1]]), (2, "b", [[5], [7]])] (by simp [format])
  have hB : ∀ lc ∈ ([("b", hmm), ("c", hmm)] : SMap String (Hmm ℝ)), lc.2 = hmm := by
    intro lc hlc
    simp only [List.mem_cons, List.not_mem_nil, or_false] at hlc
    rcases hlc with rfl | rfl <;> rfl
  have hlist : (Takes.run format session []).1.map (fun e => (e.1, e.2.1, e.2.2.frames)) = [(1, "a", [[0], [1]]), (2, "b", [[5], [7]])] := by
    unfold session
    rw [a2]
    simp [SMap.assign]
  refine ⟨⟨⟨sh, c, [("b", hmm), ("c", hmm)]⟩, [1 / 2, 1 / 2], [[1 / 2, 1 / 2], [1 / 3, 2 / 3]], [1 / 10, 1 / 10], false⟩, s, h1, h2, fun lc hlc => ?_, rfl, by simp [Format.Valid, format],
    ⟨rfl, h3, rfl, ?_, ⟨rfl, rfl, rfl, ?_, ?_, ?_, ?_, ?_, ?_, ?_⟩, v1, fun _ => v3, fun lc hlc => ?_, fun lc hlc => ?_, nofun, fun lc hlc => ?_⟩, ?_, g1, ?_, g2, g3, fun l x hx => ?_,
    g4, g5, g6, g7⟩
  · rw [hB lc hlc]
    exact ⟨hmm_savable, .inr rfl, by simp only [v1, v2, v3, v4]; rfl⟩
  · show SMap.Sorted [("b", hmm), ("c", hmm)]
    have : ("b" : String) < "c" := by decide +kernel
    simp only [SMap.Sorted, List.pairwise_cons, List.mem_cons, List.not_mem_nil, or_false, forall_eq, this, IsEmpty.forall_iff, implies_true, List.Pairwise.nil, and_self]
  · simp [HierBody.model]
  · simp [HierBody.model]
  · norm_num [HierBody.model]
  · norm_num [HierBody.model]
  · norm_num [HierBody.model]
  · norm_num [HierBody.model]
  · norm_num [HierBody.model]
  · rw [hB lc hlc]
    exact ⟨hmm_inHierarchy, rfl, rfl, rfl, v4.symm, rfl⟩
  · rw [hB lc hlc]
    norm_num [hmm, List.range_succ]
  · rw [hB lc hlc]
    exact ⟨1, [], CBuf.Holds.init 0 1 (by omega)⟩
  · exact ⟨v4.ge, by simp only [HierBody.em, v5]; decide, fun l => by simp only [HierBody.model, (h4 l).1]; decide, fun l => (h4 l).2.1.ge,
      fun l => by simp only [HierBody.model, (h4 l).2.2.2]; norm_num, fun l => (h4 l).2.2.1⟩
  · intro e he
    have hin : ∀ e ∈ (Takes.run format session []).1, e.2.2.frames.length = 2 := by
      intro e he
      have : (e.1, e.2.1, e.2.2.frames) ∈ (Takes.run format session []).1.map (fun e => (e.1, e.2.1, e.2.2.frames)) := List.mem_map.2 ⟨e, he, rfl⟩
      rw [hlist] at this
      simp only [List.mem_cons, List.not_mem_nil, or_false, Prod.mk.injEq] at this
      rcases this with ⟨-, -, h⟩ | ⟨-, -, h⟩ <;> rw [h] <;> rfl
    refine ⟨⟨e, he, rfl, ?_⟩, ?_⟩
    · rw [hin e he]
      exact (h4 _).1.le
    · have hlen : (Takes.run format session []).1.length = 2 := by simpa using congrArg List.length hlist
      have hle : ∀ l : List (List (List ℝ)), (∀ x ∈ l, x.length = 2) → l.flatten.length = 2 * l.length := by
        intro l hl
        induction l with
        | nil => rfl
        | cons a l ih =>
          rw [List.flatten_cons, List.length_append, ih fun x hx => hl x (List.mem_cons_of_mem _ hx), hl a List.mem_cons_self, List.length_cons]
          omega
      rw [hle _ (fun x hx => by
        simp only [Takes.frames, List.mem_map] at hx
        obtain ⟨e', he', rfl⟩ := hx
        exact hin e' (List.mem_of_mem_filter he'))]
      have : (((Takes.run format session []).1.ofClass e.2.1).frames).length ≤ 2 := by
        simp only [Takes.frames, List.length_map]
        exact (List.length_filter_le _ _).trans hlen.le
      omega
  · have := hB _ hx
    simp only at this
    rw [this]
    exact (h4 l).1.le

end Xmm.LoadedTrainExamples
