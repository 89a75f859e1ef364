import Verif.Props.LoadedTrain
set_option linter.unusedSectionVars false
/- C114: the hypotheses are met by a concrete model and a concrete session. -/
namespace Xmm
open TS

/-- truncation, and a fixed text -/
@[reducible] noncomputable def JsonReal.truncated : JsonReal ℝ where
  toInt x := if |x| ≤ 2147483647 then some (if 0 ≤ x then ⌊x⌋ else ⌈x⌉) else none
  print _ := "0"

namespace LoadedTrainExamples
open SharedSpec SharedParams

theorem someShared : letI := JsonReal.truncated
    ∃ s : SharedParams ℝ, SharedSavable (fun _ => true) id 1000 s ∧ s.bimodal.value = false ∧ s.dimension.value = 1 ∧ s.dimensionInput.value = 0 ∧ s.window.value = 1 ∧ s.emMin.value = 10 := by
  let _ := JsonReal.truncated
  have h1 : After (fun _ => true) 0 anyCall (fresh 0 (1000 : ℝ)) _ := .step .start (op := .dimension 1) trivial (by rfl)
  exact ⟨_, ⟨⟨0, h1⟩, ⟨⟨nofun, fun _ => by decide⟩, by decide, by decide, rfl, by decide, by decide, by decide, by norm_num [SharedParams.values, fresh],
    by norm_num [SharedParams.values, fresh], by decide, by decide⟩, by decide, rfl⟩, rfl, rfl, rfl, rfl, rfl⟩

noncomputable def gauss : Gauss ℝ where
  bimodal := false
  dim := 1
  dimMin := 1
  di := 0
  diMax := 0
  mode := .diagonal
  mean := [2]
  cov := [4]
  inv := [1 / 4]
  det := 4
  invIn := []
  detIn := 1
  outCov := []

theorem gauss_settled : gauss.Settled where
  plain := ⟨by decide, by decide, rfl, rfl, rfl, nofun, fun _ => ⟨rfl, rfl⟩, by decide⟩
  current := by
    norm_num [Gauss.updateInverseCovariance, Gauss.updateInverseDiagonal, Gauss.updateOutputIfBimodal, gauss, Prog.bind_def, Prog.get_def, Prog.set_def, Prog.pure_def, Prog.modify_def, loop_succ, Phrase.loop, Gauss.rd]
  out := fun _ => rfl

/-- a class of the label "b", and another one -/
noncomputable def gmm : Gmm ℝ where
  gaussians := 2
  mode := .diagonal
  absReg := 1 / 100
  relReg := 1 / 10
  bimodal := false
  dim := 1
  di := 0
  window := 1
  comps := [gauss, gauss]
  coeffs := [1 / 3, 2 / 3]
  beta := [1 / 2, 1 / 2]
  reg := []
  training := false
  buf := CBuf.construct 0 1 1
  instant := 0
  logLik := 0
  outVals := []
  outCov := []

theorem gmm_savable : gmm.Savable id (1 / 1000) 1000 where
  idle := rfl
  gaussians := by simp only [gmm]; decide
  relReg := by constructor <;> simp only [gmm] <;> norm_num
  absReg := by constructor <;> simp only [gmm] <;> norm_num
  relFloat := rfl
  absFloat := rfl
  dims := by constructor <;> simp [gmm]
  coeffs := rfl
  comps := rfl
  settled := by
    intro g' hg'
    simp only [gmm, List.mem_cons, List.not_mem_nil, or_false, or_self] at hg'
    subst hg'
    exact ⟨gauss_settled, rfl, rfl⟩

theorem gmm_can : gmm.CanFilter := by
  have hg : ∀ g' ∈ gmm.comps, g' = gauss := fun g' h => by simpa [gmm] using h
  refine ⟨⟨⟨by simp [gmm], rfl, rfl, rfl, ?_⟩, ⟨by intro x hx; simp [gmm] at hx; rcases hx with rfl | rfl <;> norm_num, by norm_num [gmm]⟩, ?_⟩, rfl, by simp [gmm], nofun⟩
  · intro g' h
    rw [hg g' h]
    exact ⟨⟨rfl, rfl, rfl, nofun, nofun⟩, rfl, rfl, rfl, rfl⟩
  · intro g' h
    rw [hg g' h]
    simp [gauss]

theorem gmmConfig : ∃ c s, GmmConfig (K := ℝ) id (1 / 1000) 1000 c s ∧ c = Configuration.fresh (GmmAttrs.type (1 / 1000) 1000) 0 := by
  refine ⟨_, _, ⟨⟨0, fun _ => 1, [], rfl, _, rfl, rfl⟩, ?_, ?_, fun _ _ => ⟨rfl, rfl⟩⟩, rfl⟩ <;> simp [Configuration.fresh]

def format : Format := ⟨false, 1, 0⟩

noncomputable def session : List (RecOp ℝ String) := manyTakes [(1, "a", [[0], [1]]), (2, "b", [[5], [7]])]

/-- the hypotheses of `C114_gmm_partial` are met: a model with the classes "b" and "c", saved, and a session with the classes "a", to be added, and "b", to be trained again -/
theorem loaded_train_example : letI := JsonReal.truncated
    ∃ (B : GmmBody ℝ) (s : ConfigSpec (GmmValues ℝ)), SharedSavable (fun _ => true) id 1000 B.shared ∧ GmmConfig id (1 / 1000) 1000 B.config s ∧
      (∀ lc ∈ B.models, lc.2.Savable id (1 / 1000) 1000 ∧ lc.2.Loadable ∧
        lc.2.view = ⟨B.shared.bimodal.value, B.shared.dimension.value, B.shared.dimensionInput.value, B.shared.window.value⟩) ∧
      SMap.keys B.models = ["b", "c"] ∧ format.Valid ∧ (GmmBody.model B MultiRes.empty).Holds format B.settings.window ∧ B.settings.Valid ∧
      Takes.Admissible format session [] ∧ Takes.Filled (Takes.run format session []).1 ∧ (∃ e ∈ (Takes.run format session []).1, e.2.1 = "a") ∧
      (∃ e ∈ (Takes.run format session []).1, e.2.1 = "b") ∧ HierHmm.halfDens.Sound ∧ HierHmm.halfDens.Blind ∧
      Regularization (1 / 1000) 1000 (1 / 100 : ℝ) ∧ Regularization (1 / 1000) 1000 (1 / 1000 : ℝ) ∧ ∀ l, B.settings.gaussians l ≤ 10 := by
  let _ := JsonReal.truncated
  obtain ⟨sh, h1, v1, v2, v3, v4, v5⟩ := someShared
  obtain ⟨c, s, h2, h3⟩ := gmmConfig
  obtain ⟨a1, a2⟩ := C102_any_takes (K := ℝ) (L := String) format [(1, "a", [[0], [1]]), (2, "b", [[5], [7]])] (by simp [format])
  have hB : ∀ lc ∈ ([("b", gmm), ("c", gmm)] : SMap String (Gmm ℝ)), lc.2 = gmm := by
    intro lc hlc
    simp only [List.mem_cons, List.not_mem_nil, or_false] at hlc
    rcases hlc with rfl | rfl <;> rfl
  have hlist : (Takes.run format session []).1.map (fun e => (e.1, e.2.1, e.2.2.frames)) = [(1, "a", [[0], [1]]), (2, "b", [[5], [7]])] := by
    unfold session
    rw [a2]
    simp [SMap.assign]
  have hhas : ∀ x ∈ [((1 : Int), "a", [[(0 : ℝ)], [1]]), (2, "b", [[5], [7]])], ∃ e ∈ (Takes.run format session []).1, (e.1, e.2.1, e.2.2.frames) = x := by
    intro x hx
    rw [← hlist] at hx
    exact List.mem_map.1 hx
  refine ⟨⟨sh, c, [("b", gmm), ("c", gmm)]⟩, s, h1, h2, fun lc hlc => ?_, rfl, by simp [Format.Valid, format], ?_, ?_, a1, ?_, ?_, ?_, ?_, ?_, ?_, ?_, fun l => ?_⟩
  · rw [hB lc hlc]
    exact ⟨gmm_savable, .inr rfl, by simp only [v1, v2, v3, v4]; rfl⟩
  · refine ⟨rfl, rfl, ?_, v1, fun lc hlc => ?_, nofun, fun lc hlc => ?_⟩
    · show SMap.Sorted [("b", gmm), ("c", gmm)]
      have : ("b" : String) < "c" := by decide +kernel
      simp only [SMap.Sorted, List.pairwise_cons, List.mem_cons, List.not_mem_nil, or_false, forall_eq, this, IsEmpty.forall_iff, implies_true, List.Pairwise.nil, and_self]
    · rw [hB lc hlc]
      exact ⟨gmm_can, rfl, rfl, rfl, v4.symm⟩
    · rw [hB lc hlc]
      exact ⟨1, [], CBuf.Holds.init 0 1 (by omega)⟩
  · rw [h3]
    refine ⟨by simp [GmmBody.settings, v4], by simp [GmmBody.settings, v5], fun l => ?_, fun l => ?_⟩
    · simp [GmmBody.settings, Configuration.paramsFor, Configuration.fresh, SMap.find?, GmmAttrs.type, GmmAttrs.fresh]
    · norm_num [GmmBody.settings, Configuration.paramsFor, Configuration.fresh, SMap.find?, GmmAttrs.type, GmmAttrs.fresh]
  · intro e he
    have : (e.1, e.2.1, e.2.2.frames) ∈ (Takes.run format session []).1.map (fun e => (e.1, e.2.1, e.2.2.frames)) := List.mem_map.2 ⟨e, he, rfl⟩
    rw [hlist] at this
    refine ⟨e, he, rfl, ?_⟩
    simp only [List.mem_cons, List.not_mem_nil, or_false, Prod.mk.injEq] at this
    rcases this with ⟨-, -, h⟩ | ⟨-, -, h⟩ <;> rw [h] <;> simp
  · obtain ⟨e, he, h⟩ := hhas _ (List.mem_cons_self)
    exact ⟨e, he, congrArg (fun x => x.2.1) h⟩
  · obtain ⟨e, he, h⟩ := hhas _ (List.mem_cons_of_mem _ List.mem_cons_self)
    exact ⟨e, he, congrArg (fun x => x.2.1) h⟩
  · exact HierHmm.halfDens_sound
  · exact ⟨fun _ _ _ _ => rfl, fun _ _ _ _ => rfl, fun _ _ _ _ _ => rfl⟩
  · constructor <;> norm_num
  · constructor <;> norm_num
  · rw [h3]
    simp [GmmBody.settings, Configuration.paramsFor, Configuration.fresh, SMap.find?, GmmAttrs.type, GmmAttrs.fresh]
end LoadedTrainExamples
end Xmm
