import Verif.Props.ModelJsonFail
set_option linter.unusedSectionVars false
/- C57: the hypotheses of the theorems on JSON are met by concrete models. -/
namespace Xmm
namespace ModelJsonExamples
open SharedSpec SharedParams

deriving instance DecidableEq for Gauss
deriving instance DecidableEq for Res

/-- shared parameters of a bimodal model of dimension 3 -/
theorem someShared : ∃ s : SharedParams ℚ, SharedSavable (fun _ => true) id 1000 s ∧ s.bimodal.value = true ∧ s.dimension.value = 3 ∧ s.dimensionInput.value = 1 ∧
    s.window.value = 1 := by
  have step : ∀ {s : SharedParams ℚ} (op : Op ℚ), After (fun _ => true) 0 anyCall (fresh 0 1000) s →
      ∀ s', call (fun _ => true) 0 op s = .ret () s' → After (fun _ => true) 0 anyCall (fresh 0 1000) s' :=
    fun op h s' h' => .step h trivial (by rw [h']; rfl)
  have h1 := step (.percentChg (1 / 64)) .start _
    ((setPercentChg_eq (fresh_WInv 0 1000).bound _).trans (if_pos (by decide +kernel)))
  have h2 := step (.bimodal true) h1 _ (by rfl)
  have h3 := step (.dimension 3) h2 _ (by rfl)
  exact ⟨_, ⟨⟨0, h3⟩, ⟨⟨fun _ => by decide, nofun⟩, by decide, by decide, rfl, by decide, by decide, by decide, by decide +kernel,
    by decide +kernel, by decide, by decide⟩, by decide, rfl⟩, rfl, rfl, rfl, rfl⟩

/-- a trained component -/
def gauss : Gauss ℚ where
  bimodal := true
  dim := 3
  dimMin := 2
  di := 1
  diMax := 2
  mode := .full
  mean := [1, 2, 3]
  cov := [2, 1, 0, 1, 2, 0, 0, 0, 1]
  inv := [2 / 3, -1 / 3, 0, -1 / 3, 2 / 3, 0, 0, 0, 1]
  det := 3
  invIn := [1 / 2]
  detIn := 2
  outCov := [3 / 2, 0, 0, 1]

theorem gauss_settled : gauss.Settled where
  plain := ⟨by decide, by decide, rfl, rfl, rfl, fun _ => rfl, nofun, by decide⟩
  current := by decide +kernel
  out := nofun

/-- a trained component with a Diagonal covariance -/
def gaussD : Gauss ℚ where
  bimodal := true
  dim := 3
  dimMin := 2
  di := 1
  diMax := 2
  mode := .diagonal
  mean := [1, 2, 3]
  cov := [2, 1, 4]
  inv := [1 / 2, 1, 1 / 4]
  det := 8
  invIn := [1 / 2]
  detIn := 2
  outCov := [1, 4]

theorem gaussD_settled : gaussD.Settled where
  plain := ⟨by decide, by decide, rfl, rfl, rfl, fun _ => rfl, nofun, by decide⟩
  current := by decide +kernel
  out := nofun

/-- a class with two components -/
def gmm (g : Gauss ℚ) : Gmm ℚ where
  gaussians := 2
  mode := g.mode
  absReg := 1 / 100
  relReg := 1 / 10
  bimodal := true
  dim := 3
  di := 1
  window := 1
  comps := [g, g]
  coeffs := [1 / 3, 2 / 3]
  beta := [1 / 2, 1 / 2]
  reg := []
  training := false
  buf := CBuf.construct 0 1 1
  instant := 0
  logLik := 0
  outVals := []
  outCov := []

theorem gmm_savable {g : Gauss ℚ} (h : g.Settled) (hd : g.dim = 3) : (gmm g).Savable id (1 / 1000) 1000 where
  idle := rfl
  gaussians := by simp only [gmm]; decide
  relReg := by constructor <;> simp only [gmm] <;> norm_num
  absReg := by constructor <;> simp only [gmm] <;> norm_num
  relFloat := rfl
  absFloat := rfl
  dims := by constructor <;> simp [gmm]
  coeffs := rfl
  comps := rfl
  settled := by
    intro g' hg'
    simp only [gmm, List.mem_cons, List.not_mem_nil, or_false, or_self] at hg'
    subst hg'
    exact ⟨h, hd, rfl⟩

/-- a class of a hierarchical model: two states, left to right -/
def hmm (g : Gauss ℚ) (exitP : List ℚ) : Hmm ℚ where
  n := 2
  gaussians := 2
  ergodic := false
  est := .windowed
  absReg := 1 / 100
  relReg := 1 / 10
  mode := g.mode
  bimodal := true
  dim := 3
  di := 1
  window := 1
  sts := [gmm g, gmm g]
  prior := []
  trans := [1 / 2, 1 / 2, 1, 0]
  alpha := [0, 0]
  prevAlpha := [0, 0]
  beta := [0, 0]
  prevBeta := [0, 0]
  alpha0 := []
  alpha1 := []
  alpha2 := []
  exitP := exitP
  hier := true
  started := false
  training := false
  winMin := 0
  winMax := 0
  winNorm := 0
  buf := CBuf.construct 0 1 1
  instant := 0
  logLik := 0
  progress := 0
  exitLik := 0
  exitRatio := 0
  likeliest := 0
  outVals := []
  outCov := []

theorem hmm_writable {g : Gauss ℚ} (h : g.Settled) (hd : g.dim = 3) (e : List ℚ) : (hmm g e).Writable id (1 / 1000) 1000 where
  idle := rfl
  n := by simp only [hmm]; decide
  gaussians := by simp only [hmm]; decide
  relReg := by constructor <;> simp only [hmm] <;> norm_num
  absReg := by constructor <;> simp only [hmm] <;> norm_num
  relFloat := rfl
  absFloat := rfl
  dims := by constructor <;> simp [hmm]
  prior := rfl
  trans := rfl
  count := rfl
  states := by
    intro st hst
    simp only [hmm, List.mem_cons, List.not_mem_nil, or_false, or_self] at hst
    subst hst
    exact ⟨gmm_savable h hd, rfl, rfl, rfl, rfl, rfl⟩

theorem hmm_savable {g : Gauss ℚ} (h : g.Settled) (hd : g.dim = 3) : (hmm g [0, 1 / 10]).Savable id (1 / 1000) 1000 :=
  have w := hmm_writable h hd [0, 1 / 10]
  ⟨w.idle, w.n, w.gaussians, w.relReg, w.absReg, w.relFloat, w.absFloat, w.dims, w.prior, w.trans, rfl, w.count, w.states⟩

/-- a configuration with a default of 2 components, and other parameters for one label -/
theorem gmmConfig : ∃ c s, GmmConfig (K := ℚ) id (1 / 1000) 1000 c s := by
  have h := C27_configuration_gmm_partial (K := ℚ) (nar := id) (tiny := 1 / 1000) (realMax := 1000) (by constructor <;> norm_num) (by constructor <;> norm_num) 0 0 0
    (fun _ => 1) (fun _ => 1) (fun _ => 1) [.default (.gaussians 2), .label "a" (.relReg (1 / 10))] _ rfl (fun _ _ => ⟨rfl, rfl⟩) 0 1 (by decide) (by decide)
    (Configuration.fresh (GmmAttrs.type (1 / 1000) 1000) 0)
  obtain ⟨c, hc, -⟩ := h
  exact ⟨{ c with multithreading := 0, estimator := 1 }, _, ⟨⟨0, fun _ => 1, _, rfl, c, hc, rfl⟩, by simp, by simp, fun _ _ => ⟨rfl, rfl⟩⟩⟩

theorem hmmConfig : ∃ c s, HmmConfig (K := ℚ) id (1 / 1000) 1000 c s := by
  have h := C27_configuration_hmm_partial (K := ℚ) (nar := id) (tiny := 1 / 1000) (realMax := 1000) (by constructor <;> norm_num) (by constructor <;> norm_num) 0 0 0
    (fun _ => 1) (fun _ => 1) (fun _ => 1) [.default (.states 2), .label "a" (.relReg (1 / 10))] _ rfl (fun _ _ => ⟨rfl, rfl⟩) 0 1 (by decide) (by decide)
    (Configuration.fresh (HmmAttrs.type (1 / 1000) 1000) 0)
  obtain ⟨c, hc, -⟩ := h
  exact ⟨{ c with multithreading := 0, estimator := 1 }, _, ⟨⟨0, fun _ => 1, _, rfl, c, hc, rfl⟩, by simp, by simp, fun _ _ => ⟨rfl, rfl⟩⟩⟩

theorem sortedAB {C : Type} (a b : C) : SMap.Sorted ([("a", a), ("b", b)] : SMap String C) := by
  have : ("a" : String) < "b" := by decide +kernel
  simp only [SMap.Sorted, List.pairwise_cons, List.mem_cons, List.not_mem_nil, or_false, forall_eq, this, IsEmpty.forall_iff, implies_true, List.Pairwise.nil, and_self]

/-- the hypotheses of `C57_gmm_partial` are met by a model with two classes -/
example : ∃ (M : GmmBody ℚ) (s : ConfigSpec (GmmValues ℚ)), SharedSavable (fun _ => true) id 1000 M.shared ∧ GmmConfig id (1 / 1000) 1000 M.config s ∧
    SMap.Sorted M.models ∧ (∀ lc ∈ M.models, lc.2.Savable id (1 / 1000) 1000 ∧ lc.2.Loadable ∧ lc.2.view = M.view) ∧ M.models.length = 2 := by
  obtain ⟨sh, h1, v1, v2, v3, v4⟩ := someShared
  obtain ⟨c, s, h2⟩ := gmmConfig
  refine ⟨⟨sh, c, [("a", gmm gauss), ("b", gmm gauss)]⟩, s, h1, h2, sortedAB _ _, fun lc hlc => ?_, rfl⟩
  have : lc.2 = gmm gauss := by
    simp only [List.mem_cons, List.not_mem_nil, or_false] at hlc
    rcases hlc with rfl | rfl <;> rfl
  rw [this]
  exact ⟨gmm_savable gauss_settled rfl, Or.inl rfl, by simp only [ModelBody.view, v1, v2, v3, v4]; rfl⟩

/-- the hypotheses of `C57_gmm_diagonal_violated` are met by a model with two classes, one of which is Diagonal -/
example : ∃ (M : GmmBody ℚ) (s : ConfigSpec (GmmValues ℚ)), SharedSavable (fun _ => true) id 1000 M.shared ∧ GmmConfig id (1 / 1000) 1000 M.config s ∧
    (∀ lc ∈ M.models, lc.2.Savable id (1 / 1000) 1000 ∧ lc.2.view = M.view) ∧ ∃ lc ∈ M.models, lc.2.mode = .diagonal ∧ 2 ≤ lc.2.dim := by
  obtain ⟨sh, h1, v1, v2, v3, v4⟩ := someShared
  obtain ⟨c, s, h2⟩ := gmmConfig
  refine ⟨⟨sh, c, [("a", gmm gauss), ("b", gmm gaussD)]⟩, s, h1, h2, fun lc hlc => ?_, ("b", gmm gaussD), by simp, rfl, by simp [gmm]⟩
  simp only [List.mem_cons, List.not_mem_nil, or_false] at hlc
  rcases hlc with rfl | rfl
  · exact ⟨gmm_savable gauss_settled rfl, by simp only [ModelBody.view, v1, v2, v3, v4]; rfl⟩
  · exact ⟨gmm_savable gaussD_settled rfl, by simp only [ModelBody.view, v1, v2, v3, v4]; rfl⟩

/-- the hypotheses of `C57_hmm_partial` are met by a model with two classes -/
example : ∃ (M : HierBody ℚ) (s : ConfigSpec (HmmValues ℚ)), SharedSavable (fun _ => true) id 1000 M.body.shared ∧ HmmConfig id (1 / 1000) 1000 M.body.config s ∧
    SMap.Sorted M.body.models ∧ (∀ lc ∈ M.body.models, lc.2.Savable id (1 / 1000) 1000 ∧ lc.2.Loadable ∧ lc.2.view = M.body.view) ∧ M.training = false ∧
    M.prior.length = M.body.models.length ∧ M.trans.length = M.body.models.length ∧ (∀ row ∈ M.trans, row.length = M.body.models.length) ∧
    M.exitTrans.length = M.body.models.length ∧ M.body.models.length = 2 := by
  obtain ⟨sh, h1, v1, v2, v3, v4⟩ := someShared
  obtain ⟨c, s, h2⟩ := hmmConfig
  refine ⟨⟨⟨sh, c, [("a", hmm gauss [0, 1 / 10]), ("b", hmm gauss [0, 1 / 10])]⟩, [1 / 2, 1 / 2], [[1 / 2, 1 / 2], [1 / 3, 2 / 3]], [1 / 10, 1 / 10], false⟩, s, h1, h2,
    sortedAB _ _, fun lc hlc => ?_, rfl, rfl, rfl, by simp, rfl, rfl⟩
  have : lc.2 = hmm gauss [0, 1 / 10] := by
    simp only [List.mem_cons, List.not_mem_nil, or_false] at hlc
    rcases hlc with rfl | rfl <;> rfl
  rw [this]
  exact ⟨hmm_savable gauss_settled rfl, Or.inl rfl, by simp only [ModelBody.view, v1, v2, v3, v4]; rfl⟩

/-- the hypotheses of `C57_hmm_rejected_violated` are met by a model one class of which has three exit probabilities for two states -/
example : ∃ (M : HierBody ℚ) (s : ConfigSpec (HmmValues ℚ)), SharedSavable (fun _ => true) id 1000 M.body.shared ∧ HmmConfig id (1 / 1000) 1000 M.body.config s ∧
    (∀ lc ∈ M.body.models, lc.2.Writable id (1 / 1000) 1000 ∧ lc.2.view = M.body.view) ∧ M.training = false ∧ M.trans.length = M.body.models.length ∧
    ∃ lc ∈ M.body.models, lc.2.mode = .diagonal ∧ 2 ≤ lc.2.dim ∨ lc.2.exitP.length ≠ lc.2.n := by
  obtain ⟨sh, h1, v1, v2, v3, v4⟩ := someShared
  obtain ⟨c, s, h2⟩ := hmmConfig
  refine ⟨⟨⟨sh, c, [("a", hmm gauss [0, 0, 1 / 10])]⟩, [1], [[1]], [1 / 10], false⟩, s, h1, h2, fun lc hlc => ?_, rfl, rfl,
    ("a", hmm gauss [0, 0, 1 / 10]), by simp, Or.inr (by simp [hmm])⟩
  simp only [List.mem_cons, List.not_mem_nil, or_false] at hlc
  subst hlc
  exact ⟨hmm_writable gauss_settled rfl _, by simp only [ModelBody.view, v1, v2, v3, v4]; rfl⟩

end ModelJsonExamples
end Xmm
