import Verif.Props.MoreStates
import Verif.Props.LoadedTrainHmmExamples
set_option linter.unusedSectionVars false
/- C114: a class of a loaded hierarchical model that is trained again, whatever its number of states was. -/
namespace Xmm
open TS
open Hmm HierHmm

section session
variable [JsonReal ℝ] {alive : Nat → Bool} {nar : ℝ → ℝ} {tiny realMax : ℝ}

/-- **C114 (partial), hierarchical HMM.**  As `C114_hierarchical_partial`, whatever the number of states of the class was before: training one class of a loaded model ends like training that class
    of the original, also if the class gets more states and keeps its former last state as an exit point (`C109_more_states`).
    Missing: models with Diagonal covariances or that are not hierarchical, which are not loaded as they are (`C57_hmm_rejected_violated`, `C57_hmm_hierarchical_violated`), ergodic classes. -/
theorem C114_hierarchical_any_partial (ids : JsonIds) (z z1 z2 : ℝ) (h1 : Regularization tiny realMax (1 / 100)) (h2 : Regularization tiny realMax (1 / 1000))
    (hb : Bool) (B : HierBody ℝ) (s : ConfigSpec (HmmValues ℝ)) (hs : SharedSavable alive nar realMax B.body.shared) (hc : HmmConfig nar tiny realMax B.body.config s)
    (hcls : ∀ lc ∈ B.body.models, lc.2.Savable nar tiny realMax ∧ lc.2.Loadable ∧
      lc.2.view = ⟨B.body.shared.bimodal.value, B.body.shared.dimension.value, B.body.shared.dimensionInput.value, B.body.shared.window.value⟩)
    (r : MultiRes ℝ) (f1 f2 : List ℝ) (st : Bool) (f : Format) (hv : f.Valid) (hM : (HierBody.model B r f1 f2 st).Holds f) (hS : (HierBody.model B r f1 f2 st).Settings B.em)
    (hmode : f.bimodal = true → ∀ l, ((HierBody.model B r f1 f2 st).conf l).mode = (HierBody.model B r f1 f2 st).mode)
    (i : Nat) (w0 : World ℝ String) (h0 : w0.sets i = none) (ops : List (RecOp ℝ String)) (ha : Takes.Admissible f ops [])
    (hlong : Takes.LongEnough (Takes.run f ops []).1 fun l => ((HierBody.model B r f1 f2 st).conf l).n)
    (D : Dens ℝ) (hD : D.Sound) (hB : D.Blind) (log : ℝ → ℝ) (hlog : ∀ x y, 0 < x → 0 < y → log (x * y) = log x + log y) (lowest : ℝ) (cancel : Nat → Bool)
    (label : String) (hl : ∃ e ∈ (Takes.run f ops []).1, e.2.1 = label) :
    ∃ root B' B0, HierBody.toJson hb B = .ret root B ∧ HierBody.ofJson alive ids nar tiny realMax z root = .ret B' B0 ∧
      ∀ (r' : MultiRes ℝ) (f1' f2' : List ℝ), ∃ M M', B.recordAndTrainClass z1 D log lowest cancel f i ops w0 label r f1 f2 st = .ret () M ∧
        B'.recordAndTrainClass z2 D log lowest cancel f i ops w0 label r' f1' f2' false = .ret () M' ∧
        M.Usable ∧ M'.Usable ∧ SMap.keys M'.models = SMap.keys M.models ∧ (∀ l ∈ SMap.keys B.body.models, l ≠ label → l ∈ SMap.keys M.models) ∧
        (M.models ≠ [] → ∀ exp : ℝ → ℝ, ∀ xs, xs ≠ [] → (∀ x ∈ xs, f.Sample x) →
          ∃ rs N N', (do HierHmm.reset; HierHmm.filterAll D log exp xs) M = .ret rs N ∧ (do HierHmm.reset; HierHmm.filterAll D log exp xs) M' = .ret rs N' ∧ HierHmm.SameResults N N') := by
  by_cases hcase : ∃ c, (label, c) ∈ B.body.models ∧ c.n < ((HierBody.model B r f1 f2 st).conf label).n ∧
      ∃ tr m, Hmm.trainedAlone D log (Compare.exact lowest B.body.shared.percentChg.value) B.em cancel
          (Hmm.fresh f (HierBody.model B r f1 f2 st).window ((HierBody.model B r f1 f2 st).conf label) z1) (Takes.data f (Takes.run f ops []).1 label) = .ret tr m ∧ tr.status = .done
  swap
  · refine loaded_class ids z z1 z2 h1 h2 hb B s hs hc hcls r f1 f2 st f hv hM hS hmode i w0 h0 ops ha hlong D hD hB log hlog lowest cancel label hl fun c hc' hd => ?_
    by_contra hn
    exact hcase ⟨c, hc', not_le.1 hn, hd⟩
  obtain ⟨c, hcm, hmore, tr, m, p1, p2⟩ := hcase
  obtain ⟨root, B', B0, b1, b2, b3, b4, b5, b6, b7, b8, b9, b10⟩ := hmm_loads ids z h1 h2 hb B s hs hc hM.sorted hcls hM.idle hM.top.prior hM.top.trans hM.top.row hM.top.exitTrans
  refine ⟨root, B', B0, b1, b2, fun r' f1' f2' => ?_⟩
  have hpct : B'.body.shared.percentChg.value = B.body.shared.percentChg.value := congrArg SharedValues.percentChg b3
  have hem : B'.em = B.em := by
    unfold HierBody.em
    rw [show B'.body.shared.emMin.value = B.body.shared.emMin.value from congrArg SharedValues.emMin b3,
      show B'.body.shared.emMax.value = B.body.shared.emMax.value from congrArg SharedValues.emMax b3]
  have hload := HierBody.loaded hc b3 b4 b5 b6 b7 b8 b9 b10 (fun lc hlc => (hM.cls lc hlc).1.hier) hM.hier r r' f1 f2 f1' f2' st
  set X := HierBody.model B r f1 f2 st with hX
  set Y := HierBody.model B' r' f1' f2' false with hY
  have hMr' : Y.Holds f := by rw [hload]; exact hM.loaded z r' f1' f2'
  have hXm : X.models = B.body.models := rfl
  have hmodels' : Y.models = X.models.map fun lc => (lc.1, (lc.2.copy z).free) := by
    rw [hload]; simp only [HierHmm.free, hmmFamily, List.map_map]; rfl
  have hmd : Y.mode = X.mode := by rw [hload]; rfl
  have hes : Y.est = X.est := by rw [hload]; rfl
  have hcf : Y.conf = X.conf := by rw [hload]; rfl
  have hwi : Y.window = X.window := by rw [hload]; rfl
  have hpr : Y.prior = X.prior ∧ Y.trans = X.trans ∧ Y.exitTrans = X.exitTrans := by rw [hload]; exact ⟨rfl, rfl, rfl⟩
  have hSY : Y.Settings B.em := ⟨by rw [hwi]; exact hS.window, hS.minIter, by rw [hcf]; exact hS.states, by rw [hcf]; exact hS.gaussians, by rw [hcf]; exact hS.absReg,
    by rw [hcf]; exact hS.leftRight⟩
  have hfwd : ∀ l m0, (l, m0) ∈ X.models → (l, (m0.copy z).free) ∈ Y.models := fun l m0 h => by
    rw [hmodels']; exact List.mem_map.2 ⟨_, h, rfl⟩
  have hbwd : ∀ l n, (l, n) ∈ Y.models → ∃ m0, (l, m0) ∈ X.models ∧ n = (m0.copy z).free := fun l n h => by
    rw [hmodels'] at h
    obtain ⟨lc, h3, h4⟩ := List.mem_map.1 h
    simp only [Prod.mk.injEq] at h4
    exact ⟨lc.2, by rw [← h4.1]; exact h3, h4.2.symm⟩
  obtain ⟨w, t, s1, -⟩ := recordThen_sim f hv i w0 h0 ops ha
  obtain ⟨⟨m0, st0⟩, tr0, q1, q2, -⟩ := class_trained s1 hv hS hlong z2 D hD log hlog lowest B.body.shared.percentChg.value (fun _ => cancel) label hl
  simp only at q1 q2
  obtain ⟨k1, k2⟩ := HierHmm.alone_uninit s1 hv hS hlong z1 z2 D hD log hlog lowest B.body.shared.percentChg.value cancel label hl p1 q1
  obtain ⟨k3, k4⟩ := k2 p2
  obtain ⟨M, x, a1, a2, a3, a4, a5, a6, a7, a8⟩ := C109_more_states f hv ops ha i w0 h0 z1 D log lowest B.body.shared.percentChg.value B.em X hlong hS hD hlog hM hmode label hl c hcm hmore cancel p1 p2
  obtain ⟨M', y, e1, e2, e3, e4, e5, e6, e7, e8⟩ := C109_more_states f hv ops ha i w0 h0 z2 D log lowest B.body.shared.percentChg.value B.em Y (by rw [hcf]; exact hlong) hSY hD hlog hMr'
    (fun hb l => by rw [hcf, hmd]; exact hmode hb l) label hl _ (hfwd label c hcm) (by rw [hcf]; exact hmore) cancel (by rw [hcf, hwi]; exact q1) (k1.trans p2)
  have hkeys0 : SMap.keys Y.models = SMap.keys X.models := by
    rw [hmodels']; simp [SMap.keys, Function.comp_def]
  have hk : SMap.keys M'.models = SMap.keys M.models := e3.trans (hkeys0.trans a3.symm)
  rw [hcf] at e5
  have hxy : Hmm.SameClass x y := by
    have hs : Hmm.SameClass { m with exitP := twoExits (X.conf label).n c.n } { m0 with exitP := twoExits (X.conf label).n c.n } := by
      refine ⟨?_, k3.2⟩
      have e := k3.1
      clear * - e
      cases m; cases m0
      simp only [Hmm.mk.injEq] at e ⊢
      tauto
    have hcan : Hmm.CanFilter ({ m with exitP := twoExits (X.conf label).n c.n } : Hmm ℝ) := ⟨⟨k4.wf.pos, k4.wf.sts, k4.wf.prior, k4.wf.trans, k4.wf.state⟩,
      ⟨k4.chain.start_nonneg, k4.chain.start_sum, k4.chain.step_nonneg, k4.chain.step_sum⟩, k4.idle, k4.window, k4.state⟩
    exact (HierHmm.SameClass.symm a5 hcan).trans (hs.trans e5)
  have hsame : ∀ l u v, (l, u) ∈ M.models → (l, v) ∈ M'.models → Hmm.SameClass u.free v.free := by
    intro l u v hu hw
    by_cases hll : l = label
    · subst hll
      cases class_unique a2.sorted hu a4
      cases class_unique e2.sorted hw e4
      exact hxy.free
    · have hin : l ∈ SMap.keys X.models := by rw [← a3]; exact mem_keys_models.2 ⟨u, hu⟩
      obtain ⟨u0, hu0⟩ := mem_keys_models.1 hin
      have g1 := a6 l hll u0 u hu0 hu
      have g2 := (e6 l hll _ v (hfwd l u0 hu0) hw).free
      rw [Hmm.free_free] at g2
      have hcan := (hM.cls _ hu0).1
      exact (HierHmm.SameClass.symm g1.free (Hmm.free_in hcan).can).trans ((Hmm.copy_same z hcan.can).free.trans g2)
  refine ⟨M, M', a1, ?_, a2, e2, hk, fun l hl' _ => by rw [a3]; exact hl', fun hne exp xs hxs hx => ?_⟩
  · unfold HierBody.recordAndTrainClass
    rw [hem, hpct]
    exact e1
  · refine HierHmm.same_classes D hD hB log exp a2 e2 a8 hk.symm ?_ hsame hne xs hxs hx
    have k1 := hMr'.nulls.trans hM.nulls.symm
    have k2 := hMr'.idle.trans hM.idle.symm
    have k4 := hMr'.hier.trans hM.hier.symm
    have k7 := hMr'.bimodal.trans hM.bimodal.symm
    obtain ⟨k11, k12, k13⟩ := hpr
    rw [e7, a7]
    simp only [k1, k2, hcf, k4, hmd, hes, k7, hwi, k11, k12, k13]

end session

/-! ### The hypotheses are met -/

namespace LoadedTrainExamples

/-- a class of a hierarchical model: one state -/
noncomputable def hmm1 : Hmm ℝ where
  n := 1
  gaussians := 2
  ergodic := false
  est := .windowed
  absReg := 1 / 100
  relReg := 1 / 10
  mode := .diagonal
  bimodal := false
  dim := 1
  di := 0
  window := 1
  sts := [gmm]
  prior := []
  trans := [1, 0]
  alpha := [0]
  prevAlpha := [0]
  beta := [0]
  prevBeta := [0]
  alpha0 := []
  alpha1 := []
  alpha2 := []
  exitP := [1 / 10]
  hier := true
  started := false
  training := false
  winMin := 0
  winMax := 0
  winNorm := 0
  buf := CBuf.construct 0 1 1
  instant := 0
  logLik := 0
  progress := 0
  exitLik := 0
  exitRatio := 0
  likeliest := 0
  outVals := []
  outCov := []

theorem hmm1_savable : hmm1.Savable id (1 / 1000) 1000 := by
  refine ⟨rfl, by simp only [hmm1]; decide, by simp only [hmm1]; decide, by constructor <;> simp only [hmm1] <;> norm_num, by constructor <;> simp only [hmm1] <;> norm_num, rfl, rfl,
    by constructor <;> simp [hmm1], rfl, rfl, rfl, rfl, ?_⟩
  intro st hst
  simp only [hmm1, List.mem_cons, List.not_mem_nil, or_false, or_self] at hst
  subst hst
  exact ⟨gmm_savable, rfl, rfl, rfl, rfl, rfl⟩

theorem hmm1_inHierarchy : hmm1.InHierarchy := by
  have hg : ∀ st ∈ hmm1.sts, st = gmm := fun g' h => by simpa [hmm1] using h
  refine ⟨⟨⟨by simp [hmm1], rfl, nofun, rfl, ?_⟩, ⟨?_, ?_, ?_, ?_⟩, rfl, by simp [hmm1], ?_⟩, rfl, rfl, ?_, ?_, ?_, ?_⟩
  · intro st h
    rw [hg st h]
    exact ⟨rfl, rfl, rfl, rfl, rfl⟩
  · intro i hi
    replace hi : i < 1 := hi
    interval_cases i <;> norm_num [HmmSpec.start, hmm1]
  · norm_num [HmmSpec.start, Finset.sum_range_succ, hmm1]
  · intro i hi j hj
    replace hi : i < 1 := hi
    replace hj : j < 1 := hj
    interval_cases i <;> interval_cases j <;> norm_num [HmmSpec.step, hmm1]
  · intro i hi
    replace hi : i < 1 := hi
    interval_cases i <;> norm_num [HmmSpec.step, Finset.sum_range_succ, hmm1]
  · intro st h
    rw [hg st h]
    exact ⟨gmm_can, 1, [], CBuf.Holds.init (channels := 1) (0 : ℝ) 1 (by omega)⟩
  · intro i hi
    replace hi : i < 1 := hi
    interval_cases i <;> norm_num [hmm1]
  · intro i hi
    replace hi : i < 1 := hi
    interval_cases i <;> norm_num [hmm1]
  · intro v hv
    simp only [hmm1, List.mem_cons, List.not_mem_nil, or_false] at hv
    rcases hv with rfl | rfl <;> norm_num
  · intro _
    norm_num [hmm1]

/-- the hypotheses of `C114_hierarchical_any_partial` are met by a class that gets more states: a model with the classes "b" and "c", which have one state, saved, and a session with "b", configured for two states -/
theorem loaded_more_states_example : letI := JsonReal.truncated
    ∃ (B : HierBody ℝ) (s : ConfigSpec (HmmValues ℝ)), SharedSavable (fun _ => true) id 1000 B.body.shared ∧ HmmConfig id (1 / 1000) 1000 B.body.config s ∧
      (∀ lc ∈ B.body.models, lc.2.Savable id (1 / 1000) 1000 ∧ lc.2.Loadable ∧
        lc.2.view = ⟨B.body.shared.bimodal.value, B.body.shared.dimension.value, B.body.shared.dimensionInput.value, B.body.shared.window.value⟩) ∧
      SMap.keys B.body.models = ["b", "c"] ∧ format.Valid ∧ (HierBody.model B MultiRes.empty [] [] false).Holds format ∧
      (HierBody.model B MultiRes.empty [] [] false).Settings B.em ∧ Takes.Admissible format session [] ∧
      (Takes.LongEnough (Takes.run format session []).1 fun l => ((HierBody.model B MultiRes.empty [] [] false).conf l).n) ∧
      (∃ e ∈ (Takes.run format session []).1, e.2.1 = "a") ∧ (∃ e ∈ (Takes.run format session []).1, e.2.1 = "b") ∧
      (∀ l c, (l, c) ∈ B.body.models → c.n < ((HierBody.model B MultiRes.empty [] [] false).conf l).n) ∧
      HierHmm.halfDens.Sound ∧ HierHmm.halfDens.Blind ∧ Regularization (1 / 1000) 1000 (1 / 100 : ℝ) ∧ Regularization (1 / 1000) 1000 (1 / 1000 : ℝ) := by
  let _ := JsonReal.truncated
  obtain ⟨-, -, -, -, -, -, -, -, -, g1, -, g2, g3, g4, g5, g6, g7, -⟩ := loaded_train_example
  obtain ⟨sh, h1, v1, v2, v3, v4, v5⟩ := someShared
  obtain ⟨c, s, h2, h3, h4⟩ := hmmConfig
  obtain ⟨a1, a2⟩ := C102_any_takes (K := ℝ) (L := String) format [(1, "a", [[0], [1]]), (2, "b", [[5], [7]])] (by simp [format])
  have hB : ∀ lc ∈ ([("b", hmm1), ("c", hmm1)] : SMap String (Hmm ℝ)), lc.2 = hmm1 := by
    intro lc hlc
    simp only [List.mem_cons, List.not_mem_nil, or_false] at hlc
    rcases hlc with rfl | rfl <;> rfl
  have hlist : (Takes.run format session []).1.map (fun e => (e.1, e.2.1, e.2.2.frames)) = [(1, "a", [[0], [1]]), (2, "b", [[5], [7]])] := by
    unfold session
    rw [a2]
    simp [SMap.assign]
  refine ⟨⟨⟨sh, c, [("b", hmm1), ("c", hmm1)]⟩, [1 / 2, 1 / 2], [[1 / 2, 1 / 2], [1 / 3, 2 / 3]], [1 / 10, 1 / 10], false⟩, s, h1, h2, fun lc hlc => ?_, rfl, by simp [Format.Valid, format],
    ⟨rfl, h3, rfl, ?_, ⟨rfl, rfl, rfl, ?_, ?_, ?_, ?_, ?_, ?_, ?_⟩, v1, fun _ => v3, fun lc hlc => ?_, fun lc hlc => ?_, nofun, fun lc hlc => ?_⟩, ?_, g1, ?_, g2, g3, fun l x hx => ?_,
    g4, g5, g6, g7⟩
  · rw [hB lc hlc]
    exact ⟨hmm1_savable, .inr rfl, by simp only [v1, v2, v3, v4]; rfl⟩
  · show SMap.Sorted [("b", hmm1), ("c", hmm1)]
    have : ("b" : String) < "c" := by decide +kernel
    simp only [SMap.Sorted, List.pairwise_cons, List.mem_cons, List.not_mem_nil, or_false, forall_eq, this, IsEmpty.forall_iff, implies_true, List.Pairwise.nil, and_self]
  · simp [HierBody.model]
  · simp [HierBody.model]
  · norm_num [HierBody.model]
  · norm_num [HierBody.model]
  · norm_num [HierBody.model]
  · norm_num [HierBody.model]
  · norm_num [HierBody.model]
  · rw [hB lc hlc]
    exact ⟨hmm1_inHierarchy, rfl, rfl, rfl, v4.symm, rfl⟩
  · rw [hB lc hlc]
    norm_num [hmm1, List.range_succ]
  · rw [hB lc hlc]
    exact ⟨1, [], CBuf.Holds.init 0 1 (by omega)⟩
  · exact ⟨v4.ge, by simp only [HierBody.em, v5]; decide, fun l => by simp only [HierBody.model, (h4 l).1]; decide, fun l => (h4 l).2.1.ge,
      fun l => by simp only [HierBody.model, (h4 l).2.2.2]; norm_num, fun l => (h4 l).2.2.1⟩
  · intro e he
    have hin : ∀ e ∈ (Takes.run format session []).1, e.2.2.frames.length = 2 := by
      intro e he
      have : (e.1, e.2.1, e.2.2.frames) ∈ (Takes.run format session []).1.map (fun e => (e.1, e.2.1, e.2.2.frames)) := List.mem_map.2 ⟨e, he, rfl⟩
      rw [hlist] at this
      simp only [List.mem_cons, List.not_mem_nil, or_false, Prod.mk.injEq] at this
      rcases this with ⟨-, -, h⟩ | ⟨-, -, h⟩ <;> rw [h] <;> rfl
    refine ⟨⟨e, he, rfl, ?_⟩, ?_⟩
    · rw [hin e he]
      exact (h4 _).1.le
    · have hlen : (Takes.run format session []).1.length = 2 := by simpa using congrArg List.length hlist
      have hle : ∀ l : List (List (List ℝ)), (∀ x ∈ l, x.length = 2) → l.flatten.length = 2 * l.length := by
        intro l hl
        induction l with
        | nil => rfl
        | cons a l ih =>
          rw [List.flatten_cons, List.length_append, ih fun x hx => hl x (List.mem_cons_of_mem _ hx), hl a List.mem_cons_self, List.length_cons]
          omega
      rw [hle _ (fun x hx => by
        simp only [Takes.frames, List.mem_map] at hx
        obtain ⟨e', he', rfl⟩ := hx
        exact hin e' (List.mem_of_mem_filter he'))]
      have : (((Takes.run format session []).1.ofClass e.2.1).frames).length ≤ 2 := by
        simp only [Takes.frames, List.length_map]
        exact (List.length_filter_le _ _).trans hlen.le
      omega
  · have := hB _ hx
    simp only at this
    rw [this]
    exact Nat.lt_of_lt_of_eq Nat.one_lt_two (h4 l).1.symm

end LoadedTrainExamples
end Xmm
