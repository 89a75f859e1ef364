import Verif.Props.MoreStates
import Verif.Props.SequentialTrain
import Verif.Props.SequentialClass
set_option linter.unusedSectionVars false
/- C115 in the mode Sequential: what training gives depends on the training set and on the parameters only. -/
namespace Xmm
open TS
open Hmm HierHmm

section session
variable (f : Format) (hv : f.Valid) (ops : List (RecOp ℝ String)) (ha : Takes.Admissible f ops [])
include hv ha

/-- **C115 (partial), a new training in the mode Sequential.**  The two models of `C115_train_partial`, trained in the mode Sequential.  If the training of every class is done and `reset()` is called
    (without it `filter` is undefined, `C107_hmm_without_reset_ub`), both have the same classes, one for each label of the takes, and they report the same likelihoods and results on every
    stream of observations, whatever classes they have learnt before and whatever the memory holds that new classes do not initialise (`z`, `z'`).
    Missing: classes whose training is cancelled or fails, which stay in the model (`C107_hmm_failed_class_violated`). -/
theorem C115_sequential_partial (i j : Nat) (v0 w0 : World ℝ String) (hv0 : v0.sets i = none) (hw0 : w0.sets j = none) (hne : (Takes.run f ops []).1 ≠ [])
    (M N : HierHmm ℝ) (hiM : M.training = false) (hiN : N.training = false) (P : EmParams) (hS : M.Settings P) (hhM : M.hier = true) (hhN : N.hier = true)
    (hlong : Takes.LongEnough (Takes.run f ops []).1 fun l => (M.conf l).n) (hbM : M.bimodal = f.bimodal) (hbN : N.bimodal = f.bimodal)
    (hdM : M.bimodal = false → M.di = 0) (hdN : N.bimodal = false → N.di = 0) (hm : M.bimodal = true → ∀ l, (M.conf l).mode = M.mode)
    (hconf : N.conf = M.conf) (hwin : N.window = M.window) (hmode : N.mode = M.mode) (hest : N.est = M.est)
    (z z' : ℝ) (D : Dens ℝ) (hD : D.Sound) (log : ℝ → ℝ) (hlog : ∀ x y, 0 < x → 0 < y → log (x * y) = log x + log y) (lowest pct : ℝ) (cancel : String → Nat → Bool)
    (hdone : ∀ e ∈ (Takes.run f ops []).1, ∃ m, HierHmm.Done z D log (Compare.exact lowest pct) P cancel f (Takes.run f ops []).1 M.conf M.window e.2.1 m) :
    ∃ M1 N1 M' N', recordAndTrainHmmSequential z D log (Compare.exact lowest pct) P cancel f i ops v0 M = .ret () M1 ∧
      recordAndTrainHmmSequential z' D log (Compare.exact lowest pct) P cancel f j ops w0 N = .ret () N1 ∧ HierHmm.reset M1 = .ret () M' ∧ HierHmm.reset N1 = .ret () N' ∧
      M'.Usable ∧ N'.Usable ∧ SMap.keys N'.models = SMap.keys M'.models ∧ (∀ l, l ∈ SMap.keys M1.models ↔ ∃ e ∈ (Takes.run f ops []).1, e.2.1 = l) ∧
      (M'.models ≠ [] → ∀ exp : ℝ → ℝ, ∀ xs, xs ≠ [] → (∀ x ∈ xs, f.Sample x) →
        ∃ rs A B, (do HierHmm.reset; HierHmm.filterAll D log exp xs) M' = .ret rs A ∧ (do HierHmm.reset; HierHmm.filterAll D log exp xs) N' = .ret rs B ∧ HierHmm.SameResults A B) := by
  have hSN : N.Settings P := ⟨by rw [hwin]; exact hS.window, hS.minIter, by rw [hconf]; exact hS.states, by rw [hconf]; exact hS.gaussians, by rw [hconf]; exact hS.absReg,
    by rw [hconf]; exact hS.leftRight⟩
  obtain ⟨M', N', a1, a2, a3, a4, a5, a6⟩ := C115_train_partial f hv ops ha i j v0 w0 hv0 hw0 hne M N hiM hiN P hS hhM hhN hlong hbM hbN hdM hdN hm hconf hwin hmode hest z z' D hD log hlog
    lowest pct cancel
  obtain ⟨M1, b1, -, b2, b3⟩ := HierHmm.C107_hmm_train f hv i v0 hv0 ops ha hne M hiM P hS hlong hbM hdM z D hD log hlog lowest pct cancel
  obtain ⟨N1, c1, -, c2, c3⟩ := HierHmm.C107_hmm_train f hv j w0 hw0 ops ha hne N hiN P hSN (by rw [hconf]; exact hlong) hbN hdN z' D hD log hlog lowest pct cancel
  obtain ⟨w, t, s1, -⟩ := recordThen_sim f hv i v0 hv0 ops ha
  have hdone' : ∀ e ∈ (Takes.run f ops []).1, ∃ m, HierHmm.Done z' D log (Compare.exact lowest pct) P cancel f (Takes.run f ops []).1 N.conf N.window e.2.1 m := by
    intro e he
    obtain ⟨m, tr, k1, k2⟩ := hdone e he
    obtain ⟨c, tr', q1, -⟩ := class_trained s1 hv hS hlong z' D hD log hlog lowest pct cancel e.2.1 ⟨e, he, rfl⟩
    obtain ⟨q2, -⟩ := alone_uninit s1 hv hS hlong z z' D hD log hlog lowest pct (cancel e.2.1) e.2.1 ⟨e, he, rfl⟩ k1 q1
    rw [hconf, hwin]
    exact ⟨_, tr', q1, q2.trans k2⟩
  refine ⟨M1, N1, M', N', b1, c1, ?_, ?_, a3, a4, a5, b2.labels, a6⟩
  · rw [← (b3 hdone).2]; exact a1
  · rw [← (c3 hdone').2]; exact a2

/-- **C115 (partial), one class in the mode Sequential.**  The two models of `C115_any_class_partial`, `train` on one class in the mode Sequential.  If the training is done and `reset()` is called, both
    have the same classes, and they report the same likelihoods and results on every stream of observations.
    Missing: a training that is cancelled or fails, after which the class stays in the model (`C109_sequential_failed_class_violated`). -/
theorem C115_class_sequential_partial (i j : Nat) (v0 w0 : World ℝ String) (hv0 : v0.sets i = none) (hw0 : w0.sets j = none)
    (M N : HierHmm ℝ) (hM : M.Holds f) (hN : N.Holds f) (hsame : HierHmm.SameClasses M N)
    (hrest : N = { M with models := N.models, results := N.results, front1 := N.front1, front2 := N.front2, started := N.started })
    (P : EmParams) (hS : M.Settings P) (hlong : Takes.LongEnough (Takes.run f ops []).1 fun l => (M.conf l).n) (hm : f.bimodal = true → ∀ l, (M.conf l).mode = M.mode)
    (z z' : ℝ) (D : Dens ℝ) (hD : D.Sound) (log : ℝ → ℝ) (hlog : ∀ x y, 0 < x → 0 < y → log (x * y) = log x + log y) (lowest pct : ℝ) (cancel : Nat → Bool)
    (label : String) (hl : ∃ e ∈ (Takes.run f ops []).1, e.2.1 = label)
    (hdone : ∃ m, HierHmm.Done z D log (Compare.exact lowest pct) P (fun _ => cancel) f (Takes.run f ops []).1 M.conf M.window label m) :
    ∃ M1 N1 M' N', recordAndTrainHmmClassSequential z D log (Compare.exact lowest pct) P cancel f i ops v0 label M = .ret () M1 ∧
      recordAndTrainHmmClassSequential z' D log (Compare.exact lowest pct) P cancel f j ops w0 label N = .ret () N1 ∧ HierHmm.reset M1 = .ret () M' ∧ HierHmm.reset N1 = .ret () N' ∧
      M'.Usable ∧ N'.Usable ∧ SMap.keys N'.models = SMap.keys M'.models ∧
      (M'.models ≠ [] → ∀ exp : ℝ → ℝ, ∀ xs, xs ≠ [] → (∀ x ∈ xs, f.Sample x) →
        ∃ rs A B, (do HierHmm.reset; HierHmm.filterAll D log exp xs) M' = .ret rs A ∧ (do HierHmm.reset; HierHmm.filterAll D log exp xs) N' = .ret rs B ∧ HierHmm.SameResults A B) := by
  have hconf : N.conf = M.conf := by rw [hrest]
  have hwin : N.window = M.window := by rw [hrest]
  have hSN : N.Settings P := ⟨by rw [hwin]; exact hS.window, hS.minIter, by rw [hconf]; exact hS.states, by rw [hconf]; exact hS.gaussians, by rw [hconf]; exact hS.absReg,
    by rw [hconf]; exact hS.leftRight⟩
  obtain ⟨M', N', a1, a2, a3⟩ := C115_any_class_partial f hv ops ha i j v0 w0 hv0 hw0 M N hM hN hsame hrest P hS hlong hm z z' D hD log hlog lowest pct cancel label hl
  obtain ⟨M1, b1, -, -, b3⟩ := HierHmm.C109_sequential_class f hv i v0 hv0 ops ha z D log lowest pct P M hlong hS hD hlog hM label hl cancel
  obtain ⟨N1, c1, -, -, c3⟩ := HierHmm.C109_sequential_class f hv j w0 hw0 ops ha z' D log lowest pct P N (by rw [hconf]; exact hlong) hSN hD hlog hN label hl cancel
  obtain ⟨w, t, s1, -⟩ := recordThen_sim f hv i v0 hv0 ops ha
  have hdone' : ∃ m, HierHmm.Done z' D log (Compare.exact lowest pct) P (fun _ => cancel) f (Takes.run f ops []).1 N.conf N.window label m := by
    obtain ⟨m, tr, k1, k2⟩ := hdone
    obtain ⟨c, tr', q1, -⟩ := class_trained s1 hv hS hlong z' D hD log hlog lowest pct (fun _ => cancel) label hl
    obtain ⟨q2, -⟩ := alone_uninit s1 hv hS hlong z z' D hD log hlog lowest pct cancel label hl k1 q1
    rw [hconf, hwin]
    exact ⟨_, tr', q1, q2.trans k2⟩
  refine ⟨M1, N1, M', N', b1, c1, ?_, ?_, a3⟩
  · rw [← (b3 hdone).2]; exact a1
  · rw [← (c3 hdone').2]; exact a2

/-- **C115 (partial), mixture models in the mode Sequential.**  The two models of `C115_gmm_partial`, trained in the mode Sequential.  If the training of every class is done and `reset()` is called
    (without it `filter` is undefined, `C107_gmm_without_reset_ub`), both have the same classes, one for each label of the takes, and they report the same likelihoods and results on every
    stream of observations.
    Missing: classes whose training is cancelled or fails, which stay in the model (`C107_gmm_failed_class_violated`). -/
theorem C115_gmm_sequential_partial (i j : Nat) (v0 w0 : World ℝ String) (hv0 : v0.sets i = none) (hw0 : w0.sets j = none) (hne : (Takes.run f ops []).1 ≠ [])
    (hfill : Takes.Filled (Takes.run f ops []).1) (S : GmmSettings ℝ) (hS : S.Valid) (M N : GmmModel ℝ) (hbM : M.bimodal = f.bimodal) (hbN : N.bimodal = f.bimodal)
    (hm : f.bimodal = true → ∀ l, S.mode l = M.mode) (hmode : N.mode = M.mode) (hest : N.est = M.est)
    (D : Dens ℝ) (hD : D.Sound) (log : ℝ → ℝ) (lowest pct : ℝ) (cancel : String → Nat → Bool)
    (hdone : ∀ e ∈ (Takes.run f ops []).1, ∃ m, GmmModel.Done S D log (Compare.exact lowest pct) cancel f (Takes.run f ops []).1 e.2.1 m) :
    ∃ M1 N1 M' N', recordAndTrainSequential S D log (Compare.exact lowest pct) cancel f i ops v0 M = .ret () M1 ∧
      recordAndTrainSequential S D log (Compare.exact lowest pct) cancel f j ops w0 N = .ret () N1 ∧ GmmModel.reset M1 = .ret () M' ∧ GmmModel.reset N1 = .ret () N' ∧
      M'.Usable ∧ N'.Usable ∧ SMap.keys N'.models = SMap.keys M'.models ∧ (∀ l, l ∈ SMap.keys M1.models ↔ ∃ e ∈ (Takes.run f ops []).1, e.2.1 = l) ∧
      (M'.models ≠ [] → ∀ exp : ℝ → ℝ, (∀ x, 0 < exp x) → ∀ xs, xs ≠ [] → (∀ x ∈ xs, f.Sample x) →
        ∃ A B, (do GmmModel.reset; GmmModel.filterAll D log exp xs) M' = .ret () A ∧ (do GmmModel.reset; GmmModel.filterAll D log exp xs) N' = .ret () B ∧
          B.results = { A.results with outVals := B.results.outVals, outCov := B.results.outCov } ∧ (f.bimodal = true → B.results = A.results)) := by
  obtain ⟨M', N', a1, a2, a3, a4, a5, a6⟩ := C115_gmm_partial f hv ops ha i j v0 w0 hv0 hw0 hne hfill S hS M N hbM hbN hm hmode hest D hD log lowest pct cancel
  obtain ⟨M1, b1, -, b2, b3⟩ := GmmModel.C107_gmm_train f hv i v0 hv0 ops ha hne hfill S hS D hD log lowest pct cancel M hbM
  obtain ⟨N1, c1, -, c2, c3⟩ := GmmModel.C107_gmm_train f hv j w0 hw0 ops ha hne hfill S hS D hD log lowest pct cancel N hbN
  refine ⟨M1, N1, M', N', b1, c1, ?_, ?_, a3, a4, a5, b2.labels, a6⟩
  · rw [← b3 hdone]; exact a1
  · rw [← c3 hdone]; exact a2

end session

/-! ### The hypotheses are met -/

/-- the hypotheses of `C115_sequential_partial` are met by a new model and by one that has another class, with a session whose classes are all trained -/
theorem uninitialised_sequential_example (c : Hmm ℝ) (z z' lowest pct : ℝ) : ∃ M1 N1 M' N',
    recordAndTrainHmmSequential z halfDens Real.log (Compare.exact lowest pct) ⟨5, 10⟩ (fun _ _ => false) sessionFormat 0 frameSession emptyWorld stackedModel = .ret () M1 ∧
    recordAndTrainHmmSequential z' halfDens Real.log (Compare.exact lowest pct) ⟨5, 10⟩ (fun _ _ => false) sessionFormat 0 frameSession emptyWorld { stackedModel with models := [("old", c)] } =
      .ret () N1 ∧ HierHmm.reset M1 = .ret () M' ∧ HierHmm.reset N1 = .ret () N' ∧ SMap.keys N'.models = SMap.keys M'.models := by
  obtain ⟨a1, a2, a3, a4, a5, a6, a7, a8, a9, a10, a11⟩ := HierHmm.sequential_example
  obtain ⟨e, he, -⟩ := a11 z lowest pct
  have hlog : ∀ x y : ℝ, 0 < x → 0 < y → Real.log (x * y) = Real.log x + Real.log y := fun x y hx hy => Real.log_mul hx.ne' hy.ne'
  obtain ⟨M1, N1, M', N', h1, h2, h3, h4, -, -, h5, -⟩ := C115_sequential_partial sessionFormat a4 frameSession a5 0 0 emptyWorld emptyWorld rfl rfl (List.ne_nil_of_mem he) stackedModel
    { stackedModel with models := [("old", c)] } a1 a1 ⟨5, 10⟩ a3 a2 a2 a6 a7 a7 (fun h => by rw [a7] at h; cases h) (fun h => by rw [show _ = _ from a7] at h; cases h) a8 rfl rfl rfl rfl z z'
    halfDens a9 Real.log hlog lowest pct (fun _ _ => false) (a10 z lowest pct)
  exact ⟨M1, N1, M', N', h1, h2, h3, h4, h5⟩

/-- the hypotheses of `C115_gmm_sequential_partial` are met by a new model and by one that has another class, with a session whose classes are all trained -/
theorem uninitialised_gmm_sequential_example (c : Gmm ℝ) (lowest pct : ℝ) : ∃ M1 N1 M' N',
    recordAndTrainSequential sessionSettings halfDens Real.log (Compare.exact lowest pct) (fun _ _ => false) sessionFormat 0 sessionA emptyWorld GmmModel.sessionModel = .ret () M1 ∧
    recordAndTrainSequential sessionSettings halfDens Real.log (Compare.exact lowest pct) (fun _ _ => false) sessionFormat 0 sessionA emptyWorld
      { GmmModel.sessionModel with models := [("old", c)] } = .ret () N1 ∧ GmmModel.reset M1 = .ret () M' ∧ GmmModel.reset N1 = .ret () N' ∧ SMap.keys N'.models = SMap.keys M'.models := by
  obtain ⟨a1, a2, a3, a4, a5, a6, a7, -, a8, a9, -⟩ := GmmModel.sequential_example
  obtain ⟨M1, N1, M', N', h1, h2, h3, h4, -, -, h5, -⟩ := C115_gmm_sequential_partial sessionFormat a1 sessionA a2 0 0 emptyWorld emptyWorld rfl rfl a3 a4 sessionSettings a5 GmmModel.sessionModel
    { GmmModel.sessionModel with models := [("old", c)] } a7 a7 (fun _ => a8) rfl rfl halfDens a6 Real.log lowest pct (fun _ _ => false) (a9 lowest pct)
  exact ⟨M1, N1, M', N', h1, h2, h3, h4, h5⟩

/-- the hypotheses of `C115_class_sequential_partial` are met by two models that have the class "a", one of which has started to recognise, and are trained for "a" again -/
theorem uninitialised_class_sequential_example (z z' lowest pct : ℝ) : ∃ M N M1 N1 M' N' : HierHmm ℝ, "a" ∈ SMap.keys M.models ∧ M.started ≠ N.started ∧
    recordAndTrainHmmClassSequential z bigDens Real.log (Compare.exact lowest pct) ⟨5, 10⟩ (fun _ => false) sessionFormat 0 sessionA emptyWorld "a" M = .ret () M1 ∧
    recordAndTrainHmmClassSequential z' bigDens Real.log (Compare.exact lowest pct) ⟨5, 10⟩ (fun _ => false) sessionFormat 0 sessionA emptyWorld "a" N = .ret () N1 ∧
    HierHmm.reset M1 = .ret () M' ∧ HierHmm.reset N1 = .ret () N' ∧ SMap.keys N'.models = SMap.keys M'.models := by
  obtain ⟨a1, a2, -, -, -, -, a3, -, a4, -, -, ⟨M, N, b1, b2, b3, b4, b5, b6, b7, b8, b9, b10, b11⟩, a5, a6, a7⟩ := uninitialised_example
  have hlog : ∀ x y : ℝ, 0 < x → 0 < y → Real.log (x * y) = Real.log x + Real.log y := fun x y hx hy => Real.log_mul hx.ne' hy.ne'
  obtain ⟨M1, N1, M', N', h1, h2, h3, h4, -, -, h5, -⟩ := C115_class_sequential_partial sessionFormat a1 sessionA a2 0 0 emptyWorld emptyWorld rfl rfl M N b1 b2 b3 b4 ⟨5, 10⟩ b6 (by rw [b7]; exact a3)
    (fun _ l => by rw [b7, b8]; exact a4 l) z z' bigDens a6 Real.log hlog lowest pct (fun _ => false) "a" a5 (by
      obtain ⟨tr, m, k1, k2⟩ := a7 z lowest pct
      rw [b7, b9]
      exact ⟨m, tr, k1, k2⟩)
  exact ⟨M, N, M1, N1, M', N', b10, b5, h1, h2, h3, h4, h5⟩

end Xmm
