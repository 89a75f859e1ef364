import Verif.Props.RenamingHmm
import Verif.Props.ShortTraining
set_option linter.unusedSectionVars false
/- C112 in the mode Sequential: the names of the classes do not matter. -/
namespace Xmm
open TS Prog PhraseSpec

theorem mem_rename (ρ : String → String) (τ : Takes ℝ String) (e : Int × String × PhraseSpec.S ℝ) : e ∈ Takes.rename ρ τ ↔ ∃ e' ∈ τ, (e'.1, ρ e'.2.1, e'.2.2) = e := List.mem_map

/-- C112, mixture models in the mode Sequential.  As `C112_names`, with training in the mode Sequential, if the training of every class is done in the first session: then it is done in the second
    one, `reset()` returns on both models, they have the same classes, one for each label, under the other names, and the same reports on every stream. -/
theorem C112_sequential_names (ρ : String → String) (hρ : Function.Injective ρ) (f : Format) (hv : f.Valid) (i j : Nat) (v0 w0 : World ℝ String) (hv0 : v0.sets i = none)
    (hw0 : w0.sets j = none) (ops : List (RecOp ℝ String)) (ha : Takes.Admissible f ops []) (hne : (Takes.run f ops []).1 ≠ []) (hfill : Takes.Filled (Takes.run f ops []).1)
    (S T : GmmSettings ℝ) (hS : S.Valid) (hT : T.Valid) (hST : S.Renamed ρ T) (D : Dens ℝ) (hD : D.Sound) (log : ℝ → ℝ) (lowest pct : ℝ)
    (cancel cancel' : String → Nat → Bool) (hc : ∀ l, cancel' (ρ l) = cancel l) (M N : GmmModel ℝ) (hbM : M.bimodal = f.bimodal) (hbN : N.bimodal = f.bimodal)
    (hmM : f.bimodal = true → ∀ l, S.mode l = M.mode) (hmN : f.bimodal = true → ∀ l, T.mode l = N.mode) (hm : N.mode = M.mode) (he : N.est = M.est)
    (hdone : ∀ e ∈ (Takes.run f ops []).1, ∃ m, GmmModel.Done S D log (Compare.exact lowest pct) cancel f (Takes.run f ops []).1 e.2.1 m) :
    ∃ M1 N1 M' N', recordAndTrainSequential S D log (Compare.exact lowest pct) cancel f i ops v0 M = .ret () M1 ∧
      recordAndTrainSequential T D log (Compare.exact lowest pct) cancel' f j (ops.map (RecOp.rename ρ)) w0 N = .ret () N1 ∧ GmmModel.reset M1 = .ret () M' ∧
      GmmModel.reset N1 = .ret () N' ∧ (∀ l, l ∈ SMap.keys M'.models ↔ ∃ e ∈ (Takes.run f ops []).1, e.2.1 = l) ∧
      GmmModel.RenamedAs ρ M' N' ∧
      ∀ (exp : ℝ → ℝ), (∀ x, 0 < exp x) → M'.models ≠ [] → ∀ xs : List (List ℝ), xs ≠ [] → (∀ x ∈ xs, f.Sample x) →
        ∃ M'' N'', (do GmmModel.reset; GmmModel.filterAll D log exp xs) M' = .ret () M'' ∧ (do GmmModel.reset; GmmModel.filterAll D log exp xs) N' = .ret () N'' ∧
          N''.report.Perm (M''.report.map (ClassReport.rename ρ)) ∧ (NoTie M''.report → N''.results.likeliest = ρ M''.results.likeliest) ∧
          (f.bimodal = true → M.est = .mixture ∨ NoTie M''.report → N''.results.outVals = M''.results.outVals ∧ N''.results.outCov = M''.results.outCov) := by
  obtain ⟨M', N', a1, a2, a3, a4⟩ := C112_names ρ hρ f hv i j v0 w0 hv0 hw0 ops ha hne hfill S T hS hT hST D hD log lowest pct cancel cancel' hc M N hbM hbN hmM hmN hm he
  obtain ⟨r1, r2⟩ := rename_run f ρ hρ ops []
  have r3 : (Takes.run f (ops.map (RecOp.rename ρ)) []).1 = Takes.rename ρ (Takes.run f ops []).1 := congrArg Prod.fst r1
  have hb : Takes.Admissible f (ops.map (RecOp.rename ρ)) [] := r2 ha
  have hne' : (Takes.run f (ops.map (RecOp.rename ρ)) []).1 ≠ [] := by rw [r3]; simpa [Takes.rename] using hne
  have hfill' : Takes.Filled (Takes.run f (ops.map (RecOp.rename ρ)) []).1 := by
    rw [r3]
    intro e he
    obtain ⟨e0, h0, rfl⟩ := (mem_rename ρ _ e).1 he
    obtain ⟨e1, h1, h2, h3⟩ := hfill e0 h0
    exact ⟨_, (mem_rename ρ _ _).2 ⟨e1, h1, rfl⟩, by simp [h2], h3⟩
  obtain ⟨w, t, s1, s2, s3⟩ := recordAndTrain_sim f hv i v0 hv0 ops ha
  obtain ⟨w', t', s1', s2', s3'⟩ := recordAndTrain_sim f hv j w0 hw0 _ hb
  obtain ⟨X, b1, -, b3, -⟩ := C103_of_sim s1 s2 hv hne hfill S hS D hD log lowest pct cancel M hbM hmM
  obtain ⟨Y, c1, -, c3, -⟩ := C103_of_sim s1' s2' hv hne' hfill' T hT D hD log lowest pct cancel' N hbN hmN
  rw [s3, b1] at a1
  injection a1 with _ a1
  subst a1
  rw [s3', c1] at a2
  injection a2 with _ a2
  subst a2
  have hall : ∀ l, (∃ e ∈ (Takes.run f ops []).1, e.2.1 = l) → l ∈ SMap.keys X.models := by
    intro l hl
    obtain ⟨tr, m, k1, -, k2⟩ := b3.each l hl
    obtain ⟨e, he, rfl⟩ := hl
    obtain ⟨m1, tr1, d1, d2⟩ := hdone e he
    rw [k1] at d1
    injection d1 with d1 _
    subst d1
    rcases k2 with ⟨-, m', h, -⟩ | ⟨-, ⟨h, -⟩ | ⟨h, -⟩⟩
    · exact List.mem_map.2 ⟨_, h, rfl⟩
    · rw [d2] at h; cases h
    · rw [d2] at h; cases h
  have hdone' : ∀ e ∈ (Takes.run f (ops.map (RecOp.rename ρ)) []).1, ∃ m, GmmModel.Done T D log (Compare.exact lowest pct) cancel' f (Takes.run f (ops.map (RecOp.rename ρ)) []).1 e.2.1 m := by
    intro e he
    have he' := he
    rw [r3] at he'
    obtain ⟨e0, h0, rfl⟩ := (mem_rename ρ _ e).1 he'
    have hmem : ρ e0.2.1 ∈ SMap.keys Y.models := by
      obtain ⟨lc, h1, h2⟩ := List.mem_map.1 (hall e0.2.1 ⟨e0, h0, rfl⟩)
      obtain ⟨n, h3, -⟩ := a3.fwd lc h1
      rw [← h2]
      exact List.mem_map.2 ⟨_, h3, rfl⟩
    obtain ⟨tr, m, k1, -, k2⟩ := c3.each (ρ e0.2.1) ⟨_, he, rfl⟩
    rcases k2 with ⟨h, -⟩ | ⟨h, -⟩
    · exact ⟨m, tr, k1, h⟩
    · exact absurd hmem h
  obtain ⟨M1, p1, -, -, p2⟩ := GmmModel.C107_gmm_train f hv i v0 hv0 ops ha hne hfill S hS D hD log lowest pct cancel M hbM
  obtain ⟨N1, q1, -, -, q2⟩ := GmmModel.C107_gmm_train f hv j w0 hw0 _ hb hne' hfill' T hT D hD log lowest pct cancel' N hbN
  have e1 := p2 hdone
  have e2 := q2 hdone'
  rw [s3, b1] at e1
  rw [s3', c1] at e2
  exact ⟨M1, N1, X, Y, p1, q1, e1.symm, e2.symm, fun l => ⟨b3.known l, hall l⟩, a3, a4⟩

/-- the hypotheses are met: the session of `C112_example`, one iteration, nothing cancelled -/
theorem C112_sequential_example (lowest pct : ℝ) : ∃ M1 N1 M' N',
    recordAndTrainSequential { sessionSettings with em := ⟨1, 1⟩ } Dens.real Real.log (Compare.exact lowest pct) (fun _ _ => false) sessionFormat 0 sessionA emptyWorld GmmModel.sessionModel = .ret () M1 ∧
    recordAndTrainSequential { swappedSettings with em := ⟨1, 1⟩ } Dens.real Real.log (Compare.exact lowest pct) (fun _ _ => false) sessionFormat 0 (sessionA.map (RecOp.rename swapNames)) emptyWorld
      GmmModel.sessionModel = .ret () N1 ∧ GmmModel.reset M1 = .ret () M' ∧ GmmModel.reset N1 = .ret () N' ∧ GmmModel.RenamedAs swapNames M' N' ∧ "a" ∈ SMap.keys M'.models := by
  obtain ⟨c1, -, c2, -, -, -, -, -, -, -, c3, -⟩ := C112_example
  obtain ⟨a1, a2, a3, a4, a5, -, a6, -, a8⟩ := GmmModel.short_example
  have hl : ∃ e ∈ (Takes.run sessionFormat sessionA []).1, e.2.1 = "a" := by
    obtain ⟨-, -, -, -, -, -, -, -, -, -, -, -, -, h, -⟩ := C112_example
    exact h
  obtain ⟨M1, N1, M', N', h1, h2, h3, h4, h5, h6, -⟩ := C112_sequential_names swapNames c1 sessionFormat a1 0 0 emptyWorld emptyWorld rfl rfl sessionA a2 a3 a4
    { sessionSettings with em := ⟨1, 1⟩ } { swappedSettings with em := ⟨1, 1⟩ } a5 ⟨a5.window, a5.minIter, fun l => a5.gaussians (swapNames l), fun l => a5.absReg (swapNames l)⟩
    ⟨c2.window, rfl, c2.gaussians, c2.relReg, c2.absReg, c2.mode⟩ Dens.real Dens.real_sound Real.log lowest pct (fun _ _ => false) (fun _ _ => false) (fun _ => rfl) GmmModel.sessionModel
    GmmModel.sessionModel a6 a6 (fun _ => a8) (fun _ l => a8 (swapNames l)) rfl rfl
    (fun e he => GmmModel.short_done sessionFormat a1 0 emptyWorld rfl _ a2 a4 _ a5 le_rfl (by norm_num) Dens.real Dens.real_sound Real.log lowest pct _ _ ⟨e, he, rfl⟩ fun _ => rfl)
  exact ⟨M1, N1, M', N', h1, h2, h3, h4, h6, (h5 "a").2 hl⟩

namespace HierHmm

/-- C112, hierarchical HMMs in the mode Sequential.  As `C112_hmm_names`, with training in the mode Sequential, if the training of every class is done in the first session: then it is done in the
    second one, `reset()` returns on both models, they have the same classes, one for each label, under the other names, and the same reports on every stream. -/
theorem C112_sequential_hmm_names (ρ : String → String) (hρ : Function.Injective ρ) (f : Format) (hv : f.Valid) (i j : Nat) (v0 w0 : World ℝ String) (hv0 : v0.sets i = none)
    (hw0 : w0.sets j = none) (ops : List (RecOp ℝ String)) (ha : Takes.Admissible f ops []) (hne : (Takes.run f ops []).1 ≠ []) (M N : HierHmm ℝ)
    (hiM : M.training = false) (hiN : N.training = false) (P : EmParams) (hSM : M.Settings P) (hSN : N.Settings P) (hhM : M.hier = true) (hhN : N.hier = true)
    (hlong : Takes.LongEnough (Takes.run f ops []).1 fun l => (M.conf l).n) (hbM : M.bimodal = f.bimodal) (hbN : N.bimodal = f.bimodal)
    (hdM : M.bimodal = false → M.di = 0) (hdN : N.bimodal = false → N.di = 0) (hmM : M.bimodal = true → ∀ l, (M.conf l).mode = M.mode)
    (hmN : N.bimodal = true → ∀ l, (N.conf l).mode = N.mode) (hconf : ∀ l, N.conf (ρ l) = M.conf l) (hw : N.window = M.window) (hm : N.mode = M.mode) (he : N.est = M.est)
    (z : ℝ) (D : Dens ℝ) (hD : D.Sound) (log : ℝ → ℝ) (hlog : ∀ x y, 0 < x → 0 < y → log (x * y) = log x + log y) (lowest pct : ℝ)
    (cancel cancel' : String → Nat → Bool) (hc : ∀ l, cancel' (ρ l) = cancel l)
    (hdone : ∀ e ∈ (Takes.run f ops []).1, ∃ m, Done z D log (Compare.exact lowest pct) P cancel f (Takes.run f ops []).1 M.conf M.window e.2.1 m) :
    ∃ M1 N1 M' N', recordAndTrainHmmSequential z D log (Compare.exact lowest pct) P cancel f i ops v0 M = .ret () M1 ∧
      recordAndTrainHmmSequential z D log (Compare.exact lowest pct) P cancel' f j (ops.map (RecOp.rename ρ)) w0 N = .ret () N1 ∧ reset M1 = .ret () M' ∧ reset N1 = .ret () N' ∧
      (∀ l, l ∈ SMap.keys M'.models ↔ ∃ e ∈ (Takes.run f ops []).1, e.2.1 = l) ∧
      RenamedAs ρ M' N' ∧
      ∀ (exp : ℝ → ℝ), M'.models ≠ [] → ∀ xs : List (List ℝ), xs ≠ [] → (∀ x ∈ xs, f.Sample x) →
        ∃ rs ss M'' N'', (do reset; filterAll D log exp xs) M' = .ret rs M'' ∧ (do reset; filterAll D log exp xs) N' = .ret ss N'' ∧
          N''.report.Perm (M''.report.map (ClassReport.rename ρ)) ∧
          (∀ l m, (l, m) ∈ M''.models → ∃ n, (ρ l, n) ∈ N''.models ∧ n.progress = m.progress ∧ n.likeliest = m.likeliest) ∧
          (NoTie M''.report → N''.results.likeliest = ρ M''.results.likeliest) ∧
          (f.bimodal = true → M.est = .mixture ∨ NoTie M''.report → N''.results.outVals = M''.results.outVals ∧ N''.results.outCov = M''.results.outCov) := by
  obtain ⟨M', N', a1, a2, a3, a4⟩ := C112_hmm_names ρ hρ f hv i j v0 w0 hv0 hw0 ops ha hne M N hiM hiN P hSM hSN hhM hhN hlong hbM hbN hdM hdN hmM hmN hconf hw hm he z D hD log hlog lowest pct
    cancel cancel' hc
  obtain ⟨r1, r2⟩ := rename_run f ρ hρ ops []
  have r3 : (Takes.run f (ops.map (RecOp.rename ρ)) []).1 = Takes.rename ρ (Takes.run f ops []).1 := congrArg Prod.fst r1
  have hb : Takes.Admissible f (ops.map (RecOp.rename ρ)) [] := r2 ha
  have hne' : (Takes.run f (ops.map (RecOp.rename ρ)) []).1 ≠ [] := by rw [r3]; simpa [Takes.rename] using hne
  have hlong' : Takes.LongEnough (Takes.run f (ops.map (RecOp.rename ρ)) []).1 fun l => (N.conf l).n := by
    rw [r3]
    intro e he
    obtain ⟨e0, h0, rfl⟩ := (mem_rename ρ _ e).1 he
    obtain ⟨⟨e1, h1, h2, h3⟩, h4⟩ := hlong e0 h0
    refine ⟨⟨_, (mem_rename ρ _ _).2 ⟨e1, h1, rfl⟩, by simp [h2], by simpa [hconf] using h3⟩, ?_⟩
    simp only [rename_ofClass ρ hρ]
    exact h4
  obtain ⟨X, b1, -, -, b3, -⟩ := C105_train f hv i v0 hv0 ops ha hne M hiM P hSM hhM hlong hbM hdM hmM z D hD log hlog lowest pct cancel
  obtain ⟨Y, c1, -, -, c3, -⟩ := C105_train f hv j w0 hw0 _ hb hne' N hiN P hSN hhN hlong' hbN hdN hmN z D hD log hlog lowest pct cancel'
  rw [b1] at a1
  injection a1 with _ a1
  subst a1
  rw [c1] at a2
  injection a2 with _ a2
  subst a2
  have hall : ∀ l, (∃ e ∈ (Takes.run f ops []).1, e.2.1 = l) → l ∈ SMap.keys X.models := by
    intro l hl
    obtain ⟨tr, m, k1, -, k2⟩ := b3.each l hl
    obtain ⟨e, he, rfl⟩ := hl
    obtain ⟨m1, tr1, d1, d2⟩ := hdone e he
    rw [k1] at d1
    injection d1 with d1 _
    subst d1
    rcases k2 with ⟨-, m', h, -⟩ | ⟨-, ⟨h, -⟩ | ⟨h, -⟩⟩
    · exact List.mem_map.2 ⟨_, h, rfl⟩
    · rw [d2] at h; cases h
    · rw [d2] at h; cases h
  have hdone' : ∀ e ∈ (Takes.run f (ops.map (RecOp.rename ρ)) []).1, ∃ m, Done z D log (Compare.exact lowest pct) P cancel' f (Takes.run f (ops.map (RecOp.rename ρ)) []).1 N.conf N.window e.2.1 m := by
    intro e he
    have he' := he
    rw [r3] at he'
    obtain ⟨e0, h0, rfl⟩ := (mem_rename ρ _ e).1 he'
    have hmem : ρ e0.2.1 ∈ SMap.keys Y.models := by
      obtain ⟨lc, h1, h2⟩ := List.mem_map.1 (hall e0.2.1 ⟨e0, h0, rfl⟩)
      obtain ⟨n, h3, -⟩ := a3.fwd lc h1
      rw [← h2]
      exact List.mem_map.2 ⟨_, h3, rfl⟩
    obtain ⟨tr, m, k1, -, k2⟩ := c3.each (ρ e0.2.1) ⟨_, he, rfl⟩
    rcases k2 with ⟨h, -⟩ | ⟨h, -⟩
    · exact ⟨m, tr, k1, h⟩
    · exact absurd hmem h
  obtain ⟨M1, p1, -, -, p2⟩ := C107_hmm_train f hv i v0 hv0 ops ha hne M hiM P hSM hlong hbM hdM z D hD log hlog lowest pct cancel
  obtain ⟨N1, q1, -, -, q2⟩ := C107_hmm_train f hv j w0 hw0 _ hb hne' N hiN P hSN hlong' hbN hdN z D hD log hlog lowest pct cancel'
  exact ⟨M1, N1, X, Y, p1, q1, (p2 hdone).2.symm.trans b1, (q2 hdone').2.symm.trans c1, fun l => ⟨b3.known l, hall l⟩, a3, a4⟩

/-- the hypotheses are met: the session of `C112_hmm_example`, two iterations at most, nothing cancelled -/
theorem C112_sequential_hmm_example (z lowest pct : ℝ) : ∃ M1 N1 M' N',
    recordAndTrainHmmSequential z Dens.real Real.log (Compare.exact lowest pct) ⟨1, 2⟩ (fun _ _ => false) sessionFormat 0 sessionA emptyWorld sessionModel = .ret () M1 ∧
    recordAndTrainHmmSequential z Dens.real Real.log (Compare.exact lowest pct) ⟨1, 2⟩ (fun _ _ => false) sessionFormat 0 (sessionA.map (RecOp.rename swapNames)) emptyWorld swappedModel = .ret () N1 ∧
      reset M1 = .ret () M' ∧ reset N1 = .ret () N' ∧ RenamedAs swapNames M' N' ∧ "a" ∈ SMap.keys M'.models := by
  obtain ⟨b1, b2, b3, b4, b5, b6, b7, b8, b9, b10, b11, b12, b13, b14, b15, -⟩ := C112_hmm_example
  have hS : sessionModel.Settings ⟨1, 2⟩ := ⟨b8.window, le_rfl, b8.states, b8.gaussians, b8.absReg, b8.leftRight⟩
  have hS' : swappedModel.Settings ⟨1, 2⟩ := ⟨b9.window, le_rfl, b9.states, b9.gaussians, b9.absReg, b9.leftRight⟩
  have hlog : ∀ x y : ℝ, 0 < x → 0 < y → Real.log (x * y) = Real.log x + Real.log y := fun x y hx hy => Real.log_mul hx.ne' hy.ne'
  have hl : ∃ e ∈ (Takes.run sessionFormat sessionA []).1, e.2.1 = "a" := by
    obtain ⟨-, -, -, -, -, -, -, -, -, -, -, -, -, h, -⟩ := C112_example
    exact h
  obtain ⟨M1, N1, M', N', h1, h2, h3, h4, h5, h6, -⟩ := C112_sequential_hmm_names swapNames b1 sessionFormat b12 0 0 emptyWorld emptyWorld rfl rfl sessionA b13 b14 sessionModel swappedModel b6 b7
    ⟨1, 2⟩ hS hS' b10 b11 b15 rfl rfl (fun h => by cases h) (fun h => by cases h) (fun _ _ => rfl) (fun _ _ => rfl) b2 b3 b4 b5 z Dens.real Dens.real_sound Real.log hlog lowest pct (fun _ _ => false)
    (fun _ _ => false) (fun _ => rfl)
    (fun e he => short_done sessionFormat b12 0 emptyWorld rfl sessionA b13 sessionModel ⟨1, 2⟩ hS (by norm_num) le_rfl b15 z Dens.real Dens.real_sound Real.log hlog lowest pct _ _ ⟨e, he, rfl⟩
      fun _ => rfl)
  exact ⟨M1, N1, M', N', h1, h2, h3, h4, h6, (h5 "a").2 hl⟩

end HierHmm
end Xmm
