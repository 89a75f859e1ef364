import Verif.Props.AxesHier
import Verif.Props.ShortTraining
set_option linter.unusedSectionVars false
/- C113 in the mode Sequential: the axes do not matter. -/
namespace Xmm
open TS Prog

namespace NewAxes

theorem mem_frames (σ : Takes ℝ String) (l : String) (p : List (List ℝ)) : p ∈ (σ.ofClass l).frames ↔ ∃ e ∈ σ, e.2.1 = l ∧ e.2.2.frames = p := by
  simp only [Takes.frames, Takes.ofClass, List.mem_map, List.mem_filter, decide_eq_true_eq, and_assoc]

theorem CarriesTakes.ne_nil {d : Nat} {A : NewAxes d} {τ τ' : Takes ℝ String} (hτ : A.CarriesTakes τ τ') (hne : τ ≠ []) : τ' ≠ [] := by
  obtain ⟨e, h1⟩ := List.exists_mem_of_ne_nil _ hne
  obtain ⟨e', h2, -⟩ := (hτ.labels e.2.1).2 ⟨e, h1, rfl⟩
  exact List.ne_nil_of_mem h2

theorem CarriesTakes.filled {d : Nat} {A : NewAxes d} {τ τ' : Takes ℝ String} (hτ : A.CarriesTakes τ τ') (hfill : Takes.Filled τ) : Takes.Filled τ' := by
  intro e h1
  obtain ⟨e0, h2, h3⟩ := (hτ.labels e.2.1).1 ⟨e, h1, rfl⟩
  obtain ⟨e1, h4, h5, h6⟩ := hfill e0 h2
  have h7 : e1.2.2.frames.map A.frame ∈ (τ'.ofClass e.2.1).frames := by
    rw [hτ.frames]
    exact List.mem_map.2 ⟨_, (mem_frames τ e.2.1 _).2 ⟨e1, h4, h5.trans h3, rfl⟩, rfl⟩
  obtain ⟨e2, k1, k2, k3⟩ := (mem_frames τ' _ _).1 h7
  exact ⟨e2, k1, k2, by rw [k3]; simpa using h6⟩

theorem CarriesTakes.longEnough {d : Nat} {A : NewAxes d} {τ τ' : Takes ℝ String} (hτ : A.CarriesTakes τ τ') {n : String → Nat} (hlong : Takes.LongEnough τ n) : Takes.LongEnough τ' n := by
  intro e h1
  obtain ⟨e0, h2, h3⟩ := (hτ.labels e.2.1).1 ⟨e, h1, rfl⟩
  obtain ⟨⟨e1, h4, h5, h6⟩, h7⟩ := hlong e0 h2
  have h8 : e1.2.2.frames.map A.frame ∈ (τ'.ofClass e.2.1).frames := by
    rw [hτ.frames]
    exact List.mem_map.2 ⟨_, (mem_frames τ e.2.1 _).2 ⟨e1, h4, h5.trans h3, rfl⟩, rfl⟩
  obtain ⟨e2, k1, k2, k3⟩ := (mem_frames τ' _ _).1 h8
  refine ⟨⟨e2, k1, k2, ?_⟩, ?_⟩
  · rw [k3, List.length_map, ← h3]; exact h6
  · rw [hτ.frames, ← h3, ← List.map_flatten, List.length_map]; exact h7

end NewAxes

/-- **C113 (partial), mixture models in the mode Sequential.**  As `C113_axes_partial`, with training in the mode Sequential, if the training of every class is done in the first session: then
    it is done in the second one, `reset()` returns on both models, and they have the same classes.  On every stream, given to the second model in the new axes, all likelihoods and the likeliest
    class are the same; and the output predicted by the second model is the one predicted by the first, in the new axes.
    Missing: another origin if a component starts without frames or k-means leaves a center without frames (C98); a training that is cancelled or fails. -/
theorem C113_sequential_axes_partial (f : Format) (hv : f.Valid) (A : NewAxes f.dim) (hA : f.bimodal = true → A.KeepsInput f.di) (i j : Nat) (v0 w0 : World ℝ String) (hv0 : v0.sets i = none)
    (hw0 : w0.sets j = none) (as bs : List (RecOp ℝ String)) (ha : Takes.Admissible f as []) (hb : Takes.Admissible f bs []) (hne : (Takes.run f as []).1 ≠ [])
    (hfill : Takes.Filled (Takes.run f as []).1) (hτ : A.CarriesTakes (Takes.run f as []).1 (Takes.run f bs []).1) (S : GmmSettings ℝ) (hS : S.Valid)
    (ho : (∀ k, A.shift k = 0) ∨ ∀ e ∈ (Takes.run f as []).1, (GmmModel.newClass S f.bimodal f.dim f.di e.2.1).Steady (Takes.data f (Takes.run f as []).1 e.2.1))
    (lowest pct : ℝ) (cancel : String → Nat → Bool) (M N : GmmModel ℝ) (hbM : M.bimodal = f.bimodal) (hbN : N.bimodal = f.bimodal)
    (hmM : f.bimodal = true → ∀ l, S.mode l = M.mode) (hmN : f.bimodal = true → ∀ l, S.mode l = N.mode) (he : N.est = M.est)
    (hdone : ∀ e ∈ (Takes.run f as []).1, ∃ m, GmmModel.Done S Dens.real Real.log (Compare.exact lowest pct) cancel f (Takes.run f as []).1 e.2.1 m) :
    ∃ M1 N1 M' N', recordAndTrainSequential S Dens.real Real.log (Compare.exact lowest pct) cancel f i as v0 M = .ret () M1 ∧
      recordAndTrainSequential S Dens.real Real.log (Compare.exact lowest pct) cancel f j bs w0 N = .ret () N1 ∧ GmmModel.reset M1 = .ret () M' ∧ GmmModel.reset N1 = .ret () N' ∧
      SMap.keys N'.models = SMap.keys M'.models ∧ (∀ l, l ∈ SMap.keys M'.models ↔ ∃ e ∈ (Takes.run f as []).1, e.2.1 = l) ∧
      ∀ (exp : ℝ → ℝ), (∀ x, 0 < exp x) → M'.models ≠ [] → ∀ xs : List (List ℝ), xs ≠ [] → (∀ x ∈ xs, x.length = if f.bimodal then f.di else f.dim) →
        ∃ M'' N'', (do GmmModel.reset; GmmModel.filterAll Dens.real Real.log exp xs) M' = .ret () M'' ∧
          (do GmmModel.reset; GmmModel.filterAll Dens.real Real.log exp (xs.map (A.observation f))) N' = .ret () N'' ∧ M''.results.SameLikelihoods N''.results ∧
          (f.bimodal = true → A.CarriesPrediction f.di M.mode (M''.results.outVals, M''.results.outCov) (N''.results.outVals, N''.results.outCov)) := by
  obtain ⟨M', N', a1, a2, a3, a4⟩ := C113_axes_partial f hv A hA i j v0 w0 hv0 hw0 as bs ha hb hne hfill hτ S hS ho lowest pct cancel M N hbM hbN hmM hmN he
  have hne' := hτ.ne_nil hne
  have hfill' := hτ.filled hfill
  obtain ⟨w, t, s1, s2, s3⟩ := recordAndTrain_sim f hv i v0 hv0 as ha
  obtain ⟨w', t', s1', s2', s3'⟩ := recordAndTrain_sim f hv j w0 hw0 bs hb
  obtain ⟨X, b1, -, b3, -⟩ := C103_of_sim s1 s2 hv hne hfill S hS Dens.real Dens.real_sound Real.log lowest pct cancel M hbM hmM
  obtain ⟨Y, c1, -, c3, -⟩ := C103_of_sim s1' s2' hv hne' hfill' S hS Dens.real Dens.real_sound Real.log lowest pct cancel N hbN hmN
  rw [s3, b1] at a1
  injection a1 with _ a1
  subst a1
  rw [s3', c1] at a2
  injection a2 with _ a2
  subst a2
  have hall : ∀ l, (∃ e ∈ (Takes.run f as []).1, e.2.1 = l) → l ∈ SMap.keys X.models := by
    intro l hl
    obtain ⟨tr, m, k1, -, k2⟩ := b3.each l hl
    obtain ⟨e, he, rfl⟩ := hl
    obtain ⟨m1, tr1, d1, d2⟩ := hdone e he
    rw [k1] at d1
    injection d1 with d1 _
    subst d1
    rcases k2 with ⟨-, m', h, -⟩ | ⟨-, ⟨h, -⟩ | ⟨h, -⟩⟩
    · exact List.mem_map.2 ⟨_, h, rfl⟩
    · rw [d2] at h; cases h
    · rw [d2] at h; cases h
  have hdone' : ∀ e ∈ (Takes.run f bs []).1, ∃ m, GmmModel.Done S Dens.real Real.log (Compare.exact lowest pct) cancel f (Takes.run f bs []).1 e.2.1 m := by
    intro e he
    have hmem : e.2.1 ∈ SMap.keys Y.models := by
      rw [a3]
      exact hall _ ((hτ.labels _).1 ⟨e, he, rfl⟩)
    obtain ⟨tr, m, k1, -, k2⟩ := c3.each e.2.1 ⟨e, he, rfl⟩
    rcases k2 with ⟨h, -⟩ | ⟨h, -⟩
    · exact ⟨m, tr, k1, h⟩
    · exact absurd hmem h
  obtain ⟨M1, p1, -, -, p2⟩ := GmmModel.C107_gmm_train f hv i v0 hv0 as ha hne hfill S hS Dens.real Dens.real_sound Real.log lowest pct cancel M hbM
  obtain ⟨N1, q1, -, -, q2⟩ := GmmModel.C107_gmm_train f hv j w0 hw0 bs hb hne' hfill' S hS Dens.real Dens.real_sound Real.log lowest pct cancel N hbN
  have e1 := p2 hdone
  have e2 := q2 hdone'
  rw [s3, b1] at e1
  rw [s3', c1] at e2
  exact ⟨M1, N1, X, Y, p1, q1, e1.symm, e2.symm, a3, fun l => ⟨b3.known l, hall l⟩, a4⟩

namespace HierHmm

/-- **C113 (partial), hierarchical HMMs in the mode Sequential.**  As `C113_hmm_axes_partial`, with training in the mode Sequential, if the training of every class is done in the first
    session: then it is done in the second one, `reset()` returns on both models, and they have the same classes and report the same on every stream, in the new axes.
    Missing: as for `C113_hmm_axes_partial`; a training that is cancelled or fails. -/
theorem C113_sequential_hmm_axes_partial (f : Format) (hv : f.Valid) (A : NewAxes f.dim) (hA : f.bimodal = true → A.KeepsInput f.di) (i j : Nat) (v0 w0 : World ℝ String)
    (hv0 : v0.sets i = none) (hw0 : w0.sets j = none) (as bs : List (RecOp ℝ String)) (ha : Takes.Admissible f as []) (hb : Takes.Admissible f bs []) (hne : (Takes.run f as []).1 ≠ [])
    (hτ : A.CarriesTakes (Takes.run f as []).1 (Takes.run f bs []).1) (M N : HierHmm ℝ) (hiM : M.training = false) (hiN : N.training = false) (P : EmParams) (hSM : M.Settings P)
    (hhM : M.hier = true) (hhN : N.hier = true) (hlong : Takes.LongEnough (Takes.run f as []).1 fun l => (M.conf l).n) (hbM : M.bimodal = f.bimodal) (hbN : N.bimodal = f.bimodal)
    (hdM : M.bimodal = false → M.di = 0) (hdN : N.bimodal = false → N.di = 0) (hmM : M.bimodal = true → ∀ l, (M.conf l).mode = M.mode)
    (hmN : N.bimodal = true → ∀ l, (N.conf l).mode = N.mode) (hconf : N.conf = M.conf) (hw : N.window = M.window) (hest : N.est = M.est) (z : ℝ)
    (ho : (∀ k, A.shift k = 0) ∨ ∀ e ∈ (Takes.run f as []).1, (Hmm.fresh f M.window (M.conf e.2.1) z).Steady (Takes.data f (Takes.run f as []).1 e.2.1))
    (lowest pct : ℝ) (cancel : String → Nat → Bool)
    (hdone : ∀ e ∈ (Takes.run f as []).1, ∃ m, Done z Dens.real Real.log (Compare.exact lowest pct) P cancel f (Takes.run f as []).1 M.conf M.window e.2.1 m) :
    ∃ M1 N1 M' N', recordAndTrainHmmSequential z Dens.real Real.log (Compare.exact lowest pct) P cancel f i as v0 M = .ret () M1 ∧
      recordAndTrainHmmSequential z Dens.real Real.log (Compare.exact lowest pct) P cancel f j bs w0 N = .ret () N1 ∧ reset M1 = .ret () M' ∧ reset N1 = .ret () N' ∧
      SMap.keys N'.models = SMap.keys M'.models ∧ (∀ l, l ∈ SMap.keys M'.models ↔ ∃ e ∈ (Takes.run f as []).1, e.2.1 = l) ∧
      ∀ (exp : ℝ → ℝ), M'.models ≠ [] → ∀ xs : List (List ℝ), xs ≠ [] → (∀ x ∈ xs, x.length = if f.bimodal then f.di else f.dim) →
        ∃ rs M'' N'', (do reset; filterAll Dens.real Real.log exp xs) M' = .ret rs M'' ∧ (do reset; filterAll Dens.real Real.log exp (xs.map (A.observation f))) N' = .ret rs N'' ∧
          M''.results.SameLikelihoods N''.results ∧
          (∀ l m, (l, m) ∈ M''.models → ∃ n, (l, n) ∈ N''.models ∧ n.progress = m.progress ∧ n.likeliest = m.likeliest) ∧
          (f.bimodal = true → ((∀ k : Fin f.dim, f.di ≤ k.val → A.shift k = 0) ∨
              ∀ e ∈ (Takes.run f as []).1, (M.conf e.2.1).est = .likeliest ∨ (M.conf e.2.1).est = .windowed ∧ 2 ≤ (M.conf e.2.1).n) →
            (∀ l m, (l, m) ∈ M''.models → ∃ n, (l, n) ∈ N''.models ∧ A.CarriesPrediction f.di m.mode (m.outVals, m.outCov) (n.outVals, n.outCov)) ∧
            ((∀ x, 0 < exp x) → A.CarriesPrediction f.di M.mode (M''.results.outVals, M''.results.outCov) (N''.results.outVals, N''.results.outCov))) := by
  obtain ⟨M', N', a1, a2, a3, a4⟩ := C113_hmm_axes_partial f hv A hA i j v0 w0 hv0 hw0 as bs ha hb hne hτ M N hiM hiN P hSM hhM hhN hlong hbM hbN hdM hdN hmM hmN hconf hw hest z ho
    lowest pct cancel
  have hlog : ∀ x y : ℝ, 0 < x → 0 < y → Real.log (x * y) = Real.log x + Real.log y := fun x y hx hy => Real.log_mul hx.ne' hy.ne'
  have hne' := hτ.ne_nil hne
  have hlong' : Takes.LongEnough (Takes.run f bs []).1 fun l => (N.conf l).n := by rw [hconf]; exact hτ.longEnough hlong
  have hSN : N.Settings P := ⟨by rw [hw]; exact hSM.window, hSM.minIter, by rw [hconf]; exact hSM.states, by rw [hconf]; exact hSM.gaussians, by rw [hconf]; exact hSM.absReg,
    by rw [hconf]; exact hSM.leftRight⟩
  obtain ⟨X, b1, -, -, b3, -⟩ := C105_train f hv i v0 hv0 as ha hne M hiM P hSM hhM hlong hbM hdM hmM z Dens.real Dens.real_sound Real.log hlog lowest pct cancel
  obtain ⟨Y, c1, -, -, c3, -⟩ := C105_train f hv j w0 hw0 bs hb hne' N hiN P hSN hhN hlong' hbN hdN hmN z Dens.real Dens.real_sound Real.log hlog lowest pct cancel
  rw [b1] at a1
  injection a1 with _ a1
  subst a1
  rw [c1] at a2
  injection a2 with _ a2
  subst a2
  have hall : ∀ l, (∃ e ∈ (Takes.run f as []).1, e.2.1 = l) → l ∈ SMap.keys X.models := by
    intro l hl
    obtain ⟨tr, m, k1, -, k2⟩ := b3.each l hl
    obtain ⟨e, he, rfl⟩ := hl
    obtain ⟨m1, tr1, d1, d2⟩ := hdone e he
    rw [k1] at d1
    injection d1 with d1 _
    subst d1
    rcases k2 with ⟨-, m', h, -⟩ | ⟨-, ⟨h, -⟩ | ⟨h, -⟩⟩
    · exact List.mem_map.2 ⟨_, h, rfl⟩
    · rw [d2] at h; cases h
    · rw [d2] at h; cases h
  have hdone' : ∀ e ∈ (Takes.run f bs []).1, ∃ m, Done z Dens.real Real.log (Compare.exact lowest pct) P cancel f (Takes.run f bs []).1 N.conf N.window e.2.1 m := by
    intro e he
    have hmem : e.2.1 ∈ SMap.keys Y.models := by
      rw [a3]
      exact hall _ ((hτ.labels _).1 ⟨e, he, rfl⟩)
    obtain ⟨tr, m, k1, -, k2⟩ := c3.each e.2.1 ⟨e, he, rfl⟩
    rcases k2 with ⟨h, -⟩ | ⟨h, -⟩
    · exact ⟨m, tr, k1, h⟩
    · exact absurd hmem h
  obtain ⟨M1, p1, -, -, p2⟩ := C107_hmm_train f hv i v0 hv0 as ha hne M hiM P hSM hlong hbM hdM z Dens.real Dens.real_sound Real.log hlog lowest pct cancel
  obtain ⟨N1, q1, -, -, q2⟩ := C107_hmm_train f hv j w0 hw0 bs hb hne' N hiN P hSN hlong' hbN hdN z Dens.real Dens.real_sound Real.log hlog lowest pct cancel
  exact ⟨M1, N1, X, Y, p1, q1, (p2 hdone).2.symm.trans b1, (q2 hdone').2.symm.trans c1, a3, fun l => ⟨b3.known l, hall l⟩, a4⟩

/-- Non-vacuity: two modalities, two classes, the first with two takes and two states; the axes of `reversed`, one or two iterations, nothing cancelled: the training of every class is done. -/
theorem C113_sequential_hmm_example : ∃ xs : List (Int × String × List (List ℝ)), sessionFormat.Valid ∧ (sessionFormat.bimodal = true → reversed.KeepsInput 1) ∧
    Takes.Admissible sessionFormat (manyTakes xs) [] ∧ Takes.Admissible sessionFormat (manyTakes (reversed.takes xs)) [] ∧ (Takes.run sessionFormat (manyTakes xs) []).1 ≠ [] ∧
    NewAxes.CarriesTakes (d := sessionFormat.dim) reversed (Takes.run sessionFormat (manyTakes xs) []).1 (Takes.run sessionFormat (manyTakes (reversed.takes xs)) []).1 ∧
    gestureModel.training = false ∧ gestureModel.Settings ⟨1, 2⟩ ∧ gestureModel.hier = true ∧
    (Takes.LongEnough (Takes.run sessionFormat (manyTakes xs) []).1 fun l => (gestureModel.conf l).n) ∧ gestureModel.bimodal = sessionFormat.bimodal ∧
    (gestureModel.bimodal = true → ∀ l, (gestureModel.conf l).mode = gestureModel.mode) ∧
    (∀ z : ℝ, ∀ e ∈ (Takes.run sessionFormat (manyTakes xs) []).1,
      (Hmm.fresh sessionFormat gestureModel.window (gestureModel.conf e.2.1) z).Steady (Takes.data sessionFormat (Takes.run sessionFormat (manyTakes xs) []).1 e.2.1)) ∧
    (∀ z lowest pct : ℝ, ∀ e ∈ (Takes.run sessionFormat (manyTakes xs) []).1, ∃ m, Done z Dens.real Real.log (Compare.exact lowest pct) ⟨1, 2⟩ (fun _ _ => false) sessionFormat
      (Takes.run sessionFormat (manyTakes xs) []).1 gestureModel.conf gestureModel.window e.2.1 m) ∧ xs.length = 3 := by
  obtain ⟨xs, a1, a2, a3, a4, a5, a6, a7, a8, a9, a10, -, a11, -, -, -, a12⟩ := C113_hmm_bimodal_example
  have hS : gestureModel.Settings ⟨1, 2⟩ := ⟨a6.window, le_rfl, a6.states, a6.gaussians, a6.absReg, a6.leftRight⟩
  have ha := (C102_any_takes sessionFormat xs a3).1
  refine ⟨xs, a1, fun _ => a2, ha, (C102_any_takes sessionFormat (reversed.takes xs) ?_).1, a4, NewAxes.recorded sessionFormat reversed xs a3, a5, hS, a8, a9, a10, fun _ => a11, fun z e he => ?_,
    fun z lowest pct e he => short_done sessionFormat a1 0 emptyWorld rfl (manyTakes xs) ha gestureModel ⟨1, 2⟩ hS (by norm_num) le_rfl a9 z Dens.real Dens.real_sound Real.log
      (fun x y hx hy => Real.log_mul hx.ne' hy.ne') lowest pct _ _ ⟨e, he, rfl⟩ fun _ => rfl, a12⟩
  · intro x hx y hy
    obtain ⟨x0, -, rfl⟩ := List.mem_map.1 hx
    obtain ⟨y0, -, rfl⟩ := List.mem_map.1 hy
    exact reversed.frame_length _
  · obtain ⟨⟨e', q1, q2, q3⟩, -⟩ := a9 e he
    refine Hmm.steady_one _ (a7 e.2.1) _ ⟨e'.2.2.frames, ?_, q3⟩
    simp only [Takes.data, Takes.frames, Takes.ofClass, List.mem_map, List.mem_filter, decide_eq_true_eq]
    exact ⟨e', ⟨q1, q2⟩, rfl⟩

end HierHmm

/-- the output with the opposite sign, and the same origin -/
noncomputable def flipped : NewAxes 2 := { HierHmm.reversed with shift := fun _ => 0 }

/-- Non-vacuity, mixture models: two modalities, two classes, the first with two takes; the axes of `flipped`, one iteration, nothing cancelled: the training of every class is done. -/
theorem C113_sequential_example : ∃ xs : List (Int × String × List (List ℝ)), sessionFormat.Valid ∧ (sessionFormat.bimodal = true → flipped.KeepsInput 1) ∧
    Takes.Admissible sessionFormat (manyTakes xs) [] ∧ Takes.Admissible sessionFormat (manyTakes (flipped.takes xs)) [] ∧ (Takes.run sessionFormat (manyTakes xs) []).1 ≠ [] ∧
    Takes.Filled (Takes.run sessionFormat (manyTakes xs) []).1 ∧
    NewAxes.CarriesTakes (d := sessionFormat.dim) flipped (Takes.run sessionFormat (manyTakes xs) []).1 (Takes.run sessionFormat (manyTakes (flipped.takes xs)) []).1 ∧
    GmmSettings.Valid { sessionSettings with em := ⟨1, 1⟩ } ∧ (∀ k, flipped.shift k = 0) ∧ GmmModel.sessionModel.bimodal = sessionFormat.bimodal ∧
    (∀ l, sessionSettings.mode l = GmmModel.sessionModel.mode) ∧
    (∀ lowest pct : ℝ, ∀ e ∈ (Takes.run sessionFormat (manyTakes xs) []).1, ∃ m, GmmModel.Done { sessionSettings with em := ⟨1, 1⟩ } Dens.real Real.log (Compare.exact lowest pct)
      (fun _ _ => false) sessionFormat (Takes.run sessionFormat (manyTakes xs) []).1 e.2.1 m) ∧ xs.length = 3 ∧ flipped.frame [2, 5] = [2, -5] := by
  let xs : List (Int × String × List (List ℝ)) := [(1, "a", [[0, 0], [1, 1]]), (2, "b", [[5, 5]]), (4, "a", [[2, 3]])]
  have hf : ∀ x ∈ xs, ∀ y ∈ x.2.2, y.length = sessionFormat.dim := by simp [xs, sessionFormat]
  have hfull : ∀ x ∈ xs, x.2.2 ≠ [] := by simp [xs]
  obtain ⟨a1, -, -, -, a5, -, a6, -, a8⟩ := GmmModel.short_example
  obtain ⟨b1, b2⟩ := filled_of_takes sessionFormat xs hf hfull
  refine ⟨xs, a1, fun _ k => Iff.rfl, b1, (C102_any_takes sessionFormat (flipped.takes xs) ?_).1, fun h => ?_, b2, NewAxes.recorded sessionFormat flipped xs hf, a5, fun _ => rfl, a6, a8,
    fun lowest pct e he => GmmModel.short_done sessionFormat a1 0 emptyWorld rfl _ b1 b2 _ a5 le_rfl (by norm_num) Dens.real Dens.real_sound Real.log lowest pct _ _ ⟨e, he, rfl⟩ fun _ => rfl,
    rfl, ?_⟩
  · intro x hx y hy
    obtain ⟨x0, -, rfl⟩ := List.mem_map.1 hx
    obtain ⟨y0, -, rfl⟩ := List.mem_map.1 hy
    exact flipped.frame_length _
  · have hrun := (C102_any_takes sessionFormat xs hf).2
    rw [h] at hrun
    simp [xs, SMap.assign] at hrun
  · simp [NewAxes.frame, List.ofFn_succ, flipped, HierHmm.reversed]

end Xmm
