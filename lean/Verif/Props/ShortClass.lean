import Verif.Props.ShortTraining
import Verif.Props.Retrain
import Verif.Props.HmmRetrain
set_option linter.unusedSectionVars false
/- C108, C109 with a fixed number of one or two iterations: training one class never loses it. -/
namespace Xmm
open TS Prog

namespace GmmModel

/-- C108, one or two iterations: if the number of iterations is fixed, 1 or 2, and nobody cancels, `train(set, label)` never removes a class: the class `label` is in the model afterwards, being
    the one that would be trained alone on its own takes, and the other classes are those of before, with their parameters. -/
theorem C108_short_class (f : Format) (hv : f.Valid) (i : Nat) (w0 : World ℝ String) (h0 : w0.sets i = none) (ops : List (RecOp ℝ String)) (ha : Takes.Admissible f ops [])
    (hfill : Takes.Filled (Takes.run f ops []).1) (S : GmmSettings ℝ) (hS : S.Valid) (hm : S.em.minIter ≤ S.em.maxIter) (h2 : S.em.maxIter ≤ 2)
    (D : Dens ℝ) (hD : D.Sound) (log : ℝ → ℝ) (lowest pct : ℝ) (M : GmmModel ℝ) (hM : M.Holds f S.window) (hmode : f.bimodal = true → ∀ l, S.mode l = M.mode) (label : String)
    (hl : ∃ e ∈ (Takes.run f ops []).1, e.2.1 = label) :
    ∃ M', recordAndTrainClass S D log (Compare.exact lowest pct) (fun _ => false) f i ops w0 label M = .ret () M' ∧ M'.Usable ∧ M'.Holds f S.window ∧
      (∀ l, l ∈ SMap.keys M'.models ↔ l = label ∨ l ∈ SMap.keys M.models) ∧
      (∃ tr m m', trainedAlone S D log (Compare.exact lowest pct) (fun _ => false) f label (Takes.data f (Takes.run f ops []).1 label) = .ret tr m ∧ tr.status = .done ∧
        (label, m') ∈ M'.models ∧ Gmm.SameModel m m') ∧
      ∀ l ≠ label, ∀ m, (l, m) ∈ M.models → ∃ m', (l, m') ∈ M'.models ∧ Gmm.SameModel m m' := by
  obtain ⟨M', g1, g2, g3, -, g4⟩ := C108_train_class f hv i w0 h0 ops ha S D log lowest pct M hfill hS hD (fun _ => false) hM hmode label hl
  obtain ⟨m1, tr1, d1, d2⟩ := short_done f hv i w0 h0 ops ha hfill S hS hm h2 D hD log lowest pct (fun _ _ => false) label hl fun _ => rfl
  obtain ⟨tr, m, e1, -, e2⟩ := g4.replaced
  rw [e1] at d1
  injection d1 with d1 _
  subst d1
  have e3 : ∃ m', (label, m') ∈ M'.models ∧ Gmm.SameModel m m' := by
    rcases e2 with ⟨-, h⟩ | ⟨-, ⟨h, -⟩ | ⟨h, -⟩⟩
    · exact h
    · rw [d2] at h; cases h
    · rw [d2] at h; cases h
  obtain ⟨m', k1, k2⟩ := e3
  refine ⟨M', g1, g2, g3, fun l => ?_, ⟨tr, m, m', e1, d2, k1, k2⟩, fun l h => (g4.others l h).2⟩
  by_cases hll : l = label
  · subst hll
    exact ⟨fun _ => .inl rfl, fun _ => List.mem_map.2 ⟨_, k1, rfl⟩⟩
  · constructor
    · intro h
      obtain ⟨lc, hlc, rfl⟩ := List.mem_map.1 h
      obtain ⟨x, hx, -⟩ := (g4.others lc.1 hll).1 lc.2 hlc
      exact .inr (List.mem_map.2 ⟨_, hx, rfl⟩)
    · rintro (h | h)
      · exact absurd h hll
      · obtain ⟨lc, hlc, rfl⟩ := List.mem_map.1 h
        obtain ⟨x, hx, -⟩ := (g4.others lc.1 hll).2 lc.2 hlc
        exact List.mem_map.2 ⟨_, hx, rfl⟩

/-- the hypotheses of `C108_short_class` are met: the session and the trained model of `retrain_example`, with one iteration; the class "b" exists before -/
theorem short_class_example : GmmSettings.Valid { sessionSettings with em := ⟨1, 1⟩ } ∧ sessionFormat.Valid ∧ Takes.Admissible sessionFormat sessionA [] ∧
    Takes.Filled (Takes.run sessionFormat sessionA []).1 ∧ (∃ e ∈ (Takes.run sessionFormat sessionA []).1, e.2.1 = "b") ∧
    ∃ M : GmmModel ℝ, M.Holds sessionFormat sessionSettings.window ∧ (∀ l, sessionSettings.mode l = M.mode) ∧ "b" ∈ SMap.keys M.models := by
  obtain ⟨a1, a2, a3, -, -, a6, -, ⟨M, b1, b2, b3, -⟩, -⟩ := retrain_example
  obtain ⟨-, -, -, -, c5, -⟩ := short_example
  exact ⟨c5, a1, a2, a3, (a6 "b").1 (by simp), M, b1, b2, b3⟩

end GmmModel

namespace HierHmm

/-- C109, one or two iterations: if the number of iterations is fixed, 1 or 2, and nobody cancels, `train(set, label)` never removes a class of a hierarchy: the class `label` is in the model
    afterwards, being the one that would be trained alone on its own takes; the other classes are those of before, with their parameters; and if the class existed before, so are the priors, the
    transitions and the exit probabilities of the hierarchy. -/
theorem C109_short_class (f : Format) (hv : f.Valid) (i : Nat) (w0 : World ℝ String) (h0 : w0.sets i = none) (ops : List (RecOp ℝ String)) (ha : Takes.Admissible f ops [])
    (z : ℝ) (D : Dens ℝ) (log : ℝ → ℝ) (lowest pct : ℝ) (P : EmParams) (M : HierHmm ℝ)
    (hlong : Takes.LongEnough (Takes.run f ops []).1 fun l => (M.conf l).n) (hS : M.Settings P) (hm : P.minIter ≤ P.maxIter) (h2 : P.maxIter ≤ 2) (hD : D.Sound)
    (hlog : ∀ x y, 0 < x → 0 < y → log (x * y) = log x + log y) (hM : M.Holds f) (hmode : f.bimodal = true → ∀ l, (M.conf l).mode = M.mode) (label : String)
    (hl : ∃ e ∈ (Takes.run f ops []).1, e.2.1 = label) (hfew : ∀ c, (label, c) ∈ M.models → (M.conf label).n ≤ c.n) :
    ∃ M', recordAndTrainHmmClass z D log (Compare.exact lowest pct) P (fun _ => false) f i ops w0 label M = .ret () M' ∧ M'.Usable ∧ M'.Holds f ∧
      (∀ l, l ∈ SMap.keys M'.models ↔ l = label ∨ l ∈ SMap.keys M.models) ∧
      (∃ tr m m', Hmm.trainedAlone D log (Compare.exact lowest pct) P (fun _ => false) (Hmm.fresh f M.window (M.conf label) z) (Takes.data f (Takes.run f ops []).1 label) = .ret tr m ∧
        tr.status = .done ∧ (label, m') ∈ M'.models ∧ Hmm.SameClass m m') ∧
      (∀ l ≠ label, ∀ m, (l, m) ∈ M.models → ∃ m', (l, m') ∈ M'.models ∧ Hmm.SameClass m m') ∧
      (label ∈ SMap.keys M.models → M'.prior = M.prior ∧ M'.trans = M.trans ∧ M'.exitTrans = M.exitTrans) ∧
      (label ∉ SMap.keys M.models → M'.UniformAt M'.models.length) := by
  obtain ⟨M', g1, g2, g3, -, g4, g5, g6⟩ := C109_train_class f hv i w0 h0 ops ha z D log lowest pct P M hlong hS hD hlog hM hmode (fun _ => false) label hl hfew
  obtain ⟨m1, tr1, d1, d2⟩ := short_done f hv i w0 h0 ops ha M P hS hm h2 hlong z D hD log hlog lowest pct (fun _ _ => false) label hl fun _ => rfl
  obtain ⟨tr, m, e1, -, e2⟩ := g4.replaced
  rw [e1] at d1
  injection d1 with d1 _
  subst d1
  have e3 : ∃ m', (label, m') ∈ M'.models ∧ Hmm.SameClass m m' := by
    rcases e2 with ⟨-, h⟩ | ⟨-, ⟨h, -⟩ | ⟨h, -⟩⟩
    · exact h
    · rw [d2] at h; cases h
    · rw [d2] at h; cases h
  obtain ⟨m', k1, k2⟩ := e3
  have hin : label ∈ SMap.keys M'.models := List.mem_map.2 ⟨_, k1, rfl⟩
  refine ⟨M', g1, g2, g3, fun l => ?_, ⟨tr, m, m', e1, d2, k1, k2⟩, fun l h => (g4.others l h).2, fun h => g5 h hin, fun h => g6 (.inl h)⟩
  by_cases hll : l = label
  · subst hll
    exact ⟨fun _ => .inl rfl, fun _ => hin⟩
  · constructor
    · intro h
      obtain ⟨lc, hlc, rfl⟩ := List.mem_map.1 h
      obtain ⟨x, hx, -⟩ := (g4.others lc.1 hll).1 lc.2 hlc
      exact .inr (List.mem_map.2 ⟨_, hx, rfl⟩)
    · rintro (h | h)
      · exact absurd h hll
      · obtain ⟨lc, hlc, rfl⟩ := List.mem_map.1 h
        obtain ⟨x, hx, -⟩ := (g4.others lc.1 hll).2 lc.2 hlc
        exact List.mem_map.2 ⟨_, hx, rfl⟩

/-- the hypotheses of `C109_short_class` are met: the session and the trained model of `retrain_example`, with one or two iterations; the class "a" exists before -/
theorem short_class_example : sessionFormat.Valid ∧ Takes.Admissible sessionFormat sessionA [] ∧ (∃ e ∈ (Takes.run sessionFormat sessionA []).1, e.2.1 = "a") ∧ Dens.real.Sound ∧
    ∃ M : HierHmm ℝ, M.Holds sessionFormat ∧ M.Settings ⟨1, 2⟩ ∧ (∀ l, (M.conf l).mode = M.mode) ∧ (Takes.LongEnough (Takes.run sessionFormat sessionA []).1 fun l => (M.conf l).n) ∧
      "a" ∈ SMap.keys M.models ∧ ∀ c, ("a", c) ∈ M.models → (M.conf "a").n ≤ c.n := by
  obtain ⟨-, a2, a3, a4, a5, a6, -, a8, -, ⟨M, b1, b2, b3, b4, b5, b6⟩, -⟩ := retrain_example
  refine ⟨a3, a4, (a8 "a").1 (by simp), Dens.real_sound, M, b1, ⟨by rw [b4]; norm_num, le_rfl, fun l => ?_, fun l => ?_, fun l => ?_, fun l => ?_⟩, fun l => ?_, ?_, b5, fun c hc => (b6 _ hc).2⟩
  · rw [b2]; exact a2.states l
  · rw [b2]; exact a2.gaussians l
  · rw [b2]; exact a2.absReg l
  · rw [b2]; exact a2.leftRight l
  · rw [b2, b3]; exact a6 l
  · rw [b2]; exact a5

end HierHmm
end Xmm
