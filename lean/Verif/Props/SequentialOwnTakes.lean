import Verif.Props.SequentialTrain
import Verif.Props.ShortTraining
set_option linter.unusedSectionVars false
/- C104, C105 in the mode Sequential: a class is trained on its own takes only. -/
namespace Xmm
open TS Prog

/-- C104, mode Sequential.  Two sessions, with any other takes and classes, any previous contents of the two models, and any outcome of the training of every class: if the takes with label `l` hold
    the same frames in the same order and the settings for `l` are the same, then after training in the mode Sequential both models have the class `l`, and it is the same class in all its members,
    whether its training is done, cancelled or has failed. -/
theorem C104_sequential_own_takes (f : Format) (hv : f.Valid) (i j : Nat) (v0 w0 : World ℝ String) (hv0 : v0.sets i = none) (hw0 : w0.sets j = none) (as bs : List (RecOp ℝ String))
    (ha : Takes.Admissible f as []) (hb : Takes.Admissible f bs []) (hfa : Takes.Filled (Takes.run f as []).1) (hfb : Takes.Filled (Takes.run f bs []).1)
    (l : String) (hla : ∃ e ∈ (Takes.run f as []).1, e.2.1 = l) (hlb : ∃ e ∈ (Takes.run f bs []).1, e.2.1 = l)
    (hl : ((Takes.run f as []).1.ofClass l).frames = ((Takes.run f bs []).1.ofClass l).frames)
    (S T : GmmSettings ℝ) (hS : S.Valid) (hT : T.Valid)
    (hst : S.window = T.window ∧ S.em = T.em ∧ S.gaussians l = T.gaussians l ∧ S.relReg l = T.relReg l ∧ S.absReg l = T.absReg l ∧ S.mode l = T.mode l)
    (D : Dens ℝ) (hD : D.Sound) (log : ℝ → ℝ) (lowest pct : ℝ) (cancel cancel' : String → Nat → Bool) (hc : cancel l = cancel' l)
    (M N : GmmModel ℝ) (hbM : M.bimodal = f.bimodal) (hbN : N.bimodal = f.bimodal) :
    ∃ M1 N1, recordAndTrainSequential S D log (Compare.exact lowest pct) cancel f i as v0 M = .ret () M1 ∧
      recordAndTrainSequential T D log (Compare.exact lowest pct) cancel' f j bs w0 N = .ret () N1 ∧
      l ∈ SMap.keys M1.models ∧ l ∈ SMap.keys N1.models ∧ ∀ m n, (l, m) ∈ M1.models → (l, n) ∈ N1.models → m = n := by
  obtain ⟨M1, a1, -, a2, -⟩ := GmmModel.C107_gmm_train f hv i v0 hv0 as ha (by obtain ⟨e, he, _⟩ := hla; exact List.ne_nil_of_mem he) hfa S hS D hD log lowest pct cancel M hbM
  obtain ⟨N1, b1, -, b2, -⟩ := GmmModel.C107_gmm_train f hv j w0 hw0 bs hb (by obtain ⟨e, he, _⟩ := hlb; exact List.ne_nil_of_mem he) hfb T hT D hD log lowest pct cancel' N hbN
  refine ⟨M1, N1, a1, b1, (a2.labels l).2 hla, (b2.labels l).2 hlb, fun m n hm hn => ?_⟩
  obtain ⟨tr, c1, -⟩ := a2.each _ hm
  obtain ⟨tr', d1, -⟩ := b2.each _ hn
  simp only at c1 d1
  have hdata : Takes.data f (Takes.run f as []).1 l = Takes.data f (Takes.run f bs []).1 l := by simp only [Takes.data, hl]
  have hnew : GmmModel.newClass S f.bimodal f.dim f.di l = GmmModel.newClass T f.bimodal f.dim f.di l := by
    obtain ⟨e1, -, e3, e4, e5, e6⟩ := hst
    simp only [GmmModel.newClass, e1, e3, e4, e5, e6]
  unfold trainedAlone at c1 d1
  rw [hdata, hnew, hst.2.1, hc, d1] at c1
  injection c1 with _ c1
  exact c1.symm

/-- the hypotheses of `C104_sequential_own_takes` are met by a session and a model that has another class already; the training of "b" is cancelled at once in both -/
theorem C104_sequential_example (c : Gmm ℝ) (lowest pct : ℝ) : ∃ M1 N1,
    recordAndTrainSequential sessionSettings Dens.real Real.log (Compare.exact lowest pct) (fun _ _ => true) sessionFormat 0 sessionA emptyWorld GmmModel.sessionModel = .ret () M1 ∧
    recordAndTrainSequential sessionSettings Dens.real Real.log (Compare.exact lowest pct) (fun l _ => decide (l = "b")) sessionFormat 0 sessionA emptyWorld
      { GmmModel.sessionModel with models := [("old", c)] } = .ret () N1 ∧ "b" ∈ SMap.keys M1.models ∧ "b" ∈ SMap.keys N1.models ∧ ∀ m n, ("b", m) ∈ M1.models → ("b", n) ∈ N1.models → m = n := by
  obtain ⟨a1, a2, a3, a4, a5, -, a7, -, -, -, hl, -⟩ := GmmModel.sequential_example
  exact C104_sequential_own_takes sessionFormat a1 0 0 emptyWorld emptyWorld rfl rfl sessionA sessionA a2 a2 a4 a4 "b" hl hl rfl sessionSettings sessionSettings a5 a5 ⟨rfl, rfl, rfl, rfl, rfl, rfl⟩
    Dens.real Dens.real_sound Real.log lowest pct _ _ (by simp) GmmModel.sessionModel { GmmModel.sessionModel with models := [("old", c)] } a7 a7

namespace HierHmm

/-- C105 (own takes), mode Sequential.  Two sessions, with any other takes and classes, any previous contents of the two models (hierarchical or not), and any outcome of the training of every
    class: if the takes with label `l` hold the same frames in the same order and the settings for `l` are the same, then after training in the mode Sequential both models have the class `l`,
    and it is the same class in all its members, whether its training is done, cancelled or has failed. -/
theorem C105_sequential_own_takes (f : Format) (hv : f.Valid) (i j : Nat) (v0 w0 : World ℝ String) (hv0 : v0.sets i = none) (hw0 : w0.sets j = none) (as bs : List (RecOp ℝ String))
    (ha : Takes.Admissible f as []) (hb : Takes.Admissible f bs []) (M N : HierHmm ℝ) (hiM : M.training = false) (hiN : N.training = false) (P : EmParams)
    (hSM : M.Settings P) (hSN : N.Settings P) (hla' : Takes.LongEnough (Takes.run f as []).1 fun l => (M.conf l).n)
    (hlb' : Takes.LongEnough (Takes.run f bs []).1 fun l => (N.conf l).n) (hbM : M.bimodal = f.bimodal) (hbN : N.bimodal = f.bimodal)
    (hdM : M.bimodal = false → M.di = 0) (hdN : N.bimodal = false → N.di = 0)
    (l : String) (hla : ∃ e ∈ (Takes.run f as []).1, e.2.1 = l) (hlb : ∃ e ∈ (Takes.run f bs []).1, e.2.1 = l)
    (hl : ((Takes.run f as []).1.ofClass l).frames = ((Takes.run f bs []).1.ofClass l).frames) (hc : M.conf l = N.conf l) (hw : M.window = N.window)
    (z : ℝ) (D : Dens ℝ) (hD : D.Sound) (log : ℝ → ℝ) (hlog : ∀ x y, 0 < x → 0 < y → log (x * y) = log x + log y) (lowest pct : ℝ)
    (cancel cancel' : String → Nat → Bool) (hcl : cancel l = cancel' l) :
    ∃ M1 N1, recordAndTrainHmmSequential z D log (Compare.exact lowest pct) P cancel f i as v0 M = .ret () M1 ∧
      recordAndTrainHmmSequential z D log (Compare.exact lowest pct) P cancel' f j bs w0 N = .ret () N1 ∧
      l ∈ SMap.keys M1.models ∧ l ∈ SMap.keys N1.models ∧ ∀ m n, (l, m) ∈ M1.models → (l, n) ∈ N1.models → m = n := by
  obtain ⟨M1, a1, -, a2, -⟩ := C107_hmm_train f hv i v0 hv0 as ha (by obtain ⟨e, he, _⟩ := hla; exact List.ne_nil_of_mem he) M hiM P hSM hla' hbM hdM z D hD log hlog lowest pct cancel
  obtain ⟨N1, b1, -, b2, -⟩ := C107_hmm_train f hv j w0 hw0 bs hb (by obtain ⟨e, he, _⟩ := hlb; exact List.ne_nil_of_mem he) N hiN P hSN hlb' hbN hdN z D hD log hlog lowest pct cancel'
  refine ⟨M1, N1, a1, b1, (a2.labels l).2 hla, (b2.labels l).2 hlb, fun m n hm hn => ?_⟩
  obtain ⟨tr, c1, -⟩ := a2.each _ hm
  obtain ⟨tr', d1, -⟩ := b2.each _ hn
  simp only at c1 d1
  have hdata : Takes.data f (Takes.run f as []).1 l = Takes.data f (Takes.run f bs []).1 l := by simp only [Takes.data, hl]
  rw [hdata, hcl, hc, hw, d1] at c1
  injection c1 with _ c1
  exact c1.symm

/-- the hypotheses of `C105_sequential_own_takes` are met by a session with a new model and one that has another class already; the training of a class of the session is cancelled at once in both -/
theorem C105_sequential_example (c : Hmm ℝ) (z lowest pct : ℝ) : ∃ l M1 N1, (∃ e ∈ (Takes.run sessionFormat frameSession []).1, e.2.1 = l) ∧
    recordAndTrainHmmSequential z halfDens Real.log (Compare.exact lowest pct) ⟨5, 10⟩ (fun _ _ => true) sessionFormat 0 frameSession emptyWorld stackedModel = .ret () M1 ∧
    recordAndTrainHmmSequential z halfDens Real.log (Compare.exact lowest pct) ⟨5, 10⟩ (fun k _ => decide (k = l)) sessionFormat 0 frameSession emptyWorld
      { stackedModel with models := [("old", c)] } = .ret () N1 ∧ l ∈ SMap.keys M1.models ∧ l ∈ SMap.keys N1.models ∧ ∀ m n, (l, m) ∈ M1.models → (l, n) ∈ N1.models → m = n := by
  obtain ⟨a1, -, a3, a4, a5, a6, a7, -, a9, -, a11⟩ := sequential_example
  obtain ⟨e, he, -⟩ := a11 z lowest pct
  obtain ⟨M1, N1, h⟩ := C105_sequential_own_takes sessionFormat a4 0 0 emptyWorld emptyWorld rfl rfl frameSession frameSession a5 a5 stackedModel { stackedModel with models := [("old", c)] } a1 a1
    ⟨5, 10⟩ a3 ⟨a3.window, a3.minIter, a3.states, a3.gaussians, a3.absReg, a3.leftRight⟩ a6 a6 a7 a7 (fun h => by cases h) (fun h => by cases h) e.2.1 ⟨e, he, rfl⟩ ⟨e, he, rfl⟩ rfl rfl rfl z
    halfDens a9 Real.log (fun x y hx hy => Real.log_mul hx.ne' hy.ne') lowest pct (fun _ _ => true) (fun k _ => decide (k = e.2.1)) (by simp)
  exact ⟨e.2.1, M1, N1, ⟨e, he, rfl⟩, h⟩

end HierHmm
end Xmm
