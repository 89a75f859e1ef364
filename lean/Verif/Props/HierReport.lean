import Verif.Props.HierDistribution
set_option linter.unusedSimpArgs false
set_option linter.unusedSectionVars false
/- The results of the classes of a hierarchical model. -/
namespace Xmm
open Phrase (loop)
open Gauss (rd rd_lt)
open Prog (bind_def pure_def get_def set_def modify_def throw_def undef_def)

namespace Hmm
variable {K : Type} [Field K] [LinearOrder K] [IsStrictOrderedRing K]
open HmmSpec (Windowed occ IsLikeliest Predicts start step)
open RecSpec (avgLast)

theorem SameClass.facts {m m' : Hmm K} (h : m.SameClass m') : m'.n = m.n ∧ m'.ergodic = m.ergodic ∧ start m' = start m ∧ step m' = step m ∧
    m'.window = m.window ∧ m'.hier = m.hier ∧ m'.bimodal = m.bimodal ∧ m'.training = m.training ∧ m'.dim = m.dim ∧ m'.di = m.di ∧
    m'.mode = m.mode ∧ m'.est = m.est ∧ m'.exitP = m.exitP ∧ m'.trans = m.trans ∧ m'.prior = m.prior := by
  have e := h.1
  rw [e]
  exact ⟨rfl, rfl, rfl, rfl, rfl, rfl, rfl, rfl, rfl, rfl, rfl, rfl, rfl, rfl, rfl⟩

theorem SameClass.canFilter {m m' : Hmm K} (h : m.SameClass m') (hm : m.CanFilter) : m'.CanFilter := by
  have hst : ∀ s' ∈ m'.sts, ∃ s ∈ m.sts, Gmm.SameModel s s' ∧ s'.CanFilter ∧ ∃ w hist, Logs s'.buf w hist := by
    intro s' hs'
    obtain ⟨i, hi, rfl⟩ := List.getElem_of_mem hs'
    have hi' : i < m.sts.length := by rw [← h.2.1]; exact hi
    exact ⟨_, List.getElem_mem hi', h.2.2 i _ _ (List.getElem?_eq_getElem hi') (List.getElem?_eq_getElem hi)⟩
  have hlen := h.2.1
  have e := h.1
  refine ⟨⟨?_, ?_, ?_, ?_, ?_⟩, ⟨?_, ?_, ?_, ?_⟩, ?_, ?_, fun s' hs' => ?_⟩
  · rw [e]; exact hm.wf.pos
  · rw [hlen, hm.wf.sts, e]
  · rw [e]; exact hm.wf.prior
  · rw [e]; exact hm.wf.trans
  · intro s' hs'
    obtain ⟨s, h1, h2, _⟩ := hst s' hs'
    obtain ⟨f1, f2, f3, f4, f5, _, _⟩ := h2.fields
    rw [f1, f2, f3, f4, f5, e]
    exact hm.wf.state s h1
  · rw [e]; exact hm.chain.start_nonneg
  · rw [e]; exact hm.chain.start_sum
  · rw [e]; exact hm.chain.step_nonneg
  · rw [e]; exact hm.chain.step_sum
  · rw [e]; exact hm.idle
  · rw [e]; exact hm.window
  · obtain ⟨s, _, _, h3⟩ := hst s' hs'; exact h3

theorem SameClass.inHierarchy {m m' : Hmm K} (h : m.SameClass m') (hm : m.InHierarchy) : m'.InHierarchy := by
  have hc := h.canFilter hm.can
  have e := h.1
  refine ⟨hc, ?_, ?_, ?_, ?_, ?_, ?_⟩
  · rw [e]; exact hm.hier
  · rw [e]; exact hm.exit
  · rw [e]; exact hm.exit_nonneg
  · rw [e]; exact hm.exit_lt
  · rw [e]; exact hm.trans
  · rw [e]; exact hm.last

theorem SameClass.fits {m m' : Hmm K} (h : m.SameClass m') {x : List K} (hx : m.Fits x) : m'.Fits x := by
  unfold Fits at *
  obtain ⟨_, _, _, _, _, _, e1, _, e2, e3, _⟩ := h.facts
  rw [e1, e2, e3]; exact hx

theorem SameClass.emits {m m' : Hmm K} (h : m.SameClass m') {D : Dens K} {x : List K} {b : Nat → K} (hb : HmmSpec.Emits D m x b) :
    HmmSpec.Emits D m' x b := by
  intro i s' hs'
  have hi : i < m.sts.length := by rw [← h.2.1]; exact (List.getElem?_eq_some_iff.1 hs').1
  have hs := List.getElem?_eq_getElem hi
  obtain ⟨f1, f2, _, _, _, f6, f7⟩ := (h.2.2 i _ _ hs hs').1.fields
  obtain ⟨d, h1, h2⟩ := hb i _ hs
  refine ⟨d, fun c g hg => ?_, by rw [f1, f7]; exact h2⟩
  rw [f6] at hg; rw [f2]; exact h1 c g hg

theorem SameClass.predicts {m m' : Hmm K} (h : m.SameClass m') {D : Dens K} {x : List K} {v c : Nat → List K} (hv : Predicts D m x v c) :
    Predicts D m' x v c := by
  intro i s' hs'
  have hi : i < m.sts.length := by rw [← h.2.1]; exact (List.getElem?_eq_some_iff.1 hs').1
  have hs := List.getElem?_eq_getElem hi
  obtain ⟨f1, f2, _, _, _, f6, f7⟩ := (h.2.2 i _ _ hs hs').1.fields
  obtain ⟨d, y, h1, h2, h3, h4⟩ := hv i _ hs
  obtain ⟨_, _, _, _, _, _, e1, _, e2, e3, e4, _⟩ := h.facts
  refine ⟨d, y, fun c g hg => ?_, fun c g hg => ?_, ?_, ?_⟩
  · rw [f6] at hg; rw [f2]; exact h1 c g hg
  · rw [f6] at hg; exact h2 c g hg
  · rw [f1, f7, e2, e3]; exact h3
  · rw [f1, f6, f7, e2, e3, e4]; exact h4

theorem _root_.Xmm.SameStates.trans {a b c : List (Gmm K)} (h : SameStates a b) (h' : SameStates b c) : SameStates a c := by
  refine ⟨by rw [h'.1, h.1], fun i s s' h1 h2 => ?_⟩
  have hi : i < b.length := by rw [h.1]; exact (List.getElem?_eq_some_iff.1 h1).1
  have hb := List.getElem?_eq_getElem hi
  refine ⟨?_, (h'.2 i _ _ hb h2).2⟩
  have e1 := (h.2 i _ _ h1 hb).1
  have e2 := (h'.2 i _ _ hb h2).1
  unfold Gmm.SameModel at *
  rw [e2, e1]

theorem SameClass.trans {a b c : Hmm K} (h : a.SameClass b) (h' : b.SameClass c) : a.SameClass c :=
  ⟨by rw [h'.1, h.1], SameStates.trans h.2 h'.2⟩

theorem SameClass.refl {m : Hmm K} (hm : m.CanFilter) : m.SameClass m := ⟨rfl, SameStates.refl _ hm.state⟩

theorem Reported.sameClass {m m' : Hmm K} {log : K → K} {hist : List K} {v c : Nat → List K} (h : m.Reported log hist v c m') : m.SameClass m' := by
  refine ⟨?_, h.states⟩
  have e := h.same
  rw [e]

theorem HierSized.sized {m : Hmm K} (h : m.HierSized) (hh : m.hier = true) : m.Sized := by
  unfold Sized
  rw [if_pos hh]
  exact ⟨h.a0, h.a1, h.a2⟩

/-- the results of a class without its outputs -/
theorem progressClass_any (log : K → K) (m : Hmm K) (hm : m.InHierarchy) (hs : m.HierSized) {win : Nat} (hist : List K) (hl : Logs m.buf win hist) :
    ∃ m', HierHmm.progressClass log m = .ret () m' ∧
      m' = { m with winMin := m'.winMin, winMax := m'.winMax, winNorm := m'.winNorm, buf := m'.buf, logLik := m'.logLik,
                    progress := m'.progress, likeliest := m'.likeliest } ∧
      m'.logLik = avgLast win (hist ++ [log m.instant]) ∧ Windowed m' ∧
      (m'.progress = (∑ i ∈ Finset.Ico m'.winMin m'.winMax, (occ m' i + m'.alpha2.getD i 0) * (i : K) / m'.winNorm) /
        (if m.n - 1 = 0 then 1 else ((m.n - 1 : Nat) : K))) ∧ Logs m'.buf win (hist ++ [log m.instant]) := by
  have hsz := hs.sized hm.hier
  obtain ⟨i, f1, f2⟩ := updateAlphaWindow_ret m hsz hm.can.wf.pos hm.can.idle
  unfold HierHmm.progressClass
  rw [bind_of_ret f1]
  generalize hm2 : ({ m with
      likeliest := i
      winMin := i - m.n / 2
      winMax := min (i + m.n / 2) m.n
      winNorm := ∑ j ∈ Finset.Ico (i - m.n / 2) (min (i + m.n / 2) m.n), occ m j } : Hmm K) = m2
  have hs2 : m2.Sized := by subst hm2; exact hsz
  have hh2 : m2.hier = true := by subst hm2; exact hm.hier
  obtain ⟨bf, g1, g2⟩ := updateResults_ret log m2 (fun i => occ m2 i + m2.alpha2.getD i 0) (fun b i hi t =>
    progressWeight_hier ({ m2 with buf := b } : Hmm K) hs2 hh2 i hi t) (by subst hm2; exact min_le_right _ _) hist
    (win := win) (by subst hm2; exact hl)
  refine ⟨_, g1, ?_⟩
  subst hm2
  exact ⟨rfl, rfl, ⟨f2, rfl, rfl, rfl⟩, rfl, g2⟩

theorem progressClass_ret (log : K → K) (m : Hmm K) (hm : m.InHierarchy) (hs : m.HierSized) (hist : List K) (hl : Logs m.buf m.window hist) :
    ∃ m', HierHmm.progressClass log m = .ret () m' ∧
      m' = { m with winMin := m'.winMin, winMax := m'.winMax, winNorm := m'.winNorm, buf := m'.buf, logLik := m'.logLik,
                    progress := m'.progress, likeliest := m'.likeliest } ∧
      m'.logLik = avgLast m.window (hist ++ [log m.instant]) ∧ Windowed m' ∧
      (m'.progress = (∑ i ∈ Finset.Ico m'.winMin m'.winMax, (occ m' i + m'.alpha2.getD i 0) * (i : K) / m'.winNorm) /
        (if m.n - 1 = 0 then 1 else ((m.n - 1 : Nat) : K))) ∧ Logs m'.buf m.window (hist ++ [log m.instant]) :=
  progressClass_any log m hm hs hist hl

/-- the outputs of a class -/
theorem report_ret (D : Dens K) (log : K → K) (m m1 : Hmm K) (hm : m.InHierarchy) (hs : m.HierSized) (hist : List K)
    (h1 : m1 = { m with winMin := m1.winMin, winMax := m1.winMax, winNorm := m1.winNorm, buf := m1.buf, logLik := m1.logLik,
                        progress := m1.progress, likeliest := m1.likeliest })
    (h2 : m1.logLik = avgLast m.window (hist ++ [log m.instant])) (h3 : Windowed m1)
    (h4 : m1.progress = (∑ i ∈ Finset.Ico m1.winMin m1.winMax, (occ m1 i + m1.alpha2.getD i 0) * (i : K) / m1.winNorm) /
        (if m.n - 1 = 0 then 1 else ((m.n - 1 : Nat) : K)))
    (hb : m.bimodal = true) (x : List K) (hx : m.Fits x) (v c : Nat → List K) (hv : Predicts D m x v c) :
    ∃ m', Hmm.regression D log x m1 = .ret () m' ∧ m.Reported log hist v c m' ∧ m'.buf = m1.buf := by
  have hsame : m.SameClass m1 := by
    refine ⟨?_, ?_⟩
    · rw [h1]
    · rw [h1]; exact SameStates.refl _ hm.can.state
  have hbi : m1.bimodal = true := by rw [h1]; exact hb
  have hx' : m1.di ≤ x.length := by
    have := hsame.fits hx
    unfold Fits at this
    rwa [if_pos hbi] at this
  obtain ⟨l, r1, r2⟩ := regression_ret D log m1 (hsame.canFilter hm.can) hbi (by
      rw [h1]; exact hs.sized hm.hier) (by rw [h3.hi]; exact min_le_right _ _) h3.likeliest.1 x hx' v c (hsame.predicts hv)
  refine ⟨_, r1, ?_, rfl⟩
  have e1 : m1.sts = m.sts := by rw [h1]
  have e2 : m1.dim = m.dim ∧ m1.di = m.di ∧ m1.mode = m.mode ∧ m1.n = m.n := by rw [h1]; exact ⟨rfl, rfl, rfl, rfl⟩
  obtain ⟨q1, q2, q3, q4⟩ := e2
  refine ⟨?_, ?_, h2, ⟨h3.1, h3.2, h3.3, h3.4⟩, h4, fun h => absurd (h.symm.trans hb) (by simp), fun _ => ?_, fun _ => ?_⟩
  · rw [h1]
  · rw [← e1]; exact r2
  · show List.map _ (List.range (m1.dim - m1.di)) = _
    rw [q1, q2, q4]; rfl
  · show List.map _ (List.range (outCells m1.mode (m1.dim - m1.di))) = _
    rw [q1, q2, q3, q4]; rfl

end Hmm
end Xmm
