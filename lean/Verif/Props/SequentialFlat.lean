import Verif.Props.SequentialTrain
set_option linter.unusedSimpArgs false
set_option linter.unusedSectionVars false
/- C107: recognition right after a training in the mode Sequential, outside a hierarchy. -/
namespace Xmm
open TS
open Phrase (loop)
open Prog (bind_def pure_def get_def set_def modify_def throw_def undef_def)
open Gauss (resize)

namespace Hmm
open Xmm.HmmSpec

/-- `updateAlphaWindow` on a class in a hierarchy whose forward probabilities have no values -/
theorem window_unsized_ub (m : Hmm ℝ) (hi : m.training = false) (hh : m.hier = true) (ha : m.alpha0 = []) : updateAlphaWindow m = .ub := by
  unfold updateAlphaWindow
  rw [bind_of_ret (checkTraining_idle hi), bind_of_ret (get_def _)]
  refine bind_of_ub ?_
  unfold findLikeliest
  refine bind_of_ub ?_
  unfold occupancy
  rw [if_pos hh]
  refine bind_of_ub ?_
  rw [ha]
  rfl

/-- `filter` on a class that believes to be in a hierarchy and whose forward probabilities in a hierarchy have no values -/
theorem filter_unsized_ub (D : Dens ℝ) (hD : D.Sound) (log : ℝ → ℝ) (m : Hmm ℝ) (hm : m.CanFilter) (hh : m.hier = true) (he : m.ergodic = false) (hst : m.started = false)
    (ha : m.alpha0 = []) (hbuf : m.buf = CBuf.construct 0 1 1) (x : List ℝ) (hx : m.Fits x) : filter D log x m = .ub := by
  obtain ⟨b, hb⟩ := emits_exist D hD m hm
  obtain ⟨b1, b2⟩ := hb x hx
  have hp := reads_stateProb D m hm x (b x) b1
  have hpos := hm.wf.pos
  have hz : 0 < ∑ i ∈ Finset.range m.n, start m i * b x i := by
    have : ∑ i ∈ Finset.range m.n, start m i * b x i = b x 0 := by
      rw [Finset.sum_eq_single 0 (fun i _ hi => by simp [start, he, hi]) (fun h => absurd (Finset.mem_range.2 hpos) h)]
      simp [start, he]
    rw [this]
    exact lt_of_lt_of_le (by positivity) (b2 0 hpos)
  have hl : Logs m.buf 1 [] := by rw [hbuf]; exact CBuf.Holds.init 0 1 (by omega)
  obtain ⟨bf, e1, -⟩ := CBuf.Holds.clear hl
  have e2 := forwardInit_ret ({ m with buf := bf } : Hmm ℝ) ⟨hm.wf.pos, hm.wf.sts, hm.wf.prior, hm.wf.trans, hm.wf.state⟩
    (fun h => absurd h (by simp [he])) _ (b x) hp hz
  unfold filter
  rw [bind_of_ret (checkTraining_idle hm.idle)]
  have e3 := e2
  have e4 : forward D x m = forwardInit (fun i => do
      let m ← Prog.get
      stateProb D m x [] i) ({ m with buf := bf } : Hmm ℝ) := by
    unfold forward
    rw [bind_of_ret (get_def m), if_neg (by simp [hst]), bind_of_ret (onBuf_ret e1)]
  rw [← e4] at e3
  rw [bind_of_ret e3, bind_of_ret (modify_def _ _)]
  exact bind_of_ub (window_unsized_ub _ hm.idle hh ha)

end Hmm

namespace HierHmm
open Hmm

/-- training does not size the forward probabilities of a class in a hierarchy: `reset()` does -/
theorem trained_unsized {f : Format} {i : Nat} {w : World ℝ String} {t : TSet String} {τ : Takes ℝ String} (h : Sim f i w t τ) (hv : f.Valid)
    {M : HierHmm ℝ} {P : EmParams} (hS : M.Settings P) (hlong : Takes.LongEnough τ fun l => (M.conf l).n) (z : ℝ) (D : Dens ℝ) (hD : D.Sound) (log : ℝ → ℝ)
    (hlog : ∀ x y, 0 < x → 0 < y → log (x * y) = log x + log y) (lowest pct : ℝ) (cancel : String → Nat → Bool) (l : String) (hl : ∃ e ∈ τ, e.2.1 = l)
    (tr : Trainer ℝ) (m : Hmm ℝ) (ht : Hmm.trainedAlone D log (Compare.exact lowest pct) P (cancel l) (fresh f M.window (M.conf l) z) (Takes.data f τ l) = .ret tr m) :
    m.alpha0 = [] ∧ m.started = false ∧ m.hier = true := by
  obtain ⟨e, he, rfl⟩ := hl
  obtain ⟨⟨e', he', k1, k2⟩, k3⟩ := hlong e he
  have hmem : e'.2.2.frames ∈ (Takes.data f τ e.2.1).phrases := by
    simp only [Takes.data, Takes.frames, List.mem_map]
    exact ⟨e', by simp [Takes.ofClass, he', k1], rfl⟩
  have hn := hS.states e.2.1
  have hne : (Takes.data f τ e.2.1).frames ≠ [] := by
    intro h0
    simp only [KData.frames, List.flatten_eq_nil_iff] at h0
    have := h0 _ hmem
    rw [this] at k2
    simp only [List.length_nil] at k2
    omega
  have hfed : (fresh f M.window (M.conf e.2.1) z).Fed (Takes.data f τ e.2.1) := ⟨rfl, h.frame_length hv e.2.1, hne⟩
  obtain ⟨tr', m', e1, -, -, -, -, -, e4, -⟩ := C83_training D hD log hlog (fresh f M.window (M.conf e.2.1) z) (fresh_admissible hv hn (hS.gaussians e.2.1) z)
    (hS.leftRight e.2.1) hS.window _ hfed ⟨_, hmem, k2⟩ k3 (hS.absReg e.2.1) KData.deviation (fun d => by simp [KData.deviation]) lowest pct P hS.minIter (cancel e.2.1)
  have e5 := ht.symm.trans e1
  injection e5 with _ e5
  subst e5
  refine ⟨?_, ?_, ?_⟩ <;> rw [e4] <;> rfl

/-- **C107 (undefined), hidden Markov models outside a hierarchy.**  If the training of every class is done, `filter` on the model that the mode Sequential leaves, without
    `reset()`, reads the forward probabilities of the first class outside of their vector. -/
theorem C107_hmm_flat_without_reset_ub (f : Format) (hv : f.Valid) (i : Nat) (w0 : World ℝ String) (h0 : w0.sets i = none) (ops : List (RecOp ℝ String))
    (ha : Takes.Admissible f ops []) (hne : (Takes.run f ops []).1 ≠ []) (M : HierHmm ℝ) (hidle : M.training = false) (P : EmParams) (hS : M.Settings P)
    (hlong : Takes.LongEnough (Takes.run f ops []).1 fun l => (M.conf l).n) (hbi : M.bimodal = f.bimodal) (hdi : M.bimodal = false → M.di = 0)
    (z : ℝ) (D : Dens ℝ) (hD : D.Sound) (log : ℝ → ℝ) (hlog : ∀ x y, 0 < x → 0 < y → log (x * y) = log x + log y) (lowest pct : ℝ) (cancel : String → Nat → Bool)
    (hh : M.hier = false)
    (hdone : ∀ e ∈ (Takes.run f ops []).1, ∃ m, Done z D log (Compare.exact lowest pct) P cancel f (Takes.run f ops []).1 M.conf M.window e.2.1 m) (exp : ℝ → ℝ) (x : List ℝ)
    (hx : f.Sample x) :
    ∃ M1, recordAndTrainHmmSequential z D log (Compare.exact lowest pct) P cancel f i ops w0 M = .ret () M1 ∧ filter D log exp x M1 = .ub := by
  obtain ⟨w, t, h1, h2, h3, -, -⟩ := recordThen_sim f hv i w0 h0 ops ha
  obtain ⟨N, cs, a1, a2, a3, a4, a5, a6, -, a8⟩ := training_starts h1 h2 hv hne M hidle P hS hlong hbi hdi z D hD log hlog lowest pct cancel
  generalize hτ : (Takes.run f ops []).1 = τ at *
  refine ⟨_, by unfold recordAndTrainHmmSequential; rw [h3]; exact a8, ?_⟩
  obtain ⟨e, he⟩ := List.exists_mem_of_ne_nil _ hne
  have hz : N.models.zip cs ≠ [] := by
    obtain ⟨lc, hlc, -⟩ := List.mem_map.1 ((a1 e.2.1).2 ⟨e, he, rfl⟩)
    obtain ⟨c, hc, -⟩ := forall₂_exists a6 lc hlc
    exact List.ne_nil_of_mem hc
  obtain ⟨y, ys, hy⟩ := List.exists_cons_of_ne_nil hz
  have hmy : y ∈ N.models.zip cs := by rw [hy]; exact List.mem_cons_self
  obtain ⟨tr, q1, q2, -, -, -, q6, -⟩ := (forall₂_zip a6 y hmy).1
  have hlab := (a1 y.1.1).1 (List.mem_map.2 ⟨y.1, (List.of_mem_zip hmy).1, rfl⟩)
  obtain ⟨u1, u2, u3⟩ := trained_unsized h1 hv hS hlong z D hD log hlog lowest pct cancel y.1.1 hlab tr y.2.1 q1
  obtain ⟨e', he', hl⟩ := hlab
  obtain ⟨m, tr', p1, p2⟩ := hdone e' he'
  rw [hl, q1] at p1
  injection p1 with p1 _
  subst p1
  obtain ⟨k1, k2, k3, k4, k5, -, k7, -⟩ := q6 p2
  have hfits : y.2.1.Fits x := by
    unfold Hmm.Fits
    rw [k3, k4, k5]
    exact hx
  have hub := Hmm.filter_unsized_ub D hD log y.2.1 k1.can u3 k7 u2 u1 k2 x hfits
  unfold filter
  rw [bind_of_ret (checkTraining_idle rfl), bind_of_ret (get_def _), if_neg (by simp [a2.nulls])]
  refine bind_of_ub ?_
  unfold forward
  rw [if_neg (by simp [a5, hh])]
  simp only [hy, List.map_cons, List.length_cons]
  refine loop_ub _ _ _ _ ?_
  unfold filterClass
  refine bind_of_ub ?_
  simp only [onClass, List.getElem?_cons_zero, hub]

/-- the hypotheses of `C107_hmm_flat_without_reset_ub` are met by a bimodal session with two classes -/
theorem C107_flat_example (z lowest pct : ℝ) (exp : ℝ → ℝ) : ∃ M1,
    recordAndTrainHmmSequential z halfDens Real.log (Compare.exact lowest pct) ⟨5, 10⟩ (fun _ _ => false) sessionFormat 0 frameSession emptyWorld flatModel = .ret () M1 ∧
      filter halfDens Real.log exp [1] M1 = .ub := by
  obtain ⟨a1, a2, a3, a4, a5, a6, a7, -, a9, a10, -⟩ := flat_session_example
  obtain ⟨e, he, -⟩ := sequential_example.2.2.2.2.2.2.2.2.2.2 z lowest pct
  exact C107_hmm_flat_without_reset_ub sessionFormat a4 0 emptyWorld rfl frameSession a5 (List.ne_nil_of_mem he) flatModel a1 ⟨5, 10⟩ a3 a6 a7 (fun h => by cases h) z halfDens a9
    Real.log (fun x y hx hy => Real.log_mul hx.ne' hy.ne') lowest pct (fun _ _ => false) a2 (a10 z lowest pct) exp [1] (by simp [Format.Sample, sessionFormat])

end HierHmm
end Xmm
