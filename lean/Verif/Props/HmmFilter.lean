import Verif.Props.HmmRegression
import Verif.Lemmas.Paths
set_option linter.unusedSimpArgs false
set_option linter.unusedSectionVars false
/- One call of `filter` on a hidden Markov model outside a hierarchy. -/
namespace Xmm
open Phrase (loop)
open Gauss (rd rd_lt)
open Prog (bind_def pure_def get_def set_def modify_def throw_def undef_def)
namespace Hmm
variable {K : Type} [Field K] [LinearOrder K] [IsStrictOrderedRing K]
open HmmSpec GmmSpec RecSpec

/-- a mixture is at least as likely as its least likely component -/
theorem mixture_ge {s : Gmm K} (hr : s.Ready) {d : Nat → K} {e : K} (hd : ∀ c < s.gaussians, e ≤ d c) :
    e ≤ mixture s.gaussians (weights s) d := by
  unfold mixture
  calc e = ∑ c ∈ Finset.range s.gaussians, weights s c * e := by rw [← Finset.sum_mul, Gmm.weights_sum hr.wf hr.coeffs, one_mul]
    _ ≤ _ := Finset.sum_le_sum fun c hc => mul_le_mul_of_nonneg_left (hd c (Finset.mem_range.1 hc)) (Gmm.weights_nonneg hr.coeffs c)

theorem fits_state {m : Hmm K} (hw : m.WF) {x : List K} (hx : m.Fits x) {s : Gmm K} (hs : s ∈ m.sts) : s.Fits x := by
  obtain ⟨_, _, h3, h4, h5⟩ := hw.state s hs
  unfold Fits at hx
  unfold Gmm.Fits
  rw [h3, h4, h5]; exact hx

/-- the likelihoods of the observations in the states exist -/
theorem emits_exist (D : Dens K) (hD : D.Sound) (m : Hmm K) (hm : m.CanFilter) :
    ∃ b : List K → Nat → K, ∀ x, m.Fits x → Emits D m x (b x) ∧ ∀ i < m.n, 1 / 10 ^ 180 ≤ b x i := by
  classical
  have key : ∀ x, m.Fits x → ∀ i : Nat, ∃ p : K, (∀ s, m.sts[i]? = some s → ∃ d, ObsDensities D s x d ∧
      p = mixture s.gaussians (weights s) d) ∧ (i < m.n → 1 / 10 ^ 180 ≤ p) := by
    intro x hx i
    by_cases hi : i < m.n
    · have hi' : i < m.sts.length := by rw [hm.wf.sts]; exact hi
      have hmem := List.getElem_mem hi'
      have hr := (hm.state _ hmem).1.ready
      obtain ⟨d, hd⟩ := Gmm.obsDensities_exist' D hD _ hr
      obtain ⟨h1, h2⟩ := hd x (fits_state hm.wf hx hmem)
      refine ⟨_, fun s hs => ⟨d x, ?_, ?_⟩, fun _ => mixture_ge hr h2⟩
      · rw [List.getElem?_eq_getElem hi'] at hs; cases hs; exact h1
      · rw [List.getElem?_eq_getElem hi'] at hs; cases hs; rfl
    · refine ⟨0, fun s hs => ?_, fun h => absurd h hi⟩
      have := (List.getElem?_eq_some_iff.1 hs).1
      rw [hm.wf.sts] at this; omega
  refine ⟨fun x i => if h : m.Fits x then (key x h i).choose else 0, fun x hx => ⟨fun i s hs => ?_, fun i hi => ?_⟩⟩
  · simp only [dif_pos hx]; exact (key x hx i).choose_spec.1 s hs
  · simp only [dif_pos hx]; exact (key x hx i).choose_spec.2 hi

/-- the predictions of the states exist -/
theorem predicts_exist (D : Dens K) (hD : D.Sound) (m : Hmm K) (hm : m.CanFilter) (hb : m.bimodal = true) :
    ∃ v c : List K → Nat → List K, ∀ x, m.Fits x → Predicts D m x (v x) (c x) := by
  classical
  have key : ∀ x, m.Fits x → ∀ i : Nat, ∃ vc : List K × List K, ∀ s, m.sts[i]? = some s → ∃ d y, ObsDensities D s x d ∧ Predictions s x y ∧
      (vc.1 = (List.range (m.dim - m.di)).map fun k =>
        ∑ j ∈ Finset.range s.gaussians, share s.gaussians (weights s) d j * (y j).getD k 0) ∧
      (vc.2 = (List.range (outCells m.mode (m.dim - m.di))).map fun k => ∑ j ∈ Finset.range s.gaussians,
        share s.gaussians (weights s) d j ^ 2 * ((s.comps[j]?.map fun g => g.outCov.getD k 0).getD 0)) := by
    intro x hx i
    by_cases hi : i < m.n
    · have hi' : i < m.sts.length := by rw [hm.wf.sts]; exact hi
      have hmem := List.getElem_mem hi'
      have hr := (hm.state _ hmem).1.ready
      obtain ⟨d, hd⟩ := Gmm.obsDensities_exist' D hD _ hr
      obtain ⟨y, hy⟩ := Gmm.predictions_exist _ hr.wf ((hm.wf.state _ hmem).2.2.1.trans hb)
      refine ⟨((List.range (m.dim - m.di)).map fun k =>
        ∑ j ∈ Finset.range m.sts[i].gaussians, share m.sts[i].gaussians (weights m.sts[i]) (d x) j * (y x j).getD k 0,
        (List.range (outCells m.mode (m.dim - m.di))).map fun k => ∑ j ∈ Finset.range m.sts[i].gaussians,
        share m.sts[i].gaussians (weights m.sts[i]) (d x) j ^ 2 * ((m.sts[i].comps[j]?.map fun g => g.outCov.getD k 0).getD 0)),
        fun s hs => ?_⟩
      rw [List.getElem?_eq_getElem hi'] at hs; cases hs
      exact ⟨d x, y x, (hd x (fits_state hm.wf hx hmem)).1, (hy x (fits_state hm.wf hx hmem)).1, rfl, rfl⟩
    · refine ⟨([], []), fun s hs => ?_⟩
      have := (List.getElem?_eq_some_iff.1 hs).1
      rw [hm.wf.sts] at this; omega
  refine ⟨fun x i => if h : m.Fits x then (key x h i).choose.1 else [], fun x i => if h : m.Fits x then (key x h i).choose.2 else [],
    fun x hx i s hs => ?_⟩
  simp only [dif_pos hx]
  exact (key x hx i).choose_spec s hs

theorem reads_stateProb (D : Dens K) (m : Hmm K) (hm : m.CanFilter) (x : List K) (b : Nat → K) (hb : Emits D m x b) :
    Reads m (fun i => do
      let m ← Prog.get
      stateProb D m x [] i) b := by
  intro s h1 h2 i hi
  have hi' : i < m.sts.length := by rw [hm.wf.sts]; exact hi
  have hs := List.getElem?_eq_getElem hi'
  have hmem := List.getElem_mem hi'
  show (Prog.get >>= fun m => stateProb D m x [] i) s = _
  rw [bind_of_ret (get_def s)]
  refine stateProb_ret D s x b ?_ i _ (by rw [h1]; exact hs) (hm.state _ hmem).1.ready.wf ?_ s
  · intro j t ht; rw [h1] at ht; exact hb j t ht
  · rw [h2]; exact (hm.wf.state _ hmem).2.2.1

/-- the forward algorithm in `filter` -/
theorem forward_ret (D : Dens K) (m : Hmm K) (hm : m.CanFilter) (x : List K) (b : Nat → K) (hb : Emits D m x b)
    (ha : m.started = true ∨ m.ergodic = true → m.alpha.length = m.n)
    (hz : 1 / 10 ^ 300 < evidence m b) {w : Nat} (hist : List K) (hl : Logs m.buf w hist) (h0 : m.started = false → hist = []) :
    ∃ pa bf, forward D x m = .ret (1 / evidence m b) { m with
        alpha := (List.range m.n).map fun j => weight m b j / evidence m b
        prevAlpha := pa
        buf := bf } ∧ Logs bf w hist := by
  have hp := reads_stateProb D m hm x b hb
  unfold forward
  rw [bind_of_ret (get_def m)]
  rcases bool_cases m.started with h | h
  · rw [if_neg (by simp [h])]
    have hw : ∀ j, weight m b j = start m j * b j := fun j => by simp [weight, h]
    obtain ⟨bf, e1, e2⟩ := CBuf.Holds.clear hl
    refine ⟨m.prevAlpha, bf, ?_, by rw [h0 h]; exact e2⟩
    rw [bind_of_ret (onBuf_ret e1)]
    have hn : evidence m b = ∑ i ∈ Finset.range m.n, start m i * b i := Finset.sum_congr rfl fun j _ => hw j
    have := forwardInit_ret ({ m with buf := bf } : Hmm K) ⟨hm.wf.pos, hm.wf.sts, hm.wf.prior, hm.wf.trans, hm.wf.state⟩
      (fun he => ha (Or.inr he)) _ b hp (by
        have : (0 : K) < evidence m b := lt_trans (by positivity) hz
        rw [hn] at this; exact this)
    rw [this, hn]
    simp only [hw]
    rfl
  · rw [if_pos h]
    have hw : ∀ j, weight m b j = (∑ i ∈ Finset.range m.n, m.alpha.getD i 0 * step m i j) * b j := fun j => by simp [weight, h]
    have hn : evidence m b = ∑ j ∈ Finset.range m.n, (∑ i ∈ Finset.range m.n, m.alpha.getD i 0 * step m i j) * b j :=
      Finset.sum_congr rfl fun j _ => hw j
    refine ⟨m.alpha, m.buf, ?_, hl⟩
    rw [forwardUpdate_ret m hm.wf (ha (Or.inl h)) _ b hp (by rw [← hn]; exact hz), hn]
    simp only [hw]

/-- one call of `filter` -/
theorem filter_ret (D : Dens K) (log : K → K) (m : Hmm K) (hm : m.CanFilter) (hh : m.hier = false) (x : List K) (hx : m.Fits x)
    (b : Nat → K) (hb : Emits D m x b)
    (ha : m.started = true ∨ m.ergodic = true → m.alpha.length = m.n)
    (hz : 1 / 10 ^ 300 < evidence m b) (v c : Nat → List K) (hv : m.bimodal = true → Predicts D m x v c) (hist : List K)
    (hl : Logs m.buf m.window hist) (h0 : m.started = false → hist = []) :
    ∃ m', filter D log x m = .ret (evidence m b) m' ∧ m.Filtered log hist b v c m' ∧ Logs m'.buf m.window (hist ++ [log (evidence m b)]) := by
  obtain ⟨pa, bf, e1, e2⟩ := forward_ret D m hm x b hb ha hz hist hl h0
  unfold filter
  rw [bind_of_ret (checkTraining_idle hm.idle), bind_of_ret e1, bind_of_ret (modify_def _ _)]
  have hpos : (0 : K) < evidence m b := lt_trans (by positivity) hz
  have hinst : 1 / (1 / evidence m b) = evidence m b := by rw [one_div_one_div]
  rw [hinst]
  generalize hm1 : ({ m with
      alpha := (List.range m.n).map fun j => weight m b j / evidence m b
      prevAlpha := pa
      buf := bf
      started := true
      instant := evidence m b } : Hmm K) = m1
  have hs1 : m1.Sized := by subst hm1; unfold Sized; rw [if_neg (by simp [hh])]; simp
  obtain ⟨i, f1, f2⟩ := updateAlphaWindow_ret m1 hs1 (by subst hm1; exact hm.wf.pos) (by subst hm1; exact hm.idle)
  rw [bind_of_ret f1]
  generalize hm2 : ({ m1 with
      likeliest := i
      winMin := i - m1.n / 2
      winMax := min (i + m1.n / 2) m1.n
      winNorm := ∑ j ∈ Finset.Ico (i - m1.n / 2) (min (i + m1.n / 2) m1.n), occ m1 j } : Hmm K) = m2
  have hs2 : m2.Sized := by subst hm2; exact hs1
  have hh2 : m2.hier = false := by subst hm2; subst hm1; exact hh
  obtain ⟨bf2, g1, g2⟩ := updateResults_ret log m2 (occ m2) (fun b i hi t =>
    progressWeight_flat ({ m2 with buf := b } : Hmm K) hs2 hh2 i hi t) (by subst hm2; exact min_le_right _ _) hist
    (win := m.window) (by subst hm2; subst hm1; exact e2)
  have hi2 : m2.instant = evidence m b := by subst hm2; subst hm1; rfl
  rw [bind_of_ret g1, bind_of_ret (get_def _)]
  rw [hi2] at g2
  generalize hm3 : ({ m2 with
      buf := bf2
      logLik := avgLast m.window (hist ++ [log m2.instant])
      progress := (∑ i ∈ Finset.Ico m2.winMin m2.winMax, occ m2 i * (i : K) / m2.winNorm) /
          (if m2.n - 1 = 0 then 1 else ((m2.n - 1 : Nat) : K)) } : Hmm K) = m3
  have hwin : Windowed m3 := by
    subst hm3; subst hm2
    exact ⟨f2, rfl, rfl, rfl⟩
  have hsame3 : m3.sts = m.sts ∧ m3.bimodal = m.bimodal ∧ m3.dim = m.dim ∧ m3.di = m.di ∧ m3.mode = m.mode ∧ m3.n = m.n ∧ m3.hier = m.hier ∧
      m3.training = m.training ∧ m3.instant = evidence m b := by
    subst hm3; subst hm2; subst hm1; exact ⟨rfl, rfl, rfl, rfl, rfl, rfl, rfl, rfl, rfl⟩
  obtain ⟨q1, q2, q3, q4, q5, q6, q7, q8, q9⟩ := hsame3
  have hbuf : m3.buf = bf2 := by subst hm3; rfl
  rcases bool_cases m.bimodal with hbi | hbi
  · rw [if_neg (by rw [q2, hbi]; simp)]
    show ∃ m', (Prog.get >>= fun m => pure m.instant) m3 = _ ∧ _
    rw [bind_of_ret (get_def _), pure_def, q9]
    refine ⟨m3, rfl, ?_, by rw [hbuf]; exact g2⟩
    subst hm3; subst hm2; subst hm1
    exact ⟨⟨rfl, SameStates.refl _ hm.state⟩, rfl, rfl, rfl, rfl, hwin, rfl, fun _ => ⟨rfl, rfl⟩,
      fun h => absurd (hbi.symm.trans h) (by simp), fun h => absurd (hbi.symm.trans h) (by simp)⟩
  · rw [if_pos (by rw [q2, hbi])]
    have hc3 : m3.CanFilter := by
      subst hm3; subst hm2; subst hm1
      exact ⟨⟨hm.wf.pos, hm.wf.sts, hm.wf.prior, hm.wf.trans, hm.wf.state⟩,
        ⟨hm.chain.start_nonneg, hm.chain.start_sum, hm.chain.step_nonneg, hm.chain.step_sum⟩, hm.idle, hm.window, hm.state⟩
    have hx' : m.di ≤ x.length := by unfold Fits at hx; rwa [if_pos hbi] at hx
    obtain ⟨l, r1, r2⟩ := regression_ret D log m3 hc3 (q2.trans hbi) (by subst hm3; exact hs2)
      (by rw [hwin.hi]; exact min_le_right _ _) hwin.likeliest.1 x (by rw [q4]; exact hx') v c (by
        intro i s hs
        rw [q1] at hs
        rw [q3, q4, q5]
        exact hv hbi i s hs)
    rw [bind_of_ret r1]
    simp only [bind_def, get_def, pure_def]
    rw [q9]
    refine ⟨_, rfl, ?_, by simp only; rw [hbuf]; exact g2⟩
    subst hm3; subst hm2; subst hm1
    exact ⟨⟨rfl, r2⟩, rfl, rfl, rfl, rfl, ⟨hwin.1, hwin.2, hwin.3, hwin.4⟩, rfl, fun h => absurd (hbi.symm.trans h) (by simp),
      fun _ => rfl, fun _ => rfl⟩

end Hmm
end Xmm
