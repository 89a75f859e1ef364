import Verif.Props.GmmFilter
import Verif.Props.GmmNormalize
set_option linter.unusedSimpArgs false
set_option linter.unusedSectionVars false
/- C38, C40, C51: recognition and regression with one mixture. -/
namespace Xmm.Gmm
open Prog (bind_def pure_def get_def set_def modify_def throw_def undef_def)
open GmmSpec RecSpec
variable {K : Type} [Field K] [LinearOrder K] [IsStrictOrderedRing K]

theorem obsDensities_exist' (D : Dens K) (hD : D.Sound) (m : Gmm K) (hr : m.Ready) :
    ∃ d : List K → Nat → K, ∀ x, m.Fits x → ObsDensities D m x (d x) ∧
      ∀ c < m.gaussians, 1 / 10 ^ 180 ≤ d x c := by
  classical
  have key : ∀ x, m.Fits x → ∀ c < m.gaussians, ∃ p : K, (∀ g : Gauss K, m.comps[c]? = some g →
      (if m.bimodal then D.input x else D.joint x) g = .ret p g) ∧ 1 / 10 ^ 180 ≤ p := by
    intro x hx c hc
    obtain ⟨g, hg, hg'⟩ := getElem_comp hr.wf hc
    obtain ⟨w, d, di, _, b⟩ := hr.wf.comp g hg
    have hdet := hr.det g hg
    unfold Fits at hx
    rcases bool_cases m.bimodal with hb | hb
    · rw [if_neg (by simp [hb])] at hx
      obtain ⟨p, h1, h2⟩ := hD.joint g w x (by omega) hdet.1
      refine ⟨p, fun g' h' => ?_, h2⟩
      rw [hg'] at h'; cases h'
      simp only [hb, Bool.false_eq_true, if_false, h1]
    · rw [if_pos hb] at hx
      obtain ⟨p, h1, h2⟩ := hD.input g w (b.trans hb) x (by omega) (hdet.2 (b.trans hb))
      refine ⟨p, fun g' h' => ?_, h2⟩
      rw [hg'] at h'; cases h'
      simp only [hb, if_true, h1]
  refine ⟨fun x c => if h : m.Fits x ∧ c < m.gaussians then (key x h.1 c h.2).choose else 0, fun x hx => ⟨?_, ?_⟩⟩
  · intro c g hg
    have hc : c < m.gaussians := by rw [← hr.wf.comps]; exact (List.getElem?_eq_some_iff.1 hg).1
    simp only [dif_pos (And.intro hx hc)]
    exact (key x hx c hc).choose_spec.1 g hg
  · intro c hc
    simp only [dif_pos (And.intro hx hc)]
    exact (key x hx c hc).choose_spec.2

theorem obsDensities_exist (D : Dens K) (hD : D.Sound) (m : Gmm K) (hr : m.Ready) :
    ∃ d : List K → Nat → K, ∀ x, m.Fits x → ObsDensities D m x (d x) ∧ ∀ c < m.gaussians, 0 < d x c := by
  obtain ⟨d, hd⟩ := obsDensities_exist' D hD m hr
  exact ⟨d, fun x hx => ⟨(hd x hx).1, fun c hc => lt_of_lt_of_le (by positivity) ((hd x hx).2 c hc)⟩⟩

theorem predictions_exist (m : Gmm K) (hw : m.WF) (hb : m.bimodal = true) :
    ∃ y : List K → Nat → List K, ∀ x, m.Fits x → Predictions m x (y x) ∧ ∀ c < m.gaussians, (y x c).length = m.dim - m.di := by
  classical
  have key : ∀ x, m.Fits x → ∀ c < m.gaussians, ∃ v : List K, (∀ g : Gauss K, m.comps[c]? = some g →
      Gauss.regression x g = .ret v g) ∧ v.length = m.dim - m.di := by
    intro x hx c hc
    obtain ⟨g, hg, hg'⟩ := getElem_comp hw hc
    obtain ⟨w, d, di, _, b⟩ := hw.comp g hg
    unfold Fits at hx
    rw [if_pos hb] at hx
    obtain ⟨v, h1, h2, _⟩ := C32_regression g w (b.trans hb) (w.le (b.trans hb)) x (by omega)
    refine ⟨v, fun g' h' => ?_, by rw [h2, d, di]⟩
    rw [hg'] at h'; cases h'
    exact h1
  refine ⟨fun x c => if h : m.Fits x ∧ c < m.gaussians then (key x h.1 c h.2).choose else [], fun x hx => ⟨?_, ?_⟩⟩
  · intro c g hg
    have hc : c < m.gaussians := by rw [← hw.comps]; exact (List.getElem?_eq_some_iff.1 hg).1
    simp only [dif_pos (And.intro hx hc)]
    exact (key x hx c hc).choose_spec.1 g hg
  · intro c hc
    simp only [dif_pos (And.intro hx hc)]
    exact (key x hx c hc).choose_spec.2

section Laws
variable {m : Gmm K} {d : Nat → K}

theorem weights_sum (hw : m.WF) (h : IsDistribution m.coeffs) : ∑ c ∈ Finset.range m.gaussians, weights m c = 1 := by
  rw [← h.2, list_sum_getD, hw.coeffs]; rfl

theorem mixture_pos (hr : m.Ready) (hd : ∀ c < m.gaussians, 0 < d c) : 0 < mixture m.gaussians (weights m) d := by
  have hw0 := weights_nonneg hr.coeffs
  have hnn : ∀ c ∈ Finset.range m.gaussians, 0 ≤ weights m c * d c := fun c hc =>
    mul_nonneg (hw0 c) (hd c (Finset.mem_range.1 hc)).le
  rcases (Finset.sum_nonneg hnn).lt_or_eq with h | h
  · exact h
  · exfalso
    have hz := (Finset.sum_eq_zero_iff_of_nonneg hnn).1 h.symm
    have hs := weights_sum hr.wf hr.coeffs
    rw [Finset.sum_eq_zero fun c hc => ?_] at hs
    · exact zero_ne_one hs
    · rcases mul_eq_zero.1 (hz c hc) with h | h
      · exact h
      · exact absurd h (hd c (Finset.mem_range.1 hc)).ne'

theorem share_nonneg (hr : m.Ready) (hd : ∀ c < m.gaussians, 0 < d c) {c : Nat} (hc : c < m.gaussians) :
    0 ≤ share m.gaussians (weights m) d c :=
  div_nonneg (mul_nonneg (weights_nonneg hr.coeffs c) (hd c hc).le) (mixture_pos hr hd).le

theorem share_sum (hr : m.Ready) (hd : ∀ c < m.gaussians, 0 < d c) :
    ∑ c ∈ Finset.range m.gaussians, share m.gaussians (weights m) d c = 1 := by
  unfold share
  rw [← Finset.sum_div]
  exact div_self (mixture_pos hr hd).ne'

/-- a weighted average lies between the bounds of its terms -/
theorem average_between {n : Nat} {b v : Nat → K} (h0 : ∀ c < n, 0 ≤ b c) (h1 : ∑ c ∈ Finset.range n, b c = 1) {lo hi : K}
    (hv : ∀ c < n, lo ≤ v c ∧ v c ≤ hi) :
    lo ≤ ∑ c ∈ Finset.range n, b c * v c ∧ ∑ c ∈ Finset.range n, b c * v c ≤ hi := by
  constructor
  · calc lo = ∑ c ∈ Finset.range n, b c * lo := by rw [← Finset.sum_mul, h1, one_mul]
      _ ≤ _ := Finset.sum_le_sum fun c hc => mul_le_mul_of_nonneg_left (hv c (Finset.mem_range.1 hc)).1 (h0 c (Finset.mem_range.1 hc))
  · calc _ ≤ ∑ c ∈ Finset.range n, b c * hi :=
          Finset.sum_le_sum fun c hc => mul_le_mul_of_nonneg_left (hv c (Finset.mem_range.1 hc)).2 (h0 c (Finset.mem_range.1 hc))
      _ = hi := by rw [← Finset.sum_mul, h1, one_mul]

end Laws

theorem map_range_sum (n : Nat) (f : Nat → K) : ((List.range n).map f).sum = ∑ c ∈ Finset.range n, f c := sum_map_range n f

/-- C38: `filter` on a bimodal mixture returns a positive likelihood.  The posterior probabilities of the components are non-negative
    and sum to 1, and each predicted value is the average of the predictions of the components with these weights; so it lies
    between the least and the greatest of them.  The covariance of the prediction is the sum of those of the components weighted by
    the squares. -/
theorem C38_regression_convex (D : Dens K) (hD : D.Sound) (log : K → K) (m : Gmm K) (hm : m.CanFilter) (hb : m.bimodal = true)
    (x : List K) (hx : m.di ≤ x.length) (hist : List K) (hl : Logs m.buf m.window hist) :
    ∃ p m', ∃ y : Nat → List K, filter D log x m = .ret p m' ∧ 0 < p ∧
      IsDistribution m'.beta ∧ m'.beta.length = m.gaussians ∧
      (∀ (c : Nat) (g : Gauss K), m.comps[c]? = some g → Gauss.regression x g = .ret (y c) g ∧ (y c).length = m.dim - m.di) ∧
      m'.outVals.length = m.dim - m.di ∧
      (∀ k < m.dim - m.di, m'.outVals.getD k 0 = ∑ c ∈ Finset.range m.gaussians, m'.beta.getD c 0 * (y c).getD k 0) ∧
      (∀ k < m.dim - m.di, ∀ lo hi, (∀ c < m.gaussians, lo ≤ (y c).getD k 0 ∧ (y c).getD k 0 ≤ hi) →
        lo ≤ m'.outVals.getD k 0 ∧ m'.outVals.getD k 0 ≤ hi) ∧
      m'.outCov = (List.range (outCells m.mode (m.dim - m.di))).map fun k => ∑ c ∈ Finset.range m.gaussians,
        m'.beta.getD c 0 ^ 2 * ((m.comps[c]?.map fun g => g.outCov.getD k 0).getD 0) := by
  have hf : m.Fits x := by unfold Fits; rw [if_pos hb]; exact hx
  obtain ⟨d, hd⟩ := obsDensities_exist D hD m hm.ready
  obtain ⟨y, hy⟩ := predictions_exist m hm.ready.wf hb
  obtain ⟨m', h1, h2, h3⟩ := filter_ret D log m hm x (fun _ => hx) (d x) (hd x hf).1 (y x) (fun _ => (hy x hf).1) hist hl
  have hbeta : ∀ c < m.gaussians, m'.beta.getD c 0 = share m.gaussians (weights m) (d x) c := fun c hc => by
    rw [h2.beta, getD_map_range' _ _ _ hc]
  have hval : ∀ k < m.dim - m.di, m'.outVals.getD k 0 =
      ∑ c ∈ Finset.range m.gaussians, m'.beta.getD c 0 * (y x c).getD k 0 := fun k hk => by
    rw [h2.outVals hb, getD_map_range' _ _ _ hk]
    exact Finset.sum_congr rfl fun c hc => by rw [hbeta c (Finset.mem_range.1 hc)]
  refine ⟨_, m', y x, h1, mixture_pos hm.ready (hd x hf).2, ⟨?_, ?_⟩, by rw [h2.beta]; simp, ?_, by rw [h2.outVals hb]; simp,
    hval, ?_, ?_⟩
  · intro b hb'
    rw [h2.beta] at hb'
    obtain ⟨c, hc, rfl⟩ := List.mem_map.1 hb'
    exact share_nonneg hm.ready (hd x hf).2 (List.mem_range.1 hc)
  · rw [h2.beta, map_range_sum]
    exact share_sum hm.ready (hd x hf).2
  · intro c g hg
    have hc : c < m.gaussians := by rw [← hm.ready.wf.comps]; exact (List.getElem?_eq_some_iff.1 hg).1
    exact ⟨(hy x hf).1 c g hg, (hy x hf).2 c hc⟩
  · intro k hk lo hi hv
    rw [hval k hk]
    refine average_between (fun c hc => ?_) ?_ hv
    · rw [hbeta c hc]; exact share_nonneg hm.ready (hd x hf).2 hc
    · rw [Finset.sum_congr rfl fun c hc => hbeta c (Finset.mem_range.1 hc)]
      exact share_sum hm.ready (hd x hf).2
  · rw [h2.outCov hb]
    refine List.map_congr_left fun k _ => Finset.sum_congr rfl fun c hc => ?_
    rw [hbeta c (Finset.mem_range.1 hc)]

theorem SameModel.canFilter {m m' : Gmm K} (h : SameModel m m') (hm : m.CanFilter) (hb : m'.beta.length = m.gaussians) :
    m'.CanFilter := by
  unfold SameModel at h
  rw [h]
  obtain ⟨⟨⟨a1, a2, a3, a4, a5⟩, a6, a7⟩, a8, a9, a10⟩ := hm
  exact ⟨⟨⟨a1, a2, a3, hb, a5⟩, a6, a7⟩, a8, a9, a10⟩

theorem SameModel.of_filtered {m m' : Gmm K} (h : m' = { m with
    beta := m'.beta, buf := m'.buf, instant := m'.instant, logLik := m'.logLik, outVals := m'.outVals, outCov := m'.outCov }) : SameModel m m' := by
  have hr : m'.reg = m.reg := by rw [h]
  unfold SameModel
  rw [hr]
  exact h

theorem SameModel.trans {a b c : Gmm K} (h : SameModel a b) (h' : SameModel b c) : SameModel a c := by
  unfold SameModel at *
  rw [h'] 
  rw [h]

/-- a stream of observations -/
theorem filterAll_ret (D : Dens K) (log : K → K) (m : Gmm K) (d : List K → Nat → K) (y : List K → Nat → List K)
    (hd : ∀ x, m.Fits x → ObsDensities D m x (d x)) (hy : ∀ x, m.bimodal = true → m.Fits x → Predictions m x (y x))
    (xs : List (List K)) (hx : ∀ x ∈ xs, m.Fits x) :
    ∀ (m0 : Gmm K), SameModel m m0 → m0.CanFilter → ∀ hist, Logs m0.buf m0.window hist →
    ∃ m', filterAll D log xs m0 = .ret (xs.map fun x => mixture m.gaussians (weights m) (d x)) m' ∧ SameModel m m' ∧ m'.CanFilter ∧
      Logs m'.buf m'.window (hist ++ xs.map fun x => log (mixture m.gaussians (weights m) (d x))) ∧
      ∀ pre x, xs = pre ++ [x] → ∃ mp, SameModel m mp ∧
        mp.Filtered log (hist ++ pre.map fun x => log (mixture m.gaussians (weights m) (d x))) (d x) (y x) m' := by
  induction xs with
  | nil =>
    intro m0 h0 hc hist hl
    refine ⟨m0, rfl, h0, hc, by simpa using hl, fun pre x h => ?_⟩
    simp at h
  | cons x xs ih =>
    intro m0 h0 hc hist hl
    have hfx := hx x List.mem_cons_self
    have hs : ∀ m1, SameModel m m1 → m1.gaussians = m.gaussians ∧ m1.bimodal = m.bimodal ∧ m1.di = m.di ∧ m1.comps = m.comps ∧
        weights m1 = weights m ∧ m1.window = m.window := by
      intro m1 h1
      unfold SameModel at h1
      rw [h1]
      exact ⟨rfl, rfl, rfl, rfl, rfl, rfl⟩
    obtain ⟨s1, s2, s3, s4, s5, s6⟩ := hs m0 h0
    obtain ⟨m1, e1, e2, e3⟩ := filter_ret D log m0 hc x (fun hb => by
        unfold Fits at hfx
        rw [s2] at hb; rw [if_pos hb] at hfx; rw [s3]; exact hfx)
      (d x) (by unfold ObsDensities; rw [s4, s2]; exact hd x hfx) (y x)
      (fun hb => by unfold Predictions; rw [s4]; exact hy x (s2 ▸ hb) hfx) hist hl
    rw [s1, s5] at e1 e3
    have hm1 : SameModel m0 m1 := .of_filtered e2.same
    have hc1 : m1.CanFilter := hm1.canFilter hc (by rw [e2.beta]; simp)
    obtain ⟨m', f1, f2, f3, f4, f5⟩ := ih (fun x' h' => hx x' (List.mem_cons_of_mem _ h')) m1 (h0.trans hm1) hc1 _ e3
    refine ⟨m', ?_, f2, f3, ?_, ?_⟩
    · unfold filterAll
      rw [bind_of_ret e1, bind_of_ret f1, pure_def]
      rfl
    · simpa using f4
    · intro pre x' h
      cases pre with
      | nil =>
        simp only [List.nil_append, List.cons.injEq] at h
        obtain ⟨rfl, rfl⟩ := h
        have : m' = m1 := by
          have := f1
          simp only [filterAll, pure_def, List.map_nil, Res.ret.injEq, true_and] at this
          exact this.symm
        rw [this]
        exact ⟨m0, h0, by simpa using e2⟩
      | cons z pre =>
        simp only [List.cons_append, List.cons.injEq] at h
        obtain ⟨rfl, h⟩ := h
        obtain ⟨mp, g1, g2⟩ := f5 pre x' h
        exact ⟨mp, g1, by simpa using g2⟩

theorem reset_ret (m : Gmm K) (hm : m.CanFilter) (hb : BufOk m.buf) :
    ∃ b, reset m = .ret () { m with buf := b } ∧ Logs b m.window [] := by
  obtain ⟨b, h1, h2⟩ := resetBuffer_ret hb m.window hm.window
  refine ⟨b, ?_, h2⟩
  unfold reset
  rw [bind_of_ret (checkTraining_idle hm.idle), bind_of_ret (get_def m)]
  simp only [onBuf, h1]

/-- C40: after `reset()` and a stream of observations the log-likelihood of a class is the average of the logarithms of the last
    `likelihood_window` likelihoods returned by `filter` (of all of them if there were fewer), whatever happened before; and the instantaneous
    likelihood is the last one.  No call fails. -/
theorem C40_smoothed_likelihood (D : Dens K) (hD : D.Sound) (log : K → K) (m : Gmm K) (hm : m.CanFilter) (hb : BufOk m.buf)
    (xs : List (List K)) (hx : ∀ x ∈ xs, m.Fits x) :
    ∃ ps m', (do reset; filterAll D log xs) m = .ret ps m' ∧ ps.length = xs.length ∧ (∀ p ∈ ps, 0 < p) ∧
      (∀ init p, ps = init ++ [p] → m'.instant = p ∧ m'.logLik = avgLast m.window (ps.map log)) := by
  obtain ⟨d, hd⟩ := obsDensities_exist D hD m hm.ready
  have hy : ∃ y : List K → Nat → List K, ∀ x, m.bimodal = true → m.Fits x → Predictions m x (y x) := by
    rcases bool_cases m.bimodal with h | h
    · exact ⟨fun _ _ => [], fun x h' => by rw [h] at h'; cases h'⟩
    · obtain ⟨y, hy⟩ := predictions_exist m hm.ready.wf h
      exact ⟨y, fun x _ hf => (hy x hf).1⟩
  obtain ⟨y, hy⟩ := hy
  obtain ⟨b, h1, h2⟩ := reset_ret m hm hb
  obtain ⟨m', f1, f2, f3, f4, f5⟩ := filterAll_ret D log m d y (fun x hf => (hd x hf).1) hy xs hx { m with buf := b } rfl
    (SameModel.canFilter (m := m) rfl hm hm.ready.wf.beta) [] h2
  refine ⟨_, m', by rw [bind_of_ret h1]; exact f1, by simp, ?_, ?_⟩
  · intro p hp
    obtain ⟨x, hx', rfl⟩ := List.mem_map.1 hp
    exact mixture_pos hm.ready (hd x (hx x hx')).2
  · intro init p hp
    have hne : xs ≠ [] := by rintro rfl; simp at hp
    obtain ⟨pre, x, rfl⟩ : ∃ pre x, xs = pre ++ [x] := ⟨xs.dropLast, xs.getLast hne, (List.dropLast_append_getLast hne).symm⟩
    obtain ⟨mp, g1, g2⟩ := f5 pre x rfl
    unfold SameModel at g1
    have k1 : mp.gaussians = m.gaussians := by rw [g1]
    have k2 : weights mp = weights m := by rw [g1]; rfl
    have k3 : mp.window = m.window := by rw [g1]
    rw [List.map_append, List.map_cons, List.map_nil] at hp
    have hp' := (List.append_inj' hp rfl).2
    simp only [List.cons.injEq, and_true] at hp'
    refine ⟨by rw [g2.instant, k1, k2, hp'], ?_⟩
    rw [g2.logLik, k1, k2, k3]
    simp [Function.comp_def]

/-- C51 (one mixture): after `reset()` and at least one observation, two mixtures with the same parameters give the same
    likelihoods and the same results, whatever was filtered before. -/
theorem C51_filter_forgets (D : Dens K) (hD : D.Sound) (log : K → K) (m1 m2 : Gmm K) (hs : SameModel m1 m2)
    (hm1 : m1.CanFilter) (hm2 : m2.CanFilter) (hb1 : BufOk m1.buf) (hb2 : BufOk m2.buf) (xs : List (List K)) (hne : xs ≠ [])
    (hx : ∀ x ∈ xs, m1.Fits x) :
    ∃ ps m1' m2', (do reset; filterAll D log xs) m1 = .ret ps m1' ∧ (do reset; filterAll D log xs) m2 = .ret ps m2' ∧
      m1'.instant = m2'.instant ∧ m1'.logLik = m2'.logLik ∧ m1'.beta = m2'.beta ∧
      (m1.bimodal = true → m1'.results = m2'.results) := by
  obtain ⟨d, hd⟩ := obsDensities_exist D hD m1 hm1.ready
  have hy : ∃ y : List K → Nat → List K, ∀ x, m1.bimodal = true → m1.Fits x → Predictions m1 x (y x) := by
    rcases bool_cases m1.bimodal with h | h
    · exact ⟨fun _ _ => [], fun x h' => by rw [h] at h'; cases h'⟩
    · obtain ⟨y, hy⟩ := predictions_exist m1 hm1.ready.wf h
      exact ⟨y, fun x _ hf => (hy x hf).1⟩
  obtain ⟨y, hy⟩ := hy
  obtain ⟨b1, h1, h2⟩ := reset_ret m1 hm1 hb1
  obtain ⟨b2, h3, h4⟩ := reset_ret m2 hm2 hb2
  have hw : m2.window = m1.window := by unfold SameModel at hs; rw [hs]
  obtain ⟨m1', f1, f2, f3, f4, f5⟩ := filterAll_ret D log m1 d y (fun x hf => (hd x hf).1) hy xs hx { m1 with buf := b1 } rfl
    (SameModel.canFilter (m := m1) rfl hm1 hm1.ready.wf.beta) [] h2
  have hs2 : SameModel m1 { m2 with buf := b2 } := by unfold SameModel at hs ⊢; rw [hs]
  obtain ⟨m2', g1, g2, g3, g4, g5⟩ := filterAll_ret D log m1 d y (fun x hf => (hd x hf).1) hy xs hx { m2 with buf := b2 } hs2
    (SameModel.canFilter (m := m2) rfl hm2 hm2.ready.wf.beta) [] h4
  obtain ⟨pre, x, rfl⟩ : ∃ pre x, xs = pre ++ [x] := ⟨xs.dropLast, xs.getLast hne, (List.dropLast_append_getLast hne).symm⟩
  obtain ⟨mp, p1, p2⟩ := f5 pre x rfl
  obtain ⟨mq, q1, q2⟩ := g5 pre x rfl
  unfold SameModel at p1 q1
  have e1 : mp.gaussians = mq.gaussians := by rw [p1, q1]
  have e2 : weights mp = weights mq := by rw [p1, q1]; rfl
  have e3 : mp.window = mq.window := by rw [p1, q1]
  have e4 : mp.dim = mq.dim := by rw [p1, q1]
  have e5 : mp.di = mq.di := by rw [p1, q1]
  have e6 : mp.mode = mq.mode := by rw [p1, q1]
  have e7 : mp.comps = mq.comps := by rw [p1, q1]
  have i1 : m1'.instant = m2'.instant := by rw [p2.instant, q2.instant, e1, e2]
  have i2 : m1'.logLik = m2'.logLik := by rw [p2.logLik, q2.logLik, e1, e2, e3]
  refine ⟨_, m1', m2', by rw [bind_of_ret h1]; exact f1, by rw [bind_of_ret h3]; exact g1, i1, i2,
    by rw [p2.beta, q2.beta, e1, e2], fun hb => ?_⟩
  have b1 : mp.bimodal = true := by rw [p1]; exact hb
  have b2 : mq.bimodal = true := by rw [q1]; exact hb
  unfold results
  rw [i1, i2, p2.outVals b1, q2.outVals b2, p2.outCov b1, q2.outCov b2, e1, e2, e4, e5, e6, e7]

end Xmm.Gmm
