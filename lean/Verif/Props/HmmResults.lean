import Verif.Props.HmmRecognition
import Verif.Props.GmmTrained
import Mathlib.Tactic.IntervalCases
set_option linter.unusedSimpArgs false
set_option linter.unusedSectionVars false
/- C71, C72: independence of the past, and the output of a hidden Markov model. -/
namespace Xmm
open Prog (bind_def pure_def get_def set_def modify_def throw_def undef_def)
namespace Hmm
variable {K : Type} [Field K] [LinearOrder K] [IsStrictOrderedRing K]
open HmmSpec GmmSpec RecSpec

theorem outWeight_dist {m : Hmm K} (h : Windowed m) (hn : m.est = .windowed → 2 ≤ m.n) (h0 : ∀ i < m.n, 0 ≤ occ m i)
    (hs : ∑ i ∈ Finset.range m.n, occ m i = 1) :
    (∀ i < m.n, 0 ≤ outWeight m i) ∧ ∑ i ∈ Finset.range m.n, outWeight m i = 1 := by
  rcases est_cases m.est with hE | hE | hE
  · simp only [outWeight, hE]; exact ⟨h0, hs⟩
  · have hz := winNorm_pos h (hn hE) h0 (by rw [hs]; exact zero_lt_one)
    have hhi : m.winMax ≤ m.n := by rw [h.hi]; exact min_le_right _ _
    simp only [outWeight, hE, if_neg (not_le.2 hz)]
    refine ⟨fun i hi => ?_, ?_⟩
    · split
      · exact div_nonneg (h0 i hi) hz.le
      · exact le_rfl
    · rw [← window_sum m.n m.winMin m.winMax hhi fun i => occ m i / m.winNorm, ← Finset.sum_div, ← Finset.sum_Ico_eq_sum_range, ← h.norm,
        div_self hz.ne']
  · simp only [outWeight, hE]
    refine ⟨fun i _ => by split <;> simp, ?_⟩
    rw [Finset.sum_ite_eq', if_pos (Finset.mem_range.2 h.likeliest.1)]

/-- C72: after `reset()` and a non-empty stream, the output of a bimodal hidden Markov model is the average of the outputs predicted by its states
    for the last observation.  The weights are non-negative and sum to 1, so each value lies between the least and the greatest of the
    predictions.  With the estimator `Full` the weights are the state probabilities, with `Windowed` those of the window, renormalised, with
    `Likeliest` only the likeliest state counts.  (With one state and `Windowed` see `C72_one_state_windowed_violated`.) -/
theorem C72_regression_partial (D : Dens K) (hD : D.Sound) (log : K → K) (m : Hmm K) (hm : m.Usable) (hb : m.bimodal = true)
    (hn : m.est = .windowed → 2 ≤ m.n) (pre : List (List K)) (x : List K) (hx : ∀ y ∈ pre ++ [x], m.Fits y) :
    ∃ m0 ps m' v c, reset m = .ret () m0 ∧ filterAll D log (pre ++ [x]) m0 = .ret ps m' ∧ Predicts D m x v c ∧
      (∀ i < m.n, 0 ≤ outWeight m' i) ∧ ∑ i ∈ Finset.range m.n, outWeight m' i = 1 ∧
      m'.outVals.length = m.dim - m.di ∧
      (∀ k < m.dim - m.di, m'.outVals.getD k 0 = ∑ i ∈ Finset.range m.n, outWeight m' i * (v i).getD k 0) ∧
      (∀ k < m.dim - m.di, ∀ lo hi, (∀ i < m.n, lo ≤ (v i).getD k 0 ∧ (v i).getD k 0 ≤ hi) →
        lo ≤ m'.outVals.getD k 0 ∧ m'.outVals.getD k 0 ≤ hi) ∧
      (m.est = .full → ∀ i, outWeight m' i = m'.alpha.getD i 0) ∧
      (m.est = .windowed → ∀ i < m.n, outWeight m' i = if m'.winMin ≤ i ∧ i < m'.winMax then
        m'.alpha.getD i 0 / ∑ j ∈ Finset.Ico m'.winMin m'.winMax, m'.alpha.getD j 0 else 0) ∧
      (m.est = .likeliest → ∀ i, outWeight m' i = if i = m'.likeliest then 1 else 0) ∧
      m'.outCov = (List.range (outCells m.mode (m.dim - m.di))).map fun k => ∑ i ∈ Finset.range m.n, covWeight m' i * (c i).getD k 0 := by
  obtain ⟨m0, b, v, c, h1, ⟨bf, h2⟩, h3, _, h4⟩ := run_ret D hD log m hm
  obtain ⟨ps, m', g1, g2, g3, g4⟩ := h4 _ hx
  obtain ⟨qpre, q, mp, k1, k2, k3, k4, k5⟩ := g4 pre x rfl
  have hmn : m0.n = m.n ∧ m0.est = m.est ∧ m0.hier = m.hier ∧ m0.bimodal = m.bimodal ∧ m0.dim = m.dim ∧ m0.di = m.di ∧ m0.mode = m.mode := by
    rw [h2]; exact ⟨rfl, rfl, rfl, rfl, rfl, rfl, rfl⟩
  obtain ⟨n1, n2, n3, n4, n5, n6, n7⟩ := hmn
  obtain ⟨a1, _, _, _, _, a6, a7, _, a9, a10, a11, a12⟩ := g2.same.facts
  obtain ⟨p1, _, _, _, _, p6, p7, _, p9, p10, p11, p12⟩ := k2.same.facts
  have ho := occ_nonneg g2 k3.started (n3.trans hm.flat)
  have hmn' : m'.n = m.n := a1.trans n1
  have hest : m'.est = m.est := a12.trans n2
  have hd := outWeight_dist k3.windowed (fun h => by rw [hmn']; exact hn (hest ▸ h)) ho.1 ho.2
  rw [hmn'] at hd
  have hocc : ∀ i, occ m' i = m'.alpha.getD i 0 := fun i => by
    have : m'.hier = false := by rw [a6, n3]; exact hm.flat
    simp [occ, this]
  have hv := k3.outVals (by rw [p7, n4, hb])
  have hc := k3.outCov (by rw [p7, n4, hb])
  rw [p9, p10, p1, n1, n5, n6] at hv
  rw [p9, p10, p11, p1, n1, n5, n6, n7] at hc
  have hval : ∀ k < m.dim - m.di, m'.outVals.getD k 0 = ∑ i ∈ Finset.range m.n, outWeight m' i * (v x i).getD k 0 := fun k hk => by
    rw [hv, getD_map_range' _ _ _ hk]
  refine ⟨m0, ps, m', v x, c x, h1, g1, ?_, hd.1, hd.2, by rw [hv]; simp, hval, fun k hk lo hi hlh => ?_, fun hE i => ?_, fun hE i hi => ?_,
    fun hE i => ?_, hc⟩
  · have := k5 hb; rw [h2] at this; exact this
  · rw [hval k hk]
    exact Gmm.average_between hd.1 hd.2 hlh
  · simp only [outWeight, hest, hE, hocc]
  · have hz := winNorm_pos k3.windowed (by rw [hmn']; exact hn hE) ho.1 (by rw [ho.2]; exact zero_lt_one)
    simp only [outWeight, hest, hE, if_neg (not_le.2 hz), hocc]
    rw [k3.windowed.norm, Finset.sum_congr rfl fun j _ => hocc j]
  · simp only [outWeight, hest, hE]

/-- C72 is false for one state with the estimator `Windowed`: all the values of the output are 0, whatever the state predicts. -/
theorem C72_one_state_windowed_violated (D : Dens K) (hD : D.Sound) (log : K → K) (m : Hmm K) (hm : m.Usable) (hb : m.bimodal = true)
    (hn : m.n = 1) (hE : m.est = .windowed) (pre : List (List K)) (x : List K) (hx : ∀ y ∈ pre ++ [x], m.Fits y) :
    ∃ m0 ps m', reset m = .ret () m0 ∧ filterAll D log (pre ++ [x]) m0 = .ret ps m' ∧
      m'.outVals = List.replicate (m.dim - m.di) 0 := by
  obtain ⟨m0, b, v, c, h1, ⟨bf, h2⟩, h3, _, h4⟩ := run_ret D hD log m hm
  obtain ⟨ps, m', g1, g2, g3, g4⟩ := h4 _ hx
  obtain ⟨qpre, q, mp, k1, k2, k3, k4, k5⟩ := g4 pre x rfl
  have hmn : m0.n = m.n ∧ m0.est = m.est ∧ m0.hier = m.hier ∧ m0.bimodal = m.bimodal ∧ m0.dim = m.dim ∧ m0.di = m.di := by
    rw [h2]; exact ⟨rfl, rfl, rfl, rfl, rfl, rfl⟩
  obtain ⟨n1, n2, n3, n4, n5, n6⟩ := hmn
  obtain ⟨a1, _, _, _, _, a6, a7, _, a9, a10, a11, a12⟩ := g2.same.facts
  obtain ⟨p1, _, _, _, _, p6, p7, _, p9, p10, p11, p12⟩ := k2.same.facts
  have hv := k3.outVals (by rw [p7, n4, hb])
  rw [p9, p10, p1, n1, n5, n6] at hv
  have hmn' : m'.n = 1 := by rw [a1, n1, hn]
  have hhi : m'.winMax = 0 := by
    have := k3.windowed.likeliest.1
    rw [k3.windowed.hi, hmn']; simp; omega
  have hw : ∀ i, outWeight m' i = 0 := fun i => by
    simp only [outWeight, a12, n2, hE]
    rw [if_neg (by omega)]
  refine ⟨m0, ps, m', h1, g1, ?_⟩
  rw [hv]
  refine List.ext_getElem (by simp) fun i _ _ => ?_
  simp [hw]

/-- With the estimator `Likeliest` the covariance of the output is zero, whatever the covariance of the prediction. -/
theorem C72_likeliest_covariance_zero (D : Dens K) (hD : D.Sound) (log : K → K) (m : Hmm K) (hm : m.Usable) (hb : m.bimodal = true)
    (hE : m.est = .likeliest) (pre : List (List K)) (x : List K) (hx : ∀ y ∈ pre ++ [x], m.Fits y) :
    ∃ m0 ps m', reset m = .ret () m0 ∧ filterAll D log (pre ++ [x]) m0 = .ret ps m' ∧
      m'.outCov = List.replicate (outCells m.mode (m.dim - m.di)) 0 := by
  obtain ⟨m0, ps, m', v, c, h1, h2, _, _, _, _, _, _, _, _, hw, hc⟩ := C72_regression_partial D hD log m hm hb
    (fun h => by rw [hE] at h; cases h) pre x hx
  refine ⟨m0, ps, m', h1, h2, ?_⟩
  have hest : m'.est = .likeliest := by
    obtain ⟨m0', b, v, c, q1, ⟨bf, q2⟩, _, _, q3⟩ := run_ret D hD log m hm
    obtain ⟨ps', m'', g1, g2, _⟩ := q3 _ hx
    rw [h1] at q1; cases q1
    rw [h2] at g1; cases g1
    rw [g2.same.facts.2.2.2.2.2.2.2.2.2.2.2, q2]; exact hE
  rw [hc]
  refine List.ext_getElem (by simp) fun i _ _ => ?_
  simp [covWeight, hest]

/-! ### C71 -/

theorem heard_det {m0 m m' : Hmm K} {log : K → K} {bs : List (Nat → K)} {ps : List K} (h : Heard m0 log bs ps m) (h' : Heard m0 log bs ps m')
    (b : Nat → K) : (∀ j < m0.n, weight m b j = weight m' b j) ∧ evidence m b = evidence m' b := by
  obtain ⟨e1, _, e3, e4, _⟩ := h.same.facts
  obtain ⟨f1, _, f3, f4, _⟩ := h'.same.facts
  have hp : 0 < ps.prod := List.prod_pos fun p hp => lt_of_lt_of_le (by positivity) (h.pos p hp)
  have hw : ∀ j < m0.n, weight m b j = weight m' b j := by
    intro j hj
    unfold weight
    rw [h.started, h'.started, e1, f1, e3, f3, e4, f4]
    cases hbs : bs with
    | nil => rfl
    | cons b0 bs0 =>
      simp only [List.isEmpty_cons, Bool.not_false, if_true]
      congr 1
      refine Finset.sum_congr rfl fun i hi => ?_
      congr 1
      have hlen : bs.length = bs0.length + 1 := by rw [hbs]; rfl
      have a1 := h.alpha _ hlen i (Finset.mem_range.1 hi)
      have a2 := h'.alpha _ hlen i (Finset.mem_range.1 hi)
      rw [← h.prod _ hlen] at a1 a2
      exact mul_right_cancel₀ hp.ne' (a1.trans a2.symm)
  refine ⟨hw, ?_⟩
  unfold evidence
  rw [e1, f1]
  exact Finset.sum_congr rfl fun j hj => hw j (Finset.mem_range.1 hj)

theorem IsLikeliest.unique {m m' : Hmm K} {i i' : Nat} (hn : m'.n = m.n) (ho : ∀ j, occ m' j = occ m j) (h : IsLikeliest m i)
    (h' : IsLikeliest m' i') : i' = i := by
  rcases lt_trichotomy i' i with hlt | he | hlt
  · have h1 := h.2.2 i' hlt
    have h2 := h'.2.1 i (by rw [hn]; exact h.1)
    rw [ho, ho] at h2
    exact absurd h1 (not_lt.2 h2)
  · exact he
  · have h1 := h'.2.2 i hlt
    have h2 := h.2.1 i' (by rw [← hn]; exact h'.1)
    rw [ho, ho] at h1
    exact absurd h1 (not_lt.2 h2)

/-- the results of a class of a hidden Markov model for one observation -/
structure SameFrame (m m' : Hmm K) : Prop where
  instant : m'.instant = m.instant
  progress : m'.progress = m.progress
  likeliest : m'.likeliest = m.likeliest
  alpha : m'.alpha = m.alpha
  output : m.bimodal = true → m'.outVals = m.outVals ∧ m'.outCov = m.outCov

/-- the results of a class of a hidden Markov model -/
structure SameResults (m m' : Hmm K) : Prop where
  instant : m'.instant = m.instant
  logLik : m'.logLik = m.logLik
  progress : m'.progress = m.progress
  likeliest : m'.likeliest = m.likeliest
  alpha : m'.alpha = m.alpha
  output : m.bimodal = true → m'.outVals = m.outVals ∧ m'.outCov = m.outCov

theorem filtered_frame {m0 m m' r r' : Hmm K} {log : K → K} {bs : List (Nat → K)} {ps hist hist' : List K} (h : Heard m0 log bs ps m)
    (h' : Heard m0 log bs ps m') {b : Nat → K} {v c : Nat → List K} (hf : m.Filtered log hist b v c r)
    (hf' : m'.Filtered log hist' b v c r') (hh : m0.hier = false) : SameFrame r r' := by
  obtain ⟨hw, hev⟩ := heard_det h h' b
  have hs := h.same.trans hf.same
  have hs' := h'.same.trans hf'.same
  obtain ⟨e1, _, _, _, e5, e6, e7, _, e9, e10, e11, e12⟩ := h.same.facts
  obtain ⟨f1, _, _, _, f5, f6, f7, _, f9, f10, f11, f12⟩ := h'.same.facts
  obtain ⟨s1, _, _, _, _, s6, s7, _, _, _, _, s12⟩ := hs.facts
  obtain ⟨t1, _, _, _, _, t6, t7, _, _, _, _, t12⟩ := hs'.facts
  have halpha : r'.alpha = r.alpha := by
    rw [hf.alpha, hf'.alpha, e1, f1]
    refine List.map_congr_left fun j hj => ?_
    rw [hev, hw j (List.mem_range.1 hj)]
  have hocc : ∀ j, occ r' j = occ r j := fun j => by simp [occ, s6, t6, hh, halpha]
  have hlk : r'.likeliest = r.likeliest := IsLikeliest.unique (t1.trans s1.symm) hocc hf.windowed.likeliest hf'.windowed.likeliest
  have hlo : r'.winMin = r.winMin := by rw [hf.windowed.lo, hf'.windowed.lo, hlk, t1, s1]
  have hhi : r'.winMax = r.winMax := by rw [hf.windowed.hi, hf'.windowed.hi, hlk, t1, s1]
  have hz : r'.winNorm = r.winNorm := by
    rw [hf.windowed.norm, hf'.windowed.norm, hlo, hhi]; exact Finset.sum_congr rfl fun j _ => hocc j
  have how : ∀ i, outWeight r' i = outWeight r i := fun i => by
    unfold outWeight; rw [t12, s12, hlo, hhi, hz, hlk, hocc]
  have hcw : ∀ i, covWeight r' i = covWeight r i := fun i => by
    unfold covWeight; rw [t12, s12, hlo, hhi, hz, hocc]
  refine ⟨by rw [hf.instant, hf'.instant, hev], ?_, hlk, halpha, fun hb => ?_⟩
  · rw [hf.progress, hf'.progress, hlo, hhi, hz, e1, f1]
    congr 1
    exact Finset.sum_congr rfl fun j _ => by rw [hocc]
  · have hb0 : m0.bimodal = true := s7 ▸ hb
    refine ⟨?_, ?_⟩
    · rw [hf.outVals (e7.trans hb0), hf'.outVals (f7.trans hb0), e1, f1, e9, f9, e10, f10]
      exact List.map_congr_left fun k _ => Finset.sum_congr rfl fun i _ => by rw [how]
    · rw [hf.outCov (e7.trans hb0), hf'.outCov (f7.trans hb0), e1, f1, e9, f9, e10, f10, e11, f11]
      exact List.map_congr_left fun k _ => Finset.sum_congr rfl fun i _ => by rw [hcw]

theorem filtered_det {m0 m m' r r' : Hmm K} {log : K → K} {bs : List (Nat → K)} {ps : List K} (h : Heard m0 log bs ps m)
    (h' : Heard m0 log bs ps m') {b : Nat → K} {v c : Nat → List K} (hf : m.Filtered log (ps.map log) b v c r)
    (hf' : m'.Filtered log (ps.map log) b v c r') (hh : m0.hier = false) : SameResults r r' := by
  have hs := filtered_frame h h' hf hf' hh
  obtain ⟨_, _, _, _, e5, _⟩ := h.same.facts
  obtain ⟨_, _, _, _, f5, _⟩ := h'.same.facts
  exact ⟨hs.instant, by rw [hf.logLik, hf'.logLik, (heard_det h h' b).2, e5, f5], hs.progress, hs.likeliest, hs.alpha, hs.output⟩

theorem run_det (D : Dens K) (log : K → K) {m0 : Hmm K} (hm : m0.CanFilter) (hh : m0.hier = false) (b : List K → Nat → K)
    (hb : ∀ x, m0.Fits x → Emits D m0 x (b x) ∧ ∀ i < m0.n, 1 / 10 ^ 180 ≤ b x i) (v c : List K → Nat → List K)
    (hv : m0.bimodal = true → ∀ x, m0.Fits x → Predicts D m0 x (v x) (c x)) (xs : List (List K)) (hx : ∀ x ∈ xs, m0.Fits x) (hne : xs ≠ []) :
    ∀ (m m' : Hmm K) (bs : List (Nat → K)) (ps : List K), Heard m0 log bs ps m → Heard m0 log bs ps m' →
    ∃ qs r r', filterAll D log xs m = .ret qs r ∧ filterAll D log xs m' = .ret qs r' ∧ SameResults r r' := by
  induction xs with
  | nil => exact absurd rfl hne
  | cons x xs ih =>
    intro m m' bs ps h h'
    have hfx := hx x List.mem_cons_self
    obtain ⟨r, a1, a2, a3⟩ := heard_step D log hm hh h x hfx (b x) (hb x hfx).1 (hb x hfx).2 (v x) (c x) (fun h => hv h x hfx)
    obtain ⟨r', b1, b2, b3⟩ := heard_step D log hm hh h' x hfx (b x) (hb x hfx).1 (hb x hfx).2 (v x) (c x) (fun h => hv h x hfx)
    rw [← (heard_det h h' (b x)).2] at b1 b3
    by_cases he : xs = []
    · subst he
      refine ⟨[evidence m (b x)], r, r', ?_, ?_, filtered_det h h' a2 b2 hh⟩
      · unfold filterAll filterAll; rw [bind_of_ret a1, bind_of_ret (pure_def _ _), pure_def]
      · unfold filterAll filterAll; rw [bind_of_ret b1, bind_of_ret (pure_def _ _), pure_def]
    · obtain ⟨qs, t, t', c1, c2, c3⟩ := ih (fun y hy => hx y (List.mem_cons_of_mem _ hy)) he r r' _ _ a3 b3
      refine ⟨evidence m (b x) :: qs, t, t', ?_, ?_, c3⟩
      · unfold filterAll; rw [bind_of_ret a1, bind_of_ret c1, pure_def]
      · unfold filterAll; rw [bind_of_ret b1, bind_of_ret c2, pure_def]

theorem cleared_same {m m' : Hmm K} {bf bf' : CBuf K 1} (hs : (cleared m bf).SameModel m') :
    (cleared m bf).SameModel (cleared m' bf') := by
  have e := hs.1
  refine ⟨?_, hs.2⟩
  unfold cleared cyclicCell
  rw [e]
  unfold cleared cyclicCell
  simp only
  by_cases h : 1 < m.n
  · simp only [if_pos h, List.set_set]
  · simp only [if_neg h]

/-- C71: `reset()`, then any stream of observations, then `reset()` and a non-empty stream `xs`: the likelihoods returned for `xs` and the results do
    not depend on the first stream. -/
theorem C71_class_history_independent (D : Dens K) (hD : D.Sound) (log : K → K) (m : Hmm K) (hm : m.Usable) (ys zs xs : List (List K))
    (hy : ∀ x ∈ ys, m.Fits x) (hz : ∀ x ∈ zs, m.Fits x) (hx : ∀ x ∈ xs, m.Fits x) (hne : xs ≠ []) :
    ∃ m0 p1 p2 m1 m2 r1 r2 qs t1 t2, reset m = .ret () m0 ∧ filterAll D log ys m0 = .ret p1 m1 ∧ filterAll D log zs m0 = .ret p2 m2 ∧
      reset m1 = .ret () r1 ∧ reset m2 = .ret () r2 ∧ filterAll D log xs r1 = .ret qs t1 ∧ filterAll D log xs r2 = .ret qs t2 ∧
      SameResults t1 t2 := by
  obtain ⟨bf, h1, h2⟩ := reset_ret m hm
  have hc := cleared_can m hm.can bf
  obtain ⟨b, hb⟩ := emits_exist D hD _ hc
  obtain ⟨v, c, hv⟩ : ∃ v c : List K → Nat → List K, (cleared m bf).bimodal = true → ∀ x, (cleared m bf).Fits x →
      Predicts D (cleared m bf) x (v x) (c x) := by
    rcases bool_cases (cleared m bf).bimodal with h | h
    · exact ⟨fun _ _ => [], fun _ _ => [], fun h' => absurd (h.symm.trans h') (by simp)⟩
    · obtain ⟨v, c, hv⟩ := predicts_exist D hD _ hc h
      exact ⟨v, c, fun _ => hv⟩
  have h0 := heard_nil log (cleared m bf) hc rfl h2 hm.alpha
  have key : ∀ ws : List (List K), (∀ x ∈ ws, m.Fits x) → ∃ p m1 bf1, filterAll D log ws (cleared m bf) = .ret p m1 ∧
      reset m1 = .ret () (cleared m1 bf1) ∧ Heard (cleared m bf) log [] [] (cleared m1 bf1) := by
    intro ws hws
    obtain ⟨p, m1, g1, g2, _⟩ := heard_all D log hc hm.flat b hb v c hv ws hws _ [] [] h0
    have hu : m1.Usable := ⟨g2.same.canFilter hc, by rw [g2.same.facts.2.2.2.2.2.1]; exact hm.flat, Logs.ok g2.logs,
      fun he => by rw [g2.same.facts.1]; exact g2.alen (Or.inr he)⟩
    obtain ⟨bf1, r1, r2⟩ := reset_ret m1 hu
    have hf : (cleared m1 bf1).started = false := rfl
    refine ⟨p, m1, bf1, g1, r1, ⟨cleared_same g2.same, rfl, rfl, fun h => g2.alen (Or.inr (h.resolve_left (by simp [hf]))), ?_,
      (fun h => absurd (hf.symm.trans h) (by simp)), (fun h => absurd (hf.symm.trans h) (by simp)), (fun p hp => absurd hp (by simp)),
      (fun T h => absurd h (by simp)), (fun T h => absurd h (by simp))⟩⟩
    rw [g2.same.facts.2.2.2.2.1] at r2; exact r2
  obtain ⟨p1, m1, b1, y1, y2, y3⟩ := key ys hy
  obtain ⟨p2, m2, b2, z1, z2, z3⟩ := key zs hz
  obtain ⟨qs, t1, t2, x1, x2, x3⟩ := run_det D log hc hm.flat b hb v c hv xs hx hne _ _ [] [] y3 z3
  exact ⟨_, p1, p2, m1, m2, _, _, qs, t1, t2, h1, y1, z1, y2, z2, x1, x2, x3⟩

/-- Non-vacuity for C41 to C43, C46, C47, C70 to C72: bimodal models with three states of two components each, ergodic or left-right,
    with any estimator, and the likelihoods of the code. -/
theorem usable_exists (e : Bool) (est : RegEst) : ∃ m : Hmm ℝ, m.Usable ∧ m.n = 3 ∧ m.ergodic = e ∧ m.est = est ∧ m.bimodal = true ∧ m.Fits [1] ∧
    m.Fits [4] ∧ Dens.real.Sound := by
  obtain ⟨g, g1, g2, g3, g4, g5, g6, g7, g8, g9, g10, g11⟩ := Gmm.usable_exists
  refine ⟨{
    n := 3, gaussians := 2, ergodic := e, est := est, absReg := 1 / 1000, relReg := 1 / 100, mode := .full, bimodal := true, dim := 2,
    di := 1, window := 4, sts := [g, g, g], prior := [1 / 2, 1 / 4, 1 / 4],
    trans := if e then [1 / 2, 1 / 4, 1 / 4, 0, 1, 0, 1 / 3, 1 / 3, 1 / 3] else [1 / 2, 1 / 2, 1 / 4, 3 / 4, 1, 0], alpha := [0, 0, 0],
    prevAlpha := [0, 0, 0], beta := [], prevBeta := [], alpha0 := [], alpha1 := [], alpha2 := [], exitP := [], hier := false,
    started := false, training := false, winMin := 0, winMax := 0, winNorm := 0, buf := CBuf.construct 0 1 4, instant := 0, logLik := 0,
    progress := 0, exitLik := 0, exitRatio := 0, likeliest := 0, outVals := [], outCov := [] },
    ⟨⟨⟨by simp, rfl, fun _ => rfl, by cases e <;> rfl, ?_⟩, ⟨?_, ?_, ?_, ?_⟩, rfl, by simp, ?_⟩, rfl, rfl, fun _ => rfl⟩, rfl, rfl, rfl, rfl,
    by simp [Hmm.Fits], by simp [Hmm.Fits], g7⟩
  · intro s hs
    have : s = g := by simpa using hs
    subst this
    exact ⟨g3, g8, g2, g9, g10⟩
  · intro i hi
    replace hi : i < 3 := hi
    cases e <;> interval_cases i <;> norm_num [start]
  · cases e <;> norm_num [start, Finset.sum_range_succ]
  · intro i hi j hj
    replace hi : i < 3 := hi
    replace hj : j < 3 := hj
    cases e <;> interval_cases i <;> interval_cases j <;> norm_num [step]
  · intro i hi
    replace hi : i < 3 := hi
    cases e <;> interval_cases i <;> norm_num [step, Finset.sum_range_succ]
  · intro s hs
    have : s = g := by simpa using hs
    subst this
    exact ⟨g1, _, _, g5⟩

end Hmm
end Xmm
