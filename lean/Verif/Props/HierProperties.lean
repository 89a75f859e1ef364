import Verif.Props.HierModel
set_option linter.unusedSimpArgs false
set_option linter.unusedSectionVars false
/- C39, C46, C48, C70, C71, C72, C74, C75: what a hierarchical model reports on streams of observations. -/
namespace Xmm
open Phrase (loop)
open Gauss (rd rd_lt resize)
open Prog (bind_def pure_def get_def set_def modify_def throw_def undef_def)

namespace HierHmm
variable {K : Type} [Field K] [LinearOrder K] [IsStrictOrderedRing K]
open HierSpec Hmm

theorem stream_last (D : Dens K) (hD : D.Sound) (log exp : K → K) (x : List K) (pre : List (List K)) : ∀ M : HierHmm K, M.Usable → M.models ≠ [] →
    (∀ y ∈ pre ++ [x], ∀ lc ∈ M.models, lc.2.Fits y) →
    ∃ ps Mp b v w M', filterAll D log exp pre M = .ret ps Mp ∧ ps.length = pre.length ∧ Streamed log exp M ps Mp ∧
      filter D log exp x Mp = .ret () M' ∧ Stepped log exp Mp b v w M' ∧ HierSpec.Emits D Mp x b ∧ HierSpec.Predicts D Mp x v w ∧
      (∀ c k, c < Mp.models.length → k < HierSpec.states Mp c → 0 < b c k) ∧
      filterAll D log exp (pre ++ [x]) M = .ret (ps ++ [M'.results.inst]) M' := by
  intro M hu hne hx
  obtain ⟨ps, Mp, h1, h2, h3⟩ := stream_ret D hD log exp pre M hu hne (fun y hy => hx y (List.mem_append_left _ hy))
  have hfx : ∀ lc ∈ Mp.models, lc.2.Fits x := fun lc hlc => by
    obtain ⟨c, a, e1, _, _, e2⟩ := h3.same.back hlc
    exact e2.fits (hx x (by simp) a (mem_of_get e1))
  have hnep : Mp.models ≠ [] := fun h0 => hne (List.eq_nil_of_length_eq_zero (by rw [← h3.same.1, h0]; rfl))
  obtain ⟨b, hb, hpos⟩ := emits_model D hD h3.usable.ready x hfx
  obtain ⟨v, w, hv⟩ := predicts_model D hD h3.usable.ready x hfx
  obtain ⟨M', g1, g2⟩ := filter_ret D log exp Mp h3.usable hnep x hfx b hb v w hv hpos
  refine ⟨ps, Mp, b, v, w, M', h1, h2, h3, g1, g2, hb, hv, hpos, ?_⟩
  have key : ∀ (pre : List (List K)) (M Mp : HierHmm K) (ps : List (List K)), filterAll D log exp pre M = .ret ps Mp →
      filter D log exp x Mp = .ret () M' → filterAll D log exp (pre ++ [x]) M = .ret (ps ++ [M'.results.inst]) M' := by
    intro pre
    induction pre with
    | nil =>
      intro M Mp ps h1 h2
      simp only [filterAll, pure_def] at h1
      cases h1
      simp only [List.nil_append]
      unfold filterAll filterAll
      rw [bind_of_ret h2, bind_of_ret (get_def _), bind_of_ret (pure_def _ _), pure_def]
    | cons y ys ih =>
      intro M Mp ps h1 h2
      simp only [List.cons_append]
      unfold filterAll at h1 ⊢
      cases hy : filter D log exp y M with
      | ub => rw [bind_def, hy] at h1; cases h1
      | throw e s => rw [bind_def, hy] at h1; cases h1
      | ret u M1 =>
        rw [bind_of_ret hy, bind_of_ret (get_def M1)] at h1 ⊢
        cases hr : filterAll D log exp ys M1 with
        | ub => rw [bind_def, hr] at h1; cases h1
        | throw e s => rw [bind_def, hr] at h1; cases h1
        | ret rs M2 =>
          rw [bind_of_ret hr, pure_def] at h1
          cases h1
          rw [bind_of_ret (ih M1 Mp rs hr h2), pure_def]
          rfl
  exact key pre M Mp ps h1 g1

theorem reset_fits {M M' : HierHmm K} (h : ∀ (c : Nat) (lc : String × Hmm K), M.models[c]? = some lc → ∃ m', M'.models[c]? = some (lc.1, m') ∧
    lc.2.SameClass m' ∧ Logs m'.buf m'.window [] ∧ m'.instant = lc.2.instant) (hl : M'.models.length = M.models.length) : SameClasses M M' :=
  ⟨hl, fun c lc hlc => by
    obtain ⟨m', h1, h2, _⟩ := h c lc hlc
    exact ⟨m', h1, h2⟩⟩

theorem SameClasses.fits {M M' : HierHmm K} (h : SameClasses M M') {x : List K} (hx : ∀ lc ∈ M.models, lc.2.Fits x) :
    ∀ lc ∈ M'.models, lc.2.Fits x := fun lc hlc => by
  obtain ⟨c, a, e1, _, _, e2⟩ := h.back hlc
  exact e2.fits (hx a (mem_of_get e1))

theorem SameClasses.ne {M M' : HierHmm K} (h : SameClasses M M') (hne : M.models ≠ []) : M'.models ≠ [] :=
  fun h0 => hne (List.eq_nil_of_length_eq_zero (by rw [← h.1, h0]; rfl))

theorem stale_zero {M : HierHmm K} (h : ∀ lc ∈ M.models, lc.2.ergodic = true → lc.2.instant = 0) : stale M = 0 := by
  refine Finset.sum_eq_zero fun c hc => ?_
  obtain ⟨a, ha⟩ := get_class (Finset.mem_range.1 hc)
  rw [ha]
  show (if a.2.ergodic = true then a.2.instant else 0) = 0
  split
  · exact h a (mem_of_get ha) (by assumption)
  · rfl

/-- `reset()` and a non-empty stream -/
theorem run_ret (D : Dens K) (hD : D.Sound) (log exp : K → K) (M : HierHmm K) (hM : M.Trained) (hne : M.models ≠ []) (xs : List (List K))
    (hx : ∀ x ∈ xs, ∀ lc ∈ M.models, lc.2.Fits x) :
    ∃ M0 rs M', reset M = .ret () M0 ∧ M0.Usable ∧ M0.started = false ∧ SameClasses M M0 ∧
      (∀ (c : Nat) (lc lc' : String × Hmm K), M.models[c]? = some lc → M0.models[c]? = some lc' → Logs lc'.2.buf lc'.2.window [] ∧
        lc'.2.instant = lc.2.instant) ∧
      M0 = { M with models := M0.models, results := M0.results, front1 := M0.front1, front2 := M0.front2, started := false } ∧
      filterAll D log exp xs M0 = .ret rs M' ∧ rs.length = xs.length ∧ Streamed log exp M0 rs M' := by
  obtain ⟨M0, h1, h2, h3, h4, h5, h6⟩ := reset_ret M hM
  have hs := reset_fits h6 h5
  obtain ⟨rs, M', g1, g2, g3⟩ := stream_ret D hD log exp xs M0 h2 (hs.ne hne) (fun x hx' => hs.fits (hx x hx'))
  refine ⟨M0, rs, M', h1, h2, h3, hs, fun c lc lc' hlc hlc' => ?_, h4, g1, g2, g3⟩
  obtain ⟨m', e1, _, e3, e4⟩ := h6 c lc hlc
  rw [hlc'] at e1
  cases e1
  exact ⟨e3, e4⟩

/-- C48: after `reset()` and a stream of observations, the forward variables of all classes are non-negative and sum to 1, if there are two
    observations or more, or no ergodic class has kept a likelihood from before `reset()`.  (Missing: the first observation for
    an ergodic class, see `C48_ergodic_violated`.) -/
theorem C48_distribution_partial (D : Dens K) (hD : D.Sound) (log exp : K → K) (M : HierHmm K) (hM : M.Trained) (hne : M.models ≠ [])
    (xs : List (List K)) (hxs : xs ≠ []) (hx : ∀ x ∈ xs, ∀ lc ∈ M.models, lc.2.Fits x)
    (h : 2 ≤ xs.length ∨ ∀ lc ∈ M.models, lc.2.ergodic = true → lc.2.instant = 0) :
    ∃ M0 rs M', reset M = .ret () M0 ∧ filterAll D log exp xs M0 = .ret rs M' ∧ Distribution M' := by
  obtain ⟨M0, rs, M', h1, h2, h3, h4, h5, h6, h7, h8, h9⟩ := run_ret D hD log exp M hM hne xs hx
  have hrs : rs ≠ [] := fun h0 => hxs (List.eq_nil_of_length_eq_zero (by rw [← h8, h0]; rfl))
  refine ⟨M0, rs, M', h1, h7, h9.distribution hrs ?_⟩
  rcases h with h | h
  · exact Or.inl (by omega)
  · refine Or.inr (Or.inr (stale_zero fun lc hlc he => ?_))
    obtain ⟨c, a, e1, e2, _, e3⟩ := h4.back hlc
    rw [(h5 c a lc e1 e2).2]
    exact h a (mem_of_get e1) (e3.facts.2.1 ▸ he)

/-- C48 is violated by the first observation after `reset()` in a model that has already been used and has an ergodic class: the forward variables
    sum to less than 1. -/
theorem C48_ergodic_violated (D : Dens K) (hD : D.Sound) (log exp : K → K) (M : HierHmm K) (hM : M.Trained) (lc : String × Hmm K)
    (hlc : lc ∈ M.models) (he : lc.2.ergodic = true) (xs : List (List K)) (hxs : xs ≠ []) (y : List K)
    (hx : ∀ x ∈ xs, ∀ lc ∈ M.models, lc.2.Fits x) (hy : ∀ lc ∈ M.models, lc.2.Fits y) :
    ∃ M0 rs M1 M2 M', reset M = .ret () M0 ∧ filterAll D log exp xs M0 = .ret rs M1 ∧ reset M1 = .ret () M2 ∧
      filter D log exp y M2 = .ret () M' ∧ mass M' < 1 := by
  have hne : M.models ≠ [] := by rintro h; rw [h] at hlc; simp at hlc
  obtain ⟨M0, rs, M1, h1, h2, h3, h4, h5, h6, h7, h8, h9⟩ := run_ret D hD log exp M hM hne xs hx
  have hrs : rs ≠ [] := fun h0 => hxs (List.eq_nil_of_length_eq_zero (by rw [← h8, h0]; rfl))
  have hpos := (h9.summary hrs).2.2.1
  have hne1 := h9.same.ne (h4.ne hne)
  obtain ⟨M2, _, _, g1, g2, g3, g4, g5, _, _, _, _⟩ := run_ret D hD log exp M1 h9.usable.trained hne1 [] (by simp)
  obtain ⟨ps, Mp, b, v, w, M', k1, k2, k3, k4, k5, k6, k7, k8, _⟩ := stream_last D hD log exp y [] M2 g2 (g4.ne hne1)
    (fun y' hy' => by
      have : y' = y := by simpa using hy'
      rw [this]
      exact g4.fits (h9.same.fits (h4.fits hy)))
  simp only [filterAll, pure_def] at k1
  cases k1
  refine ⟨M0, rs, M1, M2, M', h1, h7, g1, k4, ?_⟩
  rw [k5.mass g2, (first_distribution g2 g3 (g4.ne hne1) k8).2]
  have hE := evidence0_pos g2 (g4.ne hne1) k8
  have hS : 0 < stale M2 := by
    obtain ⟨c, hc, rfl⟩ := List.getElem_of_mem hlc
    obtain ⟨a, ha⟩ := get_class hc
    rw [List.getElem?_eq_getElem hc] at ha
    have hcs : c < M2.models.length := by rw [g4.1, h9.same.1, h4.1]; exact hc
    refine Finset.sum_pos' (fun c' hc' => ?_) ⟨c, Finset.mem_range.2 hcs, ?_⟩
    · obtain ⟨q, hq⟩ := get_class (Finset.mem_range.1 hc')
      rw [hq]
      show 0 ≤ if q.2.ergodic = true then q.2.instant else 0
      split
      · exact g2.instant q (mem_of_get hq) (by assumption)
      · exact le_rfl
    · obtain ⟨m0, e1, e2⟩ := h4.2 c _ (List.getElem?_eq_getElem hc)
      obtain ⟨m1, e3, e4⟩ := h9.same.2 c _ e1
      obtain ⟨m2, e5, e6⟩ := g4.2 c _ e3
      rw [e5]
      show 0 < if m2.ergodic = true then m2.instant else 0
      rw [if_pos (by rw [e6.facts.2.1, e4.facts.2.1, e2.facts.2.1]; exact he), (g5 c _ _ e3 e5).2]
      exact hpos _ (mem_of_get e3)
  rw [div_lt_one (by linarith)]
  linarith

/-- C39 for hierarchical models: the normalised likelihoods are distributions, the likeliest class is the first with the greatest smoothed
    log-likelihood, the output is that of the likeliest class or the mixture. -/
theorem C39_hierarchical (D : Dens K) (hD : D.Sound) (log exp : K → K) (hexp : ∀ x, 0 < exp x) (M : HierHmm K) (hM : M.Trained)
    (hne : M.models ≠ []) (xs : List (List K)) (hxs : xs ≠ []) (hx : ∀ x ∈ xs, ∀ lc ∈ M.models, lc.2.Fits x) :
    ∃ M0 rs M', reset M = .ret () M0 ∧ filterAll D log exp xs M0 = .ret rs M' ∧ M'.results.Summary exp M'.classes ∧
      M'.classes.map Prod.fst = M.models.map Prod.fst ∧ IsDistribution M'.results.instNorm ∧ IsDistribution M'.results.smoothedNorm ∧
      M'.results.instNorm.length = M.models.length ∧ M'.results.smoothedNorm.length = M.models.length ∧
      (M.bimodal = true → M'.OutputsOf) := by
  obtain ⟨M0, rs, M', h1, h2, h3, h4, h5, h6, h7, h8, h9⟩ := run_ret D hD log exp M hM hne xs hx
  have hrs : rs ≠ [] := fun h0 => hxs (List.eq_nil_of_length_eq_zero (by rw [← h8, h0]; rfl))
  obtain ⟨s1, s2, s3, _⟩ := h9.summary hrs
  have hne' := h9.same.ne (h4.ne hne)
  obtain ⟨d1, d2, d3, d4⟩ := C39_normalised exp hexp M'.classes (fun h => hne' (List.map_eq_nil_iff.1 h)) (fun c hc => by
    obtain ⟨lc, hlc, rfl⟩ := List.mem_map.1 hc
    exact s3 lc hlc) M'.results s1
  have hl : M'.classes.length = M.models.length := by simp [classes, h9.same.1, h4.1]
  refine ⟨M0, rs, M', h1, h7, s1, ?_, d1, d2, d3.trans hl, d4.trans hl, fun hb => s2 (by rw [h6]; exact hb)⟩
  rw [← h4.keys, ← h9.same.keys]
  simp [classes, Function.comp_def]

/-- C70 for hierarchical models: the smoothed log-likelihood of each class is the average of the logs of its last instantaneous likelihoods, those
    that were reported. -/
theorem C70_hierarchical (D : Dens K) (hD : D.Sound) (log exp : K → K) (M : HierHmm K) (hM : M.Trained) (hne : M.models ≠ [])
    (xs : List (List K)) (hxs : xs ≠ []) (hx : ∀ x ∈ xs, ∀ lc ∈ M.models, lc.2.Fits x) :
    ∃ M0 rs M', reset M = .ret () M0 ∧ filterAll D log exp xs M0 = .ret rs M' ∧ rs.length = xs.length ∧
      ∀ (c : Nat) (lc : String × Hmm K), M.models[c]? = some lc →
        M'.results.smoothedLog.getD c 0 = RecSpec.avgLast lc.2.window (rs.map fun r => log (r.getD c 0)) := by
  obtain ⟨M0, rs, M', h1, h2, h3, h4, h5, h6, h7, h8, h9⟩ := run_ret D hD log exp M hM hne xs hx
  have hrs : rs ≠ [] := fun h0 => hxs (List.eq_nil_of_length_eq_zero (by rw [← h8, h0]; rfl))
  refine ⟨M0, rs, M', h1, h7, h8, fun c lc hlc => ?_⟩
  obtain ⟨m0, e1, e2⟩ := h4.2 c lc hlc
  obtain ⟨m', f1, _, f3⟩ := h9.logs c _ e1 [] (h5 c _ _ hlc e1).1
  have hs := (h9.summary hrs).1.smoothedLog
  have : M'.results.smoothedLog.getD c 0 = m'.logLik := by
    rw [hs]
    simp [classes, List.getD_eq_getElem?_getD, f1, Hmm.results]
  rw [this, f3 hrs, List.nil_append, e2.facts.2.2.2.2.1]

/-- C71 for hierarchical models without ergodic classes: `reset()`, any stream, `reset()` and a non-empty stream `xs`: the likelihoods that are
    reported for `xs` and the results do not depend on the first stream.  (For ergodic classes see `C71_ergodic_violated`.) -/
theorem C71_hierarchical_partial (D : Dens K) (hD : D.Sound) (log exp : K → K) (M : HierHmm K) (hM : M.Trained) (hne : M.models ≠ [])
    (herg : ∀ lc ∈ M.models, lc.2.ergodic = false) (ys zs xs : List (List K)) (hxs : xs ≠ [])
    (hy : ∀ x ∈ ys, ∀ lc ∈ M.models, lc.2.Fits x) (hz : ∀ x ∈ zs, ∀ lc ∈ M.models, lc.2.Fits x) (hx : ∀ x ∈ xs, ∀ lc ∈ M.models, lc.2.Fits x) :
    ∃ M0 p1 p2 A B A0 B0 rs A' B', reset M = .ret () M0 ∧ filterAll D log exp ys M0 = .ret p1 A ∧ filterAll D log exp zs M0 = .ret p2 B ∧
      reset A = .ret () A0 ∧ reset B = .ret () B0 ∧ filterAll D log exp xs A0 = .ret rs A' ∧ filterAll D log exp xs B0 = .ret rs B' ∧
      SameResults A' B' := by
  obtain ⟨M0, p1, A, h1, h2, h3, h4, h5, h6, h7, h8, h9⟩ := run_ret D hD log exp M hM hne ys hy
  obtain ⟨M0', p2, B, i1, _, _, _, _, _, i7, i8, i9⟩ := run_ret D hD log exp M hM hne zs hz
  rw [h1] at i1
  cases i1
  have hneA := h9.same.ne (h4.ne hne)
  have hneB := i9.same.ne (h4.ne hne)
  obtain ⟨A0, _, _, a1, a2, a3, a4, a5, a6, _⟩ := run_ret D hD log exp A h9.usable.trained hneA [] (by simp)
  obtain ⟨B0, _, _, b1, b2, b3, b4, b5, b6, _⟩ := run_ret D hD log exp B i9.usable.trained hneB [] (by simp)
  have hsame : SameClasses A0 B0 := by
    refine ⟨by rw [a4.1, b4.1, h9.same.1, i9.same.1], fun c p hp => ?_⟩
    obtain ⟨a, ha⟩ := get_class (M := M0) (c := c) (by rw [← h9.same.1, ← a4.1]; exact lt_of_get hp)
    obtain ⟨m1, e1, e2⟩ := h9.same.2 c a ha
    obtain ⟨m2, e3, e4⟩ := a4.2 c _ e1
    obtain ⟨n1, f1, f2⟩ := i9.same.2 c a ha
    obtain ⟨n2, f3, f4⟩ := b4.2 c _ f1
    rw [hp] at e3
    cases e3
    have hc := (h2.ready.cls a (mem_of_get ha)).1.can
    exact ⟨n2, f3, (SameClass.symm (e2.trans e4) hc).trans (f2.trans f4)⟩
  have hkeep : B0 = { A0 with models := B0.models, results := B0.results, front1 := B0.front1, front2 := B0.front2 } := by
    have t1 := b6
    rw [i9.keep] at t1
    have t2 := a6
    rw [h9.keep] at t2
    rw [t1, t2]
  have halike : Alike A0 B0 := by
    refine ⟨hkeep, hsame, fun c p q hp hq => ?_, fun h => absurd (a3.symm.trans h) (by simp), fun _ c p q hp hq he => ?_⟩
    · obtain ⟨a, ha⟩ := get_class (M := A) (c := c) (by rw [← a4.1]; exact lt_of_get hp)
      obtain ⟨a', ha'⟩ := get_class (M := B) (c := c) (by rw [← b4.1]; exact lt_of_get hq)
      exact ⟨[], (a5 c a p ha hp).1, (b5 c a' q ha' hq).1⟩
    · obtain ⟨a, ha⟩ := get_class (M := M) (c := c) (by rw [← h4.1, ← h9.same.1, ← a4.1]; exact lt_of_get hp)
      obtain ⟨m0, e1, e2⟩ := h4.2 c a ha
      obtain ⟨m1, e3, e4⟩ := h9.same.2 c _ e1
      obtain ⟨m2, e5, e6⟩ := a4.2 c _ e3
      rw [hp] at e5
      cases e5
      have := herg a (mem_of_get ha)
      rw [← e2.facts.2.1, ← e4.facts.2.1, ← e6.facts.2.1, he] at this
      cases this
  obtain ⟨rs, A', B', r1, r2, r3⟩ := run_alike D hD log exp xs hxs A0 B0 a2 b2 halike (a4.ne hneA)
    (fun x hx' => a4.fits (h9.same.fits (h4.fits (hx x hx'))))
  exact ⟨M0, p1, p2, A, B, A0, B0, rs, A', B', h1, h7, i7, a1, b1, r1, r2, r3⟩

/-- C71 is violated by ergodic classes of a hierarchical model: the same observation, twice, with `reset()` before each: the second
    instantaneous likelihood is greater than the first. -/
theorem C71_ergodic_violated (D : Dens K) (hD : D.Sound) (log exp : K → K) (M : HierHmm K) (hM : M.Trained) (c : Nat) (lc : String × Hmm K)
    (hlc : M.models[c]? = some lc) (he : lc.2.ergodic = true) (x : List K) (hx : ∀ lc ∈ M.models, lc.2.Fits x) :
    ∃ M0 r1 M1 M2 r2 M', reset M = .ret () M0 ∧ filterAll D log exp [x] M0 = .ret [r1] M1 ∧ reset M1 = .ret () M2 ∧
      filterAll D log exp [x] M2 = .ret [r2] M' ∧ r1.getD c 0 < r2.getD c 0 := by
  have hne : M.models ≠ [] := by rintro h; rw [h] at hlc; simp at hlc
  obtain ⟨M0, _, _, h1, h2, h3, h4, h5, h6, _⟩ := run_ret D hD log exp M hM hne [] (by simp)
  have hx1 : ∀ lc ∈ M0.models, lc.2.Fits x := h4.fits hx
  obtain ⟨_, _, b, v, w, M1, k1, k2, k3, k4, k5, k6, k7, k8, k9⟩ := stream_last D hD log exp x [] M0 h2 (h4.ne hne) (fun y hy => by
    have : y = x := by simpa using hy
    rw [this]; exact hx1)
  simp only [filterAll, pure_def] at k1
  cases k1
  have hs1 := k5.sameClasses h2
  have hne1 := hs1.ne (h4.ne hne)
  obtain ⟨M2, _, _, g1, g2, g3, g4, g5, g6, _⟩ := run_ret D hD log exp M1 k5.usable.trained hne1 [] (by simp)
  have hb2 : HierSpec.Emits D M2 x b := fun c' q hq => by
    obtain ⟨a, ha⟩ := get_class (M := M0) (c := c') (by rw [← hs1.1, ← g4.1]; exact lt_of_get hq)
    obtain ⟨m1, e1, e2⟩ := hs1.2 c' a ha
    obtain ⟨m2, e3, e4⟩ := g4.2 c' _ e1
    rw [hq] at e3
    cases e3
    exact (e2.trans e4).emits (k6 c' a ha)
  have hbi : M2.bimodal = M0.bimodal := by rw [g6, k5.keep]
  have hv2 : HierSpec.Predicts D M2 x v w := fun hb c' q hq => by
    obtain ⟨a, ha⟩ := get_class (M := M0) (c := c') (by rw [← hs1.1, ← g4.1]; exact lt_of_get hq)
    obtain ⟨m1, e1, e2⟩ := hs1.2 c' a ha
    obtain ⟨m2, e3, e4⟩ := g4.2 c' _ e1
    rw [hq] at e3
    cases e3
    exact (e2.trans e4).predicts (k7 (hbi ▸ hb) c' a ha)
  obtain ⟨M', f1, f2⟩ := filter_ret D log exp M2 g2 (g4.ne hne1) x (g4.fits (hs1.fits hx1)) b hb2 v w hv2
    (fun c' k hc hk => k8 c' k (by rw [← hs1.1, ← g4.1]; exact hc) (by rw [← hs1.states, ← g4.states]; exact hk))
  refine ⟨M0, M1.results.inst, M1, M2, M'.results.inst, M', h1, by simpa using k9, g1, ?_, ?_⟩
  · unfold filterAll filterAll
    rw [bind_of_ret f1, bind_of_ret (get_def _), bind_of_ret (pure_def _ _), pure_def]
  obtain ⟨m0, e1, e2⟩ := h4.2 c lc hlc
  obtain ⟨m1, e3, e4, e5⟩ := k5.cls c _ e1
  obtain ⟨m2, e6, e7⟩ := g4.2 c _ e3
  obtain ⟨m', e8, e9, _⟩ := f2.cls c _ e6
  have r1 : M1.results.inst.getD c 0 = m1.instant := by
    rw [k5.summary.inst]; simp [classes, List.getD_eq_getElem?_getD, e3, Hmm.results]
  have r2 : M'.results.inst.getD c 0 = m'.instant := by
    rw [f2.summary.inst]; simp [classes, List.getD_eq_getElem?_getD, e8, Hmm.results]
  rw [r1, r2]
  have hi : m2.instant = m1.instant := (g5 c _ _ e3 e6).2
  have he0 : m0.ergodic = true := by rw [e2.facts.2.1]; exact he
  have hcl1 := e4.sameClass (h2.ready.cls _ (mem_of_get e1)).1.can (h2.buf _ (mem_of_get e1))
  have he2 : m2.ergodic = true := by rw [e7.facts.2.1, hcl1.facts.2.1]; exact he0
  rw [(e9.reportedFields (g2.buf _ (mem_of_get e6)) 0 0).2.1]
  unfold heardClass
  rw [if_neg (by simp [g3])]
  simp only [divided, begun, he2, if_true]
  rw [hi]
  obtain ⟨k, hk, hk0⟩ := class_first g2 (lt_of_get e6) (fun c' k hc hk => k8 c' k (by rw [← hs1.1, ← g4.1]; exact hc) (by rw [← hs1.states, ← g4.states]; exact hk))
  have hj : ∀ k < m2.n, 0 ≤ b c k * HierSpec.first m2 (M2.prior.getD c 0) k := fun k hk => by
    have := first_nonneg g2 (fun c' k hc hk => k8 c' k (by rw [← hs1.1, ← g4.1]; exact hc) (by rw [← hs1.states, ← g4.states]; exact hk)) c k
      (by rw [states_of e6]; exact hk)
    simpa [joint0, e6] using this
  rw [states_of e6] at hk
  have hsum : 0 < ∑ k ∈ Finset.range m2.n, b c k * HierSpec.first m2 (M2.prior.getD c 0) k :=
    Finset.sum_pos' (fun k hk => hj k (Finset.mem_range.1 hk)) ⟨k, Finset.mem_range.2 hk, by simpa [joint0, e6] using hk0⟩
  linarith

/-- C74: the forward recursion.  After `reset()`, the forward variables follow from those before the observation as in `first3` (first
    observation) and `next3` (all others), the reported instantaneous likelihoods are the sums of the joint weights of the states of the class. -/
theorem C74_forward_recursion (D : Dens K) (hD : D.Sound) (log exp : K → K) (M : HierHmm K) (hM : M.Trained) (hne : M.models ≠ [])
    (pre : List (List K)) (x : List K) (hx : ∀ y ∈ pre ++ [x], ∀ lc ∈ M.models, lc.2.Fits y) :
    ∃ M0 ps Mp b M', reset M = .ret () M0 ∧ filterAll D log exp pre M0 = .ret ps Mp ∧ filter D log exp x Mp = .ret () M' ∧ HierSpec.Emits D Mp x b ∧
      SameClasses M Mp ∧
      (∀ e c k, c < M.models.length → k < states M c → HierSpec.alpha M' e c k = if pre = [] then first3 Mp b e c k else next3 Mp b e c k) ∧
      (∀ c < M.models.length, M'.results.inst.getD c 0 = if pre = [] then
          (Mp.models[c]?.map fun lc => if lc.2.ergodic then lc.2.instant else 0).getD 0 + ∑ k ∈ Finset.range (states M c), joint0 Mp b c k
        else ∑ k ∈ Finset.range (states M c), joint Mp b c k) := by
  obtain ⟨M0, _, _, h1, h2, h3, h4, h5, h6, _⟩ := run_ret D hD log exp M hM hne [] (by simp)
  obtain ⟨ps, Mp, b, v, w, M', k1, k2, k3, k4, k5, k6, k7, k8, k9⟩ := stream_last D hD log exp x pre M0 h2 (h4.ne hne)
    (fun y hy => h4.fits (hx y hy))
  have hsame : SameClasses M Mp := ⟨k3.same.1.trans h4.1, fun c lc hlc => by
    obtain ⟨m0, e1, e2⟩ := h4.2 c lc hlc
    obtain ⟨m1, e3, e4⟩ := k3.same.2 c _ e1
    exact ⟨m1, e3, e2.trans e4⟩⟩
  have hst : Mp.started = true ↔ pre ≠ [] := by
    constructor
    · rintro h rfl
      simp only [filterAll, pure_def] at k1
      cases k1
      rw [h3] at h; cases h
    · intro h
      exact (k3.summary (fun h0 => h (List.eq_nil_of_length_eq_zero (by rw [← k2, h0]; rfl)))).2.2.2
  have hinst : ∀ (c : Nat) (q : String × Hmm K), Mp.models[c]? = some q → M'.results.inst.getD c 0 = (heardClass Mp b c q.2).instant := by
    intro c q hq
    obtain ⟨m', e1, e2, _⟩ := k5.cls c q hq
    rw [k5.summary.inst, ← (e2.reportedFields (k3.usable.buf q (mem_of_get hq)) 0 0).2.1]
    simp [classes, List.getD_eq_getElem?_getD, e1, Hmm.results]
  refine ⟨M0, ps, Mp, b, M', h1, k1, k4, k6, hsame, fun e c k hc hk => ?_, fun c hc => ?_⟩
  · rw [k5.alpha]
    by_cases hp : pre = []
    · rw [if_pos hp]
      exact heard_first (by rcases bool_cases Mp.started with h | h; exacts [h, absurd hp (hst.1 h)]) b e c k (by rw [hsame.1]; exact hc)
        (by rw [hsame.states]; exact hk)
    · rw [if_neg hp]
      exact heard_next (hst.2 hp) b e c k (by rw [hsame.1]; exact hc) (by rw [hsame.states]; exact hk)
  · obtain ⟨q, hq⟩ := get_class (M := Mp) (c := c) (by rw [hsame.1]; exact hc)
    rw [hinst c q hq, ← hsame.states, states_of hq]
    unfold heardClass
    by_cases hp : pre = []
    · have : Mp.started = false := by rcases bool_cases Mp.started with h | h; exacts [h, absurd hp (hst.1 h)]
      rw [if_pos hp, if_neg (by simp [this]), hq]
      simp [divided, begun, joint0, hq]
    · rw [if_neg hp, if_pos (hst.2 hp)]
      simp [divided, updated, joint, hq]

end HierHmm
end Xmm
