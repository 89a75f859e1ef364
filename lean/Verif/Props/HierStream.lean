import Verif.Props.HierFilter
set_option linter.unusedSimpArgs false
set_option linter.unusedSectionVars false
/- C48: `filter` and streams of observations in a hierarchical model. -/
namespace Xmm
open Phrase (loop)
open Gauss (rd rd_lt)
open Prog (bind_def pure_def get_def set_def modify_def throw_def undef_def)
namespace HierHmm
variable {K : Type} [Field K] [LinearOrder K] [IsStrictOrderedRing K]
open HierSpec Hmm

theorem heard_alive {M : HierHmm K} (hu : M.Usable) (hne : M.models ≠ []) {b : Nat → Nat → K}
    (hb : ∀ c k, c < M.models.length → k < states M c → 0 < b c k) :
    (∀ e c k, 0 ≤ HierSpec.alpha (heard M b) e c k) ∧ (∀ c < M.models.length, 0 < leaving (heard M b) 0 c) ∧
      ∀ (c : Nat) (lc : String × Hmm K), M.models[c]? = some lc → 0 < (heardClass M b c lc.2).instant := by
  have hst : ∀ c, c < M.models.length → states (heard M b) c = states M c := by
    intro c hc
    obtain ⟨lc, hlc⟩ := get_class hc
    rw [states_of hlc, states_of (heard_get hlc)]
    exact (heardClass_same M b c lc.2 (hu.ready.cls lc (mem_of_get hlc)).1.can).facts.1
  rcases bool_cases M.started with hs | hs
  · have h1 := (first_distribution hu hs hne hb).1
    have hz : 0 < evidence0 M b + stale M := add_pos_of_pos_of_nonneg (evidence0_pos hu hne hb) (stale_nonneg hu)
    refine ⟨h1, fun c hc => ?_, fun c lc hlc => ?_⟩
    · obtain ⟨k, hk, hk0⟩ := class_first hu hc hb
      unfold leaving
      rw [hst c hc]
      refine Finset.sum_pos' (fun k _ => h1 0 c k) ⟨k, Finset.mem_range.2 hk, ?_⟩
      rw [heard_first hs b 0 c k hc hk]
      exact div_pos hk0 hz
    · obtain ⟨k, hk, hk0⟩ := class_first hu (lt_of_get hlc) hb
      unfold heardClass
      rw [if_neg (by simp [hs])]
      simp only [divided, begun]
      have hsum : 0 < ∑ k ∈ Finset.range lc.2.n, b c k * first lc.2 (M.prior.getD c 0) k := by
        have hj : ∀ k < lc.2.n, 0 ≤ b c k * first lc.2 (M.prior.getD c 0) k := fun k hk => by
          have := first_nonneg hu hb c k (by rw [states_of hlc]; exact hk)
          simpa [joint0, hlc] using this
        rw [states_of hlc] at hk
        exact Finset.sum_pos' (fun k hk => hj k (Finset.mem_range.1 hk)) ⟨k, Finset.mem_range.2 hk, by simpa [joint0, hlc] using hk0⟩
      refine add_pos_of_nonneg_of_pos ?_ hsum
      split
      · exact hu.instant lc (mem_of_get hlc) (by assumption)
      · exact le_rfl
  · obtain ⟨_, hn, hm⟩ := hu.alpha hs
    have h1 := (next_distribution hu hs hne hb).nonneg
    have hz := evidence_pos hu.ready hn (mass_pos hn hne hm) hb
    refine ⟨h1, fun c hc => ?_, fun c lc hlc => ?_⟩
    · obtain ⟨k, hk, hk0⟩ := class_evidence hu.ready hn hc (hm c hc) hb
      unfold leaving
      rw [hst c hc]
      refine Finset.sum_pos' (fun k _ => h1 0 c k) ⟨k, Finset.mem_range.2 hk, ?_⟩
      rw [heard_next hs b 0 c k hc hk]
      exact mul_pos (sub_pos.2 (exitOf_bounds hu.ready c k hk).2) (div_pos hk0 hz)
    · obtain ⟨k, hk, hk0⟩ := class_evidence hu.ready hn (lt_of_get hlc) (hm c (lt_of_get hlc)) hb
      unfold heardClass
      rw [if_pos hs]
      simp only [divided, updated]
      have hj : ∀ k < lc.2.n, 0 ≤ b c k * predicted lc.2 (entering M c) k := fun k hk => by
        have := joint_nonneg hu.ready hn (fun c k hc hk => (hb c k hc hk).le) c k (by rw [states_of hlc]; exact hk)
        simpa [joint, hlc] using this
      rw [states_of hlc] at hk
      exact Finset.sum_pos' (fun k hk => hj k (Finset.mem_range.1 hk)) ⟨k, Finset.mem_range.2 hk, by simpa [joint, hlc] using hk0⟩

/-- The effect of `filter(x)` on a hierarchical model, when `b c k` is the likelihood of `x` in state `k` of class `c`, `v c k` the output
    it predicts and `w c k` the covariance of that output. -/
structure Stepped (log exp : K → K) (M : HierHmm K) (b : Nat → Nat → K) (v w : Nat → Nat → List K) (M' : HierHmm K) : Prop where
  keep : M' = { M with models := M'.models, results := M'.results, front1 := M'.front1, front2 := M'.front2, started := true }
  len : M'.models.length = M.models.length
  cls : ∀ (c : Nat) (lc : String × Hmm K), M.models[c]? = some lc →
    ∃ m', M'.models[c]? = some (lc.1, m') ∧ ClassStep log M b v w c lc.2 m' ∧ 0 < m'.instant
  alpha : ∀ e c k, HierSpec.alpha M' e c k = HierSpec.alpha (heard M b) e c k
  usable : M'.Usable
  summary : M'.results.Summary exp M'.classes
  outputs : M.bimodal = true → M'.OutputsOf

theorem ClassStep.reportedFields {log : K → K} {M : HierHmm K} {b : Nat → Nat → K} {v w : Nat → Nat → List K} {c : Nat} {m m' : Hmm K}
    (h : ClassStep log M b v w c m m') (hl : ∃ hist, Logs m.buf m.window hist) (e k : Nat) :
    (m'.alphaOf e).getD k 0 = ((heardClass M b c m).alphaOf e).getD k 0 ∧
    m'.instant = (heardClass M b c m).instant ∧ m'.alpha0.length = (heardClass M b c m).alpha0.length ∧
    m'.alpha1.length = (heardClass M b c m).alpha1.length ∧ m'.alpha2.length = (heardClass M b c m).alpha2.length ∧
    (∃ hist, Logs m'.buf m'.window hist) ∧ m'.n = (heardClass M b c m).n := by
  obtain ⟨hist, hl⟩ := hl
  obtain ⟨h1, h2⟩ := h hist hl
  have e1 := h1.same
  refine ⟨?_, ?_, ?_, ?_, ?_, ⟨_, h2⟩, ?_⟩
  · match e with
    | 0 => simp only [alphaOf]; rw [e1]
    | 1 => simp only [alphaOf]; rw [e1]
    | _ + 2 => simp only [alphaOf]; rw [e1]
  · rw [e1]
  · rw [e1]
  · rw [e1]
  · rw [e1]
  · rw [e1]

theorem onResults_ret {α : Type} {f : Prog (MultiRes K) α} {M : HierHmm K} {a : α} {r : MultiRes K} (h : f M.results = .ret a r) :
    onResults f M = .ret a { M with results := r } := by
  simp only [onResults, h]

/-- the results of a model depend on the labels and likelihoods of its classes only -/
theorem summary_congr {exp : K → K} (cls cls' : List (String × ClassRes K)) (r : MultiRes K) (he : (cls.map fun c => (c.1, c.2.instant, c.2.logLik)) =
    (cls'.map fun c => (c.1, c.2.instant, c.2.logLik))) (h : r.Summary exp cls) : r.Summary exp cls' := by
  have m1 : ∀ (f : String × K × K → K), (cls.map fun c => f (c.1, c.2.instant, c.2.logLik)) = cls'.map fun c => f (c.1, c.2.instant, c.2.logLik) := by
    intro f
    have := congrArg (List.map f) he
    rwa [List.map_map, List.map_map] at this
  have i1 := m1 fun p => p.2.1
  have i2 := m1 fun p => p.2.2
  have i3 := m1 fun p => exp p.2.2
  simp only at i1 i2 i3
  refine ⟨h.inst.trans i1, h.smoothedLog.trans i2, h.smoothed.trans i3, ?_, ?_, fun hne' => ?_⟩
  · rw [h.instNorm, i1]
    exact m1 fun p => p.2.1 / _
  · rw [h.smoothedNorm, i3]
    exact m1 fun p => exp p.2.2 / _
  · have hne2 : cls ≠ [] := by rintro rfl; simp at he; exact hne' he
    obtain ⟨before, c, after, e1, e2, e3, e4⟩ := h.likeliest hne2
    rw [e1, List.map_append, List.map_cons] at he
    obtain ⟨before', rest, f1, f2, f3⟩ := List.map_eq_append_iff.1 he.symm
    obtain ⟨c', after', g1, g2, g3⟩ := List.map_eq_cons_iff.1 f3
    simp only [Prod.mk.injEq] at g2
    refine ⟨before', c', after', by rw [f1, g1], by rw [e2, g2.1], fun y hy => ?_, fun y hy => ?_⟩
    · have : (y.1, y.2.instant, y.2.logLik) ∈ before.map fun c => (c.1, c.2.instant, c.2.logLik) := by
        rw [← f2]; exact List.mem_map.2 ⟨y, hy, rfl⟩
      obtain ⟨z, hz, hz'⟩ := List.mem_map.1 this
      simp only [Prod.mk.injEq] at hz'
      rw [← hz'.2.2, g2.2.2]; exact e3 z hz
    · have : (y.1, y.2.instant, y.2.logLik) ∈ after.map fun c => (c.1, c.2.instant, c.2.logLik) := by
        rw [← g3]; exact List.mem_map.2 ⟨y, hy, rfl⟩
      obtain ⟨z, hz, hz'⟩ := List.mem_map.1 this
      simp only [Prod.mk.injEq] at hz'
      rw [← hz'.2.2, g2.2.2]; exact e4 z hz

theorem filter_ret (D : Dens K) (log exp : K → K) (M : HierHmm K) (hu : M.Usable) (hne : M.models ≠ []) (x : List K)
    (hx : ∀ lc ∈ M.models, lc.2.Fits x) (b : Nat → Nat → K) (hb : HierSpec.Emits D M x b)
    (v w : Nat → Nat → List K) (hv : HierSpec.Predicts D M x v w)
    (hpos : ∀ c k, c < M.models.length → k < states M c → 0 < b c k) :
    ∃ M', filter D log exp x M = .ret () M' ∧ Stepped log exp M b v w M' := by
  obtain ⟨l1, l2, k1, k2, k3, k4, k5, k6⟩ := classes_ret D log M hu x hx b v w hv
  obtain ⟨a1, a2, a3⟩ := heard_alive hu hne hpos
  have hlen : (heard M b).models.length = M.models.length := by simp [heard]
  have hrun1 : filter D log exp x M = (do
      let M ← Prog.get
      onResults (MultiRes.updateResults exp M.classes)
      regress D log x) { heard M b with models := l1 } := by
    unfold filter
    rw [bind_of_ret (checkTraining_idle hu.ready.idle), bind_of_ret (get_def M), if_neg (by simp [hu.nulls]),
      bind_of_ret (forward_ret D log M hu x b hb), bind_of_ret k1]
  have hcl : ∀ (M1 M2 : HierHmm K), M1.models = l1 → M2.models = l2 → (M1.classes.map fun c => (c.1, c.2.instant, c.2.logLik)) =
      M2.classes.map fun c => (c.1, c.2.instant, c.2.logLik) := by
    intro M1 M2 e1 e2
    unfold classes
    rw [e1, e2, List.map_map, List.map_map]
    refine List.ext_getElem? fun i => ?_
    rw [List.getElem?_map, List.getElem?_map]
    by_cases hi : i < M.models.length
    · obtain ⟨lc, hlc⟩ := get_class hi
      obtain ⟨m1, m2, e1, e2, e3, e4, _⟩ := k4 i lc hlc
      rw [e1, e2]
      simp [Hmm.results, e3, e4]
    · rw [List.getElem?_eq_none (by omega), List.getElem?_eq_none (by omega)]
  have hsumm := @summary_congr K _ _ _ exp
  generalize hM1 : ({ heard M b with models := l1 } : HierHmm K) = M1 at hrun1
  have hres : M1.results = M.results := by subst hM1; rfl
  have hmod1 : M1.models = l1 := by subst hM1; rfl
  have hsz : M1.results.Sized M1.classes.length := by
    rw [hres, show M1.classes.length = M.models.length by simp [classes, hmod1, k2]]; exact hu.sized
  obtain ⟨r', g1, g2, g3, g4, _⟩ := MultiRes.updateResults_ret exp M1.classes M1.results hsz
  have hrun2 : filter D log exp x M = regress D log x { M1 with results := r' } := by
    rw [hrun1, bind_of_ret (get_def M1)]
    refine bind_of_ret (a := ()) ?_
    simp only [onResults, g1]
  -- facts on the final classes
  have hcls2 : ∀ (c : Nat) (lc : String × Hmm K), M.models[c]? = some lc → ∃ m', l2[c]? = some (lc.1, m') ∧ ClassStep log M b v w c lc.2 m' ∧
      0 < m'.instant := by
    intro c lc hlc
    obtain ⟨m1, m2, _, e2, _, _, e5⟩ := k4 c lc hlc
    exact ⟨m2, e2, e5, by rw [(e5.reportedFields (hu.buf lc (mem_of_get hlc)) 0 0).2.1]; exact a3 c lc hlc⟩
  have hback : ∀ b' ∈ l2, ∃ (c : Nat) (lc : String × Hmm K), M.models[c]? = some lc ∧ l2[c]? = some b' ∧ b'.1 = lc.1 ∧
      ClassStep log M b v w c lc.2 b'.2 ∧ 0 < b'.2.instant := by
    intro b' hb'
    obtain ⟨i, hi, rfl⟩ := List.getElem_of_mem hb'
    obtain ⟨lc, hlc⟩ := get_class (M := M) (c := i) (by omega)
    obtain ⟨m', e1, e2, e3⟩ := hcls2 i lc hlc
    have e4 := e1
    rw [List.getElem?_eq_getElem hi] at e4
    have e5 := Option.some.inj e4
    exact ⟨i, lc, hlc, List.getElem?_eq_getElem hi, by rw [e5], by rw [e5]; exact e2, by rw [e5]; exact e3⟩
  have hfinal : ∀ (r : MultiRes K), r.Sized M.models.length → r.Summary exp ({ heard M b with models := l2, results := r } : HierHmm K).classes →
      (M.bimodal = true → ({ heard M b with models := l2, results := r } : HierHmm K).OutputsOf) →
      Stepped log exp M b v w { heard M b with models := l2, results := r } := by
    intro r hr1 hr2 hr3
    have hal : ∀ e c k, HierSpec.alpha ({ heard M b with models := l2, results := r } : HierHmm K) e c k = HierSpec.alpha (heard M b) e c k := by
      intro e c k
      by_cases hc : c < M.models.length
      · obtain ⟨lc, hlc⟩ := get_class hc
        obtain ⟨m', e1, e2, _⟩ := hcls2 c lc hlc
        rw [alpha_of (heard_get hlc), alpha_of (M := ({ heard M b with models := l2, results := r } : HierHmm K)) e1]
        exact (e2.reportedFields (hu.buf lc (mem_of_get hlc)) e k).1
      · unfold HierSpec.alpha
        simp only
        rw [List.getElem?_eq_none (by omega), List.getElem?_eq_none (by omega)]
    refine ⟨rfl, k3, hcls2, hal, ?_, hr2, hr3⟩
    refine ⟨⟨hu.ready.idle, ?_, fun lc hlc => ?_, ?_, ?_⟩, hu.hier, hu.nulls, ?_, ?_, fun lc hlc => ?_, fun hbm lc hlc => ?_, fun lc hlc => ?_,
      fun _ => ⟨fun lc hlc => ?_, fun e c k => by rw [hal]; exact a1 e c k, fun c hc => ?_⟩, fun lc hlc _ => ?_⟩
    · have hT := hu.ready.top
      exact ⟨by rw [k3]; exact hT.prior, by rw [k3]; exact hT.exitTrans, by rw [k3]; exact hT.trans, by rw [k3]; exact hT.row, hT.prior_pos,
        fun _ => hT.prior_sum hne, hT.row_nonneg, hT.row_sum, hT.exit_nonneg, hT.exit_le⟩
    · obtain ⟨c, a, h1, _, _, h4, _⟩ := hback lc hlc
      obtain ⟨hI, hbm⟩ := hu.ready.cls a (mem_of_get h1)
      have hsame := h4.sameClass hI.can (hu.buf a (mem_of_get h1))
      exact ⟨hsame.inHierarchy hI, hsame.facts.2.2.2.2.2.2.1.trans hbm⟩
    · rw [k3]
      show (if M.started then _ else _ : List K).length = _
      split
      · simp
      · exact hu.ready.front1
    · rw [k3]
      show (if M.started then _ else _ : List K).length = _
      split
      · simp
      · exact hu.ready.front2
    · have hs := hu.sorted
      unfold SMap.Sorted at hs ⊢
      have hkeys : M.models.map Prod.fst = l2.map Prod.fst := by
        refine List.ext_getElem? fun i => ?_
        rw [List.getElem?_map, List.getElem?_map]
        by_cases hi : i < M.models.length
        · obtain ⟨lc, hlc⟩ := get_class hi
          obtain ⟨m', e1, _⟩ := hcls2 i lc hlc
          rw [hlc, e1]; rfl
        · rw [List.getElem?_eq_none (by omega), List.getElem?_eq_none (by omega)]
      have : (M.models.map Prod.fst).Pairwise (· < ·) := by rw [List.pairwise_map]; exact hs
      rw [hkeys, List.pairwise_map] at this
      exact this
    · rw [k3]; exact hr1
    · obtain ⟨c, a, h1, _, _, h4, _⟩ := hback lc hlc
      have hf := (h4.sameClass (hu.ready.cls a (mem_of_get h1)).1.can (hu.buf a (mem_of_get h1))).facts
      rw [hf.2.2.2.2.2.2.2.2.1, hf.2.2.2.2.2.2.2.2.2.1]; exact hu.dims a (mem_of_get h1)
    · obtain ⟨c, a, h1, _, _, h4, _⟩ := hback lc hlc
      have hf := (h4.sameClass (hu.ready.cls a (mem_of_get h1)).1.can (hu.buf a (mem_of_get h1))).facts
      rw [hf.2.2.2.2.2.2.2.2.2.2.1]; exact hu.mode hbm a (mem_of_get h1)
    · obtain ⟨c, a, h1, _, _, h4, _⟩ := hback lc hlc
      exact (h4.reportedFields (hu.buf a (mem_of_get h1)) 0 0).2.2.2.2.2.1
    · obtain ⟨c, a, h1, _, _, h4, _⟩ := hback lc hlc
      have hI := (hu.ready.cls a (mem_of_get h1)).1
      have hz := heardClass_sized M b c a.2 hI
      have hn := (heardClass_same M b c a.2 hI.can).facts.1
      have hn' := (h4.sameClass hI.can (hu.buf a (mem_of_get h1))).facts.1
      obtain ⟨_, _, f1, f2, f3, _⟩ := h4.reportedFields (hu.buf a (mem_of_get h1)) 0 0
      rw [f1, f2, f3, hz.a0, hz.a1, hz.a2, hn', hn]
      exact ⟨rfl, rfl, rfl⟩
    · change c < l2.length at hc
      have hc' : c < M.models.length := by omega
      have := a2 c hc'
      unfold leaving at this ⊢
      have e : states ({ heard M b with models := l2, results := r } : HierHmm K) c = states (heard M b) c := by
        obtain ⟨lc, hlc⟩ := get_class hc'
        obtain ⟨m', e1, e2, _⟩ := hcls2 c lc hlc
        rw [states_of (heard_get hlc), states_of (M := ({ heard M b with models := l2, results := r } : HierHmm K)) e1]
        exact (e2.reportedFields (hu.buf lc (mem_of_get hlc)) 0 0).2.2.2.2.2.2
      rw [e]
      simp only [hal]
      exact this
    · obtain ⟨_, _, _, _, _, _, h5⟩ := hback lc hlc
      exact h5.le
  have hr1 : ∀ y z, MultiRes.Sized ({ r' with outVals := y, outCov := z } : MultiRes K) M.models.length := by
    intro y z
    have : M1.classes.length = M.models.length := by simp [classes, hmod1, k2]
    refine ⟨?_, ?_, ?_, ?_, ?_⟩
    · simp only [g2.inst, List.length_map, this]
    · simp only [g2.instNorm, List.length_map, this]
    · simp only [g2.smoothed, List.length_map, this]
    · simp only [g2.smoothedNorm, List.length_map, this]
    · simp only [g2.smoothedLog, List.length_map, this]
  have hr2 : ∀ y z r, ({ r' with outVals := y, outCov := z } : MultiRes K).Summary exp
      ({ heard M b with models := l2, results := r } : HierHmm K).classes := by
    intro y z r
    have := hsumm _ _ r' (hcl M1 ({ heard M b with models := l2, results := r } : HierHmm K) hmod1 rfl) g2
    exact ⟨this.inst, this.smoothedLog, this.smoothed, this.instNorm, this.smoothedNorm, this.likeliest⟩
  rw [hrun2]
  have hbim : M1.bimodal = M.bimodal := by subst hM1; rfl
  rcases bool_cases M.bimodal with hb0 | hb0
  · refine ⟨{ M1 with results := r' }, ?_, ?_⟩
    · unfold regress
      rw [if_neg (by simp [hbim, hb0])]
    · have e : ({ M1 with results := r' } : HierHmm K) = { heard M b with models := l2, results := r' } := by
        rw [k5 hb0]; subst hM1; rfl
      rw [e]
      exact hfinal r' (hr1 r'.outVals r'.outCov) (hr2 r'.outVals r'.outCov _) (fun h => absurd (hb0.symm.trans h) (by simp))
  · have hloop : loop ({ M1 with results := r' } : HierHmm K).models.length () (fun _ i => onClass i (Hmm.regression D log x))
        { M1 with results := r' } = .ret () { heard M b with models := l2, results := r' } := by
      have e : ({ M1 with results := r' } : HierHmm K) = { heard M b with models := l1, results := r' } := by subst hM1; rfl
      rw [e, show ({ heard M b with models := l1, results := r' } : HierHmm K).models.length = M.models.length from k2]
      exact k6 hb0 r'
    have hclne : ({ heard M b with models := l2, results := r' } : HierHmm K).classes ≠ [] := by
      intro h
      have : l2.length = 0 := by
        have := congrArg List.length h
        simpa [classes] using this
      rw [k3] at this
      exact hne (List.eq_nil_of_length_eq_zero this)
    have hOut : ∃ y z, HierHmm.outputs ({ heard M b with models := l2, results := r' } : HierHmm K) =
        .ret () { heard M b with models := l2, results := { r' with outVals := y, outCov := z } } ∧
        HierHmm.OutputsOf { heard M b with models := l2, results := { r' with outVals := y, outCov := z } } := by
      unfold HierHmm.outputs HierHmm.OutputsOf
      simp only
      cases hE : (heard M b).est with
      | likeliest =>
        obtain ⟨before, c, after, e1, e2, _⟩ := (hr2 r'.outVals r'.outCov r').likeliest hclne
        have hmem : (r'.likeliest, c.2) ∈ ({ heard M b with models := l2, results := r' } : HierHmm K).classes := by
          rw [e1]
          simp only at e2
          rw [e2]; simp
        obtain ⟨b', hb1, hb2⟩ := List.mem_map.1 hmem
        simp only [Prod.mk.injEq] at hb2
        obtain ⟨c', hc'⟩ := SMap.find?_of_mem (k := r'.likeliest) (v := b'.2) (m := l2) (by rw [← hb2.1]; exact hb1)
        refine ⟨c'.outVals, c'.outCov, ?_, c', SMap.mem_of_find? hc', rfl, rfl⟩
        simp only [likeliestOutputs, bind_def, likeliestResults, hc', modify_def, Hmm.results]
      | mixture =>
        have hm2 := MultiRes.mixOutputs_ret (M.dim - M.di) M.mode ({ heard M b with models := l2, results := r' } : HierHmm K).classes r' (by
          simp [classes, g2.smoothedNorm, hmod1, k2, k3]) (fun c hc => by
            obtain ⟨b', hb1, rfl⟩ := List.mem_map.1 hc
            obtain ⟨i, a, h1, _, _, h4, _⟩ := hback b' hb1
            obtain ⟨hI, hbm⟩ := hu.ready.cls a (mem_of_get h1)
            obtain ⟨hist, hl⟩ := hu.buf a (mem_of_get h1)
            have h5 := (h4 hist hl).1
            have hf := (heardClass_same M b i a.2 hI.can).facts
            have := h5.outVals (hf.2.2.2.2.2.2.1.trans (hbm.trans hb0))
            show b'.2.outVals.length = _
            rw [this, List.length_map, List.length_range, hf.2.2.2.2.2.2.2.2.1, hf.2.2.2.2.2.2.2.2.2.1]
            exact hu.dims a (mem_of_get h1)) (fun c hc => by
            obtain ⟨b', hb1, rfl⟩ := List.mem_map.1 hc
            obtain ⟨i, a, h1, _, _, h4, _⟩ := hback b' hb1
            obtain ⟨hI, hbm⟩ := hu.ready.cls a (mem_of_get h1)
            obtain ⟨hist, hl⟩ := hu.buf a (mem_of_get h1)
            have h5 := (h4 hist hl).1
            have hf := (heardClass_same M b i a.2 hI.can).facts
            have := h5.outCov (hf.2.2.2.2.2.2.1.trans (hbm.trans hb0))
            show b'.2.outCov.length = _
            rw [this, List.length_map, List.length_range, hf.2.2.2.2.2.2.2.2.1, hf.2.2.2.2.2.2.2.2.2.1, hf.2.2.2.2.2.2.2.2.2.2.1,
              hu.dims a (mem_of_get h1), hu.mode hb0 a (mem_of_get h1)])
        have hcll : ({ heard M b with models := l2, results := r' } : HierHmm K).classes.length = l2.length := by simp [classes]
        rw [hcll] at hm2
        refine ⟨(List.range (M.dim - M.di)).map fun k => ∑ i ∈ Finset.range l2.length, r'.smoothedNorm.getD i 0 *
            RecSpec.outVal ({ heard M b with models := l2, results := r' } : HierHmm K).classes i k,
          (List.range (outCells M.mode (M.dim - M.di))).map fun k => ∑ i ∈ Finset.range l2.length, r'.smoothedNorm.getD i 0 *
            RecSpec.outVar ({ heard M b with models := l2, results := r' } : HierHmm K).classes i k, ?_, rfl, rfl⟩
        exact onResults_ret hm2
    obtain ⟨y, z, o1, o2⟩ := hOut
    refine ⟨_, ?_, hfinal { r' with outVals := y, outCov := z } (hr1 y z) (hr2 y z _) (fun _ => o2)⟩
    unfold regress
    rw [if_pos (by simp [hbim, hb0])]
    exact (bind_of_ret hloop).trans o1

end HierHmm
end Xmm
