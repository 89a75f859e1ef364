import Verif.Props.HierRecognition
set_option linter.unusedSimpArgs false
set_option linter.unusedSectionVars false
/- C48, C70, C71: recognition with a hierarchical model. -/
namespace Xmm
open Phrase (loop)
open Gauss (rd rd_lt resize)
open Prog (bind_def pure_def get_def set_def modify_def throw_def undef_def)

namespace HierHmm
variable {K : Type} [Field K] [LinearOrder K] [IsStrictOrderedRing K]
open HierSpec Hmm

/-- two models with the same parameters, that have heard the same observations since `reset()` -/
structure Alike (M N : HierHmm K) : Prop where
  keep : N = { M with models := N.models, results := N.results, front1 := N.front1, front2 := N.front2 }
  same : SameClasses M N
  logs : ∀ (c : Nat) (lc lc' : String × Hmm K), M.models[c]? = some lc → N.models[c]? = some lc' →
    ∃ hist, Logs lc.2.buf lc.2.window hist ∧ Logs lc'.2.buf lc'.2.window hist
  alpha : M.started = true → ∀ e c k, HierSpec.alpha N e c k = HierSpec.alpha M e c k
  instant : M.started = false → ∀ (c : Nat) (lc lc' : String × Hmm K), M.models[c]? = some lc → N.models[c]? = some lc' → lc.2.ergodic = true →
    lc'.2.instant = lc.2.instant

theorem SameClasses.states {M N : HierHmm K} (h : SameClasses M N) (c : Nat) : HierSpec.states N c = HierSpec.states M c := by
  by_cases hc : c < M.models.length
  · obtain ⟨a, ha⟩ := get_class hc
    obtain ⟨m', h1, h2⟩ := h.2 c a ha
    rw [states_of ha, states_of h1]; exact h2.facts.1
  · unfold HierSpec.states
    rw [List.getElem?_eq_none (by rw [h.1]; omega), List.getElem?_eq_none (by omega)]

theorem SameClass.within {m m' : Hmm K} (h : m.SameClass m') : HierSpec.within m' = HierSpec.within m := by
  obtain ⟨e1, e2, _, _, _, _, _, _, _, _, _, _, e3, e4, _⟩ := h.facts
  funext j k
  unfold HierSpec.within
  rw [e1, e2, e3, e4]

theorem Alike.leaving {M N : HierHmm K} (h : Alike M N) (hs : M.started = true) (e c : Nat) : HierSpec.leaving N e c = HierSpec.leaving M e c := by
  unfold HierSpec.leaving
  rw [h.same.states]
  exact Finset.sum_congr rfl fun k _ => h.alpha hs e c k

theorem Alike.entering {M N : HierHmm K} (h : Alike M N) (hs : M.started = true) (c : Nat) : HierSpec.entering N c = HierSpec.entering M c := by
  have e1 : N.trans = M.trans := by rw [h.keep]
  have e2 : N.prior = M.prior := by rw [h.keep]
  unfold HierSpec.entering
  rw [h.same.1, e1, e2]
  exact Finset.sum_congr rfl fun s _ => by rw [h.leaving hs, h.leaving hs]

theorem Alike.predicted {M N : HierHmm K} (h : Alike M N) (hs : M.started = true) {c : Nat} {lc lc' : String × Hmm K} (hc : M.models[c]? = some lc)
    (hc' : N.models[c]? = some lc') (k : Nat) :
    HierSpec.predicted lc'.2 (HierSpec.entering N c) k = HierSpec.predicted lc.2 (HierSpec.entering M c) k := by
  obtain ⟨m', h1, h2⟩ := h.same.2 c lc hc
  rw [hc'] at h1
  cases h1
  unfold HierSpec.predicted
  rw [h.entering hs, SameClass.within h2, h2.facts.1, h2.facts.2.2.1]
  congr 1
  refine Finset.sum_congr rfl fun j _ => ?_
  have := h.alpha hs 0 c j
  rw [alpha_of hc, alpha_of hc'] at this
  rw [show m'.alpha0.getD j 0 = lc.2.alpha0.getD j 0 from this]

theorem Alike.evidence {M N : HierHmm K} (h : Alike M N) (hs : M.started = true) (b : Nat → Nat → K) :
    HierSpec.evidence N b = HierSpec.evidence M b := by
  unfold HierSpec.evidence
  rw [h.same.1]
  refine Finset.sum_congr rfl fun c hc => ?_
  rw [h.same.states]
  refine Finset.sum_congr rfl fun k _ => ?_
  obtain ⟨a, ha⟩ := get_class (Finset.mem_range.1 hc)
  obtain ⟨m', h1, _⟩ := h.same.2 c a ha
  unfold joint
  rw [ha, h1]
  exact congrArg (b c k * ·) (h.predicted hs ha h1 k)

theorem SameClass.first {m m' : Hmm K} (h : m.SameClass m') (p : K) (k : Nat) : HierSpec.first m' p k = HierSpec.first m p k := by
  unfold HierSpec.first
  rw [h.facts.2.1, h.facts.2.2.2.2.2.2.2.2.2.2.2.2.2.2]

theorem Alike.initNorm {M N : HierHmm K} (h : Alike M N) (hs : M.started = false) (b : Nat → Nat → K) : initNorm N b = initNorm M b := by
  have e2 : N.prior = M.prior := by rw [h.keep]
  rw [initNorm_eq, initNorm_eq]
  congr 1
  · unfold evidence0
    rw [h.same.1]
    refine Finset.sum_congr rfl fun c hc => ?_
    rw [h.same.states]
    refine Finset.sum_congr rfl fun k _ => ?_
    obtain ⟨a, ha⟩ := get_class (Finset.mem_range.1 hc)
    obtain ⟨m', h1, h2⟩ := h.same.2 c a ha
    unfold joint0
    rw [ha, h1, e2]
    exact congrArg (b c k * ·) (SameClass.first h2 _ k)
  · unfold stale
    rw [h.same.1]
    refine Finset.sum_congr rfl fun c hc => ?_
    obtain ⟨a, ha⟩ := get_class (Finset.mem_range.1 hc)
    obtain ⟨m', h1, h2⟩ := h.same.2 c a ha
    rw [ha, h1]
    show (if m'.ergodic = true then m'.instant else 0) = if a.2.ergodic = true then a.2.instant else 0
    rw [h2.facts.2.1]
    split
    · exact h.instant hs c a _ ha h1 (by assumption)
    · rfl

/-- the forward algorithm does the same to classes that are alike -/
theorem Alike.heardClass {M N : HierHmm K} (h : Alike M N) (b : Nat → Nat → K) {c : Nat} {lc lc' : String × Hmm K} (hc : M.models[c]? = some lc)
    (hc' : N.models[c]? = some lc') :
    (∀ e k, ((heardClass N b c lc'.2).alphaOf e).getD k 0 = ((heardClass M b c lc.2).alphaOf e).getD k 0) ∧
    (heardClass N b c lc'.2).instant = (heardClass M b c lc.2).instant ∧
    (M.started = true → (heardClass N b c lc'.2).exitLik = (heardClass M b c lc.2).exitLik ∧
      (heardClass N b c lc'.2).exitRatio = (heardClass M b c lc.2).exitRatio) := by
  have e1 : N.started = M.started := by rw [h.keep]
  have e2 : N.prior = M.prior := by rw [h.keep]
  have e3 : N.exitTrans = M.exitTrans := by rw [h.keep]
  obtain ⟨m', h1, h2⟩ := h.same.2 c lc hc
  rw [hc'] at h1
  cases h1
  have hn := h2.facts.1
  have hx := h2.facts.2.2.2.2.2.2.2.2.2.2.2.2.1
  unfold HierHmm.heardClass
  rw [e1]
  rcases bool_cases M.started with hs | hs
  · rw [if_neg (by simp [hs]), if_neg (by simp [hs]), h.initNorm hs, e2]
    have hf := SameClass.first h2 (M.prior.getD c 0)
    refine ⟨fun e k => ?_, ?_, fun h => absurd (hs.symm.trans h) (by simp)⟩
    · match e with
      | 0 => simp only [alphaOf, divided, begun, hn, hf]
      | 1 => simp only [alphaOf, divided, begun, hn]
      | _ + 2 => simp only [alphaOf, divided, begun, hn]
    · simp only [divided, begun, hn, hf, h2.facts.2.1]
      congr 1
      split
      · exact h.instant hs c lc _ hc hc' (by assumption)
      · rfl
  · rw [if_pos hs, if_pos hs, h.evidence hs, e3]
    have hp : (fun k => b c k * HierSpec.predicted m' (HierSpec.entering N c) k) =
        fun k => b c k * HierSpec.predicted lc.2 (HierSpec.entering M c) k := by
      funext k; rw [h.predicted hs hc hc' k]
    rw [hp]
    refine ⟨fun e k => ?_, ?_, fun _ => ⟨?_, ?_⟩⟩
    · match e with
      | 0 => simp only [alphaOf, divided, updated, hn, hx]
      | 1 => simp only [alphaOf, divided, updated, hn, hx]
      | _ + 2 => simp only [alphaOf, divided, updated, hn, hx]
    · simp only [divided, updated, hn, hx]
    · simp only [divided, updated, hn, hx]
    · simp only [divided, updated, hn, hx]

/-- the same results of a class (the outputs in a bimodal model) -/
structure SameReport (m m' : Hmm K) : Prop where
  instant : m'.instant = m.instant
  logLik : m'.logLik = m.logLik
  progress : m'.progress = m.progress
  likeliest : m'.likeliest = m.likeliest
  out : m.bimodal = true → m'.outVals = m.outVals ∧ m'.outCov = m.outCov

theorem reported_det {m m' r r' : Hmm K} (hsame : m.SameClass m') {log : K → K} {hist : List K} {v w : Nat → List K}
    (ha : ∀ e k, (m'.alphaOf e).getD k 0 = (m.alphaOf e).getD k 0) (hi : m'.instant = m.instant)
    (hhier : m.hier = true) (hf : m.Reported log hist v w r) (hf' : m'.Reported log hist v w r') : SameReport r r' := by
  obtain ⟨e1, _, _, _, e5, e6, e7, _, e9, e10, e11, e12, _⟩ := hsame.facts
  obtain ⟨s1, _, _, _, _, s6, s7, _, _, _, _, s12, _⟩ := hf.sameClass.facts
  obtain ⟨t1, _, _, _, _, t6, t7, _, _, _, _, t12, _⟩ := hf'.sameClass.facts
  have a0 : ∀ k, r'.alpha0.getD k 0 = r.alpha0.getD k 0 := fun k => by rw [hf.same, hf'.same]; exact ha 0 k
  have a1 : ∀ k, r'.alpha1.getD k 0 = r.alpha1.getD k 0 := fun k => by rw [hf.same, hf'.same]; exact ha 1 k
  have a2 : ∀ k, r'.alpha2.getD k 0 = r.alpha2.getD k 0 := fun k => by rw [hf.same, hf'.same]; exact ha 2 k
  have hocc : ∀ j, HmmSpec.occ r' j = HmmSpec.occ r j := fun j => by
    unfold HmmSpec.occ
    rw [t6, s6, e6, a0, a1, show r'.alpha = m'.alpha by rw [hf'.same], show r.alpha = m.alpha by rw [hf.same]]
    by_cases hh : m.hier = true
    · rw [if_pos hh, if_pos hh]
    · exact absurd hhier hh
  have hlk : r'.likeliest = r.likeliest := IsLikeliest.unique (t1.trans (e1.trans s1.symm)) hocc hf.windowed.likeliest hf'.windowed.likeliest
  have hlo : r'.winMin = r.winMin := by rw [hf.windowed.lo, hf'.windowed.lo, hlk, t1, s1, e1]
  have hhi : r'.winMax = r.winMax := by rw [hf.windowed.hi, hf'.windowed.hi, hlk, t1, s1, e1]
  have hz : r'.winNorm = r.winNorm := by
    rw [hf.windowed.norm, hf'.windowed.norm, hlo, hhi]; exact Finset.sum_congr rfl fun j _ => hocc j
  have how : ∀ i, HmmSpec.outWeight r' i = HmmSpec.outWeight r i := fun i => by
    unfold HmmSpec.outWeight; rw [t12, s12, e12, hlo, hhi, hz, hlk, hocc]
  have hcw : ∀ i, HmmSpec.covWeight r' i = HmmSpec.covWeight r i := fun i => by
    unfold HmmSpec.covWeight; rw [t12, s12, e12, hlo, hhi, hz, hocc]
  refine ⟨?_, by rw [hf.logLik, hf'.logLik, hi, e5], ?_, hlk, fun hb => ?_⟩
  · rw [show r'.instant = m'.instant by rw [hf'.same], show r.instant = m.instant by rw [hf.same], hi]
  · rw [hf.progress, hf'.progress, hlo, hhi, hz, e1]
    congr 1
    exact Finset.sum_congr rfl fun j _ => by rw [hocc, a2]
  · have hb0 : m.bimodal = true := s7 ▸ hb
    refine ⟨?_, ?_⟩
    · rw [hf.outVals hb0, hf'.outVals (e7.trans hb0), e1, e9, e10]
      exact List.map_congr_left fun k _ => Finset.sum_congr rfl fun i _ => by rw [how]
    · rw [hf.outCov hb0, hf'.outCov (e7.trans hb0), e1, e9, e10, e11]
      exact List.map_congr_left fun k _ => Finset.sum_congr rfl fun i _ => by rw [hcw]

/-- the same results of a model and of its classes (the outputs in a bimodal model) -/
structure SameResults (M N : HierHmm K) : Prop where
  cls : ∀ (c : Nat) (lc lc' : String × Hmm K), M.models[c]? = some lc → N.models[c]? = some lc' → lc'.1 = lc.1 ∧ SameReport lc.2 lc'.2
  results : N.results = { M.results with outVals := N.results.outVals, outCov := N.results.outCov }
  out : M.bimodal = true → N.results = M.results

theorem SameClass.symm {m m' : Hmm K} (h : m.SameClass m') (hm : m.CanFilter) : m'.SameClass m := by
  refine ⟨by rw [h.1], h.2.1.symm, fun i s s' h1 h2 => ?_⟩
  obtain ⟨q1, q2, q3⟩ := h.2.2 i s' s h2 h1
  obtain ⟨q4, q5⟩ := hm.state s' (List.mem_of_getElem? h2)
  refine ⟨?_, q4, q5⟩
  unfold Gmm.SameModel at q1 ⊢; rw [q1]

theorem alike_step {log exp : K → K} {M N M' N' : HierHmm K} (h : Alike M N) (hu : M.Usable) (hu' : N.Usable) (hne : M.models ≠ [])
    {b : Nat → Nat → K} {v w : Nat → Nat → List K} (hs : Stepped log exp M b v w M') (hs' : Stepped log exp N b v w N') :
    Alike M' N' ∧ SameResults M' N' := by
  have hb1 : M'.bimodal = M.bimodal := by rw [hs.keep]
  have hsame : SameClasses M' N' := by
    refine ⟨by rw [hs.len, hs'.len, h.same.1], fun c lc' hlc' => ?_⟩
    obtain ⟨a, ha⟩ := get_class (M := M) (c := c) (by rw [← hs.len]; exact lt_of_get hlc')
    obtain ⟨m1, k1, k2⟩ := (hs.sameClasses hu).2 c a ha
    obtain ⟨n, l1, l2⟩ := h.same.2 c a ha
    obtain ⟨n1, g1, g2⟩ := (hs'.sameClasses hu').2 c _ l1
    rw [hlc'] at k1
    cases k1
    exact ⟨n1, g1, (SameClass.symm k2 (hu.ready.cls a (mem_of_get ha)).1.can).trans (l2.trans g2)⟩
  have hpair : ∀ (c : Nat) (p q : String × Hmm K), M'.models[c]? = some p → N'.models[c]? = some q → q.1 = p.1 ∧ SameReport p.2 q.2 ∧
      (∃ hist, Logs p.2.buf p.2.window hist ∧ Logs q.2.buf q.2.window hist) ∧
      ∀ e k, (q.2.alphaOf e).getD k 0 = (p.2.alphaOf e).getD k 0 := by
    intro c p q hp hq
    obtain ⟨a, ha⟩ := get_class (M := M) (c := c) (by rw [← hs.len]; exact lt_of_get hp)
    obtain ⟨m1, k1, k2, _⟩ := hs.cls c a ha
    obtain ⟨n, l1, l2⟩ := h.same.2 c a ha
    obtain ⟨n1, g1, g2, _⟩ := hs'.cls c _ l1
    rw [hp] at k1
    rw [hq] at g1
    cases k1
    cases g1
    obtain ⟨hist, hl, hl'⟩ := h.logs c a _ ha l1
    obtain ⟨r1, r2⟩ := k2 hist hl
    obtain ⟨r1', r2'⟩ := g2 hist hl'
    obtain ⟨f1, f2, _⟩ := h.heardClass b ha l1
    have hI := (hu.ready.cls a (mem_of_get ha)).1
    have hIn := (hu'.ready.cls _ (mem_of_get l1)).1
    have hsm := heardClass_same M b c a.2 hI.can
    refine ⟨rfl, reported_det ((SameClass.symm hsm hI.can).trans (l2.trans (heardClass_same N b c n hIn.can))) f1 f2 (hsm.inHierarchy hI).hier r1 r1',
      ⟨_, r2, by rw [← f2]; exact r2'⟩, fun e k => ?_⟩
    rw [(k2.reportedFields (hu.buf a (mem_of_get ha)) e k).1, (g2.reportedFields (hu'.buf _ (mem_of_get l1)) e k).1]
    exact f1 e k
  have hcls : N'.classes.map (fun c => (c.1, c.2.instant, c.2.logLik)) = M'.classes.map (fun c => (c.1, c.2.instant, c.2.logLik)) := by
    refine List.ext_getElem? fun i => ?_
    unfold classes
    simp only [List.map_map, List.getElem?_map]
    by_cases hi : i < M'.models.length
    · obtain ⟨p, hp⟩ := get_class hi
      obtain ⟨q, hq⟩ := get_class (M := N') (c := i) (by rw [hsame.1]; exact hi)
      obtain ⟨h1, h2, _⟩ := hpair i p q hp hq
      rw [hp, hq]
      simp only [Option.map_some, Function.comp, Hmm.results, h1, h2.instant, h2.logLik]
    · rw [List.getElem?_eq_none (by rw [hsame.1]; omega), List.getElem?_eq_none (by omega)]
  have hkeep : N' = { M' with models := N'.models, results := N'.results, front1 := N'.front1, front2 := N'.front2 } := by
    have e := hs'.keep
    rw [h.keep] at e
    have e' := hs.keep
    rw [e, e']
  have hsort : SMap.Sorted (M'.classes : SMap String (ClassRes K)) := by
    have := hs.usable.sorted
    unfold SMap.Sorted at this ⊢
    rw [classes, List.pairwise_map]
    exact this
  have hne' : M'.classes ≠ [] := by
    intro h0
    exact hs.ne hne (List.map_eq_nil_iff.1 h0)
  have hres := GmmModel.summary_unique hsort hne' hs.summary (summary_congr _ _ _ hcls hs'.summary)
  refine ⟨⟨hkeep, hsame, fun c p q hp hq => (hpair c p q hp hq).2.2.1, fun _ e c k => ?_, fun h0 => absurd (hs.started.symm.trans h0) (by simp)⟩,
    fun c p q hp hq => ⟨(hpair c p q hp hq).1, (hpair c p q hp hq).2.1⟩, hres, fun hb => ?_⟩
  · by_cases hc : c < M'.models.length
    · obtain ⟨p, hp⟩ := get_class hc
      obtain ⟨q, hq⟩ := get_class (M := N') (c := c) (by rw [hsame.1]; exact hc)
      rw [alpha_of hp, alpha_of hq]
      exact (hpair c p q hp hq).2.2.2 e k
    · unfold HierSpec.alpha
      rw [List.getElem?_eq_none (by rw [hsame.1]; omega), List.getElem?_eq_none (by omega)]
  · have o1 := hs.outputs (hb1 ▸ hb)
    have o2 := hs'.outputs (by rw [h.keep]; exact hb1 ▸ hb)
    have hout : ∀ (i : Nat) (p q : String × Hmm K), M'.models[i]? = some p → N'.models[i]? = some q → q.2.outVals = p.2.outVals ∧ q.2.outCov = p.2.outCov := by
      intro i p q hp hq
      exact (hpair i p q hp hq).2.1.out ((hs.usable.ready.cls p (mem_of_get hp)).2.trans hb)
    have hclasses : N'.classes = M'.classes := by
      refine List.ext_getElem? fun i => ?_
      unfold classes
      simp only [List.getElem?_map]
      by_cases hi : i < M'.models.length
      · obtain ⟨p, hp⟩ := get_class hi
        obtain ⟨q, hq⟩ := get_class (M := N') (c := i) (by rw [hsame.1]; exact hi)
        obtain ⟨h1, h2, _⟩ := hpair i p q hp hq
        obtain ⟨h3, h4⟩ := hout i p q hp hq
        rw [hp, hq]
        simp only [Option.map_some, Hmm.results, h1, h2.instant, h2.logLik, h3, h4]
      · rw [List.getElem?_eq_none (by rw [hsame.1]; omega), List.getElem?_eq_none (by omega)]
    have hest : N'.est = M'.est := by rw [hkeep]
    have hdim : N'.dim = M'.dim := by rw [hkeep]
    have hdi : N'.di = M'.di := by rw [hkeep]
    have hmod : N'.mode = M'.mode := by rw [hkeep]
    have hlike : N'.results.likeliest = M'.results.likeliest := by rw [hres]
    have hsn : N'.results.smoothedNorm = M'.results.smoothedNorm := by rw [hres]
    have hfin : N'.results.outVals = M'.results.outVals ∧ N'.results.outCov = M'.results.outCov := by
      unfold OutputsOf at o1 o2
      rw [hest] at o2
      cases hE : M'.est with
      | likeliest =>
        rw [hE] at o1 o2
        simp only at o1 o2
        obtain ⟨c, t1, t2, t3⟩ := o1
        obtain ⟨c', t4, t5, t6⟩ := o2
        have w1 : (M'.results.likeliest, c.results) ∈ M'.classes := List.mem_map.2 ⟨_, t1, rfl⟩
        have w2 : (M'.results.likeliest, c'.results) ∈ M'.classes := by
          rw [← hclasses, ← hlike]; exact List.mem_map.2 ⟨_, t4, rfl⟩
        have := GmmModel.find?_unique hsort w1 w2
        unfold Hmm.results at this
        injection this with _ _ t7 t8
        rw [t5, t6, t2, t3]
        exact ⟨t7.symm, t8.symm⟩
      | mixture =>
        rw [hE] at o1 o2
        simp only at o1 o2
        rw [o1.1, o1.2, o2.1, o2.2, hclasses, hsn, hdim, hdi, hmod, hsame.1]
        exact ⟨rfl, rfl⟩
    rw [hres, hfin.1, hfin.2]

theorem run_alike (D : Dens K) (hD : D.Sound) (log exp : K → K) (xs : List (List K)) (hxs : xs ≠ []) : ∀ M N : HierHmm K, M.Usable → N.Usable →
    Alike M N → M.models ≠ [] → (∀ x ∈ xs, ∀ lc ∈ M.models, lc.2.Fits x) →
    ∃ rs M' N', filterAll D log exp xs M = .ret rs M' ∧ filterAll D log exp xs N = .ret rs N' ∧ SameResults M' N' := by
  induction xs with
  | nil => exact absurd rfl hxs
  | cons x xs ih =>
    intro M N hu hu' h hne hx
    have hfx := hx x List.mem_cons_self
    obtain ⟨b, hb, hpos⟩ := emits_model D hD hu.ready x hfx
    obtain ⟨v, w, hv⟩ := predicts_model D hD hu.ready x hfx
    obtain ⟨M1, a1, a2⟩ := filter_ret D log exp M hu hne x hfx b hb v w hv hpos
    have hback : ∀ (c : Nat) (lc' : String × Hmm K), N.models[c]? = some lc' → ∃ lc : String × Hmm K, M.models[c]? = some lc ∧ lc.2.SameClass lc'.2 := by
      intro c lc' hlc'
      obtain ⟨a, ha⟩ := get_class (M := M) (c := c) (by rw [← h.same.1]; exact lt_of_get hlc')
      obtain ⟨m', h1, h2⟩ := h.same.2 c a ha
      rw [hlc'] at h1
      cases h1
      exact ⟨a, ha, h2⟩
    have hbN : N.bimodal = M.bimodal := by rw [h.keep]
    obtain ⟨N1, b1, b2⟩ := filter_ret D log exp N hu' (fun h0 => hne (List.eq_nil_of_length_eq_zero (by rw [← h.same.1, h0]; rfl))) x
      (fun lc hlc => by
        obtain ⟨c, a, e1, _, _, e2⟩ := h.same.back hlc
        exact e2.fits (hfx a (mem_of_get e1))) b
      (fun c lc hlc => by
        obtain ⟨a, e1, e2⟩ := hback c lc hlc
        exact e2.emits (hb c a e1)) v w
      (fun hm c lc hlc => by
        obtain ⟨a, e1, e2⟩ := hback c lc hlc
        exact e2.predicts (hv (hbN ▸ hm) c a e1))
      (fun c k hc hk => hpos c k (by rw [← h.same.1]; exact hc) (by rw [← h.same.states]; exact hk))
    obtain ⟨c1, c2⟩ := alike_step h hu hu' hne a2 b2
    have hinst : N1.results.inst = M1.results.inst := by rw [c2.results]
    by_cases he : xs = []
    · subst he
      refine ⟨[M1.results.inst], M1, N1, ?_, ?_, c2⟩
      · unfold filterAll filterAll; rw [bind_of_ret a1, bind_of_ret (get_def _), bind_of_ret (pure_def _ _), pure_def]
      · unfold filterAll filterAll; rw [bind_of_ret b1, bind_of_ret (get_def _), bind_of_ret (pure_def _ _), pure_def, hinst]
    · obtain ⟨rs, M2, N2, d1, d2, d3⟩ := ih he M1 N1 a2.usable b2.usable c1 (a2.ne hne) (fun y hy => a2.fits hu (hx y (List.mem_cons_of_mem _ hy)))
      refine ⟨M1.results.inst :: rs, M2, N2, ?_, ?_, d3⟩
      · unfold filterAll; rw [bind_of_ret a1, bind_of_ret (get_def _), bind_of_ret d1, pure_def]
      · unfold filterAll; rw [bind_of_ret b1, bind_of_ret (get_def _), bind_of_ret d2, pure_def, hinst]

end HierHmm
end Xmm
