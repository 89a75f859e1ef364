import Verif.Props.GmmModel
set_option linter.unusedSimpArgs false
set_option linter.unusedSectionVars false
/- C97: the results of a mixture model depend on the last `likelihood_window` observations only. -/
namespace Xmm
open GmmSpec RecSpec
open Prog (bind_def pure_def get_def set_def modify_def throw_def undef_def)
variable {K : Type} [Field K] [LinearOrder K] [IsStrictOrderedRing K]

theorem avgLast_append {w : Nat} {h l : List K} (hw : w ≤ l.length) : avgLast w (h ++ l) = avgLast w l := by
  have : CBufSpec.lastN w (h ++ l) = CBufSpec.lastN w l := by
    unfold CBufSpec.lastN
    rw [List.length_append, show h.length + l.length - w = h.length + (l.length - w) by omega, List.drop_append,
      List.drop_eq_nil_of_le (by omega), List.nil_append]
    congr 1
    omega
  unfold avgLast
  rw [this]

/-- C97 (one class): two mixtures with the same parameters give the same results, with whatever each of them has heard before, as soon as both have heard
    the same `likelihood_window` observations. -/
theorem Gmm.C97_class_memory (D : Dens K) (hD : D.Sound) (log : K → K) (m1 m2 : Gmm K) (hs : SameModel m1 m2)
    (hm1 : m1.CanFilter) (hm2 : m2.CanFilter) (hist1 hist2 : List K) (hl1 : Logs m1.buf m1.window hist1) (hl2 : Logs m2.buf m2.window hist2)
    (xs : List (List K)) (hw : m1.window ≤ xs.length) (hx : ∀ x ∈ xs, m1.Fits x) :
    ∃ ps m1' m2', filterAll D log xs m1 = .ret ps m1' ∧ filterAll D log xs m2 = .ret ps m2' ∧
      m1'.instant = m2'.instant ∧ m1'.logLik = m2'.logLik ∧ m1'.beta = m2'.beta ∧ (m1.bimodal = true → m1'.results = m2'.results) := by
  have hne : xs ≠ [] := by rintro rfl; have := hm1.window; simp at hw; omega
  obtain ⟨d, hd⟩ := obsDensities_exist D hD m1 hm1.ready
  have hy : ∃ y : List K → Nat → List K, ∀ x, m1.bimodal = true → m1.Fits x → Predictions m1 x (y x) := by
    rcases bool_cases m1.bimodal with h | h
    · exact ⟨fun _ _ => [], fun x h' => by rw [h] at h'; cases h'⟩
    · obtain ⟨y, hy⟩ := predictions_exist m1 hm1.ready.wf h
      exact ⟨y, fun x _ hf => (hy x hf).1⟩
  obtain ⟨y, hy⟩ := hy
  obtain ⟨m1', f1, f2, f3, f4, f5⟩ := filterAll_ret D log m1 d y (fun x hf => (hd x hf).1) hy xs hx m1 rfl hm1 hist1 hl1
  obtain ⟨m2', g1, g2, g3, g4, g5⟩ := filterAll_ret D log m1 d y (fun x hf => (hd x hf).1) hy xs hx m2 hs hm2 hist2 hl2
  obtain ⟨pre, x, rfl⟩ : ∃ pre x, xs = pre ++ [x] := ⟨xs.dropLast, xs.getLast hne, (List.dropLast_append_getLast hne).symm⟩
  obtain ⟨mp, p1, p2⟩ := f5 pre x rfl
  obtain ⟨mq, q1, q2⟩ := g5 pre x rfl
  unfold SameModel at p1 q1
  have e1 : mp.gaussians = mq.gaussians := by rw [p1, q1]
  have e2 : weights mp = weights mq := by rw [p1, q1]; rfl
  have e3 : mp.window = mq.window := by rw [p1, q1]
  have e4 : mp.dim = mq.dim := by rw [p1, q1]
  have e5 : mp.di = mq.di := by rw [p1, q1]
  have e6 : mp.mode = mq.mode := by rw [p1, q1]
  have e7 : mp.comps = mq.comps := by rw [p1, q1]
  have e8 : mp.window = m1.window := by rw [p1]
  have i1 : m1'.instant = m2'.instant := by rw [p2.instant, q2.instant, e1, e2]
  have i2 : m1'.logLik = m2'.logLik := by
    rw [p2.logLik, q2.logLik, ← e1, ← e2, ← e3, List.append_assoc, List.append_assoc, avgLast_append (h := hist1) (by rw [e8]; simpa using hw),
      avgLast_append (h := hist2) (by rw [e8]; simpa using hw)]
  refine ⟨_, m1', m2', f1, g1, i1, i2, by rw [p2.beta, q2.beta, e1, e2], fun hb => ?_⟩
  have b1 : mp.bimodal = true := by rw [p1]; exact hb
  have b2 : mq.bimodal = true := by rw [q1]; exact hb
  unfold results
  rw [i1, i2, p2.outVals b1, q2.outVals b2, p2.outCov b1, q2.outCov b2, e1, e2, e4, e5, e6, e7]

/-- what the summary reads of the classes -/
theorem MultiRes.Summary.of_eq {exp : K → K} {cls cls' : List (String × ClassRes K)} {r : MultiRes K} (h : r.Summary exp cls)
    (he : cls'.map (fun c => (c.1, c.2.instant, c.2.logLik)) = cls.map (fun c => (c.1, c.2.instant, c.2.logLik))) : r.Summary exp cls' := by
  have hf : ∀ {α : Type} (f : String × K × K → α), cls'.map (fun c => f (c.1, c.2.instant, c.2.logLik)) = cls.map (fun c => f (c.1, c.2.instant, c.2.logLik)) := by
    intro α f
    have := congrArg (List.map f) he
    simpa [List.map_map, Function.comp_def] using this
  have e1 := hf fun c => c.2.1
  have e2 := hf fun c => c.2.2
  have e3 := hf fun c => exp c.2.2
  have hlen : cls'.length = cls.length := by simpa using congrArg List.length he
  refine ⟨h.inst.trans e1.symm, h.smoothedLog.trans e2.symm, h.smoothed.trans e3.symm, ?_, ?_, fun hne => ?_⟩
  · rw [h.instNorm, e1]; exact (hf fun c => c.2.1 / _).symm
  · rw [h.smoothedNorm, e3]; exact (hf fun c => exp c.2.2 / _).symm
  · obtain ⟨before, c, after, h1, h2, h3, h4⟩ := h.likeliest (by rintro rfl; exact hne (List.eq_nil_of_length_eq_zero hlen))
    rw [h1, List.map_append, List.map_cons] at he
    obtain ⟨l1, l2, rfl, k1, k2⟩ := List.map_eq_append_iff.1 he
    obtain ⟨c', l3, rfl, k3, k4⟩ := List.map_eq_cons_iff.1 k2
    simp only [Prod.mk.injEq] at k3
    refine ⟨l1, c', l3, rfl, by rw [h2, k3.1], fun b hb => ?_, fun a ha => ?_⟩
    · have : (b.1, b.2.instant, b.2.logLik) ∈ before.map fun c => (c.1, c.2.instant, c.2.logLik) := by
        rw [← k1]; exact List.mem_map.2 ⟨b, hb, rfl⟩
      obtain ⟨b', hb', e⟩ := List.mem_map.1 this
      simp only [Prod.mk.injEq] at e
      rw [k3.2.2, ← e.2.2]
      exact h3 b' hb'
    · have : (a.1, a.2.instant, a.2.logLik) ∈ after.map fun c => (c.1, c.2.instant, c.2.logLik) := by
        rw [← k4]; exact List.mem_map.2 ⟨a, ha, rfl⟩
      obtain ⟨a', ha', e⟩ := List.mem_map.1 this
      simp only [Prod.mk.injEq] at e
      rw [k3.2.2, ← e.2.2]
      exact h4 a' ha'

namespace GmmModel

/-- C97: two usable models with the same classes and settings, each with whatever it has heard before, report the same results after the same stream of
    observations if it is at least as long as every `likelihood_window`.  (The model reports outputs only if it is bimodal.) -/
theorem C97_memory (D : Dens K) (hD : D.Sound) (log exp : K → K) (hexp : ∀ x, 0 < exp x) (M N : GmmModel K) (hM : M.Usable) (hN : N.Usable)
    (hset : N = { M with models := N.models, results := N.results })
    (hsame : List.Forall₂ (fun a b => b.1 = a.1 ∧ Gmm.SameModel a.2 b.2) M.models N.models) (hne : M.models ≠ [])
    (xs : List (List K)) (hw : ∀ lc ∈ M.models, lc.2.window ≤ xs.length) (hx : ∀ x ∈ xs, ∀ lc ∈ M.models, lc.2.Fits x) :
    ∃ M' N', filterAll D log exp xs M = .ret () M' ∧ filterAll D log exp xs N = .ret () N' ∧ M'.Usable ∧ N'.Usable ∧
      N'.results = { M'.results with outVals := N'.results.outVals, outCov := N'.results.outCov } ∧ (M.bimodal = true → N'.results = M'.results) := by
  have hneN : N.models ≠ [] := by intro h; rw [h] at hsame; exact hne (List.forall₂_nil_right_iff.1 hsame)
  have hxs : xs ≠ [] := by
    obtain ⟨a, ha⟩ := List.exists_mem_of_ne_nil _ hne
    have h1 := hw a ha
    have h2 := (hM.cls a ha).1.window
    rintro rfl
    simp at h1
    omega
  obtain ⟨M', c1, c2, c3, c4, c5⟩ := filterAll_ret D hD log exp hexp xs M hM hne hx
  obtain ⟨N', d1, d2, d3, d4, d5⟩ := filterAll_ret D hD log exp hexp xs N hN hneN (fun x hx' lc hlc => by
    rw [List.forall₂_iff_get] at hsame
    obtain ⟨i, hi, rfl⟩ := List.getElem_of_mem hlc
    have hi' : i < M.models.length := by rw [hsame.1]; exact hi
    exact fits_same (hsame.2 i hi' hi).2 x (hx x hx' _ (List.getElem_mem hi')))
  refine ⟨M', N', c1, d1, c2, d2, ?_⟩
  have hl : M.models.length = N.models.length := hsame.length_eq
  have hlm : M.models.length = M'.models.length := c3.length_eq
  have hln : N.models.length = N'.models.length := d3.length_eq
  have hcl : M.bimodal = true → N'.classes = M'.classes := by
    intro hb
    rw [List.forall₂_iff_get] at c3 d3 hsame
    refine List.ext_getElem (by simp [classes]; omega) fun i h1 h2 => ?_
    simp [classes] at h1 h2
    obtain ⟨e1, -, p, e2⟩ := c3.2 i (by omega) h2
    obtain ⟨e3, -, q, e4⟩ := d3.2 i (by omega) h1
    obtain ⟨e5, e6⟩ := hsame.2 i (by omega) (by omega)
    simp only [List.get_eq_getElem] at e1 e2 e3 e4 e5 e6
    have hin : M.models[i] ∈ M.models := List.getElem_mem _
    have hinN : N.models[i] ∈ N.models := List.getElem_mem _
    obtain ⟨t1, b1⟩ := hM.buf _ hin
    obtain ⟨t2, b2⟩ := hN.buf _ hinN
    obtain ⟨ps, m1, m2, g1, g2, -, -, -, g5⟩ := Gmm.C97_class_memory D hD log _ _ e6 (hM.cls _ hin).1 (hN.cls _ hinN).1 t1 t2 b1 b2 xs (hw _ hin)
      (fun x hx' => hx x hx' _ hin)
    rw [e2] at g1
    rw [e4] at g2
    injection g1 with _ g1
    injection g2 with _ g2
    simp only [classes, List.getElem_map]
    rw [e3, e5, e1, g1, g2, g5 ((hM.cls _ hin).2.1.trans hb)]
  have he : N'.classes.map (fun c => (c.1, c.2.instant, c.2.logLik)) = M'.classes.map (fun c => (c.1, c.2.instant, c.2.logLik)) := by
    rw [List.forall₂_iff_get] at c3 d3 hsame
    refine List.ext_getElem (by simp [classes]; omega) fun i h1 h2 => ?_
    simp [classes] at h1 h2
    obtain ⟨e1, -, p, e2⟩ := c3.2 i (by omega) h2
    obtain ⟨e3, -, q, e4⟩ := d3.2 i (by omega) h1
    obtain ⟨e5, e6⟩ := hsame.2 i (by omega) (by omega)
    simp only [List.get_eq_getElem] at e1 e2 e3 e4 e5 e6
    have hin : M.models[i] ∈ M.models := List.getElem_mem _
    have hinN : N.models[i] ∈ N.models := List.getElem_mem _
    obtain ⟨t1, b1⟩ := hM.buf _ hin
    obtain ⟨t2, b2⟩ := hN.buf _ hinN
    obtain ⟨ps, m1, m2, g1, g2, g3, g4, -, -⟩ := Gmm.C97_class_memory D hD log _ _ e6 (hM.cls _ hin).1 (hN.cls _ hinN).1 t1 t2 b1 b2 xs (hw _ hin)
      (fun x hx' => hx x hx' _ hin)
    rw [e2] at g1
    rw [e4] at g2
    injection g1 with _ g1
    injection g2 with _ g2
    simp only [classes, List.map_map, List.getElem_map, Function.comp_apply, Gmm.results]
    rw [e3, e5, e1, g1, g2, g3, g4]
  have hsort : SMap.Sorted (M'.classes : SMap String (ClassRes K)) := by
    have := c2.sorted
    unfold SMap.Sorted at this ⊢
    rw [classes, List.pairwise_map]
    exact this
  have hneM' : M'.classes ≠ [] := by
    intro h
    have h0 := congrArg List.length h
    simp [classes] at h0
    rw [h0] at hlm
    exact hne (List.eq_nil_of_length_eq_zero (by simpa using hlm))
  have hres := summary_unique hsort hneM' (c5 hxs).1 ((d5 hxs).1.of_eq he.symm)
  refine ⟨hres, fun hb => ?_⟩
  have o1 := (c5 hxs).2 hb
  have o2 := (d5 hxs).2 (by rw [hset]; exact hb)
  have hclasses := hcl hb
  have hest : N'.est = M'.est := by rw [d4, c4]; show N.est = M.est; rw [hset]
  have hdout : N'.dout = M'.dout := by rw [d4, c4]; show N.dout = M.dout; rw [hset]
  have hmod : N'.mode = M'.mode := by rw [d4, c4]; show N.mode = M.mode; rw [hset]
  have hlike : N'.results.likeliest = M'.results.likeliest := by rw [hres]
  have hsn : N'.results.smoothedNorm = M'.results.smoothedNorm := by rw [hres]
  have hfin : N'.results.outVals = M'.results.outVals ∧ N'.results.outCov = M'.results.outCov := by
    unfold OutputsOf at o1 o2
    rw [hest] at o2
    cases hE : M'.est with
    | likeliest =>
      rw [hE] at o1 o2
      simp only at o1 o2
      obtain ⟨c, t1, t2, t3⟩ := o1
      obtain ⟨c', t4, t5, t6⟩ := o2
      have w1 : (M'.results.likeliest, c.results) ∈ M'.classes := List.mem_map.2 ⟨_, t1, rfl⟩
      have w2 : (M'.results.likeliest, c'.results) ∈ M'.classes := by
        rw [← hclasses, ← hlike]; exact List.mem_map.2 ⟨_, t4, rfl⟩
      have := find?_unique hsort w1 w2
      unfold Gmm.results at this
      injection this with _ _ t7 t8
      rw [t5, t6, t2, t3]
      exact ⟨t7.symm, t8.symm⟩
    | mixture =>
      rw [hE] at o1 o2
      simp only at o1 o2
      have hlen : N'.models.length = M'.models.length := by omega
      rw [o1.1, o1.2, o2.1, o2.2, hclasses, hsn, hdout, hmod, hlen]
      exact ⟨rfl, rfl⟩
  rw [hres, hfin.1, hfin.2]

/-- C97, after any history: what a model heard before the last `likelihood_window` observations leaves no trace in what it reports. -/
theorem C97_history (D : Dens K) (hD : D.Sound) (log exp : K → K) (hexp : ∀ x, 0 < exp x) (M : GmmModel K) (hM : M.Usable) (hne : M.models ≠ [])
    (pre xs : List (List K)) (hw : ∀ lc ∈ M.models, lc.2.window ≤ xs.length) (hx : ∀ x ∈ pre ++ xs, ∀ lc ∈ M.models, lc.2.Fits x) :
    ∃ M0 M' N', filterAll D log exp pre M = .ret () M0 ∧ filterAll D log exp xs M0 = .ret () M' ∧ filterAll D log exp xs M = .ret () N' ∧
      M'.results = { N'.results with outVals := M'.results.outVals, outCov := M'.results.outCov } ∧ (M.bimodal = true → M'.results = N'.results) := by
  obtain ⟨M0, c1, c2, c3, c4, c5⟩ := filterAll_ret D hD log exp hexp pre M hM hne (fun x hx' => hx x (List.mem_append_left _ hx'))
  obtain ⟨N', M', h1, h2, -, -, h3⟩ := C97_memory D hD log exp hexp M M0 hM c2 c4 (c3.imp fun a b h => ⟨h.1, h.2.1⟩) hne xs hw
    (fun x hx' => hx x (List.mem_append_right _ hx'))
  exact ⟨M0, M', N', c1, h2, h1, h3⟩

/-- The hypotheses of `C97_class_memory` are met by a bimodal mixture; those of `C97_memory` and `C97_history` by the model of two classes of
    `GmmModel.broken_exists` (Props/BrokenSample.lean). -/
example : ∃ m : Gmm ℝ, m.CanFilter ∧ m.bimodal = true ∧ (∃ hist, Logs m.buf m.window hist) ∧ ∃ xs : List (List ℝ), m.window ≤ xs.length ∧ ∀ x ∈ xs, m.Fits x := by
  obtain ⟨g, g1, g2, g3, g4, g5, g6, g7, g8, g9, g10, g11⟩ := Gmm.usable_exists
  exact ⟨g, g1, g2, ⟨_, g5⟩, List.replicate g.window [1], by simp, fun x hx => by
    rw [List.eq_of_mem_replicate hx]
    first | exact g6 | (unfold Gmm.Fits; rw [if_pos g2]; simp [g10])⟩

end GmmModel
end Xmm
