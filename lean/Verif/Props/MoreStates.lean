import Verif.Props.Uninitialised
set_option linter.unusedSectionVars false
/- C109, C115: a class of a hierarchy that is trained again with more states than before. -/
namespace Xmm
open TS Prog Gauss
open Hmm HierHmm HierSpec HmmSpec

namespace Hmm

theorem exit_both {n k : Nat} (hk : k < n) : (resize n (lastExit k)).set (n - 1) (1 / 10) = twoExits n k := by
  refine List.ext_getElem (by simp [length_resize, twoExits]) fun j h1 h2 => ?_
  simp only [twoExits, List.length_map, List.length_range] at h2
  rw [List.getElem_set]
  simp only [twoExits, List.getElem_map, List.getElem_range]
  by_cases hj : n - 1 = j
  · rw [if_pos hj, if_pos (.inl (by omega))]
  · rw [if_neg hj]
    have hl : (lastExit k).length = k := by simp [lastExit]
    simp only [resize]
    by_cases hjk : j < k
    · rw [List.getElem_append_left (by simp [hl]; omega)]
      simp only [lastExit, List.getElem_take, List.getElem_map, List.getElem_range]
      by_cases e : j + 1 = k
      · rw [if_pos e, if_pos (.inr e)]
      · rw [if_neg e, if_neg (by omega)]
    · rw [List.getElem_append_right (by simp [hl]; omega), List.getElem_replicate, if_neg (by omega)]

theorem twoExits_value (n k j : Nat) : (twoExits n k).getD j 0 = 0 ∨ (twoExits n k).getD j 0 = 1 / 10 := by
  rw [List.getD_eq_getElem?_getD]
  simp only [twoExits, List.getElem?_map]
  rcases Nat.lt_or_ge j n with h | h
  · rw [List.getElem?_range h]
    simp only [Option.map_some, Option.getD_some]
    split
    · exact .inr rfl
    · exact .inl rfl
  · rw [List.getElem?_eq_none (by simpa using h)]
    exact .inl rfl

end Hmm

variable (f : Format) (hv : f.Valid) (ops : List (RecOp ℝ String)) (ha : Takes.Admissible f ops [])
include hv ha

namespace HierHmm

/-- C109: a class that is trained again with more states than before.  If the training is done, the class is the one that would be trained alone on its own takes, except that it can also be left
    from its former last state, with probability 1/10 as from the last one.  All other classes, the priors, the transitions and the exit probabilities of the hierarchy remain as they are, and the
    model can recognise. -/
theorem C109_more_states (i : Nat) (w0 : World ℝ String) (h0 : w0.sets i = none) (z : ℝ) (D : Dens ℝ) (log : ℝ → ℝ) (lowest pct : ℝ) (P : EmParams) (M : HierHmm ℝ)
    (hlong : Takes.LongEnough (Takes.run f ops []).1 fun l => (M.conf l).n) (hS : M.Settings P) (hD : D.Sound) (hlog : ∀ x y, 0 < x → 0 < y → log (x * y) = log x + log y)
    (hM : M.Holds f) (hmode : f.bimodal = true → ∀ l, (M.conf l).mode = M.mode) (label : String) (hl : ∃ e ∈ (Takes.run f ops []).1, e.2.1 = label) (c : Hmm ℝ)
    (hc : (label, c) ∈ M.models) (hmore : c.n < (M.conf label).n) (cancel : Nat → Bool) {tr : Trainer ℝ} {m : Hmm ℝ}
    (hdone : Hmm.trainedAlone D log (Compare.exact lowest pct) P cancel (fresh f M.window (M.conf label) z) (Takes.data f (Takes.run f ops []).1 label) = .ret tr m) (hd : tr.status = .done) :
    ∃ M' m', recordAndTrainHmmClass z D log (Compare.exact lowest pct) P cancel f i ops w0 label M = .ret () M' ∧ M'.Usable ∧ SMap.keys M'.models = SMap.keys M.models ∧
      (label, m') ∈ M'.models ∧ Hmm.SameClass { m with exitP := twoExits (M.conf label).n c.n } m' ∧
      (∀ l ≠ label, ∀ a b, (l, a) ∈ M.models → (l, b) ∈ M'.models → Hmm.SameClass a b) ∧
      M' = { M with models := M'.models, results := M'.results, front1 := M'.front1, front2 := M'.front2, started := false, dim := f.dim, di := f.di } ∧
      (∀ lc ∈ M'.models, lc.2.bimodal = f.bimodal ∧ lc.2.dim = f.dim ∧ lc.2.di = f.di ∧ lc.2.ergodic = false) := by
  obtain ⟨w, t, h1, h2, h3, -⟩ := recordThen_sim f hv i w0 h0 ops ha
  obtain ⟨n, M3, c1, m1, tr1, a1, ⟨a2, -, a2'⟩, a3, a4, a5, a6, a7, a8, -⟩ := trainLabel_core h1 h2 hv M hM P hS hlong z D hD log hlog lowest pct cancel label hl
  rw [hdone] at a6
  injection a6 with e1 e2
  subst e1 e2
  have hf := (SMap.mem_iff_find? hM.sorted).1 hc
  obtain ⟨r1, hn1, ⟨q, r2⟩, -, r3⟩ := a8 hd
  obtain ⟨r4, r5, r6, r7, r8⟩ := r3 c hf
  obtain ⟨tr', q1, q2, -, -, -, q6, -⟩ := a5
  simp only at q1 q6
  rw [hdone] at q1
  injection q1 with q1 _
  subst q1
  obtain ⟨p1, p2, p3, p4, p5, p6, p7, p8, p9⟩ := q6 hd
  have hcp : 1 ≤ c.n := (hM.cls _ hc).1.can.wf.pos
  have hnm : c1.n = m.n := by rw [r2]; rfl
  rw [hn1, exit_both hmore] at r4
  set m2 : Hmm ℝ := { m with exitP := twoExits (M.conf label).n c.n } with hm2
  have hcan : m2.CanFilter := ⟨⟨p1.can.wf.pos, p1.can.wf.sts, p1.can.wf.prior, p1.can.wf.trans, p1.can.wf.state⟩,
    ⟨p1.can.chain.start_nonneg, p1.can.chain.start_sum, p1.can.chain.step_nonneg, p1.can.chain.step_sum⟩, p1.can.idle, p1.can.window, p1.can.state⟩
  have hin2 : m2.InHierarchy := by
    refine ⟨hcan, p1.hier, ?_, fun k _ => ?_, fun k _ => ?_, p1.trans, p1.last⟩
    · show (twoExits (M.conf label).n c.n).length = m.n
      rw [← hnm, hn1]; simp [twoExits]
    · rcases twoExits_value (M.conf label).n c.n k with h | h <;> (show 0 ≤ (twoExits _ _).getD k 0; rw [h]) <;> norm_num
    · rcases twoExits_value (M.conf label).n c.n k with h | h <;> (show (twoExits _ _).getD k 0 < 1; rw [h]; norm_num)
  have hs2 : m2.SameClass c1 := by
    have e : c1 = withPast q m2 := by rw [r2]; rfl
    rw [e]
    refine withPast_same q hcan ?_
    have e' : c1.exitP = q.exitP := by rw [r2]; rfl
    exact e'.symm.trans r4
  have hin1 : c1.InHierarchy := hs2.inHierarchy hin2
  have hkeys3 : SMap.keys M3.models = SMap.keys M.models := keys_same a3 hM.sorted fun l => by
    rw [SMap.mem_keys_iff, SMap.mem_keys_iff, a7]
    by_cases hll : l = label
    · simp [hll, hd, hf]
    · simp [hll]
  have hlen : M3.models.length = M.models.length := by simpa [SMap.keys] using congrArg List.length hkeys3
  have b1 : M3.training = false := by rw [a4]; exact hM.idle
  have b2 : M3.hier = true := by rw [a4]; exact hM.hier
  have b3 : M3.nulls = [] := by rw [a4]; exact hM.nulls
  have hmem : ∀ lc ∈ M3.models, lc = (label, c1) ∨ lc.1 ≠ label ∧ lc ∈ M.models := by
    intro lc hlc
    have e1 := (SMap.mem_iff_find? a3 (k := lc.1) (v := lc.2)).1 hlc
    rw [a7] at e1
    by_cases hll : lc.1 = label
    · rw [if_pos hll, if_pos hd] at e1
      injection e1 with e1
      exact .inl (Prod.ext hll e1.symm)
    · rw [if_neg hll] at e1
      exact .inr ⟨hll, SMap.mem_of_find? e1⟩
  have hgood : ∀ lc ∈ M3.models, lc.2.InHierarchy ∧ BufOk lc.2.buf ∧ lc.2.bimodal = f.bimodal ∧ lc.2.dim = f.dim ∧ lc.2.di = f.di ∧ lc.2.ergodic = false ∧
      (f.bimodal = true → lc.2.mode = M.mode) := by
    intro lc hlc
    rcases hmem lc hlc with rfl | ⟨-, h⟩
    · obtain ⟨_, f2, _, _, _, _, f7, _, f9, f10, f11, _⟩ := hs2.facts
      exact ⟨hin1, r1, f7.trans p3, f9.trans p4, f10.trans p5, f2.trans p7, fun hb => (f11.trans p6).trans (hmode hb label)⟩
    · obtain ⟨_, hist, hb⟩ := hM.buf _ h
      obtain ⟨g1, g2, g3, g4, g5, g6⟩ := hM.cls _ h
      exact ⟨g1, Logs.bufOk hb, g2, g3, g4, g6, fun hb => hM.mode hb _ h⟩
  obtain ⟨N, n1, n2, n3, n3a, n3b, n3c, n4⟩ := reset_classes M3 b1 b2 b3 fun lc hlc => ⟨(hgood lc hlc).1, (hgood lc hlc).2.1⟩
  have n5 : updateTransitionParameters N = .ret () N := by
    unfold updateTransitionParameters
    rw [bind_of_ret (get_def N), if_pos]
    · rfl
    · have e1 : N.nulls = [] := by rw [n2]; exact b3
      have e2 : N.prior = M3.prior := by rw [n2]
      simp only [size, e1, e2, n3, hlen, r6, hM.top.prior]
      rfl
  have hsame : SameClasses M3 N := ⟨n3, fun k lc hk => by obtain ⟨m', s1, s2, -⟩ := n4 k lc hk; exact ⟨m', s1, s2⟩⟩
  have hsortN := hsame.sorted a3
  have hkN : SMap.keys N.models = SMap.keys M.models := Eq.trans hsame.keys hkeys3
  have hc1 : (label, c1) ∈ M3.models := (SMap.mem_iff_find? a3).2 (by rw [a7, if_pos rfl, if_pos hd])
  obtain ⟨k, hk, ek⟩ := List.getElem_of_mem hc1
  obtain ⟨m', s1, s2, -⟩ := n4 k (label, c1) (by rw [← ek]; exact List.getElem?_eq_getElem hk)
  have hN : N = { M with models := N.models, results := N.results, front1 := N.front1, front2 := N.front2, started := false, dim := f.dim, di := f.di } := by
    rw [n2, a4]
    simp only [r6, r7, r8]
  have hfmt : ∀ lc ∈ N.models, lc.2.InHierarchy ∧ BufOk lc.2.buf ∧ lc.2.bimodal = f.bimodal ∧ lc.2.dim = f.dim ∧ lc.2.di = f.di ∧ lc.2.ergodic = false ∧
      (f.bimodal = true → lc.2.mode = M.mode) ∧ Logs lc.2.buf lc.2.window [] := by
    intro lc hlc
    obtain ⟨j, a, e1, e2, e3, e4⟩ := hsame.back hlc
    obtain ⟨g1, -, g3, g4, g5, g6, g7⟩ := hgood a (mem_of_get e1)
    obtain ⟨x, x1, -, x2⟩ := n4 j a e1
    rw [e2] at x1
    cases x1
    obtain ⟨_, f2, _, _, _, _, f7, _, f9, f10, f11, _⟩ := e4.facts
    exact ⟨e4.inHierarchy g1, Logs.bufOk x2, f7.trans g3, f9.trans g4, f10.trans g5, f2.trans g6, fun hb => f11.trans (g7 hb), x2⟩
  have hbi : N.bimodal = f.bimodal := by rw [hN]; exact hM.bimodal
  have hNs : N.started = false := by rw [hN]
  refine ⟨N, m', ?_, ⟨⟨?_, ?_, fun lc hlc => ?_, by rw [n3a, n3], by rw [n3b, n3]⟩, ?_, ?_, hsortN, by rw [n3]; exact n3c, fun lc hlc => ?_, fun hb lc hlc => ?_, fun lc hlc => ?_, fun h => ?_,
    fun lc hlc he => ?_⟩, hkN, mem_of_get s1, hs2.trans s2, fun l hll a b hla hlb => ?_, hN, fun lc hlc => ?_⟩
  · unfold recordAndTrainHmmClass
    rw [h3, a1, bind_of_ret n1, n5]
  · rw [hN]; exact hM.idle
  · refine TopAt.top ?_
    rw [n3, hlen]
    exact (topAt_of_top hM.top).congr (by rw [hN]) (by rw [hN]) (by rw [hN])
  · exact ⟨(hfmt lc hlc).1, (hfmt lc hlc).2.2.1.trans hbi.symm⟩
  · rw [hN]; exact hM.hier
  · rw [hN]; exact hM.nulls
  · obtain ⟨-, -, -, g4, g5, -⟩ := hfmt lc hlc
    rw [g4, g5, hN]
  · rw [(hfmt lc hlc).2.2.2.2.2.2.1 (hbi.symm.trans hb), hN]
  · exact ⟨[], (hfmt lc hlc).2.2.2.2.2.2.2⟩
  · rw [hNs] at h; cases h
  · rw [(hfmt lc hlc).2.2.2.2.2.1] at he; cases he
  · obtain ⟨j, a', e1, -, e3, e4⟩ := hsame.back hlb
    simp only at e3 e4
    rcases hmem a' (mem_of_get e1) with h | ⟨-, h⟩
    · rw [h] at e3
      exact absurd e3 hll
    · have : a = a'.2 := class_unique hM.sorted hla (by rw [e3]; exact h)
      rw [this]; exact e4
  · obtain ⟨-, -, g3, g4, g5, g6, -⟩ := hfmt lc hlc
    exact ⟨g3, g4, g5, g6⟩

/-- **C115 (partial), one class that gets more states.**  For two hierarchical models with the same parameters and the same classes, whatever they have recognised and whatever the memory holds that is
    not initialised, after the session and `train` on a class that has fewer states than it is configured to have now, if that training is done, both have the same classes, and they report
    the same likelihoods and results on every stream of observations.
    (If it is not done: `C115_any_class_partial`.)  Missing: Ergodic classes and the mode Background. -/
theorem C115_class_more_states_partial (i j : Nat) (v0 w0 : World ℝ String) (hv0 : v0.sets i = none) (hw0 : w0.sets j = none)
    (M N : HierHmm ℝ) (hM : M.Holds f) (hN : N.Holds f) (hsame : HierHmm.SameClasses M N)
    (hrest : N = { M with models := N.models, results := N.results, front1 := N.front1, front2 := N.front2, started := N.started })
    (P : EmParams) (hS : M.Settings P) (hlong : Takes.LongEnough (Takes.run f ops []).1 fun l => (M.conf l).n) (hm : f.bimodal = true → ∀ l, (M.conf l).mode = M.mode)
    (z z' : ℝ) (D : Dens ℝ) (hD : D.Sound) (log : ℝ → ℝ) (hlog : ∀ x y, 0 < x → 0 < y → log (x * y) = log x + log y) (lowest pct : ℝ) (cancel : Nat → Bool)
    (label : String) (hl : ∃ e ∈ (Takes.run f ops []).1, e.2.1 = label) (c : Hmm ℝ) (hc : (label, c) ∈ M.models) (hmore : c.n < (M.conf label).n)
    (hdone : ∃ m, Done z D log (Compare.exact lowest pct) P (fun _ => cancel) f (Takes.run f ops []).1 M.conf M.window label m) :
    ∃ M' N', recordAndTrainHmmClass z D log (Compare.exact lowest pct) P cancel f i ops v0 label M = .ret () M' ∧
      recordAndTrainHmmClass z' D log (Compare.exact lowest pct) P cancel f j ops w0 label N = .ret () N' ∧ M'.Usable ∧ N'.Usable ∧ SMap.keys M'.models = SMap.keys M.models ∧
      SMap.keys N'.models = SMap.keys M'.models ∧
      ∀ exp : ℝ → ℝ, ∀ xs, xs ≠ [] → (∀ x ∈ xs, f.Sample x) →
        ∃ rs A B, (do HierHmm.reset; HierHmm.filterAll D log exp xs) M' = .ret rs A ∧ (do HierHmm.reset; HierHmm.filterAll D log exp xs) N' = .ret rs B ∧ HierHmm.SameResults A B := by
  have hconf : N.conf = M.conf := by rw [hrest]
  have hwin : N.window = M.window := by rw [hrest]
  have hmode : N.mode = M.mode := by rw [hrest]
  have hSN : N.Settings P := ⟨by rw [hwin]; exact hS.window, hS.minIter, by rw [hconf]; exact hS.states, by rw [hconf]; exact hS.gaussians, by rw [hconf]; exact hS.absReg,
    by rw [hconf]; exact hS.leftRight⟩
  obtain ⟨w, t, s1, -⟩ := recordThen_sim f hv i v0 hv0 ops ha
  obtain ⟨m, tr, p1, p2⟩ := hdone
  obtain ⟨k, hk, ek⟩ := List.getElem_of_mem hc
  obtain ⟨d, d1, d2⟩ := hsame.2 k (label, c) (by rw [← ek]; exact List.getElem?_eq_getElem hk)
  have hdn : d.n = c.n := d2.facts.1
  obtain ⟨⟨m0, st0⟩, tr0, q1, q2, -⟩ := class_trained s1 hv hS hlong z' D hD log hlog lowest pct (fun _ => cancel) label hl
  simp only at q1 q2
  obtain ⟨k1, k2⟩ := alone_uninit s1 hv hS hlong z z' D hD log hlog lowest pct cancel label hl p1 q1
  obtain ⟨k3, k4⟩ := k2 p2
  obtain ⟨M', x, a1, a2, a3, a4, a5, a6, a7, a8⟩ := C109_more_states f hv ops ha i v0 hv0 z D log lowest pct P M hlong hS hD hlog hM hm label hl c hc hmore cancel p1 p2
  obtain ⟨N', y, b1, b2, b3, b4, b5, b6, b7, b8⟩ := C109_more_states f hv ops ha j w0 hw0 z' D log lowest pct P N (by rw [hconf]; exact hlong) hSN hD hlog hN
    (fun hb l => by rw [hconf, hmode]; exact hm hb l) label hl d (List.mem_of_getElem? d1) (by rw [hconf, hdn]; exact hmore) cancel (by rw [hconf, hwin]; exact q1) (k1.trans p2)
  have hkk : SMap.keys N'.models = SMap.keys M'.models := b3.trans (Eq.trans hsame.keys a3.symm)
  rw [hconf, hdn] at b5
  have hxy : Hmm.SameClass x y := by
    have hs : Hmm.SameClass { m with exitP := twoExits (M.conf label).n c.n } { m0 with exitP := twoExits (M.conf label).n c.n } := by
      refine ⟨?_, k3.2⟩
      have e := k3.1
      clear * - e
      cases m; cases m0
      simp only [Hmm.mk.injEq] at e ⊢
      tauto
    have hcan : Hmm.CanFilter ({ m with exitP := twoExits (M.conf label).n c.n } : Hmm ℝ) := ⟨⟨k4.wf.pos, k4.wf.sts, k4.wf.prior, k4.wf.trans, k4.wf.state⟩,
      ⟨k4.chain.start_nonneg, k4.chain.start_sum, k4.chain.step_nonneg, k4.chain.step_sum⟩, k4.idle, k4.window, k4.state⟩
    exact (HierHmm.SameClass.symm a5 hcan).trans (hs.trans b5)
  have hcls : ∀ l u v, (l, u) ∈ M'.models → (l, v) ∈ N'.models → Hmm.SameClass u v := by
    intro l u v hu hw
    by_cases hll : l = label
    · subst hll
      cases class_unique a2.sorted hu a4
      cases class_unique b2.sorted hw b4
      exact hxy
    · have hin : l ∈ SMap.keys M.models := by rw [← a3]; exact mem_keys_models.2 ⟨u, hu⟩
      obtain ⟨u0, hu0⟩ := mem_keys_models.1 hin
      obtain ⟨r, hr, er⟩ := List.getElem_of_mem hu0
      obtain ⟨v0', g1, g2⟩ := hsame.2 r (l, u0) (by rw [← er]; exact List.getElem?_eq_getElem hr)
      exact (HierHmm.SameClass.symm (a6 l hll u0 u hu0 hu) (hM.cls _ hu0).1.can).trans (g2.trans (b6 l hll v0' v (List.mem_of_getElem? g1) hw))
  refine ⟨M', N', a1, b1, a2, b2, a3, hkk, fun exp xs hxs hx => ?_⟩
  refine same_filters D hD log exp M' N' a2.trained b2.trained (List.ne_nil_of_mem a4) (fun lc hlc => (a8 lc hlc).2.2.2) (classes_same hkk.symm hcls) ?_ xs hxs (fun x hx' lc hlc => ?_)
  · rw [b7, a7, hrest]
  · obtain ⟨e1, e2, e3, -⟩ := a8 lc hlc
    have := hx x hx'
    unfold Format.Sample at this
    unfold Hmm.Fits
    rw [e1, e2, e3]
    exact this

/-- **C115 (partial), one class.**  As `C115_class_partial`, whatever the number of states of the class was before: what `train` on one class gives depends on the takes of the class and on the
    parameters of the model and of its classes only.
    Missing: Ergodic classes and the mode Background. -/
theorem C115_any_class_partial (i j : Nat) (v0 w0 : World ℝ String) (hv0 : v0.sets i = none) (hw0 : w0.sets j = none)
    (M N : HierHmm ℝ) (hM : M.Holds f) (hN : N.Holds f) (hsame : HierHmm.SameClasses M N)
    (hrest : N = { M with models := N.models, results := N.results, front1 := N.front1, front2 := N.front2, started := N.started })
    (P : EmParams) (hS : M.Settings P) (hlong : Takes.LongEnough (Takes.run f ops []).1 fun l => (M.conf l).n) (hm : f.bimodal = true → ∀ l, (M.conf l).mode = M.mode)
    (z z' : ℝ) (D : Dens ℝ) (hD : D.Sound) (log : ℝ → ℝ) (hlog : ∀ x y, 0 < x → 0 < y → log (x * y) = log x + log y) (lowest pct : ℝ) (cancel : Nat → Bool)
    (label : String) (hl : ∃ e ∈ (Takes.run f ops []).1, e.2.1 = label) :
    ∃ M' N', recordAndTrainHmmClass z D log (Compare.exact lowest pct) P cancel f i ops v0 label M = .ret () M' ∧
      recordAndTrainHmmClass z' D log (Compare.exact lowest pct) P cancel f j ops w0 label N = .ret () N' ∧ M'.Usable ∧ N'.Usable ∧ SMap.keys N'.models = SMap.keys M'.models ∧
      (M'.models ≠ [] → ∀ exp : ℝ → ℝ, ∀ xs, xs ≠ [] → (∀ x ∈ xs, f.Sample x) →
        ∃ rs A B, (do HierHmm.reset; HierHmm.filterAll D log exp xs) M' = .ret rs A ∧ (do HierHmm.reset; HierHmm.filterAll D log exp xs) N' = .ret rs B ∧ HierHmm.SameResults A B) := by
  by_cases h : ∃ c, (label, c) ∈ M.models ∧ c.n < (M.conf label).n ∧
      ∃ m, Done z D log (Compare.exact lowest pct) P (fun _ => cancel) f (Takes.run f ops []).1 M.conf M.window label m
  · obtain ⟨c, h1, h2, h3⟩ := h
    obtain ⟨M', N', a1, a2, a3, a4, -, a6, a7⟩ := C115_class_more_states_partial f hv ops ha i j v0 w0 hv0 hw0 M N hM hN hsame hrest P hS hlong hm z z' D hD log hlog lowest pct cancel label hl c
      h1 h2 h3
    exact ⟨M', N', a1, a2, a3, a4, a6, fun _ => a7⟩
  · refine class_same f hv ops ha i j v0 w0 hv0 hw0 M N hM hN hsame hrest P hS hlong hm z z' D hD log hlog lowest pct cancel label hl fun c hc hd => ?_
    by_contra hn
    obtain ⟨tr, m, e1, e2⟩ := hd
    exact h ⟨c, hc, not_le.1 hn, m, tr, e1, e2⟩

/-- C109: a training that is not done.  Whatever the number of states of the class was before, the class does not exist afterwards; all other classes remain as they are, and the model can
    recognise. -/
theorem C109_not_done (i : Nat) (w0 : World ℝ String) (h0 : w0.sets i = none) (z : ℝ) (D : Dens ℝ) (log : ℝ → ℝ) (lowest pct : ℝ) (P : EmParams) (M : HierHmm ℝ)
    (hlong : Takes.LongEnough (Takes.run f ops []).1 fun l => (M.conf l).n) (hS : M.Settings P) (hD : D.Sound) (hlog : ∀ x y, 0 < x → 0 < y → log (x * y) = log x + log y)
    (hM : M.Holds f) (hmode : f.bimodal = true → ∀ l, (M.conf l).mode = M.mode) (label : String) (hl : ∃ e ∈ (Takes.run f ops []).1, e.2.1 = label) (cancel : Nat → Bool)
    (hfail : ¬ ∃ m, Done z D log (Compare.exact lowest pct) P (fun _ => cancel) f (Takes.run f ops []).1 M.conf M.window label m) :
    ∃ M', recordAndTrainHmmClass z D log (Compare.exact lowest pct) P cancel f i ops w0 label M = .ret () M' ∧ M'.Usable ∧ M'.Holds f ∧ label ∉ SMap.keys M'.models ∧
      (∀ l ≠ label, (∀ m', (l, m') ∈ M'.models → ∃ m, (l, m) ∈ M.models ∧ Hmm.SameClass m m') ∧ (∀ m, (l, m) ∈ M.models → ∃ m', (l, m') ∈ M'.models ∧ Hmm.SameClass m m')) ∧
      M'.UniformAt M'.models.length := by
  obtain ⟨w, t, h1, h2, h3, -⟩ := recordThen_sim f hv i w0 h0 ops ha
  obtain ⟨M', g1, g2, g3, -, -, -, -, -, g5, -, -, g7, -⟩ := trainLabel_of_sim' h1 h2 hv M hM P hS hlong hmode z D hD log hlog lowest pct cancel label hl fun c hc hd => by
    obtain ⟨tr, m, e1, e2⟩ := hd
    exact absurd ⟨m, tr, e1, e2⟩ hfail
  have hout : label ∉ SMap.keys M'.models := by
    obtain ⟨tr, m, e1, -, e2⟩ := g5.replaced
    rcases e2 with ⟨e2, -⟩ | ⟨e2, -⟩
    · exact absurd ⟨m, tr, e1, e2⟩ hfail
    · exact e2
  exact ⟨M', by unfold recordAndTrainHmmClass; rw [h3]; exact g1, g2, g3, hout, g5.others, g7 (.inr hout)⟩

omit hv ha in
/-- the hypotheses of the theorems are met: the session of `retrain_example`, and a model in which the class "a" has fewer states than configured; its training is done, or not if it is cancelled -/
theorem more_states_example : sessionFormat.Valid ∧ Takes.Admissible sessionFormat sessionA [] ∧ (∃ e ∈ (Takes.run sessionFormat sessionA []).1, e.2.1 = "a") ∧ bigDens.Sound ∧
    ∃ (M : HierHmm ℝ) (c : Hmm ℝ), M.Holds sessionFormat ∧ M.Settings ⟨5, 10⟩ ∧ (∀ l, (M.conf l).mode = M.mode) ∧ SameClasses M M ∧
      (Takes.LongEnough (Takes.run sessionFormat sessionA []).1 fun l => (M.conf l).n) ∧ ("a", c) ∈ M.models ∧ c.n < (M.conf "a").n ∧
      (∀ z lowest pct, ∃ m, Done z bigDens Real.log (Compare.exact lowest pct) ⟨5, 10⟩ (fun _ _ => false) sessionFormat (Takes.run sessionFormat sessionA []).1 M.conf M.window "a" m) ∧
      ∀ z lowest pct, ¬ ∃ m, Done z bigDens Real.log (Compare.exact lowest pct) ⟨5, 10⟩ (fun _ _ => true) sessionFormat (Takes.run sessionFormat sessionA []).1 M.conf M.window "a" m := by
  obtain ⟨-, a2, a3, a4, a5, a6, a7, a8, -, -, ⟨M, c, b1, b2, b3, b4, b5, b6⟩, a9, a10⟩ := retrain_example
  refine ⟨a3, a4, (a8 "a").1 (by simp), a7, M, c, b1, ⟨by rw [b4]; norm_num, a2.minIter, fun l => ?_, fun l => ?_, fun l => ?_, fun l => ?_⟩, fun l => ?_,
    ⟨rfl, fun k lc hk => ⟨lc.2, hk, SameClass.refl (b1.cls lc (List.mem_of_getElem? hk)).1.can⟩⟩, ?_, b5, b6, fun z lowest pct => ?_, fun z lowest pct => by rw [b2, b4]; exact a10 z lowest pct⟩
  · rw [b2]; exact a2.states l
  · rw [b2]; exact a2.gaussians l
  · rw [b2]; exact a2.absReg l
  · rw [b2]; exact a2.leftRight l
  · rw [b2, b3]; exact a6 l
  · rw [b2]; exact a5
  · obtain ⟨tr, m, e1, e2⟩ := a9 z lowest pct
    exact ⟨m, tr, by rw [b2, b4]; exact e1, e2⟩

end HierHmm
end Xmm
