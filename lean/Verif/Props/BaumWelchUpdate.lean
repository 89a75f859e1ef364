import Verif.Props.BaumWelchMStep
set_option linter.unusedSimpArgs false
set_option linter.unusedSectionVars false
/- C73: an iteration of the Baum-Welch algorithm re-estimates all parameters with the posterior probabilities. -/
namespace Xmm
open Phrase (loop)
open Gauss (rd rd_lt)
open Prog (bind_def pure_def get_def set_def modify_def throw_def undef_def)
variable {K : Type} [Field K] [LinearOrder K]

namespace Hmm
variable [IsStrictOrderedRing K]
open HmmSpec GmmSpec RecSpec Gmm

section Trans
variable (m0 m : Hmm K) (d : Nat → List K → Nat → K) (phrases : List (List (List K))) (es : List (EStep K))
  (hes : List.Forall₂ (fun fr e => e.Exact m0 d fr) phrases es) (hn : m.n = m0.n) (he : m.ergodic = m0.ergodic)
include hes hn he

theorem transRow_ergodic (hE : m0.ergodic = true) (i : Nat) (hi : i < m0.n) {σ : Type} (s : σ) :
    transRow m es i s = .ret ((List.range m0.n).map fun j => moves m0 d phrases i j) s := by
  unfold transRow
  rw [he, hE, if_pos rfl, hn]
  refine collect_ret _ _ _ s fun j hj => ?_
  refine sumPhrases_ret m0 d phrases es hes _ _ s fun fr _ e hex => ?_
  rw [hex.len]
  by_cases h : 0 < fr.length
  · rw [if_pos h]
    exact epsSum_ret m0 d phrases es hes fr e hex i j j hi (by simp [Hmm.dests, hE, hj]) s
  · rw [if_neg h, pure_def]
    have : fr.length - 1 = 0 := by omega
    rw [this, Finset.sum_range_zero]

theorem transRow_leftRight (hE : m0.ergodic = false) (i : Nat) (hi : i < m0.n) {σ : Type} (s : σ) :
    transRow m es i s = .ret [moves m0 d phrases i i + (filled phrases : K) * (if i + 1 < m0.n then 1 / 10 ^ 5 else 2 / 10 ^ 5),
      if i + 1 < m0.n then moves m0 d phrases i (i + 1) + (filled phrases : K) * (1 / 10 ^ 5) else 0] s := by
  have z : ∀ j, ∑ t ∈ Finset.range (([] : List (List K)).length - 1), xiOf m0 d [] t i j = 0 := fun j => by simp
  have stay := sumPhrases_ret m0 d phrases es hes (σ := σ) (fun e => if 0 < e.len then do
      let x ← epsSum e i 0
      pure (transReg + (if i < m0.n - 1 then 0 else transReg) + x)
    else pure 0) (fun fr => if 0 < fr.length then (if i + 1 < m0.n then 1 / 10 ^ 5 else 2 / 10 ^ 5) +
      ∑ t ∈ Finset.range (fr.length - 1), xiOf m0 d fr t i i else 0) s (by
      intro fr _ e hex
      simp only [hex.len]
      by_cases h : 0 < fr.length
      · rw [if_pos h, if_pos h, bind_of_ret (epsSum_ret m0 d phrases es hes fr e hex i i 0 hi (by
          simp only [Hmm.dests, hE, Bool.false_eq_true, if_false]; split <;> rfl) s), pure_def]
        congr 2
        unfold transReg
        by_cases hl : i + 1 < m0.n
        · rw [if_pos hl, if_pos (by omega)]; ring
        · rw [if_neg hl, if_neg (by omega)]; ring
      · rw [if_neg h, if_neg h, pure_def])
  rw [sum_filled phrases _ _ (z i)] at stay
  unfold transRow
  rw [he, hE, hn]
  simp only [Bool.false_eq_true, if_false]
  rw [bind_of_ret stay]
  by_cases hl : i + 1 < m0.n
  · have next := sumPhrases_ret m0 d phrases es hes (σ := σ) (fun e => if 0 < e.len then do
        let x ← epsSum e i 1
        pure (transReg + x)
      else pure 0) (fun fr => if 0 < fr.length then 1 / 10 ^ 5 + ∑ t ∈ Finset.range (fr.length - 1), xiOf m0 d fr t i (i + 1) else 0) s (by
        intro fr _ e hex
        simp only [hex.len]
        by_cases h : 0 < fr.length
        · rw [if_pos h, if_pos h, bind_of_ret (epsSum_ret m0 d phrases es hes fr e hex i (i + 1) 1 hi (by
            simp only [Hmm.dests, hE, Bool.false_eq_true, if_false]; rw [if_pos (by omega)]; rfl) s), pure_def]
          rfl
        · rw [if_neg h, if_neg h, pure_def])
    rw [sum_filled phrases _ _ (z _)] at next
    rw [if_pos (by omega), bind_of_ret next, pure_def, if_pos hl, if_pos hl]
    rfl
  · rw [if_neg (by omega), pure_def, if_neg hl, if_neg hl]
    rfl

/-- the transition probabilities -/
theorem estimateTransitions_ret : ∃ l, estimateTransitions es m = .ret () { m with trans := l } ∧
    l.length = (if m0.ergodic then m0.n * m0.n else m0.n * 2) ∧
    (∀ i < m0.n, ∀ j < m0.n, step ({ m with trans := l } : Hmm K) i j = newStep m0 d phrases i j) ∧
    (m0.ergodic = false → l.getD (m0.n * 2 - 1) 0 = 0) := by
  rcases bool_cases m0.ergodic with hE | hE
  · have hc := collect_ret m.n (fun i => (do
        let g ← gammaSum es i
        let r ← transRow m es i
        pure (r.map (fun x => x / (g + 2 * transReg))) : Prog (Hmm K) (List K)))
      (fun i => [moves m0 d phrases i i + (filled phrases : K) * (if i + 1 < m0.n then 1 / 10 ^ 5 else 2 / 10 ^ 5),
        if i + 1 < m0.n then moves m0 d phrases i (i + 1) + (filled phrases : K) * (1 / 10 ^ 5) else 0].map
          fun x => x / (visits m0 d phrases i + 2 / 10 ^ 5)) m (by
      intro i hi
      rw [hn] at hi
      rw [bind_of_ret (gammaSum_ret m0 d phrases es hes i hi m), bind_of_ret (transRow_leftRight m0 m d phrases es hes hn he hE i hi m), pure_def]
      have : (2 * transReg : K) = 2 / 10 ^ 5 := by unfold transReg; ring
      rw [this])
    have hrows := flatten_rows 2 m.n (fun i => [moves m0 d phrases i i + (filled phrases : K) * (if i + 1 < m0.n then 1 / 10 ^ 5 else 2 / 10 ^ 5),
        if i + 1 < m0.n then moves m0 d phrases i (i + 1) + (filled phrases : K) * (1 / 10 ^ 5) else 0].map
          fun x => x / (visits m0 d phrases i + 2 / 10 ^ 5)) (fun i _ => rfl)
    refine ⟨_, by unfold estimateTransitions; rw [bind_of_ret (get_def m), bind_of_ret hc, set_def], ?_, ?_, ?_⟩
    · rw [hrows.1, hE, hn]; rfl
    · intro i hi j hj
      have r0 := hrows.2 i (by omega) 0 (by omega)
      have r1 := hrows.2 i (by omega) 1 (by omega)
      rw [Nat.add_zero] at r0
      unfold step newStep
      simp only [he, hE, Bool.false_eq_true, if_false]
      rw [r0, r1, hn]
      simp only [List.map_cons, List.map_nil, List.getD_cons_zero, List.getD_cons_succ]
      by_cases hji : j = i
      · subst hji
        rw [if_pos rfl, if_pos rfl]
        by_cases hl : j + 1 < m0.n
        · rw [Nat.mod_eq_of_lt hl, if_neg (show ¬ j = j + 1 by omega), add_zero]
        · simp only [hl, if_false, zero_div, ite_self, add_zero]
      · rw [if_neg hji, if_neg hji, zero_add]
        by_cases hl : i + 1 < m0.n
        · rw [Nat.mod_eq_of_lt hl, if_pos hl]
          by_cases hj1 : j = i + 1
          · rw [if_pos hj1, if_pos hj1, hj1]
          · rw [if_neg hj1, if_neg hj1]
        · rw [if_neg (show ¬ j = i + 1 by omega)]
          simp only [hl, if_false, zero_div, ite_self]
    · intro _
      rcases Nat.eq_zero_or_pos m0.n with h0 | hpos
      · rw [hn, h0]; simp
      have r1 := hrows.2 (m0.n - 1) (by omega) 1 (by omega)
      have : (m0.n - 1) * 2 + 1 = m0.n * 2 - 1 := by omega
      rw [this] at r1
      have hlt : ¬ m0.n - 1 + 1 < m0.n := by omega
      rw [r1]
      simp only [hlt, if_false, List.map_cons, List.map_nil, List.getD_cons_succ, List.getD_cons_zero, zero_div]
  · have hc := collect_ret m.n (fun i => (do
        let g ← gammaSum es i
        let r ← transRow m es i
        pure (r.map (fun x => x / (g + 2 * transReg))) : Prog (Hmm K) (List K)))
      (fun i => ((List.range m0.n).map fun j => moves m0 d phrases i j).map fun x => x / (visits m0 d phrases i + 2 / 10 ^ 5)) m (by
      intro i hi
      rw [hn] at hi
      rw [bind_of_ret (gammaSum_ret m0 d phrases es hes i hi m), bind_of_ret (transRow_ergodic m0 m d phrases es hes hn he hE i hi m), pure_def]
      have : (2 * transReg : K) = 2 / 10 ^ 5 := by unfold transReg; ring
      rw [this])
    have hrows := flatten_rows m0.n m.n (fun i => ((List.range m0.n).map fun j => moves m0 d phrases i j).map
      fun x => x / (visits m0 d phrases i + 2 / 10 ^ 5)) (fun i _ => by simp)
    refine ⟨_, by unfold estimateTransitions; rw [bind_of_ret (get_def m), bind_of_ret hc, set_def], ?_, ?_, ?_⟩
    · rw [hrows.1, hE, hn]; rfl
    · intro i hi j hj
      unfold step newStep
      simp only [he, hE, if_true]
      have hr := hrows.2 i (by omega) j hj
      simp only [List.map_map] at hr ⊢
      rw [getD_map_range' _ _ _ hj] at hr
      rw [show m.n = m0.n from hn] at hr ⊢
      exact hr
    · intro h; rw [hE] at h; cases h

end Trans
theorem mem_positions {phrases : List (List (List K))} {p : List (List K) × Nat} (h : p ∈ positions phrases) :
    p.1 ∈ phrases ∧ p.2 < p.1.length := by
  unfold positions at h
  obtain ⟨fr, h1, h2⟩ := List.mem_flatMap.1 h
  obtain ⟨t, h3, rfl⟩ := List.mem_map.1 h2
  exact ⟨h1, List.mem_range.1 h3⟩

theorem emUpdate_of (D : Dens K) (log : K → K) (data : KData K) {m m1 m2 m3 m4 : Hmm K} {es : List (EStep K)} {v : K}
    (h1 : eSteps D log data.phrases m = .ret (es, v) m1) (h2 : estimateStates es data.frames m1 = .ret () m2)
    (h3 : (m2.ergodic = false ∧ m3 = m2) ∨ (m2.ergodic = true ∧ estimatePrior es m2 = .ret () m3))
    (h4 : estimateTransitions es m3 = .ret () m4) : emUpdate D log data m = .ret v m4 := by
  unfold emUpdate
  simp only [bind_def, get_def, h1, h2]
  rcases h3 with ⟨h3, rfl⟩ | ⟨h3, h5⟩
  · simp [h3, h4, bind_def, pure_def]
  · simp [h3, h5, h4, bind_def, pure_def]

/-- the E step and the re-estimation of the states -/
theorem states_ret (D : Dens K) (log : K → K) (hlog : ∀ x y, 0 < x → 0 < y → log (x * y) = log x + log y) (data : KData K)
    (m : Hmm K) (hm : m.InTraining) (d : Nat → List K → Nat → K) (hd : Observes D m data.frames d)
    (hge : ∀ x ∈ data.frames, ∀ i < m.n, ∀ c < m.gaussians, 1 / 10 ^ 180 ≤ d i x c) (hframe : ∀ x ∈ data.frames, x.length = m.dim) (hregLen : ∀ s ∈ m.sts, s.reg.length = m.dim)
    (hreg : ∀ s ∈ m.sts, ∀ i < m.dim, 1 / 10 ^ 9 ≤ s.reg.getD i 0) :
    ∃ (es : List (EStep K)) (a p b q : List K) (l : List (Gmm K)),
      eSteps D log data.phrases m = .ret (es, logTotal log m d data.phrases) (m.scratch a p b q) ∧ a.length = m.n ∧ b.length = m.n ∧
      List.Forall₂ (fun fr e => e.Exact m d fr) data.phrases es ∧
      estimateStates es data.frames (m.scratch a p b q) = .ret () { m.scratch a p b q with sts := l } ∧ l.length = m.n ∧
      ∀ (i : Nat) (s' : Gmm K), l[i]? = some s' → ∃ s, m.sts[i]? = some s ∧
        Gmm.Fitted (positions data.phrases) (fun p => gammaMix m d p.1 p.2 i) frameAt s s' ∧ s'.Ready ∧ s'.Outputs ∧ s'.Inverted := by
  have hfr : ∀ fr ∈ data.phrases, ∀ x ∈ fr, x ∈ data.frames := fun fr hfr x hx => List.mem_flatten.2 ⟨fr, hfr, hx⟩
  have hpost : ∀ fr ∈ data.phrases, _ := fun fr h => posteriors m hm fr d (fun x hx => hge x (hfr fr h x hx))
  obtain ⟨es, a, p, b, q, e1, ha, hb, hes⟩ := eSteps_ret D log hlog m hm d data.phrases hd hge
  have h180 : (0 : K) < 1 / 10 ^ 180 := by positivity
  obtain ⟨l, s1, s2, s3⟩ := estimateStates_ret (m.scratch a p b q) (scratch_wf hm.wf _ _ _ _) (fun s hs => (hm.ready s hs).wf) hregLen hreg
    es (positions data.phrases) (fun i p => gammaMix m d p.1 p.2 i) frameAt (by
      intro p hp
      obtain ⟨p1, p2⟩ := mem_positions hp
      refine hframe _ (hfr _ p1 _ ?_)
      unfold frameAt
      rw [List.getD_eq_getElem?_getD, List.getElem?_eq_getElem p2]; exact List.getElem_mem p2) (by
      intro i hi p hp c hc
      obtain ⟨p1, p2⟩ := mem_positions hp
      have hx : p.1.getD p.2 [] ∈ data.frames := by
        refine hfr _ p1 _ ?_
        rw [List.getD_eq_getElem?_getD, List.getElem?_eq_getElem p2]; exact List.getElem_mem p2
      unfold gammaMix
      refine mul_nonneg (((hpost p.1 p1).1 p.2 p2).1 i hi) ?_
      unfold share
      have hi' : i < m.sts.length := by rw [hm.wf.sts]; exact hi
      have hco : ∀ c, 0 ≤ coeff m i c := fun c => by
        unfold coeff
        rw [List.getElem?_eq_getElem hi']
        exact weights_nonneg (hm.ready _ (List.getElem_mem hi')).coeffs c
      have hlik := likOf_ge m hm.wf hm.ready d _ i hi fun c hc => hge _ hx i hi c hc
      exact div_nonneg (mul_nonneg (hco c) (h180.le.trans (hge _ hx i hi c hc))) (h180.le.trans hlik))
    (fun i hi s => statePost_ret m d data.phrases es hes i hi s)
  rw [frames_positions] at s1
  exact ⟨es, a, p, b, q, l, e1, ha, hb, hes, s1, s2, s3⟩

/-- an iteration of training -/
theorem update_ret (D : Dens K) (log : K → K) (hlog : ∀ x y, 0 < x → 0 < y → log (x * y) = log x + log y) (data : KData K)
    (m : Hmm K) (hm : m.InTraining) (ht : m.Trains data) (d : Nat → List K → Nat → K) (hd : Observes D m data.frames d)
    (hge : ∀ x ∈ data.frames, ∀ i < m.n, ∀ c < m.gaussians, 1 / 10 ^ 180 ≤ d i x c) :
    ∃ m' : Hmm K, emUpdate D log data m = .ret (logTotal log m d data.phrases) m' ∧ m.Reestimated data.phrases d m' ∧
      m'.WF ∧ (∀ s ∈ m'.sts, s.Ready ∧ s.Outputs) ∧ m'.alpha.length = m.n ∧ m'.beta.length = m.n ∧
      (m.ergodic = false → m'.trans.getD (m.n * 2 - 1) 0 = 0) ∧ ∀ s ∈ m'.sts, s.Inverted := by
  have hfr : ∀ fr ∈ data.phrases, ∀ x ∈ fr, x ∈ data.frames := fun fr hfr x hx => List.mem_flatten.2 ⟨fr, hfr, hx⟩
  obtain ⟨es, a, p, b, q, l, e1, ha, hb, hes, s1, s2, s3⟩ := states_ret D log hlog data m hm d hd hge ht.frame ht.regLen ht.reg
  have hpost : ∀ fr ∈ data.phrases, _ := fun fr h => posteriors m hm fr d (fun x hx => hge x (hfr fr h x hx))
  have hstate : ∀ m' : Hmm K, m'.sts = l → ∀ i s s', m.sts[i]? = some s → m'.sts[i]? = some s' →
      Gmm.Fitted (positions data.phrases) (fun p => gammaMix m d p.1 p.2 i) frameAt s s' := by
    intro m' hl i s s' h1 h2
    rw [hl] at h2
    obtain ⟨s0, k1, k2, _⟩ := s3 i s' h2
    rw [h1] at k1
    cases k1
    exact k2
  have hready : ∀ s ∈ l, s.Ready ∧ s.Outputs := by
    intro s hs
    obtain ⟨i, hi, rfl⟩ := List.getElem_of_mem hs
    obtain ⟨_, _, _, k1, k2, _⟩ := s3 i _ (List.getElem?_eq_getElem hi)
    exact ⟨k1, k2⟩
  have hinv : ∀ s ∈ l, s.Inverted := by
    intro s hs
    obtain ⟨i, hi, rfl⟩ := List.getElem_of_mem hs
    obtain ⟨_, _, _, _, _, k⟩ := s3 i _ (List.getElem?_eq_getElem hi)
    exact k
  have hst : ∀ s ∈ l, s.gaussians = m.gaussians ∧ s.mode = m.mode ∧ s.bimodal = m.bimodal ∧ s.dim = m.dim ∧ s.di = m.di := by
    intro s hs
    obtain ⟨i, hi, rfl⟩ := List.getElem_of_mem hs
    obtain ⟨s0, k1, k2, _⟩ := s3 i _ (List.getElem?_eq_getElem hi)
    rw [k2.same]
    exact hm.wf.state s0 (List.mem_of_getElem? k1)
  rcases bool_cases m.ergodic with hE | hE
  · obtain ⟨tr, t1, t2, t3, t4⟩ := estimateTransitions_ret m ({ m.scratch a p b q with sts := l } : Hmm K) d data.phrases es hes rfl rfl
    refine ⟨{ m.scratch a p b q with sts := l, trans := tr }, ?_,
      ⟨rfl, hstate _ rfl, (fun h => absurd h (by simp [hE])), fun _ => rfl, t3⟩,
      ⟨hm.wf.pos, s2, fun h => absurd h (by simp [scratch, hE]), t2, hst⟩, hready, ha, hb, t4, hinv⟩
    exact emUpdate_of D log data e1 s1 (Or.inl ⟨hE, rfl⟩) t1
  · have hne : data.phrases ≠ [] := by
      intro h
      exact ht.some (by simp [KData.frames, h])
    have hpr := estimatePrior_ret m ({ m.scratch a p b q with sts := l } : Hmm K) d data.phrases es hes rfl hne (ht.filled hE)
      (fun fr h => ((hpost fr h).1 0 (List.length_pos_iff.2 (ht.filled hE fr h))).2.1)
    obtain ⟨tr, t1, t2, t3, t4⟩ := estimateTransitions_ret m (
      { m.scratch a p b q with sts := l, prior := (List.range m.n).map fun i => (data.phrases.map fun fr => gammaOf m d fr 0 i).sum / (data.phrases.length : K) } : Hmm K)
      d data.phrases es hes rfl rfl
    refine ⟨{ m.scratch a p b q with
        sts := l, prior := (List.range m.n).map fun i => (data.phrases.map fun fr => gammaOf m d fr 0 i).sum / (data.phrases.length : K), trans := tr },
      ?_, ⟨rfl, hstate _ rfl, fun _ i hi => getD_map_range' _ _ _ hi, (fun h => absurd h (by simp [hE])), t3⟩,
      ⟨hm.wf.pos, s2, fun _ => by simp [scratch], t2, hst⟩, hready, ha, hb, t4, hinv⟩
    exact emUpdate_of D log data e1 s1 (Or.inr ⟨hE, hpr⟩) t1

/-- C73: an iteration of training never fails.  It returns the log-likelihood of the training set under the current parameters, and
    re-estimates all parameters with the posterior probabilities. -/
theorem C73_update (D : Dens K) (hD : D.Sound) (log : K → K) (hlog : ∀ x y, 0 < x → 0 < y → log (x * y) = log x + log y) (data : KData K)
    (m : Hmm K) (hm : m.InTraining) (ht : m.Trains data) :
    ∃ (d : Nat → List K → Nat → K) (m' : Hmm K), Observes D m data.frames d ∧
      (∀ x ∈ data.frames, ∀ i < m.n, ∀ c < m.gaussians, 1 / 10 ^ 180 ≤ d i x c) ∧
      emUpdate D log data m = .ret (logTotal log m d data.phrases) m' ∧ m.Reestimated data.phrases d m' ∧
      m'.WF ∧ (∀ s ∈ m'.sts, s.Ready ∧ s.Outputs) ∧ m'.alpha.length = m.n ∧ m'.beta.length = m.n ∧
      (m.ergodic = false → m'.trans.getD (m.n * 2 - 1) 0 = 0) := by
  obtain ⟨d, h1, h2⟩ := observes_exist D hD m hm.wf hm.ready data.frames ht.frame
  obtain ⟨m', h3, h4, h5, h6, h7, h8, h9, -⟩ := update_ret D log hlog data m hm ht d h1 h2
  exact ⟨d, m', h1, h2, h3, h4, h5, h6, h7, h8, h9⟩

theorem emUpdate_ub (D : Dens K) (log : K → K) (data : KData K) {m m1 m2 : Hmm K} {es : List (EStep K)} {v : K}
    (h1 : eSteps D log data.phrases m = .ret (es, v) m1) (h2 : estimateStates es data.frames m1 = .ret () m2) (h3 : m2.ergodic = true)
    (h4 : estimatePrior es m2 = .ub) : emUpdate D log data m = .ub := by
  unfold emUpdate
  simp only [bind_def, get_def, h1, h2]
  simp [h3, h4, bind_def]

theorem sumPhrases_ub (m : Hmm K) (d : Nat → List K → Nat → K) (phrases : List (List (List K))) (es : List (EStep K)) (hn : 1 ≤ m.n)
    (hes : List.Forall₂ (fun fr e => e.Exact m d fr) phrases es) (he : [] ∈ phrases) {σ : Type} (s : σ) :
    sumPhrases (σ := σ) es (fun e => cell e.gamma 0 0) s = .ub := by
  unfold sumPhrases
  suffices H : ∀ acc : K, (es.foldlM (fun acc e => do
      let x ← cell e.gamma 0 0
      pure (acc + x)) acc : Prog σ K) s = .ub from H 0
  induction hes with
  | nil => simp at he
  | @cons fr e phrases es h1 h2 ih =>
    intro acc
    rw [List.foldlM_cons]
    by_cases hfr : fr = []
    · have hc : cell e.gamma 0 0 s = .ub := by
        rw [h1.gamma, hfr]
        rfl
      simp only [bind_def, hc]
    · have hc : cell e.gamma 0 0 s = .ret (gammaOf m d fr 0 0) s := by
        rw [h1.gamma]
        exact cell_map_range _ _ _ 0 0 (List.length_pos_iff.2 hfr) (by omega) s
      have := ih (by
        rcases List.mem_cons.1 he with h | h
        · exact absurd h.symm hfr
        · exact h) (acc + gammaOf m d fr 0 0)
      simp only [bind_def, hc, pure_def]
      exact this

/-- C73 does not hold for an Ergodic model if a phrase of its class is empty (`baumWelch_estimatePrior` reads the variables of its first
    frame): the behaviour of the program is not defined. -/
theorem C73_empty_phrase_ub (D : Dens K) (hD : D.Sound) (log : K → K) (hlog : ∀ x y, 0 < x → 0 < y → log (x * y) = log x + log y) (data : KData K)
    (m : Hmm K) (hm : m.InTraining) (hframe : ∀ x ∈ data.frames, x.length = m.dim) (hregLen : ∀ s ∈ m.sts, s.reg.length = m.dim)
    (hreg : ∀ s ∈ m.sts, ∀ i < m.dim, 1 / 10 ^ 9 ≤ s.reg.getD i 0) (he : m.ergodic = true) (hempty : [] ∈ data.phrases) :
    emUpdate D log data m = .ub := by
  obtain ⟨d, hd, hge⟩ := observes_exist D hD m hm.wf hm.ready data.frames hframe
  obtain ⟨es, a, p, b, q, l, e1, ha, hb, hes, s1, s2, s3⟩ := states_ret D log hlog data m hm d hd hge hframe hregLen hreg
  have hub : estimatePrior es ({ m.scratch a p b q with sts := l } : Hmm K) = .ub := by
    have hc : ∀ (n : Nat) (M : Hmm K), 1 ≤ n → collect n (fun i => sumPhrases (σ := Hmm K) es (fun e => cell e.gamma 0 i)) M = .ub := by
      intro n M hn
      unfold collect
      induction n with
      | zero => omega
      | succ n ih =>
        rw [loop_succ]
        rcases Nat.eq_zero_or_pos n with rfl | hn'
        · have := sumPhrases_ub m d data.phrases es hm.wf.pos hes hempty M
          simp [loop, bind_def, pure_def, this]
        · rw [ih hn']
    unfold estimatePrior
    simp only [bind_def, get_def, hc _ _ hm.wf.pos]
    simp [scratch, hc _ _ hm.wf.pos]
  exact emUpdate_ub D log data e1 s1 he hub

/-- there are models and training sets of both kinds, with phrases of several lengths -/
theorem trains_exists (e : Bool) : ∃ m : Hmm ℝ, m.InTraining ∧ m.n = 3 ∧ m.gaussians = 2 ∧ m.ergodic = e ∧ Dens.real.Sound ∧
    m.Trains ⟨2, [[[1, 2], [3, 5], [2, 2]], [[0, 1]], [[4, 4], [5, 4]]]⟩ ∧ ∀ x y : ℝ, 0 < x → 0 < y → Real.log (x * y) = Real.log x + Real.log y := by
  obtain ⟨m, h1, h2, h3, h4, h5, h6, h7⟩ := inTraining_exists e
  refine ⟨m, h1, h2, h3, h4, h5, ⟨?_, by simp [KData.frames], by simp, ?_, ?_⟩, fun x y hx hy => Real.log_mul hx.ne' hy.ne'⟩
  · simp [KData.frames, h6]
  · intro s hs
    simp [h7 s hs, h6]
  · intro s hs i hi
    rw [h6] at hi
    rw [h7 s hs]
    interval_cases i <;> norm_num

end Hmm
end Xmm
