import Verif.Props.HierProperties
set_option linter.unusedSimpArgs false
set_option linter.unusedSectionVars false
/- C46, C72, C75: the results of each class of a hierarchical model. -/
namespace Xmm
open Phrase (loop)
open Gauss (rd rd_lt resize)
open Prog (bind_def pure_def get_def set_def modify_def throw_def undef_def)

namespace HierHmm
variable {K : Type} [Field K] [LinearOrder K] [IsStrictOrderedRing K]
open HierSpec Hmm
open HmmSpec (occ outWeight covWeight Windowed)

/-- a class of the model after the stream `pre ++ [x]` -/
structure Last (D : Dens K) (log : K → K) (M : HierHmm K) (pre : List (List K)) (x : List K) (c : Nat) (l : Hmm K)
    (Mp : HierHmm K) (b : Nat → Nat → K) (v w : Nat → List K) (M' : HierHmm K) (m m' : Hmm K) : Prop where
  usable : Mp.Usable
  started : Mp.started = true ↔ pre ≠ []
  same : SameClasses M Mp
  exitTrans : Mp.exitTrans = M.exitTrans
  emits : HierSpec.Emits D Mp x b
  pos : ∀ c k, c < M.models.length → k < HierSpec.states M c → 0 < b c k
  cls : l.SameClass m
  cls' : l.SameClass m'
  reported : ∃ hist, (heardClass Mp b c m).Reported log hist v w m'
  alpha : ∀ e, ∀ k < l.n, (m'.alphaOf e).getD k 0 = if pre = [] then first3 Mp b e c k else next3 Mp b e c k
  predicts : l.bimodal = true → HmmSpec.Predicts D l x v w
  usable' : M'.Usable
  started' : M'.started = true
  same' : SameClasses M M'
  mass : mass M' ≤ 1
  zero : 0 < leaving M' 0 c

theorem class_last (D : Dens K) (hD : D.Sound) (log exp : K → K) (M : HierHmm K) (hM : M.Trained) (pre : List (List K)) (x : List K)
    (hx : ∀ y ∈ pre ++ [x], ∀ lc ∈ M.models, lc.2.Fits y) (c : Nat) (lc : String × Hmm K) (hlc : M.models[c]? = some lc) :
    ∃ M0 ps Mp b v w r M' m m', reset M = .ret () M0 ∧ filterAll D log exp pre M0 = .ret ps Mp ∧
      filterAll D log exp (pre ++ [x]) M0 = .ret (ps ++ [r]) M' ∧
      Mp.models[c]? = some (lc.1, m) ∧ M'.models[c]? = some (lc.1, m') ∧ Last D log M pre x c lc.2 Mp b v w M' m m' := by
  have hne : M.models ≠ [] := by rintro h; rw [h] at hlc; simp at hlc
  obtain ⟨M0, _, _, h1, h2, h3, h4, h5, h6, _⟩ := run_ret D hD log exp M hM hne [] (by simp)
  obtain ⟨ps, Mp, b, v, w, M', k1, k2, k3, k4, k5, k6, k7, k8, k9⟩ := stream_last D hD log exp x pre M0 h2 (h4.ne hne)
    (fun y hy => h4.fits (hx y hy))
  have hsame : SameClasses M Mp := ⟨k3.same.1.trans h4.1, fun c lc hlc => by
    obtain ⟨m0, e1, e2⟩ := h4.2 c lc hlc
    obtain ⟨m1, e3, e4⟩ := k3.same.2 c _ e1
    exact ⟨m1, e3, e2.trans e4⟩⟩
  have hst : Mp.started = true ↔ pre ≠ [] := by
    constructor
    · rintro h rfl
      simp only [filterAll, pure_def] at k1
      cases k1
      rw [h3] at h; cases h
    · intro h
      exact (k3.summary (fun h0 => h (List.eq_nil_of_length_eq_zero (by rw [← k2, h0]; rfl)))).2.2.2
  obtain ⟨m, e1, e2⟩ := hsame.2 c lc hlc
  obtain ⟨m', e3, e4, _⟩ := k5.cls c _ e1
  have hcan := (k3.usable.ready.cls _ (mem_of_get e1)).1.can
  have hbuf := k3.usable.buf _ (mem_of_get e1)
  have hs' := k5.sameClasses k3.usable
  have hnep := hsame.ne hne
  refine ⟨M0, ps, Mp, b, v c, w c, M'.results.inst, M', m, m', h1, k1, k9, e1, e3, ⟨k3.usable, hst, hsame, ?_, k6, ?_, e2, e2.trans (e4.sameClass hcan hbuf), ?_, ?_, ?_,
    k5.usable, k5.started, ⟨hs'.1.trans hsame.1, fun c lc hlc => ?_⟩, ?_, ?_⟩⟩
  · rw [k3.keep, h6]
  · exact fun c k hc hk => k8 c k (by rw [hsame.1]; exact hc) (by rw [hsame.states]; exact hk)
  · obtain ⟨hist, hh⟩ := hbuf
    exact ⟨hist, (e4 hist hh).1⟩
  · intro e k hk
    have hc' : c < Mp.models.length := lt_of_get e1
    have hk' : k < HierSpec.states Mp c := by rw [states_of e1]; rw [e2.facts.1]; exact hk
    have := k5.alpha e c k
    rw [alpha_of e3] at this
    rw [this]
    by_cases hp : pre = []
    · rw [if_pos hp]
      exact heard_first (by rcases bool_cases Mp.started with h | h; exacts [h, absurd hp (hst.1 h)]) b e c k hc' hk'
    · rw [if_neg hp]
      exact heard_next (hst.2 hp) b e c k hc' hk'
  · intro hb
    have hb' : Mp.bimodal = true := by
      rw [← (k3.usable.ready.cls _ (mem_of_get e1)).2]
      show m.bimodal = true
      rw [e2.facts.2.2.2.2.2.2.1]; exact hb
    exact (SameClass.symm e2 (hM.cls lc (mem_of_get hlc)).1.can).predicts (k7 hb' c _ e1)
  · obtain ⟨m0, f1, f2⟩ := hsame.2 c lc hlc
    obtain ⟨m1, f3, f4⟩ := hs'.2 c _ f1
    exact ⟨m1, f3, f2.trans f4⟩
  · rw [k5.mass k3.usable]
    rcases bool_cases Mp.started with h | h
    · rw [(first_distribution k3.usable h hnep k8).2]
      have h7 := evidence0_pos k3.usable hnep k8
      have h8 := stale_nonneg k3.usable
      rw [div_le_one (by linarith)]
      linarith
    · exact (next_distribution k3.usable h hnep k8).sum.le
  · exact (k5.usable.alpha k5.started).2.2 c (by rw [k5.len]; exact lt_of_get e1)

variable {D : Dens K} {log : K → K} {M : HierHmm K} {pre : List (List K)} {x : List K} {c : Nat} {l : Hmm K} {Mp : HierHmm K}
  {b : Nat → Nat → K} {v w : Nat → List K} {M' : HierHmm K} {m m' : Hmm K}

theorem Last.hier (h : Last D log M pre x c l Mp b v w M' m m') (hl : l.hier = true) (k : Nat) :
    occ m' k = m'.alpha0.getD k 0 + m'.alpha1.getD k 0 := by
  unfold occ
  rw [if_pos (by rw [h.cls'.facts.2.2.2.2.2.1]; exact hl)]

theorem Last.nonneg (h : Last D log M pre x c l Mp b v w M' m m') {s : String} (hm : M'.models[c]? = some (s, m')) :
    ∀ k, 0 ≤ m'.alpha0.getD k 0 ∧ 0 ≤ m'.alpha1.getD k 0 ∧ 0 ≤ m'.alpha2.getD k 0 := by
  intro k
  have := (h.usable'.alpha h.started').2.1
  have a0 := this 0 c k
  have a1 := this 1 c k
  have a2 := this 2 c k
  rw [alpha_of hm] at a0 a1 a2
  exact ⟨a0, a1, a2⟩

theorem Last.occ_nonneg (h : Last D log M pre x c l Mp b v w M' m m') {s : String} (hm : M'.models[c]? = some (s, m')) (hl : l.hier = true) (k : Nat) :
    0 ≤ occ m' k := by
  rw [h.hier hl]
  exact add_nonneg (h.nonneg hm k).1 (h.nonneg hm k).2.1

theorem Last.occ_pos (h : Last D log M pre x c l Mp b v w M' m m') {s : String} (hm : M'.models[c]? = some (s, m')) (hl : l.hier = true) :
    0 < ∑ k ∈ Finset.range m'.n, occ m' k := by
  refine lt_of_lt_of_le h.zero ?_
  unfold leaving
  rw [states_of hm]
  refine Finset.sum_le_sum fun k _ => ?_
  rw [alpha_of hm, h.hier hl]
  have := (h.nonneg hm k).2.1
  simp only [alphaOf]
  linarith

theorem Last.windowed (h : Last D log M pre x c l Mp b v w M' m m') : Windowed m' := by
  obtain ⟨hist, hr⟩ := h.reported
  exact hr.windowed

/-- the exits to the root, for a bound of the exit probabilities -/
theorem Last.root_le (h : Last D log M pre x c l Mp b v w M' m m') {s t : String} (hm : M'.models[c]? = some (s, m'))
    (hmp : Mp.models[c]? = some (t, m)) (hl : l.hier = true) {τ : K} (hτ0 : 0 ≤ τ) (hτ : ∀ k < l.n, M.exitTrans.getD c 0 * l.exitP.getD k 0 ≤ τ) (k : Nat)
    (hk : k < l.n) : (1 - τ) * (occ m' k + m'.alpha2.getD k 0) ≤ occ m' k := by
  have a0 := h.alpha 0 k hk
  have a1 := h.alpha 1 k hk
  have a2 := h.alpha 2 k hk
  have n0 := h.occ_nonneg hm hl k
  rw [h.hier hl] at n0 ⊢
  simp only [alphaOf] at a0 a1 a2
  by_cases hp : pre = []
  · rw [if_pos hp] at a0 a1 a2
    simp only [first3] at a1 a2
    rw [a1] at n0 ⊢
    rw [a2]
    nlinarith
  · rw [if_neg hp] at a0 a1 a2
    simp only [next3] at a0 a1 a2
    have he : exitOf Mp c k = l.exitP.getD k 0 := by
      simp only [exitOf, hmp]
      rw [show (some (t, m)).map (fun lc : String × Hmm K => lc.2.exitP.getD k 0) = some (m.exitP.getD k 0) from rfl, h.cls.facts.2.2.2.2.2.2.2.2.2.2.2.2.1]; rfl
    rw [h.exitTrans, he] at a2
    rw [h.exitTrans, he] at a1
    rw [he] at a0
    have hb := hτ k hk
    rw [a0, a1, a2]
    set q := joint Mp b c k / evidence Mp b with hq
    have hq0 : 0 ≤ q := by
      have s0 := (h.nonneg hm k)
      rw [a0, a1, a2] at s0
      nlinarith [s0.1, s0.2.1, s0.2.2]
    nlinarith [mul_le_mul_of_nonneg_right hb hq0]

/-- C46 in a hierarchy: the time progression is not negative; it is at most `1 / (1 - τ)` when the probabilities of going back to the root
    from the states are at most `τ`.  (Missing: that it is at most 1, see `C46_hierarchical_violated`.) -/
theorem C46_hierarchical_partial (D : Dens K) (hD : D.Sound) (log exp : K → K) (M : HierHmm K) (hM : M.Trained) (xs : List (List K)) (hxs : xs ≠ [])
    (hx : ∀ y ∈ xs, ∀ lc ∈ M.models, lc.2.Fits y) (c : Nat) (lc : String × Hmm K) (hlc : M.models[c]? = some lc) :
    ∃ M0 rs M' m', reset M = .ret () M0 ∧ filterAll D log exp xs M0 = .ret rs M' ∧ M'.models[c]? = some (lc.1, m') ∧ 0 ≤ m'.progress ∧
      ∀ τ, 0 ≤ τ → τ < 1 → (∀ k < lc.2.n, M.exitTrans.getD c 0 * lc.2.exitP.getD k 0 ≤ τ) → m'.progress ≤ 1 / (1 - τ) := by
  have hl := (hM.cls lc (mem_of_get hlc)).1.hier
  obtain ⟨M0, ps, Mp, b, v, w, r, M', m, m', h1, h2, h3, h4, h5, h6⟩ := class_last D hD log exp M hM xs.dropLast (xs.getLast hxs)
    (by rw [List.dropLast_append_getLast hxs]; exact hx) c lc hlc
  rw [List.dropLast_append_getLast hxs] at h3
  obtain ⟨hist, hr⟩ := h6.reported
  have hn : m'.n = lc.2.n := h6.cls'.facts.1
  have hn2 : (heardClass Mp b c m).n = m'.n := by
    rw [hn, ← h6.cls.facts.1]
    exact (heardClass_same Mp b c m (h6.usable.ready.cls _ (mem_of_get h4)).1.can).facts.1
  have hp := hr.progress
  rw [hn2] at hp
  have hb := progress_bounds hr.windowed (fun i _ => h6.occ_nonneg h5 hl i)
  have hd : (0 : K) < if m'.n - 1 = 0 then 1 else ((m'.n - 1 : Nat) : K) := by
    split
    · exact one_pos
    · exact Nat.cast_pos.2 (by omega)
  have hz : 0 ≤ m'.winNorm := by
    rw [hr.windowed.norm]; exact Finset.sum_nonneg fun i _ => h6.occ_nonneg h5 hl i
  have hmax : m'.winMax ≤ m'.n := by rw [hr.windowed.hi]; exact min_le_right _ _
  refine ⟨M0, _, M', m', h1, h3, h5, ?_, fun τ hτ0 hτ1 hτ => ?_⟩
  · rw [hp]
    refine div_nonneg (Finset.sum_nonneg fun i _ => div_nonneg (mul_nonneg ?_ (Nat.cast_nonneg i)) hz) hd.le
    exact add_nonneg (h6.occ_nonneg h5 hl i) (h6.nonneg h5 i).2.2
  · rw [le_div_iff₀ (by linarith), mul_comm]
    refine le_trans ?_ hb.2
    rw [hp, ← mul_div_assoc, Finset.mul_sum]
    refine div_le_div_of_nonneg_right (Finset.sum_le_sum fun i hi => ?_) hd.le
    have hi' := Finset.mem_Ico.1 hi
    rw [← mul_div_assoc, ← mul_assoc]
    exact div_le_div_of_nonneg_right (mul_le_mul_of_nonneg_right (h6.root_le h5 h4 hl hτ0 hτ i (by omega)) (Nat.cast_nonneg i)) hz

/-- C46 is violated in a hierarchy: in a left-right class of two states whose first state goes to the second one, which may go back to the
    root, the time progression is greater than 1 after two observations, whatever they are. -/
theorem C46_hierarchical_violated (D : Dens K) (hD : D.Sound) (log exp : K → K) (M : HierHmm K) (hM : M.Trained) (x y : List K)
    (hx : ∀ z ∈ [x, y], ∀ lc ∈ M.models, lc.2.Fits z) (c : Nat) (lc : String × Hmm K) (hlc : M.models[c]? = some lc) (hn : lc.2.n = 2)
    (he : lc.2.ergodic = false) (ha : lc.2.trans.getD 0 0 = 0) (hr : 0 < M.exitTrans.getD c 0 * lc.2.exitP.getD 1 0) :
    ∃ M0 rs M' m', reset M = .ret () M0 ∧ filterAll D log exp [x, y] M0 = .ret rs M' ∧ M'.models[c]? = some (lc.1, m') ∧ 1 < m'.progress := by
  have hl := (hM.cls lc (mem_of_get hlc)).1.hier
  obtain ⟨M0, ps, Mp, b, v, w, r, M', m, m', h1, h2, h3, h4, h5, h6⟩ := class_last D hD log exp M hM [x] y hx c lc hlc
  have hfirst : ∀ e c' k, e ≠ 0 → HierSpec.alpha Mp e c' k = 0 := by
    intro e c' k h0
    have hsz : ∀ lc ∈ Mp.models, lc.2.HierSized := fun lc hlc => ⟨((h6.usable.alpha (h6.started.2 (by simp))).1 lc hlc).1,
      ((h6.usable.alpha (h6.started.2 (by simp))).1 lc hlc).2.1, ((h6.usable.alpha (h6.started.2 (by simp))).1 lc hlc).2.2,
      (h6.usable.ready.cls lc hlc).1.exit⟩
    by_cases hc : c' < Mp.models.length ∧ k < HierSpec.states Mp c'
    · obtain ⟨q, hq⟩ := get_class (M := M) (c := c') (by rw [← h6.same.1]; exact hc.1)
      obtain ⟨N0, qs, Np, b', v', w', r', N', n, n', k1, k2, k3, k4, k5, k6⟩ := class_last D hD log exp M hM [] x
        (fun z hz => hx z (by simp at hz; simp [hz])) c' q hq
      rw [h1] at k1
      cases k1
      rw [List.nil_append, h2] at k3
      cases k3
      have := k6.alpha e k (by rw [← k6.cls'.facts.1, ← states_of k5]; exact hc.2)
      rw [if_pos rfl] at this
      rw [alpha_of k5, this]
      match e, h0 with
      | e + 1, _ => rfl
    · exact alpha_out hsz e c' k hc
  have hent : entering Mp c = 0 := by
    have h0 : ∀ e s, e ≠ 0 → leaving Mp e s = 0 := fun e s h => Finset.sum_eq_zero fun k _ => hfirst e s k h
    exact Finset.sum_eq_zero fun s _ => by rw [h0 1 s (by simp), h0 2 s (by simp)]; simp
  have hmn : m.n = 2 := by rw [h6.cls.facts.1]; exact hn
  have hme : m.ergodic = false := by rw [h6.cls.facts.2.1]; exact he
  have hj0 : joint Mp b c 0 = 0 := by
    simp only [joint, h4]
    show b c 0 * predicted m (entering Mp c) 0 = 0
    have hw0 : within m 0 0 = 0 := by
      simp only [within, hme, Bool.false_eq_true, if_false, if_true]
      rw [h6.cls.facts.2.2.2.2.2.2.2.2.2.2.2.2.2.1]; exact ha
    have hw1 : within m 1 0 = 0 := by simp [within, hme]
    simp [predicted, hmn, Finset.sum_range_succ, hw0, hw1, hent]
  have hmp := h6.alpha
  simp only [reduceCtorEq, if_false, List.cons_ne_nil] at hmp
  have ho0 : occ m' 0 = 0 := by
    rw [h6.hier hl]
    have a0 := hmp 0 0 (by omega)
    have a1 := hmp 1 0 (by omega)
    simp only [alphaOf, next3, hj0] at a0 a1
    rw [a0, a1]; simp
  have hn' : m'.n = 2 := by rw [h6.cls'.facts.1]; exact hn
  have ho1 : 0 < occ m' 1 := by
    have := h6.occ_pos h5 hl
    rw [hn', Finset.sum_range_succ, Finset.sum_range_one, ho0, zero_add] at this
    exact this
  have hroot : 0 < m'.alpha2.getD 1 0 := by
    have hex : exitOf Mp c 1 = lc.2.exitP.getD 1 0 := by
      simp only [exitOf, h4]
      rw [show (some (lc.1, m)).map (fun lc : String × Hmm K => lc.2.exitP.getD 1 0) = some (m.exitP.getD 1 0) from rfl, h6.cls.facts.2.2.2.2.2.2.2.2.2.2.2.2.1]; rfl
    have a0 := hmp 0 1 (by omega)
    have a1 := hmp 1 1 (by omega)
    have a2 := hmp 2 1 (by omega)
    simp only [alphaOf, next3, hex, h6.exitTrans] at a0 a1 a2
    rw [h6.hier hl, a0, a1, ← add_mul] at ho1
    have hb1 := (exitOf_bounds h6.usable.ready c 1 (by rw [states_of h4, hmn]; omega))
    rw [hex] at hb1
    have hb2 := exitTrans_bounds hM.top c
    have : 0 < joint Mp b c 1 / evidence Mp b := by
      by_contra hneg
      push Not at hneg
      have : 0 ≤ 1 - lc.2.exitP.getD 1 0 + (1 - M.exitTrans.getD c 0) * lc.2.exitP.getD 1 0 :=
        add_nonneg (by linarith) (mul_nonneg (by linarith) hb1.1)
      nlinarith
    rw [a2]
    exact mul_pos hr this
  obtain ⟨hist, hrep⟩ := h6.reported
  have hlk : m'.likeliest = 1 := by
    have h7 := hrep.windowed.likeliest.1
    have h8 := hrep.windowed.likeliest.2.1 1 (by omega)
    rcases (show m'.likeliest = 0 ∨ m'.likeliest = 1 by omega) with h | h
    · rw [h, ho0] at h8; linarith
    · exact h
  have hlo : m'.winMin = 0 := by rw [hrep.windowed.lo, hlk, hn']
  have hhi : m'.winMax = 2 := by rw [hrep.windowed.hi, hlk, hn']; rfl
  have hnorm : m'.winNorm = occ m' 1 := by
    rw [hrep.windowed.norm, hlo, hhi, Finset.sum_Ico_eq_sum_range, Finset.sum_range_succ, Finset.sum_range_one, ho0]; simp
  have hn2 : (heardClass Mp b c m).n = 2 := by
    rw [← hmn]
    exact (heardClass_same Mp b c m (h6.usable.ready.cls _ (mem_of_get h4)).1.can).facts.1
  refine ⟨M0, _, M', m', h1, h3, h5, ?_⟩
  rw [hrep.progress, hn2, hlo, hhi, hnorm, Finset.sum_Ico_eq_sum_range, Finset.sum_range_succ, Finset.sum_range_one]
  rw [show ((0 + 1 : Nat) : K) = 1 by simp, show (if 2 - 1 = 0 then (1 : K) else 1) = 1 by simp, div_one, mul_one,
    show (0 + 0 : Nat) = 0 from rfl, Nat.cast_zero, mul_zero, zero_div, zero_add, lt_div_iff₀ ho1, one_mul]
  exact lt_add_of_pos_right _ hroot

/-- C47 in a hierarchy, for classes of two states or more: the window contains the likeliest state. -/
theorem C47_hierarchical_partial (D : Dens K) (hD : D.Sound) (log exp : K → K) (M : HierHmm K) (hM : M.Trained) (pre : List (List K)) (x : List K)
    (hx : ∀ y ∈ pre ++ [x], ∀ lc ∈ M.models, lc.2.Fits y) (c : Nat) (lc : String × Hmm K) (hlc : M.models[c]? = some lc) (hn : 2 ≤ lc.2.n) :
    ∃ M0 rs M' m', reset M = .ret () M0 ∧ filterAll D log exp (pre ++ [x]) M0 = .ret rs M' ∧ M'.models[c]? = some (lc.1, m') ∧
      (∀ j < lc.2.n, m'.alpha0.getD j 0 + m'.alpha1.getD j 0 ≤ m'.alpha0.getD m'.likeliest 0 + m'.alpha1.getD m'.likeliest 0) ∧
      (∀ j < m'.likeliest, m'.alpha0.getD j 0 + m'.alpha1.getD j 0 < m'.alpha0.getD m'.likeliest 0 + m'.alpha1.getD m'.likeliest 0) ∧
      m'.winMin ≤ m'.likeliest ∧ m'.likeliest < m'.winMax ∧ m'.winMax ≤ lc.2.n ∧
      ∀ i < lc.2.n, (m'.winMin ≤ i ∧ i < m'.winMax ↔ m'.likeliest ≤ i + lc.2.n / 2 ∧ i < m'.likeliest + lc.2.n / 2) := by
  have hl := (hM.cls lc (mem_of_get hlc)).1.hier
  obtain ⟨M0, ps, Mp, b, v, w, r, M', m, m', h1, h2, h3, h4, h5, h6⟩ := class_last D hD log exp M hM pre x hx c lc hlc
  have hn' : m'.n = lc.2.n := h6.cls'.facts.1
  have hw := h6.windowed
  obtain ⟨b1, b2, b3⟩ := windowed_bounds hw (by omega)
  refine ⟨M0, _, M', m', h1, h3, h5, fun j hj => ?_, fun j hj => ?_, b1, b2, by omega, fun i hi => ?_⟩
  · rw [← h6.hier hl, ← h6.hier hl]; exact hw.likeliest.2.1 j (by omega)
  · rw [← h6.hier hl, ← h6.hier hl]; exact hw.likeliest.2.2 j hj
  · rw [hw.lo, hw.hi, hn']; omega

/-- C72 in a hierarchy, for the estimators `Windowed` (two states or more) and `Likeliest`: the output of a class is a weighted average of the
    outputs predicted by its states.  (For `Full` see `C72_hierarchical_full_violated`.) -/
theorem C72_hierarchical_partial (D : Dens K) (hD : D.Sound) (log exp : K → K) (M : HierHmm K) (hM : M.Trained) (pre : List (List K)) (x : List K)
    (hx : ∀ y ∈ pre ++ [x], ∀ lc ∈ M.models, lc.2.Fits y) (c : Nat) (lc : String × Hmm K) (hlc : M.models[c]? = some lc)
    (hb : lc.2.bimodal = true) (hf : lc.2.est ≠ .full) (hn : lc.2.est = .windowed → 2 ≤ lc.2.n) :
    ∃ M0 rs M' m' v w, reset M = .ret () M0 ∧ filterAll D log exp (pre ++ [x]) M0 = .ret rs M' ∧ M'.models[c]? = some (lc.1, m') ∧
      HmmSpec.Predicts D lc.2 x v w ∧ (∀ i < lc.2.n, 0 ≤ outWeight m' i) ∧ ∑ i ∈ Finset.range lc.2.n, outWeight m' i = 1 ∧
      m'.outVals.length = lc.2.dim - lc.2.di ∧
      (∀ k < lc.2.dim - lc.2.di, m'.outVals.getD k 0 = ∑ i ∈ Finset.range lc.2.n, outWeight m' i * (v i).getD k 0) ∧
      (∀ k < lc.2.dim - lc.2.di, ∀ lo hi, (∀ i < lc.2.n, lo ≤ (v i).getD k 0 ∧ (v i).getD k 0 ≤ hi) →
        lo ≤ m'.outVals.getD k 0 ∧ m'.outVals.getD k 0 ≤ hi) ∧
      (lc.2.est = .windowed → ∀ i < lc.2.n, outWeight m' i = if m'.winMin ≤ i ∧ i < m'.winMax then
        (m'.alpha0.getD i 0 + m'.alpha1.getD i 0) / ∑ j ∈ Finset.Ico m'.winMin m'.winMax, (m'.alpha0.getD j 0 + m'.alpha1.getD j 0) else 0) ∧
      (lc.2.est = .likeliest → ∀ i, outWeight m' i = if i = m'.likeliest then 1 else 0) ∧
      m'.outCov = (List.range (outCells lc.2.mode (lc.2.dim - lc.2.di))).map fun k => ∑ i ∈ Finset.range lc.2.n, covWeight m' i * (w i).getD k 0 := by
  have hl := (hM.cls lc (mem_of_get hlc)).1.hier
  obtain ⟨M0, ps, Mp, b, v, w, r, M', m, m', h1, h2, h3, h4, h5, h6⟩ := class_last D hD log exp M hM pre x hx c lc hlc
  obtain ⟨hist, hr⟩ := h6.reported
  have hh := (h6.cls.trans (heardClass_same Mp b c m (h6.usable.ready.cls _ (mem_of_get h4)).1.can)).facts
  have hs := h6.cls'.facts
  have hest : m'.est = lc.2.est := hs.2.2.2.2.2.2.2.2.2.2.2.1
  have hz : 2 ≤ m'.n → 0 < m'.winNorm := fun h => winNorm_pos hr.windowed h (fun i _ => h6.occ_nonneg h5 hl i) (h6.occ_pos h5 hl)
  have hw : ∀ i < lc.2.n, 0 ≤ outWeight m' i := fun i _ => by
    unfold outWeight
    rw [hest]
    cases hE : lc.2.est with
    | full => exact absurd hE hf
    | windowed =>
      dsimp only
      split
      · refine div_nonneg (h6.occ_nonneg h5 hl i) ?_
        split
        · exact zero_le_one
        · exact (not_le.1 (by assumption)).le
      · exact le_rfl
    | likeliest =>
      dsimp only
      split
      · exact zero_le_one
      · exact le_rfl
  have hsum : ∑ i ∈ Finset.range lc.2.n, outWeight m' i = 1 := by
    unfold outWeight
    rw [hest]
    cases hE : lc.2.est with
    | full => exact absurd hE hf
    | windowed =>
      have hn2 : 2 ≤ m'.n := by rw [hs.1]; exact hn hE
      dsimp only
      rw [if_neg (not_le.2 (hz hn2)), ← Finset.sum_filter, ← Finset.sum_div,
        show (Finset.range lc.2.n).filter (fun i => m'.winMin ≤ i ∧ i < m'.winMax) = Finset.Ico m'.winMin m'.winMax by
          ext i
          have := (windowed_bounds hr.windowed hn2).2.2
          rw [hs.1] at this
          simp only [Finset.mem_filter, Finset.mem_range, Finset.mem_Ico]
          omega, ← hr.windowed.norm, div_self (hz hn2).ne']
    | likeliest =>
      dsimp only
      rw [Finset.sum_ite_eq' (Finset.range lc.2.n), if_pos (Finset.mem_range.2 (by rw [← hs.1]; exact hr.windowed.likeliest.1))]
  have hv := hr.outVals (by rw [hh.2.2.2.2.2.2.1]; exact hb)
  have hc := hr.outCov (by rw [hh.2.2.2.2.2.2.1]; exact hb)
  rw [hh.2.2.2.2.2.2.2.2.1, hh.2.2.2.2.2.2.2.2.2.1, hh.1] at hv
  rw [hh.2.2.2.2.2.2.2.2.1, hh.2.2.2.2.2.2.2.2.2.1, hh.2.2.2.2.2.2.2.2.2.2.1, hh.1] at hc
  have hval : ∀ k < lc.2.dim - lc.2.di, m'.outVals.getD k 0 = ∑ i ∈ Finset.range lc.2.n, outWeight m' i * (v i).getD k 0 := fun k hk => by
    rw [hv, getD_map_range' _ _ _ hk]
  refine ⟨M0, _, M', m', v, w, h1, h3, h5, h6.predicts hb, hw, hsum, by rw [hv]; simp, hval, fun k hk lo hi hlh => ?_, fun hE i hi => ?_, fun hE i => ?_, hc⟩
  · rw [hval k hk]
    exact Gmm.average_between hw hsum hlh
  · have hn2 : 2 ≤ m'.n := by rw [hs.1]; exact hn hE
    simp only [outWeight, hest, hE, if_neg (not_le.2 (hz hn2))]
    simp only [hr.windowed.norm, h6.hier hl]
  · simp only [outWeight, hest, hE]

/-- C72 is violated in a hierarchy of two classes or more with the estimator `Full`, which is the default: the weights of the states of a class sum to
    less than 1, so where all the states predict the same positive value, the output is smaller. -/
theorem C72_hierarchical_full_violated (D : Dens K) (hD : D.Sound) (log exp : K → K) (M : HierHmm K) (hM : M.Trained) (pre : List (List K)) (x : List K)
    (hx : ∀ y ∈ pre ++ [x], ∀ lc ∈ M.models, lc.2.Fits y) (h2c : 2 ≤ M.models.length) (c : Nat) (lc : String × Hmm K) (hlc : M.models[c]? = some lc)
    (hb : lc.2.bimodal = true) (hE : lc.2.est = .full) :
    ∃ M0 rs M' m' v w, reset M = .ret () M0 ∧ filterAll D log exp (pre ++ [x]) M0 = .ret rs M' ∧ M'.models[c]? = some (lc.1, m') ∧
      HmmSpec.Predicts D lc.2 x v w ∧ ∑ i ∈ Finset.range lc.2.n, outWeight m' i < 1 ∧
      (∀ k < lc.2.dim - lc.2.di, m'.outVals.getD k 0 = ∑ i ∈ Finset.range lc.2.n, outWeight m' i * (v i).getD k 0) ∧
      ∀ k < lc.2.dim - lc.2.di, ∀ a, 0 < a → (∀ i < lc.2.n, (v i).getD k 0 = a) → m'.outVals.getD k 0 < a := by
  have hl := (hM.cls lc (mem_of_get hlc)).1.hier
  obtain ⟨M0, ps, Mp, b, v, w, r, M', m, m', h1, h2, h3, h4, h5, h6⟩ := class_last D hD log exp M hM pre x hx c lc hlc
  obtain ⟨hist, hr⟩ := h6.reported
  have hh := (h6.cls.trans (heardClass_same Mp b c m (h6.usable.ready.cls _ (mem_of_get h4)).1.can)).facts
  have hs := h6.cls'.facts
  have hest : m'.est = lc.2.est := hs.2.2.2.2.2.2.2.2.2.2.2.1
  have halive := h6.usable'.alpha h6.started'
  have hlen : M'.models.length = M.models.length := h6.same'.1
  have hsum : ∑ i ∈ Finset.range lc.2.n, outWeight m' i < 1 := by
    unfold outWeight
    rw [hest, hE]
    dsimp only
    refine lt_of_lt_of_le ?_ h6.mass
    obtain ⟨c', hc', hcc⟩ : ∃ c' < M'.models.length, c' ≠ c := by
      rcases Nat.eq_zero_or_pos c with h0 | h0
      · exact ⟨1, by omega, by omega⟩
      · exact ⟨0, by omega, by omega⟩
    have hterm : ∀ d, leaving M' 0 d + leaving M' 1 d ≤ ∑ k ∈ Finset.range (HierSpec.states M' d), ∑ e ∈ Finset.range 3, HierSpec.alpha M' e d k := fun d => by
      unfold leaving
      rw [← Finset.sum_add_distrib]
      refine Finset.sum_le_sum fun k _ => ?_
      have := halive.2.1 2 d k
      simp only [Finset.sum_range_succ, Finset.sum_range_zero]
      linarith
    have hnn := leaving_nonneg halive.2.1
    have hcl : c < M'.models.length := lt_of_get h5
    calc ∑ i ∈ Finset.range lc.2.n, occ m' i = leaving M' 0 c + leaving M' 1 c := by
          unfold leaving
          rw [← Finset.sum_add_distrib, states_of h5, hs.1]
          exact Finset.sum_congr rfl fun k _ => by rw [h6.hier hl, alpha_of h5, alpha_of h5]; rfl
      _ < (leaving M' 0 c + leaving M' 1 c) + leaving M' 0 c' := by linarith [halive.2.2 c' hc']
      _ ≤ ∑ d ∈ ({c, c'} : Finset Nat), (leaving M' 0 d + leaving M' 1 d) := by
          rw [Finset.sum_pair (Ne.symm hcc)]; linarith [hnn 1 c']
      _ ≤ ∑ d ∈ Finset.range M'.models.length, (leaving M' 0 d + leaving M' 1 d) :=
          Finset.sum_le_sum_of_subset_of_nonneg (fun d hd => by
            simp only [Finset.mem_insert, Finset.mem_singleton] at hd
            rcases hd with rfl | rfl
            · exact Finset.mem_range.2 hcl
            · exact Finset.mem_range.2 hc') (fun d _ _ => add_nonneg (hnn 0 d) (hnn 1 d))
      _ ≤ _ := Finset.sum_le_sum fun d _ => hterm d
  have hv := hr.outVals (by rw [hh.2.2.2.2.2.2.1]; exact hb)
  rw [hh.2.2.2.2.2.2.2.2.1, hh.2.2.2.2.2.2.2.2.2.1, hh.1] at hv
  have hval : ∀ k < lc.2.dim - lc.2.di, m'.outVals.getD k 0 = ∑ i ∈ Finset.range lc.2.n, outWeight m' i * (v i).getD k 0 := fun k hk => by
    rw [hv, getD_map_range' _ _ _ hk]
  refine ⟨M0, _, M', m', v, w, h1, h3, h5, h6.predicts hb, hsum, hval, fun k hk a ha hva => ?_⟩
  rw [hval k hk, Finset.sum_congr rfl fun i hi => by rw [hva i (Finset.mem_range.1 hi)], ← Finset.sum_mul]
  calc _ < 1 * a := mul_lt_mul_of_pos_right hsum ha
    _ = a := one_mul a

/-- C75: from the second observation on, the exit likelihood of a class is its instantaneous likelihood times the part of its forward variables
    that leaves it, the exit ratio is that part: they are in `[0, 1]` and `[0, 1)`. -/
theorem C75_exit (D : Dens K) (hD : D.Sound) (log exp : K → K) (M : HierHmm K) (hM : M.Trained) (pre : List (List K)) (hpre : pre ≠ []) (x : List K)
    (hx : ∀ y ∈ pre ++ [x], ∀ lc ∈ M.models, lc.2.Fits y) (c : Nat) (lc : String × Hmm K) (hlc : M.models[c]? = some lc) :
    ∃ M0 rs M' m', reset M = .ret () M0 ∧ filterAll D log exp (pre ++ [x]) M0 = .ret rs M' ∧ M'.models[c]? = some (lc.1, m') ∧
      m'.exitRatio = (leaving M' 1 c + leaving M' 2 c) / (leaving M' 0 c + leaving M' 1 c + leaving M' 2 c) ∧
      m'.exitLik = m'.exitRatio * m'.instant ∧ 0 ≤ m'.exitRatio ∧ m'.exitRatio < 1 := by
  obtain ⟨M0, ps, Mp, b, v, w, r, M', m, m', h1, h2, h3, h4, h5, h6⟩ := class_last D hD log exp M hM pre x hx c lc hlc
  obtain ⟨hist, hr⟩ := h6.reported
  have halive := h6.usable'.alpha h6.started'
  have hnn := leaving_nonneg halive.2.1
  have hst := h6.started.2 hpre
  have hmpn : m.n = lc.2.n := h6.cls.facts.1
  have hE := evidence_pos h6.usable.ready (h6.usable.alpha hst).2.1 (mass_pos (h6.usable.alpha hst).2.1
    (fun h0 => by rw [h0] at h4; simp at h4) (h6.usable.alpha hst).2.2)
    (fun c k hc hk => h6.pos c k (by rw [← h6.same.1]; exact hc) (by rw [← h6.same.states]; exact hk))
  have hex : ∀ k, exitOf Mp c k = m.exitP.getD k 0 := fun k => by simp only [exitOf, h4]; rfl
  have hj : ∀ k, joint Mp b c k = b c k * predicted m (entering Mp c) k := fun k => by simp only [joint, h4]; rfl
  have hl : ∀ e, leaving M' e c = ∑ k ∈ Finset.range m.n, next3 Mp b e c k := fun e => by
    unfold leaving
    rw [states_of h5, h6.cls'.facts.1, hmpn]
    refine Finset.sum_congr rfl fun k hk => ?_
    rw [alpha_of h5, h6.alpha e k (Finset.mem_range.1 hk), if_neg hpre]
  have hout : leaving M' 1 c + leaving M' 2 c = (∑ k ∈ Finset.range m.n, m.exitP.getD k 0 * (b c k * predicted m (entering Mp c) k)) / evidence Mp b := by
    rw [hl, hl, ← Finset.sum_add_distrib, Finset.sum_div]
    refine Finset.sum_congr rfl fun k _ => ?_
    simp only [next3, hex, hj]
    ring
  have hall : leaving M' 0 c + leaving M' 1 c + leaving M' 2 c = (∑ k ∈ Finset.range m.n, b c k * predicted m (entering Mp c) k) / evidence Mp b := by
    rw [hl, hl, hl, ← Finset.sum_add_distrib, ← Finset.sum_add_distrib, Finset.sum_div]
    refine Finset.sum_congr rfl fun k _ => ?_
    simp only [next3, hex, hj]
    ring
  have hpos : 0 < leaving M' 0 c + leaving M' 1 c + leaving M' 2 c := by linarith [h6.zero, hnn 1 c, hnn 2 c]
  have hS : 0 < ∑ k ∈ Finset.range m.n, b c k * predicted m (entering Mp c) k := by
    rw [hall] at hpos
    exact (div_pos_iff_of_pos_right hE).1 hpos
  have f1 : m'.exitRatio = (leaving M' 1 c + leaving M' 2 c) / (leaving M' 0 c + leaving M' 1 c + leaving M' 2 c) := by
    rw [hr.same]
    show (heardClass Mp b c m).exitRatio = _
    rw [hout, hall, div_div_div_cancel_right₀ hE.ne']
    unfold heardClass
    rw [if_pos hst]
    rfl
  refine ⟨M0, _, M', m', h1, h3, h5, f1, ?_, ?_, ?_⟩
  · rw [hr.same]
    show (heardClass Mp b c m).exitLik = (heardClass Mp b c m).exitRatio * (heardClass Mp b c m).instant
    unfold heardClass
    rw [if_pos hst]
    simp only [divided, updated]
    rw [div_mul_cancel₀ _ hS.ne']
  · rw [f1]; exact div_nonneg (add_nonneg (hnn 1 c) (hnn 2 c)) hpos.le
  · rw [f1, div_lt_one hpos]; linarith [h6.zero]

theorem RowsToOne.congr {m m' : Hmm K} (h : m.RowsToOne) (e : m'.n = m.n ∧ m'.ergodic = m.ergodic ∧ HmmSpec.start m' = HmmSpec.start m ∧
    HmmSpec.step m' = HmmSpec.step m ∧ m'.window = m.window ∧ m'.hier = m.hier ∧ m'.bimodal = m.bimodal ∧ m'.training = m.training ∧
    m'.dim = m.dim ∧ m'.di = m.di ∧ m'.mode = m.mode ∧ m'.est = m.est ∧ m'.exitP = m.exitP ∧ m'.trans = m.trans ∧ m'.prior = m.prior) :
    m'.RowsToOne := by
  obtain ⟨e1, e2, _, _, _, _, _, _, _, _, _, _, e3, e4, _⟩ := e
  constructor
  · rw [e1, e2, e4]; exact h.ergodic
  · rw [e1, e2, e3, e4]; exact h.leftRight

/-- the sum over the states of the weights of the paths that stay in the class, from state `j` -/
theorem within_sum {m : Hmm K} (hm : m.InHierarchy) (hr : m.RowsToOne) (j : Nat) (hj : j < m.n) :
    ∑ k ∈ Finset.range m.n, within m j k = 1 / (1 - m.exitP.getD j 0) := by
  rcases bool_cases m.ergodic with he | he
  · obtain ⟨hn, h0, h1, h2⟩ := hr.leftRight he
    have hw : ∀ k, within m j k = (if k = j then (if j = 0 then m.trans.getD 0 0 else m.trans.getD (j * 2) 0 / (1 - m.exitP.getD j 0)) else 0) +
        (if k = j + 1 then m.trans.getD (j * 2 + 1) 0 / (1 - m.exitP.getD j 0) else 0) := fun k => by
      simp only [within, he, Bool.false_eq_true, if_false]
      by_cases h1 : k = j
      · rw [if_pos h1, if_pos h1, if_neg (show ¬ k = j + 1 by omega), add_zero]
      · rw [if_neg h1, if_neg h1, zero_add]
    simp only [hw]
    rw [Finset.sum_add_distrib, Finset.sum_ite_eq', Finset.sum_ite_eq', if_pos (Finset.mem_range.2 hj)]
    by_cases hl : j + 1 < m.n
    · rw [if_pos (Finset.mem_range.2 hl)]
      by_cases hj0 : j = 0
      · subst hj0
        rw [if_pos rfl, h0, sub_zero, div_one, div_one]
        have := h1 0 (by omega)
        simpa using this
      · rw [if_neg hj0, ← add_div, h1 j (by omega)]
    · rw [if_neg (show ¬ j = 0 by omega), if_neg (show ¬ j + 1 ∈ Finset.range m.n by rw [Finset.mem_range]; exact hl), add_zero,
        show j = m.n - 1 by omega, h2]
  · simp only [within, he, if_true]
    rw [← Finset.sum_div, hr.ergodic he j hj]

/-- the sum of all the predicted weights is greater than the sum of the forward variables -/
theorem predicted_mass {M : HierHmm K} (hM : M.Ready) (hne : M.models ≠ []) (hr : ∀ lc ∈ M.models, lc.2.RowsToOne) (hd : Distribution M) :
    ∑ c ∈ Finset.range M.models.length, ∑ k ∈ Finset.range (states M c), (M.models[c]?.map fun lc => predicted lc.2 (entering M c) k).getD 0 =
      1 + ∑ c ∈ Finset.range M.models.length, ∑ k ∈ Finset.range (states M c),
        HierSpec.alpha M 0 c k * (exitOf M c k / (1 - exitOf M c k)) := by
  have hcls : ∀ c < M.models.length, ∑ k ∈ Finset.range (states M c), (M.models[c]?.map fun lc => predicted lc.2 (entering M c) k).getD 0 =
      leaving M 0 c + (∑ k ∈ Finset.range (states M c), HierSpec.alpha M 0 c k * (exitOf M c k / (1 - exitOf M c k))) + entering M c := by
    intro c hc
    obtain ⟨lc, hlc⟩ := get_class hc
    have hin := (hM.cls lc (mem_of_get hlc)).1
    rw [states_of hlc]
    simp only [hlc, Option.map_some, Option.getD_some, predicted]
    rw [Finset.sum_add_distrib, ← Finset.sum_mul, hin.can.chain.start_sum, one_mul, Finset.sum_comm]
    congr 1
    unfold leaving
    rw [states_of hlc, ← Finset.sum_add_distrib]
    refine Finset.sum_congr rfl fun j hj => ?_
    have hj' := Finset.mem_range.1 hj
    rw [← Finset.mul_sum, within_sum hin (hr lc (mem_of_get hlc)) j hj']
    have hx := hin.exit_lt j hj'
    have : exitOf M c j = lc.2.exitP.getD j 0 := by simp [exitOf, hlc]
    rw [alpha_of hlc, this]
    simp only [alphaOf]
    have hpos : 1 - lc.2.exitP.getD j 0 ≠ 0 := by linarith
    field_simp
    ring
  rw [Finset.sum_congr rfl fun c hc => hcls c (Finset.mem_range.1 hc), Finset.sum_add_distrib, Finset.sum_add_distrib]
  have hent : ∑ c ∈ Finset.range M.models.length, entering M c = ∑ s ∈ Finset.range M.models.length, (leaving M 1 s + leaving M 2 s) := by
    unfold entering
    rw [Finset.sum_comm]
    refine Finset.sum_congr rfl fun s hs => ?_
    rw [Finset.sum_add_distrib, ← Finset.mul_sum, row_sum hM.top (Finset.mem_range.1 hs), ← Finset.sum_mul, prior_sum hM.top hne]
    ring
  have hsum := hd.sum
  unfold mass at hsum
  have h3 : ∀ c, ∑ k ∈ Finset.range (states M c), ∑ e ∈ Finset.range 3, HierSpec.alpha M e c k = leaving M 0 c + leaving M 1 c + leaving M 2 c := fun c => by
    unfold leaving
    rw [← Finset.sum_add_distrib, ← Finset.sum_add_distrib]
    exact Finset.sum_congr rfl fun k _ => by simp [Finset.sum_range_succ]
  rw [Finset.sum_congr rfl fun c _ => h3 c, Finset.sum_add_distrib, Finset.sum_add_distrib] at hsum
  rw [hent, Finset.sum_add_distrib, ← hsum]
  ring

/-- C76 is violated: in a model whose transition probabilities sum to 1, the instantaneous likelihoods of the classes are sums of the
    likelihoods of the observation in the states with weights that sum to 1 plus `∑ α (e / (1 - e))`, where `α` is the probability of being in a
    state and staying in the class and `e` its exit probability.  So the sum of the instantaneous likelihoods can be greater than the
    greatest likelihood of the observation in a state: this is the case when an ergodic class can be left from each of its states and the
    observation is equally likely in all the states. -/
theorem C76_prediction_violated (D : Dens K) (hD : D.Sound) (log exp : K → K) (M : HierHmm K) (hM : M.Trained) (hne : M.models ≠ [])
    (hr : ∀ lc ∈ M.models, lc.2.RowsToOne) (pre : List (List K)) (hpre : pre ≠ []) (x : List K) (hx : ∀ y ∈ pre ++ [x], ∀ lc ∈ M.models, lc.2.Fits y)
    (hz : 2 ≤ pre.length ∨ ∀ lc ∈ M.models, lc.2.ergodic = true → lc.2.instant = 0) :
    ∃ M0 ps Mp b M', ∃ p : Nat → Nat → K, reset M = .ret () M0 ∧ filterAll D log exp pre M0 = .ret ps Mp ∧ filter D log exp x Mp = .ret () M' ∧ HierSpec.Emits D Mp x b ∧
      (∀ c < M.models.length, M'.results.inst.getD c 0 = ∑ k ∈ Finset.range (states M c), b c k * p c k) ∧
      (∀ c < M.models.length, ∀ k < states M c, 0 ≤ p c k) ∧
      ∑ c ∈ Finset.range M.models.length, ∑ k ∈ Finset.range (states M c), p c k =
        1 + ∑ c ∈ Finset.range M.models.length, ∑ k ∈ Finset.range (states M c), HierSpec.alpha Mp 0 c k * (exitOf M c k / (1 - exitOf M c k)) ∧
      ∀ lc ∈ M.models, (∀ j < lc.2.n, 0 < lc.2.exitP.getD j 0) → ∀ d, 0 < d → (∀ c < M.models.length, ∀ k < states M c, b c k = d) →
        d < ∑ c ∈ Finset.range M.models.length, M'.results.inst.getD c 0 := by
  obtain ⟨M0, ps, Mp, b, M', h1, h2, h3, h4, h5, h6, h7⟩ := C74_forward_recursion D hD log exp M hM hne pre x hx
  obtain ⟨M0', ps', Mp', k1, k2, k3⟩ := C48_distribution_partial D hD log exp M hM hne pre hpre
    (fun y hy => hx y (List.mem_append_left _ hy)) hz
  rw [h1] at k1
  cases k1
  rw [h2] at k2
  cases k2
  obtain ⟨_, _, _, u1, _, _, u4, _, _, u7, u8, u9⟩ := run_ret D hD log exp M hM hne pre (fun y hy => hx y (List.mem_append_left _ hy))
  rw [h1] at u1
  cases u1
  rw [h2] at u7
  cases u7
  have hu := u9.usable
  have halive := hu.alpha (u9.summary (fun h0 => hpre (List.eq_nil_of_length_eq_zero (by rw [← u8, h0]; rfl)))).2.2.2
  have hst : ∀ c, states Mp c = states M c := fun c => h5.states c
  have hex : ∀ c k, exitOf Mp c k = exitOf M c k := fun c k => by
    unfold exitOf
    by_cases hc : c < M.models.length
    · obtain ⟨lc, hlc⟩ := get_class hc
      obtain ⟨m, e1, e2⟩ := h5.2 c lc hlc
      rw [hlc, e1]
      show m.exitP.getD k 0 = _
      rw [e2.facts.2.2.2.2.2.2.2.2.2.2.2.2.1]; rfl
    · rw [List.getElem?_eq_none (by rw [h5.1]; omega), List.getElem?_eq_none (by omega)]
  have hrows : ∀ lc ∈ Mp.models, lc.2.RowsToOne := fun lc hlc => by
    obtain ⟨c, a, e1, _, _, e2⟩ := h5.back hlc
    exact RowsToOne.congr (hr a (mem_of_get e1)) e2.facts
  obtain ⟨p, hp⟩ : ∃ p : Nat → Nat → K, ∀ c k, p c k = (Mp.models[c]?.map fun lc => predicted lc.2 (entering Mp c) k).getD 0 := ⟨_, fun _ _ => rfl⟩
  have hpm := predicted_mass hu.ready (h5.ne hne) hrows k3
  rw [h5.1] at hpm
  simp only [hst, hex, ← hp] at hpm
  have hinst : ∀ c < M.models.length, M'.results.inst.getD c 0 =
      ∑ k ∈ Finset.range (states M c), b c k * p c k := fun c hc => by
    rw [h7 c hc, if_neg hpre]
    obtain ⟨lc, hlc⟩ := get_class (M := Mp) (c := c) (by rw [h5.1]; exact hc)
    exact Finset.sum_congr rfl fun k _ => by rw [hp]; simp [joint, hlc]
  refine ⟨M0, ps, Mp, b, M', p, h1, h2, h3, h4, hinst, ?_, hpm, ?_⟩
  · intro c hc k hk
    obtain ⟨lc, hlc⟩ := get_class (M := Mp) (c := c) (by rw [h5.1]; exact hc)
    rw [hp, hlc]
    refine predicted_nonneg (hu.ready.cls lc (mem_of_get hlc)).1 (fun j => ?_) (entering_nonneg hu.ready.top halive.2.1 c) k
      (by rw [← states_of hlc, hst]; exact hk)
    have := halive.2.1 0 c j
    rwa [alpha_of hlc] at this
  · intro lc hlc hpos d hd hb
    rw [Finset.sum_congr rfl fun c hc => hinst c (Finset.mem_range.1 hc)]
    have : ∀ c ∈ Finset.range M.models.length, ∑ k ∈ Finset.range (states M c), b c k * p c k = d * ∑ k ∈ Finset.range (states M c), p c k := fun c hc => by
      rw [Finset.mul_sum]
      exact Finset.sum_congr rfl fun k hk => by rw [hb c (Finset.mem_range.1 hc) k (Finset.mem_range.1 hk)]
    rw [Finset.sum_congr rfl this, ← Finset.mul_sum, hpm]
    obtain ⟨c, hget⟩ := List.getElem?_of_mem hlc
    have hc : c < M.models.length := lt_of_get hget
    have hbd : ∀ c' k, c' < M.models.length → k < states M c' → 0 ≤ exitOf M c' k / (1 - exitOf M c' k) := fun c' k hc' hk => by
      have := exitOf_bounds hu.ready c' k (by rw [hst]; exact hk)
      rw [hex] at this
      exact div_nonneg this.1 (by linarith)
    have hex0 : 0 < ∑ c ∈ Finset.range M.models.length, ∑ k ∈ Finset.range (states M c), HierSpec.alpha Mp 0 c k * (exitOf M c k / (1 - exitOf M c k)) := by
      refine Finset.sum_pos' (fun c' hc' => Finset.sum_nonneg fun k hk => mul_nonneg (halive.2.1 0 c' k)
        (hbd c' k (Finset.mem_range.1 hc') (Finset.mem_range.1 hk))) ⟨c, Finset.mem_range.2 hc, ?_⟩
      obtain ⟨k, hk, hk0⟩ := exists_pos (fun k _ => halive.2.1 0 c k) (halive.2.2 c (by rw [h5.1]; exact hc))
      rw [hst] at hk
      refine Finset.sum_pos' (fun k hk => mul_nonneg (halive.2.1 0 c k) (hbd c k hc (Finset.mem_range.1 hk))) ⟨k, hk, mul_pos hk0 ?_⟩
      have hlt := exitOf_bounds hu.ready c k (by rw [hst]; exact Finset.mem_range.1 hk)
      rw [hex] at hlt
      refine div_pos ?_ (by linarith)
      rw [show exitOf M c k = lc.2.exitP.getD k 0 by simp only [exitOf, hget]; rfl]
      exact hpos k (by rw [← states_of hget]; exact Finset.mem_range.1 hk)
    calc d = d * 1 := (mul_one d).symm
      _ < _ := mul_lt_mul_of_pos_left (by linarith) hd

end HierHmm

namespace HierHmm
open HierSpec Hmm HmmSpec

/-- The hypotheses above are met: a bimodal model of two classes, left-right or ergodic, of two states with Gaussian mixtures of
    two components; the last state of each class can be left. -/
theorem trained_exists (e : Bool) (est : RegEst) : ∃ M : HierHmm ℝ, M.Trained ∧ M.models.length = 2 ∧ M.bimodal = true ∧
    (∀ lc ∈ M.models, lc.2.ergodic = e ∧ lc.2.est = est ∧ lc.2.bimodal = true ∧ lc.2.n = 2 ∧ (e = false → lc.2.trans.getD 0 0 = 0) ∧
      0 < lc.2.exitP.getD 1 0 ∧ lc.2.Fits [1] ∧ lc.2.Fits [4] ∧ lc.2.RowsToOne ∧ (e = true → ∀ j < 2, 0 < lc.2.exitP.getD j 0)) ∧ (∀ c < 2, 0 < M.exitTrans.getD c 0) ∧ Dens.real.Sound ∧
    ∀ lc ∈ M.models, lc.2.dim = M.dim ∧ lc.2.di = M.di ∧ lc.2.window = M.window ∧ ∀ s ∈ lc.2.sts, s.window = M.window := by
  obtain ⟨g, g1, g2, g3, g4, g5, g6, g7, g8, g9, g10, g11⟩ := Gmm.usable_exists
  let m : Hmm ℝ := {
    n := 2, gaussians := 2, ergodic := e, est := est, absReg := 1 / 1000, relReg := 1 / 100, mode := .full, bimodal := true, dim := 2,
    di := 1, window := g.window, sts := [g, g], prior := [1 / 2, 1 / 2],
    trans := if e then [1 / 2, 1 / 2, 1 / 4, 3 / 4] else [0, 1, 1, 0], alpha := [0, 0],
    prevAlpha := [0, 0], beta := [], prevBeta := [], alpha0 := [], alpha1 := [], alpha2 := [], exitP := [if e then 1 / 10 else 0, 1 / 10], hier := true,
    started := false, training := false, winMin := 0, winMax := 0, winNorm := 0, buf := CBuf.construct 0 1 4, instant := 0, logLik := 0,
    progress := 0, exitLik := 0, exitRatio := 0, likeliest := 0, outVals := [], outCov := [] }
  have hm : m.InHierarchy := by
    refine ⟨⟨⟨by simp [m], rfl, fun _ => rfl, by cases e <;> rfl, ?_⟩, ⟨?_, ?_, ?_, ?_⟩, rfl, g1.window, ?_⟩, rfl, rfl, ?_, ?_, ?_, ?_⟩
    · intro s hs
      have : s = g := by simpa [m] using hs
      subst this
      exact ⟨g3, g8, g2, g9, g10⟩
    · intro i hi
      replace hi : i < 2 := hi
      cases e <;> interval_cases i <;> norm_num [start, m]
    · cases e <;> norm_num [start, Finset.sum_range_succ, m]
    · intro i hi j hj
      replace hi : i < 2 := hi
      replace hj : j < 2 := hj
      cases e <;> interval_cases i <;> interval_cases j <;> norm_num [step, m]
    · intro i hi
      replace hi : i < 2 := hi
      cases e <;> interval_cases i <;> norm_num [step, Finset.sum_range_succ, m]
    · intro s hs
      have : s = g := by simpa [m] using hs
      subst this
      exact ⟨g1, _, _, g5⟩
    · intro i hi
      replace hi : i < 2 := hi
      cases e <;> interval_cases i <;> norm_num [m]
    · intro i hi
      replace hi : i < 2 := hi
      cases e <;> interval_cases i <;> norm_num [m]
    · intro v hv
      cases e
      · simp only [m, Bool.false_eq_true, if_false, List.mem_cons, List.not_mem_nil, or_false] at hv
        rcases hv with rfl | rfl | rfl | rfl <;> norm_num
      · simp only [m, if_true, List.mem_cons, List.not_mem_nil, or_false] at hv
        rcases hv with rfl | rfl | rfl | rfl <;> norm_num
    · intro he
      replace he : e = false := he
      subst he
      norm_num [m]
  refine ⟨{
    models := [("a", m), ("b", m)], nulls := [], prior := [1 / 2, 1 / 2], exitTrans := [1 / 10, 1 / 10],
    trans := [[1 / 2, 1 / 2], [1 / 2, 1 / 2]], front1 := [], front2 := [], started := false, training := false,
    conf := fun _ => { n := 2, gaussians := 2, absReg := 1 / 1000, relReg := 1 / 100, mode := .full, ergodic := e, est := est },
    hier := true, mode := .full, est := .likeliest, bimodal := true, dim := 2, di := 1, window := g.window,
    results := { inst := [], instNorm := [], smoothed := [], smoothedNorm := [], smoothedLog := [], likeliest := "", outVals := [], outCov := [] } },
    ⟨rfl, ⟨rfl, rfl, rfl, by simp, by norm_num, by norm_num, by norm_num, by norm_num, by norm_num, by norm_num⟩, rfl, rfl, ?_, ?_, ?_, ?_⟩,
    rfl, rfl, ?_, ?_, g7, ?_⟩
  · have : ("a" : String) < "b" := by decide +kernel
    simpa [SMap.Sorted, SMap.keys] using this
  · intro lc hlc
    have : lc.2 = m := by
      simp only [List.mem_cons, List.not_mem_nil, or_false] at hlc
      rcases hlc with rfl | rfl <;> rfl
    rw [this]
    exact ⟨hm, rfl, rfl, rfl⟩
  · intro _ lc hlc
    simp only [List.mem_cons, List.not_mem_nil, or_false] at hlc
    rcases hlc with rfl | rfl <;> rfl
  · intro lc hlc _
    simp only [List.mem_cons, List.not_mem_nil, or_false] at hlc
    rcases hlc with rfl | rfl <;> exact le_rfl
  · intro lc hlc
    have : lc.2 = m := by
      simp only [List.mem_cons, List.not_mem_nil, or_false] at hlc
      rcases hlc with rfl | rfl <;> rfl
    rw [this]
    refine ⟨rfl, rfl, rfl, rfl, fun he => by subst he; rfl, by norm_num [m], by simp [Hmm.Fits, m], by simp [Hmm.Fits, m],
      ⟨fun he j hj => ?_, fun he => ⟨le_rfl, ?_, fun j hj => ?_, ?_⟩⟩, fun he j hj => ?_⟩
    · replace he : e = true := he
      replace hj : j < 2 := hj
      subst he
      interval_cases j <;> norm_num [m, Finset.sum_range_succ]
    · replace he : e = false := he
      subst he; rfl
    · replace he : e = false := he
      replace hj : j < 1 := hj
      subst he
      interval_cases j; norm_num [m]
    · replace he : e = false := he
      subst he; rfl
    · subst he
      interval_cases j <;> norm_num [m]
  · intro c hc
    interval_cases c <;> norm_num
  · intro lc hlc
    have : lc.2 = m := by
      simp only [List.mem_cons, List.not_mem_nil, or_false] at hlc
      rcases hlc with rfl | rfl <;> rfl
    rw [this]
    refine ⟨rfl, rfl, rfl, fun s hs => ?_⟩
    have : s = g := by simpa [m] using hs
    rw [this]

end HierHmm
end Xmm
