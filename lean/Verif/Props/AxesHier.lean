import Verif.Props.AxesPredict
import Verif.Props.RenamingHmm
set_option linter.unusedSectionVars false
/- C113 for hidden Markov models: from the recordings to the answers of a hierarchical model, in other axes. -/
namespace Xmm
open TS PhraseSpec
open Prog (bind_def get_def)

namespace Hmm


/-- two LeftRight classes of a hierarchy that differ only in their states -/
structure Kin (m m' : Hmm ℝ) : Prop where
  n : m'.n = m.n
  left : m.ergodic = false ∧ m'.ergodic = false
  window : m'.window = m.window
  trans : m'.trans = m.trans
  exitP : m'.exitP = m.exitP
  hier : m.hier = true ∧ m'.hier = true
  bimodal : m'.bimodal = m.bimodal
  dims : m'.dim = m.dim ∧ m'.di = m.di
  mode : m'.mode = m.mode
  est : m'.est = m.est

theorem Kin.same {a b a' b' : Hmm ℝ} (h : Kin a b) (ha : a.SameClass a') (hb : b.SameClass b') : Kin a' b' := by
  obtain ⟨e1, e2, -, -, e3, e4, e5, -, e8, e9, e10, e11, e6, e7, -⟩ := ha.facts
  obtain ⟨f1, f2, -, -, f3, f4, f5, -, f8, f9, f10, f11, f6, f7, -⟩ := hb.facts
  exact ⟨by rw [e1, f1, h.n], by rw [e2, f2]; exact h.left, by rw [e3, f3, h.window], by rw [e7, f7, h.trans], by rw [e6, f6, h.exitP], by rw [e4, f4]; exact h.hier,
    by rw [e5, f5, h.bimodal], by rw [e8, f8, e9, f9]; exact h.dims, by rw [e10, f10, h.mode], by rw [e11, f11, h.est]⟩

theorem Kin.within {m m' : Hmm ℝ} (h : Kin m m') : HierSpec.within m' = HierSpec.within m := by
  funext j k
  unfold HierSpec.within
  rw [h.n, h.left.1, h.left.2, h.trans, h.exitP]

theorem Kin.start {m m' : Hmm ℝ} (h : Kin m m') : Xmm.HmmSpec.start m' = Xmm.HmmSpec.start m := by
  funext i
  unfold Xmm.HmmSpec.start
  rw [h.left.1, h.left.2]
  rfl

theorem Kin.first {m m' : Hmm ℝ} (h : Kin m m') (p : ℝ) (k : Nat) : HierSpec.first m' p k = HierSpec.first m p k := by
  unfold HierSpec.first
  rw [h.left.1, h.left.2]
  rfl

/-- the same likelihoods, progress and likeliest state, and the same weights of the states in the output -/
structure Alike (r r' : Hmm ℝ) : Prop where
  instant : r'.instant = r.instant
  logLik : r'.logLik = r.logLik
  progress : r'.progress = r.progress
  likeliest : r'.likeliest = r.likeliest
  outWeight : Xmm.HmmSpec.outWeight r' = Xmm.HmmSpec.outWeight r
  covWeight : Xmm.HmmSpec.covWeight r' = Xmm.HmmSpec.covWeight r

/-- the reports of two classes with the same forward variables and the same history -/
theorem Kin.reported {m m' r r' : Hmm ℝ} (h : Kin m m') {log : ℝ → ℝ} {hist : List ℝ} {v w v' w' : Nat → List ℝ}
    (ha : ∀ e k, (m'.alphaOf e).getD k 0 = (m.alphaOf e).getD k 0) (hi : m'.instant = m.instant) (hf : m.Reported log hist v w r) (hf' : m'.Reported log hist v' w' r') :
    Alike r r' := by
  obtain ⟨s1, _, _, _, _, s6, _, _, _, _, _, s7, _⟩ := hf.sameClass.facts
  obtain ⟨t1, _, _, _, _, t6, _, _, _, _, _, t7, _⟩ := hf'.sameClass.facts
  have a0 : ∀ k, r'.alpha0.getD k 0 = r.alpha0.getD k 0 := fun k => by rw [hf.same, hf'.same]; exact ha 0 k
  have a1 : ∀ k, r'.alpha1.getD k 0 = r.alpha1.getD k 0 := fun k => by rw [hf.same, hf'.same]; exact ha 1 k
  have a2 : ∀ k, r'.alpha2.getD k 0 = r.alpha2.getD k 0 := fun k => by rw [hf.same, hf'.same]; exact ha 2 k
  have hocc : ∀ j, HmmSpec.occ r' j = HmmSpec.occ r j := fun j => by
    unfold HmmSpec.occ
    rw [t6, s6, h.hier.1, h.hier.2, if_pos rfl, if_pos rfl, a0, a1]
  have hlk : r'.likeliest = r.likeliest := IsLikeliest.unique (t1.trans (h.n.trans s1.symm)) hocc hf.windowed.likeliest hf'.windowed.likeliest
  have hlo : r'.winMin = r.winMin := by rw [hf.windowed.lo, hf'.windowed.lo, hlk, t1, s1, h.n]
  have hhi : r'.winMax = r.winMax := by rw [hf.windowed.hi, hf'.windowed.hi, hlk, t1, s1, h.n]
  have hz : r'.winNorm = r.winNorm := by
    rw [hf.windowed.norm, hf'.windowed.norm, hlo, hhi]; exact Finset.sum_congr rfl fun j _ => hocc j
  refine ⟨?_, by rw [hf.logLik, hf'.logLik, hi, h.window], ?_, hlk, ?_, ?_⟩
  · rw [show r'.instant = m'.instant by rw [hf'.same], show r.instant = m.instant by rw [hf.same], hi]
  · rw [hf.progress, hf'.progress, hlo, hhi, hz, h.n]
    congr 1
    exact Finset.sum_congr rfl fun j _ => by rw [hocc, a2]
  · funext i
    unfold Xmm.HmmSpec.outWeight
    rw [t7, s7, h.est, hocc, hlk, hlo, hhi, hz]
  · funext i
    unfold Xmm.HmmSpec.covWeight
    rw [t7, s7, h.est, hocc, hlo, hhi, hz]

end Hmm

namespace HierHmm
open HierSpec Hmm

/-- two models whose classes differ only in their states, and that have got the same likelihoods since `reset()` -/
structure Matched (M N : HierHmm ℝ) : Prop where
  len : N.models.length = M.models.length
  bimodal : N.bimodal = M.bimodal
  est : N.est = M.est
  started : N.started = M.started
  prior : N.prior = M.prior
  trans : N.trans = M.trans
  exits : N.exitTrans = M.exitTrans
  cls : ∀ (c : Nat) (lc : String × Hmm ℝ), M.models[c]? = some lc → ∃ n, N.models[c]? = some (lc.1, n) ∧ Kin lc.2 n ∧
    (∃ hist, Logs lc.2.buf lc.2.window hist ∧ Logs n.buf n.window hist) ∧ (M.started = true → ∀ e k, (n.alphaOf e).getD k 0 = (lc.2.alphaOf e).getD k 0)

namespace Matched
variable {M N : HierHmm ℝ}

theorem states (h : Matched M N) (c : Nat) : HierSpec.states N c = HierSpec.states M c := by
  by_cases hc : c < M.models.length
  · obtain ⟨a, ha⟩ := get_class hc
    obtain ⟨n, h1, h2, -⟩ := h.cls c a ha
    rw [states_of ha, states_of h1]; exact h2.n
  · unfold HierSpec.states
    rw [List.getElem?_eq_none (by rw [h.len]; omega), List.getElem?_eq_none (by omega)]

theorem leaving (h : Matched M N) (hs : M.started = true) (e : Nat) {c : Nat} (hc : c < M.models.length) : HierSpec.leaving N e c = HierSpec.leaving M e c := by
  unfold HierSpec.leaving
  rw [h.states]
  obtain ⟨a, ha⟩ := get_class hc
  obtain ⟨n, h1, h2, -, h3⟩ := h.cls c a ha
  exact Finset.sum_congr rfl fun k _ => by rw [alpha_of ha, alpha_of h1]; exact h3 hs e k

theorem entering (h : Matched M N) (hs : M.started = true) (c : Nat) : HierSpec.entering N c = HierSpec.entering M c := by
  unfold HierSpec.entering
  rw [h.len, h.trans, h.prior]
  exact Finset.sum_congr rfl fun s hs' => by rw [h.leaving hs 1 (Finset.mem_range.1 hs'), h.leaving hs 2 (Finset.mem_range.1 hs')]

theorem predicted (h : Matched M N) (hs : M.started = true) {c : Nat} {lc : String × Hmm ℝ} (hc : M.models[c]? = some lc) {n : Hmm ℝ}
    (hn : N.models[c]? = some (lc.1, n)) (k : Nat) :
    HierSpec.predicted n (HierSpec.entering N c) k = HierSpec.predicted lc.2 (HierSpec.entering M c) k := by
  obtain ⟨n', h1, h2, -, h3⟩ := h.cls c lc hc
  rw [hn] at h1
  cases h1
  unfold HierSpec.predicted
  rw [h.entering hs, h2.within, h2.n, h2.start]
  congr 1
  refine Finset.sum_congr rfl fun j _ => ?_
  rw [show n.alpha0.getD j 0 = lc.2.alpha0.getD j 0 from h3 hs 0 j]

theorem evidence (h : Matched M N) (hs : M.started = true) (b : Nat → Nat → ℝ) : HierSpec.evidence N b = HierSpec.evidence M b := by
  unfold HierSpec.evidence
  rw [h.len]
  refine Finset.sum_congr rfl fun c hc => ?_
  rw [h.states]
  refine Finset.sum_congr rfl fun k _ => ?_
  obtain ⟨a, ha⟩ := get_class (Finset.mem_range.1 hc)
  obtain ⟨n, h1, _⟩ := h.cls c a ha
  unfold joint
  rw [ha, h1]
  exact congrArg (b c k * ·) (h.predicted hs ha h1 k)

theorem initNorm (h : Matched M N) (b : Nat → Nat → ℝ) : initNorm N b = initNorm M b := by
  rw [initNorm_eq, initNorm_eq]
  congr 1
  · unfold evidence0
    rw [h.len]
    refine Finset.sum_congr rfl fun c hc => ?_
    rw [h.states]
    refine Finset.sum_congr rfl fun k _ => ?_
    obtain ⟨a, ha⟩ := get_class (Finset.mem_range.1 hc)
    obtain ⟨n, h1, h2, -⟩ := h.cls c a ha
    unfold joint0
    rw [ha, h1, h.prior]
    exact congrArg (b c k * ·) (h2.first _ k)
  · unfold stale
    rw [h.len]
    refine Finset.sum_congr rfl fun c hc => ?_
    obtain ⟨a, ha⟩ := get_class (Finset.mem_range.1 hc)
    obtain ⟨n, h1, h2, -⟩ := h.cls c a ha
    rw [ha, h1]
    show (if n.ergodic = true then n.instant else 0) = if a.2.ergodic = true then a.2.instant else 0
    rw [h2.left.1, h2.left.2]
    rfl

/-- the forward algorithm does the same to both classes -/
theorem heardClass (h : Matched M N) (b : Nat → Nat → ℝ) {c : Nat} {lc : String × Hmm ℝ} (hc : M.models[c]? = some lc) {n : Hmm ℝ} (hc' : N.models[c]? = some (lc.1, n)) :
    (∀ e k, ((heardClass N b c n).alphaOf e).getD k 0 = ((heardClass M b c lc.2).alphaOf e).getD k 0) ∧
    (heardClass N b c n).instant = (heardClass M b c lc.2).instant := by
  obtain ⟨n', h1, h2, -, h3⟩ := h.cls c lc hc
  rw [hc'] at h1
  cases h1
  have hn := h2.n
  have hx := h2.exitP
  unfold HierHmm.heardClass
  rw [h.started]
  rcases bool_cases M.started with hs | hs
  · rw [if_neg (by simp [hs]), if_neg (by simp [hs]), h.initNorm, h.prior]
    have hf := h2.first (M.prior.getD c 0)
    refine ⟨fun e k => ?_, ?_⟩
    · match e with
      | 0 => simp only [alphaOf, divided, begun, hn, hf]
      | 1 => simp only [alphaOf, divided, begun, hn]
      | _ + 2 => simp only [alphaOf, divided, begun, hn]
    · simp only [divided, begun, hn, hf, h2.left.1, h2.left.2]
      rfl
  · rw [if_pos hs, if_pos hs, h.evidence hs, h.exits]
    have hp : (fun k => b c k * HierSpec.predicted n (HierSpec.entering N c) k) = fun k => b c k * HierSpec.predicted lc.2 (HierSpec.entering M c) k := by
      funext k; rw [h.predicted hs hc hc' k]
    rw [hp]
    refine ⟨fun e k => ?_, ?_⟩
    · match e with
      | 0 => simp only [alphaOf, divided, updated, hn, hx]
      | 1 => simp only [alphaOf, divided, updated, hn, hx]
      | _ + 2 => simp only [alphaOf, divided, updated, hn, hx]
    · simp only [divided, updated, hn, hx]

/-- the classes report the same -/
def Reports (M N : HierHmm ℝ) : Prop := ∀ (c : Nat) (lc : String × Hmm ℝ), M.models[c]? = some lc → ∃ n, N.models[c]? = some (lc.1, n) ∧ Hmm.Alike lc.2 n

/-- with two modalities, the outputs of the classes are the same in the new axes -/
def Outputs {d : Nat} (A : NewAxes d) (di : Nat) (M N : HierHmm ℝ) : Prop := ∀ (c : Nat) (lc : String × Hmm ℝ), M.models[c]? = some lc → ∃ n, N.models[c]? = some (lc.1, n) ∧
  A.CarriesPrediction di lc.2.mode (lc.2.outVals, lc.2.outCov) (n.outVals, n.outCov)

/-- the shares of the states in the output of every class sum to 1, or the origin of the output is the same -/
def Centred {d : Nat} (A : NewAxes d) (di : Nat) (M : HierHmm ℝ) : Prop :=
  (∀ k : Fin d, di ≤ k.val → A.shift k = 0) ∨ ∀ lc ∈ M.models, lc.2.est = .likeliest ∨ lc.2.est = .windowed ∧ 2 ≤ lc.2.n

/-- the dimensions of the classes -/
def Shaped (d di : Nat) (M : HierHmm ℝ) : Prop := ∀ lc ∈ M.models, lc.2.dim = d ∧ lc.2.di = di

theorem occ_pos {M : HierHmm ℝ} (hu : M.Usable) (hs : M.started = true) {c : Nat} {lc : String × Hmm ℝ} (hc : M.models[c]? = some lc) :
    (∀ i < lc.2.n, 0 ≤ HmmSpec.occ lc.2 i) ∧ 0 < ∑ i ∈ Finset.range lc.2.n, HmmSpec.occ lc.2 i := by
  obtain ⟨-, h1, h2⟩ := hu.alpha hs
  have hh := (hu.ready.cls lc (mem_of_get hc)).1.hier
  have a0 : ∀ i, 0 ≤ lc.2.alpha0.getD i 0 := fun i => by have := h1 0 c i; rwa [alpha_of hc] at this
  have a1 : ∀ i, 0 ≤ lc.2.alpha1.getD i 0 := fun i => by have := h1 1 c i; rwa [alpha_of hc] at this
  have ho : ∀ i, HmmSpec.occ lc.2 i = lc.2.alpha0.getD i 0 + lc.2.alpha1.getD i 0 := fun i => by unfold HmmSpec.occ; rw [if_pos hh]
  refine ⟨fun i _ => by rw [ho]; exact add_nonneg (a0 i) (a1 i), lt_of_lt_of_le (h2 c (lt_of_get hc)) ?_⟩
  unfold HierSpec.leaving
  rw [states_of hc]
  refine Finset.sum_le_sum fun i _ => ?_
  rw [alpha_of hc, ho]
  exact le_add_of_nonneg_right (a1 i)

theorem step (h : Matched M N) {log exp : ℝ → ℝ} {M' N' : HierHmm ℝ} (hu : M.Usable) (hu' : N.Usable) {b : Nat → Nat → ℝ} {v w v' w' : Nat → Nat → List ℝ}
    (hs : Stepped log exp M b v w M') (hs' : Stepped log exp N b v' w' N') {d : Nat} (A : NewAxes d) (di : Nat) : Matched M' N' ∧ Reports M' N' ∧
      (M.bimodal = true → A.KeepsInput di → Shaped d di M → Centred A di M →
        (∀ (c : Nat) (lc : String × Hmm ℝ), M.models[c]? = some lc → ∀ i < lc.2.n, A.CarriesPrediction di lc.2.mode (v c i, w c i) (v' c i, w' c i)) → Outputs A di M' N') := by
  have hpair : ∀ (c : Nat) (p : String × Hmm ℝ), M'.models[c]? = some p → ∃ n, N'.models[c]? = some (p.1, n) ∧ Kin p.2 n ∧ Hmm.Alike p.2 n ∧
      (∃ hist, Logs p.2.buf p.2.window hist ∧ Logs n.buf n.window hist) ∧ (∀ e k, (n.alphaOf e).getD k 0 = (p.2.alphaOf e).getD k 0) ∧
      (M.bimodal = true → A.KeepsInput di → Shaped d di M → Centred A di M →
        (∀ (c : Nat) (lc : String × Hmm ℝ), M.models[c]? = some lc → ∀ i < lc.2.n, A.CarriesPrediction di lc.2.mode (v c i, w c i) (v' c i, w' c i)) →
        A.CarriesPrediction di p.2.mode (p.2.outVals, p.2.outCov) (n.outVals, n.outCov)) := by
    intro c p hp
    obtain ⟨a, ha⟩ := get_class (M := M) (c := c) (by rw [← hs.len]; exact lt_of_get hp)
    obtain ⟨m1, k1, k2, _⟩ := hs.cls c a ha
    obtain ⟨n, l1, l2, ⟨hist, hl, hl'⟩, -⟩ := h.cls c a ha
    obtain ⟨n1, g1, g2, _⟩ := hs'.cls c _ l1
    rw [hp] at k1
    cases k1
    obtain ⟨r1, r2⟩ := k2 hist hl
    obtain ⟨r1', r2'⟩ := g2 hist hl'
    obtain ⟨f1, f2⟩ := h.heardClass b ha l1
    have hI := (hu.ready.cls a (mem_of_get ha)).1
    have hIn := (hu'.ready.cls _ (mem_of_get l1)).1
    have hsame := k2.sameClass hI.can (hu.buf a (mem_of_get ha))
    have hsame' := g2.sameClass hIn.can (hu'.buf _ (mem_of_get l1))
    have q1 := heardClass_same M b c a.2 hI.can
    have q2 := heardClass_same N b c n hIn.can
    have hal := (l2.same q1 q2).reported f1 f2 r1 r1'
    refine ⟨n1, g1, l2.same hsame hsame', hal, ⟨_, r2, by rw [← f2]; exact r2'⟩, fun e k => ?_, fun hb hA hd hC hvw => ?_⟩
    · rw [(k2.reportedFields (hu.buf a (mem_of_get ha)) e k).1, (g2.reportedFields (hu'.buf _ (mem_of_get l1)) e k).1]
      exact f1 e k
    · obtain ⟨i1, -, -, -, -, -, i7, -, i9, i10, i11, -⟩ := q1.facts
      obtain ⟨j1, -, -, -, -, -, j7, -, j9, j10, j11, -⟩ := q2.facts
      obtain ⟨t1, -, -, -, -, -, -, -, -, -, t11, t12, -⟩ := hsame.facts
      have hab : a.2.bimodal = true := (hu.ready.cls a (mem_of_get ha)).2.trans hb
      obtain ⟨d1, d2⟩ := hd a (mem_of_get ha)
      have o1 := r1.outVals (i7.trans hab)
      have o2 := r1.outCov (i7.trans hab)
      have o3 := r1'.outVals (j7.trans (l2.bimodal.trans hab))
      have o4 := r1'.outCov (j7.trans (l2.bimodal.trans hab))
      rw [i1, i9, i10, d1, d2] at o1
      rw [i1, i9, i10, i11, d1, d2] at o2
      rw [j1, j9, j10, l2.n, l2.dims.1, l2.dims.2, d1, d2, hal.outWeight] at o3
      rw [j1, j9, j10, j11, l2.n, l2.dims.1, l2.dims.2, l2.mode, d1, d2, hal.covWeight] at o4
      rw [t11, o1, o2, o3, o4]
      refine NewAxes.CarriesPrediction.combine hA a.2.n _ _ _ _ _ _ (hvw c a ha) (hC.imp_right fun he => ?_)
      have hst : M'.started = true := by rw [hs.keep]
      obtain ⟨p1, p2⟩ := occ_pos hs.usable hst hp
      have := Hmm.outWeight_sum r1.windowed (by
        rw [t12, t1]
        exact he a (mem_of_get ha)) p1 p2
      rw [t1] at this
      exact this
  have e1 := hs.keep
  have e2 := hs'.keep
  refine ⟨⟨by rw [hs.len, hs'.len, h.len], ?_, ?_, ?_, ?_, ?_, ?_, fun c p hp => ?_⟩, fun c p hp => ?_, fun hb hA hd hC hvw c p hp => ?_⟩
  · rw [e1, e2]; exact h.bimodal
  · rw [e1, e2]; exact h.est
  · rw [e1, e2]
  · rw [e1, e2]; exact h.prior
  · rw [e1, e2]; exact h.trans
  · rw [e1, e2]; exact h.exits
  · obtain ⟨n, q1, q2, q3, q4, q5, -⟩ := hpair c p hp
    exact ⟨n, q1, q2, q4, fun _ => q5⟩
  · obtain ⟨n, q1, q2, q3, q4, q5, -⟩ := hpair c p hp
    exact ⟨n, q1, q3⟩
  · obtain ⟨n, q1, q2, q3, q4, q5, q6⟩ := hpair c p hp
    exact ⟨n, q1, q6 hb hA hd hC hvw⟩

/-- the output of the model, from those of the classes -/
theorem output {d : Nat} {A : NewAxes d} {di : Nat} (h : Matched M N) (hr : Outputs A di M N) (hA : A.KeepsInput di) (hne : M.models ≠ []) {exp : ℝ → ℝ} (hexp : ∀ x, 0 < exp x)
    (hu : M.Usable) (hu' : N.Usable) (hb : M.bimodal = true) (hd : Shaped d di M) (hsum : M.results.Summary exp M.classes) (hsame : M.results.SameLikelihoods N.results)
    (oM : M.OutputsOf) (oN : N.OutputsOf) : A.CarriesPrediction di M.mode (M.results.outVals, M.results.outCov) (N.results.outVals, N.results.outCov) := by
  have hl := h.len
  obtain ⟨lc0, hlc0⟩ := List.exists_mem_of_ne_nil _ hne
  obtain ⟨c0, hc0⟩ := List.getElem?_of_mem hlc0
  obtain ⟨n0, g1, g2, -⟩ := h.cls c0 lc0 hc0
  have hdim : M.dim - M.di = d - di := by rw [← hu.dims _ hlc0, (hd _ hlc0).1, (hd _ hlc0).2]
  have hdimN : N.dim - N.di = d - di := by
    have := hu'.dims _ (mem_of_get g1)
    simp only [g2.dims.1, g2.dims.2] at this
    rw [← this, (hd _ hlc0).1, (hd _ hlc0).2]
  have hmN : N.mode = M.mode := by
    have e1 := hu'.mode (h.bimodal.trans hb) _ (mem_of_get g1)
    have e2 := hu.mode hb _ hlc0
    simp only [g2.mode] at e1
    rw [← e1, e2]
  have hcl : ∀ i (h1 : i < M.models.length) (h2 : i < N.models.length), N.models[i].1 = M.models[i].1 ∧
      A.CarriesPrediction di M.mode (M.models[i].2.outVals, M.models[i].2.outCov) (N.models[i].2.outVals, N.models[i].2.outCov) := by
    intro i h1 h2
    obtain ⟨n, k1, k2⟩ := hr i _ (List.getElem?_eq_getElem h1)
    rw [List.getElem?_eq_getElem h2] at k1
    injection k1 with k1
    rw [hu.mode hb _ (List.getElem_mem h1)] at k2
    rw [k1]
    exact ⟨rfl, k2⟩
  unfold OutputsOf at oM oN
  rw [h.est] at oN
  cases he : M.est with
  | likeliest =>
    rw [he] at oM oN
    simp only at oM oN
    obtain ⟨c, c1, c2, c3⟩ := oM
    obtain ⟨c', c1', c2', c3'⟩ := oN
    obtain ⟨i, hi, hci⟩ := List.getElem_of_mem c1
    have hi' : i < N.models.length := by rw [hl]; exact hi
    obtain ⟨e1, e2⟩ := hcl i hi hi'
    have hc' : N.models[i].2 = c' := by
      have hm : (N.results.likeliest, N.models[i].2) ∈ N.models := by
        rw [hsame.likeliest]
        have : N.models[i].1 = M.results.likeliest := by rw [e1, hci]
        rw [← this]
        exact List.getElem_mem hi'
      have e1 := (SMap.mem_iff_find? hu'.sorted).1 hm
      rw [(SMap.mem_iff_find? hu'.sorted).1 c1'] at e1
      exact (Option.some.inj e1).symm
    rw [hc', hci] at e2
    rw [c2, c3, c2', c3']
    exact e2
  | mixture =>
    rw [he] at oM oN
    simp only at oM oN
    rw [hdim] at oM
    rw [hdimN, hmN, hl, hsame.smoothedNorm] at oN
    have hcm : M.classes ≠ [] := by simpa [HierHmm.classes] using hne
    have hw : ∑ i ∈ Finset.range M.models.length, M.results.smoothedNorm.getD i 0 = 1 := by
      have hl : M.models.length = M.classes.length := by simp [HierHmm.classes]
      have hpos : 0 < (M.classes.map fun c => exp c.2.logLik).sum := by
        refine List.sum_pos _ (fun x hx' => by obtain ⟨c, -, rfl⟩ := List.mem_map.1 hx'; exact hexp _) (by simpa using hcm)
      rw [hsum.smoothedNorm, hl]
      have := GmmModel.rangeSum (fun c : String × ClassRes ℝ => exp c.2.logLik / (M.classes.map fun c => exp c.2.logLik).sum) M.classes
      rw [show (M.classes.map fun c => exp c.2.logLik / (M.classes.map fun c => exp c.2.logLik).sum).sum = 1 by
        simp only [div_eq_mul_inv]
        rw [List.sum_map_mul_right, mul_inv_cancel₀ hpos.ne']] at this
      rw [← this]
      exact Finset.sum_congr rfl fun i _ => by simp [List.getD_eq_getElem?_getD]
    have hov : ∀ (P : HierHmm ℝ) (i k : Nat), RecSpec.outVal P.classes i k = (((P.models[i]?).map fun lc => lc.2.outVals).getD []).getD k 0 ∧
        RecSpec.outVar P.classes i k = (((P.models[i]?).map fun lc => lc.2.outCov).getD []).getD k 0 := by
      intro P i k
      unfold RecSpec.outVal RecSpec.outVar HierHmm.classes
      simp only [List.getElem?_map]
      cases P.models[i]? <;> simp [Hmm.results]
    simp only [hov] at oM oN
    rw [oM.1, oM.2, oN.1, oN.2]
    refine NewAxes.CarriesPrediction.combine hA M.models.length _ _ _ _ _ _ (fun i hi => ?_) (Or.inr hw)
    have hi' : i < N.models.length := by rw [hl]; exact hi
    simp only [List.getElem?_eq_getElem hi, List.getElem?_eq_getElem hi', Option.map_some, Option.getD_some]
    exact (hcl i hi hi').2

theorem ne (h : Matched M N) (hne : M.models ≠ []) : N.models ≠ [] := by
  intro h0
  have := h.len
  rw [h0] at this
  exact hne (List.eq_nil_of_length_eq_zero this.symm)

theorem classes (h : Reports M N) (hl : N.models.length = M.models.length) :
    N.classes.map (fun c => (c.1, c.2.instant, c.2.logLik)) = M.classes.map fun c => (c.1, c.2.instant, c.2.logLik) := by
  refine List.ext_getElem? fun i => ?_
  unfold HierHmm.classes
  simp only [List.map_map, List.getElem?_map]
  by_cases hi : i < M.models.length
  · obtain ⟨p, hp⟩ := get_class hi
    obtain ⟨n, h1, h2⟩ := h i p hp
    rw [hp, h1]
    simp only [Option.map_some, Function.comp, Hmm.results, h2.instant, h2.logLik]
  · rw [List.getElem?_eq_none (by rw [hl]; omega), List.getElem?_eq_none (by omega)]

/-- the observations `x` and `f x` fit the models, have the same likelihoods in the same states and, with two modalities, the same predictions in the new axes -/
def Common {d : Nat} (A : NewAxes d) (di : Nat) (D : Dens ℝ) (f : List ℝ → List ℝ) (M N : HierHmm ℝ) (x : List ℝ) : Prop :=
  (∀ lc ∈ M.models, lc.2.Fits x) ∧ (∀ lc ∈ N.models, lc.2.Fits (f x)) ∧
    ∃ (b : Nat → Nat → ℝ) (v w v' w' : Nat → Nat → List ℝ), HierSpec.Emits D M x b ∧ HierSpec.Emits D N (f x) b ∧ (∀ c k, c < M.models.length → k < HierSpec.states M c → 0 < b c k) ∧
      HierSpec.Predicts D M x v w ∧ HierSpec.Predicts D N (f x) v' w' ∧
      (M.bimodal = true → ∀ (c : Nat) (lc : String × Hmm ℝ), M.models[c]? = some lc → ∀ i < lc.2.n, A.CarriesPrediction di lc.2.mode (v c i, w c i) (v' c i, w' c i))

theorem emits_same {D : Dens ℝ} {M M' : HierHmm ℝ} (h : SameClasses M M') {x : List ℝ} {b : Nat → Nat → ℝ} (hb : HierSpec.Emits D M x b) : HierSpec.Emits D M' x b := by
  intro c lc hlc
  obtain ⟨a, ha⟩ := get_class (M := M) (c := c) (by rw [← h.1]; exact lt_of_get hlc)
  obtain ⟨m', h1, h2⟩ := h.2 c a ha
  rw [hlc] at h1
  cases h1
  exact h2.emits (hb c a ha)

theorem fits_same {M M' : HierHmm ℝ} (h : SameClasses M M') {x : List ℝ} (hx : ∀ lc ∈ M.models, lc.2.Fits x) : ∀ lc ∈ M'.models, lc.2.Fits x := by
  intro lc hlc
  obtain ⟨c, a, h1, _, _, h2⟩ := h.back hlc
  exact h2.fits (hx a (mem_of_get h1))

theorem predicts_same {D : Dens ℝ} {M M' : HierHmm ℝ} (h : SameClasses M M') (hb : M'.bimodal = M.bimodal) {x : List ℝ} {v w : Nat → Nat → List ℝ} (hv : HierSpec.Predicts D M x v w) :
    HierSpec.Predicts D M' x v w := by
  intro hb' c lc hlc
  obtain ⟨a, ha⟩ := get_class (M := M) (c := c) (by rw [← h.1]; exact lt_of_get hlc)
  obtain ⟨m', h1, h2⟩ := h.2 c a ha
  rw [hlc] at h1
  cases h1
  exact h2.predicts (hv (hb.symm.trans hb') c a ha)

theorem Common.same {d : Nat} {A : NewAxes d} {di : Nat} {D : Dens ℝ} {f : List ℝ → List ℝ} {M N M' N' : HierHmm ℝ} {x : List ℝ} (h : Common A di D f M N x) (hM : SameClasses M M')
    (hN : SameClasses N N') (hbM : M'.bimodal = M.bimodal) (hbN : N'.bimodal = N.bimodal) : Common A di D f M' N' x := by
  obtain ⟨h1, h2, b, v, w, v', w', h3, h4, h5, h6, h7, h8⟩ := h
  refine ⟨fits_same hM h1, fits_same hN h2, b, v, w, v', w', emits_same hM h3, emits_same hN h4, fun c k hc hk => h5 c k (by rw [← hM.1]; exact hc) (by rw [← hM.states]; exact hk),
    predicts_same hM hbM h6, predicts_same hN hbN h7, fun hb c lc hlc i hi => ?_⟩
  obtain ⟨a, ha⟩ := get_class (M := M) (c := c) (by rw [← hM.1]; exact lt_of_get hlc)
  obtain ⟨m', k1, k2⟩ := hM.2 c a ha
  rw [hlc] at k1
  cases k1
  obtain ⟨i1, -, -, -, -, -, -, -, -, -, i11, -⟩ := k2.facts
  rw [i11]
  exact h8 (hbM.symm.trans hb) c a ha i (by rw [← i1]; exact hi)

theorem Shaped.same {d di : Nat} {M M' : HierHmm ℝ} (h : Shaped d di M) (hM : SameClasses M M') : Shaped d di M' := by
  intro lc hlc
  obtain ⟨c, a, h1, _, _, h2⟩ := hM.back hlc
  obtain ⟨-, -, -, -, -, -, -, -, i9, i10, -⟩ := h2.facts
  rw [i9, i10]
  exact h a (mem_of_get h1)

theorem Centred.same {d di : Nat} {A : NewAxes d} {M M' : HierHmm ℝ} (h : Centred A di M) (hM : SameClasses M M') : Centred A di M' := by
  refine h.imp_right fun h lc hlc => ?_
  obtain ⟨c, a, h1, _, _, h2⟩ := hM.back hlc
  obtain ⟨i1, -, -, -, -, -, -, -, -, -, -, i12, -⟩ := h2.facts
  rw [i1, i12]
  exact h a (mem_of_get h1)

theorem stream {d : Nat} (A : NewAxes d) (di : Nat) (D : Dens ℝ) (log exp : ℝ → ℝ) (f : List ℝ → List ℝ) (xs : List (List ℝ)) (hxs : xs ≠ []) : ∀ M N : HierHmm ℝ, M.Usable → N.Usable →
    Matched M N → M.models ≠ [] → (∀ x ∈ xs, Common A di D f M N x) →
    ∃ rs M' N', filterAll D log exp xs M = .ret rs M' ∧ filterAll D log exp (xs.map f) N = .ret rs N' ∧ Reports M' N' ∧ M'.results.SameLikelihoods N'.results ∧
      (M.bimodal = true → A.KeepsInput di → Shaped d di M → Centred A di M → Outputs A di M' N' ∧
        ((∀ x, 0 < exp x) → A.CarriesPrediction di M.mode (M'.results.outVals, M'.results.outCov) (N'.results.outVals, N'.results.outCov))) := by
  induction xs with
  | nil => exact absurd rfl hxs
  | cons x xs ih =>
    intro M N hu hu' h hne hx
    obtain ⟨x1, x2, b, v, w, v', w', x3, x4, x5, x6, x7, x8⟩ := hx x List.mem_cons_self
    obtain ⟨M1, h1, h2⟩ := filter_ret D log exp M hu hne x x1 b x3 v w x6 x5
    obtain ⟨N1, g1, g2⟩ := filter_ret D log exp N hu' (h.ne hne) (f x) x2 b x4 v' w' x7
      (fun c k hc hk => x5 c k (by rw [← h.len]; exact hc) (by rw [← h.states]; exact hk))
    obtain ⟨s1, s2, s3⟩ := h.step hu hu' h2 g2 A di
    have hsum := MultiRes.same_of_classes h2.summary g2.summary (fun h0 => h2.ne hne (List.map_eq_nil_iff.1 h0)) (classes s2 s1.len)
    have bM : M1.bimodal = M.bimodal := by rw [h2.keep]
    have bN : N1.bimodal = N.bimodal := by rw [g2.keep]
    have mM : M1.mode = M.mode := by rw [h2.keep]
    cases xs with
    | nil =>
      refine ⟨[M1.results.inst], M1, N1, ?_, ?_, s2, hsum, fun hb hA hd hC => ?_⟩
      · simp only [filterAll]
        rw [bind_of_ret h1, bind_of_ret (get_def M1)]; rfl
      · simp only [List.map_cons, List.map_nil, filterAll]
        rw [bind_of_ret g1, bind_of_ret (get_def N1), ← hsum.inst]; rfl
      · have ho := s3 hb hA hd hC (x8 hb)
        refine ⟨ho, fun hexp => ?_⟩
        rw [← mM]
        exact s1.output ho hA (h2.ne hne) hexp h2.usable g2.usable (bM.trans hb) (hd.same (h2.sameClasses hu)) h2.summary hsum (h2.outputs hb) (g2.outputs (h.bimodal.trans hb))
    | cons y ys =>
      obtain ⟨rs, M', N', k1, k2, k3, k4, k5⟩ := ih (by simp) M1 N1 h2.usable g2.usable s1 (h2.ne hne)
        fun z hz => (hx z (List.mem_cons_of_mem _ hz)).same (h2.sameClasses hu) (g2.sameClasses hu') bM bN
      refine ⟨M1.results.inst :: rs, M', N', ?_, ?_, k3, k4, fun hb hA hd hC => ?_⟩
      · rw [filterAll, bind_of_ret h1, bind_of_ret (get_def M1), bind_of_ret k1]; rfl
      · rw [List.map_cons, filterAll, bind_of_ret g1, bind_of_ret (get_def N1), bind_of_ret k2, ← hsum.inst]; rfl
      · have := k5 (bM.trans hb) hA (hd.same (h2.sameClasses hu)) (hC.same (h2.sameClasses hu))
        rw [mM] at this
        exact this

end Matched
end HierHmm

/-! ### The training of one class -/

namespace Hmm

/-- the training of a class that is cancelled before it starts -/
theorem trainedAlone_cancelled (f : Format) (hv : f.Valid) (window : Nat) (p : HmmParams ℝ) (hn : 1 ≤ p.n) (hg : 1 ≤ p.gaussians) (z : ℝ) (data : KData ℝ) (C : Compare ℝ) (P : EmParams)
    (hP : 1 ≤ P.minIter) (cancel : Nat → Bool) (hcan : cancel 0 = true) {tr : Trainer ℝ} {m : Hmm ℝ} (h : trainedAlone Dens.real Real.log C P cancel (fresh f window p z) data = .ret tr m) :
    tr.status = .cancel := by
  obtain ⟨m1, h1, -⟩ := allocate_fresh _ (fresh_admissible hv (window := window) hn hg z)
  obtain ⟨t, k, g1, g2, -⟩ := Trainee.train_cancelled (trainee Dens.real Real.log Real.sqrt C P KData.deviation data) C P cancel _ m1 h1 hP hcan
  unfold trainedAlone at h
  have h := g1.symm.trans h
  injection h with h
  rw [← h]
  exact g2

/-- a class of a hierarchy trained alone, in both axes -/
theorem trainedAlone_moved (f : Format) (hv : f.Valid) (A : NewAxes f.dim) (hA : f.bimodal = true → A.KeepsInput f.di) (window : Nat) (hw : 1 ≤ window) (p : HmmParams ℝ) (hn : 1 ≤ p.n)
    (hg : 1 ≤ p.gaussians) (hreg : 1 / 10 ^ 9 ≤ p.absReg) (hE : p.ergodic = false) (z : ℝ) (data : KData ℝ) (hf : (fresh f window p z).Fed data)
    (hl : (fresh f window p z).LongPhrase data) (hlen : data.frames.length ≤ 10 ^ 90) (ho : (∀ k, A.shift k = 0) ∨ (fresh f window p z).Steady data) (lowest pct : ℝ) (P : EmParams)
    (hP : 1 ≤ P.minIter) (cancel : Nat → Bool) (hcan : cancel 0 = false) :
    ∃ tr m n, trainedAlone Dens.real Real.log (Compare.exact lowest pct) P cancel (fresh f window p z) data = .ret tr m ∧
      trainedAlone Dens.real Real.log (Compare.exact lowest pct) P cancel (fresh f window p z) (A.data data) = .ret tr n ∧ A.CarriesHmm m n ∧
      m.n = p.n ∧ m.est = p.est ∧ m.dim = f.dim ∧ m.di = f.di ∧ m.mode = p.mode ∧ m.bimodal = f.bimodal ∧
      (tr.status = .done → ∀ x : List ℝ, (x.length = if f.bimodal then f.di else f.dim) → ∃ (b : Nat → ℝ) (v w v' w' : Nat → List ℝ),
        Xmm.HmmSpec.Emits Dens.real m x b ∧ Xmm.HmmSpec.Emits Dens.real n (A.observation f x) b ∧ (∀ k < m.n, 0 < b k) ∧
        (f.bimodal = true → Xmm.HmmSpec.Predicts Dens.real m x v w ∧ Xmm.HmmSpec.Predicts Dens.real n (A.observation f x) v' w' ∧
          ∀ i < m.n, A.CarriesPrediction f.di m.mode (v i, w i) (v' i, w' i))) := by
  have hlog : ∀ x y : ℝ, 0 < x → 0 < y → Real.log (x * y) = Real.log x + Real.log y := fun x y hx hy => Real.log_mul hx.ne' hy.ne'
  have hdev : (KData.deviation : KData ℝ → List ℝ) = fun d => deviations d.dim d.frames := funext deviation_eq
  have hadm := fresh_admissible hv (window := window) hn hg z
  set c := fresh f window p z with hc
  have hlen' : (A.data data).frames.length ≤ 10 ^ 90 := by rw [A.frames, List.length_map]; exact hlen
  obtain ⟨t, u, u', h1, h2, h3, h4, h5, -⟩ := C98_training c hadm hE hw data hf hl hlen hreg A ho lowest pct P hP cancel hcan
  obtain ⟨t1, u1, w1, -, -, -, -, -, w2, -, -, w3, -⟩ := C83_training Dens.real Dens.real_sound Real.log hlog c hadm hE hw data hf hl hlen hreg
    (fun d => deviations d.dim d.frames) sdOf_length lowest pct P hP cancel
  obtain ⟨t2, u2, x1, -, -, -, -, -, x2, -, -, x3, -⟩ := C83_training Dens.real Dens.real_sound Real.log hlog c hadm hE hw (A.data data) (fed_moved A hf) (longPhrase_moved A hl) hlen' hreg
    (fun d => deviations d.dim d.frames) sdOf_length lowest pct P hP cancel
  have w1 := h1.symm.trans w1
  have x1 := h2.symm.trans x1
  injection w1 with q1 q2
  injection x1 with q3 q4
  subst q1 q2 q3 q4
  refine ⟨t, u, u', by unfold trainedAlone; rw [hdev]; exact h1, by unfold trainedAlone; rw [hdev]; exact h2, h3, by rw [w2]; rfl, by rw [w2]; rfl, by rw [w2]; rfl, by rw [w2]; rfl, by rw [w2]; rfl, by rw [w2]; rfl, fun hd x hx => ?_⟩
  have hx0 := lastExit_exits (m := c) rfl
  have cm : u.CanFilter := ((w3 hd).2.2.2.2 rfl hx0).1.can
  have cn : u'.CanFilter := ((x3 hd).2.2.2.2 rfl hx0).1.can
  have dm : u.dim = f.dim := by rw [w2]; rfl
  have dn : u'.dim = f.dim := by rw [x2]; rfl
  have im : u.di = f.di := by rw [w2]; rfl
  cases hb : f.bimodal with
  | false =>
    have bm : u.bimodal = false := by rw [w2]; exact hb
    have bn : u'.bimodal = false := by rw [x2]; exact hb
    rw [if_neg (by simp [hb])] at hx
    have ho : A.observation f x = A.frame x := by unfold NewAxes.observation; rw [if_neg (by simp [hb])]
    obtain ⟨e1, e2⟩ := emits_floored cm (fun s hs g hg => (h4 s hs g hg).upToDate) bm x (by unfold Fits; rw [if_neg (by simp [bm]), dm, hx])
    obtain ⟨e3, -⟩ := emits_floored cn (fun s hs g hg => (h5 s hs g hg).upToDate) bn (A.frame x) (by unfold Fits; rw [if_neg (by simp [bn]), dn, A.frame_length])
    rw [ho]
    refine ⟨_, fun _ => [], fun _ => [], fun _ => [], fun _ => [], e1, ?_, fun k hk => lt_of_lt_of_le (by positivity) (e2 k hk), fun h => absurd h (by simp)⟩
    have : Xmm.HmmSpec.likOf u' u'.floored (A.frame x) = Xmm.HmmSpec.likOf u u.floored x := by
      funext i
      have hg' : u'.gaussians = u.gaussians := by rw [h3.same]
      show RecSpec.mixture u'.gaussians (Xmm.HmmSpec.coeff u' i) (u'.floored i (A.frame x)) = RecSpec.mixture u.gaussians (Xmm.HmmSpec.coeff u i) (u.floored i x)
      rw [hg', h3.coeff]
      congr 1
      funext k
      exact h3.floored (fun s hs => (cm.state s hs).1.ready.wf) (fun s hs => (cn.state s hs).1.ready.wf) i x k
    rw [← this]
    exact e3
  | true =>
    have bm : u.bimodal = true := by rw [w2]; exact hb
    rw [if_pos hb, ← im] at hx
    have ho : A.observation f x = A.input u.di x := by unfold NewAxes.observation; rw [if_pos hb, im]
    obtain ⟨b, v, w, v', w', e1, e2, e3, e4, e5, e6⟩ := bimodal_moved A u u' h3 bm (by rw [im]; exact hA hb) cm cn h4 h5 x hx
    rw [ho]
    rw [im] at e6
    exact ⟨b, v, w, v', w', e1, e2, fun k hk => lt_of_lt_of_le (by positivity) (e3 k hk), fun _ => ⟨e4, e5, e6⟩⟩

end Hmm

/-! ### From the recordings on -/

namespace HierHmm
open Hmm

theorem even_same {M N : HierHmm ℝ} (hM : M.Usable) (hN : N.Usable) (eM : Even M) (eN : Even N) (hl : N.models.length = M.models.length) :
    N.prior = M.prior ∧ N.trans = M.trans ∧ N.exitTrans = M.exitTrans := by
  have key : ∀ {A : HierHmm ℝ}, A.Usable → Even A → A.prior = List.replicate A.models.length (1 / (A.models.length : ℝ)) ∧
      A.trans = List.replicate A.models.length (List.replicate A.models.length (1 / (A.models.length : ℝ))) ∧ A.exitTrans = List.replicate A.models.length defaultExitTransition := by
    intro A hA eA
    have top := hA.ready.top
    refine ⟨List.eq_replicate_iff.2 ⟨top.prior, fun p hp => ?_⟩, List.eq_replicate_iff.2 ⟨top.trans, fun r hr => List.eq_replicate_iff.2 ⟨top.row r hr, fun p hp => ?_⟩⟩,
      List.eq_replicate_iff.2 ⟨top.exitTrans, eA.exits⟩⟩
    · rw [← top.prior]; exact eA.prior p hp
    · rw [← top.prior]; exact eA.trans r hr p hp
  obtain ⟨p1, p2, p3⟩ := key hM eM
  obtain ⟨q1, q2, q3⟩ := key hN eN
  rw [p1, p2, p3, q1, q2, q3, hl]
  exact ⟨rfl, rfl, rfl⟩

theorem one_class {M : HierHmm ℝ} (hs : SMap.Sorted M.models) {l : String} {u v : Hmm ℝ} (hu : (l, u) ∈ M.models) (hv : (l, v) ∈ M.models) : u = v := by
  have e1 := (SMap.mem_iff_find? hs).1 hu
  rw [(SMap.mem_iff_find? hs).1 hv] at e1
  exact (Option.some.inj e1).symm

/-- C113 (hidden Markov models: LeftRight, in a hierarchy): two recording sessions; in the second one the takes of every class hold the same frames, in other axes (the columns in another order,
    some with the opposite sign, and another origin; with two modalities, input columns remain input columns).  Both models are trained with the same settings; the training of any class may be cancelled, at the same moments in both.
    Then they have the same classes.
    After `reset()`, on every stream, given to the second model in the new axes, all likelihoods of all observations, the likeliest class, and the progress and the likeliest state of every class
    are the same; with two modalities, the output values and the output variances of the model, and of every class, are the same in the new axes.  (Another origin: only if, for every class, the
    initialisation does not depend on it, C98; the outputs, with another origin of the output columns: only if the shares of the states in the output of a class sum to 1, which they do not with
    the regression estimator Full (C72).  Ergodic models are not covered.) -/
theorem C113_hmm_axes_partial (f : Format) (hv : f.Valid) (A : NewAxes f.dim) (hA : f.bimodal = true → A.KeepsInput f.di) (i j : Nat) (v0 w0 : World ℝ String) (hv0 : v0.sets i = none)
    (hw0 : w0.sets j = none) (as bs : List (RecOp ℝ String)) (ha : Takes.Admissible f as []) (hb : Takes.Admissible f bs []) (hne : (Takes.run f as []).1 ≠ [])
    (hτ : A.CarriesTakes (Takes.run f as []).1 (Takes.run f bs []).1) (M N : HierHmm ℝ) (hiM : M.training = false) (hiN : N.training = false) (P : EmParams) (hSM : M.Settings P)
    (hhM : M.hier = true) (hhN : N.hier = true) (hlong : Takes.LongEnough (Takes.run f as []).1 fun l => (M.conf l).n) (hbM : M.bimodal = f.bimodal) (hbN : N.bimodal = f.bimodal)
    (hdM : M.bimodal = false → M.di = 0) (hdN : N.bimodal = false → N.di = 0) (hmM : M.bimodal = true → ∀ l, (M.conf l).mode = M.mode)
    (hmN : N.bimodal = true → ∀ l, (N.conf l).mode = N.mode) (hconf : N.conf = M.conf) (hw : N.window = M.window) (hest : N.est = M.est) (z : ℝ)
    (ho : (∀ k, A.shift k = 0) ∨ ∀ e ∈ (Takes.run f as []).1, (fresh f M.window (M.conf e.2.1) z).Steady (Takes.data f (Takes.run f as []).1 e.2.1))
    (lowest pct : ℝ) (cancel : String → Nat → Bool) :
    ∃ M' N', recordAndTrainHmm z Dens.real Real.log (Compare.exact lowest pct) P cancel f i as v0 M = .ret () M' ∧
      recordAndTrainHmm z Dens.real Real.log (Compare.exact lowest pct) P cancel f j bs w0 N = .ret () N' ∧
      SMap.keys N'.models = SMap.keys M'.models ∧
      ∀ (exp : ℝ → ℝ), M'.models ≠ [] → ∀ xs : List (List ℝ), xs ≠ [] → (∀ x ∈ xs, x.length = if f.bimodal then f.di else f.dim) →
        ∃ rs M'' N'', (do reset; filterAll Dens.real Real.log exp xs) M' = .ret rs M'' ∧ (do reset; filterAll Dens.real Real.log exp (xs.map (A.observation f))) N' = .ret rs N'' ∧
          M''.results.SameLikelihoods N''.results ∧
          (∀ l m, (l, m) ∈ M''.models → ∃ n, (l, n) ∈ N''.models ∧ n.progress = m.progress ∧ n.likeliest = m.likeliest) ∧
          (f.bimodal = true → ((∀ k : Fin f.dim, f.di ≤ k.val → A.shift k = 0) ∨
              ∀ e ∈ (Takes.run f as []).1, (M.conf e.2.1).est = .likeliest ∨ (M.conf e.2.1).est = .windowed ∧ 2 ≤ (M.conf e.2.1).n) →
            (∀ l m, (l, m) ∈ M''.models → ∃ n, (l, n) ∈ N''.models ∧ A.CarriesPrediction f.di m.mode (m.outVals, m.outCov) (n.outVals, n.outCov)) ∧
            ((∀ x, 0 < exp x) → A.CarriesPrediction f.di M.mode (M''.results.outVals, M''.results.outCov) (N''.results.outVals, N''.results.outCov))) := by
  set τ := (Takes.run f as []).1 with hτ0
  set τ' := (Takes.run f bs []).1 with hτ1
  have hlog : ∀ x y : ℝ, 0 < x → 0 < y → Real.log (x * y) = Real.log x + Real.log y := fun x y hx hy => Real.log_mul hx.ne' hy.ne'
  have hSN : N.Settings P := ⟨by rw [hw]; exact hSM.window, hSM.minIter, by rw [hconf]; exact hSM.states, by rw [hconf]; exact hSM.gaussians, by rw [hconf]; exact hSM.absReg,
    by rw [hconf]; exact hSM.leftRight⟩
  obtain ⟨w, t, s1, s2, s3⟩ := recordAndTrainHmm_sim f hv i v0 hv0 as ha
  obtain ⟨w', t', s1', s2', s3'⟩ := recordAndTrainHmm_sim f hv j w0 hw0 bs hb
  have hne' : τ' ≠ [] := by
    obtain ⟨e, h1⟩ := List.exists_mem_of_ne_nil _ hne
    obtain ⟨e', h2, -⟩ := (hτ.labels e.2.1).2 ⟨e, h1, rfl⟩
    exact List.ne_nil_of_mem h2
  have hmemf : ∀ (σ : Takes ℝ String) (l : String) (p : List (List ℝ)), p ∈ (σ.ofClass l).frames ↔ ∃ e ∈ σ, e.2.1 = l ∧ e.2.2.frames = p := by
    intro σ l p
    simp only [Takes.frames, Takes.ofClass, List.mem_map, List.mem_filter, decide_eq_true_eq, and_assoc]
  have hlong' : Takes.LongEnough τ' fun l => (N.conf l).n := by
    intro e h1
    obtain ⟨e0, h2, h3⟩ := (hτ.labels e.2.1).1 ⟨e, h1, rfl⟩
    obtain ⟨⟨e1, h4, h5, h6⟩, h7⟩ := hlong e0 h2
    have h8 : e1.2.2.frames.map A.frame ∈ (τ'.ofClass e.2.1).frames := by
      rw [hτ.frames]
      exact List.mem_map.2 ⟨_, (hmemf τ e.2.1 _).2 ⟨e1, h4, h5.trans h3, rfl⟩, rfl⟩
    obtain ⟨e2, k1, k2, k3⟩ := (hmemf τ' _ _).1 h8
    refine ⟨⟨e2, k1, k2, ?_⟩, ?_⟩
    · rw [k3, List.length_map, hconf, ← h3]; exact h6
    · rw [hτ.frames, ← h3, ← List.map_flatten, List.length_map]; exact h7
  obtain ⟨M', a1, a2, -, a3, a4, a5, a6, a7, -⟩ := C105_of_sim s1 s2 hv hne M hiM P hSM hhM hlong hbM hdM hmM z Dens.real
    Dens.real_sound Real.log hlog lowest pct cancel
  obtain ⟨N', b1, b2, -, b3, b4, b5, b6, b7, -⟩ := C105_of_sim s1' s2' hv hne' N hiN P hSN hhN hlong' hbN hdN hmN z Dens.real
    Dens.real_sound Real.log hlog lowest pct cancel
  have hfull : ∀ {w : World ℝ String} {t : TSet String} {i : Nat} {σ : Takes ℝ String}, Sim f i w t σ → Indexed w t → σ ≠ [] → t.phrases.isEmpty = false := by
    intro w t i σ h hx hne
    have : t.phrases.length = σ.length := by
      have := congrArg List.length (h.presents hx hv).numbers
      simpa [SMap.keys] using this
    cases hq : t.phrases with
    | nil => rw [hq] at this; exact absurd (List.eq_nil_of_length_eq_zero this.symm) hne
    | cons => rfl
  have eM : Even M' := trainSet_even (hfull s1 s2 hne) a1
  have eN : Even N' := trainSet_even (hfull s1' s2' hne') b1
  have hdata : ∀ l, Takes.data f τ' l = A.data (Takes.data f τ l) := fun l => by
    simp only [Takes.data, NewAxes.data, hτ.frames]
  -- each class
  let Same : Hmm ℝ → Hmm ℝ → Prop := fun m n => ∀ x : List ℝ, (x.length = if f.bimodal then f.di else f.dim) → ∃ (b : Nat → ℝ) (v w v' w' : Nat → List ℝ),
    HmmSpec.Emits Dens.real m x b ∧ HmmSpec.Emits Dens.real n (A.observation f x) b ∧ (∀ k < m.n, 0 < b k) ∧
    (f.bimodal = true → HmmSpec.Predicts Dens.real m x v w ∧ HmmSpec.Predicts Dens.real n (A.observation f x) v' w' ∧
      ∀ i < m.n, A.CarriesPrediction f.di m.mode (v i, w i) (v' i, w' i))
  have hclass : ∀ l, (∃ e ∈ τ, e.2.1 = l) → (l ∈ SMap.keys M'.models ↔ l ∈ SMap.keys N'.models) ∧
      ∀ m n, (l, m) ∈ M'.models → (l, n) ∈ N'.models → Kin m n ∧ m.n = (M.conf l).n ∧ m.est = (M.conf l).est ∧ Same m n := by
    intro l hl
    have hlong1 : ∃ e' ∈ τ, e'.2.1 = l ∧ (M.conf l).n ≤ e'.2.2.frames.length := by
      obtain ⟨e, he, rfl⟩ := hl
      exact (hlong e he).1
    have hmax : (Takes.data f τ l).frames.length ≤ 10 ^ 90 := by
      obtain ⟨e, he, rfl⟩ := hl
      exact (hlong e he).2
    have ho' : (∀ k, A.shift k = 0) ∨ (fresh f M.window (M.conf l) z).Steady (Takes.data f τ l) := by
      obtain ⟨e, he, rfl⟩ := hl
      exact ho.imp id fun h => h e he
    obtain ⟨e', he', k1, k2⟩ := hlong1
    have hmem : e'.2.2.frames ∈ (Takes.data f τ l).phrases := by
      simp only [Takes.data]
      exact (hmemf τ l _).2 ⟨e', he', k1, rfl⟩
    have hfr : (Takes.data f τ l).frames ≠ [] := by
      intro h0
      simp only [KData.frames, List.flatten_eq_nil_iff] at h0
      have := h0 _ hmem
      rw [this] at k2
      have := hSM.states l
      simp only [List.length_nil] at k2
      omega
    obtain ⟨tr, m1, p1, -, p2⟩ := a3.each l hl
    obtain ⟨tr', n1, q1, -, q2⟩ := b3.each l ((hτ.labels l).2 hl)
    rw [hdata, hconf, hw] at q1
    cases hcan : cancel l 0 with
    | true =>
      have c1 := Hmm.trainedAlone_cancelled f hv M.window (M.conf l) (hSM.states l) (hSM.gaussians l) z _ _ P hSM.minIter _ hcan p1
      have c2 := Hmm.trainedAlone_cancelled f hv M.window (M.conf l) (hSM.states l) (hSM.gaussians l) z _ _ P hSM.minIter _ hcan q1
      have n1 : l ∉ SMap.keys M'.models := by
        rcases p2 with ⟨k1, -⟩ | ⟨k1, -⟩
        · rw [c1] at k1; cases k1
        · exact k1
      have n2 : l ∉ SMap.keys N'.models := by
        rcases q2 with ⟨k1, -⟩ | ⟨k1, -⟩
        · rw [c2] at k1; cases k1
        · exact k1
      exact ⟨⟨fun h => absurd h n1, fun h => absurd h n2⟩, fun m n km _ => absurd (List.mem_map.2 ⟨_, km, rfl⟩) n1⟩
    | false =>
    obtain ⟨tr0, m0, n0, g1, g2, g3, ga, gb, gc, gd, ge, gf, g4⟩ := Hmm.trainedAlone_moved f hv A hA M.window hSM.window (M.conf l) (hSM.states l) (hSM.gaussians l) (hSM.absReg l) (hSM.leftRight l) z
      (Takes.data f τ l) ⟨rfl, s1.frame_length hv l, hfr⟩ ⟨_, hmem, k2⟩ hmax ho' lowest pct P hSM.minIter (cancel l) hcan
    have x1 := g1.symm.trans p1
    have x2 := g2.symm.trans q1
    injection x1 with x1 x1'
    injection x2 with x2 x2'
    subst x1 x1' x2 x2'
    constructor
    · rcases p2 with ⟨k1, m', k2, -⟩ | ⟨k1, k2⟩ <;> rcases q2 with ⟨r1, n', r2, -⟩ | ⟨r1, r2⟩
      · exact ⟨fun _ => List.mem_map.2 ⟨_, r2, rfl⟩, fun _ => List.mem_map.2 ⟨_, k2, rfl⟩⟩
      · rcases r2 with r2 | r2 <;> rw [r2.1] at k1 <;> cases k1
      · rcases k2 with k2 | k2 <;> rw [k2.1] at r1 <;> cases r1
      · exact ⟨fun h => absurd h k1, fun h => absurd h r1⟩
    · intro m n km kn
      rcases p2 with ⟨k1, m', k2, k3⟩ | ⟨k1, -⟩
      · rcases q2 with ⟨r1, n', r2, r3⟩ | ⟨r1, -⟩
        · obtain rfl := one_class a2.sorted km k2
          obtain rfl := one_class b2.sorted kn r2
          obtain ⟨u1, u2, u3, u4, u5⟩ := a7 _ km
          obtain ⟨v1, v2, v3, v4, v5⟩ := b7 _ kn
          simp only at u1 u2 u3 u4 u5 v1 v2 v3 v4 v5
          obtain ⟨y1, -, -, -, -, -, -, -, -, -, ym, ye, y2, y3, -⟩ := k3.facts
          obtain ⟨y1', -, -, -, -, -, -, -, -, -, ym', ye', y2', y3', -⟩ := r3.facts
          have z1 : n0.n = m0.n := by rw [g3.same]
          have z2 : n0.exitP = m0.exitP := by rw [g3.same]
          have z3 : n0.trans = m0.trans := by rw [g3.same]
          have z4 : n0.mode = m0.mode := by rw [g3.same]
          have z5 : n0.est = m0.est := by rw [g3.same]
          refine ⟨⟨by rw [y1, y1', z1], ⟨u4, v4⟩, by rw [u5, v5, hw], by rw [y3, y3', z3], by rw [y2, y2', z2],
            ⟨(a2.ready.cls _ km).1.hier, (b2.ready.cls _ kn).1.hier⟩, by rw [u3, v3], ⟨by rw [u1, v1], by rw [u2, v2]⟩, by rw [ym, ym', z4], by rw [ye, ye', z5]⟩,
            by rw [y1, ga], by rw [ye, gb], fun x hx => ?_⟩
          obtain ⟨b, v, w, v', w', c1, c2, c3, c4⟩ := g4 k1 x hx
          refine ⟨b, v, w, v', w', k3.emits c1, r3.emits c2, fun k hk => c3 k (by rw [← y1]; exact hk), fun hb => ?_⟩
          obtain ⟨d1, d2, d3⟩ := c4 hb
          exact ⟨k3.predicts d1, r3.predicts d2, fun i hi => by rw [ym]; exact d3 i (by rw [← y1]; exact hi)⟩
        · exact absurd (List.mem_map.2 ⟨_, kn, rfl⟩) r1
      · exact absurd (List.mem_map.2 ⟨_, km, rfl⟩) k1
  have hkeys : SMap.keys N'.models = SMap.keys M'.models := by
    have hs : ∀ Q : HierHmm ℝ, SMap.Sorted Q.models → (SMap.keys Q.models).Pairwise (· < ·) := fun Q hQ => by unfold SMap.keys; rw [List.pairwise_map]; exact hQ
    refine (hs _ b2.sorted).eq_of_mem_iff (hs _ a2.sorted) fun l => ⟨fun h => ?_, fun h => ?_⟩
    · exact (hclass l ((hτ.labels l).1 (b3.known l h))).1.2 h
    · exact (hclass l (a3.known l h)).1.1 h
  have hl : N'.models.length = M'.models.length := by simpa [SMap.keys] using congrArg List.length hkeys
  obtain ⟨p1, p2, p3⟩ := even_same a2 b2 eM eN hl
  have hat : ∀ (c : Nat) (lc : String × Hmm ℝ), M'.models[c]? = some lc → ∃ n, N'.models[c]? = some (lc.1, n) ∧ Kin lc.2 n ∧
      (lc.2.n = (M.conf lc.1).n ∧ lc.2.est = (M.conf lc.1).est) ∧ Same lc.2 n := by
    intro c lc hc
    obtain ⟨d, hd⟩ := get_class (M := N') (c := c) (by rw [hl]; exact lt_of_get hc)
    have e1 : d.1 = lc.1 := by
      have := congrArg (fun l => l[c]?) hkeys
      simpa [SMap.keys, hc, hd] using this
    have hmem := mem_of_get hc
    have hmem' : (lc.1, d.2) ∈ N'.models := by rw [← e1]; exact mem_of_get hd
    obtain ⟨h1, h2, h3, h4⟩ := (hclass lc.1 (a3.known _ (List.mem_map.2 ⟨_, hmem, rfl⟩))).2 lc.2 d.2 hmem hmem'
    exact ⟨d.2, by rw [hd, ← e1], h1, ⟨h2, h3⟩, h4⟩
  refine ⟨M', N', by rw [s3]; exact a1, by rw [s3']; exact b1, hkeys, fun exp hm0 xs hxs hx => ?_⟩
  obtain ⟨Mr, c1, c2, c3, c4, c5, c6⟩ := reset_ret M' a2.trained
  obtain ⟨Nr, d1, d2, d3, d4, d5, d6⟩ := reset_ret N' b2.trained
  have sM : SameClasses M' Mr := ⟨c5, fun c lc h => by obtain ⟨m', q1, q2, -⟩ := c6 c lc h; exact ⟨m', q1, q2⟩⟩
  have sN : SameClasses N' Nr := ⟨d5, fun c lc h => by obtain ⟨m', q1, q2, -⟩ := d6 c lc h; exact ⟨m', q1, q2⟩⟩
  have hmatch : Matched Mr Nr := by
    refine ⟨by rw [c5, d5, hl], ?_, ?_, by rw [c3, d3], ?_, ?_, ?_, fun c lc hc => ?_⟩
    · rw [c4, d4]; exact b4.trans a4.symm
    · rw [c4, d4]; exact b6.trans (hest.trans a6.symm)
    · rw [c4, d4]; exact p1
    · rw [c4, d4]; exact p2
    · rw [c4, d4]; exact p3
    · obtain ⟨a, ha'⟩ := get_class (M := M') (c := c) (by rw [← c5]; exact lt_of_get hc)
      obtain ⟨m1, k1, k2, k3, -⟩ := c6 c a ha'
      rw [hc] at k1
      cases k1
      obtain ⟨n, g1, g2, -⟩ := hat c a ha'
      obtain ⟨n1, g3, g4, g5, -⟩ := d6 c _ g1
      exact ⟨n1, g3, g2.same k2 g4, ⟨[], k3, g5⟩, fun h0 => absurd (c3.symm.trans h0) (by simp)⟩
  have hdi : f.di ≤ f.dim := by
    unfold Format.Valid at hv
    split at hv <;> omega
  have hcommon : ∀ x ∈ xs, Matched.Common A f.di Dens.real (A.observation f) M' N' x := by
    intro x hx'
    refine ⟨fun lc hlc => ?_, fun lc hlc => ?_, ?_⟩
    · obtain ⟨u1, u2, u3, -⟩ := a7 lc hlc
      unfold Hmm.Fits
      rw [u3, u1, u2, hx x hx']
      cases f.bimodal <;> simp
    · obtain ⟨u1, u2, u3, -⟩ := b7 lc hlc
      unfold Hmm.Fits NewAxes.observation
      rw [u3, u1, u2]
      cases f.bimodal
      · simp [A.frame_length]
      · simp only [if_true, NewAxes.input, List.length_take, A.frame_length, le_min_iff, le_refl, true_and]
        exact hdi
    · have : ∀ c : Nat, ∃ (b : Nat → ℝ) (v w v' w' : Nat → List ℝ), ∀ lc : String × Hmm ℝ, M'.models[c]? = some lc → ∃ n, N'.models[c]? = some (lc.1, n) ∧
          HmmSpec.Emits Dens.real lc.2 x b ∧ HmmSpec.Emits Dens.real n (A.observation f x) b ∧ (∀ k < lc.2.n, 0 < b k) ∧
          (f.bimodal = true → HmmSpec.Predicts Dens.real lc.2 x v w ∧ HmmSpec.Predicts Dens.real n (A.observation f x) v' w' ∧
            ∀ i < lc.2.n, A.CarriesPrediction f.di lc.2.mode (v i, w i) (v' i, w' i)) := by
        intro c
        cases hc : M'.models[c]? with
        | none => exact ⟨fun _ => 0, fun _ => [], fun _ => [], fun _ => [], fun _ => [], fun lc h => by cases h⟩
        | some lc =>
          obtain ⟨n, h1, -, -, h2⟩ := hat c lc hc
          obtain ⟨b, v, w, v', w', h3⟩ := h2 x (hx x hx')
          refine ⟨b, v, w, v', w', fun lc' h => ?_⟩
          cases h
          exact ⟨n, h1, h3⟩
      choose b v w v' w' hb using this
      have hback : ∀ (c : Nat) (lc : String × Hmm ℝ), N'.models[c]? = some lc → HmmSpec.Emits Dens.real lc.2 (A.observation f x) (b c) ∧
          (f.bimodal = true → HmmSpec.Predicts Dens.real lc.2 (A.observation f x) (v' c) (w' c)) := by
        intro c lc hc
        obtain ⟨a, ha'⟩ := get_class (M := M') (c := c) (by rw [← hl]; exact lt_of_get hc)
        obtain ⟨n, h1, -, h2, -, h3⟩ := hb c a ha'
        rw [hc] at h1
        cases h1
        exact ⟨h2, fun h => (h3 h).2.1⟩
      refine ⟨b, v, w, v', w', fun c lc hc => ?_, fun c lc hc => (hback c lc hc).1, fun c k hc hk => ?_, fun h c lc hc => ?_, fun h c lc hc => (hback c lc hc).2 (b4.symm.trans h),
        fun h c lc hc => ?_⟩
      · obtain ⟨n, h1, h2, -⟩ := hb c lc hc
        exact h2
      · obtain ⟨a, ha'⟩ := get_class hc
        obtain ⟨n, -, -, -, h2, -⟩ := hb c a ha'
        rw [states_of ha'] at hk
        exact h2 k hk
      · obtain ⟨n, -, -, -, -, h2⟩ := hb c lc hc
        exact (h2 (a4.symm.trans h)).1
      · obtain ⟨n, -, -, -, -, h2⟩ := hb c lc hc
        exact (h2 (a4.symm.trans h)).2.2
  have bM : Mr.bimodal = M'.bimodal := by rw [c4]
  have bN : Nr.bimodal = N'.bimodal := by rw [d4]
  have mM : Mr.mode = M.mode := by rw [c4]; exact a5
  obtain ⟨rs, M'', N'', k1, k2, k3, k4, k5⟩ := Matched.stream A f.di Dens.real Real.log exp (A.observation f) xs hxs Mr Nr c2 d2 hmatch (by
      intro h0
      exact hm0 (List.eq_nil_of_length_eq_zero (by rw [← c5, h0]; rfl))) fun x hx' => (hcommon x hx').same sM sN bM bN
  refine ⟨rs, M'', N'', by rw [bind_of_ret c1, k1], by rw [bind_of_ret d1, k2], k4, fun l m hm => ?_, fun hbi hout => ?_⟩
  · obtain ⟨c, hc⟩ := List.getElem?_of_mem hm
    obtain ⟨n, g1, g2⟩ := k3 c _ hc
    exact ⟨n, List.mem_of_getElem? g1, g2.progress, g2.likeliest⟩
  · have hsh : Matched.Shaped f.dim f.di M' := fun lc hlc => ⟨(a7 lc hlc).1, (a7 lc hlc).2.1⟩
    have hce : Matched.Centred A f.di M' := by
      refine hout.imp_right fun h lc hlc => ?_
      obtain ⟨c, hc⟩ := List.getElem?_of_mem hlc
      obtain ⟨n, -, -, ⟨e1, e2⟩, -⟩ := hat c lc hc
      obtain ⟨e, h1, h2⟩ := a3.known _ (List.mem_map.2 ⟨_, hlc, rfl⟩)
      rw [e1, e2, ← h2]
      exact h e h1
    obtain ⟨k6, k7⟩ := k5 (bM.trans (a4.trans hbi)) (hA hbi) (hsh.same sM) (hce.same sM)
    rw [mM] at k7
    refine ⟨fun l m hm => ?_, k7⟩
    obtain ⟨c, hc⟩ := List.getElem?_of_mem hm
    obtain ⟨n, g1, g2⟩ := k6 c _ hc
    exact ⟨n, List.mem_of_getElem? g1, g2⟩

/-- C113 (hidden Markov models with one Gaussian in each state, as they are by default): takes with any labels, recorded in the two axes.  Then the change of axes is arbitrary. -/
theorem C113_hmm_one_gaussian (f : Format) (hv : f.Valid) (A : NewAxes f.dim) (hA : f.bimodal = true → A.KeepsInput f.di) (xs : List (Int × String × List (List ℝ)))
    (hf : ∀ x ∈ xs, ∀ y ∈ x.2.2, y.length = f.dim) (hne : (Takes.run f (manyTakes xs) []).1 ≠ []) (M : HierHmm ℝ) (hiM : M.training = false) (P : EmParams) (hSM : M.Settings P)
    (h1 : ∀ l, (M.conf l).gaussians = 1) (hhM : M.hier = true) (hlong : Takes.LongEnough (Takes.run f (manyTakes xs) []).1 fun l => (M.conf l).n) (hbM : M.bimodal = f.bimodal)
    (hdM : M.bimodal = false → M.di = 0) (hmM : M.bimodal = true → ∀ l, (M.conf l).mode = M.mode) (z : ℝ) (lowest pct : ℝ) (cancel : String → Nat → Bool) :
    ∃ M' N', recordAndTrainHmm z Dens.real Real.log (Compare.exact lowest pct) P cancel f 0 (manyTakes xs) emptyWorld M = .ret () M' ∧
      recordAndTrainHmm z Dens.real Real.log (Compare.exact lowest pct) P cancel f 0 (manyTakes (A.takes xs)) emptyWorld M = .ret () N' ∧
      SMap.keys N'.models = SMap.keys M'.models ∧
      ∀ (exp : ℝ → ℝ), M'.models ≠ [] → ∀ ys : List (List ℝ), ys ≠ [] → (∀ x ∈ ys, x.length = if f.bimodal then f.di else f.dim) →
        ∃ rs M'' N'', (do reset; filterAll Dens.real Real.log exp ys) M' = .ret rs M'' ∧ (do reset; filterAll Dens.real Real.log exp (ys.map (A.observation f))) N' = .ret rs N'' ∧
          M''.results.SameLikelihoods N''.results ∧
          (∀ l m, (l, m) ∈ M''.models → ∃ n, (l, n) ∈ N''.models ∧ n.progress = m.progress ∧ n.likeliest = m.likeliest) ∧
          (f.bimodal = true → ((∀ k : Fin f.dim, f.di ≤ k.val → A.shift k = 0) ∨
              ∀ e ∈ (Takes.run f (manyTakes xs) []).1, (M.conf e.2.1).est = .likeliest ∨ (M.conf e.2.1).est = .windowed ∧ 2 ≤ (M.conf e.2.1).n) →
            (∀ l m, (l, m) ∈ M''.models → ∃ n, (l, n) ∈ N''.models ∧ A.CarriesPrediction f.di m.mode (m.outVals, m.outCov) (n.outVals, n.outCov)) ∧
            ((∀ x, 0 < exp x) → A.CarriesPrediction f.di M.mode (M''.results.outVals, M''.results.outCov) (N''.results.outVals, N''.results.outCov))) := by
  have hb : Takes.Admissible f (manyTakes (A.takes xs)) [] := (C102_any_takes f (A.takes xs) (by
    intro x hx y hy
    obtain ⟨x0, -, rfl⟩ := List.mem_map.1 hx
    obtain ⟨y0, -, rfl⟩ := List.mem_map.1 hy
    exact A.frame_length _)).1
  refine C113_hmm_axes_partial f hv A hA 0 0 emptyWorld emptyWorld rfl rfl (manyTakes xs) _ (C102_any_takes f xs hf).1 hb hne (NewAxes.recorded f A xs hf) M M hiM hiM P hSM hhM hhM hlong hbM
    hbM hdM hdM hmM hmM rfl rfl rfl z (Or.inr fun e he => ?_) lowest pct cancel
  obtain ⟨⟨e', q1, q2, q3⟩, -⟩ := hlong e he
  refine Hmm.steady_one _ (h1 _) _ ⟨e'.2.2.frames, ?_, q3⟩
  simp only [Takes.data, Takes.frames, Takes.ofClass, List.mem_map, List.mem_filter, decide_eq_true_eq]
  exact ⟨e', ⟨q1, q2⟩, rfl⟩

/-- a model for one modality with two columns: two states for the class "a", one for the others -/
noncomputable def plainModel : HierHmm ℝ := { sessionModel with bimodal := false, di := 0 }

/-- Non-vacuity of the two theorems: two classes, the first with two takes and two states; the columns are exchanged, one has the opposite sign, and the origin is another one (`mirrored`). -/
theorem C113_hmm_example : ∃ xs : List (Int × String × List (List ℝ)), (⟨false, 2, 0⟩ : Format).Valid ∧ (∀ x ∈ xs, ∀ y ∈ x.2.2, y.length = 2) ∧
    (Takes.run (⟨false, 2, 0⟩ : Format) (manyTakes xs) []).1 ≠ [] ∧ plainModel.training = false ∧ plainModel.Settings ⟨5, 10⟩ ∧ (∀ l, (plainModel.conf l).gaussians = 1) ∧ plainModel.hier = true ∧
    (Takes.LongEnough (Takes.run (⟨false, 2, 0⟩ : Format) (manyTakes xs) []).1 fun l => (plainModel.conf l).n) ∧ plainModel.bimodal = false ∧ plainModel.di = 0 ∧ (plainModel.conf "a").n = 2 ∧
    (∀ x : List ℝ, (mirrored.frame x).length = 2) ∧ xs.length = 3 := by
  set f : Format := ⟨false, 2, 0⟩ with hfd
  let xs : List (Int × String × List (List ℝ)) := [(1, "a", [[0, 0], [1, 1]]), (2, "b", [[5, 5]]), (4, "a", [[2, 3]])]
  have hf : ∀ x ∈ xs, ∀ y ∈ x.2.2, y.length = f.dim := by simp [xs, hfd]
  have hrun := (C102_any_takes f xs hf).2
  refine ⟨xs, by simp [Format.Valid, hfd], hf, fun h => ?_, rfl, ⟨by norm_num [plainModel, sessionModel], by norm_num, fun l => ?_, fun l => le_rfl,
    fun l => by norm_num [plainModel, sessionModel], fun l => rfl⟩, fun l => rfl, rfl, ?_, rfl, rfl, by simp [plainModel, sessionModel], fun x => mirrored.frame_length x, rfl⟩
  · rw [h] at hrun
    simp [xs, SMap.assign] at hrun
  · simp only [plainModel, sessionModel]; split <;> norm_num
  · apply long_of_classes
    rw [hrun]
    simp [xs, SMap.assign, plainModel, sessionModel]

/-- a model for two modalities in which the output of a class is that of its likeliest state -/
noncomputable def gestureModel : HierHmm ℝ := { sessionModel with conf := fun l => ⟨if l = "a" then 2 else 1, 1, false, .likeliest, 1 / 1000, 1 / 100, .full⟩ }

/-- the output with the opposite sign, and another origin of both columns -/
noncomputable def reversed : NewAxes 2 where
  axis := Equiv.refl _
  sign k := if k = 1 then -1 else 1
  shift k := if k = 0 then 7 else -3
  unit k := by
    by_cases h : k = 1
    · exact Or.inr (if_pos h)
    · exact Or.inl (if_neg h)

/-- Non-vacuity with two modalities: the same takes; one input column and one output column, the output with the opposite sign and another origin. -/
theorem C113_hmm_bimodal_example : ∃ xs : List (Int × String × List (List ℝ)), sessionFormat.Valid ∧ reversed.KeepsInput 1 ∧ (∀ x ∈ xs, ∀ y ∈ x.2.2, y.length = sessionFormat.dim) ∧
    (Takes.run sessionFormat (manyTakes xs) []).1 ≠ [] ∧ gestureModel.training = false ∧ gestureModel.Settings ⟨5, 10⟩ ∧ (∀ l, (gestureModel.conf l).gaussians = 1) ∧ gestureModel.hier = true ∧
    (Takes.LongEnough (Takes.run sessionFormat (manyTakes xs) []).1 fun l => (gestureModel.conf l).n) ∧ gestureModel.bimodal = sessionFormat.bimodal ∧ sessionFormat.bimodal = true ∧
    (∀ l, (gestureModel.conf l).mode = gestureModel.mode) ∧ (∀ l, (gestureModel.conf l).est = .likeliest) ∧ (gestureModel.conf "a").n = 2 ∧ reversed.frame [2, 5] = [9, -8] ∧ xs.length = 3 := by
  let xs : List (Int × String × List (List ℝ)) := [(1, "a", [[0, 0], [1, 1]]), (2, "b", [[5, 5]]), (4, "a", [[2, 3]])]
  have hf : ∀ x ∈ xs, ∀ y ∈ x.2.2, y.length = sessionFormat.dim := by simp [xs, sessionFormat]
  have hrun := (C102_any_takes sessionFormat xs hf).2
  refine ⟨xs, by simp [Format.Valid, sessionFormat], fun k => Iff.rfl, hf, fun h => ?_, rfl, ⟨by norm_num [gestureModel, sessionModel], by norm_num, fun l => ?_, fun l => le_rfl,
    fun l => by norm_num [gestureModel, sessionModel], fun l => rfl⟩, fun l => rfl, rfl, ?_, rfl, rfl, fun l => rfl, fun l => rfl, by simp [gestureModel, sessionModel], ?_, rfl⟩
  · rw [h] at hrun
    simp [xs, SMap.assign] at hrun
  · simp only [gestureModel, sessionModel]; split <;> norm_num
  · apply long_of_classes
    rw [hrun]
    simp [xs, SMap.assign, gestureModel, sessionModel]
  · simp [NewAxes.frame, List.ofFn_succ, reversed]
    norm_num

end HierHmm
end Xmm
