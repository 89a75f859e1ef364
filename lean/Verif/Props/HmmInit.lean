import Verif.Lemmas.HmmInit
import Verif.Spec.HmmInit
set_option linter.unusedSimpArgs false
set_option linter.unusedSectionVars false
/- The initialisation and the training of hidden Markov models. -/
namespace Xmm
open Phrase (loop)
open Gauss (rd resize rd_lt)
open Prog (bind_def pure_def get_def set_def modify_def throw_def undef_def)
open GmmSpec HmmSpec

namespace Gmm

/-- the mixture that `train` leaves: its covariances can be inverted -/
theorem train_regular (D : Dens ℝ) (hD : D.Sound) (log : ℝ → ℝ) (m : Gmm ℝ) (ha : m.Admissible) (sd : List ℝ) (data : KData ℝ) (hf : m.Fed sd data)
    (hreg : 1 / 10 ^ 9 ≤ m.absReg) (lowest pct : ℝ) (P : EmParams) (hP : 1 ≤ P.minIter) :
    ∃ t g, (trainee D log Real.sqrt sd data).train (Compare.exact lowest pct) P (fun _ => false) m = .ret t g ∧ g.WF ∧ (∀ d ∈ g.comps, d.Regular) ∧
      g = { m with coeffs := g.coeffs, beta := g.beta, comps := g.comps, reg := g.reg, training := false } := by
  obtain ⟨m1, ok, m2, h1, h2, -, h3, h4, -⟩ := start_ret m ha sd data hf hreg
  obtain ⟨t, k, ls, s3, g1, g2, ⟨g3, -, g3'⟩, g4, g5, g6⟩ := Trainee.train_steps (trainee D log Real.sqrt sd data) (Compare.exact lowest pct) P hP (fun _ => false) rfl
    m m1 m2 ok h1 h2 (fun k m' => Going m data m' ∧ (ok = true ∨ 0 < k → m'.Ready) ∧ (0 < k → ∀ d ∈ m'.comps, d.Regular))
    ⟨h3, fun h => h4 (by simpa using h), fun h => absurd h (lt_irrefl _)⟩ (by
      rintro k m' ⟨q1, q2, q3⟩
      obtain ⟨l, m'', k1, k2, k3, k4, _⟩ := trainStep_ret D hD log data ok k m m' q1 q2
      exact ⟨l, m'', k1, k2, fun _ => k3, fun _ => k4.2⟩)
  have hfin : Trainee.finish (trainee D log Real.sqrt sd data) t s3 = .ret t { s3 with training := false } := by
    unfold Trainee.finish
    by_cases hd : t.status = .done
    · rw [if_pos hd]; rfl
    · rw [if_neg hd]; rfl
  have hnc : t.status ≠ .cancel := fun h => by have := g1.cancel.1 h; simp [Trainee.env] at this
  refine ⟨t, _, g6.trans hfin, ⟨g3.wf.pos, g3.wf.comps, g3.wf.coeffs, g3.wf.beta, g3.wf.comp⟩, g3' (g4 hnc), ?_⟩
  rw [g3.same]

end Gmm

namespace Hmm

theorem segment_mem {data : KData ℝ} {states n : Nat} {x : List ℝ} (h : x ∈ (segmentData data states n).frames) : x ∈ data.frames := by
  unfold KData.frames segmentData at h
  obtain ⟨fr, h1, h2⟩ := List.mem_flatten.1 h
  obtain ⟨p, hp, rfl⟩ := List.mem_map.1 h1
  exact List.mem_flatten.2 ⟨p, (List.mem_filter.1 hp).1, List.mem_of_mem_drop (List.mem_of_mem_take h2)⟩

theorem segment_some {m : Hmm ℝ} {data : KData ℝ} (hn : 1 ≤ m.n) (hl : m.LongPhrase data) {n : Nat} (h : n < m.n) :
    (segmentData data m.n n).frames ≠ [] := by
  obtain ⟨p, hp, hlen⟩ := hl
  have h0 : 1 ≤ p.length / m.n := (Nat.one_le_div_iff hn).2 hlen
  have hle := Gmm.segment_le p.length m.n n h
  intro he
  unfold KData.frames segmentData at he
  rw [List.flatten_eq_nil_iff] at he
  have := he ((p.drop (n * (p.length / m.n))).take (p.length / m.n))
    (List.mem_map.2 ⟨p, List.mem_filter.2 ⟨hp, by simpa using (show ¬ p.length / m.n = 0 by omega)⟩, rfl⟩)
  have := congrArg List.length this
  rw [List.length_take, List.length_drop, List.length_nil] at this
  omega

/-- every state of `m'` up to `t` was given a trained mixture -/
structure Going' (m : Hmm ℝ) (g : Nat → Gmm ℝ) (t : Nat) (m' : Hmm ℝ) : Prop where
  same : m' = { m with sts := m'.sts }
  len : m'.sts.length = m.sts.length
  before : ∀ n < t, ∀ s s', m.sts[n]? = some s → m'.sts[n]? = some s' → Gmm.Copied (g n) s s.gaussians s'
  after : ∀ n, t ≤ n → m'.sts[n]? = m.sts[n]?

theorem initStates_ret (D : Dens ℝ) (hD : D.Sound) (log : ℝ → ℝ) (lowest pct : ℝ) (P : EmParams) (hP : 1 ≤ P.minIter) (sdOf : KData ℝ → List ℝ)
    (hsd : ∀ d, (sdOf d).length = d.dim) (data : KData ℝ) (m : Hmm ℝ) (ha : m.Admissible) (hf : m.Fed data) (hl : m.LongPhrase data)
    (hreg : 1 / 10 ^ 9 ≤ m.absReg) (hs : ∀ s ∈ m.sts, s.WF ∧ (∀ d ∈ s.comps, d.Regular) ∧ s.gaussians = m.gaussians ∧ s.dim = m.dim ∧ s.mode = m.mode)
    (hlen : m.sts.length = m.n) :
    ∃ (g : Nat → Gmm ℝ) (m' : Hmm ℝ), initStates D log Real.sqrt (Compare.exact lowest pct) P sdOf data m = .ret () m' ∧
      (∀ n < m.n, ∃ t, (Gmm.trainee D log Real.sqrt (sdOf (segmentData data m.n n)) (segmentData data m.n n)).train (Compare.exact lowest pct) P
        (fun _ => false) (tmpGmm m) = .ret t (g n)) ∧ (∀ n < m.n, (g n).comps.length = m.gaussians) ∧
      Going' m g m.n m' := by
  have hg : ∀ n : Nat, ∃ g : Gmm ℝ, n < m.n → (∃ t, (Gmm.trainee D log Real.sqrt (sdOf (segmentData data m.n n)) (segmentData data m.n n)).train
      (Compare.exact lowest pct) P (fun _ => false) (tmpGmm m) = .ret t g) ∧ g.WF ∧ (∀ d ∈ g.comps, d.Regular) ∧ g.gaussians = m.gaussians ∧
        g.dim = m.dim ∧ g.mode = m.mode := by
    intro n
    by_cases hn : n < m.n
    · obtain ⟨t, g, h1, h2, h3, h4⟩ := Gmm.train_regular D hD log (tmpGmm m) ⟨ha.gaussians, ha.dim, ha.di⟩ (sdOf (segmentData data m.n n))
        (segmentData data m.n n) ⟨hf.dim, fun x hx => hf.frame x (segment_mem hx), segment_some ha.n hl hn, by rw [hsd]; exact hf.dim⟩ hreg lowest pct P hP
      refine ⟨g, fun _ => ⟨⟨t, h1⟩, h2, h3, ?_, ?_, ?_⟩⟩ <;> rw [h4] <;> rfl
    · exact ⟨tmpGmm m, fun h => absurd h hn⟩
  choose g hg using hg
  obtain ⟨a, m', h1, h2⟩ := loop_state m.n () (fun _ n => initState D log Real.sqrt (Compare.exact lowest pct) P sdOf data n) m
    (fun t _ m' => Going' m g t m') ⟨rfl, rfl, fun n hn => by omega, fun n _ => rfl⟩ (by
      rintro t ht a m1 h
      obtain ⟨s, hst⟩ : ∃ s, m.sts[t]? = some s := ⟨_, List.getElem?_eq_getElem (by omega)⟩
      obtain ⟨w1, w2, w3, w4, w5⟩ := hs s (List.mem_of_getElem? hst)
      obtain ⟨⟨tr, q0⟩, q1, q2, q3, q4, q5⟩ := hg t ht
      have hst1 : m1.sts[t]? = some s := by rw [h.after t le_rfl]; exact hst
      obtain ⟨s', k1, k2⟩ := copyState_ret (g t) s w1 w2 q1 q2 (by omega) (by omega) (by rw [q5, w5]) m1 t hst1
      have e1 : m1.n = m.n := by rw [h.same]
      have e2 : m1.gaussians = m.gaussians := by rw [h.same]
      have e3 : tmpGmm m1 = tmpGmm m := by rw [h.same]; rfl
      have hne : (segmentData data m.n t).phrases.isEmpty = false := by
        rw [← Bool.not_eq_true, List.isEmpty_iff]
        intro he
        exact segment_some ha.n hl ht (by simp [KData.frames, he])
      refine ⟨(), { m1 with sts := m1.sts.set t s' }, ?_, ⟨?_, ?_, ?_, ?_⟩⟩
      · rw [w3] at k1
        generalize ({ m1 with sts := m1.sts.set t s' } : Hmm ℝ) = M at k1 ⊢
        unfold initState
        rw [bind_of_ret (get_def m1), e1, e2, e3, hne, if_neg (by simp)]
        rw [bind_of_ret (show trainSegment D log Real.sqrt (Compare.exact lowest pct) P (sdOf (segmentData data m.n t)) (segmentData data m.n t) (tmpGmm m) m1 =
          .ret (g t) m1 by simp only [trainSegment, q0])]
        exact k1
      · rw [h.same]
      · simpa using h.len
      · intro n hn x x' hx hx'
        have hlt : t < m1.sts.length := (List.getElem?_eq_some_iff.1 hst1).1
        by_cases hnt : n = t
        · subst hnt
          rw [hst] at hx
          cases hx
          have : (m1.sts.set n s')[n]? = some s' := List.getElem?_set_self hlt
          have hx2 : (m1.sts.set n s')[n]? = some x' := hx'
          rw [this] at hx2
          cases hx2
          exact k2
        · have : (m1.sts.set t s')[n]? = m1.sts[n]? := List.getElem?_set_ne (Ne.symm hnt)
          have hx2 : (m1.sts.set t s')[n]? = some x' := hx'
          rw [this] at hx2
          exact h.before n (by omega) x x' hx hx2
      · intro n hn
        have : (m1.sts.set t s')[n]? = m1.sts[n]? := List.getElem?_set_ne (by omega)
        exact this.trans (h.after n (by omega)))
  refine ⟨g, m', ?_, fun n hn => (hg n hn).1, fun n hn => by rw [(hg n hn).2.1.comps]; exact (hg n hn).2.2.2.1, h2⟩
  unfold initStates
  rw [bind_of_ret (get_def m)]
  exact h1

/-- `initParametersToDefault` on an allocated model -/
theorem defaults_ret (m : Hmm ℝ) (hw : m.WF) (hs : ∀ s ∈ m.sts, s.WF ∧ 1 / 10 ^ 9 ≤ s.absReg) (sd : List ℝ) (hsd : sd.length = m.dim) :
    ∃ m', initParametersToDefault sd m = .ret () m' ∧ m' = { m with trans := m'.trans, prior := m'.prior, sts := m'.sts } ∧ m'.WF ∧ m'.Stochastic ∧
      (m.ergodic = false → m'.trans.getD (m.n * 2 - 1) 0 = 0) ∧
      (m.ergodic = true → ∀ i < m.n, start m' i = 1 / (m.n : ℝ) ∧ ∀ j < m.n, step m' i j = 1 / (m.n : ℝ)) ∧
      (m.ergodic = false → ∀ i < m.n, ∀ j < m.n, step m' i j =
        if i = m.n - 1 then (if j = i then 1 else 0) else if j = i ∨ j = i + 1 then 1 / 2 else 0) ∧
      List.Forall₂ (fun s s' => Gmm.Default (fun i => max s.absReg (s.relReg * sd.getD i 0)) s s') m.sts m'.sts := by
  have hst : ∀ M : Hmm ℝ, M.sts = m.sts → M.n = m.n → ∃ l, loop m.n () (fun _ i => onState i (Gmm.initParametersToDefault sd)) M =
      .ret () { M with sts := l } ∧ List.Forall₂ (fun s s' => Gmm.Default (fun i => max s.absReg (s.relReg * sd.getD i 0)) s s') m.sts l := by
    intro M hM hMn
    obtain ⟨l, k1, k2⟩ := eachState_ret M (Gmm.initParametersToDefault sd) (fun s s' => Gmm.Default (fun i => max s.absReg (s.relReg * sd.getD i 0)) s s')
      (fun s hs' => by
        rw [hM] at hs'
        exact Gmm.default_ret s (hs s hs').1 sd (by rw [(hw.state s hs').2.2.2.1, hsd]) (hs s hs').2)
    rw [show M.sts.length = m.n by rw [hM, hw.sts]] at k1
    exact ⟨l, k1, hM ▸ k2⟩
  have hstate : ∀ l, List.Forall₂ (fun s s' => Gmm.Default (fun i => max s.absReg (s.relReg * sd.getD i 0)) s s') m.sts l →
      l.length = m.n ∧ ∀ s ∈ l, s.gaussians = m.gaussians ∧ s.mode = m.mode ∧ s.bimodal = m.bimodal ∧ s.dim = m.dim ∧ s.di = m.di := by
    intro l k2
    refine ⟨by rw [← k2.length_eq, hw.sts], fun s hs' => ?_⟩
    obtain ⟨i, hi, rfl⟩ := List.getElem_of_mem hs'
    have hi' : i < m.sts.length := by rw [k2.length_eq]; exact hi
    have r := ((List.forall₂_iff_get.1 k2).2 i hi' hi).same
    have w := hw.state (m.sts[i]) (List.getElem_mem hi')
    simp only [List.get_eq_getElem] at r
    rw [r]
    exact w
  have hnpos : (0 : ℝ) < (m.n : ℝ) := by exact_mod_cast hw.pos
  rcases bool_cases m.ergodic with he | he
  · obtain ⟨l, k1, k2, k3⟩ := setLeftRight_ret m hw.pos
    obtain ⟨l', q1, q2⟩ := hst { m with trans := l } rfl rfl
    obtain ⟨q3, q4⟩ := hstate l' q2
    generalize hM : ({ m with trans := l, sts := l' } : Hmm ℝ) = M at q1
    have hMe : M.ergodic = false := by rw [← hM, ← he]
    have hMn : M.n = m.n := by rw [← hM]
    have hrun : initParametersToDefault sd m = .ret () M := by
      unfold initParametersToDefault
      rw [bind_of_ret (get_def _), if_neg (by rw [he]; simp), bind_of_ret k1]
      exact q1
    have hcell : ∀ i < m.n, M.trans.getD (i * 2) 0 = (if i = m.n - 1 then 1 else 1 / 2) ∧
        M.trans.getD (i * 2 + 1) 0 = (if i = m.n - 1 then 0 else 1 / 2) := by
      intro i hi
      rw [← hM]
      exact k3 i hi
    have hstep : ∀ i < m.n, ∀ j < m.n, step M i j =
        if i = m.n - 1 then (if j = i then 1 else 0) else if j = i ∨ j = i + 1 then 1 / 2 else 0 := by
      intro i hi j hj
      obtain ⟨c0, c1⟩ := hcell i hi
      unfold step
      simp only [hMe, Bool.false_eq_true, if_false]
      rw [c0, c1, hMn]
      by_cases h : i = m.n - 1
      · simp [h]
      · rw [if_neg h, if_neg h, if_neg h, Nat.mod_eq_of_lt (by omega)]
        by_cases h1 : j = i
        · rw [if_pos h1, if_neg (by omega), if_pos (Or.inl h1), add_zero]
        · by_cases h2 : j = i + 1
          · rw [if_neg h1, if_pos h2, if_pos (Or.inr h2), zero_add]
          · rw [if_neg h1, if_neg h2, if_neg (by tauto), add_zero]
    have hsl := start_leftRight M hMe (by rw [hMn]; exact hw.pos)
    refine ⟨M, hrun, by rw [← hM], ?_, ⟨hsl.1, hsl.2, ?_, ?_⟩, fun _ => ?_, fun h => ?_, fun _ => hstep, ?_⟩
    · rw [← hM]
      refine ⟨hw.pos, q3, hw.prior, ?_, q4⟩
      show l.length = if m.ergodic then _ else _
      rw [he, if_neg (by simp), k2]
    · intro i hi j hj
      rw [hMn] at hi hj
      rw [hstep i hi j hj]
      split_ifs <;> norm_num
    · intro i hi
      rw [sum_step_leftRight M hMe i hi]
      rw [hMn] at hi
      obtain ⟨c0, c1⟩ := hcell i hi
      unfold rowSum
      rw [Finset.sum_range_succ, Finset.sum_range_one, Nat.add_zero, c0, c1]
      split <;> norm_num
    · obtain ⟨_, c1⟩ := hcell (m.n - 1) (by have := hw.pos; omega)
      rw [if_pos rfl] at c1
      rw [← c1]
      congr 1
      have := hw.pos
      omega
    · rw [he] at h; cases h
    · rw [← hM]; exact q2
  · have htl := hw.trans
    rw [he, if_pos rfl] at htl
    obtain ⟨l, p, k1, k2, k3, k4, k5⟩ := setErgodic_ret m htl (hw.prior he)
    obtain ⟨l', q1, q2⟩ := hst { m with trans := l, prior := p } rfl rfl
    obtain ⟨q3, q4⟩ := hstate l' q2
    generalize hM : ({ m with trans := l, prior := p, sts := l' } : Hmm ℝ) = M at q1
    have hMe : M.ergodic = true := by rw [← hM, ← he]
    have hMn : M.n = m.n := by rw [← hM]
    have hrun : initParametersToDefault sd m = .ret () M := by
      unfold initParametersToDefault
      rw [bind_of_ret (get_def _), if_pos (by rw [he]), bind_of_ret k1]
      exact q1
    have e1 : ∀ i < m.n, start M i = 1 / (m.n : ℝ) := by
      intro i hi
      unfold start
      rw [if_pos hMe, ← hM]
      exact k4 i hi
    have e2 : ∀ i < m.n, ∀ j < m.n, step M i j = 1 / (m.n : ℝ) := by
      intro i hi j hj
      unfold step
      rw [if_pos hMe, ← hM]
      exact k5 i hi j hj
    have hone : ∑ _j ∈ Finset.range m.n, (1 / (m.n : ℝ)) = 1 := by
      rw [Finset.sum_const, Finset.card_range, nsmul_eq_mul, mul_one_div, div_self hnpos.ne']
    refine ⟨M, hrun, by rw [← hM], ?_, ⟨?_, ?_, ?_, ?_⟩, fun h => ?_, fun _ i hi => ⟨e1 i hi, e2 i hi⟩, fun h => ?_, ?_⟩
    · rw [← hM]
      refine ⟨hw.pos, q3, fun _ => k3, ?_, q4⟩
      show l.length = if m.ergodic then _ else _
      rw [he, if_pos rfl, k2]
    · intro i hi; rw [hMn] at hi; rw [e1 i hi]; positivity
    · rw [hMn, Finset.sum_congr rfl fun i hi => e1 i (Finset.mem_range.1 hi)]; exact hone
    · intro i hi j hj; rw [hMn] at hi hj; rw [e2 i hi j hj]; positivity
    · intro i hi; rw [hMn] at hi ⊢; rw [Finset.sum_congr rfl fun j hj => e2 i hi j (Finset.mem_range.1 hj)]; exact hone
    · rw [he] at h; cases h
    · rw [he] at h; cases h
    · rw [← hM]; exact q2

/-- what `allocate()` gives to a state -/
structure FreshState (m : Hmm ℝ) (s : Gmm ℝ) : Prop where
  wf : s.WF
  gaussians : s.gaussians = m.gaussians
  mode : s.mode = m.mode
  bimodal : s.bimodal = m.bimodal
  dim : s.dim = m.dim
  di : s.di = m.di
  absReg : s.absReg = m.absReg
  relReg : s.relReg = m.relReg
  training : s.training = false
  window : s.window = m.window
  buf : s.buf = CBuf.construct 0 1 1
  det : ∀ g ∈ s.comps, g.det = 0

theorem construct_det {b : Bool} {d i : Nat} {c : CovMode} {g : Gauss ℝ} (h : Gauss.construct b d i c = some g) : g.det = 0 := by
  unfold Gauss.construct at h
  by_cases h1 : d < (if b then 2 else 1)
  · rw [if_pos h1] at h; cases h
  · rw [if_neg h1] at h
    by_cases h2 : (if b then d - 1 else 0) < i
    · rw [if_pos h2] at h; cases h
    · rw [if_neg h2] at h
      injection h with h
      rw [← h, Gauss.allocate]
      cases c <;> rfl

theorem allocate_det {m m' : Gmm ℝ} (h : Gmm.allocate m = .ret () m') : ∀ g ∈ m'.comps, g.det = 0 := by
  unfold Gmm.allocate at h
  rw [bind_of_ret (modify_def _ _), bind_of_ret (get_def _)] at h
  simp only at h
  cases hc : Gauss.construct (K := ℝ) m.bimodal m.dim m.di m.mode with
  | none => rw [hc] at h; cases h
  | some g =>
    rw [hc] at h
    injection h with _ h
    rw [← h]
    intro g' hg'
    rw [List.eq_of_mem_replicate hg']
    exact construct_det hc

theorem fresh_states (m : Hmm ℝ) (ha : m.Admissible) :
    ∃ l, loop m.n () (fun _ i => onState i Gmm.allocate) (allocated m) = .ret () { allocated m with sts := l } ∧ l.length = m.n ∧
      ∀ s ∈ l, FreshState m s := by
  obtain ⟨g, g1, g2⟩ := Gmm.allocate_ret (newState m) ha.gaussians ha.dim ha.di
  obtain ⟨l, h1, h2⟩ := eachState_ret (allocated m) Gmm.allocate (fun s s' => s' = { newState m with
      coeffs := resize (newState m).gaussians (newState m).coeffs, beta := resize (newState m).gaussians (newState m).beta,
      comps := List.replicate (newState m).gaussians g }) (fun s hs => by
    have : s = newState m := List.eq_of_mem_replicate hs
    subst this
    exact ⟨_, g1, rfl⟩)
  have hlen : (allocated m).sts.length = m.n := by simp [allocated]
  rw [hlen] at h1
  refine ⟨l, h1, by rw [← h2.length_eq, hlen], fun s hs => ?_⟩
  obtain ⟨i, hi, rfl⟩ := List.getElem_of_mem hs
  have hi' : i < (allocated m).sts.length := by rw [h2.length_eq]; exact hi
  have e := (List.forall₂_iff_get.1 h2).2 i hi' hi
  simp only [List.get_eq_getElem] at e
  rw [e]
  exact ⟨g2, rfl, rfl, rfl, rfl, rfl, rfl, rfl, rfl, rfl, rfl, allocate_det g1⟩

theorem allocate_fresh (m : Hmm ℝ) (ha : m.Admissible) :
    ∃ m1, allocate m = .ret () m1 ∧ m1.WF ∧ (∀ s ∈ m1.sts, FreshState m s) ∧
      m1 = { m with sts := m1.sts, prior := m1.prior, trans := m1.trans, alpha := m1.alpha, prevAlpha := m1.prevAlpha, beta := m1.beta, prevBeta := m1.prevBeta,
                    exitP := if m.hier then (resize m.n m.exitP).set (m.n - 1) (1 / 10) else m.exitP } ∧
      m1.alpha.length = m.n ∧ m1.beta.length = m.n := by
  obtain ⟨l, h1, h2, h3⟩ := fresh_states m ha
  have hlen : (allocated m).sts.length = m.n := by simp [allocated]
  refine ⟨{ allocated m with sts := l, exitP := if m.hier then (resize m.n m.exitP).set (m.n - 1) (1 / 10) else m.exitP }, ?_,
    ⟨ha.n, h2, fun he => ?_, ?_, fun s hs => ?_⟩, h3, rfl, length_resize _ _, length_resize _ _⟩
  · unfold allocate
    rw [bind_of_ret (modify_def _ _), bind_of_ret (get_def _), hlen, bind_of_ret h1]
    rcases bool_cases m.hier with hh | hh
    · rw [if_neg (by simp [allocated, hh]), pure_def, if_neg (by simp [hh])]
      rfl
    · rw [if_pos (by simp [allocated, hh]), updateExit_ret _ (by exact hh) (by exact ha.n), if_pos hh]
      rfl
  · have he' : m.ergodic = true := he
    simp only [allocated, he', if_true, length_resize]
  · show (if m.ergodic then resize (m.n * m.n) m.trans else resize (m.n * 2) m.trans).length = if m.ergodic then m.n * m.n else m.n * 2
    split <;> exact length_resize _ _
  · have r := h3 s hs
    exact ⟨r.gaussians, r.mode, r.bimodal, r.dim, r.di⟩

/-- what holds before and after every iteration -/
structure Running (m0 : Hmm ℝ) (data : KData ℝ) (m : Hmm ℝ) : Prop where
  same : m = { m0 with sts := m.sts, prior := m.prior, trans := m.trans, alpha := m.alpha, prevAlpha := m.prevAlpha, beta := m.beta, prevBeta := m.prevBeta }
  training : m.InTraining
  trains : m.Trains data
  state : ∀ s ∈ m.sts, s.training = false ∧ s.window = m0.window ∧ s.buf = CBuf.construct 0 1 1 ∧ s.Outputs

/-- the initialisation of a hidden Markov model (if some phrase has as many frames as there are states): every state is given the means and
    covariances of the mixture that training yields on its segments of the phrases, and its other parameters are the default ones. -/
theorem init_full (D : Dens ℝ) (hD : D.Sound) (log : ℝ → ℝ) (lowest pct : ℝ) (P : EmParams) (hP : 1 ≤ P.minIter) (sdOf : KData ℝ → List ℝ)
    (hsd : ∀ d, (sdOf d).length = d.dim) (data : KData ℝ) (m : Hmm ℝ) (ha : m.Admissible) (hf : m.Fed data) (hl : m.LongPhrase data)
    (hfill : m.ergodic = true → ∀ p ∈ data.phrases, p ≠ []) (hreg : 1 / 10 ^ 9 ≤ m.absReg) :
    ∃ (g : Nat → Gmm ℝ) (m1 m2 : Hmm ℝ), allocate m = .ret () m1 ∧ emInit D log Real.sqrt (Compare.exact lowest pct) P sdOf data m1 = .ret () m2 ∧
      (∀ n < m.n, ∃ t, (Gmm.trainee D log Real.sqrt (sdOf (segmentData data m.n n)) (segmentData data m.n n)).train (Compare.exact lowest pct) P
        (fun _ => false) (tmpGmm m) = .ret t (g n)) ∧
      m1.Initialised g m2 ∧ m1.Running data m2 ∧ ∀ (i : Nat) (s : Gmm ℝ), m2.sts[i]? = some s → ∃ s0 s1, m1.sts[i]? = some s0 ∧
        Gmm.Default (fun i => max m.absReg (m.relReg * (sdOf data).getD i 0)) s0 s1 ∧ Gmm.Copied (g i) s1 s1.gaussians s := by
  obtain ⟨m1, h1, hw1, hst1, hs1, hal, hbe⟩ := allocate_fresh m ha
  have en : m1.n = m.n := by rw [hs1]
  have ed : m1.dim = m.dim := by rw [hs1]
  have eg : m1.gaussians = m.gaussians := by rw [hs1]
  have em : m1.mode = m.mode := by rw [hs1]
  have ee : m1.ergodic = m.ergodic := by rw [hs1]
  have ear : m1.absReg = m.absReg := by rw [hs1]
  have etmp : tmpGmm m1 = tmpGmm m := by rw [hs1]; rfl
  obtain ⟨M, k1, k2, k3, k4, k5, k6, k7, k8⟩ := defaults_ret m1 hw1 (fun s hs => ⟨(hst1 s hs).wf, by rw [(hst1 s hs).absReg]; exact hreg⟩) (sdOf data)
    (by rw [hsd, hf.dim, ed])
  have fn : M.n = m.n := by rw [k2]; exact en
  have fd : M.dim = m.dim := by rw [k2]; exact ed
  have fg : M.gaussians = m.gaussians := by rw [k2]; exact eg
  have fm : M.mode = m.mode := by rw [k2]; exact em
  have fe : M.ergodic = m.ergodic := by rw [k2]; exact ee
  have far : M.absReg = m.absReg := by rw [k2]; exact ear
  have ftmp : tmpGmm M = tmpGmm m := by rw [k2, ← etmp]; rfl
  have fst : ∀ (i : Nat) (s' : Gmm ℝ), M.sts[i]? = some s' → ∃ s, m1.sts[i]? = some s ∧ FreshState m s ∧ Gmm.Default (fun i => max m.absReg (m.relReg * (sdOf data).getD i 0)) s s' := by
    intro i s' hs'
    obtain ⟨hi, rfl⟩ := List.getElem?_eq_some_iff.1 hs'
    have hi' : i < m1.sts.length := by rw [k8.length_eq]; exact hi
    have r := (List.forall₂_iff_get.1 k8).2 i hi' hi
    have fr := hst1 _ (List.getElem_mem hi')
    simp only [List.get_eq_getElem] at r
    rw [fr.absReg, fr.relReg] at r
    exact ⟨_, List.getElem?_eq_getElem hi', fr, r⟩
  obtain ⟨g, m2, q1, q2, q4, q3⟩ := initStates_ret D hD log lowest pct P hP sdOf hsd data M ⟨by rw [fn]; exact ha.n, by rw [fg]; exact ha.gaussians,
      by rw [k2, hs1]; exact ha.dim, by rw [k2, hs1]; exact ha.di⟩ ⟨by rw [fd]; exact hf.dim, by rw [fd]; exact hf.frame, hf.some⟩
      (by obtain ⟨p, hp, hh⟩ := hl; exact ⟨p, hp, by rw [fn]; exact hh⟩) (by rw [far]; exact hreg) (fun s hs => by
        obtain ⟨i, hi⟩ := List.getElem?_of_mem hs
        obtain ⟨s0, -, fr, df⟩ := fst i s hi
        refine ⟨df.wf, df.regular, ?_, ?_, ?_⟩
        · rw [df.same, fg]; exact fr.gaussians
        · rw [df.same, fd]; exact fr.dim
        · rw [df.same, fm]; exact fr.mode) k3.sts
  rw [fn, ftmp] at q2
  rw [fn, fg] at q4
  have gn : m2.n = m.n := by rw [q3.same]; exact fn
  have gg : m2.gaussians = m.gaussians := by rw [q3.same]; exact fg
  have gd : m2.dim = m.dim := by rw [q3.same]; exact fd
  have gm : m2.mode = m.mode := by rw [q3.same]; exact fm
  have ge : m2.ergodic = m.ergodic := by rw [q3.same]; exact fe
  have gt : m2.trans = M.trans := by rw [q3.same]
  have gp : m2.prior = M.prior := by rw [q3.same]
  have gbi : m2.bimodal = m.bimodal := by rw [q3.same, k2, hs1]
  have gdi : m2.di = m.di := by rw [q3.same, k2, hs1]
  have hlen2 : m2.sts.length = m.n := by rw [q3.len, k3.sts, fn]
  have state : ∀ (i : Nat) (s : Gmm ℝ), m2.sts[i]? = some s → ∃ s0 s1, m1.sts[i]? = some s0 ∧ FreshState m s0 ∧
      Gmm.Default (fun i => max m.absReg (m.relReg * (sdOf data).getD i 0)) s0 s1 ∧ Gmm.Copied (g i) s1 s1.gaussians s := by
    intro i s hs
    have hi : i < m2.sts.length := (List.getElem?_eq_some_iff.1 hs).1
    have hi' : i < M.sts.length := by rw [← q3.len]; exact hi
    have hM := List.getElem?_eq_getElem hi'
    obtain ⟨s0, a0, a1, a2⟩ := fst i _ hM
    exact ⟨s0, _, a0, a1, a2, q3.before i (by omega) _ _ hM hs⟩
  have mem : ∀ s ∈ m2.sts, ∃ i s0 s1, FreshState m s0 ∧
      Gmm.Default (fun i => max m.absReg (m.relReg * (sdOf data).getD i 0)) s0 s1 ∧ Gmm.Copied (g i) s1 s1.gaussians s := by
    intro s hs
    obtain ⟨i, hi⟩ := List.getElem?_of_mem hs
    obtain ⟨s0, s1, -, h⟩ := state i s hi
    exact ⟨i, s0, s1, h⟩
  have hstep : ∀ i j, step m2 i j = step M i j := fun i j => by simp only [step, gt, gn, fn, ge, fe]
  have hstart : ∀ i, start m2 i = start M i := fun i => by simp only [start, gp, ge, fe]
  have hne : data.phrases.isEmpty = false := by
    rw [← Bool.not_eq_true, List.isEmpty_iff]
    intro he
    exact hf.some (by simp [KData.frames, he])
  refine ⟨g, m1, m2, h1, ?_, q2, ⟨?_, ⟨by rw [en]; exact hlen2, fun s hs => ?_, by rw [en, eg]; exact q4⟩, ?_, ?_, ?_, ?_⟩, ⟨?_, ⟨?_, ?_, ?_, ?_, ?_, ?_, ?_, ?_, ?_⟩, ⟨?_, hf.some, ?_, ?_, ?_⟩, ?_⟩, fun i s hs => ?_⟩
  · unfold emInit
    rw [hne, if_neg (by simp), bind_of_ret k1]
    exact q1
  · rw [q3.same, k2]
  · obtain ⟨i, s0, s1, a1, a2, a3⟩ := mem s hs
    rw [a3.wf.comps, a3.same, a2.same, eg]
    exact a1.gaussians
  · intro s hs
    obtain ⟨i, s0, s1, a1, a2, a3⟩ := mem s hs
    rw [a3.same, eg, ← a1.gaussians]
    exact a2.coeffs
  · intro n s hs c d e hd he
    obtain ⟨s0, s1, -, a1, a2, a3⟩ := state n s hs
    refine a3.copied c ?_ d e hd he
    have := (List.getElem?_eq_some_iff.1 hd).1
    rw [a3.wf.comps] at this
    rw [a3.same] at this
    exact this
  · intro he i hi
    rw [hstart]
    refine ⟨(k6 he i hi).1, fun j hj => ?_⟩
    rw [hstep]
    exact (k6 he i hi).2 j hj
  · intro he i hi j hj
    rw [hstep]
    exact k7 he i hi j hj
  · rw [q3.same, k2]
  · refine ⟨by rw [gn]; exact ha.n, by rw [hlen2, gn], ?_, ?_, ?_⟩
    · intro he
      rw [gp, gn, ← fn]
      exact k3.prior (by rw [fe, ← ge]; exact he)
    · have := k3.trans
      rw [fn, fe] at this
      rw [gt, gn, ge]
      exact this
    · intro s hs
      obtain ⟨i, s0, s1, a1, a2, a3⟩ := mem s hs
      rw [a3.same, a2.same, gg, gd, gm, gbi, gdi]
      exact ⟨a1.gaussians, a1.mode, a1.bimodal, a1.dim, a1.di⟩
  · intro s hs
    obtain ⟨i, s0, s1, a1, a2, a3⟩ := mem s hs
    refine ⟨a3.wf, ?_, (a3.out (a2.wf.pos)).1⟩
    rw [a3.same]
    exact a2.dist
  · rw [gn, q3.same, k2]; exact hal
  · rw [gn, q3.same, k2]; exact hbe
  · intro i hi
    rw [hstart]; exact k4.start_nonneg i (by rw [fn, ← gn]; exact hi)
  · rw [Finset.sum_congr rfl fun i _ => hstart i, gn, ← fn]; exact k4.start_sum
  · intro i hi j hj
    rw [hstep]; exact k4.step_nonneg i (by rw [fn, ← gn]; exact hi) j (by rw [fn, ← gn]; exact hj)
  · intro i hi
    rw [Finset.sum_congr rfl fun j _ => hstep i j, gn, ← fn, k4.step_sum i (by rw [fn, ← gn]; exact hi)]
    rw [div_le_one (by positivity)]
    exact one_le_pow₀ (by norm_num)
  · intro he
    rw [gt, gn, ← en]
    exact k5 (by rw [ee, ← ge]; exact he)
  · rw [gd]; exact hf.frame
  · intro he
    exact hfill (ge ▸ he)
  · intro s hs
    obtain ⟨i, s0, s1, a1, a2, a3⟩ := mem s hs
    rw [a3.same, gd, ← a1.dim]
    exact a2.regLen
  · intro s hs i hi
    obtain ⟨n, s0, s1, a1, a2, a3⟩ := mem s hs
    rw [gd] at hi
    rw [a3.same]
    show _ ≤ s1.reg.getD i 0
    rw [a2.reg i (by rw [a1.dim]; exact hi)]
    exact le_trans hreg (le_max_left _ _)
  · intro s hs
    obtain ⟨i, s0, s1, a1, a2, a3⟩ := mem s hs
    refine ⟨?_, ?_, ?_, (a3.out a2.wf.pos).2.1⟩
    · rw [a3.same, a2.same]; exact a1.training
    · rw [a3.same, a2.same, a1.window, hs1]
    · rw [a3.same, a2.same]; exact a1.buf
  · obtain ⟨s0, s1, a0, -, a2, a3⟩ := state i s hs
    exact ⟨s0, s1, a0, a2, a3⟩

/-- C83: the initialisation of a hidden Markov model (if some phrase has as many frames as there are states): every state is given the means and
    covariances of the mixture that training yields on its segments of the phrases. -/
theorem init_ret (D : Dens ℝ) (hD : D.Sound) (log : ℝ → ℝ) (lowest pct : ℝ) (P : EmParams) (hP : 1 ≤ P.minIter) (sdOf : KData ℝ → List ℝ)
    (hsd : ∀ d, (sdOf d).length = d.dim) (data : KData ℝ) (m : Hmm ℝ) (ha : m.Admissible) (hf : m.Fed data) (hl : m.LongPhrase data)
    (hfill : m.ergodic = true → ∀ p ∈ data.phrases, p ≠ []) (hreg : 1 / 10 ^ 9 ≤ m.absReg) :
    ∃ (g : Nat → Gmm ℝ) (m1 m2 : Hmm ℝ), allocate m = .ret () m1 ∧ emInit D log Real.sqrt (Compare.exact lowest pct) P sdOf data m1 = .ret () m2 ∧
      (∀ n < m.n, ∃ t, (Gmm.trainee D log Real.sqrt (sdOf (segmentData data m.n n)) (segmentData data m.n n)).train (Compare.exact lowest pct) P
        (fun _ => false) (tmpGmm m) = .ret t (g n)) ∧
      m1.Initialised g m2 ∧ m1.Running data m2 := by
  obtain ⟨g, m1, m2, h1, h2, h3, h4, h5, -⟩ := init_full D hD log lowest pct P hP sdOf hsd data m ha hf hl hfill hreg
  exact ⟨g, m1, m2, h1, h2, h3, h4, h5⟩

theorem Running.next (D : Dens ℝ) (hD : D.Sound) (log : ℝ → ℝ) (hlog : ∀ x y, 0 < x → 0 < y → log (x * y) = log x + log y) {m0 m : Hmm ℝ}
    {data : KData ℝ} (hl : data.frames.length ≤ 10 ^ 90) (h : Running m0 data m)
    (hmass : m0.ergodic = true → ∀ l m', emUpdate D log data m = .ret l m' → ∀ i < m0.n, 1 / 10 ^ 100 ≤ ∑ j ∈ Finset.range m0.n, step m' i j) :
    ∃ l m', emUpdate D log data m = .ret l m' ∧ Running m0 data m' := by
  have en : m.n = m0.n := by rw [h.same]
  have ee : m.ergodic = m0.ergodic := by rw [h.same]
  obtain ⟨d, m', _, hge, h6, h7, h8, h9, h10, h11, h12⟩ := C73_update D hD log hlog data m h.training h.trains
  obtain ⟨k1, k2, k3, k4⟩ := next_inTraining h.training h.trains hge h7 h8 (fun s hs => (h9 s hs).1) h10 h11 h12 hl (by
    intro he i hi'
    rw [← sum_newStep_ergodic (posts m h.training data d hge) he hi']
    rw [← Finset.sum_congr rfl fun j hj => h7.step i hi' j (Finset.mem_range.1 hj), en]
    exact hmass (ee ▸ he) _ m' h6 i (en ▸ hi'))
  refine ⟨_, m', h6, ⟨?_, k1, k2, fun s hs => ?_⟩⟩
  · rw [h7.same, h.same]
  · obtain ⟨i, hi, rfl⟩ := List.getElem_of_mem hs
    have hi' : i < m.sts.length := by rw [h.training.wf.sts, ← k3, ← h8.sts]; exact hi
    have := (h7.state i _ _ (List.getElem?_eq_getElem hi') (List.getElem?_eq_getElem hi)).same
    obtain ⟨a1, a2, a3, _⟩ := h.state m.sts[i] (List.getElem_mem hi')
    refine ⟨?_, ?_, ?_, (h9 _ (List.getElem_mem hi)).2⟩
    · rw [this]; exact a1
    · rw [this]; exact a2
    · rw [this]; exact a3

theorem fresh_logs : ∃ w hist, Logs (CBuf.construct (0 : ℝ) 1 1) w hist := by
  exact ⟨1, [], CBuf.Holds.init (0 : ℝ) 1 one_pos⟩

/-- the end of a complete training -/
theorem Running.finish {m0 m : Hmm ℝ} {data : KData ℝ} (h : Running m0 data m) (hwin : 1 ≤ m0.window) :
    ∃ m', normalizeTransitions m = .ret () m' ∧ m'.Stochastic ∧
      m' = { m0 with sts := m'.sts, prior := m'.prior, trans := m'.trans, alpha := m'.alpha, prevAlpha := m'.prevAlpha, beta := m'.beta, prevBeta := m'.prevBeta } ∧
      ({ m' with training := false } : Hmm ℝ).CanFilter ∧ m'.alpha.length = m'.n ∧ (∀ v ∈ m'.trans, 0 ≤ v) ∧
      (m0.ergodic = false → (∀ j < m0.n, m'.trans.getD (j * 2) 0 + m'.trans.getD (j * 2 + 1) 0 = 1) ∧ m'.trans.getD ((m0.n - 1) * 2) 0 = 1) := by
  have en : m.n = m0.n := by rw [h.same]
  have ee : m.ergodic = m0.ergodic := by rw [h.same]
  have hpos : (0 : ℝ) < 1 / 10 ^ 100 := by positivity
  obtain ⟨m', k1, k2, k3, k4, k5, k6⟩ := C44_normalize m h.training.wf h.training.start_nonneg (by rw [h.training.start_sum]; exact one_pos)
    h.training.step_nonneg fun i hi => lt_of_lt_of_le hpos (h.training.step_sum i hi)
  have fn : m'.n = m.n := by rw [k2]
  have fe : m'.ergodic = m.ergodic := by rw [k2]
  have fs : m'.sts = m.sts := by rw [k2]
  have hlr : m0.ergodic = false → (∀ j < m0.n, m'.trans.getD (j * 2) 0 + m'.trans.getD (j * 2 + 1) 0 = 1) ∧ m'.trans.getD ((m0.n - 1) * 2) 0 = 1 ∧
      m'.trans.getD ((m0.n - 1) * 2 + 1) 0 = 0 := by
    intro he
    have he1 : m'.ergodic = false := by rw [fe, ee]; exact he
    have hr : ∀ j < m0.n, m'.trans.getD (j * 2) 0 + m'.trans.getD (j * 2 + 1) 0 = 1 := by
      intro j hj
      have := k4.step_sum j (by rw [fn, en]; exact hj)
      rw [sum_step_leftRight m' he1 j (by rw [fn, en]; exact hj)] at this
      unfold rowSum at this
      rw [Finset.sum_range_succ, Finset.sum_range_one, Nat.add_zero] at this
      exact this
    have hn := h.training.wf.pos
    have hlast : m'.trans.getD ((m0.n - 1) * 2 + 1) 0 = 0 := by
      have htl := h.training.wf.trans
      rw [ee, he, if_neg (by simp)] at htl
      obtain ⟨l, q1, q2, q3⟩ := normalizeTransitions_leftRight m (ee.trans he) htl
      rw [k1] at q1
      injection q1 with _ q1
      have c1 := q3 (m.n - 1) (by omega) 1 (by omega)
      have hl : m'.trans = l := by rw [q1]
      rw [hl, ← en, c1, show (m.n - 1) * 2 + 1 = m.n * 2 - 1 by omega, h.training.last (ee.trans he), zero_div]
    have := hr (m0.n - 1) (by omega)
    rw [hlast, add_zero] at this
    exact ⟨hr, this, hlast⟩
  refine ⟨m', k1, k4, ?_, ⟨⟨k3.pos, k3.sts, k3.prior, k3.trans, k3.state⟩, ⟨k4.start_nonneg, k4.start_sum, k4.step_nonneg, fun i hi => ?_⟩, rfl, ?_, ?_⟩, ?_, ?_,
    fun he => ⟨(hlr he).1, (hlr he).2.1⟩⟩
  · rw [k2, h.same]
  · have := k4.step_sum i hi
    show 1 / 20 ≤ ∑ j ∈ Finset.range m'.n, step m' i j
    rw [this]; norm_num
  · show 1 ≤ m'.window
    rw [k2, h.same]; exact hwin
  · intro s hs
    have hs' : s ∈ m.sts := by rw [← fs]; exact hs
    obtain ⟨a1, a2, a3, a4⟩ := h.state s hs'
    exact ⟨⟨h.training.ready s hs', a1, by rw [a2]; exact hwin, a4⟩, by rw [a3]; exact fresh_logs⟩
  · rw [fn, k2]; exact h.training.alpha
  · intro v hv
    obtain ⟨k, hk, rfl⟩ := List.getElem_of_mem hv
    have hg : m'.trans[k] = m'.trans.getD k 0 := by simp [List.getD_eq_getElem?_getD, hk]
    rw [hg]
    have htl := k3.trans
    rcases bool_cases m0.ergodic with he | he
    · have he1 : m'.ergodic = false := by rw [fe, ee]; exact he
      rw [he1, if_neg (by simp)] at htl
      have hi : k / 2 < m'.n := by omega
      have hsn : ∀ j < m'.n, 0 ≤ step m' (k / 2) j := fun j hj => k4.step_nonneg _ hi j hj
      obtain ⟨b1, b2, b3⟩ := hlr he
      have hnn : m'.n = m0.n := fn.trans en
      by_cases hl : k / 2 = m0.n - 1
      · by_cases hk2 : k % 2 = 0
        · rw [show k = (m0.n - 1) * 2 by omega, b2]; exact zero_le_one
        · rw [show k = (m0.n - 1) * 2 + 1 by omega, b3]
      · have s0 := hsn (k / 2) hi
        have s1 := hsn (k / 2 + 1) (by omega)
        unfold step at s0 s1
        simp only [he1, Bool.false_eq_true, if_false] at s0 s1
        rw [Nat.mod_eq_of_lt (by omega)] at s0 s1
        rw [if_pos trivial, if_neg (by omega), add_zero] at s0
        rw [if_neg (by omega), if_pos rfl, zero_add] at s1
        by_cases hk2 : k % 2 = 0
        · rw [show k = k / 2 * 2 by omega]; exact s0
        · rw [show k = k / 2 * 2 + 1 by omega]; exact s1
    · have he1 : m'.ergodic = true := by rw [fe, ee]; exact he
      rw [he1, if_pos rfl] at htl
      have hn := k3.pos
      have hi : k / m'.n < m'.n := by
        rw [Nat.div_lt_iff_lt_mul hn, ← htl]; exact hk
      have s0 := k4.step_nonneg _ hi _ (Nat.mod_lt k hn)
      unfold step at s0
      simp only [he1, if_true] at s0
      rwa [Nat.div_add_mod'] at s0

/-- the exit probabilities of the class before its training, if it is part of a hierarchy: probabilities less than 1 -/
def Exits (m : Hmm ℝ) : Prop := ∀ k < m.n, 0 ≤ m.exitP.getD k 0 ∧ m.exitP.getD k 0 < 1

theorem exits_after {m : Hmm ℝ} (hn : 1 ≤ m.n) (h : m.Exits) (k : Nat) (hk : k < m.n) :
    0 ≤ ((resize m.n m.exitP).set (m.n - 1) (1 / 10)).getD k 0 ∧ ((resize m.n m.exitP).set (m.n - 1) (1 / 10)).getD k 0 < 1 := by
  rw [getD_set _ _ _ _ _ (by rw [length_resize]; omega), getD_resize, if_pos hk]
  split
  · norm_num
  · exact h k hk

theorem train_core (D : Dens ℝ) (hD : D.Sound) (log : ℝ → ℝ) (hlog : ∀ x y, 0 < x → 0 < y → log (x * y) = log x + log y) (m : Hmm ℝ)
    (ha : m.Admissible) (hwin : 1 ≤ m.window) (data : KData ℝ) (hf : m.Fed data) (hl : m.LongPhrase data) (hlen : data.frames.length ≤ 10 ^ 90)
    (hfill : m.ergodic = true → ∀ p ∈ data.phrases, p ≠ []) (hreg : 1 / 10 ^ 9 ≤ m.absReg) (sdOf : KData ℝ → List ℝ)
    (hsd : ∀ d, (sdOf d).length = d.dim) (lowest pct : ℝ) (P : EmParams) (hP : 1 ≤ P.minIter) (cancel : Nat → Bool)
    (hmass : m.ergodic = true → ∀ m1 m2, allocate m = .ret () m1 → emInit D log Real.sqrt (Compare.exact lowest pct) P sdOf data m1 = .ret () m2 →
      ∀ k ls m', Trainee.steps (fun _ => emUpdate D log data) k m2 = .ret ls m' → ∀ i < m.n, 1 / 10 ^ 100 ≤ ∑ j ∈ Finset.range m.n, step m' i j) :
    ∃ t m', (trainee D log Real.sqrt (Compare.exact lowest pct) P sdOf data).train (Compare.exact lowest pct) P cancel m = .ret t m' ∧
      (∃ k, OneOutcome t.events k t.status) ∧ t.status.Final ∧ t.isTraining = false ∧ t.locked = false ∧ m'.training = false ∧
      m' = { m with
        sts := m'.sts, prior := m'.prior, trans := m'.trans, alpha := m'.alpha, prevAlpha := m'.prevAlpha, beta := m'.beta,
        prevBeta := m'.prevBeta, exitP := if m.hier then (resize m.n m.exitP).set (m.n - 1) (1 / 10) else m.exitP, training := false } ∧
      (t.status = .cancel → ∃ i, cancel i = true) ∧
      (t.status = .error → ∃ m1 m2 ls pre m3, allocate m = .ret () m1 ∧
        emInit D log Real.sqrt (Compare.exact lowest pct) P sdOf data m1 = .ret () m2 ∧
        Trainee.steps (fun _ => emUpdate D log data) t.updates m2 = .ret ls m3 ∧ ls = pre ++ [0, 0]) ∧
      (t.status = .done → 1 ≤ t.updates ∧ m'.CanFilter ∧ m'.Stochastic ∧ (m.hier = false → BufOk m.buf → m'.Usable) ∧
        (m.hier = true → m.Exits → m'.InHierarchy ∧ (m.ergodic = false → 2 ≤ m.n → m.exitP.getD 0 0 = 0 → m'.RowsToOne))) ∧
      (t.status = .done → ∃ m1 m2 ls m3, allocate m = .ret () m1 ∧
        emInit D log Real.sqrt (Compare.exact lowest pct) P sdOf data m1 = .ret () m2 ∧
        Trainee.steps (fun _ => emUpdate D log data) t.updates m2 = .ret ls m3 ∧ P.StopsAt lowest pct ls t.updates) := by
  obtain ⟨g, m1, m2, h1, h2, -, -, h4⟩ := init_ret D hD log lowest pct P hP sdOf hsd data m ha hf hl hfill hreg
  obtain ⟨m1', h1', -, -, hs1, -, -⟩ := allocate_fresh m ha
  rw [h1] at h1'
  injection h1' with _ h1'
  subst h1'
  have en : m1.n = m.n := by rw [hs1]
  have ee : m1.ergodic = m.ergodic := by rw [hs1]
  cases hc : cancel 0 with
  | true =>
    obtain ⟨t, k, g1, g2, -, g3⟩ := Trainee.train_cancelled (trainee D log Real.sqrt (Compare.exact lowest pct) P sdOf data) (Compare.exact lowest pct) P cancel m m1 h1 hP hc
    refine ⟨t, _, g1, ⟨k, g3.outcome⟩, g3.final, g3.idle, g3.unlocked, rfl, ?_, fun _ => ⟨0, hc⟩, fun h => ?_, fun h => ?_, fun h => ?_⟩
    · show ({ m1 with training := false } : Hmm ℝ) = _
      rw [hs1]
      rfl
    · rw [g2] at h; cases h
    · rw [g2] at h; cases h
    · rw [g2] at h; cases h
  | false =>
    have hinit : (trainee D log Real.sqrt (Compare.exact lowest pct) P sdOf data).init m1 = .ret true m2 := by
      show (emInit D log Real.sqrt (Compare.exact lowest pct) P sdOf data >>= fun _ => pure true) m1 = _
      rw [bind_of_ret h2, pure_def]
    obtain ⟨t, k, ls, s3, g1, g2, ⟨g3, -⟩, g4, g5, g6⟩ := Trainee.train_steps (trainee D log Real.sqrt (Compare.exact lowest pct) P sdOf data)
      (Compare.exact lowest pct) P hP cancel hc m m1 m2 true h1 hinit
      (fun k m' => m1.Running data m' ∧ ∃ ls, Trainee.steps (fun _ => emUpdate D log data) k m2 = .ret ls m') ⟨h4, [], rfl⟩ (by
        rintro k m' ⟨q1, ls, q2⟩
        obtain ⟨l, m'', r1, r2⟩ := q1.next D hD log hlog hlen (fun he l m'' hu i hi => by
          rw [en] at hi ⊢
          refine hmass (ee ▸ he) m1 m2 h1 h2 (k + 1) (ls ++ [l]) m'' ?_ i hi
          rw [Trainee.steps, bind_of_ret q2, bind_of_ret hu, pure_def])
        refine ⟨l, m'', r1, r2, ls ++ [l], ?_⟩
        rw [Trainee.steps, bind_of_ret q2, bind_of_ret r1, pure_def])
    have g2' : Trainee.steps (fun _ => emUpdate D log data) t.updates m2 = .ret ls s3 := g2
    by_cases hd : t.status = .done
    · obtain ⟨m', f1, f2, f3, f4, f5, f6, f7⟩ := g3.finish (by rw [hs1]; exact hwin)
      have hfin : Trainee.finish (trainee D log Real.sqrt (Compare.exact lowest pct) P sdOf data) t s3 = .ret t { m' with training := false } := by
        unfold Trainee.finish
        rw [if_pos hd, bind_of_ret (show (trainee D log Real.sqrt (Compare.exact lowest pct) P sdOf data).terminate s3 = .ret () m' from f1)]
        rfl
      have fh : m'.hier = m.hier := by rw [f3, hs1]
      have fe : m'.ergodic = m.ergodic := by rw [f3, hs1]
      have fn : m'.n = m.n := by rw [f3, hs1]
      have fx : m.hier = true → m'.exitP = (resize m.n m.exitP).set (m.n - 1) (1 / 10) := fun hh => by rw [f3, hs1]; simp [hh]
      refine ⟨t, _, g6.trans hfin, ⟨k, g1.outcome⟩, g1.final, g1.idle, g1.unlocked, rfl, ?_, fun h => ⟨_, g1.cancel.1 h⟩, fun h => ?_, fun h => ?_,
        fun h => ⟨m1, m2, ls, s3, h1, h2, g2', Trainee.done_exact g1 g2 h⟩⟩
      · show ({ m' with training := false } : Hmm ℝ) = _
        rw [f3, hs1]
      · rw [hd] at h; cases h
      · refine ⟨g4 (by rw [hd]; simp), f4, ⟨f2.start_nonneg, f2.start_sum, f2.step_nonneg, f2.step_sum⟩, fun hh hb => ?_, fun hh hx => ?_⟩
        · refine ⟨f4, fh.trans hh, ?_, fun _ => f5⟩
          show BufOk m'.buf
          rw [f3, hs1]; exact hb
        · have hex : ∀ k < m'.n, 0 ≤ m'.exitP.getD k 0 ∧ m'.exitP.getD k 0 < 1 := by
            intro k hk
            rw [fx hh]
            exact exits_after ha.n hx k (fn ▸ hk)
          refine ⟨⟨f4, fh.trans hh, ?_, fun k hk => (hex k hk).1, fun k hk => (hex k hk).2, f6, fun he => ?_⟩, fun he hn h0 => ⟨fun h => ?_, fun _ => ⟨?_, ?_, ?_, ?_⟩⟩⟩
          · show m'.exitP.length = m'.n
            rw [fx hh, fn, List.length_set, length_resize]
          · have := (f7 (by rw [ee, ← fe]; exact he)).2
            show 0 < m'.trans.getD ((m'.n - 1) * 2) 0
            rw [fn, ← en, this]
            exact one_pos
          · have h' : m'.ergodic = true := h
            rw [fe, he] at h'; cases h'
          · show 2 ≤ m'.n
            rw [fn]; exact hn
          · show m'.exitP.getD 0 0 = 0
            rw [fx hh, getD_set _ _ _ _ _ (by rw [length_resize]; omega), if_neg (by omega), getD_resize, if_pos (by omega), h0]
          · intro j hj
            exact (f7 (by rw [ee]; exact he)).1 j (by have : j < m'.n - 1 := hj; omega)
          · have := (f7 (by rw [ee]; exact he)).2
            show m'.trans.getD ((m'.n - 1) * 2) 0 = 1
            rw [fn, ← en, this]
    · have hfin : Trainee.finish (trainee D log Real.sqrt (Compare.exact lowest pct) P sdOf data) t s3 = .ret t { s3 with training := false } := by
        unfold Trainee.finish
        rw [if_neg hd]; rfl
      refine ⟨t, _, g6.trans hfin, ⟨k, g1.outcome⟩, g1.final, g1.idle, g1.unlocked, rfl, ?_, fun h => ⟨_, g1.cancel.1 h⟩, fun h => ?_, fun h => absurd h hd, fun h => absurd h hd⟩
      · show ({ s3 with training := false } : Hmm ℝ) = _
        rw [g3.same, hs1]
      · obtain ⟨pre, l, o, q1, _, q3⟩ := g5 h
        have : l = 0 ∧ o = 0 := by simpa [Compare.exact] using q3
        exact ⟨m1, m2, ls, pre, s3, h1, h2, g2', by rw [q1, this.1, this.2]⟩

theorem segmentData_eq (data : KData ℝ) {N n : Nat} (h : n < N) : segmentData data N n = segments data N n := by
  have hN : 0 < N := by omega
  unfold segmentData segments
  congr 1
  have hf : (data.phrases.filter fun p => p.length / N ≠ 0) = data.phrases.filter fun p => N ≤ p.length := by
    congr 1
    funext p
    simp only [ne_eq, Nat.div_eq_zero_iff, decide_eq_decide]
    omega
  rw [hf]
  refine List.map_congr_left fun p _ => ?_
  have hle : (n + 1) * (p.length / N) ≤ p.length := le_trans (Nat.mul_le_mul_right _ h) (Nat.mul_div_le _ _)
  rw [Nat.add_mul, Nat.one_mul] at hle
  refine List.ext_getElem (by simp; omega) fun k h1 h2 => ?_
  simp only [List.length_map, List.length_range] at h2
  simp only [List.getElem_take, List.getElem_drop, List.getElem_map, List.getElem_range]
  rw [List.getD_eq_getElem?_getD, List.getElem?_eq_getElem (by omega), Option.getD_some]

/-- C83: the initialisation of a hidden Markov model.  If some phrase has at least as many frames as there are states, it returns: every phrase is cut in
    as many segments as there are states, and state `n` is given the means and covariances of the mixture that `train` yields on the segments number `n`. -/
theorem C83_initialised (D : Dens ℝ) (hD : D.Sound) (log : ℝ → ℝ) (lowest pct : ℝ) (P : EmParams) (hP : 1 ≤ P.minIter) (sdOf : KData ℝ → List ℝ)
    (hsd : ∀ d, (sdOf d).length = d.dim) (data : KData ℝ) (m : Hmm ℝ) (ha : m.Admissible) (hf : m.Fed data) (hl : m.LongPhrase data)
    (hfill : m.ergodic = true → ∀ p ∈ data.phrases, p ≠ []) (hreg : 1 / 10 ^ 9 ≤ m.absReg) :
    ∃ (g : Nat → Gmm ℝ) (m1 m2 : Hmm ℝ), allocate m = .ret () m1 ∧ emInit D log Real.sqrt (Compare.exact lowest pct) P sdOf data m1 = .ret () m2 ∧
      (∀ n < m.n, ∃ t, (Gmm.trainee D log Real.sqrt (sdOf (segments data m.n n)) (segments data m.n n)).train (Compare.exact lowest pct) P
        (fun _ => false) (tmpGmm m) = .ret t (g n)) ∧
      m1.Initialised g m2 := by
  obtain ⟨g, m1, m2, h1, h2, h3, h4, _⟩ := init_ret D hD log lowest pct P hP sdOf hsd data m ha hf hl hfill hreg
  exact ⟨g, m1, m2, h1, h2, fun n hn => segmentData_eq data hn ▸ h3 n hn, h4⟩

/-- C83: the training of a LeftRight model never fails.  For all admissible parameters, all data of the right dimension in which some phrase has at least
    as many frames as there are states, every bound on the iterations and every moment of a cancellation, `train` returns with exactly one final event:
    Cancel, which is sent only if a cancellation was requested; Error, which is sent only if the log-likelihoods of the last two iterations are both 0; or
    Done.  After Done, the class can recognise: on its own, or as part of a hierarchy; and the number of iterations is the one that the parameters and the log-likelihoods of the iterations
    give (`StopsAt`). -/
theorem C83_training (D : Dens ℝ) (hD : D.Sound) (log : ℝ → ℝ) (hlog : ∀ x y, 0 < x → 0 < y → log (x * y) = log x + log y) (m : Hmm ℝ)
    (ha : m.Admissible) (he : m.ergodic = false) (hwin : 1 ≤ m.window) (data : KData ℝ) (hf : m.Fed data) (hl : m.LongPhrase data)
    (hlen : data.frames.length ≤ 10 ^ 90) (hreg : 1 / 10 ^ 9 ≤ m.absReg) (sdOf : KData ℝ → List ℝ)
    (hsd : ∀ d, (sdOf d).length = d.dim) (lowest pct : ℝ) (P : EmParams) (hP : 1 ≤ P.minIter) (cancel : Nat → Bool) :
    ∃ t m', (trainee D log Real.sqrt (Compare.exact lowest pct) P sdOf data).train (Compare.exact lowest pct) P cancel m = .ret t m' ∧
      (∃ k, OneOutcome t.events k t.status) ∧ t.status.Final ∧ t.isTraining = false ∧ t.locked = false ∧ m'.training = false ∧
      m' = { m with
        sts := m'.sts, prior := m'.prior, trans := m'.trans, alpha := m'.alpha, prevAlpha := m'.prevAlpha, beta := m'.beta,
        prevBeta := m'.prevBeta, exitP := if m.hier then (resize m.n m.exitP).set (m.n - 1) (1 / 10) else m.exitP, training := false } ∧
      (t.status = .cancel → ∃ i, cancel i = true) ∧
      (t.status = .error → ∃ m1 m2 ls pre m3, allocate m = .ret () m1 ∧
        emInit D log Real.sqrt (Compare.exact lowest pct) P sdOf data m1 = .ret () m2 ∧
        Trainee.steps (fun _ => emUpdate D log data) t.updates m2 = .ret ls m3 ∧ ls = pre ++ [0, 0]) ∧
      (t.status = .done → 1 ≤ t.updates ∧ m'.CanFilter ∧ m'.Stochastic ∧ (m.hier = false → BufOk m.buf → m'.Usable) ∧
        (m.hier = true → m.Exits → m'.InHierarchy ∧ (m.ergodic = false → 2 ≤ m.n → m.exitP.getD 0 0 = 0 → m'.RowsToOne))) ∧
      (t.status = .done → ∃ m1 m2 ls m3, allocate m = .ret () m1 ∧
        emInit D log Real.sqrt (Compare.exact lowest pct) P sdOf data m1 = .ret () m2 ∧
        Trainee.steps (fun _ => emUpdate D log data) t.updates m2 = .ret ls m3 ∧ P.StopsAt lowest pct ls t.updates) :=
  train_core D hD log hlog m ha hwin data hf hl hlen (fun h => absurd h (by simp [he])) hreg sdOf hsd lowest pct P hP cancel (fun h => absurd h (by simp [he]))

/-- C83 for Ergodic models, as long as the re-estimated transition probabilities out of each state keep some mass, if no phrase is empty.  (Partial: see
    `C44_single_frames_violated` and `C73_empty_phrase_ub` for what happens otherwise.) -/
theorem C83_training_ergodic_partial (D : Dens ℝ) (hD : D.Sound) (log : ℝ → ℝ) (hlog : ∀ x y, 0 < x → 0 < y → log (x * y) = log x + log y) (m : Hmm ℝ)
    (ha : m.Admissible) (hwin : 1 ≤ m.window) (data : KData ℝ) (hf : m.Fed data) (hl : m.LongPhrase data)
    (hfill : ∀ p ∈ data.phrases, p ≠ []) (hlen : data.frames.length ≤ 10 ^ 90) (hreg : 1 / 10 ^ 9 ≤ m.absReg) (sdOf : KData ℝ → List ℝ)
    (hsd : ∀ d, (sdOf d).length = d.dim) (lowest pct : ℝ) (P : EmParams) (hP : 1 ≤ P.minIter) (cancel : Nat → Bool)
    (hmass : ∀ m1 m2, allocate m = .ret () m1 → emInit D log Real.sqrt (Compare.exact lowest pct) P sdOf data m1 = .ret () m2 →
      ∀ k ls m', Trainee.steps (fun _ => emUpdate D log data) k m2 = .ret ls m' → ∀ i < m.n, 1 / 10 ^ 100 ≤ ∑ j ∈ Finset.range m.n, step m' i j) :
    ∃ t m', (trainee D log Real.sqrt (Compare.exact lowest pct) P sdOf data).train (Compare.exact lowest pct) P cancel m = .ret t m' ∧
      (∃ k, OneOutcome t.events k t.status) ∧ t.status.Final ∧ t.isTraining = false ∧ t.locked = false ∧ m'.training = false ∧
      (t.status = .cancel → ∃ i, cancel i = true) ∧
      (t.status = .done → 1 ≤ t.updates ∧ m'.CanFilter ∧ m'.Stochastic ∧ (m.hier = false → BufOk m.buf → m'.Usable) ∧
        (m.hier = true → m.Exits → m'.InHierarchy)) := by
  obtain ⟨t, m', h1, h2, h3, h4, h5, h6, -, h7, -, h8, -⟩ := train_core D hD log hlog m ha hwin data hf hl hlen (fun _ => hfill) hreg sdOf hsd lowest pct P hP
    cancel (fun _ => hmass)
  refine ⟨t, m', h1, h2, h3, h4, h5, h6, h7, fun h => ?_⟩
  obtain ⟨a1, a2, a3, a4, a5⟩ := h8 h
  exact ⟨a1, a2, a3, a4, fun b1 b2 => (a5 b1 b2).1⟩

/-- an Ergodic model with one state keeps the mass of its transition probability, if some phrase has two frames -/
theorem one_state_mass (D : Dens ℝ) (hD : D.Sound) (log : ℝ → ℝ) (hlog : ∀ x y, 0 < x → 0 < y → log (x * y) = log x + log y) {m0 m : Hmm ℝ}
    {data : KData ℝ} (hl : data.frames.length ≤ 10 ^ 90) (h : Running m0 data m) (h1 : m0.n = 1) (he : m0.ergodic = true) (h2 : ∃ p ∈ data.phrases, 2 ≤ p.length)
    (l : ℝ) (m' : Hmm ℝ) (hu : emUpdate D log data m = .ret l m') : ∀ i < m0.n, 1 / 10 ^ 100 ≤ ∑ j ∈ Finset.range m0.n, step m' i j := by
  have en : m.n = m0.n := by rw [h.same]
  have ee : m.ergodic = m0.ergodic := by rw [h.same]
  obtain ⟨d, m2, _, hge, h6, h7, _⟩ := C73_update D hD log hlog data m h.training h.trains
  rw [hu] at h6
  injection h6 with _ h6
  subst h6
  intro i hi
  have hi' : i < m.n := by omega
  have hp := posts m h.training data d hge
  rw [← en, Finset.sum_congr rfl fun j hj => h7.step i hi' j (Finset.mem_range.1 hj), sum_newStep_ergodic hp (ee ▸ he) hi']
  have hv0 := visits_nonneg hp hi'
  have hv1 : visits m d data.phrases i ≤ 10 ^ 90 := (visits_le hp hi').trans (by exact_mod_cast hl)
  have hone : ∀ fr ∈ data.phrases, ∀ t < fr.length, gammaOf m d fr t i = 1 := by
    intro fr hfr t ht
    have := hp.sum fr hfr t ht
    rw [en, h1, Finset.sum_range_one] at this
    rw [show i = 0 by omega]
    exact this
  have hdep : 1 ≤ HmmSpec.departures m d data.phrases i := by
    obtain ⟨p, hp1, hp2⟩ := h2
    have hnn : ∀ fr ∈ data.phrases, 0 ≤ ∑ t ∈ Finset.range (fr.length - 1), gammaOf m d fr t i := fun fr hfr =>
      Finset.sum_nonneg fun t ht => hp.gamma fr hfr t (by have := Finset.mem_range.1 ht; omega) i hi'
    have hone' : 1 ≤ ∑ t ∈ Finset.range (p.length - 1), gammaOf m d p t i := by
      rw [Finset.sum_congr rfl fun t ht => hone p hp1 t (by have := Finset.mem_range.1 ht; omega)]
      simp only [Finset.sum_const, Finset.card_range, nsmul_eq_mul, mul_one]
      exact_mod_cast (by omega : 1 ≤ p.length - 1)
    refine hone'.trans ?_
    exact List.single_le_sum (l := data.phrases.map fun fr => ∑ t ∈ Finset.range (fr.length - 1), gammaOf m d fr t i) (by
      intro x hx
      obtain ⟨fr, hfr, rfl⟩ := List.mem_map.1 hx
      exact hnn fr hfr) _ (List.mem_map.2 ⟨p, hp1, rfl⟩)
  rw [div_le_div_iff₀ (by positivity) (by positivity)]
  nlinarith

/-- an Ergodic model with one state keeps its mass through the whole training -/
theorem one_state_kept (D : Dens ℝ) (hD : D.Sound) (log : ℝ → ℝ) (hlog : ∀ x y, 0 < x → 0 < y → log (x * y) = log x + log y) (m : Hmm ℝ)
    (ha : m.Admissible) (h1 : m.n = 1) (data : KData ℝ) (hf : m.Fed data) (hl : m.LongPhrase data)
    (hfill : ∀ p ∈ data.phrases, p ≠ []) (h2 : ∃ p ∈ data.phrases, 2 ≤ p.length) (hlen : data.frames.length ≤ 10 ^ 90) (hreg : 1 / 10 ^ 9 ≤ m.absReg)
    (sdOf : KData ℝ → List ℝ) (hsd : ∀ d, (sdOf d).length = d.dim) (lowest pct : ℝ) (P : EmParams) (hP : 1 ≤ P.minIter) :
    m.ergodic = true → ∀ m1 m2, allocate m = .ret () m1 → emInit D log Real.sqrt (Compare.exact lowest pct) P sdOf data m1 = .ret () m2 →
      ∀ k ls m', Trainee.steps (fun _ => emUpdate D log data) k m2 = .ret ls m' → ∀ i < m.n, 1 / 10 ^ 100 ≤ ∑ j ∈ Finset.range m.n, step m' i j := by
  intro he m1 m2 e1 e2 k
  obtain ⟨g, m1', m2', k1, k2, _, k3, k4⟩ := init_ret D hD log lowest pct P hP sdOf hsd data m ha hf hl (fun _ => hfill) hreg
  rw [e1] at k1
  injection k1 with _ k1
  subst k1
  rw [e2] at k2
  injection k2 with _ k2
  subst k2
  obtain ⟨m1, a2, _, _, a3, _⟩ := allocate_fresh m ha
  rw [e1] at a2
  injection a2 with _ a2
  subst a2
  have en : m1.n = m.n := by rw [a3]
  have ee : m1.ergodic = m.ergodic := by rw [a3]
  have key : ∀ ls m', Trainee.steps (fun _ => emUpdate D log data) k m2 = .ret ls m' → Running m1 data m' ∧
      ∀ i < m.n, 1 / 10 ^ 100 ≤ ∑ j ∈ Finset.range m.n, step m' i j := by
    induction k with
    | zero =>
      intro ls m' hs
      simp only [Trainee.steps, pure_def] at hs
      injection hs with _ hs
      subst hs
      refine ⟨k4, fun i hi => ?_⟩
      rw [Finset.sum_congr rfl fun j hj => (k3.ergodic (ee ▸ he) i (by omega)).2 j (by have := Finset.mem_range.1 hj; omega), en, h1]
      norm_num
    | succ k ih =>
      intro ls m' hs
      simp only [Trainee.steps, bind_def, pure_def] at hs
      cases q1 : Trainee.steps (fun _ => emUpdate D log data) k m2 with
      | ub => rw [q1] at hs; cases hs
      | throw e t => rw [q1] at hs; cases hs
      | ret ls1 m3 =>
        rw [q1] at hs
        simp only at hs
        cases q2 : emUpdate D log data m3 with
        | ub => rw [q2] at hs; cases hs
        | throw e t => rw [q2] at hs; cases hs
        | ret l m4 =>
          rw [q2] at hs
          simp only [Res.ret.injEq] at hs
          obtain ⟨_, rfl⟩ := hs
          obtain ⟨r1, _⟩ := ih ls1 m3 q1
          have hm := one_state_mass D hD log hlog hlen r1 (by omega) (ee ▸ he) h2 l m4 q2
          obtain ⟨l', m5, q3, q4⟩ := Running.next D hD log hlog hlen r1 (fun _ l'' m'' hu => one_state_mass D hD log hlog hlen r1 (by omega) (ee ▸ he) h2 l'' m'' hu)
          rw [q2] at q3
          injection q3 with _ q3
          subst q3
          exact ⟨q4, by rw [en] at hm; exact hm⟩
  exact fun ls m' hs => (key ls m' hs).2

/-- C83: the training of a model with one state, of either kind, never fails: the hypothesis of `C83_training_ergodic_partial` holds. -/
theorem C83_training_one_state (D : Dens ℝ) (hD : D.Sound) (log : ℝ → ℝ) (hlog : ∀ x y, 0 < x → 0 < y → log (x * y) = log x + log y) (m : Hmm ℝ)
    (ha : m.Admissible) (h1 : m.n = 1) (hwin : 1 ≤ m.window) (data : KData ℝ) (hf : m.Fed data)
    (hfill : ∀ p ∈ data.phrases, p ≠ []) (h2 : ∃ p ∈ data.phrases, 2 ≤ p.length) (hlen : data.frames.length ≤ 10 ^ 90) (hreg : 1 / 10 ^ 9 ≤ m.absReg)
    (sdOf : KData ℝ → List ℝ) (hsd : ∀ d, (sdOf d).length = d.dim) (lowest pct : ℝ) (P : EmParams) (hP : 1 ≤ P.minIter) (cancel : Nat → Bool) :
    ∃ t m', (trainee D log Real.sqrt (Compare.exact lowest pct) P sdOf data).train (Compare.exact lowest pct) P cancel m = .ret t m' ∧
      (∃ k, OneOutcome t.events k t.status) ∧ t.status.Final ∧ t.isTraining = false ∧ t.locked = false ∧ m'.training = false ∧
      (t.status = .cancel → ∃ i, cancel i = true) ∧
      (t.status = .done → 1 ≤ t.updates ∧ m'.CanFilter ∧ m'.Stochastic ∧ (m.hier = false → BufOk m.buf → m'.Usable) ∧
        (m.hier = true → m.Exits → m'.InHierarchy)) := by
  have hl : m.LongPhrase data := by
    obtain ⟨p, q1, q2⟩ := h2
    exact ⟨p, q1, by omega⟩
  obtain ⟨t, m', g1, g2, g3, g4, g5, g6, -, g7, -, g8, -⟩ := train_core D hD log hlog m ha hwin data hf hl hlen (fun _ => hfill) hreg sdOf hsd lowest pct P hP
    cancel (one_state_kept D hD log hlog m ha h1 data hf hl hfill h2 hlen hreg sdOf hsd lowest pct P hP)
  refine ⟨t, m', g1, g2, g3, g4, g5, g6, g7, fun h => ?_⟩
  obtain ⟨m1, a2, a3, a4, a5⟩ := g8 h
  exact ⟨m1, a2, a3, a4, fun b1 b2 => (a5 b1 b2).1⟩

/-! ### Examples -/

/-- a model by default, with 2 states, in a hierarchy or not -/
noncomputable def initExample (n : Nat) (erg hier : Bool) : Hmm ℝ :=
  { n := n, gaussians := 1, ergodic := erg, est := .full, absReg := 1 / 1000, relReg := 1 / 100, mode := .full, bimodal := false, dim := 1, di := 0, window := 1,
    sts := [], prior := [], trans := [], alpha := [], prevAlpha := [], beta := [], prevBeta := [], alpha0 := [], alpha1 := [], alpha2 := [], exitP := [],
    hier := hier, started := false, training := true, winMin := 0, winMax := 0, winNorm := 0, buf := CBuf.construct 0 1 1, instant := 0, logLik := 0,
    progress := 0, exitLik := 0, exitRatio := 0, likeliest := 0, outVals := [], outCov := [] }

/-- two phrases, the second one shorter than the number of states -/
noncomputable def initData : KData ℝ := { dim := 1, phrases := [[[0], [1], [2], [4], [8]], [[3]]] }

theorem initExample_ok (n : Nat) (hn : 1 ≤ n) (e h : Bool) : (initExample n e h).Admissible ∧ (initExample n e h).Fed initData ∧
    1 ≤ (initExample n e h).window ∧ initData.frames.length ≤ 10 ^ 90 ∧ 1 / 10 ^ 9 ≤ (initExample n e h).absReg ∧ (initExample n e h).Exits := by
  refine ⟨⟨hn, le_rfl, ?_, ?_⟩, ⟨rfl, ?_, ?_⟩, le_rfl, ?_, ?_, ?_⟩
  · simp [initExample]
  · simp [initExample]
  · simp [initExample, initData, KData.frames]
  · simp [initData, KData.frames]
  · simp [initData, KData.frames]
  · simp [initExample]; norm_num
  · intro k _
    simp [initExample]

/-- the hypotheses of `C83_training` and `C83_initialised` are met -/
example (h : Bool) (cancel : Nat → Bool) : ∃ t m',
    (trainee Dens.real Real.log Real.sqrt (Compare.exact (-10) 1) ⟨10, 0⟩ (fun d => List.replicate d.dim 1) initData).train (Compare.exact (-10) 1) ⟨10, 0⟩ cancel
      (initExample 2 false h) = .ret t m' ∧ t.status.Final := by
  obtain ⟨h1, h2, h3, h4, h5, _⟩ := initExample_ok 2 (by omega) false h
  obtain ⟨t, m', k1, _, k2, _⟩ := C83_training Dens.real Dens.real_sound Real.log (fun x y hx hy => Real.log_mul hx.ne' hy.ne') (initExample 2 false h) h1 rfl h3
    initData h2 ⟨_, .head _, by simp [initExample]⟩ h4 h5 (fun d => List.replicate d.dim 1) (fun d => by simp) (-10) 1 ⟨10, 0⟩ (by simp) cancel
  exact ⟨t, m', k1, k2⟩

/-- the hypotheses of `C83_training_one_state` are met by an Ergodic model -/
example (h : Bool) (cancel : Nat → Bool) : ∃ t m',
    (trainee Dens.real Real.log Real.sqrt (Compare.exact (-10) 1) ⟨10, 0⟩ (fun d => List.replicate d.dim 1) initData).train (Compare.exact (-10) 1) ⟨10, 0⟩ cancel
      (initExample 1 true h) = .ret t m' ∧ t.status.Final := by
  obtain ⟨h1, h2, h3, h4, h5, _⟩ := initExample_ok 1 (by omega) true h
  obtain ⟨t, m', k1, _, k2, _⟩ := C83_training_one_state Dens.real Dens.real_sound Real.log (fun x y hx hy => Real.log_mul hx.ne' hy.ne') (initExample 1 true h) h1 rfl h3
    initData h2 (by simp [initData]) ⟨_, .head _, by simp⟩ h4 h5 (fun d => List.replicate d.dim 1) (fun d => by simp) (-10) 1 ⟨10, 0⟩ (by simp) cancel
  exact ⟨t, m', k1, k2⟩

/-! ### Short phrases -/

/-- the likelihood functions refuse a covariance whose determinant is 0 -/
structure _root_.Xmm.Dens.Strict (D : Dens ℝ) : Prop where
  joint : ∀ (g : Gauss ℝ) (obs : List ℝ), g.det = 0 → ∃ e, D.joint obs g = .throw e g
  bimodal : ∀ (g : Gauss ℝ) (x y : List ℝ), g.det = 0 → ∃ e, D.bimodal x y g = .throw e g

theorem _root_.Xmm.Dens.real_strict : Dens.real.Strict := by
  refine ⟨fun g obs h => ⟨.runtimeError, ?_⟩, fun g x y h => ⟨.runtimeError, ?_⟩⟩
  · simp [Dens.real, Dens.onReals, Gauss.likelihood, bind_def, get_def, Gauss.toFl, h, throw_def, Fl.exact, Fl.eq]
  · simp [Dens.real, Dens.onReals, Gauss.likelihoodBimodal, bind_def, get_def, Gauss.toFl, h, throw_def, Fl.exact, Fl.eq]

theorem throw_bind {σ α β : Type} {p : Prog σ α} {f : α → Prog σ β} {s s' : σ} {e : Exn} (h : p s = .throw e s') : (p >>= f) s = .throw e s' := by
  rw [bind_def, h]

theorem frameProb_throws {σ : Type} (D : Dens ℝ) (hD : D.Strict) (s : Gmm ℝ) (hs : s.WF) (h0 : ∀ g ∈ s.comps, g.det = 0) (x : List ℝ) (t : σ) :
    ∃ e, Gmm.frameProb D s x 0 t = .throw e t := by
  have hp := hs.pos
  obtain ⟨g, hg, hgc⟩ := Gmm.getElem_comp hs (show 0 < s.gaussians by omega)
  have r1 := rd_lt (l := s.coeffs) (i := 0) (by rw [hs.coeffs]; omega) 0 t
  have r2 := rd_lt (l := s.comps) (i := 0) (List.getElem?_eq_some_iff.1 hgc).1 g t
  rw [show s.comps.getD 0 g = g by rw [List.getD_eq_getElem?_getD, hgc, Option.getD_some]] at r2
  unfold Gmm.frameProb
  cases hb : s.bimodal with
  | true =>
    obtain ⟨e, he⟩ := hD.bimodal g (x.take s.di) (x.drop s.di) (h0 g hg)
    refine ⟨e, ?_⟩
    rw [if_pos rfl]
    unfold Gmm.obsProbBimodal
    rw [hb]
    simp only [Bool.not_true, Bool.false_eq_true, if_false]
    rw [bind_of_ret r1, bind_of_ret r2]
    exact throw_bind (by simp [Gmm.call, he])
  | false =>
    obtain ⟨e, he⟩ := hD.joint g x (h0 g hg)
    refine ⟨e, ?_⟩
    rw [if_neg (by simp)]
    unfold Gmm.obsProb
    rw [if_neg (by omega), bind_of_ret r1, bind_of_ret r2]
    exact throw_bind (by simp [Gmm.call, he])

/-- a loop whose first turn throws -/
theorem loop_throws {σ α : Type} (n : Nat) (hn : 1 ≤ n) (a : α) (body : α → Nat → Prog σ α) (s s' : σ) (e : Exn) (h : body a 0 s = .throw e s') :
    loop n a body s = .throw e s' := by
  induction n with
  | zero => omega
  | succ n ih =>
    rw [loop_succ]
    rcases Nat.eq_zero_or_pos n with rfl | hn'
    · simp [loop, pure_def, h]
    · rw [ih hn']

theorem eSteps_throws (D : Dens ℝ) (log : ℝ → ℝ) (m : Hmm ℝ)
    (hfb : ∀ frames : List (List ℝ), 0 < frames.length → ∃ e, forwardBackward D log frames m = .throw e m) (phrases : List (List (List ℝ)))
    (hne : phrases.flatten ≠ []) : ∃ e, eSteps D log phrases m = .throw e m := by
  unfold eSteps
  generalize (([], 0) : List (EStep ℝ) × ℝ) = acc
  induction phrases generalizing acc with
  | nil => simp at hne
  | cons p ps ih =>
    rw [List.foldlM_cons]
    by_cases hp : 0 < p.length
    · obtain ⟨e, he⟩ := hfb p hp
      refine ⟨e, throw_bind ?_⟩
      rw [if_pos hp]
      exact throw_bind he
    · have : p = [] := List.length_eq_zero_iff.1 (by omega)
      subst this
      obtain ⟨e, he⟩ := ih (by simpa using hne) (acc.1 ++ [⟨0, [], [], []⟩], acc.2)
      refine ⟨e, ?_⟩
      rw [if_neg (by simp)]
      exact he

theorem emUpdate_throws (D : Dens ℝ) (hD : D.Strict) (log : ℝ → ℝ) (data : KData ℝ) (hne : data.frames ≠ []) (m : Hmm ℝ) (hn : 1 ≤ m.n)
    (hlen : m.sts.length = m.n) (hs : ∀ s ∈ m.sts, s.WF ∧ ∀ g ∈ s.comps, g.det = 0) : ∃ e, emUpdate D log data m = .throw e m := by
  have hlik : ∀ x : List ℝ, ∃ e, frameLik D m x 0 m = .throw e m := by
    intro x
    have hlt : 0 < m.sts.length := by omega
    obtain ⟨w, hz⟩ := hs m.sts[0] (List.getElem_mem hlt)
    obtain ⟨e, he⟩ := frameProb_throws D hD m.sts[0] w hz x m
    refine ⟨e, ?_⟩
    unfold frameLik
    have r := rd_lt (l := m.sts) (i := 0) hlt m.sts[0] m
    rw [show m.sts.getD 0 m.sts[0] = m.sts[0] by simp [List.getD_eq_getElem?_getD, hlt]] at r
    rw [bind_of_ret r]
    unfold Gmm.obsProbSum
    exact loop_throws _ w.pos _ _ _ _ _ (throw_bind he)
  have hfb : ∀ frames : List (List ℝ), 0 < frames.length → ∃ e, forwardBackward D log frames m = .throw e m := by
    intro frames hpos
    obtain ⟨e, he⟩ := hlik (frames.getD 0 [])
    refine ⟨e, ?_⟩
    unfold forwardBackward
    rw [bind_of_ret (get_def m)]
    refine throw_bind ?_
    unfold obsMatrix collect
    refine loop_throws _ hpos _ _ _ _ _ ?_
    refine throw_bind ?_
    refine (bind_of_ret (rd_lt hpos [] m)).trans ?_
    exact loop_throws _ hn _ _ _ _ _ (throw_bind he)
  obtain ⟨e, he⟩ := eSteps_throws D log m hfb data.phrases hne
  exact ⟨e, throw_bind he⟩

end Hmm

namespace Trainee
variable {σ V : Type}

/-- a training whose first update throws -/
theorem train_throws [Zero V] (T : Trainee σ V) (C : Compare V) (P : EmParams) (hP : 1 ≤ P.minIter) (cancel : Nat → Bool) (s s1 s2 s3 : σ)
    (ok : Bool) (e : Exn) (ha : T.allocate s = .ret () s1) (hi : T.init s1 = .ret ok s2) (hu : T.update ok 0 s2 = .throw e s3) :
    ∃ t s', T.train C P cancel s = .ret t s' ∧ OneOutcome t.events 0 t.status ∧ (t.status = .error ∨ t.status = .cancel) ∧
      (t.status = .cancel → ∃ i, cancel i = true) ∧ t.isTraining = false ∧ t.locked = false := by
  rcases bool_cases (cancel 0) with hc | hc
  · obtain ⟨t, k, h1, h2⟩ := Trainer.train_trained (env C true (T.update ok) s2 cancel) P hP true true (fun _ => rfl) 1001 (by omega) (start V) ⟨rfl, rfl, rfl⟩
    have hn : (env C true (T.update ok) s2 cancel).update 0 = none := by simp [env, after, hu]
    have hk : k = 0 := by
      by_contra h
      obtain ⟨_, _, v, hv⟩ := h2.before 0 (by omega)
      rw [hn] at hv; cases hv
    subst hk
    have hst : t.status = .error ∨ t.status = .cancel := by
      rcases h2.final with h | h
      · rcases (h2.done h).2.2.2 with h | h | h <;> omega
      · exact h
    have haft : ∃ s', after (T.update ok) s2 t.updates = some s' := by
      rcases hst with h | h
      · rw [(h2.count rfl rfl).2 h]
        simp [after, hu]
      · rw [h2.stopped h]
        exact ⟨_, rfl⟩
    obtain ⟨s', hs'⟩ := haft
    refine ⟨t, T.idle s', ?_, h2.outcome, hst, fun h => ⟨_, h2.cancel.1 h⟩, h2.idle, h2.unlocked⟩
    unfold train
    rw [bind_of_ret ha]
    refine (bind_of_ret (s := s1) (s' := s2) (a := some ok) (by simp [begin', hc, attempt, hi])).trans ?_
    refine (bind_of_ret (get_def s2)).trans ?_
    simp only [Option.isSome_some, Option.getD_some, h1, hs']
    have hd : t.status ≠ .done := by rcases hst with h | h <;> rw [h] <;> simp
    simp [finish, bind_def, set_def, pure_def, modify_def, hd]
  · obtain ⟨t, k, h1, h2, h4, h3⟩ := train_cancelled T C P cancel s s1 ha hP hc
    have : k = 0 := by rw [← h3.stopped h2, h4]
    exact ⟨t, _, h1, this ▸ h3.outcome, .inr h2, fun _ => ⟨0, hc⟩, h3.idle, h3.unlocked⟩

end Trainee

namespace Hmm

theorem initStates_skip (D : Dens ℝ) (log sqrt : ℝ → ℝ) (C : Compare ℝ) (P : EmParams) (sdOf : KData ℝ → List ℝ) (data : KData ℝ) (m : Hmm ℝ)
    (hshort : ∀ p ∈ data.phrases, p.length < m.n) : initStates D log sqrt C P sdOf data m = .ret () m := by
  unfold initStates
  rw [bind_of_ret (get_def _)]
  have h : ∀ n, initState D log sqrt C P sdOf data n m = .ret () m := by
    intro n
    unfold initState
    rw [bind_of_ret (get_def _), if_pos, pure_def]
    rw [List.isEmpty_iff, segmentData]
    simp only [List.map_eq_nil_iff, List.filter_eq_nil_iff]
    intro p hp
    simp [Nat.div_eq_of_lt (hshort p hp)]
  generalize m.n = N
  induction N with
  | zero => rfl
  | succ N ih => rw [loop_succ, ih]; exact h N

/-- C83 is violated by phrases that are all shorter than the number of states: no state is initialised, so that the first iteration throws, and the only event
    of the training is Error (or Cancel, if a cancellation was requested). -/
theorem C83_short_phrases_violated (D : Dens ℝ) (hD : D.Strict) (log : ℝ → ℝ) (m : Hmm ℝ) (ha : m.Admissible) (data : KData ℝ) (hdim : data.dim = m.dim)
    (hne : data.frames ≠ []) (hshort : ∀ p ∈ data.phrases, p.length < m.n) (hreg : 1 / 10 ^ 9 ≤ m.absReg) (sdOf : KData ℝ → List ℝ)
    (hsd : ∀ d, (sdOf d).length = d.dim) (C : Compare ℝ) (P : EmParams) (hP : 1 ≤ P.minIter) (cancel : Nat → Bool) :
    ∃ t m', (trainee D log Real.sqrt C P sdOf data).train C P cancel m = .ret t m' ∧ OneOutcome t.events 0 t.status ∧
      (t.status = .error ∨ t.status = .cancel) ∧ (t.status = .cancel → ∃ i, cancel i = true) ∧ t.isTraining = false ∧ t.locked = false := by
  obtain ⟨m1, h1, hw1, hst1, hs1, hal, hbe⟩ := allocate_fresh m ha
  have en : m1.n = m.n := by rw [hs1]
  have ed : m1.dim = m.dim := by rw [hs1]
  obtain ⟨M, k1, k2, k3, k4, k5, k6, k7, k8⟩ := defaults_ret m1 hw1 (fun s hs => ⟨(hst1 s hs).wf, by rw [(hst1 s hs).absReg]; exact hreg⟩) (sdOf data)
    (by rw [hsd, hdim, ed])
  have fn : M.n = m.n := by rw [k2]; exact en
  have hsts : ∀ s ∈ M.sts, s.WF ∧ ∀ g ∈ s.comps, g.det = 0 := by
    intro s hs
    obtain ⟨i, hi, rfl⟩ := List.getElem_of_mem hs
    have hi' : i < m1.sts.length := by rw [k8.length_eq]; exact hi
    have r := (List.forall₂_iff_get.1 k8).2 i hi' hi
    have fr := hst1 _ (List.getElem_mem hi')
    simp only [List.get_eq_getElem] at r
    refine ⟨r.wf, fun g hg => ?_⟩
    obtain ⟨c, hc⟩ := List.getElem?_of_mem hg
    obtain ⟨g0, hg0, e⟩ := r.comp c g hc
    rw [e]
    exact fr.det g0 (List.mem_of_getElem? hg0)
  obtain ⟨e, he⟩ := emUpdate_throws D hD log data hne M (by rw [fn]; exact ha.n) (by rw [k3.sts]) hsts
  have hne' : data.phrases.isEmpty = false := by
    rw [← Bool.not_eq_true, List.isEmpty_iff]
    intro h
    exact hne (by simp [KData.frames, h])
  refine Trainee.train_throws (trainee D log Real.sqrt C P sdOf data) C P hP cancel m m1 M M true e h1 ?_ he
  have hin : emInit D log Real.sqrt C P sdOf data m1 = .ret () M := by
    unfold emInit
    rw [hne', if_neg (by simp), bind_of_ret k1]
    exact initStates_skip D log Real.sqrt C P sdOf data M (by rw [fn]; exact hshort)
  show (emInit D log Real.sqrt C P sdOf data >>= fun _ => pure true) m1 = .ret true M
  rw [bind_of_ret hin, pure_def]

/-- phrases that are too short for a model with 10 states, the number by default: without a cancellation, the training ends with an error -/
example (h : Bool) : ∃ t m',
    (trainee Dens.real Real.log Real.sqrt (Compare.exact (-10) 1) ⟨10, 0⟩ (fun d => List.replicate d.dim 1) initData).train (Compare.exact (-10) 1) ⟨10, 0⟩
      (fun _ => false) (initExample 10 false h) = .ret t m' ∧ OneOutcome t.events 0 .error := by
  obtain ⟨h1, h2, h3, h4, h5, _⟩ := initExample_ok 10 (by omega) false h
  obtain ⟨t, m', k1, k2, k3, k4, _⟩ := C83_short_phrases_violated Dens.real Dens.real_strict Real.log (initExample 10 false h) h1 initData rfl h2.some
    (by simp [initData, initExample]) h5 (fun d => List.replicate d.dim 1) (fun d => by simp) (Compare.exact (-10) 1) ⟨10, 0⟩ (by simp) (fun _ => false)
  rcases k3 with h | h
  · exact ⟨t, m', k1, h ▸ k2⟩
  · obtain ⟨_, hc⟩ := k4 h
    cases hc

end Hmm
end Xmm
