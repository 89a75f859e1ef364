import Verif.Props.HmmResults
import Verif.Props.GmmNormalize
import Verif.Props.GaussianUpdate
set_option linter.unusedSimpArgs false
set_option linter.unusedSectionVars false
/- C44, C50: the parameters of a hidden Markov model. -/
namespace Xmm
open Phrase (loop)
open Gauss (rd rd_lt resize)
open Prog (bind_def pure_def get_def set_def modify_def throw_def undef_def)
variable {K : Type} [Field K] [LinearOrder K] [IsStrictOrderedRing K]

theorem length_resize (n : Nat) (l : List K) : (resize n l).length = n := by simp [resize]; omega

theorem getD_resize (n : Nat) (l : List K) (i : Nat) : (resize n l).getD i 0 = if i < n then l.getD i 0 else 0 := by
  unfold resize
  simp only [List.getD_eq_getElem?_getD]
  by_cases h : i < n
  · rw [if_pos h]
    by_cases h' : i < l.length
    · rw [List.getElem?_append_left (by simp; omega), List.getElem?_take_of_lt h]
    · rw [List.getElem?_append_right (by simp; omega), List.getElem?_eq_none (l := l) (by omega)]
      simp only [Option.getD_none]
      by_cases h2 : i - (l.take n).length < n - l.length
      · rw [List.getElem?_replicate_of_lt h2]; rfl
      · rw [List.getElem?_eq_none (by simpa using h2)]; rfl
  · rw [if_neg h, List.getElem?_eq_none]
    · rfl
    · simp; omega

theorem Gmm.allocate_ret (m : Gmm K) (hg : 1 ≤ m.gaussians) (h1 : (if m.bimodal then 2 else 1) ≤ m.dim)
    (h2 : m.di ≤ (if m.bimodal then m.dim - 1 else 0)) :
    ∃ g : Gauss K, Gmm.allocate m = .ret () { m with
      coeffs := resize m.gaussians m.coeffs, beta := resize m.gaussians m.beta, comps := List.replicate m.gaussians g } ∧
      Gmm.WF { m with
        coeffs := resize m.gaussians m.coeffs, beta := resize m.gaussians m.beta, comps := List.replicate m.gaussians g } := by
  obtain ⟨g, hg'⟩ : ∃ g : Gauss K, Gauss.construct m.bimodal m.dim m.di m.mode = some g := by
    unfold Gauss.construct
    rw [if_neg (not_lt.2 h1), if_neg (not_lt.2 h2)]
    exact ⟨_, rfl⟩
  obtain ⟨hs, hd⟩ := C31_sizes_reachable _ _ _ _ g hg'
  refine ⟨g, ?_, ⟨hg, by simp, length_resize _ _, length_resize _ _, fun g' hg'' => ?_⟩⟩
  · unfold Gmm.allocate
    rw [bind_of_ret (modify_def _ _), bind_of_ret (get_def _)]
    simp only [hg', set_def]
  · rw [List.eq_of_mem_replicate hg'']
    exact ⟨hs, hd⟩

namespace Hmm
open HmmSpec GmmSpec RecSpec

/-- a member function called on every state -/
theorem eachState_ret (m : Hmm K) (f : Prog (Gmm K) Unit) (R : Gmm K → Gmm K → Prop)
    (h : ∀ s ∈ m.sts, ∃ s', f s = .ret () s' ∧ R s s') :
    ∃ l, loop m.sts.length () (fun _ i => onState i f) m = .ret () { m with sts := l } ∧ List.Forall₂ R m.sts l := by
  obtain ⟨a, m', h1, l, rfl, h2, h3, h4⟩ := loop_state m.sts.length () (fun _ i => onState i f) m
    (fun t _ m' => ∃ l, m' = { m with sts := l } ∧ l.length = m.sts.length ∧ (∀ i, t ≤ i → l[i]? = m.sts[i]?) ∧
      ∀ i < t, ∀ s, m.sts[i]? = some s → ∃ s', l[i]? = some s' ∧ R s s')
    ⟨m.sts, rfl, rfl, fun _ _ => rfl, fun i hi => by omega⟩ (by
      rintro t ht a m1 ⟨l, rfl, i1, i2, i3⟩
      have hs : l[t]? = some m.sts[t] := by rw [i2 t le_rfl, List.getElem?_eq_getElem ht]
      obtain ⟨s', f1, f2⟩ := h _ (List.getElem_mem ht)
      refine ⟨(), _, onState_ret (m := { m with sts := l }) hs f1, l.set t s', rfl, by simpa using i1, fun i hi => ?_, fun i hi s hs' => ?_⟩
      · rw [List.getElem?_set_ne (by omega)]; exact i2 i (by omega)
      · by_cases hit : i = t
        · subst hit
          rw [List.getElem?_eq_getElem ht] at hs'
          cases hs'
          exact ⟨s', List.getElem?_set_self (by omega), f2⟩
        · rw [List.getElem?_set_ne (Ne.symm hit)]
          exact i3 i (by omega) s hs')
  refine ⟨l, h1, List.forall₂_iff_get.2 ⟨h2.symm, fun i h1' h2' => ?_⟩⟩
  obtain ⟨s', k1, k2⟩ := h4 i h1' _ (List.getElem?_eq_getElem h1')
  rw [List.getElem?_eq_getElem h2'] at k1
  cases k1
  exact k2

/-! ### Rows of the transition matrix -/

theorem getRow {m : Hmm K} {d i j : Nat} (h : m.trans.length = m.n * d) (hi : i < m.n) (hj : j < d) : i * d + j < m.trans.length := by
  rw [h]
  calc i * d + j < i * d + d := by omega
    _ = (i + 1) * d := by ring
    _ ≤ m.n * d := Nat.mul_le_mul_right _ hi

theorem sumTrans_ret {σ : Type} (m : Hmm K) (first len : Nat) (h : first + len ≤ m.trans.length) (s : σ) :
    sumTrans m first len s = .ret (∑ j ∈ Finset.range len, m.trans.getD (first + j) 0) s := by
  unfold sumTrans
  obtain ⟨a, h1, h2⟩ := loop_inv len (0 : K) (fun acc j => do
      let x ← rd m.trans (first + j)
      pure (acc + x)) s (fun t a => a = ∑ j ∈ Finset.range t, m.trans.getD (first + j) 0) (by simp) (by
      rintro t ht a rfl
      refine ⟨_, ?_, (Finset.sum_range_succ _ _).symm⟩
      rw [bind_of_ret (rd_lt (by omega) 0 s), pure_def])
  rw [h1, h2]

theorem divideTrans_ret (m : Hmm K) (first len : Nat) (h : first + len ≤ m.trans.length) (z : K) :
    ∃ l, divideTrans first len z m = .ret () { m with trans := l } ∧ l.length = m.trans.length ∧
      ∀ c, l.getD c 0 = if first ≤ c ∧ c < first + len then m.trans.getD c 0 / z else m.trans.getD c 0 := by
  obtain ⟨a, m', h1, l, rfl, h2, h3⟩ := loop_state len () (fun _ j => do
      let m ← Prog.get
      let x ← rd m.trans (first + j)
      setTrans (first + j) (x / z)) m
    (fun t _ m' => ∃ l, m' = { m with trans := l } ∧ l.length = m.trans.length ∧
      ∀ c, l.getD c 0 = if first ≤ c ∧ c < first + t then m.trans.getD c 0 / z else m.trans.getD c 0)
    ⟨m.trans, rfl, rfl, fun c => by rw [if_neg (by omega)]⟩ (by
      rintro t ht a m1 ⟨l, rfl, i1, i2⟩
      have hlt : first + t < l.length := by omega
      refine ⟨(), _, ?_, l.set (first + t) (l.getD (first + t) 0 / z), rfl, by simpa using i1, fun c => ?_⟩
      · rw [bind_of_ret (get_def _), bind_of_ret (rd_lt hlt 0 _)]
        exact setTrans_ret { m with trans := l } _ _ hlt
      · rw [getD_set _ _ _ _ _ hlt, i2, i2]
        by_cases hc : c = first + t
        · rw [if_pos hc, if_neg (by omega), if_pos (by omega), hc]
        · rw [if_neg hc]
          by_cases h' : first ≤ c ∧ c < first + t
          · rw [if_pos h', if_pos (by omega)]
          · rw [if_neg h', if_neg (by omega)])
  exact ⟨l, h1, h2, h3⟩

/-- the sum of row `i` of a matrix with `d` columns -/
def rowSum (l : List K) (d i : Nat) : K := ∑ j ∈ Finset.range d, l.getD (i * d + j) 0

theorem normalizeRow_ret (m : Hmm K) (d i : Nat) (h : i * d + d ≤ m.trans.length) :
    ∃ l, normalizeRow d i m = .ret () { m with trans := l } ∧ l.length = m.trans.length ∧
      ∀ c, l.getD c 0 = if i * d ≤ c ∧ c < i * d + d then m.trans.getD c 0 / rowSum m.trans d i else m.trans.getD c 0 := by
  obtain ⟨l, h1, h2, h3⟩ := divideTrans_ret m (i * d) d h (rowSum m.trans d i)
  refine ⟨l, ?_, h2, h3⟩
  unfold normalizeRow
  rw [bind_of_ret (get_def m), bind_of_ret (sumTrans_ret m _ _ h m)]
  exact h1

theorem row_cell {d i j i' : Nat} (hj : j < d) : (i' * d ≤ i * d + j ∧ i * d + j < i' * d + d) ↔ i = i' := by
  constructor
  · rintro ⟨h1, h2⟩
    have := cell_inj (n := d) (k := i) (d := j) (k' := i') (d' := i * d + j - i' * d) hj (by omega) (by omega)
    exact this.1
  · rintro rfl; omega

/-- all rows normalised -/
structure Normed (d n : Nat) (l l' : List K) : Prop where
  len : l'.length = l.length
  cell : ∀ i < n, ∀ j < d, l'.getD (i * d + j) 0 = l.getD (i * d + j) 0 / rowSum l d i

theorem Normed.step {d t : Nat} {l0 l l' : List K} (hl : l.length = l0.length) 
    (h1 : ∀ i, ∀ j < d, l.getD (i * d + j) 0 = if i < t then l0.getD (i * d + j) 0 / rowSum l0 d i else l0.getD (i * d + j) 0)
    (h2 : ∀ c, l'.getD c 0 = if t * d ≤ c ∧ c < t * d + d then l.getD c 0 / rowSum l d t else l.getD c 0) :
    ∀ i, ∀ j < d, l'.getD (i * d + j) 0 = if i < t + 1 then l0.getD (i * d + j) 0 / rowSum l0 d i else l0.getD (i * d + j) 0 := by
  intro i j hj
  have hr : rowSum l d t = rowSum l0 d t := Finset.sum_congr rfl fun k hk => by
    rw [h1 t k (Finset.mem_range.1 hk), if_neg (lt_irrefl _)]
  rw [h2, hr]
  by_cases hit : i = t
  · rw [if_pos ((row_cell hj).2 hit), h1 i j hj, if_neg (by omega), if_pos (by omega), hit]
  · rw [if_neg fun h => hit ((row_cell hj).1 h), h1 i j hj]
    by_cases h' : i < t
    · rw [if_pos h', if_pos (by omega)]
    · rw [if_neg h', if_neg (by omega)]

theorem normalizeTransitions_leftRight (m : Hmm K) (he : m.ergodic = false) (h : m.trans.length = m.n * 2) :
    ∃ l, normalizeTransitions m = .ret () { m with trans := l } ∧ Normed 2 m.n m.trans l := by
  obtain ⟨a, m', h1, l, rfl, h2, h3⟩ := loop_state m.n () (fun _ i => normalizeRow 2 i) m
    (fun t _ m' => ∃ l, m' = { m with trans := l } ∧ l.length = m.trans.length ∧ ∀ i, ∀ j < 2, l.getD (i * 2 + j) 0 =
      if i < t then m.trans.getD (i * 2 + j) 0 / rowSum m.trans 2 i else m.trans.getD (i * 2 + j) 0)
    ⟨m.trans, rfl, rfl, fun i j _ => by rw [if_neg (by omega)]⟩ (by
      rintro t ht a m1 ⟨l, rfl, i1, i2⟩
      obtain ⟨l', k1, k2, k3⟩ := normalizeRow_ret { m with trans := l } 2 t (by show t * 2 + 2 ≤ l.length; omega)
      exact ⟨(), _, k1, l', rfl, k2.trans i1, Normed.step i1 i2 k3⟩)
  refine ⟨l, ?_, h2, fun i hi j hj => by rw [h3 i j hj, if_pos hi]⟩
  unfold normalizeTransitions
  rw [bind_of_ret (get_def m), if_neg (by simp [he])]
  exact h1

theorem setPrior_ret (m : Hmm K) (k : Nat) (x : K) (h : k < m.prior.length) :
    setPrior k x m = .ret () { m with prior := m.prior.set k x } := by
  unfold setPrior
  rw [bind_of_ret (get_def m), bind_of_ret (rd_lt h 0 m), set_def]

theorem normalizeTransitions_ergodic (m : Hmm K) (he : m.ergodic = true) (h : m.trans.length = m.n * m.n) (hp : m.prior.length = m.n) :
    ∃ l, normalizeTransitions m = .ret () { m with
        trans := l, prior := (List.range m.n).map fun i => m.prior.getD i 0 / ∑ j ∈ Finset.range m.n, m.prior.getD j 0 } ∧
      Normed m.n m.n m.trans l := by
  obtain ⟨a, m', h1, l, rfl, h2, h3, rfl⟩ := loop_state m.n (0 : K) (fun acc i => do
      let m ← Prog.get
      let p ← rd m.prior i
      normalizeRow m.n i
      pure (acc + p)) m
    (fun t a m' => ∃ l, m' = { m with trans := l } ∧ l.length = m.trans.length ∧ (∀ i, ∀ j < m.n, l.getD (i * m.n + j) 0 =
      if i < t then m.trans.getD (i * m.n + j) 0 / rowSum m.trans m.n i else m.trans.getD (i * m.n + j) 0) ∧
      a = ∑ j ∈ Finset.range t, m.prior.getD j 0)
    ⟨m.trans, rfl, rfl, fun i j _ => by rw [if_neg (by omega)], by simp⟩ (by
      rintro t ht a m1 ⟨l, rfl, i1, i2, rfl⟩
      obtain ⟨l', k1, k2, k3⟩ := normalizeRow_ret { m with trans := l } m.n t (by
        show t * m.n + m.n ≤ l.length
        rw [i1, h, ← Nat.succ_mul]
        exact Nat.mul_le_mul_right _ ht)
      refine ⟨_, { m with trans := l' }, ?_, l', rfl, k2.trans i1, Normed.step i1 i2 k3, (Finset.sum_range_succ _ _).symm⟩
      rw [bind_of_ret (get_def _), bind_of_ret (rd_lt (show t < m.prior.length by omega) 0 _), bind_of_ret k1, pure_def])
  refine ⟨l, ?_, h2, fun i hi j hj => by rw [h3 i j hj, if_pos hi]⟩
  unfold normalizeTransitions
  rw [bind_of_ret (get_def m), if_pos he, bind_of_ret h1]
  have := loop_fill (fun p => ({ m with trans := l, prior := p } : Hmm K)) m.n m.prior hp
    (fun i => m.prior.getD i 0 / ∑ j ∈ Finset.range m.n, m.prior.getD j 0) (fun i => do
      let m' ← Prog.get
      let p ← rd m'.prior i
      setPrior i (p / ∑ j ∈ Finset.range m.n, m.prior.getD j 0)) (by
      intro t ht p hl hge hlt
      rw [bind_of_ret (get_def _), bind_of_ret (rd_lt (show t < p.length by omega) 0 _), setPrior_ret _ _ _ (show t < p.length by omega)]
      simp only
      rw [hge t le_rfl ht])
  exact this

/-! ### C44 -/

/-- a left-right model stays or goes on -/
theorem sum_step_leftRight (m : Hmm K) (he : m.ergodic = false) (i : Nat) (hi : i < m.n) :
    ∑ j ∈ Finset.range m.n, HmmSpec.step m i j = rowSum m.trans 2 i := by
  unfold HmmSpec.step rowSum
  simp only [he, Bool.false_eq_true, if_false, Finset.sum_add_distrib]
  rw [Finset.sum_ite_eq', Finset.sum_ite_eq', if_pos (Finset.mem_range.2 hi), if_pos (Finset.mem_range.2 (Nat.mod_lt _ (by omega)))]
  simp [Finset.sum_range_succ]

theorem sum_step_ergodic (m : Hmm K) (he : m.ergodic = true) (i : Nat) :
    ∑ j ∈ Finset.range m.n, HmmSpec.step m i j = rowSum m.trans m.n i := by
  unfold HmmSpec.step rowSum
  simp only [he, if_true]

theorem start_leftRight (m : Hmm K) (he : m.ergodic = false) (hn : 1 ≤ m.n) :
    (∀ i < m.n, 0 ≤ start m i) ∧ ∑ i ∈ Finset.range m.n, start m i = 1 := by
  simp only [start, he, Bool.false_eq_true, if_false]
  refine ⟨fun i _ => by split <;> simp, ?_⟩
  rw [Finset.sum_ite_eq', if_pos (Finset.mem_range.2 hn)]

/-- C44, the end of training: whatever the transition (and start) probabilities estimated, if they are not negative and if each row (and the
    prior) has positive mass, `normalizeTransitions()` divides each row by its sum, so that they are probability distributions. -/
theorem C44_normalize (m : Hmm K) (hw : m.WF) (h0 : ∀ i < m.n, 0 ≤ start m i) (h0' : 0 < ∑ i ∈ Finset.range m.n, start m i)
    (h1 : ∀ i < m.n, ∀ j < m.n, 0 ≤ step m i j) (h1' : ∀ i < m.n, 0 < ∑ j ∈ Finset.range m.n, step m i j) :
    ∃ m', normalizeTransitions m = .ret () m' ∧ m' = { m with trans := m'.trans, prior := m'.prior } ∧ m'.WF ∧ m'.Stochastic ∧
      (∀ i < m.n, ∀ j < m.n, step m' i j = step m i j / ∑ k ∈ Finset.range m.n, step m i k) ∧
      ∀ i < m.n, start m' i = start m i / ∑ k ∈ Finset.range m.n, start m k := by
  have key : ∀ m' : Hmm K, m'.n = m.n → (∀ i < m.n, ∀ j < m.n, step m' i j = step m i j / ∑ k ∈ Finset.range m.n, step m i k) →
      (∀ i < m.n, start m' i = start m i / ∑ k ∈ Finset.range m.n, start m k) → m'.Stochastic := by
    intro m' hn hs hp
    refine ⟨fun i hi => ?_, ?_, fun i hi j hj => ?_, fun i hi => ?_⟩
    · rw [hn] at hi; rw [hp i hi]; exact div_nonneg (h0 i hi) h0'.le
    · rw [hn, Finset.sum_congr rfl fun i hi => hp i (Finset.mem_range.1 hi), ← Finset.sum_div, div_self h0'.ne']
    · rw [hn] at hi hj; rw [hs i hi j hj]; exact div_nonneg (h1 i hi j hj) (h1' i hi).le
    · rw [hn] at hi ⊢
      rw [Finset.sum_congr rfl fun j hj => hs i hi j (Finset.mem_range.1 hj), ← Finset.sum_div, div_self (h1' i hi).ne']
  rcases bool_cases m.ergodic with he | he
  · have htl := hw.trans
    rw [he, if_neg (by simp)] at htl
    obtain ⟨l, k1, k2, k3⟩ := normalizeTransitions_leftRight m he htl
    have hst : ∀ i < m.n, ∀ j < m.n, step ({ m with trans := l } : Hmm K) i j = step m i j / ∑ k ∈ Finset.range m.n, step m i k := by
      intro i hi j hj
      rw [sum_step_leftRight m he i hi]
      have c0 := k3 i hi 0 (by omega)
      have c1 := k3 i hi 1 (by omega)
      rw [Nat.add_zero] at c0
      unfold step
      simp only [he, Bool.false_eq_true, if_false]
      rw [c0, c1, add_div, ite_div, ite_div, zero_div]
    have hsp : ∀ i < m.n, start ({ m with trans := l } : Hmm K) i = start m i / ∑ k ∈ Finset.range m.n, start m k := by
      intro i _
      rw [(start_leftRight m he hw.pos).2, div_one]; rfl
    exact ⟨_, k1, rfl, ⟨hw.pos, hw.sts, hw.prior, by rw [k2]; exact hw.trans, hw.state⟩, key _ rfl hst hsp, hst, hsp⟩
  · have htl := hw.trans
    rw [he, if_pos rfl] at htl
    obtain ⟨l, k1, k2, k3⟩ := normalizeTransitions_ergodic m he htl (hw.prior he)
    generalize hM : ({ m with
      trans := l, prior := (List.range m.n).map fun i => m.prior.getD i 0 / ∑ j ∈ Finset.range m.n, m.prior.getD j 0 } : Hmm K) = M at k1
    have hst : ∀ i < m.n, ∀ j < m.n, step M i j = step m i j / ∑ k ∈ Finset.range m.n, step m i k := by
      intro i hi j hj
      rw [sum_step_ergodic m he i, ← hM]
      unfold step
      simp only [he, if_true]
      exact k3 i hi j hj
    have hsp : ∀ i < m.n, start M i = start m i / ∑ k ∈ Finset.range m.n, start m k := by
      intro i hi
      rw [← hM]
      unfold start
      simp only [he, if_true]
      exact getD_map_range' _ _ _ hi
    exact ⟨_, k1, by rw [← hM], by rw [← hM]; exact ⟨hw.pos, hw.sts, fun _ => by simp, by rw [k2]; exact hw.trans, hw.state⟩,
      key _ (by rw [← hM]) hst hsp, hst, hsp⟩

/-- C44, filtering set-up: `reset()` of a class with two states or more sets the probability of going from its last state to its first one to
    1/20 and leaves everything else as it is, so that the probabilities of leaving the last state no longer sum to 1 unless that one was 1/20. -/
theorem C44_reset_violated (m : Hmm K) (hm : m.Usable) (hs : m.Stochastic) (hn : 2 ≤ m.n) :
    ∃ m0, reset m = .ret () m0 ∧ (∀ i < m.n, start m0 i = start m i) ∧
      (∀ i < m.n, ∀ j < m.n, step m0 i j = if i = m.n - 1 ∧ j = 0 then 1 / 20 else step m i j) ∧
      (∀ i < m.n - 1, ∑ j ∈ Finset.range m.n, step m0 i j = 1) ∧
      ∑ j ∈ Finset.range m.n, step m0 (m.n - 1) j = 1 + (1 / 20 - step m (m.n - 1) 0) ∧
      (m0.Stochastic ↔ step m (m.n - 1) 0 = 1 / 20) := by
  obtain ⟨b, h1, _⟩ := reset_ret m hm
  have hc : ∀ i < m.n, ∀ j < m.n, step (cleared m b) i j = if i = m.n - 1 ∧ j = 0 then 1 / 20 else step m i j := by
    intro i hi j hj
    rw [step_cleared m hm.can.wf b i j hi hj]
    simp only [show 1 < m.n by omega, true_and]
  have hrow : ∀ i < m.n - 1, ∑ j ∈ Finset.range m.n, step (cleared m b) i j = 1 := by
    intro i hi
    rw [Finset.sum_congr rfl fun j hj => hc i (by omega) j (Finset.mem_range.1 hj),
      Finset.sum_congr rfl fun j _ => if_neg (show ¬ (i = m.n - 1 ∧ j = 0) by omega)]
    exact hs.step_sum i (by omega)
  have hlast : ∑ j ∈ Finset.range m.n, step (cleared m b) (m.n - 1) j = 1 + (1 / 20 - step m (m.n - 1) 0) := by
    have e := hs.step_sum (m.n - 1) (by omega)
    rw [Finset.sum_congr rfl fun j hj => hc (m.n - 1) (by omega) j (Finset.mem_range.1 hj)]
    obtain ⟨k, hk⟩ : ∃ k, m.n = k + 1 := ⟨m.n - 1, by omega⟩
    rw [← e, hk, Finset.sum_range_succ', Finset.sum_range_succ' (fun j => step m (k + 1 - 1) j)]
    rw [if_pos ⟨rfl, rfl⟩, Finset.sum_congr rfl fun j _ => if_neg (show ¬ (k + 1 - 1 = k + 1 - 1 ∧ j + 1 = 0) by omega)]
    ring
  refine ⟨_, h1, fun i _ => rfl, hc, hrow, hlast, fun h => ?_, fun h => ⟨hs.start_nonneg, hs.start_sum, fun i hi j hj => ?_, fun i hi => ?_⟩⟩
  · have := h.step_sum (m.n - 1) (show m.n - 1 < m.n by omega)
    have h2 : (1 : K) + (1 / 20 - step m (m.n - 1) 0) = 1 := hlast.symm.trans this
    linear_combination -h2
  · rw [hc i hi j hj]; split
    · norm_num
    · exact hs.step_nonneg i hi j hj
  · by_cases h' : i = m.n - 1
    · subst h'; exact hlast.trans (by rw [h]; ring)
    · exact hrow i (by have : i < m.n := hi; omega)

/-! ### Default parameters -/

theorem onStates_allocate (m : Hmm K) (ha : m.Admissible) :
    ∃ l, loop m.n () (fun _ i => onState i Gmm.allocate) (allocated m) = .ret () { allocated m with sts := l } ∧ l.length = m.n ∧
      ∀ s ∈ l, s.WF ∧ s.gaussians = m.gaussians ∧ s.mode = m.mode ∧ s.bimodal = m.bimodal ∧ s.dim = m.dim ∧ s.di = m.di ∧
        s.absReg = m.absReg ∧ s.relReg = m.relReg ∧ s.training = false := by
  obtain ⟨g, g1, g2⟩ := Gmm.allocate_ret (newState m) ha.gaussians ha.dim ha.di
  obtain ⟨l, h1, h2⟩ := eachState_ret (allocated m) Gmm.allocate (fun s s' => s' = { newState m with
      coeffs := resize (newState m).gaussians (newState m).coeffs, beta := resize (newState m).gaussians (newState m).beta,
      comps := List.replicate (newState m).gaussians g }) (fun s hs => by
    have : s = newState m := List.eq_of_mem_replicate hs
    subst this
    exact ⟨_, g1, rfl⟩)
  have hlen : (allocated m).sts.length = m.n := by simp [allocated]
  rw [hlen] at h1
  refine ⟨l, h1, by rw [← h2.length_eq, hlen], fun s hs => ?_⟩
  obtain ⟨i, hi, rfl⟩ := List.getElem_of_mem hs
  have hi' : i < (allocated m).sts.length := by rw [h2.length_eq]; exact hi
  have e := (List.forall₂_iff_get.1 h2).2 i hi' hi
  simp only [List.get_eq_getElem] at e
  rw [e]
  exact ⟨g2, rfl, rfl, rfl, rfl, rfl, rfl, rfl, rfl⟩

/-- `allocate()` of a class that is not part of a hierarchy -/
theorem allocate_ret (m : Hmm K) (ha : m.Admissible) (hf : m.hier = false) :
    ∃ m', allocate m = .ret () m' ∧ m'.WF ∧ m' = { allocated m with sts := m'.sts } ∧ ∀ s ∈ m'.sts, s.WF := by
  obtain ⟨l, h1, h2, h3⟩ := onStates_allocate m ha
  refine ⟨{ allocated m with sts := l }, ?_, ⟨ha.n, h2, fun he => ?_, ?_, fun s hs => ?_⟩, rfl, fun s hs => (h3 s hs).1⟩
  · unfold allocate
    have hlen : (allocated m).sts.length = m.n := by simp [allocated]
    rw [bind_of_ret (modify_def _ _), bind_of_ret (get_def _), hlen, bind_of_ret h1, if_neg (by simp [allocated, hf]), pure_def]
  · have he' : m.ergodic = true := he
    simp only [allocated, he', if_true, length_resize]
  · show (if m.ergodic then resize (m.n * m.n) m.trans else resize (m.n * 2) m.trans).length = if m.ergodic then m.n * m.n else m.n * 2
    split <;> exact length_resize _ _
  · obtain ⟨_, r⟩ := h3 s hs
    exact ⟨r.1, r.2.1, r.2.2.1, r.2.2.2.1, r.2.2.2.2.1⟩

theorem setLeftRight_ret (m : Hmm K) (hn : 1 ≤ m.n) :
    ∃ l, setLeftRight m = .ret () { m with trans := l } ∧ l.length = m.n * 2 ∧
      ∀ i < m.n, l.getD (i * 2) 0 = (if i = m.n - 1 then 1 else 1 / 2) ∧ l.getD (i * 2 + 1) 0 = (if i = m.n - 1 then 0 else 1 / 2) := by
  have hl : (List.replicate (m.n * 2) (1 / 2 : K)).length = m.n * 2 := by simp
  refine ⟨((List.replicate (m.n * 2) (1 / 2)).set ((m.n - 1) * 2) 1).set ((m.n - 1) * 2 + 1) 0, ?_, by simp, fun i hi => ?_⟩
  · unfold setLeftRight
    rw [bind_of_ret (modify_def _ _), bind_of_ret (get_def _)]
    rw [bind_of_ret (setTrans_ret _ _ _ (by simp; omega)), setTrans_ret _ _ _ (by simp; omega)]
  · rw [getD_set _ _ _ _ _ (by simp; omega), getD_set _ _ _ _ _ (by simp; omega), getD_set _ _ _ _ _ (by simp; omega),
      getD_set _ _ _ _ _ (by simp; omega)]
    have hr : ∀ c < m.n * 2, (List.replicate (m.n * 2) (1 / 2 : K)).getD c 0 = 1 / 2 := fun c hc => by
      rw [List.getD_eq_getElem?_getD, List.getElem?_replicate_of_lt hc, Option.getD_some]
    rw [hr _ (by omega), hr _ (by omega)]
    by_cases h : i = m.n - 1
    · subst h; simp
    · have e1 : ¬ i * 2 = (m.n - 1) * 2 + 1 := by omega
      have e2 : ¬ i * 2 = (m.n - 1) * 2 := by omega
      have e3 : ¬ i * 2 + 1 = (m.n - 1) * 2 + 1 := by omega
      have e4 : ¬ i * 2 + 1 = (m.n - 1) * 2 := by omega
      simp only [e1, e2, e3, e4, h, if_false, and_self]

theorem setErgodic_ret (m : Hmm K) (ht : m.trans.length = m.n * m.n) (hp : m.prior.length = m.n) :
    ∃ l p, setErgodic m = .ret () { m with trans := l, prior := p } ∧ l.length = m.n * m.n ∧ p.length = m.n ∧
      (∀ i < m.n, p.getD i 0 = 1 / (m.n : K)) ∧ ∀ i < m.n, ∀ j < m.n, l.getD (i * m.n + j) 0 = 1 / (m.n : K) := by
  obtain ⟨a, m', h1, l, p, rfl, h2, h3, h4, h5⟩ := loop_state m.n () (fun _ i => do
      setPrior i (1 / (m.n : K))
      loop m.n () (fun _ j => setTrans (i * m.n + j) (1 / (m.n : K)))) m
    (fun t _ m' => ∃ l p, m' = { m with trans := l, prior := p } ∧ l.length = m.n * m.n ∧ p.length = m.n ∧
      (∀ i < t, p.getD i 0 = 1 / (m.n : K)) ∧ ∀ i < t, ∀ j < m.n, l.getD (i * m.n + j) 0 = 1 / (m.n : K))
    ⟨m.trans, m.prior, rfl, ht, hp, fun i hi => by omega, fun i hi => by omega⟩ (by
      rintro t ht a m1 ⟨l, p, rfl, i1, i2, i3, i4⟩
      obtain ⟨a', m', k1, l', rfl, k2, k3, k4⟩ := loop_state m.n () (fun _ j => setTrans (t * m.n + j) (1 / (m.n : K)))
        ({ m with trans := l, prior := p.set t (1 / (m.n : K)) } : Hmm K)
        (fun s _ m' => ∃ l', m' = { m with trans := l', prior := p.set t (1 / (m.n : K)) } ∧ l'.length = m.n * m.n ∧
          (∀ i < t, ∀ j < m.n, l'.getD (i * m.n + j) 0 = 1 / (m.n : K)) ∧ ∀ j < s, l'.getD (t * m.n + j) 0 = 1 / (m.n : K))
        ⟨l, rfl, i1, i4, fun j hj => by omega⟩ (by
          rintro s hs a m2 ⟨l', rfl, j1, j2, j3⟩
          have hlt : t * m.n + s < l'.length := by
            rw [j1]
            calc t * m.n + s < t * m.n + m.n := by omega
              _ = (t + 1) * m.n := by ring
              _ ≤ _ := Nat.mul_le_mul_right _ ht
          refine ⟨(), _, setTrans_ret _ _ _ hlt, _, rfl, by simpa using j1, fun i hi j hj => ?_, fun j hj => ?_⟩
          · rw [getD_set _ _ _ _ _ hlt, j2 i hi j hj, ite_self]
          · rw [getD_set _ _ _ _ _ hlt]
            by_cases h : t * m.n + j = t * m.n + s
            · rw [if_pos h]
            · rw [if_neg h]; exact j3 j (by omega))
      refine ⟨a', _, ?_, l', p.set t (1 / (m.n : K)), rfl, k2, by simpa using i2, fun i hi => ?_, fun i hi j hj => ?_⟩
      · rw [bind_of_ret (setPrior_ret _ _ _ (by show t < p.length; omega))]
        exact k1
      · rw [getD_set _ _ _ _ _ (by omega)]
        by_cases h : i = t
        · rw [if_pos h]
        · rw [if_neg h]; exact i3 i (by omega)
      · by_cases h : i = t
        · subst h; exact k4 j hj
        · exact k3 i (by omega) j hj)
  refine ⟨l, p, ?_, h2, h3, h4, h5⟩
  unfold setErgodic
  rw [bind_of_ret (get_def m)]
  exact h1

/-- C44, default parameters: `allocate()`, then `initParametersToDefault(dataStddev)`: an ergodic model is uniform; each state of a left-right one
    stays or goes on with the same probability, the last one stays.  The start probabilities and the transition probabilities
    out of each state are distributions. -/
theorem C44_default_parameters (m : Hmm K) (ha : m.Admissible) (hf : m.hier = false) (sd : List K) (hs : sd.length = m.dim) :
    ∃ m1 m2, allocate m = .ret () m1 ∧ initParametersToDefault sd m1 = .ret () m2 ∧ m2.WF ∧ m2.Stochastic ∧ m2.n = m.n ∧
      (m.ergodic = true → ∀ i < m.n, start m2 i = 1 / (m.n : K) ∧ ∀ j < m.n, step m2 i j = 1 / (m.n : K)) ∧
      (m.ergodic = false → 2 ≤ m.n → ∀ i < m.n, ∀ j < m.n, step m2 i j =
        if i = m.n - 1 then (if j = i then 1 else 0) else if j = i ∨ j = i + 1 then 1 / 2 else 0) := by
  obtain ⟨m1, h1, hw, h2, h3⟩ := allocate_ret m ha hf
  have hn1 : m1.n = m.n := by rw [h2]; rfl
  have he1 : m1.ergodic = m.ergodic := by rw [h2]; rfl
  have hd1 : m1.dim = m.dim := by rw [h2]; rfl
  -- the states
  have hst : ∀ M : Hmm K, M.sts = m1.sts → M.n = m.n → ∃ l, loop m.n () (fun _ i => onState i (Gmm.initParametersToDefault sd)) M =
      .ret () { M with sts := l } ∧ l.length = m.n ∧
      ∀ s ∈ l, s.gaussians = m1.gaussians ∧ s.mode = m1.mode ∧ s.bimodal = m1.bimodal ∧ s.dim = m1.dim ∧ s.di = m1.di := by
    intro M hM hMn
    obtain ⟨l, k1, k2⟩ := eachState_ret M (Gmm.initParametersToDefault sd) (fun s s' => s'.gaussians = s.gaussians ∧ s'.mode = s.mode ∧
        s'.bimodal = s.bimodal ∧ s'.dim = s.dim ∧ s'.di = s.di) (fun s hs' => by
      rw [hM] at hs'
      obtain ⟨l, q1, _⟩ := Gmm.C36_default_parameters s (h3 s hs') sd (by rw [(hw.state s hs').2.2.2.1, hd1, hs])
      exact ⟨_, q1, rfl, rfl, rfl, rfl, rfl⟩)
    have hlen : M.sts.length = m.n := by rw [hM, hw.sts, hn1]
    rw [hlen] at k1
    refine ⟨l, k1, by rw [← k2.length_eq, hlen], fun s hs' => ?_⟩
    obtain ⟨i, hi, rfl⟩ := List.getElem_of_mem hs'
    have hi' : i < M.sts.length := by rw [k2.length_eq]; exact hi
    have r := (List.forall₂_iff_get.1 k2).2 i hi' hi
    have w := hw.state (M.sts[i]) (by rw [← hM]; exact List.getElem_mem hi')
    simp only [List.get_eq_getElem] at r
    exact ⟨r.1.trans w.1, r.2.1.trans w.2.1, r.2.2.1.trans w.2.2.1, r.2.2.2.1.trans w.2.2.2.1, r.2.2.2.2.trans w.2.2.2.2⟩
  have hnpos : (0 : K) < (m.n : K) := by exact_mod_cast ha.n
  rcases bool_cases m.ergodic with he | he
  · obtain ⟨l, k1, k2, k3⟩ := setLeftRight_ret m1 hw.pos
    obtain ⟨l', q1, q2, q3⟩ := hst { m1 with trans := l } rfl hn1
    generalize hM : ({ m1 with trans := l, sts := l' } : Hmm K) = M at q1
    have hMe : M.ergodic = false := by rw [← hM, ← he, ← he1]
    have hMn : M.n = m.n := by rw [← hM, ← hn1]
    have hrun : initParametersToDefault sd m1 = .ret () M := by
      unfold initParametersToDefault
      rw [bind_of_ret (get_def _), if_neg (by rw [he1, he]; simp), bind_of_ret k1]
      rw [← hn1] at q1
      exact q1
    have hcell : ∀ i < m.n, M.trans.getD (i * 2) 0 = (if i = m.n - 1 then 1 else 1 / 2) ∧
        M.trans.getD (i * 2 + 1) 0 = (if i = m.n - 1 then 0 else 1 / 2) := by
      intro i hi
      rw [← hn1] at hi ⊢
      rw [← hM]
      exact k3 i hi
    have hsl := start_leftRight M hMe (by rw [hMn]; exact ha.n)
    refine ⟨m1, M, h1, hrun, ?_, ⟨hsl.1, hsl.2, ?_, ?_⟩, hMn, fun h => ?_, fun _ hn i hi j hj => ?_⟩
    · rw [← hM]
      refine ⟨hw.pos, by rw [hn1]; exact q2, hw.prior, ?_, q3⟩
      show l.length = if m1.ergodic then _ else _
      rw [he1, he, if_neg (by simp), k2]
    · intro i hi j hj
      rw [hMn] at hi
      unfold step
      simp only [hMe, Bool.false_eq_true, if_false]
      obtain ⟨c0, c1⟩ := hcell i hi
      rw [c0, c1]
      refine add_nonneg ?_ ?_ <;> (split <;> [skip; exact le_rfl]) <;> split <;> norm_num
    · intro i hi
      rw [sum_step_leftRight M hMe i hi]
      rw [hMn] at hi
      obtain ⟨c0, c1⟩ := hcell i hi
      unfold rowSum
      rw [Finset.sum_range_succ, Finset.sum_range_one, Nat.add_zero, c0, c1]
      split <;> norm_num
    · rw [he] at h; cases h
    · obtain ⟨c0, c1⟩ := hcell i hi
      unfold step
      simp only [hMe, Bool.false_eq_true, if_false]
      rw [c0, c1, hMn]
      by_cases h : i = m.n - 1
      · simp [h]
      · rw [if_neg h, if_neg h, if_neg h, Nat.mod_eq_of_lt (by omega)]
        by_cases h1 : j = i
        · rw [if_pos h1, if_neg (by omega), if_pos (Or.inl h1), add_zero]
        · by_cases h2 : j = i + 1
          · rw [if_neg h1, if_pos h2, if_pos (Or.inr h2), zero_add]
          · rw [if_neg h1, if_neg h2, if_neg (by tauto), add_zero]
  · have htl := hw.trans
    rw [he1, he, if_pos rfl] at htl
    obtain ⟨l, p, k1, k2, k3, k4, k5⟩ := setErgodic_ret m1 htl (hw.prior (he1.trans he))
    obtain ⟨l', q1, q2, q3⟩ := hst { m1 with trans := l, prior := p } rfl hn1
    generalize hM : ({ m1 with trans := l, prior := p, sts := l' } : Hmm K) = M at q1
    have hMe : M.ergodic = true := by rw [← hM, ← he, ← he1]
    have hMn : M.n = m.n := by rw [← hM, ← hn1]
    have hrun : initParametersToDefault sd m1 = .ret () M := by
      unfold initParametersToDefault
      rw [bind_of_ret (get_def _), if_pos (by rw [he1, he]), bind_of_ret k1]
      rw [← hn1] at q1
      exact q1
    have e1 : ∀ i < m.n, start M i = 1 / (m.n : K) := by
      intro i hi
      unfold start
      rw [if_pos hMe, ← hn1, ← hM]
      exact k4 i (by rw [hn1]; exact hi)
    have e2 : ∀ i < m.n, ∀ j < m.n, step M i j = 1 / (m.n : K) := by
      intro i hi j hj
      unfold step
      rw [if_pos hMe, ← hn1, ← hM]
      exact k5 i (by rw [hn1]; exact hi) j (by rw [hn1]; exact hj)
    have hone : ∑ _j ∈ Finset.range m.n, (1 / (m.n : K)) = 1 := by
      rw [Finset.sum_const, Finset.card_range, nsmul_eq_mul, mul_one_div, div_self hnpos.ne']
    refine ⟨m1, M, h1, hrun, ?_, ⟨?_, ?_, ?_, ?_⟩, hMn, fun _ i hi => ⟨e1 i hi, e2 i hi⟩, fun h => ?_⟩
    · rw [← hM]
      refine ⟨hw.pos, by rw [hn1]; exact q2, fun _ => k3, ?_, q3⟩
      show l.length = if m1.ergodic then _ else _
      rw [he1, he, if_pos rfl, k2]
    · intro i hi; rw [hMn] at hi; rw [e1 i hi]; positivity
    · rw [hMn, Finset.sum_congr rfl fun i hi => e1 i (Finset.mem_range.1 hi)]; exact hone
    · intro i hi j hj; rw [hMn] at hi hj; rw [e2 i hi j hj]; positivity
    · intro i hi; rw [hMn] at hi ⊢; rw [Finset.sum_congr rfl fun j hj => e2 i hi j (Finset.mem_range.1 hj)]; exact hone
    · rw [he] at h; cases h

/-! ### C50 -/

theorem updateExit_ret (m : Hmm K) (hh : m.hier = true) (hn : 1 ≤ m.n) :
    updateExitProbabilities m = .ret () { m with exitP := (resize m.n m.exitP).set (m.n - 1) (1 / 10) } := by
  unfold updateExitProbabilities
  rw [bind_of_ret (get_def m), if_neg (by simp [hh]), bind_of_ret (rd_lt (by rw [length_resize]; omega) 0 m), set_def]
  rfl

/-- `allocate()` of a class of a hierarchy -/
theorem allocate_hier (m : Hmm K) (ha : m.Admissible) (hh : m.hier = true) :
    ∃ m', allocate m = .ret () m' ∧ m' = { allocated m with sts := m'.sts, exitP := (resize m.n m.exitP).set (m.n - 1) (1 / 10) } := by
  obtain ⟨l, h1, h2, h3⟩ := onStates_allocate m ha
  refine ⟨{ allocated m with sts := l, exitP := (resize m.n m.exitP).set (m.n - 1) (1 / 10) }, ?_, rfl⟩
  unfold allocate
  have hlen : (allocated m).sts.length = m.n := by simp [allocated]
  rw [bind_of_ret (modify_def _ _), bind_of_ret (get_def _), hlen, bind_of_ret h1, if_pos (by simp [allocated, hh]),
    updateExit_ret _ (by exact hh) (by exact ha.n)]
  rfl

/-- the operations that concern the exit probabilities of a class: `allocate()` at the start of each training, `updateExitProbabilities()` when the
    set of classes changes, `addExitPoint(state, proba)`, and a change of the number of states -/
inductive ExitOp (K : Type) where
  | allocate
  | update
  | add (i : Int) (p : K)
  | states (n : Nat)

def ExitOp.run : ExitOp K → Prog (Hmm K) Unit
  | .allocate => Hmm.allocate
  | .update => updateExitProbabilities
  | .add i p => addExitPoint i p
  | .states n => Prog.modify fun m => { m with n := n }

/-- a history of operations; one that throws leaves what it has done -/
def exitRun : List (ExitOp K) → Hmm K → Option (Hmm K)
  | [], m => some m
  | o :: os, m => match o.run m with
    | .ret _ m' => exitRun os m'
    | .throw _ m' => exitRun os m'
    | .ub => none

/-- the operations of a history during which the caller does not change the number of states -/
def ExitOp.Fixed (m : Hmm K) : ExitOp K → Prop
  | .states n => n = m.n
  | _ => True

theorem exitRun_inv (m0 : Hmm K) (ops : List (ExitOp K)) : ∀ m : Hmm K, m.Admissible → m.hier = true → m.n = m0.n →
    (m.exitP = [] ∨ m.exitP.length = m.n) → (∀ i, m.exitP.getD i 0 ≠ 0 → i = m.n - 1) → (∀ o ∈ ops, o.Fixed m0) →
    (∀ o ∈ ops, ∀ i p, o ≠ .add i p) →
    ∃ m', exitRun ops m = some m' ∧ m'.n = m0.n ∧ ∀ i, m'.exitP.getD i 0 ≠ 0 → i = m0.n - 1 := by
  induction ops with
  | nil => intro m _ _ hn _ h _ _; exact ⟨m, rfl, hn, by rw [← hn]; exact h⟩
  | cons o os ih =>
    intro m ha hh hn hl he hf hadd
    have hupd : ∀ i, ((resize m.n m.exitP).set (m.n - 1) (1 / 10)).getD i 0 ≠ 0 → i = m.n - 1 := by
      intro i hi
      rw [getD_set _ _ _ _ _ (by rw [length_resize]; have := ha.n; omega), getD_resize] at hi
      by_contra h
      rw [if_neg h] at hi
      split at hi
      · exact h (he i hi)
      · exact hi rfl
    have hf' : ∀ o ∈ os, o.Fixed m0 := fun o ho => hf o (List.mem_cons_of_mem _ ho)
    have ha' : ∀ o ∈ os, ∀ i p, o ≠ .add i p := fun o ho => hadd o (List.mem_cons_of_mem _ ho)
    unfold exitRun
    cases o with
    | allocate =>
      obtain ⟨m', h1, h2⟩ := allocate_hier m ha hh
      simp only [ExitOp.run, h1]
      refine ih m' ?_ ?_ ?_ (Or.inr ?_) ?_ hf' ha'
      · rw [h2]; exact ⟨ha.n, ha.gaussians, ha.dim, ha.di⟩
      · rw [h2]; exact hh
      · rw [h2]; exact hn
      · rw [h2]; simp [allocated, length_resize]
      · rw [h2]; exact hupd
    | update =>
      simp only [ExitOp.run, updateExit_ret m hh ha.n]
      exact ih _ ⟨ha.n, ha.gaussians, ha.dim, ha.di⟩ hh hn (Or.inr (by simp [length_resize])) hupd hf' ha'
    | add i p => exact absurd rfl (hadd _ List.mem_cons_self i p)
    | states n =>
      have : n = m.n := (hf _ List.mem_cons_self : n = m0.n).trans hn.symm
      subst this
      simp only [ExitOp.run, modify_def]
      exact ih _ ⟨ha.n, ha.gaussians, ha.dim, ha.di⟩ hh hn hl he hf' ha'

/-- C50: for a class of a hierarchy constructed with `n` states, after any history of (re)allocations and updates that does not change the number
    of states, in which the caller adds no exit point, at most the last state has a non-zero exit probability. -/
theorem C50_only_last_state_exits_partial (m : Hmm K) (ha : m.Admissible) (hh : m.hier = true) (hx : m.exitP = []) (ops : List (ExitOp K))
    (hf : ∀ o ∈ ops, o.Fixed m) (hadd : ∀ o ∈ ops, ∀ i p, o ≠ .add i p) :
    ∃ m', exitRun ops m = some m' ∧ m'.n = m.n ∧ ∀ i, m'.exitP.getD i 0 ≠ 0 → i = m.n - 1 :=
  exitRun_inv m ops m ha hh rfl (Or.inl hx) (fun i h => by simp [hx] at h) hf hadd

/-- C50: after `allocate()` (on a new class) the exit probability of the last state is 1/10 and that of each other state is 0. -/
theorem C50_default_exit (m : Hmm K) (ha : m.Admissible) (hh : m.hier = true) (hx : m.exitP = []) :
    ∃ m', allocate m = .ret () m' ∧ m'.exitP.length = m.n ∧ ∀ i < m.n, m'.exitP.getD i 0 = if i = m.n - 1 then 1 / 10 else 0 := by
  obtain ⟨m', h1, h2⟩ := allocate_hier m ha hh
  refine ⟨m', h1, by rw [h2]; simp [length_resize], fun i hi => ?_⟩
  rw [h2]
  simp only
  rw [getD_set _ _ _ _ _ (by rw [length_resize]; omega), getD_resize, if_pos hi, hx]
  rfl

/-- `addExitPoint(state, proba)` changes the exit probability of that state only; it refuses other states and models that are not hierarchical. -/
theorem C50_add_exit_point (m : Hmm K) (hl : m.exitP.length = m.n) (i : Int) (p : K) :
    (m.hier = false → addExitPoint i p m = .throw .runtimeError m) ∧
    (m.hier = true → (i < 0 ∨ (m.n : Int) ≤ i) → addExitPoint i p m = .throw .outOfRange m) ∧
    (m.hier = true → ∀ k : Nat, i = k → k < m.n → ∃ m', addExitPoint i p m = .ret () m' ∧ m' = { m with exitP := m'.exitP } ∧
      ∀ j, m'.exitP.getD j 0 = if j = k then p else m.exitP.getD j 0) := by
  refine ⟨fun h => ?_, fun h h' => ?_, fun h k hk hk' => ⟨{ m with exitP := m.exitP.set k p }, ?_, rfl, fun j => ?_⟩⟩
  · unfold addExitPoint; rw [bind_of_ret (get_def m), if_pos (by simp [h])]; rfl
  · unfold addExitPoint; rw [bind_of_ret (get_def m), if_neg (by simp [h]), if_pos h']; rfl
  · unfold addExitPoint
    rw [bind_of_ret (get_def m), if_neg (by simp [h]), if_neg (by omega), hk, Int.toNat_natCast, bind_of_ret (rd_lt (by omega) 0 m), set_def]
  · exact getD_set _ _ _ _ _ (by omega)

/-- C50 is false when the number of states grows: a class trained with `n` states, then set to `k > n` states and trained again, keeps the
    exit probability 1/10 of its former last state. -/
theorem C50_more_states_violated (m : Hmm K) (ha : m.Admissible) (hh : m.hier = true) (k : Nat) (hk : m.n < k) :
    ∃ m', exitRun [.allocate, .states k, .allocate] m = some m' ∧ m'.n = k ∧ m'.exitP.getD (m.n - 1) 0 = 1 / 10 ∧ m.n - 1 ≠ k - 1 := by
  have hn := ha.n
  obtain ⟨m1, h1, h2⟩ := allocate_hier m ha hh
  obtain ⟨m2, h3, h4⟩ := allocate_hier { m1 with n := k } (by rw [h2]; exact ⟨by show 1 ≤ k; omega, ha.gaussians, ha.dim, ha.di⟩) (by rw [h2]; exact hh)
  refine ⟨m2, ?_, by rw [h4]; rfl, ?_, by omega⟩
  · simp only [exitRun, ExitOp.run, h1, modify_def, h3]
  · rw [h4]
    simp only
    rw [getD_set _ _ _ _ _ (by rw [length_resize]; omega), if_neg (by omega), getD_resize, if_pos (by omega), h2]
    simp only
    rw [getD_set _ _ _ _ _ (by rw [length_resize]; omega), if_pos rfl]

/-- Non-vacuity for C44 and C50: admissible parameters. -/
example (h e : Bool) : ∃ m : Hmm ℚ, m.Admissible ∧ m.hier = h ∧ m.ergodic = e ∧ m.n = 3 ∧ m.bimodal = true ∧ m.exitP = [] :=
  ⟨{
    n := 3, gaussians := 2, ergodic := e, est := .full, absReg := 1 / 1000, relReg := 1 / 100, mode := .full, bimodal := true, dim := 2,
    di := 1, window := 4, sts := [], prior := [], trans := [], alpha := [], prevAlpha := [], beta := [], prevBeta := [], alpha0 := [],
    alpha1 := [], alpha2 := [], exitP := [], hier := h, started := false, training := false, winMin := 0, winMax := 0, winNorm := 0,
    buf := CBuf.construct 0 1 4, instant := 0, logLik := 0, progress := 0, exitLik := 0, exitRatio := 0, likeliest := 0, outVals := [],
    outCov := [] }, ⟨by simp, by simp, by simp, by simp⟩, rfl, rfl, rfl, rfl, rfl⟩

end Hmm
end Xmm
