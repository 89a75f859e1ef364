import Verif.Props.HmmStream
set_option linter.unusedSimpArgs false
set_option linter.unusedSectionVars false
/- C41, C42, C43, C46, C47, C70, C71: recognition with one hidden Markov model. -/
namespace Xmm
open Phrase (loop)
open Gauss (rd rd_lt)
open Prog (bind_def pure_def get_def set_def modify_def throw_def undef_def)
namespace Hmm
variable {K : Type} [Field K] [LinearOrder K] [IsStrictOrderedRing K]
open HmmSpec GmmSpec RecSpec

theorem setTrans_ret (m : Hmm K) (k : Nat) (x : K) (h : k < m.trans.length) :
    setTrans k x m = .ret () { m with trans := m.trans.set k x } := by
  unfold setTrans
  rw [bind_of_ret (get_def m), bind_of_ret (rd_lt h 0 m), set_def]

/-- the cell that `addCyclicTransition` writes -/
def cyclicCell (m : Hmm K) : Nat := if m.ergodic then (m.n - 1) * m.n else (m.n - 1) * 2 + 1

theorem cyclicCell_lt (m : Hmm K) (hw : m.WF) : cyclicCell m < m.trans.length := by
  unfold cyclicCell
  rw [hw.trans]
  have := hw.pos
  split
  · exact Nat.mul_lt_mul_of_pos_right (by omega) (by omega)
  · omega

theorem addCyclic_ret (m : Hmm K) (hw : m.WF) (hi : m.training = false) (p : K) :
    addCyclicTransition p m = .ret () { m with trans := if 1 < m.n then m.trans.set (cyclicCell m) p else m.trans } := by
  unfold addCyclicTransition
  rw [bind_of_ret (get_def m), bind_of_ret (checkTraining_idle hi)]
  have := cyclicCell_lt m hw
  unfold cyclicCell at this ⊢
  by_cases h : 1 < m.n
  · rw [if_pos h, if_pos h, if_pos h]
    by_cases he : m.ergodic = true
    · rw [if_pos he] at this ⊢
      rw [if_pos he, setTrans_ret _ _ _ this]
    · rw [if_neg he] at this ⊢
      rw [if_neg he, setTrans_ret _ _ _ this]
  · rw [if_neg h, if_neg h, if_neg h]
    split <;> rfl

/-- `reset()` sets the transition probability from the last state to the first one to `p` and nothing else -/
theorem step_cyclic (m : Hmm K) (hw : m.WF) (p : K) (hn : 1 < m.n) (i j : Nat) (hi : i < m.n) (hj : j < m.n) :
    step { m with trans := m.trans.set (cyclicCell m) p } i j = if i = m.n - 1 ∧ j = 0 then p else step m i j := by
  have hlt := cyclicCell_lt m hw
  unfold step
  unfold cyclicCell at hlt ⊢
  rcases bool_cases m.ergodic with he | he
  · simp only [he, Bool.false_eq_true, if_false] at hlt ⊢
    rw [getD_set _ _ _ _ _ hlt, getD_set _ _ _ _ _ hlt]
    rw [if_neg (show ¬ i * 2 = (m.n - 1) * 2 + 1 by omega)]
    by_cases h1 : i = m.n - 1
    · rw [if_pos (show i * 2 + 1 = (m.n - 1) * 2 + 1 by omega)]
      have h2 : (i + 1) % m.n = 0 := by rw [show i + 1 = m.n by omega, Nat.mod_self]
      rw [h2]
      by_cases h3 : j = 0
      · have : ¬ j = i := by omega
        simp only [h3, h1, if_true, and_self]
        rw [if_neg (by omega), zero_add]
      · simp only [h3, and_false, if_false]
    · rw [if_neg (show ¬ i * 2 + 1 = (m.n - 1) * 2 + 1 by omega)]
      simp only [h1, false_and, if_false]
  · simp only [he, if_true] at hlt ⊢
    rw [getD_set _ _ _ _ _ hlt]
    by_cases h : i = m.n - 1 ∧ j = 0
    · rw [if_pos h, if_pos (by rw [h.1, h.2, Nat.add_zero])]
    · rw [if_neg h, if_neg]
      intro e
      exact h (cell_inj (n := m.n) (k := i) (d := j) (k' := m.n - 1) (d' := 0) hj (by omega) (by omega))

/-- the model after `reset()`, up to its buffer -/
def cleared (m : Hmm K) (b : CBuf K 1) : Hmm K :=
  { m with buf := b, started := false, trans := if 1 < m.n then m.trans.set (cyclicCell m) (1 / 20) else m.trans }

theorem reset_ret (m : Hmm K) (hm : m.Usable) : ∃ b, reset m = .ret () (cleared m b) ∧ Logs b m.window [] := by
  obtain ⟨b, h1, h2⟩ := resetBuffer_ret hm.buf m.window hm.can.window
  refine ⟨b, ?_, h2⟩
  unfold reset
  rw [bind_of_ret (checkTraining_idle hm.can.idle), bind_of_ret (get_def m), bind_of_ret (onBuf_ret h1), bind_of_ret (modify_def _ _),
    if_neg (by simp [hm.flat])]
  have hw := hm.can.wf
  exact addCyclic_ret ({ m with buf := b, started := false } : Hmm K) ⟨hw.pos, hw.sts, hw.prior, hw.trans, hw.state⟩ hm.can.idle _

theorem step_cleared (m : Hmm K) (hw : m.WF) (b : CBuf K 1) (i j : Nat) (hi : i < m.n) (hj : j < m.n) :
    step (cleared m b) i j = if 1 < m.n ∧ i = m.n - 1 ∧ j = 0 then 1 / 20 else step m i j := by
  unfold cleared
  by_cases h : 1 < m.n
  · have := step_cyclic m hw (1 / 20) h i j hi hj
    rw [if_pos h]
    have e : step ({ m with buf := b, started := false, trans := m.trans.set (cyclicCell m) (1 / 20) } : Hmm K) i j =
      step ({ m with trans := m.trans.set (cyclicCell m) (1 / 20) } : Hmm K) i j := rfl
    rw [e, this]
    simp only [h, true_and]
  · rw [if_neg h, if_neg (by tauto)]
    rfl

theorem cleared_can (m : Hmm K) (hm : m.CanFilter) (b : CBuf K 1) : (cleared m b).CanFilter := by
  have hw := hm.wf
  have hs := step_cleared m hw b
  refine ⟨⟨hw.pos, hw.sts, hw.prior, ?_, hw.state⟩, ⟨hm.chain.start_nonneg, hm.chain.start_sum, ?_, ?_⟩, hm.idle, hm.window, hm.state⟩
  · unfold cleared
    simp only
    split <;> simp [hw.trans]
  · intro i hi j hj
    rw [hs i j hi hj]
    split
    · norm_num
    · exact hm.chain.step_nonneg i hi j hj
  · intro i hi
    by_cases h : 1 < m.n ∧ i = m.n - 1
    · calc (1 : K) / 20 = step (cleared m b) i 0 := by rw [hs i 0 hi hw.pos, if_pos ⟨h.1, h.2, rfl⟩]
        _ ≤ _ := Finset.single_le_sum (f := fun j => step (cleared m b) i j) (fun j hj => by
            rw [hs i j hi (Finset.mem_range.1 hj)]
            split
            · norm_num
            · exact hm.chain.step_nonneg i hi j (Finset.mem_range.1 hj)) (Finset.mem_range.2 hw.pos)
    · rw [show (cleared m b).n = m.n from rfl, Finset.sum_congr rfl fun j hj => hs i j hi (Finset.mem_range.1 hj)]
      rw [Finset.sum_congr rfl fun j _ => if_neg (fun hh => h ⟨hh.1, hh.2.1⟩)]
      exact hm.chain.step_sum i hi

theorem heard_nil (log : K → K) (m : Hmm K) (hm : m.CanFilter) (hs : m.started = false) (hl : Logs m.buf m.window [])
    (ha : m.ergodic = true → m.alpha.length = m.n) : Heard m log [] [] m :=
  ⟨⟨rfl, SameStates.refl _ hm.state⟩, by simp [hs], rfl, fun h => ha (h.resolve_left (by simp [hs])), by simpa using hl,
    fun h => absurd (hs.symm.trans h) (by simp), fun h => absurd (hs.symm.trans h) (by simp), fun p hp => by simp at hp,
    fun T h => by simp at h, fun T h => by simp at h⟩

/-- Recognition: `reset()`, then a stream of observations -/
theorem run_ret (D : Dens K) (hD : D.Sound) (log : K → K) (m : Hmm K) (hm : m.Usable) :
    ∃ (m0 : Hmm K) (b : List K → Nat → K) (v c : List K → Nat → List K), reset m = .ret () m0 ∧ (∃ bf, m0 = cleared m bf) ∧ m0.CanFilter ∧ (∀ x, m.Fits x → Emits D m0 x (b x)) ∧
      ∀ xs : List (List K), (∀ x ∈ xs, m.Fits x) → ∃ qs m', filterAll D log xs m0 = .ret qs m' ∧ Heard m0 log (xs.map b) qs m' ∧
        qs.length = xs.length ∧ ∀ pre x, xs = pre ++ [x] → ∃ qpre q mp, qs = qpre ++ [q] ∧ Heard m0 log (pre.map b) qpre mp ∧
          mp.Filtered log (qpre.map log) (b x) (v x) (c x) m' ∧ q = evidence mp (b x) ∧ (m.bimodal = true → Predicts D m0 x (v x) (c x)) := by
  obtain ⟨bf, h1, h2⟩ := reset_ret m hm
  have hc := cleared_can m hm.can bf
  obtain ⟨b, hb⟩ := emits_exist D hD _ hc
  obtain ⟨v, c, hv⟩ : ∃ v c : List K → Nat → List K, (cleared m bf).bimodal = true → ∀ x, (cleared m bf).Fits x →
      Predicts D (cleared m bf) x (v x) (c x) := by
    rcases bool_cases (cleared m bf).bimodal with h | h
    · exact ⟨fun _ _ => [], fun _ _ => [], fun h' => absurd (h.symm.trans h') (by simp)⟩
    · obtain ⟨v, c, hv⟩ := predicts_exist D hD _ hc h
      exact ⟨v, c, fun _ => hv⟩
  refine ⟨_, b, v, c, h1, ⟨bf, rfl⟩, hc, fun x hx => (hb x hx).1, fun xs hx => ?_⟩
  obtain ⟨qs, m', g1, g2, g3, g4⟩ := heard_all D log hc hm.flat b hb v c hv xs hx _ [] []
    (heard_nil log (cleared m bf) hc rfl h2 hm.alpha)
  refine ⟨qs, m', g1, by simpa using g2, g3, fun pre x hp => ?_⟩
  obtain ⟨qpre, q, mp, k1, k2, k3, k4, k5⟩ := g4 pre x hp
  exact ⟨qpre, q, mp, k1, by simpa using k3, by simpa using k4, k5, fun h => hv h x (hx x (by rw [hp]; simp))⟩

theorem heard_dist {m0 m : Hmm K} {log : K → K} {bs : List (Nat → K)} {ps : List K} (hd : Heard m0 log bs ps m) (hs : m.started = true) :
    IsDistribution m.alpha ∧ m.alpha.length = m0.n := by
  have hlen := hd.alen (Or.inl hs)
  refine ⟨⟨fun a ha => ?_, ?_⟩, hlen⟩
  · obtain ⟨i, hi, rfl⟩ := List.getElem_of_mem ha
    have := hd.nonneg hs i (by omega)
    rwa [List.getD_eq_getElem?_getD, List.getElem?_eq_getElem hi, Option.getD_some] at this
  · rw [Gmm.list_sum_getD, hlen]; exact hd.sum hs

/-- C41: after `reset()` and every non-empty stream of observations the state probabilities are a distribution over the states, and each
    likelihood returned is at least 1/(20·10^180): the branch for likelihoods below 1e-300 is never taken.  No call fails. -/
theorem C41_distribution (D : Dens K) (hD : D.Sound) (log : K → K) (m : Hmm K) (hm : m.Usable) (xs : List (List K))
    (hx : ∀ x ∈ xs, m.Fits x) (hne : xs ≠ []) :
    ∃ m0 ps m', reset m = .ret () m0 ∧ filterAll D log xs m0 = .ret ps m' ∧
      IsDistribution m'.alpha ∧ m'.alpha.length = m.n ∧ ps.length = xs.length ∧ ∀ p ∈ ps, 1 / (20 * 10 ^ 180) ≤ p := by
  obtain ⟨m0, b, v, c, h1, ⟨bf, h2⟩, h3, _, h4⟩ := run_ret D hD log m hm
  obtain ⟨ps, m', g1, g2, g3, _⟩ := h4 xs hx
  have hs : m'.started = true := by rw [g2.started]; cases xs with
    | nil => exact absurd rfl hne
    | cons _ _ => rfl
  obtain ⟨d1, d2⟩ := heard_dist g2 hs
  exact ⟨m0, ps, m', h1, g1, d1, by rw [d2, h2]; rfl, g3, g2.pos⟩

/-- C42: after `reset()` and a stream of `T + 1` observations the product of the likelihoods returned by `filter` is the sum over all the
    sequences of `T + 1` states of start, transition and observation probabilities; and the probability of a state is the part of that sum in
    which it is the last one.  `b x i` is the likelihood of the observation `x` in state `i`.  The transition probabilities are those of the
    model after `reset()`. -/
theorem C42_sequence_likelihood (D : Dens K) (hD : D.Sound) (log : K → K) (m : Hmm K) (hm : m.Usable) :
    ∃ m0, ∃ b : List K → Nat → K, reset m = .ret () m0 ∧ (∀ x, m.Fits x → Emits D m x (b x)) ∧
      (∀ i, start m0 i = start m i) ∧
      (∀ i < m.n, ∀ j < m.n, step m0 i j = if 1 < m.n ∧ i = m.n - 1 ∧ j = 0 then 1 / 20 else step m i j) ∧
      ∀ (xs : List (List K)) (T : Nat), (∀ x ∈ xs, m.Fits x) → xs.length = T + 1 →
        ∃ ps m', filterAll D log xs m0 = .ret ps m' ∧
          ps.prod = total m.n (start m0) (step m0) (fun t => b (xs.getD t [])) T ∧ 0 < ps.prod ∧
          ∀ j < m.n, m'.alpha.getD j 0 = endingIn m.n (start m0) (step m0) (fun t => b (xs.getD t [])) T j /
            total m.n (start m0) (step m0) (fun t => b (xs.getD t [])) T := by
  obtain ⟨m0, b, v, c, h1, ⟨bf, h2⟩, h3, h5, h4⟩ := run_ret D hD log m hm
  have hn : m0.n = m.n := by rw [h2]; rfl
  refine ⟨m0, b, h1, fun x hx => ?_, fun i => by rw [h2]; rfl, fun i hi j hj => by rw [h2]; exact step_cleared m hm.can.wf bf i j hi hj,
    fun xs T hx hT => ?_⟩
  · have := h5 x hx; rw [h2] at this; exact this
  · obtain ⟨ps, m', g1, g2, g3, _⟩ := h4 xs hx
    have hlike : ∀ t ≤ T, like (xs.map b) t = b (xs.getD t []) := by
      intro t ht
      unfold like
      rw [List.getD_eq_getElem?_getD, List.getElem?_map, List.getElem?_eq_getElem (by omega), List.getD_eq_getElem?_getD,
        List.getElem?_eq_getElem (by omega)]
      rfl
    have hp : 0 < ps.prod := List.prod_pos fun p hp => lt_of_lt_of_le (by positivity) (g2.pos p hp)
    have e1 := g2.prod T (by simpa using hT)
    rw [hn, total_congr _ _ _ hlike] at e1
    refine ⟨ps, m', g1, e1, hp, fun j hj => ?_⟩
    have e2 := g2.alpha T (by simpa using hT) j (by omega)
    rw [hn, total_congr _ _ _ hlike, endingIn_congr _ _ _ hlike] at e2
    rw [← e2, mul_div_assoc, div_self (by rw [← e1]; exact hp.ne'), mul_one]

theorem endingIn_leftRight {m : Hmm K} (he : m.ergodic = false) (b : Nat → Nat → K) (T : Nat) :
    ∀ j < m.n, T < j → endingIn m.n (start m) (step m) b T j = 0 := by
  induction T with
  | zero =>
    intro j hj h
    rw [endingIn_zero _ _ _ _ _ hj]
    simp [start, he, show j ≠ 0 by omega]
  | succ T ih =>
    intro j hj h
    rw [endingIn_succ _ _ _ _ _ _ hj, Finset.sum_eq_zero, zero_mul]
    intro i hi
    have hi := Finset.mem_range.1 hi
    by_cases hTi : T < i
    · rw [ih i hi hTi, zero_mul]
    · have h1 : ¬ j = (i + 1) % m.n := by
        rw [Nat.mod_eq_of_lt (by omega)]; omega
      simp only [step, he, Bool.false_eq_true, if_false]
      rw [if_neg (by omega), if_neg h1, add_zero, mul_zero]

/-- C43: after `reset()` and `t` observations, every state of a left-right model with an index of at least `t` has probability 0. -/
theorem C43_one_state_per_frame (D : Dens K) (hD : D.Sound) (log : K → K) (m : Hmm K) (hm : m.Usable) (he : m.ergodic = false)
    (xs : List (List K)) (hx : ∀ x ∈ xs, m.Fits x) (hne : xs ≠ []) :
    ∃ m0 ps m', reset m = .ret () m0 ∧ filterAll D log xs m0 = .ret ps m' ∧
      ∀ j < m.n, xs.length ≤ j → m'.alpha.getD j 0 = 0 := by
  obtain ⟨m0, b, v, c, h1, ⟨bf, h2⟩, h3, _, h4⟩ := run_ret D hD log m hm
  obtain ⟨ps, m', g1, g2, g3, _⟩ := h4 xs hx
  have hn : m0.n = m.n := by rw [h2]; rfl
  refine ⟨m0, ps, m', h1, g1, fun j hj hl => ?_⟩
  obtain ⟨T, hT⟩ : ∃ T, xs.length = T + 1 := ⟨xs.length - 1, by have := List.length_pos_iff.2 hne; omega⟩
  have hp : 0 < ps.prod := List.prod_pos fun p hp => lt_of_lt_of_le (by positivity) (g2.pos p hp)
  have e1 := g2.prod T (by simpa using hT)
  have e2 := g2.alpha T (by simpa using hT) j (by omega)
  rw [endingIn_leftRight (by rw [h2]; exact he) _ _ j (by omega) (by omega), ← e1] at e2
  exact (mul_eq_zero.1 e2).resolve_right hp.ne'

/-- C70: after `reset()` and a stream of observations, the log-likelihood of a class is the average of the logarithms of the last
    `likelihood_window` likelihoods returned by `filter` (of all of them if there were fewer), and the instantaneous likelihood is the last one. -/
theorem C70_class_smoothed_likelihood (D : Dens K) (hD : D.Sound) (log : K → K) (m : Hmm K) (hm : m.Usable) (xs : List (List K))
    (hx : ∀ x ∈ xs, m.Fits x) (hne : xs ≠ []) :
    ∃ m0 ps m', reset m = .ret () m0 ∧ filterAll D log xs m0 = .ret ps m' ∧ ps.length = xs.length ∧
      m'.results.logLik = avgLast m.window (ps.map log) ∧ ps.getLast? = some m'.results.instant := by
  obtain ⟨m0, b, v, c, h1, ⟨bf, h2⟩, h3, _, h4⟩ := run_ret D hD log m hm
  obtain ⟨ps, m', g1, g2, g3, g4⟩ := h4 xs hx
  obtain ⟨qpre, q, mp, k1, k2, k3, k4, _⟩ := g4 xs.dropLast (xs.getLast hne) (List.dropLast_append_getLast hne).symm
  refine ⟨m0, ps, m', h1, g1, g3, ?_, ?_⟩
  · show m'.logLik = _
    rw [k3.logLik, k1, k4, k2.same.facts.2.2.2.2.1, h2, List.map_append]; rfl
  · rw [k1]
    show _ = some m'.instant
    rw [k3.instant, k4]; simp

section Window
variable {m : Hmm K}

theorem windowed_bounds (h : Windowed m) (hn : 2 ≤ m.n) : m.winMin ≤ m.likeliest ∧ m.likeliest < m.winMax ∧ m.winMax ≤ m.n := by
  have := h.likeliest.1
  rw [h.lo, h.hi]
  omega

theorem winNorm_pos (h : Windowed m) (hn : 2 ≤ m.n) (h0 : ∀ i < m.n, 0 ≤ occ m i) (hs : 0 < ∑ i ∈ Finset.range m.n, occ m i) :
    0 < m.winNorm := by
  obtain ⟨b1, b2, b3⟩ := windowed_bounds h hn
  have hl : 0 < occ m m.likeliest := by
    rcases (h0 _ h.likeliest.1).lt_or_eq with h' | h'
    · exact h'
    · exfalso
      have : ∑ i ∈ Finset.range m.n, occ m i ≤ 0 := Finset.sum_nonpos fun i hi => by
        rw [h']; exact h.likeliest.2.1 i (Finset.mem_range.1 hi)
      linarith
  rw [h.norm]
  refine lt_of_lt_of_le hl (Finset.single_le_sum (f := fun i => occ m i) (fun i hi => h0 i ?_) (Finset.mem_Ico.2 ⟨b1, b2⟩))
  have := (Finset.mem_Ico.1 hi).2; omega

theorem progress_bounds (h : Windowed m) (h0 : ∀ i < m.n, 0 ≤ occ m i) :
    0 ≤ (∑ i ∈ Finset.Ico m.winMin m.winMax, occ m i * (i : K) / m.winNorm) / (if m.n - 1 = 0 then 1 else ((m.n - 1 : Nat) : K)) ∧
    (∑ i ∈ Finset.Ico m.winMin m.winMax, occ m i * (i : K) / m.winNorm) / (if m.n - 1 = 0 then 1 else ((m.n - 1 : Nat) : K)) ≤ 1 := by
  have hhi : m.winMax ≤ m.n := by rw [h.hi]; exact min_le_right _ _
  have hz : 0 ≤ m.winNorm := by
    rw [h.norm]; exact Finset.sum_nonneg fun i hi => h0 i (by have := (Finset.mem_Ico.1 hi).2; omega)
  have hnn : 0 ≤ ∑ i ∈ Finset.Ico m.winMin m.winMax, occ m i * (i : K) / m.winNorm := Finset.sum_nonneg fun i hi =>
    div_nonneg (mul_nonneg (h0 i (by have := (Finset.mem_Ico.1 hi).2; omega)) (Nat.cast_nonneg i)) hz
  by_cases hn : m.n - 1 = 0
  · rw [if_pos hn]
    have : m.winMax ≤ m.winMin := by
      have := h.likeliest.1
      rw [h.hi, h.lo]
      have : m.n / 2 = 0 := by omega
      omega
    rw [Finset.Ico_eq_empty (by omega), Finset.sum_empty]; simp
  · rw [if_neg hn]
    have hpos : (0 : K) < ((m.n - 1 : Nat) : K) := Nat.cast_pos.2 (by omega)
    refine ⟨div_nonneg hnn hpos.le, ?_⟩
    rw [div_le_one hpos]
    calc ∑ i ∈ Finset.Ico m.winMin m.winMax, occ m i * (i : K) / m.winNorm
        ≤ ∑ i ∈ Finset.Ico m.winMin m.winMax, occ m i / m.winNorm * ((m.n - 1 : Nat) : K) := Finset.sum_le_sum fun i hi => by
          have hi' := Finset.mem_Ico.1 hi
          rw [mul_div_right_comm]
          exact mul_le_mul_of_nonneg_left (Nat.cast_le.2 (by omega)) (div_nonneg (h0 i (by omega)) hz)
      _ = m.winNorm / m.winNorm * ((m.n - 1 : Nat) : K) := by rw [← Finset.sum_mul, ← Finset.sum_div, ← h.norm]
      _ ≤ 1 * ((m.n - 1 : Nat) : K) := mul_le_mul_of_nonneg_right (div_self_le_one _) hpos.le
      _ = _ := one_mul _

end Window

theorem occ_nonneg {m0 m : Hmm K} {log : K → K} {bs : List (Nat → K)} {ps : List K} (hd : Heard m0 log bs ps m) (hs : m.started = true)
    (hh : m0.hier = false) : (∀ i < m.n, 0 ≤ occ m i) ∧ ∑ i ∈ Finset.range m.n, occ m i = 1 := by
  obtain ⟨e1, _, _, _, _, e6, _⟩ := hd.same.facts
  have ho : ∀ i, occ m i = m.alpha.getD i 0 := fun i => by simp [occ, e6, hh]
  simp only [ho, e1]
  exact ⟨hd.nonneg hs, hd.sum hs⟩

/-- C46, outside a hierarchy: the time progression is between 0 and 1 after every observation. -/
theorem C46_progress_partial (D : Dens K) (hD : D.Sound) (log : K → K) (m : Hmm K) (hm : m.Usable) (xs : List (List K))
    (hx : ∀ x ∈ xs, m.Fits x) (hne : xs ≠ []) :
    ∃ m0 ps m', reset m = .ret () m0 ∧ filterAll D log xs m0 = .ret ps m' ∧ 0 ≤ m'.progress ∧ m'.progress ≤ 1 := by
  obtain ⟨m0, b, v, c, h1, ⟨bf, h2⟩, h3, _, h4⟩ := run_ret D hD log m hm
  obtain ⟨ps, m', g1, g2, g3, g4⟩ := h4 xs hx
  obtain ⟨qpre, q, mp, k1, k2, k3, k4, _⟩ := g4 xs.dropLast (xs.getLast hne) (List.dropLast_append_getLast hne).symm
  refine ⟨m0, ps, m', h1, g1, ?_⟩
  have := progress_bounds k3.windowed (occ_nonneg g2 k3.started (by rw [h2]; exact hm.flat)).1
  rw [k3.progress, ← (k3.same.facts).1]
  exact this

/-- C47: with at least two states, after every observation the window lies inside the states and contains the likeliest state.  It covers half
    the states on each side of it. -/
theorem C47_window_partial (D : Dens K) (hD : D.Sound) (log : K → K) (m : Hmm K) (hm : m.Usable) (hn : 2 ≤ m.n) (xs : List (List K))
    (hx : ∀ x ∈ xs, m.Fits x) (hne : xs ≠ []) :
    ∃ m0 ps m', reset m = .ret () m0 ∧ filterAll D log xs m0 = .ret ps m' ∧
      (∀ j < m.n, m'.alpha.getD j 0 ≤ m'.alpha.getD m'.likeliest 0) ∧ (∀ j < m'.likeliest, m'.alpha.getD j 0 < m'.alpha.getD m'.likeliest 0) ∧
      m'.winMin ≤ m'.likeliest ∧ m'.likeliest < m'.winMax ∧ m'.winMax ≤ m.n ∧
      ∀ i < m.n, (m'.winMin ≤ i ∧ i < m'.winMax ↔ m'.likeliest ≤ i + m.n / 2 ∧ i < m'.likeliest + m.n / 2) := by
  obtain ⟨m0, b, v, c, h1, ⟨bf, h2⟩, h3, _, h4⟩ := run_ret D hD log m hm
  obtain ⟨ps, m', g1, g2, g3, g4⟩ := h4 xs hx
  obtain ⟨qpre, q, mp, k1, k2, k3, k4, _⟩ := g4 xs.dropLast (xs.getLast hne) (List.dropLast_append_getLast hne).symm
  have hn' : m'.n = m.n := by rw [(g2.same.facts).1, h2]; rfl
  have ho : ∀ i, occ m' i = m'.alpha.getD i 0 := fun i => by
    have : m'.hier = false := by rw [g2.same.facts.2.2.2.2.2.1, h2]; exact hm.flat
    simp [occ, this]
  obtain ⟨b1, b2, b3⟩ := windowed_bounds k3.windowed (by omega)
  obtain ⟨l1, l2, l3⟩ := k3.windowed.likeliest
  have hlo := k3.windowed.lo; have hhi := k3.windowed.hi
  refine ⟨m0, ps, m', h1, g1, fun j hj => by rw [← ho, ← ho]; exact l2 j (by omega), fun j hj => by rw [← ho, ← ho]; exact l3 j hj,
    b1, b2, by omega, fun i hi => ?_⟩
  rw [hlo, hhi, hn']
  omega

/-- C47 is false for a model with one state: the window is empty. -/
theorem C47_one_state_violated (D : Dens K) (hD : D.Sound) (log : K → K) (m : Hmm K) (hm : m.Usable) (hn : m.n = 1) (xs : List (List K))
    (hx : ∀ x ∈ xs, m.Fits x) (hne : xs ≠ []) :
    ∃ m0 ps m', reset m = .ret () m0 ∧ filterAll D log xs m0 = .ret ps m' ∧ m'.likeliest = 0 ∧ m'.winMin = 0 ∧ m'.winMax = 0 := by
  obtain ⟨m0, b, v, c, h1, ⟨bf, h2⟩, h3, _, h4⟩ := run_ret D hD log m hm
  obtain ⟨ps, m', g1, g2, g3, g4⟩ := h4 xs hx
  obtain ⟨qpre, q, mp, k1, k2, k3, k4, _⟩ := g4 xs.dropLast (xs.getLast hne) (List.dropLast_append_getLast hne).symm
  have hn' : m'.n = 1 := by rw [(g2.same.facts).1, h2]; exact hn
  have := k3.windowed.likeliest.1
  refine ⟨m0, ps, m', h1, g1, by omega, ?_, ?_⟩
  · rw [k3.windowed.lo, hn']; omega
  · rw [k3.windowed.hi, hn']; simp; omega

end Hmm
end Xmm
