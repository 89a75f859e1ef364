import Verif.Props.HmmFilter
set_option linter.unusedSimpArgs false
set_option linter.unusedSectionVars false
/- Streams of observations: the invariant behind C41, C42, C43, C70. -/
namespace Xmm
namespace HmmSpec
variable {K : Type} [Field K] [LinearOrder K] [IsStrictOrderedRing K]

theorem pathWeight_congr {n : Nat} (π : Nat → K) (A : Nat → Nat → K) {b b' : Nat → Nat → K} {T : Nat} (h : ∀ t ≤ T, b t = b' t)
    (s : Fin (T + 1) → Fin n) : pathWeight π A b s = pathWeight π A b' s := by
  unfold pathWeight
  congr 1
  exact Finset.prod_congr rfl fun t _ => by rw [h t (by omega)]

theorem endingIn_congr (n : Nat) (π : Nat → K) (A : Nat → Nat → K) {b b' : Nat → Nat → K} {T : Nat} (h : ∀ t ≤ T, b t = b' t) (j : Nat) :
    endingIn n π A b T j = endingIn n π A b' T j :=
  Finset.sum_congr rfl fun s _ => by rw [pathWeight_congr π A h]

theorem total_congr (n : Nat) (π : Nat → K) (A : Nat → Nat → K) {b b' : Nat → Nat → K} {T : Nat} (h : ∀ t ≤ T, b t = b' t) :
    total n π A b T = total n π A b' T :=
  Finset.sum_congr rfl fun s _ => by rw [pathWeight_congr π A h]

end HmmSpec

open Phrase (loop)
open Gauss (rd rd_lt)
open Prog (bind_def pure_def get_def set_def modify_def throw_def undef_def)
namespace Hmm
variable {K : Type} [Field K] [LinearOrder K] [IsStrictOrderedRing K]
open HmmSpec GmmSpec RecSpec

/-- the likelihoods by observation number -/
def like (bs : List (Nat → K)) (t : Nat) : Nat → K := bs.getD t fun _ => 0

theorem SameModel.facts {m m' : Hmm K} (h : m.SameModel m') : m'.n = m.n ∧ m'.ergodic = m.ergodic ∧ start m' = start m ∧ step m' = step m ∧
    m'.window = m.window ∧ m'.hier = m.hier ∧ m'.bimodal = m.bimodal ∧ m'.training = m.training ∧ m'.dim = m.dim ∧ m'.di = m.di ∧
    m'.mode = m.mode ∧ m'.est = m.est := by
  rw [h.1]
  exact ⟨rfl, rfl, rfl, rfl, rfl, rfl, rfl, rfl, rfl, rfl, rfl, rfl⟩

theorem SameModel.canFilter {m m' : Hmm K} (h : m.SameModel m') (hm : m.CanFilter) : m'.CanFilter := by
  have hst : ∀ s' ∈ m'.sts, ∃ s ∈ m.sts, Gmm.SameModel s s' ∧ s'.CanFilter ∧ ∃ w hist, Logs s'.buf w hist := by
    intro s' hs'
    obtain ⟨i, hi, rfl⟩ := List.getElem_of_mem hs'
    have hi' : i < m.sts.length := by rw [← h.2.1]; exact hi
    exact ⟨_, List.getElem_mem hi', h.2.2 i _ _ (List.getElem?_eq_getElem hi') (List.getElem?_eq_getElem hi)⟩
  have hlen := h.2.1
  have e := h.1
  refine ⟨⟨?_, ?_, ?_, ?_, ?_⟩, ⟨?_, ?_, ?_, ?_⟩, ?_, ?_, fun s' hs' => ?_⟩
  · rw [e]; exact hm.wf.pos
  · rw [hlen, hm.wf.sts, e]
  · rw [e]; exact hm.wf.prior
  · rw [e]; exact hm.wf.trans
  · intro s' hs'
    obtain ⟨s, h1, h2, _⟩ := hst s' hs'
    obtain ⟨f1, f2, f3, f4, f5, _, _⟩ := h2.fields
    rw [f1, f2, f3, f4, f5, e]
    exact hm.wf.state s h1
  · rw [e]; exact hm.chain.start_nonneg
  · rw [e]; exact hm.chain.start_sum
  · rw [e]; exact hm.chain.step_nonneg
  · rw [e]; exact hm.chain.step_sum
  · rw [e]; exact hm.idle
  · rw [e]; exact hm.window
  · obtain ⟨s, _, _, h3⟩ := hst s' hs'; exact h3

theorem SameModel.fits {m m' : Hmm K} (h : m.SameModel m') {x : List K} (hx : m.Fits x) : m'.Fits x := by
  unfold Fits at *
  obtain ⟨_, _, _, _, _, _, e1, _, e2, e3, _⟩ := h.facts
  rw [e1, e2, e3]; exact hx

theorem SameModel.emits {m m' : Hmm K} (h : m.SameModel m') {D : Dens K} {x : List K} {b : Nat → K} (hb : Emits D m x b) :
    Emits D m' x b := by
  intro i s' hs'
  have hi : i < m.sts.length := by rw [← h.2.1]; exact (List.getElem?_eq_some_iff.1 hs').1
  have hs := List.getElem?_eq_getElem hi
  obtain ⟨f1, f2, _, _, _, f6, f7⟩ := (h.2.2 i _ _ hs hs').1.fields
  obtain ⟨d, h1, h2⟩ := hb i _ hs
  refine ⟨d, fun c g hg => ?_, by rw [f1, f7]; exact h2⟩
  rw [f6] at hg; rw [f2]; exact h1 c g hg

theorem SameModel.predicts {m m' : Hmm K} (h : m.SameModel m') {D : Dens K} {x : List K} {v c : Nat → List K} (hv : Predicts D m x v c) :
    Predicts D m' x v c := by
  intro i s' hs'
  have hi : i < m.sts.length := by rw [← h.2.1]; exact (List.getElem?_eq_some_iff.1 hs').1
  have hs := List.getElem?_eq_getElem hi
  obtain ⟨f1, f2, _, _, _, f6, f7⟩ := (h.2.2 i _ _ hs hs').1.fields
  obtain ⟨d, y, h1, h2, h3, h4⟩ := hv i _ hs
  obtain ⟨_, _, _, _, _, _, e1, _, e2, e3, e4, _⟩ := h.facts
  refine ⟨d, y, fun c g hg => ?_, fun c g hg => ?_, ?_, ?_⟩
  · rw [f6] at hg; rw [f2]; exact h1 c g hg
  · rw [f6] at hg; exact h2 c g hg
  · rw [f1, f7, e2, e3]; exact h3
  · rw [f1, f6, f7, e2, e3, e4]; exact h4

theorem SameModel.trans {a b c : Hmm K} (h : a.SameModel b) (h' : b.SameModel c) : a.SameModel c := by
  refine ⟨?_, ?_⟩
  · rw [h'.1, h.1]
  · refine ⟨by rw [h'.2.1, h.2.1], fun i s s' h1 h2 => ?_⟩
    have hi : i < b.sts.length := by rw [h.2.1]; exact (List.getElem?_eq_some_iff.1 h1).1
    have hb := List.getElem?_eq_getElem hi
    obtain ⟨p1, p2⟩ := h'.2.2 i _ _ hb h2
    exact ⟨(h.2.2 i _ _ h1 hb).1.trans p1, p2⟩

/-- The state of the model after it received observations with the likelihoods `bs` since `reset()`, having returned `ps`; `m0` is the model after
    the reset. -/
structure Heard (m0 : Hmm K) (log : K → K) (bs : List (Nat → K)) (ps : List K) (m : Hmm K) : Prop where
  same : m0.SameModel m
  started : m.started = !bs.isEmpty
  len : ps.length = bs.length
  alen : m.started = true ∨ m.ergodic = true → m.alpha.length = m0.n
  logs : Logs m.buf m0.window (ps.map log)
  nonneg : m.started = true → ∀ j < m0.n, 0 ≤ m.alpha.getD j 0
  sum : m.started = true → ∑ j ∈ Finset.range m0.n, m.alpha.getD j 0 = 1
  pos : ∀ p ∈ ps, 1 / (20 * 10 ^ 180) ≤ p
  prod : ∀ T, bs.length = T + 1 → ps.prod = total m0.n (start m0) (step m0) (like bs) T
  alpha : ∀ T, bs.length = T + 1 → ∀ j < m0.n,
    m.alpha.getD j 0 * total m0.n (start m0) (step m0) (like bs) T = endingIn m0.n (start m0) (step m0) (like bs) T j

theorem norm_ge {m0 m : Hmm K} {log : K → K} {bs : List (Nat → K)} {ps : List K} (hm : m0.CanFilter) (hd : Heard m0 log bs ps m) (b : Nat → K)
    (hbp : ∀ i < m0.n, 1 / 10 ^ 180 ≤ b i) :
    (∀ j < m0.n, 0 ≤ weight m b j) ∧ 1 / (20 * 10 ^ 180) ≤ evidence m b := by
  obtain ⟨e1, e2, e3, e4, _⟩ := hd.same.facts
  have h180 : (0 : K) < 1 / 10 ^ 180 := by positivity
  unfold evidence weight
  rw [e1, e3, e4]
  rcases bool_cases m.started with h | h
  · simp only [h, Bool.false_eq_true, if_false]
    refine ⟨fun j hj => mul_nonneg (hm.chain.start_nonneg j hj) (h180.le.trans (hbp j hj)), ?_⟩
    calc (1 : K) / (20 * 10 ^ 180) ≤ 1 / 10 ^ 180 := by
            apply one_div_le_one_div_of_le (by positivity); nlinarith [show (0 : K) < 10 ^ 180 by positivity]
      _ = ∑ j ∈ Finset.range m0.n, start m0 j * (1 / 10 ^ 180) := by rw [← Finset.sum_mul, hm.chain.start_sum, one_mul]
      _ ≤ _ := Finset.sum_le_sum fun j hj =>
          mul_le_mul_of_nonneg_left (hbp j (Finset.mem_range.1 hj)) (hm.chain.start_nonneg j (Finset.mem_range.1 hj))
  · simp only [h, if_true]
    have hnn := hd.nonneg h
    have hin : ∀ j < m0.n, 0 ≤ ∑ i ∈ Finset.range m0.n, m.alpha.getD i 0 * step m0 i j := fun j hj =>
      Finset.sum_nonneg fun i hi => mul_nonneg (hnn i (Finset.mem_range.1 hi)) (hm.chain.step_nonneg i (Finset.mem_range.1 hi) j hj)
    refine ⟨fun j hj => mul_nonneg (hin j hj) (h180.le.trans (hbp j hj)), ?_⟩
    calc (1 : K) / (20 * 10 ^ 180) = (∑ i ∈ Finset.range m0.n, m.alpha.getD i 0 * (1 / 20)) * (1 / 10 ^ 180) := by
            rw [← Finset.sum_mul, hd.sum h, one_mul, one_div_mul_one_div]
      _ ≤ (∑ i ∈ Finset.range m0.n, m.alpha.getD i 0 * ∑ j ∈ Finset.range m0.n, step m0 i j) * (1 / 10 ^ 180) := by
            refine mul_le_mul_of_nonneg_right (Finset.sum_le_sum fun i hi => ?_) h180.le
            exact mul_le_mul_of_nonneg_left (hm.chain.step_sum i (Finset.mem_range.1 hi)) (hnn i (Finset.mem_range.1 hi))
      _ = ∑ j ∈ Finset.range m0.n, (∑ i ∈ Finset.range m0.n, m.alpha.getD i 0 * step m0 i j) * (1 / 10 ^ 180) := by
            rw [← Finset.sum_mul, Finset.sum_comm]
            congr 1
            exact Finset.sum_congr rfl fun i _ => Finset.mul_sum _ _ _
      _ ≤ _ := Finset.sum_le_sum fun j hj => mul_le_mul_of_nonneg_left (hbp j (Finset.mem_range.1 hj)) (hin j (Finset.mem_range.1 hj))

theorem like_append (bs : List (Nat → K)) (b : Nat → K) : (∀ t < bs.length, like (bs ++ [b]) t = like bs t) ∧
    like (bs ++ [b]) bs.length = b := by
  constructor
  · intro t ht
    unfold like
    rw [List.getD_eq_getElem?_getD, List.getElem?_append_left ht, ← List.getD_eq_getElem?_getD]
  · unfold like
    rw [List.getD_eq_getElem?_getD, List.getElem?_append_right le_rfl]
    simp

/-- the next observation: what `filter` does preserves `Heard`, whatever the buffer held -/
theorem heard_next (log : K → K) {m0 m m' : Hmm K} {bs : List (Nat → K)} {ps hist : List K} (hm : m0.CanFilter)
    (hd : Heard m0 log bs ps m) (b : Nat → K) (hbp : ∀ i < m0.n, 1 / 10 ^ 180 ≤ b i) (v c : Nat → List K)
    (r2 : m.Filtered log hist b v c m') (r3 : Logs m'.buf m0.window (ps.map log ++ [log (evidence m b)])) :
    Heard m0 log (bs ++ [b]) (ps ++ [evidence m b]) m' := by
  obtain ⟨e1, e2, e3, e4, e5, e6, e7, _⟩ := hd.same.facts
  obtain ⟨hwn, hge⟩ := norm_ge hm hd b hbp
  have hpos : 0 < evidence m b := lt_of_lt_of_le (by positivity) hge
  have hal : ∀ j < m0.n, m'.alpha.getD j 0 = weight m b j / evidence m b := fun j hj => by
    rw [r2.alpha, e1, getD_map_range' _ _ _ hj]
  have hkey : ∀ T, (bs ++ [b]).length = T + 1 →
      (∀ j < m0.n, weight m b j * ps.prod = endingIn m0.n (start m0) (step m0) (like (bs ++ [b])) T j) := by
    intro T hT j hj
    obtain ⟨l1, l2⟩ := like_append bs b
    have hTl : bs.length = T := by simpa using hT
    cases T with
    | zero =>
      have hb0 : bs = [] := List.length_eq_zero_iff.1 hTl
      have hst : m.started = false := by rw [hd.started, hb0]; rfl
      have hp0 : ps = [] := List.length_eq_zero_iff.1 (by rw [hd.len, hb0]; rfl)
      rw [endingIn_zero _ _ _ _ _ hj]
      rw [hTl] at l2
      unfold weight
      simp [hst, e3, hp0, l2]
    | succ T =>
      have hst : m.started = true := by
        rw [hd.started]; cases bs with
        | nil => simp at hTl
        | cons _ _ => rfl
      rw [hTl] at l2
      rw [endingIn_succ _ _ _ _ _ _ hj, l2, hd.prod T hTl]
      unfold weight
      simp only [hst, if_true, e1, e4]
      rw [mul_right_comm, Finset.sum_mul]
      congr 1
      refine Finset.sum_congr rfl fun i hi => ?_
      rw [mul_right_comm, hd.alpha T hTl i (Finset.mem_range.1 hi)]
      rw [endingIn_congr _ _ _ (fun t ht => (l1 t (by omega)).symm)]
  have hprod : ∀ T, (bs ++ [b]).length = T + 1 →
      evidence m b * ps.prod = total m0.n (start m0) (step m0) (like (bs ++ [b])) T := by
    intro T hT
    rw [total_eq_sum, ← Finset.sum_congr rfl fun j hj => hkey T hT j (Finset.mem_range.1 hj), ← Finset.sum_mul]
    unfold evidence; rw [e1]
  have e1' : m'.n = m0.n := ((hd.same.trans r2.same).facts).1
  refine ⟨hd.same.trans r2.same, by rw [r2.started]; simp, by simp [hd.len], fun _ => by rw [r2.alpha]; simp [e1], ?_, fun _ j hj => ?_,
    fun _ => ?_, ?_, fun T hT => ?_, fun T hT j hj => ?_⟩
  · simpa using r3
  · rw [hal j hj]; exact div_nonneg (hwn j hj) hpos.le
  · rw [Finset.sum_congr rfl fun j hj => hal j (Finset.mem_range.1 hj), ← Finset.sum_div]
    have : ∑ j ∈ Finset.range m0.n, weight m b j = evidence m b := by unfold evidence; rw [e1]
    rw [this, div_self hpos.ne']
  · intro p hp
    rcases List.mem_append.1 hp with h | h
    · exact hd.pos p h
    · rw [List.mem_singleton.1 h]; exact hge
  · rw [List.prod_append, List.prod_singleton, mul_comm]; exact hprod T hT
  · rw [hal j hj, ← hprod T hT, ← hkey T hT j hj]
    field_simp

theorem heard_step (D : Dens K) (log : K → K) {m0 m : Hmm K} {bs : List (Nat → K)} {ps : List K} (hm : m0.CanFilter)
    (hh : m0.hier = false) (hd : Heard m0 log bs ps m) (x : List K) (hx : m0.Fits x) (b : Nat → K) (hb : Emits D m0 x b)
    (hbp : ∀ i < m0.n, 1 / 10 ^ 180 ≤ b i) (v c : Nat → List K) (hv : m0.bimodal = true → Predicts D m0 x v c) :
    ∃ m', filter D log x m = .ret (evidence m b) m' ∧ m.Filtered log (ps.map log) b v c m' ∧
      Heard m0 log (bs ++ [b]) (ps ++ [evidence m b]) m' := by
  obtain ⟨e1, e2, e3, e4, e5, e6, e7, _⟩ := hd.same.facts
  obtain ⟨hwn, hge⟩ := norm_ge hm hd b hbp
  have hpos : 0 < evidence m b := lt_of_lt_of_le (by positivity) hge
  have h300 : 1 / 10 ^ 300 < evidence m b := by
    refine lt_of_lt_of_le ?_ hge
    apply one_div_lt_one_div_of_lt (by positivity)
    calc (20 : K) * 10 ^ 180 < 10 ^ 2 * 10 ^ 180 := by
            apply mul_lt_mul_of_pos_right _ (by positivity); norm_num
      _ = 10 ^ 182 := by rw [← pow_add]
      _ ≤ 10 ^ 300 := pow_le_pow_right₀ (by norm_num) (by norm_num)
  obtain ⟨m', r1, r2, r3⟩ := filter_ret D log m (hd.same.canFilter hm) (e6.trans hh) x (hd.same.fits hx) b (hd.same.emits hb)
    (fun h => by rw [e1]; exact hd.alen h) h300 v c (fun h => hd.same.predicts (hv (e7 ▸ h))) (ps.map log) (by rw [e5]; exact hd.logs) (by
      intro hs
      have := hd.started
      rw [hs] at this
      have hb0 : bs = [] := by cases bs with
        | nil => rfl
        | cons _ _ => simp at this
      have := hd.len
      rw [hb0] at this
      rw [List.length_eq_zero_iff.1 this]; rfl)
  rw [e5] at r3
  exact ⟨m', r1, r2, heard_next log hm hd b hbp v c r2 r3⟩

/-- a stream -/
theorem heard_all (D : Dens K) (log : K → K) {m0 : Hmm K} (hm : m0.CanFilter) (hh : m0.hier = false) (b : List K → Nat → K)
    (hb : ∀ x, m0.Fits x → Emits D m0 x (b x) ∧ ∀ i < m0.n, 1 / 10 ^ 180 ≤ b x i) (v c : List K → Nat → List K)
    (hv : m0.bimodal = true → ∀ x, m0.Fits x → Predicts D m0 x (v x) (c x)) (xs : List (List K)) (hx : ∀ x ∈ xs, m0.Fits x) :
    ∀ (m : Hmm K) (bs : List (Nat → K)) (ps : List K), Heard m0 log bs ps m →
    ∃ qs m', filterAll D log xs m = .ret qs m' ∧ Heard m0 log (bs ++ xs.map b) (ps ++ qs) m' ∧ qs.length = xs.length ∧
      ∀ pre x, xs = pre ++ [x] → ∃ qpre q mp, qs = qpre ++ [q] ∧ filterAll D log pre m = .ret qpre mp ∧
        Heard m0 log (bs ++ pre.map b) (ps ++ qpre) mp ∧ mp.Filtered log ((ps ++ qpre).map log) (b x) (v x) (c x) m' ∧ q = evidence mp (b x) := by
  induction xs with
  | nil =>
    intro m bs ps hd
    exact ⟨[], m, rfl, by simpa using hd, rfl, fun pre x h => by simp at h⟩
  | cons x xs ih =>
    intro m bs ps hd
    have hfx := hx x List.mem_cons_self
    obtain ⟨m1, h1, h2, h3⟩ := heard_step D log hm hh hd x hfx (b x) (hb x hfx).1 (hb x hfx).2 (v x) (c x) (fun h => hv h x hfx)
    obtain ⟨qs, m', g1, g2, g3, g4⟩ := ih (fun y hy => hx y (List.mem_cons_of_mem _ hy)) m1 _ _ h3
    refine ⟨evidence m (b x) :: qs, m', ?_, by simpa using g2, by simp [g3], fun pre y hpy => ?_⟩
    · unfold filterAll
      rw [bind_of_ret h1, bind_of_ret g1, pure_def]
    · rcases pre with _ | ⟨p0, pre⟩
      · simp only [List.nil_append, List.cons.injEq] at hpy
        obtain ⟨rfl, rfl⟩ := hpy
        have hq : qs = [] := List.length_eq_zero_iff.1 (by simpa using g3)
        have : m' = m1 := by
          unfold filterAll at g1
          rw [pure_def] at g1
          cases g1; rfl
        subst this
        exact ⟨[], evidence m (b x), m, by simp [hq], rfl, by simpa using hd, by simpa using h2, rfl⟩
      · simp only [List.cons_append, List.cons.injEq] at hpy
        obtain ⟨rfl, hpy⟩ := hpy
        obtain ⟨qpre, q, mp, k1, k2, k3, k4, k5⟩ := g4 pre y hpy
        refine ⟨evidence m (b x) :: qpre, q, mp, by simp [k1], ?_, by simpa using k3, by simpa using k4, k5⟩
        unfold filterAll
        rw [bind_of_ret h1, bind_of_ret k2, pure_def]

end Hmm
end Xmm
