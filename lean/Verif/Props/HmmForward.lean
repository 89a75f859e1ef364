import Verif.Lemmas.Fill
import Verif.Spec.Hmm
import Verif.Props.GmmFilter
import Mathlib.Algebra.Order.BigOperators.Ring.Finset
set_option linter.unusedSimpArgs false
set_option linter.unusedSectionVars false
/- The forward algorithm: what one step computes. -/
namespace Xmm
open Phrase (loop)
open Gauss (rd rd_lt)
open Prog (bind_def pure_def get_def set_def modify_def throw_def undef_def)
namespace Hmm
variable {K : Type} [Field K] [LinearOrder K] [IsStrictOrderedRing K]
open HmmSpec GmmSpec RecSpec Gmm

/-- in every state with the mixtures of `m`, the observation likelihoods that `p` computes are `b` -/
def Reads (m : Hmm K) (p : Nat → Prog (Hmm K) K) (b : Nat → K) : Prop :=
  ∀ s : Hmm K, s.sts = m.sts → s.bimodal = m.bimodal → ∀ i < m.n, p i s = .ret (b i) s

theorem obsProbSum_ret {σ : Type} (s : Gmm K) (f : Nat → Prog σ K) (v : Nat → K) (t : σ)
    (h : ∀ c < s.gaussians, f c t = .ret (v c) t) :
    obsProbSum s f t = .ret (∑ c ∈ Finset.range s.gaussians, v c) t := by
  obtain ⟨a, h1, h2⟩ := loop_inv s.gaussians (0 : K) (fun p c => do
    let q ← f c
    pure (p + q)) t (fun k a => a = ∑ c ∈ Finset.range k, v c) (by simp) (by
      rintro k hk a rfl
      refine ⟨_, ?_, (Finset.sum_range_succ _ _).symm⟩
      rw [bind_of_ret (h k hk), pure_def])
  unfold obsProbSum
  rw [h1, h2]

/-- the likelihood of an observation in a state is that of its mixture -/
theorem stateProb_ret {σ : Type} (D : Dens K) (m : Hmm K) (x : List K) (b : Nat → K) (hb : Emits D m x b) (i : Nat) (s : Gmm K)
    (hs : m.sts[i]? = some s) (hw : s.WF) (hbi : s.bimodal = m.bimodal) (t : σ) : stateProb D m x [] i t = .ret (b i) t := by
  obtain ⟨d, hd, hbi'⟩ := hb i s hs
  have key : ∀ c < s.gaussians, filterProb D s x [] c t = .ret (weights s c * d c) t := fun c hc =>
    filterProb_ret D s hw x d hd c hc t
  unfold stateProb
  have hr : rd m.sts i t = .ret s t := by simp [rd, hs, pure_def]
  rw [bind_of_ret hr, hbi', ← hbi]
  unfold filterProb at key
  rcases bool_cases s.bimodal with h | h
  · simp only [h, Bool.false_eq_true, if_false] at key ⊢
    exact obsProbSum_ret s _ _ t key
  · simp only [h, if_true, List.isEmpty_nil] at key ⊢
    exact obsProbSum_ret s _ _ t key

theorem setAlpha_ret (m : Hmm K) (i : Nat) (x : K) (h : i < m.alpha.length) :
    setAlpha i x m = .ret () { m with alpha := m.alpha.set i x } := by
  unfold setAlpha
  rw [bind_of_ret (get_def m), bind_of_ret (rd_lt h 0 m), set_def]

theorem divideAlpha_ret (m : Hmm K) (n : Nat) (h : m.alpha.length = n) (z : K) :
    divideAlpha n z m = .ret () { m with alpha := (List.range n).map fun i => m.alpha.getD i 0 / z } := by
  have := loop_fill (fun l => ({ m with alpha := l } : Hmm K)) n m.alpha h (fun i => m.alpha.getD i 0 / z)
    (fun i => do
      let m ← Prog.get
      let a ← rd m.alpha i
      setAlpha i (a / z)) (by
      intro t ht l hl h1 h2
      rw [bind_of_ret (get_def _), bind_of_ret (rd_lt (show t < l.length by omega) 0 _), h1 t le_rfl ht]
      rw [setAlpha_ret _ _ _ (show t < l.length by omega)])
  exact this

/-- the first values of the forward variable -/
theorem initAlpha_ret (m : Hmm K) (hw : m.WF) (ha : m.ergodic = true → m.alpha.length = m.n) (p : Nat → Prog (Hmm K) K) (b : Nat → K)
    (hp : Reads m p b) :
    initAlpha p m = .ret (∑ i ∈ Finset.range m.n, start m i * b i)
      { m with alpha := (List.range m.n).map fun i => start m i * b i } := by
  unfold initAlpha
  rw [bind_of_ret (get_def m)]
  have hst : ∀ i, start m i = if m.ergodic then m.prior.getD i 0 else if i = 0 then 1 else 0 := fun _ => rfl
  rcases bool_cases m.ergodic with h | h
  · rw [if_neg (by simp [h])]
    rw [bind_of_ret (set_def _ _), bind_of_ret (hp ({ m with alpha := List.replicate m.n 0 } : Hmm K) rfl rfl 0 hw.pos),
      bind_of_ret (setAlpha_ret _ 0 _ (by simpa [Nat.lt_iff_add_one_le] using hw.pos)), pure_def]
    have h1 : ∑ i ∈ Finset.range m.n, start m i * b i = 0 + b 0 := by
      rw [zero_add, Finset.sum_eq_single_of_mem 0 (Finset.mem_range.2 hw.pos)]
      · simp [hst, h]
      · intro i _ hi; simp [hst, h, hi]
    rw [h1]
    congr 1
    have h2 : ((List.replicate m.n (0 : K)).set 0 (b 0)) = (List.range m.n).map fun i => start m i * b i := by
      refine eq_map_range_of_getD _ _ _ (by simp) fun i hi => ?_
      rw [getD_set _ _ _ _ _ (by simpa [Nat.lt_iff_add_one_le] using hw.pos), getD_replicate]
      by_cases h0 : i = 0
      · simp [hst, h, h0]
      · simp [hst, h, h0]
    rw [← h2]
  · rw [if_pos h]
    have := loop_fill_sum (fun l => ({ m with alpha := l } : Hmm K)) m.n m.alpha (ha h) (fun i => start m i * b i)
      (fun i => start m i * b i) (fun acc i => do
        let m ← Prog.get
        let w ← rd m.prior i
        let b ← p i
        setAlpha i (w * b)
        pure (acc + w * b)) (by
        intro t ht acc l hl h1 h2
        rw [bind_of_ret (get_def _), bind_of_ret (rd_lt (show t < m.prior.length by rw [hw.prior h]; exact ht) 0 _),
          bind_of_ret (hp ({ m with alpha := l } : Hmm K) rfl rfl t ht), bind_of_ret (setAlpha_ret _ _ _ (show t < l.length by omega)),
          pure_def]
        simp only [hst, h, if_true]) 0
    rw [zero_add] at this
    exact this

/-- `forward_init` when the observation has positive likelihood -/
theorem forwardInit_ret (m : Hmm K) (hw : m.WF) (ha : m.ergodic = true → m.alpha.length = m.n) (p : Nat → Prog (Hmm K) K) (b : Nat → K)
    (hp : Reads m p b) (hz : 0 < ∑ i ∈ Finset.range m.n, start m i * b i) :
    forwardInit p m = .ret (1 / ∑ i ∈ Finset.range m.n, start m i * b i)
      { m with alpha := (List.range m.n).map fun i => start m i * b i / ∑ i ∈ Finset.range m.n, start m i * b i } := by
  unfold forwardInit
  rw [bind_of_ret (initAlpha_ret m hw ha p b hp), bind_of_ret (get_def _), if_pos hz,
    bind_of_ret (divideAlpha_ret _ m.n (by simp) _), pure_def]
  congr 1
  congr 1
  refine List.map_congr_left fun i hi => ?_
  simp only
  rw [getD_map_range' _ _ _ (List.mem_range.1 hi)]

/-- the predicted probability of state `j` -/
theorem predict_ret {σ : Type} (m : Hmm K) (hw : m.WF) (ha : m.prevAlpha.length = m.n) (j : Nat) (hj : j < m.n) (t : σ) :
    predict m j t = .ret (∑ i ∈ Finset.range m.n, m.prevAlpha.getD i 0 * step m i j) t := by
  unfold predict
  have ht := hw.trans
  rcases bool_cases m.ergodic with h | h
  · simp only [h, Bool.false_eq_true, if_false] at ht ⊢
    have hstep : ∀ i, step m i j = (if j = i then m.trans.getD (i * 2) 0 else 0) +
        (if j = (i + 1) % m.n then m.trans.getD (i * 2 + 1) 0 else 0) := fun i => by simp [step, h]
    have hsum : ∀ k < m.n, (∀ i < m.n, j = (i + 1) % m.n ↔ i = k) →
        ∑ i ∈ Finset.range m.n, m.prevAlpha.getD i 0 * step m i j =
          0 + m.prevAlpha.getD j 0 * m.trans.getD (j * 2) 0 + m.prevAlpha.getD k 0 * m.trans.getD (k * 2 + 1) 0 := by
      intro k hk hiff
      rw [zero_add]
      have h1 : ∀ i ∈ Finset.range m.n, m.prevAlpha.getD i 0 * step m i j =
          (if i = j then m.prevAlpha.getD i 0 * m.trans.getD (i * 2) 0 else 0) +
          (if i = k then m.prevAlpha.getD i 0 * m.trans.getD (i * 2 + 1) 0 else 0) := by
        intro i hi
        rw [hstep, mul_add]
        congr 1
        · by_cases e : i = j
          · simp [e]
          · rw [if_neg e, if_neg (Ne.symm e), mul_zero]
        · by_cases e : i = k
          · rw [if_pos e, if_pos ((hiff i (Finset.mem_range.1 hi)).2 e)]
          · rw [if_neg e, if_neg (fun h' => e ((hiff i (Finset.mem_range.1 hi)).1 h')), mul_zero]
      rw [Finset.sum_congr rfl h1, Finset.sum_add_distrib, Finset.sum_ite_eq', Finset.sum_ite_eq',
        if_pos (Finset.mem_range.2 hj), if_pos (Finset.mem_range.2 hk)]
    rw [bind_of_ret (rd_lt (by omega) 0 t), bind_of_ret (rd_lt (by omega) 0 t)]
    by_cases h0 : 0 < j
    · rw [if_pos h0, bind_of_ret (rd_lt (by omega) 0 t), bind_of_ret (rd_lt (by omega) 0 t), pure_def,
        hsum (j - 1) (by omega)]
      intro i hi
      constructor
      · intro e
        by_cases hl : i + 1 = m.n
        · rw [hl, Nat.mod_self] at e; omega
        · rw [Nat.mod_eq_of_lt (by omega)] at e; omega
      · intro e; rw [Nat.mod_eq_of_lt (by omega)]; omega
    · have hp := hw.pos
      rw [if_neg h0, bind_of_ret (rd_lt (by omega) 0 t), bind_of_ret (rd_lt (by omega) 0 t), pure_def, hsum (m.n - 1) (by omega),
        show (m.n - 1) * 2 + 1 = m.n * 2 - 1 by omega]
      intro i hi
      constructor
      · intro e
        by_contra hne
        rw [Nat.mod_eq_of_lt (by omega)] at e; omega
      · intro e; rw [show i + 1 = m.n by omega, Nat.mod_self]; omega
  · simp only [h, if_true] at ht ⊢
    obtain ⟨a, h1, h2⟩ := loop_inv m.n (0 : K) (fun acc i => do
      let a ← rd m.prevAlpha i
      let t ← rd m.trans (i * m.n + j)
      pure (acc + a * t)) t (fun k a => a = ∑ i ∈ Finset.range k, m.prevAlpha.getD i 0 * step m i j) (by simp) (by
        rintro k hk a rfl
        refine ⟨_, ?_, (Finset.sum_range_succ _ _).symm⟩
        have : k * m.n + j < m.n * m.n := by nlinarith
        rw [bind_of_ret (rd_lt (by omega) 0 t), bind_of_ret (rd_lt (by omega) 0 t), pure_def]
        simp [step, h])
    rw [h1, h2]

/-- `forward_update` when the observation has sufficient likelihood -/
theorem forwardUpdate_ret (m : Hmm K) (hw : m.WF) (ha : m.alpha.length = m.n) (p : Nat → Prog (Hmm K) K) (b : Nat → K)
    (hp : Reads m p b)
    (hz : 1 / 10 ^ 300 < ∑ j ∈ Finset.range m.n, (∑ i ∈ Finset.range m.n, m.alpha.getD i 0 * step m i j) * b j) :
    forwardUpdate p m = .ret (1 / ∑ j ∈ Finset.range m.n, (∑ i ∈ Finset.range m.n, m.alpha.getD i 0 * step m i j) * b j)
      { m with
        prevAlpha := m.alpha
        alpha := (List.range m.n).map fun j => (∑ i ∈ Finset.range m.n, m.alpha.getD i 0 * step m i j) * b j /
          ∑ j ∈ Finset.range m.n, (∑ i ∈ Finset.range m.n, m.alpha.getD i 0 * step m i j) * b j } := by
  unfold forwardUpdate
  rw [bind_of_ret (modify_def _ _), bind_of_ret (get_def _)]
  have := loop_fill_sum (fun l => ({ m with prevAlpha := m.alpha, alpha := l } : Hmm K)) m.n m.alpha ha
    (fun j => (∑ i ∈ Finset.range m.n, m.alpha.getD i 0 * step m i j) * b j)
    (fun j => (∑ i ∈ Finset.range m.n, m.alpha.getD i 0 * step m i j) * b j) (fun acc j => do
      let m ← Prog.get
      let v ← predict m j
      let b ← p j
      setAlpha j (v * b)
      pure (acc + v * b)) (by
      intro t ht acc l hl h1 h2
      have hpr := predict_ret ({ m with prevAlpha := m.alpha, alpha := l } : Hmm K)
        ⟨hw.pos, hw.sts, hw.prior, hw.trans, hw.state⟩ ha t ht ({ m with prevAlpha := m.alpha, alpha := l } : Hmm K)
      rw [bind_of_ret (get_def _), bind_of_ret hpr, bind_of_ret (hp ({ m with prevAlpha := m.alpha, alpha := l } : Hmm K) rfl rfl t ht),
        bind_of_ret (setAlpha_ret _ _ _ (show t < l.length by omega)), pure_def]
      rfl) 0
  rw [zero_add] at this
  rw [bind_of_ret this, if_pos hz, bind_of_ret (divideAlpha_ret _ m.n (by simp) _), pure_def]
  congr 1
  congr 1
  refine List.map_congr_left fun i hi => ?_
  simp only
  rw [getD_map_range' _ _ _ (List.mem_range.1 hi)]

end Hmm
end Xmm
