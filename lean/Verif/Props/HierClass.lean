import Verif.Spec.HierHmm
import Verif.Props.HmmFilter
set_option linter.unusedSimpArgs false
set_option linter.unusedSectionVars false
/- What the hierarchical forward algorithm does to one class. -/
namespace Xmm
open Phrase (loop)
open Gauss (rd rd_lt)
open Prog (bind_def pure_def get_def set_def modify_def throw_def undef_def)
namespace Hmm
variable {K : Type} [Field K] [LinearOrder K] [IsStrictOrderedRing K]
open HmmSpec HierSpec

/-- the likelihoods computed in a class are those of its states -/
theorem hierProb_ret {σ : Type} (D : Dens K) (m : Hmm K) (hm : m.CanFilter) (x : List K) (b : Nat → K) (hb : HmmSpec.Emits D m x b) (i : Nat) (hi : i < m.n)
    (m1 : Hmm K) (h1 : m1.sts = m.sts) (t : σ) : hierProb D m.bimodal m1 x i t = .ret (b i) t := by
  have hi' : i < m.sts.length := by rw [hm.wf.sts]; exact hi
  have hs := List.getElem?_eq_getElem hi'
  have hmem := List.getElem_mem hi'
  have := stateProb_ret D m x b hb i _ hs (hm.state _ hmem).1.ready.wf (hm.wf.state _ hmem).2.2.1 t
  unfold stateProb at this
  unfold hierProb
  rw [h1]
  rw [bind_of_ret (rd_lt hi' m.sts[i] t)] at this ⊢
  simpa using this

theorem divideList_ret {σ : Type} (n : Nat) (z : K) (l : List K) (hl : l.length = n) (t : σ) :
    divideList n z l t = .ret ((List.range n).map fun k => l.getD k 0 / z) t := by
  unfold divideList
  obtain ⟨a, h1, h2, h3⟩ := loop_inv n l (fun l k => do
    let a ← rd l k
    pure (l.set k (a / z))) t (fun j v => v.length = n ∧ ∀ k < n, v.getD k 0 = if k < j then l.getD k 0 / z else l.getD k 0)
    ⟨hl, fun k _ => by simp⟩ (by
      rintro j hj v ⟨i1, i2⟩
      refine ⟨v.set j (v.getD j 0 / z), ?_, by simpa using i1, fun k hk => ?_⟩
      · rw [bind_of_ret (rd_lt (by omega) 0 t), pure_def]
      · rw [getD_set _ _ _ _ _ (by omega), i2 j hj, if_neg (lt_irrefl _), i2 k hk]
        by_cases h : k = j
        · rw [if_pos h, if_pos (by omega), h]
        · rw [if_neg h]
          by_cases h' : k < j
          · rw [if_pos h', if_pos (by omega)]
          · rw [if_neg h', if_neg (by omega)])
  rw [h1, eq_map_range_of_getD a n _ h2 fun k hk => by rw [h3 k hk, if_pos hk]]

/-- the division of the forward variables -/
def divided (z : K) (m : Hmm K) : Hmm K :=
  { m with
    alpha0 := (List.range m.n).map fun k => m.alpha0.getD k 0 / z
    alpha1 := (List.range m.n).map fun k => m.alpha1.getD k 0 / z
    alpha2 := (List.range m.n).map fun k => m.alpha2.getD k 0 / z }

theorem hierDivide_ret (z : K) (m : Hmm K) (h0 : m.alpha0.length = m.n) (h1 : m.alpha1.length = m.n) (h2 : m.alpha2.length = m.n) :
    hierDivide z m = .ret () (divided z m) := by
  unfold hierDivide
  rw [bind_of_ret (get_def m), bind_of_ret (divideList_ret _ _ _ h0 m), bind_of_ret (divideList_ret _ _ _ h1 m),
    bind_of_ret (divideList_ret _ _ _ h2 m), set_def]
  rfl

theorem hierInitState_ret (D : Dens K) (m : Hmm K) (hm : m.CanFilter) (x : List K) (b : Nat → K) (hb : HmmSpec.Emits D m x b) (i : Nat)
    (hi : i < m.n) (s : Hmm K) (h1 : s.sts = m.sts) (h2 : s.prior.length = m.n) (h3 : s.alpha0.length = m.n) :
    hierInitState D m.bimodal x i s = .ret () { s with
      alpha0 := s.alpha0.set i (s.prior.getD i 0 * b i), instant := s.instant + s.prior.getD i 0 * b i } := by
  unfold hierInitState
  rw [bind_of_ret (get_def _), bind_of_ret (rd_lt (by rw [h2]; exact hi) 0 _), bind_of_ret (hierProb_ret D m hm x b hb i hi s h1 _),
    bind_of_ret (rd_lt (by rw [h3]; exact hi) 0 _), set_def]

/-- a class after the first observation, before the division -/
def begun (p : K) (b : Nat → K) (m : Hmm K) : Hmm K :=
  { m with
    alpha0 := (List.range m.n).map fun k => b k * first m p k
    alpha1 := List.replicate m.n 0
    alpha2 := List.replicate m.n 0
    instant := (if m.ergodic then m.instant else 0) + ∑ k ∈ Finset.range m.n, b k * first m p k }

theorem hierInit_ret (D : Dens K) (m : Hmm K) (hm : m.CanFilter) (x : List K) (b : Nat → K) (hb : HmmSpec.Emits D m x b) (prior : List K) (c : Nat)
    (hc : c < prior.length) :
    hierInit D m.bimodal prior c x m = .ret (begun (prior.getD c 0) b m).instant (begun (prior.getD c 0) b m) := by
  have hw := hm.wf
  unfold hierInit
  rw [bind_of_ret (modify_def _ _), bind_of_ret (get_def _)]
  rcases bool_cases m.ergodic with he | he
  · have hb0 : ∀ t : Hmm K, hierProb D m.bimodal ({ m with
        alpha0 := List.replicate m.n 0
        alpha1 := List.replicate m.n 0
        alpha2 := List.replicate m.n 0 } : Hmm K) x 0 t = .ret (b 0) t := fun t => hierProb_ret D m hm x b hb 0 hw.pos _ rfl t
    have hs : ∑ k ∈ Finset.range m.n, b k * first m (prior.getD c 0) k = prior.getD c 0 * b 0 := by
      rw [Finset.sum_eq_single 0]
      · simp [first, he, mul_comm]
      · intro k _ hk; simp [first, he, hk]
      · intro h; exact absurd (Finset.mem_range.2 hw.pos) h
    have hl : (List.replicate m.n (0 : K)).set 0 (prior.getD c 0 * b 0) = (List.range m.n).map fun k => b k * first m (prior.getD c 0) k := by
      refine eq_map_range_of_getD _ _ _ (by simp) fun k hk => ?_
      rw [getD_set _ _ _ _ _ (by rw [List.length_replicate]; exact hw.pos), getD_replicate]
      by_cases h : k = 0
      · subst h; simp [first, he, mul_comm]
      · simp [first, he, h]
    rw [if_neg (by simp [he]), bind_of_ret (rd_lt hc 0 _), bind_of_ret (rd_lt (by simpa using Nat.lt_of_lt_of_le Nat.zero_lt_one hw.pos) 0 _),
      bind_of_ret (hb0 _), bind_of_ret (set_def _ _), pure_def]
    unfold begun
    simp only [he, Bool.false_eq_true, if_false, zero_add, hs, hl]
  · rw [if_pos (by simp [he])]
    obtain ⟨u, s, h1, l, h2, h3, h4⟩ := loop_state m.n () (fun _ i => hierInitState D m.bimodal x i) ({ m with
          alpha0 := List.replicate m.n 0
          alpha1 := List.replicate m.n 0
          alpha2 := List.replicate m.n 0 } : Hmm K)
      (fun t _ s => ∃ l : List K, s = { m with
          alpha0 := l
          alpha1 := List.replicate m.n 0
          alpha2 := List.replicate m.n 0
          instant := m.instant + ∑ k ∈ Finset.range t, b k * first m (prior.getD c 0) k } ∧ l.length = m.n ∧
        ∀ k < m.n, k < t → l.getD k 0 = b k * first m (prior.getD c 0) k)
      ⟨List.replicate m.n 0, by simp, by simp, fun k _ h => by omega⟩ (by
        rintro t ht _ s ⟨l, rfl, i1, i2⟩
        have hp := hw.prior he
        refine ⟨(), _, hierInitState_ret D m hm x b hb t ht _ rfl hp i1, l.set t (m.prior.getD t 0 * b t), ?_, by simpa using i1, ?_⟩
        · rw [Finset.sum_range_succ]
          simp only [first, he, if_true, add_assoc, mul_comm (b t)]
        · intro k hk hkt
          rw [getD_set _ _ _ _ _ (by omega)]
          by_cases h : k = t
          · rw [if_pos h, h]; simp [first, he, mul_comm]
          · rw [if_neg h]; exact i2 k hk (by omega))
    rw [bind_of_ret h1, bind_of_ret (get_def _), pure_def, h2, eq_map_range_of_getD l m.n _ h3 (fun k hk => h4 k hk hk)]
    unfold begun
    simp only [he, if_true]

/-- the vectors that the hierarchical forward algorithm reads -/
structure HierSized (m : Hmm K) : Prop where
  a0 : m.alpha0.length = m.n
  a1 : m.alpha1.length = m.n
  a2 : m.alpha2.length = m.n
  exit : m.exitP.length = m.n

theorem hierTerm_ret {σ : Type} (m : Hmm K) (t j : Nat) (ht : t < m.trans.length) (h1 : j < m.exitP.length) (h2 : j < m.alpha0.length) (s : σ) :
    hierTerm m t j s = .ret (m.trans.getD t 0 / (1 - m.exitP.getD j 0) * m.alpha0.getD j 0) s := by
  unfold hierTerm
  rw [bind_of_ret (rd_lt ht 0 s), bind_of_ret (rd_lt h1 0 s), bind_of_ret (rd_lt h2 0 s), pure_def]

theorem loop_sum {σ : Type} (n : Nat) (z : K) (f : Nat → Prog σ K) (g : Nat → K) (s : σ) (h : ∀ i < n, f i s = .ret (g i) s) :
    loop n z (fun acc i => do
      let y ← f i
      pure (acc + y)) s = .ret (z + ∑ i ∈ Finset.range n, g i) s := by
  obtain ⟨a, h1, h2⟩ := loop_inv n z (fun acc i => do
      let y ← f i
      pure (acc + y)) s (fun t a => a = z + ∑ i ∈ Finset.range t, g i) (by simp) (by
      rintro t ht a rfl
      refine ⟨_, ?_, rfl⟩
      rw [bind_of_ret (h t ht), pure_def, Finset.sum_range_succ, add_assoc])
  rw [h1, h2]

/-- the frontier variable -/
theorem hierFront_ret {σ : Type} (m : Hmm K) (hw : m.WF) (hs : m.HierSized) (classes : Nat) (entry : Nat → Prog σ K) (y : Nat → K) (t : σ)
    (hy : ∀ s < classes, entry s t = .ret (y s) t) :
    hierFront m classes entry t = .ret ((List.range m.n).map (predicted m (∑ s ∈ Finset.range classes, y s))) t := by
  have key : ∀ k < m.n, hierFrontAt m classes entry k t = .ret (predicted m (∑ s ∈ Finset.range classes, y s) k) t := by
    intro k hk
    unfold hierFrontAt
    have htr := hw.trans
    rcases bool_cases m.ergodic with he | he
    · rw [if_neg (by simp [he])]
      rw [if_neg (by simp [he])] at htr
      unfold hierFrontLeftRight predicted
      by_cases h0 : k = 0
      · subst h0
        rw [if_pos rfl, bind_of_ret (rd_lt (by omega) 0 t), bind_of_ret (rd_lt (by rw [hs.a0]; exact hk) 0 t),
          loop_sum classes _ entry y t hy]
        congr 1
        have : ∑ j ∈ Finset.range m.n, m.alpha0.getD j 0 * within m j 0 = m.trans.getD 0 0 * m.alpha0.getD 0 0 := by
          rw [Finset.sum_eq_single 0]
          · simp [within, he, mul_comm]
          · intro j _ hj
            have h1 : ¬ (0 = j) := fun h => hj h.symm
            simp [within, he, h1]
          · intro h; exact absurd (Finset.mem_range.2 hk) h
        rw [this]
        simp [start, he]
      · rw [if_neg h0, bind_of_ret (hierTerm_ret m _ _ (by omega) (by rw [hs.exit]; exact hk) (by rw [hs.a0]; exact hk) t),
          bind_of_ret (hierTerm_ret m _ _ (by omega) (by rw [hs.exit]; omega) (by rw [hs.a0]; omega) t), pure_def]
        congr 1
        have hst : start m k = 0 := by simp [start, he, h0]
        rw [hst, zero_mul, add_zero, zero_add]
        have hsub : ∀ j ∈ Finset.range m.n, j ∉ ({k, k - 1} : Finset Nat) → m.alpha0.getD j 0 * within m j k = 0 := by
          intro j _ hj
          simp only [Finset.mem_insert, Finset.mem_singleton, not_or] at hj
          have h1 : ¬ (k = j) := fun h => hj.1 h.symm
          have h2 : ¬ (k = j + 1) := fun h => hj.2 (by omega)
          simp [within, he, h1, h2]
        rw [← Finset.sum_subset (s₁ := ({k, k - 1} : Finset Nat)) (by
          intro j hj
          simp only [Finset.mem_insert, Finset.mem_singleton] at hj
          rw [Finset.mem_range]; omega) hsub, Finset.sum_pair (by omega)]
        have h1 : ¬ (k = k - 1) := by omega
        have h2 : k = k - 1 + 1 := by omega
        have e1 : within m k k = m.trans.getD (k * 2) 0 / (1 - m.exitP.getD k 0) := by simp [within, he, h0]
        have e2 : within m (k - 1) k = m.trans.getD ((k - 1) * 2 + 1) 0 / (1 - m.exitP.getD (k - 1) 0) := by
          unfold within
          rw [if_neg (by simp [he]), if_neg h1, if_pos h2]
        rw [e1, e2]
        ring
    · rw [if_pos (by simp [he])]
      rw [if_pos (by simp [he])] at htr
      unfold hierFrontErgodic predicted
      rw [bind_of_ret (loop_sum m.n 0 (fun j => hierTerm m (j * m.n + k) j) _ t fun j hj => hierTerm_ret m _ _
        (by rw [htr]; exact flat_lt hj hk) (by rw [hs.exit]; exact hj) (by rw [hs.a0]; exact hj) t)]
      obtain ⟨a, h1, h2⟩ := loop_inv classes ((0 : K) + ∑ j ∈ Finset.range m.n, m.trans.getD (j * m.n + k) 0 / (1 - m.exitP.getD j 0) * m.alpha0.getD j 0)
        (fun acc s => do
          let p ← rd m.prior k
          let y ← entry s
          pure (acc + p * y)) t
        (fun i a => a = ((0 : K) + ∑ j ∈ Finset.range m.n, m.trans.getD (j * m.n + k) 0 / (1 - m.exitP.getD j 0) * m.alpha0.getD j 0) +
          ∑ s ∈ Finset.range i, m.prior.getD k 0 * y s) (by simp) (by
          rintro i hi a rfl
          refine ⟨_, ?_, rfl⟩
          rw [bind_of_ret (rd_lt (by rw [hw.prior he]; exact hk) 0 t), bind_of_ret (hy i hi), pure_def, Finset.sum_range_succ, add_assoc])
      rw [h1, h2, zero_add, ← Finset.mul_sum]
      congr 1
      congr 1
      · refine Finset.sum_congr rfl fun j _ => ?_
        simp [within, he, mul_comm]
      · simp [start, he]
  unfold hierFront
  obtain ⟨a, h1, h2, h3⟩ := loop_inv m.n (List.replicate m.n (0 : K)) (fun front k => do
    let v ← hierFrontAt m classes entry k
    let _ ← rd front k
    pure (front.set k v)) t
    (fun i l => l.length = m.n ∧ ∀ k < i, l.getD k 0 = predicted m (∑ s ∈ Finset.range classes, y s) k)
    ⟨by simp, fun k hk => by omega⟩ (by
      rintro i hi l ⟨i1, i2⟩
      refine ⟨l.set i (predicted m (∑ s ∈ Finset.range classes, y s) i), ?_, by simpa using i1, fun k hk => ?_⟩
      · rw [bind_of_ret (key i hi), bind_of_ret (rd_lt (by omega) 0 t), pure_def]
      · rw [getD_set _ _ _ _ _ (by omega)]
        by_cases h : k = i
        · rw [if_pos h, h]
        · rw [if_neg h]; exact i2 k (by omega))
  rw [h1, eq_map_range_of_getD a m.n _ h2 h3]

theorem hierState_ret (D : Dens K) (m : Hmm K) (hm : m.CanFilter) (x : List K) (b : Nat → K) (hb : HmmSpec.Emits D m x b) (xt : K)
    (f : Nat → K) (acc : K) (k : Nat) (hk : k < m.n) (s : Hmm K) (h1 : s.sts = m.sts) (h2 : s.exitP.length = m.n)
    (a0 : s.alpha0.length = m.n) (a1 : s.alpha1.length = m.n) (a2 : s.alpha2.length = m.n) :
    hierState D m.bimodal x xt ((List.range m.n).map f) acc k s = .ret (acc + b k * f k) { s with
      alpha2 := s.alpha2.set k (xt * s.exitP.getD k 0 * (b k * f k))
      alpha1 := s.alpha1.set k ((1 - xt) * s.exitP.getD k 0 * (b k * f k))
      alpha0 := s.alpha0.set k ((1 - s.exitP.getD k 0) * (b k * f k))
      exitLik := s.exitLik + s.exitP.getD k 0 * (b k * f k)
      instant := s.instant + b k * f k } := by
  unfold hierState
  rw [bind_of_ret (get_def _), bind_of_ret (hierProb_ret D m hm x b hb k hk s h1 _), bind_of_ret (rd_lt (by simpa using hk) 0 _),
    bind_of_ret (rd_lt (by rw [h2]; exact hk) 0 _), bind_of_ret (rd_lt (by rw [a2]; exact hk) 0 _),
    bind_of_ret (rd_lt (by rw [a1]; exact hk) 0 _), bind_of_ret (rd_lt (by rw [a0]; exact hk) 0 _), bind_of_ret (set_def _ _), pure_def,
    getD_map_range' f m.n k hk]
  have e1 : (1 - xt) * s.exitP.getD k 0 * (b k * f k) + xt * s.exitP.getD k 0 * (b k * f k) = s.exitP.getD k 0 * (b k * f k) := by ring
  have e2 : (1 - s.exitP.getD k 0) * (b k * f k) + (1 - xt) * s.exitP.getD k 0 * (b k * f k) + xt * s.exitP.getD k 0 * (b k * f k) =
      b k * f k := by ring
  rw [e1, e2]

/-- a class after the next observation, before the division: `j k` is the joint weight of state `k` and of the observation -/
def updated (xt : K) (j : Nat → K) (m : Hmm K) : Hmm K :=
  { m with
    alpha0 := (List.range m.n).map fun k => (1 - m.exitP.getD k 0) * j k
    alpha1 := (List.range m.n).map fun k => (1 - xt) * m.exitP.getD k 0 * j k
    alpha2 := (List.range m.n).map fun k => xt * m.exitP.getD k 0 * j k
    exitLik := ∑ k ∈ Finset.range m.n, m.exitP.getD k 0 * j k
    instant := ∑ k ∈ Finset.range m.n, j k
    exitRatio := (∑ k ∈ Finset.range m.n, m.exitP.getD k 0 * j k) / ∑ k ∈ Finset.range m.n, j k }

theorem hierUpdate_ret (D : Dens K) (m : Hmm K) (hm : m.CanFilter) (hs : m.HierSized) (x : List K) (b : Nat → K) (hb : HmmSpec.Emits D m x b)
    (exitTrans : List K) (c classes : Nat) (hc : c < exitTrans.length) (entry : Nat → Prog (Hmm K) K) (y : Nat → K)
    (hy : ∀ s < classes, entry s m = .ret (y s) m) :
    hierUpdate D m.bimodal exitTrans c classes entry x m =
      .ret (∑ k ∈ Finset.range m.n, b k * predicted m (∑ s ∈ Finset.range classes, y s) k)
        (updated (exitTrans.getD c 0) (fun k => b k * predicted m (∑ s ∈ Finset.range classes, y s) k) m) := by
  generalize hf : predicted m (∑ s ∈ Finset.range classes, y s) = f
  generalize hxt : exitTrans.getD c 0 = xt
  have hz : ∃ l0 l1 l2 : List K, hierZero m = { m with alpha0 := l0, alpha1 := l1, alpha2 := l2 } ∧ l0.length = m.n ∧ l1.length = m.n ∧
      l2.length = m.n := by
    unfold hierZero
    rcases bool_cases m.ergodic with he | he
    · rw [if_neg (by simp [he])]
      exact ⟨_, _, _, rfl, by simpa using hs.a0, by simpa using hs.a1, by simpa using hs.a2⟩
    · rw [if_pos (by simp [he])]
      exact ⟨_, _, _, rfl, hs.a0, hs.a1, hs.a2⟩
  obtain ⟨z0, z1, z2, hz, q0, q1, q2⟩ := hz
  unfold hierUpdate
  rw [bind_of_ret (get_def _), bind_of_ret (hierFront_ret m hm.wf hs classes entry y m hy), bind_of_ret (set_def _ _), hf, hz]
  obtain ⟨a, s, h1, l0, l1, l2, h2, h3, i0, i1, i2, h4⟩ := loop_state m.n (0 : K) (fun acc k => do
      let xt ← rd exitTrans c
      hierState D m.bimodal x xt ((List.range m.n).map f) acc k)
    ({ m with alpha0 := z0, alpha1 := z1, alpha2 := z2, exitLik := 0, instant := 0 } : Hmm K)
    (fun t acc s => ∃ l0 l1 l2 : List K, s = { m with
        alpha0 := l0
        alpha1 := l1
        alpha2 := l2
        exitLik := ∑ k ∈ Finset.range t, m.exitP.getD k 0 * (b k * f k)
        instant := ∑ k ∈ Finset.range t, b k * f k } ∧ acc = ∑ k ∈ Finset.range t, b k * f k ∧ l0.length = m.n ∧ l1.length = m.n ∧
      l2.length = m.n ∧ ∀ k < t, l0.getD k 0 = (1 - m.exitP.getD k 0) * (b k * f k) ∧
        l1.getD k 0 = (1 - xt) * m.exitP.getD k 0 * (b k * f k) ∧ l2.getD k 0 = xt * m.exitP.getD k 0 * (b k * f k))
    ⟨z0, z1, z2, by simp, by simp, q0, q1, q2, fun k hk => by omega⟩ (by
      rintro t ht acc s ⟨l0, l1, l2, rfl, rfl, i0, i1, i2, i3⟩
      refine ⟨_, _, (bind_of_ret (rd_lt hc 0 _)).trans (by
        rw [hxt]; exact hierState_ret D m hm x b hb xt f _ t ht _ rfl hs.exit i0 i1 i2),
        l0.set t ((1 - m.exitP.getD t 0) * (b t * f t)), l1.set t ((1 - xt) * m.exitP.getD t 0 * (b t * f t)),
        l2.set t (xt * m.exitP.getD t 0 * (b t * f t)), ?_,
        (Finset.sum_range_succ _ _).symm, by simpa using i0, by simpa using i1, by simpa using i2, fun k hk => ?_⟩
      · simp only [Finset.sum_range_succ]
      · rw [getD_set _ _ _ _ _ (by omega), getD_set _ _ _ _ _ (by omega), getD_set _ _ _ _ _ (by omega)]
        by_cases h : k = t
        · subst h; simp
        · rw [if_neg h, if_neg h, if_neg h]; exact i3 k (by omega))
  rw [bind_of_ret h1, bind_of_ret (modify_def _ _), pure_def, h2, h3, eq_map_range_of_getD l0 m.n _ i0 fun k hk => (h4 k hk).1,
    eq_map_range_of_getD l1 m.n _ i1 fun k hk => (h4 k hk).2.1, eq_map_range_of_getD l2 m.n _ i2 fun k hk => (h4 k hk).2.2]
  rfl

theorem sumAlpha_ret {σ : Type} (e : Nat) (m : Hmm K) (h : (m.alphaOf e).length = m.n) (t : σ) :
    sumAlpha e m t = .ret (∑ k ∈ Finset.range m.n, (m.alphaOf e).getD k 0) t := by
  unfold sumAlpha
  rw [loop_sum m.n 0 (fun k => rd (m.alphaOf e) k) (fun k => (m.alphaOf e).getD k 0) t fun k hk => rd_lt (by rw [h]; exact hk) 0 t, zero_add]

end Hmm
end Xmm
