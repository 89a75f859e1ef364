import Verif.Props.HierForward
import Verif.Props.HmmParams
set_option linter.unusedSimpArgs false
set_option linter.unusedSectionVars false
/- C48: the forward variables of a hierarchical model are a distribution. -/
namespace Xmm
namespace HierHmm
variable {K : Type} [Field K] [LinearOrder K] [IsStrictOrderedRing K]
open HierSpec

theorem get_class {M : HierHmm K} {c : Nat} (hc : c < M.models.length) : ∃ lc, M.models[c]? = some lc :=
  ⟨_, List.getElem?_eq_getElem hc⟩

theorem states_of {M : HierHmm K} {c : Nat} {lc : String × Hmm K} (h : M.models[c]? = some lc) : states M c = lc.2.n := by
  simp [states, h]

theorem alpha_of {M : HierHmm K} {c : Nat} {lc : String × Hmm K} (h : M.models[c]? = some lc) (e k : Nat) :
    HierSpec.alpha M e c k = (lc.2.alphaOf e).getD k 0 := by
  simp [HierSpec.alpha, h]

/-- the weights of the paths that stay in a class -/
theorem within_nonneg {m : Hmm K} (hm : m.InHierarchy) (j k : Nat) (hj : j < m.n) : 0 ≤ within m j k := by
  have h0 : ∀ i, 0 ≤ m.trans.getD i 0 := fun i => by
    rw [List.getD_eq_getElem?_getD]
    cases h : m.trans[i]? with
    | none => simp
    | some v => simpa using hm.trans v (List.mem_of_getElem? h)
  have h1 : 0 ≤ 1 - m.exitP.getD j 0 := sub_nonneg.2 (hm.exit_lt j hj).le
  unfold within
  split_ifs <;> first | exact le_rfl | exact h0 _ | exact div_nonneg (h0 _) h1

theorem within_sum_pos {m : Hmm K} (hm : m.InHierarchy) (j : Nat) (hj : j < m.n) : 0 < ∑ k ∈ Finset.range m.n, within m j k := by
  have h1 : 0 < 1 - m.exitP.getD j 0 := sub_pos.2 (hm.exit_lt j hj)
  have hn := fun k => within_nonneg hm j k hj
  have hpos : ∀ k < m.n, 0 < within m j k → 0 < ∑ k ∈ Finset.range m.n, within m j k := fun k hk h =>
    Finset.sum_pos' (fun k _ => hn k) ⟨k, Finset.mem_range.2 hk, h⟩
  have hsum := hm.can.chain.step_sum j hj
  have h20 : (0 : K) < 1 / 20 := by norm_num
  rcases bool_cases m.ergodic with he | he
  · by_cases hl : j + 1 < m.n
    · rw [Hmm.sum_step_leftRight m he j hj] at hsum
      have h0 : 0 < m.trans.getD (j * 2) 0 ∨ 0 < m.trans.getD (j * 2 + 1) 0 := by
        by_contra h
        rw [not_or, not_lt, not_lt] at h
        unfold Hmm.rowSum at hsum
        simp only [Finset.sum_range_succ, Finset.sum_range_zero, add_zero, zero_add] at hsum
        linarith [h.1, h.2]
      rcases h0 with h0 | h0
      · refine hpos j hj ?_
        unfold within
        rw [if_neg (by simp [he]), if_pos rfl]
        split_ifs with hz
        · subst hz; simpa using h0
        · exact div_pos h0 h1
      · refine hpos (j + 1) hl ?_
        unfold within
        rw [if_neg (by simp [he]), if_neg (by omega), if_pos rfl]
        exact div_pos h0 h1
    · have hj' : j = m.n - 1 := by omega
      have h0 := hm.last he
      rw [← hj'] at h0
      refine hpos j hj ?_
      unfold within
      rw [if_neg (by simp [he]), if_pos rfl]
      split_ifs with hz
      · subst hz; simpa using h0
      · exact div_pos h0 h1
  · have : ∑ k ∈ Finset.range m.n, within m j k = (∑ k ∈ Finset.range m.n, HmmSpec.step m j k) / (1 - m.exitP.getD j 0) := by
      rw [Finset.sum_div]
      refine Finset.sum_congr rfl fun k _ => ?_
      unfold within HmmSpec.step
      rw [if_pos (by simp [he]), if_pos (by simp [he])]
    rw [this]
    exact div_pos (lt_of_lt_of_le h20 hsum) h1

theorem leaving_nonneg {M : HierHmm K} (hd : ∀ e c k, 0 ≤ HierSpec.alpha M e c k) (e c : Nat) : 0 ≤ leaving M e c :=
  Finset.sum_nonneg fun k _ => hd e c k

theorem prior_nonneg {M : HierHmm K} (hT : M.Top) (c : Nat) : 0 ≤ M.prior.getD c 0 := by
  rw [List.getD_eq_getElem?_getD]
  cases h : M.prior[c]? with
  | none => simp
  | some v => simpa using (hT.prior_pos v (List.mem_of_getElem? h)).le

theorem trans_nonneg {M : HierHmm K} (hT : M.Top) (s c : Nat) : 0 ≤ (M.trans.getD s []).getD c 0 := by
  rw [List.getD_eq_getElem?_getD, List.getD_eq_getElem?_getD]
  cases h : M.trans[s]? with
  | none => simp
  | some r =>
    cases h' : r[c]? with
    | none => simp [h']
    | some v => simpa [h'] using hT.row_nonneg r (List.mem_of_getElem? h) v (List.mem_of_getElem? h')

theorem exitTrans_bounds {M : HierHmm K} (hT : M.Top) (c : Nat) : 0 ≤ M.exitTrans.getD c 0 ∧ M.exitTrans.getD c 0 ≤ 1 := by
  rw [List.getD_eq_getElem?_getD]
  cases h : M.exitTrans[c]? with
  | none => simp
  | some v => simpa using ⟨hT.exit_nonneg v (List.mem_of_getElem? h), hT.exit_le v (List.mem_of_getElem? h)⟩

theorem list_sum_getD (l : List K) : l.sum = ∑ i ∈ Finset.range l.length, l.getD i 0 := by
  rw [Finset.sum_range, ← List.sum_ofFn]
  congr 1
  refine List.ext_getElem (by simp) fun i h1 h2 => ?_
  simp [List.getD_eq_getElem?_getD, h1]

theorem prior_sum {M : HierHmm K} (hT : M.Top) (hne : M.models ≠ []) : ∑ c ∈ Finset.range M.models.length, M.prior.getD c 0 = 1 := by
  rw [← hT.prior, ← list_sum_getD, hT.prior_sum hne]

theorem row_sum {M : HierHmm K} (hT : M.Top) {s : Nat} (hs : s < M.models.length) :
    ∑ c ∈ Finset.range M.models.length, (M.trans.getD s []).getD c 0 = 1 := by
  have h : s < M.trans.length := by rw [hT.trans]; exact hs
  have e : M.trans.getD s [] = M.trans[s] := by simp [List.getD_eq_getElem?_getD, h]
  rw [e, ← hT.row _ (List.getElem_mem h), ← list_sum_getD, hT.row_sum _ (List.getElem_mem h)]

theorem entering_nonneg {M : HierHmm K} (hT : M.Top) (hd : ∀ e c k, 0 ≤ HierSpec.alpha M e c k) (c : Nat) : 0 ≤ entering M c :=
  Finset.sum_nonneg fun s _ => add_nonneg (mul_nonneg (leaving_nonneg hd 1 s) (trans_nonneg hT s c))
    (mul_nonneg (prior_nonneg hT c) (leaving_nonneg hd 2 s))

theorem predicted_nonneg {m : Hmm K} (hm : m.InHierarchy) (h0 : ∀ k, 0 ≤ m.alpha0.getD k 0) {w : K} (hw : 0 ≤ w) (k : Nat) (hk : k < m.n) :
    0 ≤ predicted m w k :=
  add_nonneg (Finset.sum_nonneg fun j hj => mul_nonneg (h0 j) (within_nonneg hm j k (Finset.mem_range.1 hj)))
    (mul_nonneg (hm.can.chain.start_nonneg k hk) hw)

theorem joint_nonneg {M : HierHmm K} (hM : M.Ready) (hd : ∀ e c k, 0 ≤ HierSpec.alpha M e c k) {b : Nat → Nat → K}
    (hb : ∀ c k, c < M.models.length → k < states M c → 0 ≤ b c k) (c k : Nat) (hk : k < states M c) : 0 ≤ joint M b c k := by
  unfold joint
  cases h : M.models[c]? with
  | none => simp
  | some lc =>
    simp only [Option.map_some, Option.getD_some]
    have hk' := hk
    rw [states_of h] at hk'
    exact mul_nonneg (hb c k (lt_of_get h) hk) (predicted_nonneg (hM.cls lc (mem_of_get h)).1 (fun k => by
      have := hd 0 c k
      rw [alpha_of h] at this
      exact this) (entering_nonneg hM.top hd c) k hk')

/-- what the observation makes of a distribution has a positive weight -/
theorem evidence_pos {M : HierHmm K} (hM : M.Ready) (hn : ∀ e c k, 0 ≤ HierSpec.alpha M e c k) (hd : 0 < mass M) {b : Nat → Nat → K}
    (hb : ∀ c k, c < M.models.length → k < states M c → 0 < b c k) : 0 < evidence M b := by
  have hj := fun c k hk => joint_nonneg hM hn (fun c k hc hk => (hb c k hc hk).le) c k hk
  have hne : M.models ≠ [] := by
    intro h
    unfold mass at hd
    rw [h] at hd
    simp at hd
  refine lt_of_le_of_ne (Finset.sum_nonneg fun c _ => Finset.sum_nonneg fun k hk => hj c k (Finset.mem_range.1 hk)) fun h0 => ?_
  have hz : ∀ c < M.models.length, ∀ k < states M c, joint M b c k = 0 := by
    intro c hc k hk
    have h1 := (Finset.sum_eq_zero_iff_of_nonneg (fun c _ => Finset.sum_nonneg fun k hk => hj c k (Finset.mem_range.1 hk))).1 h0.symm c
      (Finset.mem_range.2 hc)
    exact (Finset.sum_eq_zero_iff_of_nonneg (fun k hk => hj c k (Finset.mem_range.1 hk))).1 h1 k (Finset.mem_range.2 hk)
  -- nothing enters a class, and nothing stays
  have hkey : ∀ c < M.models.length, entering M c = 0 ∧ ∀ k < states M c, HierSpec.alpha M 0 c k = 0 := by
    intro c hc
    obtain ⟨lc, hlc⟩ := get_class hc
    have hI := (hM.cls lc (mem_of_get hlc)).1
    have ha : ∀ k, 0 ≤ lc.2.alpha0.getD k 0 := fun k => by
      have := hn 0 c k
      rw [alpha_of hlc] at this
      exact this
    have hw := entering_nonneg hM.top hn c
    have hp : ∀ k < lc.2.n, predicted lc.2 (entering M c) k = 0 := by
      intro k hk
      have h1 := hz c hc k (by rw [states_of hlc]; exact hk)
      simp only [joint, hlc, Option.map_some, Option.getD_some] at h1
      exact (mul_eq_zero.1 h1).resolve_left (hb c k hc (by rw [states_of hlc]; exact hk)).ne'
    have hs : ∀ k < lc.2.n, (∑ j ∈ Finset.range lc.2.n, lc.2.alpha0.getD j 0 * within lc.2 j k) = 0 ∧
        HmmSpec.start lc.2 k * entering M c = 0 := by
      intro k hk
      have h1 := Finset.sum_nonneg fun j hj => mul_nonneg (ha j) (within_nonneg hI j k (Finset.mem_range.1 hj))
      exact (add_eq_zero_iff_of_nonneg h1 (mul_nonneg (hI.can.chain.start_nonneg k hk) hw)).1 (hp k hk)
    constructor
    · have := hI.can.chain.start_sum
      calc entering M c = (∑ k ∈ Finset.range lc.2.n, HmmSpec.start lc.2 k) * entering M c := by rw [this, one_mul]
        _ = 0 := by
          rw [Finset.sum_mul]
          exact Finset.sum_eq_zero fun k hk => (hs k (Finset.mem_range.1 hk)).2
    · intro j hj'
      rw [states_of hlc] at hj'
      have h1 : ∀ k ∈ Finset.range lc.2.n, lc.2.alpha0.getD j 0 * within lc.2 j k = 0 := fun k hk =>
        (Finset.sum_eq_zero_iff_of_nonneg (fun j hj => mul_nonneg (ha j) (within_nonneg hI j k (Finset.mem_range.1 hj)))).1
          (hs k (Finset.mem_range.1 hk)).1 j (Finset.mem_range.2 hj')
      have h2 := Finset.sum_eq_zero h1
      rw [← Finset.mul_sum] at h2
      rw [alpha_of hlc]
      exact (mul_eq_zero.1 h2).resolve_right (within_sum_pos hI j hj').ne'
  have hleave : ∀ s < M.models.length, leaving M 1 s = 0 ∧ leaving M 2 s = 0 := by
    intro s hs
    have h1 : ∀ c ∈ Finset.range M.models.length, leaving M 1 s * (M.trans.getD s []).getD c 0 = 0 ∧ M.prior.getD c 0 * leaving M 2 s = 0 := by
      intro c hc
      have h2 := (Finset.sum_eq_zero_iff_of_nonneg (fun s _ => add_nonneg (mul_nonneg (leaving_nonneg hn 1 s) (trans_nonneg hM.top s c))
        (mul_nonneg (prior_nonneg hM.top c) (leaving_nonneg hn 2 s)))).1 (hkey c (Finset.mem_range.1 hc)).1 s (Finset.mem_range.2 hs)
      exact (add_eq_zero_iff_of_nonneg (mul_nonneg (leaving_nonneg hn 1 s) (trans_nonneg hM.top s c))
        (mul_nonneg (prior_nonneg hM.top c) (leaving_nonneg hn 2 s))).1 h2
    constructor
    · have h2 := Finset.sum_eq_zero fun c hc => (h1 c hc).1
      rwa [← Finset.mul_sum, row_sum hM.top hs, mul_one] at h2
    · have h2 := Finset.sum_eq_zero fun c hc => (h1 c hc).2
      rwa [← Finset.sum_mul, prior_sum hM.top hne, one_mul] at h2
  have : mass M = 0 := by
    refine Finset.sum_eq_zero fun c hc => Finset.sum_eq_zero fun k hk => ?_
    rw [Finset.mem_range] at hc hk
    have e1 := (Finset.sum_eq_zero_iff_of_nonneg (fun k _ => hn 1 c k)).1 (hleave c hc).1 k (Finset.mem_range.2 hk)
    have e2 := (Finset.sum_eq_zero_iff_of_nonneg (fun k _ => hn 2 c k)).1 (hleave c hc).2 k (Finset.mem_range.2 hk)
    simp [Finset.sum_range_succ, (hkey c hc).2 k hk, e1, e2]
  exact hd.ne' this

end HierHmm
end Xmm
