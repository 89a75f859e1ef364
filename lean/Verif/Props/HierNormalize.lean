import Verif.Props.HierClasses
/- The normalisation of the parameters of the top level. -/
namespace Xmm
namespace HierHmm
open Phrase (loop)
open Gauss (rd rd_lt)
open Hmm (divideList divideList_ret)
variable {K : Type} [Field K] [LinearOrder K] [IsStrictOrderedRing K]

theorem map_eq_range {K : Type} [Zero K] (l : List K) (f : K → K) : (List.range l.length).map (fun k => f (l.getD k 0)) = l.map f := by
  refine List.ext_getElem (by simp) fun i h1 h2 => ?_
  simp only [List.length_map] at h2
  simp [List.getD_eq_getElem?_getD, List.getElem?_eq_getElem h2]

omit [LinearOrder K] [IsStrictOrderedRing K] in
theorem sumLoop_ret {σ : Type} (l : List K) (n : Nat) (hn : l.length = n) (t : σ) : loop n (0 : K) (fun acc j => do
    let a ← rd l j
    pure (acc + a)) t = .ret l.sum t := by
  subst hn
  obtain ⟨a, h1, h2⟩ := loop_inv l.length (0 : K) (fun acc j => do
    let a ← rd l j
    pure (acc + a)) t (fun j v => v = (l.take j).sum) (by simp) (by
      rintro j hj v rfl
      exact ⟨_, by rw [Prog.bind_def, rd_lt hj 0 t]; rfl, by
        rw [List.take_add_one, List.sum_append, List.getD_eq_getElem?_getD, List.getElem?_eq_getElem hj]; simp⟩)
  rw [h1, h2, List.take_length]

theorem normalizeRow_ret {σ : Type} (n : Nat) (r : List K) (hn : r.length = n) (t : σ) :
    normalizeRow n r t = .ret (if 0 < r.sum then r.map fun a => a / r.sum else r) t := by
  unfold normalizeRow
  rw [bind_of_ret (sumLoop_ret r n hn t)]
  split
  · subst hn
    rw [divideList_ret _ _ _ rfl t, map_eq_range r fun a => a / r.sum]
  · rfl

/-- **C49**: `normalizeTransitions` divides the prior probabilities by their sum, and each row of transition probabilities with a positive sum by that sum;
    it changes nothing else. (A protected member function that the library itself never calls.) -/
theorem C49_normalized (M : HierHmm K) (hp : M.prior.length = M.size) (ht : M.trans.length = M.size) (hr : ∀ r ∈ M.trans, r.length = M.size) :
    normalizeTransitions M = .ret () { M with
      prior := M.prior.map fun p => p / M.prior.sum
      trans := M.trans.map fun r => if 0 < r.sum then r.map fun a => a / r.sum else r } := by
  unfold normalizeTransitions
  rw [bind_of_ret (Prog.get_def M)]
  let f : List K → List K := fun r => if 0 < r.sum then r.map fun a => a / r.sum else r
  obtain ⟨z, M1, h1, h2, h3⟩ := loop_state M.size (0 : K) (fun acc i => do
    let M ← Prog.get
    let p ← rd M.prior i
    let row ← rd M.trans i
    let row' ← normalizeRow M.size row
    Prog.set { M with trans := M.trans.set i row' }
    pure (acc + p)) M (fun j z M' => z = (M.prior.take j).sum ∧ M' = { M with trans := M.trans.mapIdx fun c r => if c < j then f r else r })
    ⟨by simp, by
      have e : (M.trans.mapIdx fun c r => if c < 0 then f r else r) = M.trans := List.ext_getElem (by simp) fun i _ _ => by simp
      rw [e]⟩ (by
      rintro j hj z M1 ⟨rfl, rfl⟩
      have hjt : j < M.trans.length := ht ▸ hj
      have hjp : j < M.prior.length := hp ▸ hj
      have hg : (M.trans.mapIdx fun c r => if c < j then f r else r)[j]? = some M.trans[j] := by
        rw [List.getElem?_mapIdx, List.getElem?_eq_getElem hjt]; simp
      refine ⟨(M.prior.take j).sum + M.prior.getD j 0, { M with trans := M.trans.mapIdx fun c r => if c < j + 1 then f r else r }, ?_, ?_, rfl⟩
      · rw [bind_of_ret (Prog.get_def _)]
        rw [bind_of_ret (rd_lt hjp 0 _)]
        rw [bind_of_ret (rd_lt (by simpa using hjt) [] _)]
        rw [List.getD_eq_getElem?_getD, hg, Option.getD_some]
        refine (bind_of_ret (normalizeRow_ret _ _ (hr _ (List.getElem_mem hjt)) _)).trans ?_
        refine (bind_of_ret (Prog.set_def _ _)).trans ?_
        have := mapIdx_step M.trans (fun _ => f) j _ (List.getElem?_eq_getElem hjt)
        simp only [← this]
        rfl
      · rw [List.take_add_one, List.sum_append, List.getD_eq_getElem?_getD, List.getElem?_eq_getElem hjp]; simp)
  rw [bind_of_ret h1]
  subst h2 h3
  have e1 : (M.trans.mapIdx fun c r => if c < M.size then f r else r) = M.trans.map f := by
    rw [← ht]
    refine List.ext_getElem (by simp) fun i h1 h2 => ?_
    simp only [List.length_map] at h2
    simp [h2]
  rw [bind_of_ret (Prog.get_def _)]
  rw [e1, ← hp, List.take_length]
  refine (bind_of_ret (divideList_ret _ _ _ hp _)).trans ?_
  rw [Prog.set_def]
  have := map_eq_range M.prior fun p => p / M.prior.sum
  rw [hp] at this
  simp only [← this]
  rfl

/-- … so that the prior probabilities and the rows of a model with nonnegative weights are probability distributions -/
theorem C49_normalized_distribution (M : HierHmm K) (hp : M.prior.length = M.size) (ht : M.trans.length = M.size) (hr : ∀ r ∈ M.trans, r.length = M.size)
    (h0 : ∀ p ∈ M.prior, 0 ≤ p) (h1 : 0 < M.prior.sum) (h2 : ∀ r ∈ M.trans, (∀ a ∈ r, 0 ≤ a) ∧ 0 < r.sum) :
    ∃ M', normalizeTransitions M = .ret () M' ∧ (∀ p ∈ M'.prior, 0 ≤ p) ∧ M'.prior.sum = 1 ∧ ∀ r ∈ M'.trans, (∀ a ∈ r, 0 ≤ a) ∧ r.sum = 1 := by
  have hd : ∀ l : List K, (∀ p ∈ l, 0 ≤ p) → 0 < l.sum → (∀ p ∈ l.map fun a => a / l.sum, 0 ≤ p) ∧ (l.map fun a => a / l.sum).sum = 1 := by
    intro l h h'
    refine ⟨fun p hp => ?_, ?_⟩
    · obtain ⟨a, ha, rfl⟩ := List.mem_map.1 hp
      exact div_nonneg (h a ha) h'.le
    · simp only [div_eq_mul_inv]
      rw [List.sum_map_mul_right]
      simp only [List.map_id']
      exact mul_inv_cancel₀ h'.ne'
  refine ⟨_, C49_normalized M hp ht hr, (hd _ h0 h1).1, (hd _ h0 h1).2, fun r hr' => ?_⟩
  obtain ⟨r, hr1, rfl⟩ := List.mem_map.1 hr'
  rw [if_pos (h2 r hr1).2]
  exact hd r (h2 r hr1).1 (h2 r hr1).2

/-- a model with two trained classes, and unnormalised weights of the classes -/
example : ∃ M : HierHmm ℝ, M.models.length = 2 ∧ M.prior = [1, 3] ∧ M.trans = [[1, 1], [2, 6]] ∧ M.prior.length = M.size ∧ M.trans.length = M.size ∧
    (∀ r ∈ M.trans, r.length = M.size) ∧ (∀ p ∈ M.prior, 0 ≤ p) ∧ 0 < M.prior.sum ∧ ∀ r ∈ M.trans, (∀ a ∈ r, 0 ≤ a) ∧ 0 < r.sum := by
  obtain ⟨M0, h1, h2, -⟩ := trained_exists false .full
  have hs : ({ M0 with prior := [1, 3], trans := [[1, 1], [2, 6]] } : HierHmm ℝ).size = 2 := by
    unfold size
    simp only [h2, h1.nulls, List.length_nil]
  refine ⟨{ M0 with prior := [1, 3], trans := [[1, 1], [2, 6]] }, h2, rfl, rfl, hs.symm, hs.symm, ?_, ?_, ?_, ?_⟩
  · rw [hs]; simp
  · simp
  · norm_num
  · norm_num

end HierHmm
end Xmm
