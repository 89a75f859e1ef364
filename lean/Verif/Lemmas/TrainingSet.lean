import Verif.Spec.TrainingSet
import Verif.Lemmas.StdMap
import Verif.Lemmas.Hoare
/- Facts about `update()` of a training set. -/
namespace Xmm.SMap
variable {κ : Type u} {ν : Type v} [LinearOrder κ]

theorem find?_foldl_assign {m : SMap κ ν} (h : Sorted m) (acc : SMap κ ν) (k : κ) :
    find? k (m.foldl (fun m e => assign e.1 e.2 m) acc) = match find? k m with
      | some v => some v
      | none => find? k acc := by
  induction m generalizing acc with
  | nil => rfl
  | cons e m ih =>
    obtain ⟨k', v'⟩ := e
    rw [sorted_cons] at h
    rw [List.foldl_cons, ih h.2]
    simp only [find?]
    by_cases h1 : k = k'
    · subst h1
      rw [find?_none_of_lt h.1]
      simp [find?_assign]
    · simp [h1, find?_assign]

theorem Sorted.filter {m : SMap κ ν} (h : Sorted m) (p : κ × ν → Bool) : Sorted (m.filter p) :=
  List.Pairwise.filter p h

theorem find?_filter {m : SMap κ ν} (h : Sorted m) (p : κ × ν → Bool) (k : κ) (v : ν) :
    find? k (m.filter p) = some v ↔ find? k m = some v ∧ p (k, v) = true := by
  rw [← mem_iff_find? (h.filter p), ← mem_iff_find? h, List.mem_filter]

theorem sorted_foldl_insertNew {α : Type w} (l : List α) (f : α → κ) (g : α → ν) (acc : SMap κ ν) (h : Sorted acc) :
    Sorted (l.foldl (fun acc e => insertNew (f e) (g e) acc) acc) := by
  induction l generalizing acc with
  | nil => exact h
  | cons e l ih => exact ih _ h.insertNew

theorem mem_keys_foldl_insertNew {α : Type w} (l : List α) (f : α → κ) (g : α → ν) (acc : SMap κ ν) (k : κ) :
    k ∈ keys (l.foldl (fun acc e => insertNew (f e) (g e) acc) acc) ↔ (∃ e ∈ l, f e = k) ∨ k ∈ keys acc := by
  induction l generalizing acc with
  | nil => simp
  | cons e l ih =>
    rw [List.foldl_cons, ih]
    have : k ∈ keys (insertNew (f e) (g e) acc) ↔ f e = k ∨ k ∈ keys acc := by
      rw [mem_keys_iff, mem_keys_iff, find?_insertNew]
      by_cases h : k = f e
      · subst h
        cases hf : find? (f e) acc with
        | none => simp
        | some v => simp
      · have h' : ¬ f e = k := fun h2 => h h2.symm
        simp [h, h']
    rw [this]
    simp only [List.mem_cons, exists_eq_or_imp]
    exact or_left_comm.trans or_assoc.symm

end Xmm.SMap

namespace Xmm.TS
variable {K L : Type} [LinearOrder L]

/-- limits that never change -/
structure DimsOk (b : Bool) (d : Dims) : Prop where
  dimMin : d.dimMin = (Dims.new b).dimMin
  diMin : d.diMin = (Dims.new b).diMin
  dim : d.dimMin ≤ d.dim
  di : d.diMin ≤ d.di

theorem makeSub_ok (lab : Nat → L) (t : TSet L) (hd : DimsOk t.bimodal t.dims) (hc : t.Coherent)
    (hs : SMap.Sorted t.phrases) (l : L) :
    ∃ s, makeSub lab t l = (s, none) ∧ s.dims.dim = t.dims.dim ∧ s.dims.di = t.dims.di ∧ s.cols = t.cols ∧
      ∀ k r, s.phrases.find? k = some r ↔ (t.Holds k r ∧ lab r = l) := by
  have h1 : ¬ t.dims.dim < (Dims.new t.bimodal).dimMin := by
    have := hd.dim; rw [hd.dimMin] at this; omega
  have h2 : ¬ (t.dims.di < (Dims.new t.bimodal).diMin ∨ t.dims.dim - 1 < t.dims.di) := by
    have h := hd.di; rw [hd.diMin] at h
    have : t.dims.di < t.dims.dim := hc
    omega
  simp only [makeSub, Sub.setDim, h1, if_false, Sub.setDi, h2]
  refine ⟨_, rfl, rfl, rfl, rfl, fun k r => ?_⟩
  rw [SMap.find?_foldl_assign (hs.filter _)]
  have hf := SMap.find?_filter hs (fun e => decide (lab e.2 = l)) k r
  simp only [TSet.Holds]
  cases hx : SMap.find? k (t.phrases.filter fun e => decide (lab e.2 = l)) with
  | none =>
    rw [hx] at hf
    simp only [SMap.find?, reduceCtorEq, false_iff] at hf ⊢
    simpa using hf
  | some v =>
    rw [hx] at hf
    simpa using hf

/-- `makeSub` only reads the dimensions, columns and phrases -/
theorem makeSub_subs (lab : Nat → L) (t : TSet L) (l : L) (lb : SMap L Unit) (su : SMap L Sub) :
    makeSub lab { t with labels := lb, subs := su } l = makeSub lab t l := rfl

theorem updateLoop_ok (lab : Nat → L) (t : TSet L) (hd : DimsOk t.bimodal t.dims) (hc : t.Coherent)
    (hs : SMap.Sorted t.phrases) (ls : List L) (su : SMap L Sub) :
    ∃ su', updateLoop lab ls { t with subs := su } = ({ t with subs := su' }, none) ∧
      ∀ l, SMap.find? l su' = if l ∈ ls then some (makeSub lab t l).1 else SMap.find? l su := by
  induction ls generalizing su with
  | nil => exact ⟨su, rfl, by simp⟩
  | cons l ls ih =>
    obtain ⟨s, h1, _, _, _, _⟩ := makeSub_ok lab t hd hc hs l
    have h1' : makeSub lab { t with subs := su } l = (s, none) := h1
    obtain ⟨su', h2, h3⟩ := ih (SMap.assign l s su)
    refine ⟨su', ?_, ?_⟩
    · simp only [updateLoop, h1']; exact h2
    · intro l'
      rw [h3, SMap.find?_assign]
      by_cases h4 : l' = l
      · subst h4
        by_cases h5 : l' ∈ ls <;> simp [h5, h1]
      · simp [h4]

/-- `update()` succeeds on a coherent training set, changes only the index and makes it exact. -/
theorem updateSet_ok (lab : Nat → L) (t : TSet L) (hd : DimsOk t.bimodal t.dims) (hc : t.Coherent)
    (hs : SMap.Sorted t.phrases) :
    ∃ lb su, updateSet lab t = ({ t with labels := lb, subs := su }, none) ∧
      Exact lab { t with labels := lb, subs := su } ∧
      (∀ l s, SMap.find? l su = some s → s.dims.dim = t.dims.dim ∧ s.dims.di = t.dims.di ∧ s.cols = t.cols) := by
  obtain ⟨su, h1, h2⟩ := updateLoop_ok lab { t with labels := labelsOf lab t.phrases } hd hc hs
    (labelsOf lab t.phrases).keys []
  have hlab : ∀ l, l ∈ (labelsOf lab t.phrases).keys ↔ ∃ k r, t.Holds k r ∧ lab r = l := by
    intro l
    unfold labelsOf
    rw [SMap.mem_keys_foldl_insertNew]
    simp only [SMap.keys, List.map_nil, List.not_mem_nil, or_false, TSet.Holds, Prod.exists]
    constructor
    · rintro ⟨a, b, hab, rfl⟩; exact ⟨a, b, (SMap.mem_iff_find? hs).1 hab, rfl⟩
    · rintro ⟨a, b, hab, rfl⟩; exact ⟨a, b, (SMap.mem_iff_find? hs).2 hab, rfl⟩
  have hsub : ∀ l, makeSub lab { t with labels := labelsOf lab t.phrases } l = makeSub lab t l := fun _ => rfl
  refine ⟨labelsOf lab t.phrases, su, h1, ⟨hlab, ?_⟩, ?_⟩
  · intro l
    show match SMap.find? l su with | none => _ | some s => _
    rw [h2 l]
    by_cases h : l ∈ (labelsOf lab t.phrases).keys
    · obtain ⟨s, hs1, _, _, _, hs2⟩ := makeSub_ok lab t hd hc hs l
      simp only [h, if_true, hsub, hs1]
      exact ⟨(hlab l).1 h, hs2⟩
    · simp only [h, if_false, SMap.find?]
      exact fun hx => h ((hlab l).2 hx)
  · intro l s h
    rw [h2 l] at h
    obtain ⟨s', hs1, hs2, hs3, hs4, _⟩ := makeSub_ok lab t hd hc hs l
    by_cases hl : l ∈ (labelsOf lab t.phrases).keys
    · rw [if_pos hl] at h
      simp only [hsub, hs1, Option.some.injEq] at h
      rw [← h]; exact ⟨hs2, hs3, hs4⟩
    · rw [if_neg hl] at h; simp [SMap.find?] at h

/-- exactness only depends on the labels of the phrases of the set -/
theorem Exact.congr {lab lab' : Nat → L} {t : TSet L} (h : Exact lab t) (he : ∀ k r, t.Holds k r → lab r = lab' r) :
    Exact lab' t := by
  have hex : ∀ l, (∃ k r, t.Holds k r ∧ lab' r = l) ↔ ∃ k r, t.Holds k r ∧ lab r = l := by
    intro l
    constructor
    · rintro ⟨k, r, h1, h2⟩; exact ⟨k, r, h1, (he k r h1).trans h2⟩
    · rintro ⟨k, r, h1, h2⟩; exact ⟨k, r, h1, (he k r h1).symm.trans h2⟩
  refine ⟨fun l => (h.1 l).trans (hex l).symm, fun l => ?_⟩
  have h2 := h.2 l
  cases hf : SMap.find? l t.subs with
  | none => rw [hf] at h2; simp only at h2 ⊢; rwa [hex]
  | some s =>
    rw [hf] at h2
    simp only at h2 ⊢
    refine ⟨(hex l).2 h2.1, fun k r => (h2.2 k r).trans ?_⟩
    constructor
    · rintro ⟨a, b⟩; exact ⟨a, (he k r a).symm.trans b⟩
    · rintro ⟨a, b⟩; exact ⟨a, (he k r a).trans b⟩

end Xmm.TS
