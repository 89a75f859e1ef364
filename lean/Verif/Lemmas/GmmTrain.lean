import Verif.Spec.GmmTrain
import Verif.Lemmas.Takes
import Mathlib.Algebra.BigOperators.Intervals
set_option linter.unusedSectionVars false
/- Statistics of the takes of a class, and the classes that training adds. -/
namespace Xmm
open PhraseSpec Phrase TSStats TSStatsSpec TS

theorem sum_range_getD {α K : Type} [AddCommMonoid K] (z : α) (g : α → K) (l : List α) : ∑ t ∈ Finset.range l.length, g (l.getD t z) = (l.map g).sum := by
  induction l with
  | nil => simp
  | cons x l ih =>
    rw [List.length_cons, Finset.sum_range_succ', List.map_cons, List.sum_cons, ← ih, add_comm]
    simp

/-- the specification of each object of a class -/
theorem zip_specs {K L : Type} [LinearOrder L] {f : Format} {i : Nat} {w : World K L} {m : SMap Int Nat} {τ : Takes K L}
    (h : SMap.Zip (fun _ r e => Item f i w r e) m τ) (hn : (m.map Prod.snd).Nodup) :
    ∃ s : Nat → S K, List.Forall₂ (fun a b => a.1 = b.1 ∧ Item f i w a.2 b.2 ∧ s a.2 = b.2.2) m τ := by
  unfold SMap.Zip at h
  induction h with
  | nil => exact ⟨fun _ => ⟨false, 0, 0, 0, 0, [], []⟩, .nil⟩
  | @cons a b m τ hab hl ih =>
    simp only [List.map_cons, List.nodup_cons] at hn
    obtain ⟨s, hs⟩ := ih hn.2
    refine ⟨fun r => if r = a.2 then b.2.2 else s r, .cons ⟨hab.1, hab.2, by simp⟩ ?_⟩
    rw [List.forall₂_iff_get] at hs ⊢
    refine ⟨hs.1, fun n h1 h2 => ?_⟩
    obtain ⟨q1, q2, q3⟩ := hs.2 n h1 h2
    refine ⟨q1, q2, ?_⟩
    beta_reduce
    rw [if_neg ?_]
    · exact q3
    · intro hc
      exact hn.1 (List.mem_map.2 ⟨_, List.get_mem m ⟨n, h1⟩, hc⟩)

/-- `standardDeviation()` of the set of a class -/
theorem deviation_ret {f : Format} {i : Nat} {w : World ℝ String} {m : SMap Int Nat} {τ : Takes ℝ String} (hv : f.Valid)
    (h : SMap.Zip (fun _ r e => Item f i w r e) m τ) (hn : (m.map Prod.snd).Nodup) :
    TSStats.standardDeviation Real.sqrt f.dim (m.map Prod.snd) w.store = .ret (KData.deviation ⟨f.dim, τ.frames⟩) w.store := by
  obtain ⟨s, hs⟩ := zip_specs h hn
  have hmem : ∀ r ∈ m.map Prod.snd, ∃ e, Item f i w r e ∧ s r = e.2 := by
    intro r hr
    obtain ⟨a, ha, rfl⟩ := List.mem_map.1 hr
    obtain ⟨n, h1, rfl⟩ := List.getElem_of_mem ha
    have := (List.forall₂_iff_get.1 hs).2 n h1 (by rw [← hs.length_eq]; exact h1)
    exact ⟨_, this.2.1, this.2.2⟩
  have hh : Holds w.store s (m.map Prod.snd) f.dim := by
    refine ⟨fun r hr => ?_, fun r hr => ?_, fun r hr => ?_⟩ <;> obtain ⟨e, h1, h2⟩ := hmem r hr <;> rw [h2]
    · exact h1.rep
    · exact h1.coh hv
    · exact h1.dim
  have hmap : ∀ {β : Type} (F : S ℝ → β), (m.map Prod.snd).map (fun r => F (s r)) = τ.map fun e => F e.2.2 := by
    intro β F
    rw [List.map_map]
    apply List.ext_getElem
    · simp [hs.length_eq]
    · intro n h1 h2
      simp only [List.length_map] at h1 h2
      have := (List.forall₂_iff_get.1 hs).2 n h1 h2
      simp only [List.getElem_map, Function.comp]
      exact congrArg F this.2.2
  have hframes : TSStatsSpec.frames s (m.map Prod.snd) = τ.frames.flatten.length := by
    unfold TSStatsSpec.frames
    rw [hmap fun x => x.size, List.length_flatten, Takes.frames, List.map_map]
    refine congrArg List.sum (List.map_congr_left fun e _ => (frames_length e.2.2).symm)
  have hcol : ∀ d < f.dim, ∀ g : ℝ → ℝ, colSum s (m.map Prod.snd) d g = (τ.frames.flatten.map fun x => g (x.getD d 0)).sum := by
    intro d hd g
    unfold colSum
    rw [hmap fun x => ∑ t ∈ Finset.range x.size, g ((x.value t d).getD 0), List.map_flatten, List.sum_flatten, Takes.frames, List.map_map, List.map_map]
    refine congrArg List.sum (List.map_congr_left fun e he => ?_)
    obtain ⟨n, h2, rfl⟩ := List.getElem_of_mem he
    have hi := ((List.forall₂_iff_get.1 hs).2 n (by rw [hs.length_eq]; exact h2) h2).2.1
    simp only [List.get_eq_getElem] at hi
    simp only [Function.comp]
    rw [← sum_range_getD [] (fun x : List ℝ => g (x.getD d 0)), frames_length]
    refine Finset.sum_congr rfl fun t ht => ?_
    have ht' := Finset.mem_range.1 ht
    rw [hi.rep.frames_value (hi.coh hv) ht' (by rw [hi.dim]; exact hd)]
    have htf : t < τ[n].2.2.frames.length := by rw [frames_length]; exact ht'
    rw [List.getElem?_eq_getElem htf]
    simp [List.getD, htf]
  rw [sd_ret hh]
  refine congrArg (Res.ret · w.store) (List.map_congr_left fun d hd => ?_)
  have hd' := List.mem_range.1 hd
  simp only [sdOf, meanOf, hcol d hd', hframes, GmmSpec.covariance, GmmSpec.average, KData.frames, id]

namespace GmmModel

theorem addClasses_spec {K : Type} (new : String → Gmm K) (labels : List String) :
    SMap.Sorted (addClasses new labels) ∧ (∀ l, l ∈ SMap.keys (addClasses new labels) ↔ l ∈ labels) ∧ ∀ lc ∈ addClasses new labels, lc.2 = new lc.1 := by
  refine ⟨SMap.sorted_foldl_insertNew labels id new [] SMap.sorted_nil, fun l => ?_, ?_⟩
  · have := SMap.mem_keys_foldl_insertNew labels id new [] l
    simpa [addClasses, SMap.keys] using this
  · have : ∀ (m : SMap String (Gmm K)), (∀ lc ∈ m, lc.2 = new lc.1) → ∀ lc ∈ labels.foldl (fun m l => SMap.insertNew l (new l) m) m, lc.2 = new lc.1 := by
      induction labels with
      | nil => intro m h; exact h
      | cons l ls ih =>
        intro m h
        refine ih _ fun lc hlc => ?_
        unfold SMap.insertNew at hlc
        beta_reduce at hlc
        split at hlc
        · exact h lc hlc
        · rcases SMap.mem_assign hlc with h1 | h1
          · rw [h1]
          · exact h lc h1
    exact this [] (by simp)

end GmmModel
end Xmm
