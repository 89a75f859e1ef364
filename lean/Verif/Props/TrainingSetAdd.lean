import Verif.Props.TrainingSetDims
import Verif.Props.TrainingSetCopy
set_option linter.unusedSimpArgs false
set_option linter.unusedSectionVars false
/- What adding a phrase to a training set does. -/
namespace Xmm.TS
open Prog
variable {K L : Type} [LinearOrder L]

/-- what a successful `addPhrase` at index `k` of training set `i` does to the world; `r` is the phrase stored -/
structure Added (w w' : World K L) (i : Nat) (t : TSet L) (k : Int) (r : Nat) (t' : TSet L) : Prop where
  set : w'.sets i = some t'
  others : ∀ j, j ≠ i → w'.sets j = w.sets j
  attrs : t'.own = t.own ∧ t'.bimodal = t.bimodal ∧ t'.dims = t.dims ∧ t'.cols = t.cols
  holds : ∀ k' r', t'.Holds k' r' ↔ if k' = k then r' = r else t.Holds k' r'
  untouched : ∀ r', r' < w.next → (w'.obj r').ph = (w.obj r').ph ∧ (w'.obj r').label = (w.obj r').label
  exact : Exact (fun r => (w'.obj r).label) t'
  classes : ∀ l s, t'.subs.find? l = some s → s.dims.dim = t.dims.dim ∧ s.dims.di = t.dims.di ∧ s.cols = t.cols

theorem added_of_update (w : World K L) (i : Nat) (t : TSet L) (hI : Inv w) (hC : w.Coherent) (ht : w.sets i = some t)
    (k : Int) (o : PhraseObj K L) :
    ∃ w' t', update i (w.added i t k o) = .ret () w' ∧ Added w w' i t k w.next t' ∧ w'.obj w.next = o := by
  have hreg := hI.1 i t ht
  set t1 : TSet L := { t with phrases := SMap.assign k w.next t.phrases } with ht1
  have hset : (w.added i t k o).sets i = some t1 := by simp [World.added, ht1]
  obtain ⟨lb, su, h1, h2, h3⟩ := updateSet_ok (fun r => ((w.added i t k o).obj r).label) t1 hreg.dims (hC i t ht)
    (SMap.Sorted.assign hreg.sorted)
  refine ⟨(w.added i t k o).putSet i (some { t1 with labels := lb, subs := su }), { t1 with labels := lb, subs := su },
    ?_, ⟨by simp [putSet_sets], fun j hj => ?_, ⟨rfl, rfl, rfl, rfl⟩, fun k' r' => ?_, fun r' hr' => ?_, h2, h3⟩, ?_⟩
  · simp only [update, bind_def, getSet, get_def, hset, pure_def, h1, set_def]
  · rw [putSet_sets, if_neg hj]; simp [World.added, hj]
  · simp only [TSet.Holds, ht1, SMap.find?_assign]
    by_cases hk : k' = k <;> simp [hk, eq_comm]
  · have : r' ≠ w.next := Nat.ne_of_lt hr'
    simp [World.putSet, World.added, this]
  · simp [World.putSet, World.added]

/-- C63: in every admissible state, `addPhrase(k, label)` returns normally. The training set then holds at index `k` a new
    phrase with the given label and with the dimensions, column names and memory mode of the set; every other index, every
    other training set, and the frames and label of every phrase that existed are unchanged; the label index is exact, and
    the set of each class has the dimensions and column names of the whole set. -/
theorem C63_add_label_exact [Inhabited L] (ops : List (Op K L)) (ha : Admissible ops World.empty)
    (w : World K L) (es : List (Option Exn)) (hr : run ops World.empty = some (w, es)) (hC : w.Coherent)
    (i : Nat) (t : TSet L) (ht : w.sets i = some t) (k : Int) (l : L) :
    ∃ w' t' r, step (.addLabel i k l) w = .ret () w' ∧ w.next ≤ r ∧ Added w w' i t k r t' ∧ (w'.obj r).label = l ∧
      (w'.obj r).ph.dimension = t.dims.dim ∧ (w'.obj r).ph.dimensionInput = t.dims.di ∧
      (w'.obj r).ph.columnNames = t.cols ∧ (w'.obj r).ph.bimodal = t.bimodal ∧ (w'.obj r).ph.ownMemory = t.own ∧
      (w'.obj r).listeners.keys = [i] := by
  have hI := run_inv ops _ inv_empty ha w es hr
  obtain ⟨p, a1, a2, a3, a4, _, _, _, a8, he⟩ := addLabel_eq i k l w t ht (hI.1 i t ht).dims (hC i t ht)
  obtain ⟨w', t', h1, h2, h3⟩ := added_of_update w i t hI hC ht k ⟨p, l, EventGen.addListener i () []⟩
  refine ⟨w', t', w.next, he.trans h1, le_refl _, h2, ?_⟩
  rw [h3]
  exact ⟨rfl, a1, a2, a8, a4, a3, rfl⟩

/-- C63 (by reference): adding a phrase that can be copied stores a new phrase holding the same frames and label. -/
theorem C63_add_copy_exact [Inhabited L] (ops : List (Op K L)) (ha : Admissible ops World.empty)
    (w : World K L) (es : List (Option Exn)) (hr : run ops World.empty = some (w, es)) (hC : w.Coherent)
    (i : Nat) (t : TSet L) (ht : w.sets i = some t) (k : Int) (l : L) (p : Phrase K) (frames : PhraseSpec.S K)
    (hrep : p.Rep frames) (hco : frames.Coherent) (hne : 0 < p.maxLength) :
    ∃ w' t' r, step (.addCopy i k p l) w = .ret () w' ∧ w.next ≤ r ∧ Added w w' i t k r t' ∧ (w'.obj r).label = l ∧
      (w'.obj r).ph.Rep frames ∧ (w'.obj r).listeners.keys = [i] := by
  have hI := run_inv ops _ inv_empty ha w es hr
  obtain ⟨q, hq, hrq⟩ := hrep.copy hco hne
  obtain ⟨w', t', h1, h2, h3⟩ := added_of_update w i t hI hC ht k ⟨q, l, EventGen.addListener i () []⟩
  refine ⟨w', t', w.next, (addCopy_eq i k p q l w t ht hq).trans h1, le_refl _, h2, ?_⟩
  rw [h3]
  exact ⟨rfl, hrq, rfl⟩

set_option synthInstance.maxSize 1000
set_option synthInstance.maxHeartbeats 200000

/-- non-vacuity: a reachable, coherent set with a phrase, to which a second one is added -/
example : (run [.newSet 0 true true, .setDim 0 5, .addLabel 0 1 7, .addLabel 0 3 8] (World.empty : World ℚ Nat)).map
      (fun p => (p.2, (p.1.sets 0).map fun t => (t.phrases, t.labels.keys, decide (t.dims.di < t.dims.dim)),
        (p.1.obj 1).label, (p.1.obj 1).ph.dimension)) =
    some ([none, none, none, none], some ([(1, 0), (3, 1)], [7, 8], true), 8, 5) := by decide +kernel

/-- After the dimension of a set that holds a phrase has changed, every change of `column_names` throws `domain_error`: the
    sets of the classes keep the old column names.  (The set and its phrases do have the new names.) -/
theorem C63_column_names_after_dimension_throws :
    (run [.newSet 0 true false, .addLabel 0 1 7, .setDim 0 2, .setCols 0 ["x", "y"]] (World.empty : World ℚ Nat)).map
      (fun p => (p.2, (p.1.sets 0).map fun t => (t.cols, (p.1.obj 0).ph.columnNames, t.subs.map fun e => e.2.cols))) =
    some ([none, none, none, some .domainError], some (["x", "y"], ["x", "y"], [[""]])) := by decide +kernel

end Xmm.TS
