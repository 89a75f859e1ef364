import Verif.Lemmas.TrainingSetWorld
import Mathlib.Data.Rat.Defs
import Mathlib.Order.Lattice.Nat
set_option linter.unusedSectionVars false
/- C21: the label index.  C58: removing a class. -/
namespace Xmm.TS
open Prog
variable {K L : Type} [LinearOrder L]

/-- C21: in every state reached by a history of calls (constructing, copying, assigning and destroying any number of
    training sets; adding, sharing, removing and relabelling phrases; recording into them; changing dimensions and column
    names; exceptions are caught), every existing training set reports exactly the labels of the phrases it holds, and
    gives for each label exactly the phrases with that label, under their indices.
    `Admissible`: no phrase is added, removed or relabelled while some training set has an input dimension that is not
    below its dimension (see `C21_admissible_without_dims` and `C21_incoherent_dims_violated`). -/
theorem C21_label_index_exact [Inhabited L] (ops : List (Op K L)) (ha : Admissible ops World.empty)
    (w : World K L) (es : List (Option Exn)) (hr : run ops World.empty = some (w, es)) (i : Nat) (t : TSet L)
    (ht : w.sets i = some t) :
    (∀ l, l ∈ t.labels.keys ↔ ∃ k r, t.Holds k r ∧ (w.obj r).label = l) ∧
    ∀ l, match t.subs.find? l with
      | none => ¬ ∃ k r, t.Holds k r ∧ (w.obj r).label = l
      | some s => (∃ k r, t.Holds k r ∧ (w.obj r).label = l) ∧
          ∀ k r, s.phrases.find? k = some r ↔ (t.Holds k r ∧ (w.obj r).label = l) :=
  (run_inv ops _ inv_empty ha w es hr).2 i id t ht

/-- calls that do not change dimensions -/
def Op.keepsDims : Op K L → Bool
  | .setDim _ _ | .setDi _ _ => false
  | _ => true

/-- coherence is kept by a program on worlds that never changes dimensions -/
abbrev KC (f : Prog (World K L) Unit) : Prop :=
  Tri (fun w => Inv w ∧ w.Coherent) f (fun _ w => Inv w ∧ w.Coherent) (fun w => Inv w ∧ w.Coherent)

theorem putObj_coherent {w : World K L} (h : w.Coherent) (r : Nat) (o : PhraseObj K L) : (w.putObj r o).Coherent := h

theorem coherent_new (own b : Bool) : (TSet.new own b : TSet L).Coherent := by
  cases b <;> simp [TSet.Coherent, TSet.new, Dims.new]

theorem KC.of_upd {f : Prog (World K L) Unit}
    (h : Tri (fun w => Inv w ∧ w.Coherent) f (fun _ w => Inv w ∧ w.Coherent) (fun _ => False)) : KC f :=
  h.conseq (fun _ h => h) (fun _ _ h => h) (fun _ h => h.elim)

/-- combine the invariant with coherence -/
theorem KC.of_both {f : Prog (World K L) Unit} (h : Tri (fun w => Inv w) f (fun _ w => Inv w) (fun w => Inv w))
    (hc : Tri (fun w : World K L => w.Coherent) f (fun _ w => w.Coherent) (fun w => w.Coherent)) : KC f := by
  intro w hw
  have h1 := h w hw.1
  have h2 := hc w hw.2
  cases hf : f w with
  | ret a w' => rw [hf] at h1 h2; exact ⟨h1, h2⟩
  | throw e w' => rw [hf] at h1 h2; exact ⟨h1, h2⟩
  | ub => trivial

theorem onPhrase_coh (r : Nat) (f : Prog (Phrase K) Unit) :
    Tri (fun w : World K L => w.Coherent) (onPhrase r f) (fun _ w => w.Coherent) (fun w => w.Coherent) := by
  intro w hw
  simp only [onPhrase]
  cases f (w.obj r).ph with
  | ret a p => exact putObj_coherent hw r _
  | throw e p => exact putObj_coherent hw r _
  | ub => trivial

theorem step_coherent [Inhabited L] (op : Op K L) (hop : op.keepsDims = true) : KC (step op) := by
  cases op with
  | newSet i o b =>
    refine KC.of_both (newSet_tri i o b) ?_
    intro w hw
    simp only [step, newSet, bind_def, get_def]
    cases w.sets i with
    | some t => trivial
    | none => exact putSet_coherent hw i _ (coherent_new o b)
  | copyConstruct s i => exact KC.of_upd (copyConstruct_tri s i)
  | assign i s => exact KC.of_upd (assign_tri i s)
  | destroy i =>
    refine KC.of_both (destroy_tri i) ?_
    refine Tri.bind (getSet_tri i _ _) fun t => Tri.modify fun w hw j u hu => ?_
    rw [putSet_sets] at hu
    by_cases hji : j = i
    · simp [hji] at hu
    · rw [if_neg hji] at hu; exact hw.1 j u hu
  | newPhrase o b => exact KC.of_both (newPhrase_tri o b) fun w hw => hw
  | phraseOp r op =>
    refine KC.of_both (phraseOp_tri r op) ?_
    refine Tri.bind (Q := fun _ w => w.Coherent) (Tri.get fun _ h => h) fun w' => ?_
    exact Tri.ite (fun _ => onPhrase_coh _ _) fun _ => Tri.undef
  | relabel r l => exact KC.of_upd (userRelabel_tri r l)
  | addLabel i k l => exact KC.of_upd (addLabel_tri i k l)
  | addCopy i k p l => exact KC.of_upd (addCopy_tri i k p l)
  | addShared i k r => exact KC.of_upd (addShared_tri i k r)
  | remove i k => exact KC.of_upd (remove_tri i k)
  | removeClass i l => exact KC.of_upd (removeClass_tri i l)
  | clear i =>
    refine KC.of_both (clear_tri i) ?_
    refine Tri.bind (getSet_tri i _ _) fun t => Tri.modify fun w hw => ?_
    exact putSet_coherent hw.1 i _ (hw.1 i t hw.2)
  | setDim i d => simp [Op.keepsDims] at hop
  | setDi i d => simp [Op.keepsDims] at hop
  | setCols i c =>
    refine KC.of_both (setCols_tri i c) ?_
    refine Tri.bind (getSet_tri i _ _) fun t => Tri.ite (fun _ => Tri.throw fun w hw => hw.1) fun _ => ?_
    refine Tri.bind (Q := fun _ w => w.Coherent)
      (Tri.modify fun w hw => putSet_coherent hw.1 i { t with cols := c } (hw.1 i t hw.2)) fun _ => ?_
    refine Tri.bind (Q := fun _ w => w.Coherent) ?_ fun _ => ?_
    · have : ∀ l : List (Int × Nat), Tri (fun w : World K L => w.Coherent)
          (eachPhrase (Prog.modify fun p => { p with columnNames := c }) l) (fun _ w => w.Coherent)
          (fun w => w.Coherent) := by
        intro l
        induction l with
        | nil => exact Tri.pure fun _ h => h
        | cons e l ih => exact Tri.bind (onPhrase_coh _ _) fun _ => ih
      exact this _
    · refine Tri.bind (getSet_tri i _ _) fun t => ?_
      simp only
      refine Tri.bind (Q := fun _ w => w.Coherent) (Tri.modify fun w hw =>
        putSet_coherent hw.1 i { t with subs := (eachSub (Sub.setCols c) t.subs).1 } (hw.1 i t hw.2)) fun _ => ?_
      cases (eachSub (Sub.setCols c) t.subs).2 with
      | none => exact Tri.pure fun _ h => h
      | some e => exact Tri.throw fun _ h => h

/-- C21 (side condition): every history that leaves the dimensions at their default values is admissible, so the
    hypothesis of `C21_label_index_exact` excludes nothing from "every history of adding, removing, clearing and
    relabelling". -/
theorem C21_admissible_without_dims [Inhabited L] (ops : List (Op K L)) (h : ∀ op ∈ ops, op.keepsDims = true) :
    Admissible ops (World.empty : World K L) := by
  have : ∀ (ops : List (Op K L)) (w : World K L), Inv w → w.Coherent → (∀ op ∈ ops, op.keepsDims = true) →
      Admissible ops w := by
    intro ops
    induction ops with
    | nil => intro w _ _ _; trivial
    | cons op ops ih =>
      intro w hI hC hk
      refine ⟨fun _ => hC, ?_⟩
      have hs := step_coherent op (hk op List.mem_cons_self) w ⟨hI, hC⟩
      cases hst : step op w with
      | ret a w' => rw [hst] at hs; exact ih w' hs.1 hs.2 fun o ho => hk o (List.mem_cons_of_mem _ ho)
      | throw e w' => rw [hst] at hs; exact ih w' hs.1 hs.2 fun o ho => hk o (List.mem_cons_of_mem _ ho)
      | ub => trivial
  exact this ops _ inv_empty (by intro i t ht; simp [World.empty] at ht) h

theorem run_obs {α : Type} {ops : List (Op K L)} [Inhabited L] {w0 : World K L} {f : World K L × List (Option Exn) → α}
    {x : α} (h : (run ops w0).map f = some x) : ∃ w es, run ops w0 = some (w, es) ∧ f (w, es) = x := by
  cases hr : run ops w0 with
  | none => rw [hr] at h; cases h
  | some p => rw [hr] at h; exact ⟨p.1, p.2, rfl, by simpa using h⟩

/-- C21 is violated when the input dimension is not below the dimension: after `dimension.set(3)`,
    `dimension_input.set(2)`, `dimension.set(2)`, adding a phrase throws `domain_error`, but the phrase stays in the
    training set, which then holds a phrase and reports no label. -/
theorem C21_incoherent_dims_violated :
    ∃ w t r, run [.newSet 0 true true, .setDim 0 3, .setDi 0 2, .setDim 0 2, .addLabel 0 4 8]
        (World.empty : World ℚ Nat) = some (w, [none, none, none, none, some .domainError]) ∧
      w.sets 0 = some t ∧ t.Holds 4 r ∧ t.labels.keys = [] := by
  obtain ⟨w, es, h1, h2⟩ := run_obs (K := ℚ) (L := Nat)
    (ops := [.newSet 0 true true, .setDim 0 3, .setDi 0 2, .setDim 0 2, .addLabel 0 4 8])
    (w0 := World.empty) (f := fun p => (p.2, (p.1.sets 0).map fun t => (t.phrases, t.labels.keys)))
    (x := ([none, none, none, none, some .domainError], some ([(4, 0)], []))) (by decide +kernel)
  simp only [Prod.mk.injEq, Option.map_eq_some_iff] at h2
  obtain ⟨rfl, t, h3, h4, h5⟩ := h2
  exact ⟨w, t, 0, h1, h3, by simp [TSet.Holds, h4, SMap.find?], h5⟩

/-- A training set that is destroyed stays registered with the phrases it held: relabelling such a phrase later is
    undefined behaviour (the callback is bound to the destroyed object). -/
theorem C21_dangling_listener_violated :
    run [.newPhrase true false, .newSet 0 true false, .addShared 0 1 0, .destroy 0, .relabel 0 8]
      (World.empty : World ℚ Nat) = none := by
  rw [← Option.isNone_iff_eq_none]; decide +kernel

set_option synthInstance.maxSize 1000 in
set_option synthInstance.maxHeartbeats 200000 in
/-- non-vacuity: two phrases of class 7, one relabelled to 9 -/
example : (run [.newSet 0 true false, .addLabel 0 1 7, .addLabel 0 5 7, .relabel 1 9]
      (World.empty : World ℚ Nat)).map (fun p => (p.2, (p.1.sets 0).map fun t => (t.labels.keys, t.phrases,
        (t.subs.find? 7).map Sub.phrases,
        (t.subs.find? 9).map Sub.phrases))) =
    some ([none, none, none, none], some ([7, 9], [(1, 0), (5, 1)], some [(1, 0)], some [(5, 1)])) := by decide +kernel

/-! ## Removing phrases -/

theorem SMap.erase_eq_filter {κ : Type} {ν : Type} [LinearOrder κ] {m : SMap κ ν} (h : SMap.Sorted m) (k : κ) :
    SMap.erase k m = m.filter fun e => decide (e.1 ≠ k) := by
  induction m with
  | nil => rfl
  | cons e m ih =>
    obtain ⟨k', v'⟩ := e
    rw [SMap.sorted_cons] at h
    unfold SMap.erase
    by_cases hk : k = k'
    · subst hk
      rw [if_pos rfl, List.filter_cons_of_neg (by simp)]
      symm
      rw [List.filter_eq_self]
      intro x hx
      have := h.1 x hx
      simpa using ne_of_gt this
    · rw [if_neg hk, List.filter_cons_of_pos (by simpa using Ne.symm hk), ih h.2]

/-- `removePhrase` on a coherent world: exactly that entry goes away, nothing else changes but the index -/
theorem remove_ret (i : Nat) (k : Int) (w : World K L) (t : TSet L) (hI : Inv w) (hC : w.Coherent)
    (ht : w.sets i = some t) :
    ∃ w' t', remove i k w = .ret () w' ∧ w'.sets i = some t' ∧ t'.phrases = SMap.erase k t.phrases ∧
      w'.obj = w.obj ∧ Inv w' ∧ w'.Coherent := by
  have htri := remove_tri i k w ⟨hI, hC⟩
  have hreg := hI.1 i t ht
  obtain ⟨lb, su, h1, _, _⟩ := updateSet_ok (fun r => (w.obj r).label) { t with phrases := SMap.erase k t.phrases }
    hreg.dims (hC i t ht) hreg.sorted.erase
  have hrem : remove i k w = .ret () ((w.putSet i (some { t with phrases := SMap.erase k t.phrases })).putSet i
      (some { t with phrases := SMap.erase k t.phrases, labels := lb, subs := su })) := by
    simp only [remove, getSet, bind_def, get_def, ht, pure_def, modify_def, update, putSet_sets, if_true]
    have : (w.putSet i (some { t with phrases := SMap.erase k t.phrases })).obj = w.obj := rfl
    rw [this, h1]
    rfl
  rw [hrem] at htri
  exact ⟨_, _, hrem, by simp [putSet_sets]; rfl, rfl, rfl, htri.1, htri.2⟩

theorem removeClassLoop_ret (i : Nat) (l : L) (n : Nat) (w : World K L) (t : TSet L) (hI : Inv w) (hC : w.Coherent)
    (ht : w.sets i = some t) (hn : t.phrases.length < n) :
    ∃ w' t', removeClassLoop i l n w = .ret () w' ∧ w'.sets i = some t' ∧
      t'.phrases = t.phrases.filter (fun e => decide ((w.obj e.2).label ≠ l)) ∧
      w'.obj = w.obj ∧ Inv w' ∧ w'.Coherent := by
  induction n generalizing w t with
  | zero => omega
  | succ n ih =>
    have hreg := hI.1 i t ht
    cases hf : List.find? (fun e => decide ((w.obj e.2).label = l)) t.phrases with
    | none =>
      refine ⟨w, t, ?_, ht, ?_, rfl, hI, hC⟩
      · simp [removeClassLoop, getSet, ht, hf]
      · symm
        rw [List.filter_eq_self]
        intro e he
        have := (List.find?_eq_none.1 hf) e he
        simpa using this
    | some e =>
      obtain ⟨w1, t1, r1, s1, p1, o1, I1, C1⟩ := remove_ret i e.1 w t hI hC ht
      have hmem := List.mem_of_find?_eq_some hf
      have hlab : (w.obj e.2).label = l := by simpa using List.find?_some hf
      have hlen : (SMap.erase e.1 t.phrases).length < t.phrases.length := by
        rw [SMap.erase_eq_filter hreg.sorted]
        exact List.length_filter_lt_length_iff_exists.2 ⟨e, hmem, by simp⟩
      obtain ⟨w2, t2, r2, s2, p2, o2, I2, C2⟩ := ih w1 t1 I1 C1 s1 (by rw [p1]; omega)
      refine ⟨w2, t2, ?_, s2, ?_, o2.trans o1, I2, C2⟩
      · simp only [removeClassLoop, bind_def, getSet, get_def, ht, pure_def, hf, r1]
        exact r2
      · rw [p2, p1, SMap.erase_eq_filter hreg.sorted, List.filter_filter, o1]
        apply List.filter_congr
        intro x hx
        simp only [Bool.and_eq_left_iff_imp, decide_eq_true_eq]
        intro hxl hxk
        apply hxl
        have h1 := (SMap.mem_iff_find? hreg.sorted).1 hx
        have h2 := (SMap.mem_iff_find? hreg.sorted).1 hmem
        rw [hxk] at h1
        rw [h1] at h2
        have : x.2 = e.2 := by simpa using h2
        rw [this]; exact hlab

/-- C58: in every admissible state, `removePhrase(k)` and `removePhrasesOfClass(l)` return normally; the first removes
    exactly the phrase at index `k`, the second exactly the phrases labelled `l`: all other phrases keep their index, and
    no phrase object is modified. -/
theorem C58_remove_exact [Inhabited L] (ops : List (Op K L)) (ha : Admissible ops World.empty)
    (w : World K L) (es : List (Option Exn)) (hr : run ops World.empty = some (w, es)) (hC : w.Coherent)
    (i : Nat) (t : TSet L) (ht : w.sets i = some t) :
    (∀ k, ∃ w' t', remove i k w = .ret () w' ∧ w'.sets i = some t' ∧ w'.obj = w.obj ∧
      ∀ k' r, t'.Holds k' r ↔ t.Holds k' r ∧ k' ≠ k) ∧
    ∀ l, ∃ w' t', removeClass i l w = .ret () w' ∧ w'.sets i = some t' ∧ w'.obj = w.obj ∧
      ∀ k' r, t'.Holds k' r ↔ t.Holds k' r ∧ (w.obj r).label ≠ l := by
  have hI := run_inv ops _ inv_empty ha w es hr
  have hreg := hI.1 i t ht
  constructor
  · intro k
    obtain ⟨w', t', h1, h2, h3, h4, _, _⟩ := remove_ret i k w t hI hC ht
    refine ⟨w', t', h1, h2, h4, fun k' r => ?_⟩
    simp only [TSet.Holds, h3, SMap.find?_erase hreg.sorted]
    by_cases hk : k' = k <;> simp [hk]
  · intro l
    obtain ⟨w1, t1, h1, h2, h3, h4, I1, C1⟩ := removeClassLoop_ret i l (t.phrases.length + 1) w t hI hC ht
      (Nat.lt_succ_self _)
    have hreg1 := I1.1 i t1 h2
    obtain ⟨lb, su, u1, _, _⟩ := updateSet_ok (fun r => (w1.obj r).label) t1 hreg1.dims (C1 i t1 h2) hreg1.sorted
    refine ⟨w1.putSet i (some { t1 with labels := lb, subs := su }), _, ?_, by simp [putSet_sets]; rfl, h4, fun k' r => ?_⟩
    · simp only [removeClass, bind_def, getSet, get_def, ht, pure_def, h1, update, h2, u1, set_def]
    · simp only [TSet.Holds, h3]
      rw [SMap.find?_filter hreg.sorted]
      simp

end Xmm.TS
