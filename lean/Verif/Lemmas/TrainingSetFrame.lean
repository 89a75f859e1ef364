import Verif.Lemmas.TrainingSetWorld
set_option linter.unusedSectionVars false
/- Which calls leave which phrases and training sets alone. -/
namespace Xmm.TS
open Prog
variable {K L : Type} [LinearOrder L]

/-- a training set without its label index -/
def TSet.strip (t : TSet L) : TSet L := { t with labels := [], subs := [] }

/-- equal up to the label indices -/
structure SameBase (w w' : World K L) : Prop where
  obj : w'.obj = w.obj
  next : w'.next = w.next
  sets : ∀ i, (w'.sets i).map TSet.strip = (w.sets i).map TSet.strip

/-- a predicate that does not look at label indices -/
def Insens (Q : World K L → Prop) : Prop := ∀ w w', SameBase w w' → Q w → Q w'

theorem updateLoop_strip (lab : Nat → L) (ls : List L) (t : TSet L) : (updateLoop lab ls t).1.strip = t.strip := by
  induction ls generalizing t with
  | nil => rfl
  | cons l ls ih =>
    simp only [updateLoop]
    cases h : makeSub lab t l with
    | mk s e =>
      cases e with
      | none => simp only []; rw [ih]; rfl
      | some e => rfl

theorem updateSet_strip (lab : Nat → L) (t : TSet L) : (updateSet lab t).1.strip = t.strip := by
  simp only [updateSet]; rw [updateLoop_strip]; rfl

theorem sameBase_putSet (w : World K L) (i : Nat) (t t' : TSet L) (h : w.sets i = some t) (hs : t'.strip = t.strip) :
    SameBase w (w.putSet i (some t')) := by
  refine ⟨rfl, rfl, fun j => ?_⟩
  rw [putSet_sets]
  by_cases hj : j = i
  · subst hj; simp [h, hs]
  · simp [hj]

theorem update_insens {Q : World K L → Prop} (hQ : Insens Q) (i : Nat) : Tri Q (update i) (fun _ w => Q w) Q := by
  intro w hw
  simp only [update, getSet, bind_def, get_def]
  cases h : w.sets i with
  | none => trivial
  | some t =>
    simp only [pure_def]
    have hs := updateSet_strip (fun r => (w.obj r).label) t
    cases hu : updateSet (fun r => (w.obj r).label) t with
    | mk t' e =>
      rw [hu] at hs
      cases e with
      | none => exact hQ w _ (sameBase_putSet w i t t' h hs) hw
      | some e => exact hQ w _ (sameBase_putSet w i t t' h hs) hw

theorem notify_insens {Q : World K L → Prop} (hQ : Insens Q) (is : List Nat) : Tri Q (notify is) (fun _ w => Q w) Q := by
  induction is with
  | nil => exact Tri.pure fun _ h => h
  | cons i is ih => exact Tri.bind (update_insens hQ i) fun _ => ih

theorem onSubs_insens {Q : World K L → Prop} (hQ : Insens Q) (i : Nat) (f : Sub → Sub × Option Exn) :
    Tri Q (onSubs i f) (fun _ w => Q w) Q := by
  refine Tri.bind (getSet_tri i _ _) fun t => ?_
  simp only
  refine Tri.bind (Q := fun _ w => Q w) (Tri.modify fun w hw =>
    hQ w _ (sameBase_putSet w i t { t with subs := (eachSub f t.subs).1 } hw.2 rfl) hw.1) fun _ => ?_
  cases (eachSub f t.subs).2 with
  | none => exact Tri.pure fun _ h => h
  | some e => exact Tri.throw fun _ h => h

/-- the world after `addPhrase` stored a new phrase `o` at `k`, before `update` -/
def World.added (w : World K L) (i : Nat) (t : TSet L) (k : Int) (o : PhraseObj K L) : World K L where
  obj := fun r => if r = w.next then o else w.obj r
  next := w.next + 1
  sets := fun j => if j = i then some { t with phrases := SMap.assign k w.next t.phrases } else w.sets j

theorem World.ext' {w w' : World K L} (h1 : w.obj = w'.obj) (h2 : w.next = w'.next) (h3 : w.sets = w'.sets) :
    w = w' := by
  cases w; cases w'; simp_all

theorem addLabel_eq [Inhabited L] (i : Nat) (k : Int) (l : L) (w : World K L) (t : TSet L) (ht : w.sets i = some t)
    (hd : DimsOk t.bimodal t.dims) (hc : t.Coherent) :
    ∃ p2 : Phrase K, p2.dimension = t.dims.dim ∧ p2.dimensionInput = t.dims.di ∧ p2.ownMemory = t.own ∧
      p2.bimodal = t.bimodal ∧ p2.dimMin = (Dims.new t.bimodal).dimMin ∧ p2.diMin = (Dims.new t.bimodal).diMin ∧
      p2.diMax = t.dims.dim - 1 ∧ p2.columnNames = t.cols ∧
      addLabel i k l w = update i (w.added i t k ⟨p2, l, EventGen.addListener i () []⟩) := by
  obtain ⟨p1, p2, e1, e2, a1, a2, a3, a4, a5, a6, a7, _⟩ := construct_dims (K := K) t.own t.bimodal t.dims.dim t.dims.di
    (by rw [← hd.dimMin]; exact hd.dim) (by rw [← hd.diMin]; exact hd.di) hc
  refine ⟨{ p2 with columnNames := t.cols }, a1, a2, a3, a4, a5, a6, a7, rfl, ?_⟩
  simp only [addLabel, alloc, putPhrase, listen, getSet, bind_def, get_def, set_def, pure_def, ht, modify_def,
    World.putObj, World.putSet, onPhrase, if_true, e1, e2]
  congr 1
  refine World.ext' (funext fun r => ?_) rfl rfl
  by_cases hr : r = w.next <;> simp [World.added, hr]

theorem addCopy_eq (i : Nat) (k : Int) (p q : Phrase K) (l : L) (w : World K L) (t : TSet L) (ht : w.sets i = some t)
    (hq : Phrase.copy p = some q) :
    addCopy i k p l w = update i (w.added i t k ⟨q, l, EventGen.addListener i () []⟩) := by
  simp only [addCopy, hq, alloc, putPhrase, listen, getSet, bind_def, get_def, set_def, pure_def, ht, modify_def,
    World.putObj, World.putSet, if_true]
  congr 1
  refine World.ext' (funext fun r => ?_) rfl rfl
  by_cases hr : r = w.next <;> simp [World.added, hr]

/-! ## A set `j` whose phrases are not touched -/

/-- the reference is one of the phrases of the set `s` (if it exists) -/
def HeldBy (s : Option (TSet L)) (r : Nat) : Prop := ∃ t k, s = some t ∧ t.Holds k r

/-- `j` is as it was in `w0`, and shares no phrase with `i` -/
structure Frame (w0 : World K L) (i j : Nat) (w : World K L) : Prop where
  sets : (w.sets j).map TSet.strip = (w0.sets j).map TSet.strip
  obj : ∀ r, HeldBy (w0.sets j) r → (w.obj r).ph = (w0.obj r).ph ∧ (w.obj r).label = (w0.obj r).label
  lt : ∀ r, HeldBy (w0.sets j) r → r < w.next
  lti : ∀ r, HeldBy (w.sets i) r → r < w.next
  disj : ∀ r, HeldBy (w.sets i) r → ¬ HeldBy (w0.sets j) r

theorem heldBy_strip {s s' : Option (TSet L)} (h : s'.map TSet.strip = s.map TSet.strip) (r : Nat) :
    HeldBy s' r ↔ HeldBy s r := by
  have aux : ∀ {s s' : Option (TSet L)}, s'.map TSet.strip = s.map TSet.strip → HeldBy s' r → HeldBy s r := by
    rintro s s' h ⟨t, k, rfl, hk⟩
    cases s with
    | none => cases h
    | some u =>
      simp only [Option.map_some, Option.some.injEq] at h
      refine ⟨u, k, rfl, ?_⟩
      have : t.strip.phrases = u.strip.phrases := congrArg TSet.phrases h
      simp only [TSet.strip] at this
      simpa [TSet.Holds, this] using hk
  exact ⟨aux h, aux h.symm⟩

theorem frame_insens (w0 : World K L) (i j : Nat) : Insens (Frame w0 i j) := by
  intro w w' hb hf
  refine ⟨(hb.sets j).trans hf.sets, fun r hr => ?_, fun r hr => ?_, fun r hr => ?_, fun r hr => ?_⟩
  · rw [hb.obj]; exact hf.obj r hr
  · rw [hb.next]; exact hf.lt r hr
  · rw [hb.next]; exact hf.lti r ((heldBy_strip (hb.sets i) r).1 hr)
  · exact hf.disj r ((heldBy_strip (hb.sets i) r).1 hr)

variable {w0 : World K L} {i j : Nat}

/-- replacing set `i` by one that holds no more phrases -/
theorem Frame.putSet {w : World K L} (h : Frame w0 i j w) (hij : i ≠ j) (t t' : TSet L) (ht : w.sets i = some t)
    (hs : ∀ k r, t'.Holds k r → t.Holds k r) : Frame w0 i j (w.putSet i (some t')) := by
  have hh : ∀ r, HeldBy ((w.putSet i (some t')).sets i) r → HeldBy (w.sets i) r := by
    rintro r ⟨u, k, hu, hk⟩
    rw [putSet_sets] at hu
    simp only [if_true, Option.some.injEq] at hu
    subst hu
    exact ⟨t, k, ht, hs k r hk⟩
  refine ⟨?_, h.obj, h.lt, fun r hr => h.lti r (hh r hr), fun r hr => h.disj r (hh r hr)⟩
  rw [putSet_sets, if_neg (Ne.symm hij)]; exact h.sets

/-- changing a phrase of set `i` -/
theorem Frame.putObj {w : World K L} (h : Frame w0 i j w) (r : Nat) (o : PhraseObj K L)
    (hr : ¬ HeldBy (w0.sets j) r) : Frame w0 i j (w.putObj r o) := by
  refine ⟨h.sets, fun r' hr' => ?_, h.lt, h.lti, h.disj⟩
  have : r' ≠ r := fun e => hr (e ▸ hr')
  simp only [World.putObj, if_neg this]
  exact h.obj r' hr'

theorem Frame.added {w : World K L} (h : Frame w0 i j w) (hij : i ≠ j) (t : TSet L) (ht : w.sets i = some t)
    (k : Int) (o : PhraseObj K L) : Frame w0 i j (w.added i t k o) := by
  have hh : ∀ r, HeldBy ((w.added i t k o).sets i) r → r = w.next ∨ HeldBy (w.sets i) r := by
    rintro r ⟨u, k', hu, hk⟩
    simp only [World.added, if_true, Option.some.injEq] at hu
    subst hu
    simp only [TSet.Holds, SMap.find?_assign] at hk
    split at hk
    · left; simpa using hk.symm
    · right; exact ⟨t, k', ht, hk⟩
  refine ⟨?_, fun r hr => ?_, fun r hr => ?_, fun r hr => ?_, fun r hr => ?_⟩
  · simp only [World.added, if_neg (Ne.symm hij)]; exact h.sets
  · have : r ≠ w.next := Nat.ne_of_lt (h.lt r hr)
    simp only [World.added, if_neg this]; exact h.obj r hr
  · exact Nat.lt_succ_of_lt (h.lt r hr)
  · rcases hh r hr with rfl | h'
    · exact Nat.lt_succ_self _
    · exact Nat.lt_succ_of_lt (h.lti r h')
  · rcases hh r hr with rfl | h'
    · intro hc; exact absurd (h.lt _ hc) (Nat.lt_irrefl _)
    · exact h.disj r h'

theorem onPhrase_frame (r : Nat) (f : Prog (Phrase K) Unit) (hr : ¬ HeldBy (w0.sets j) r) :
    Tri (Frame w0 i j) (onPhrase r f) (fun _ w => Frame w0 i j w) (Frame w0 i j) := by
  intro w hw
  simp only [onPhrase]
  cases f (w.obj r).ph with
  | ret a p => exact hw.putObj r _ hr
  | throw e p => exact hw.putObj r _ hr
  | ub => trivial

theorem eachPhrase_frame (f : Prog (Phrase K) Unit) (l : List (Int × Nat))
    (hl : ∀ e ∈ l, ¬ HeldBy (w0.sets j) e.2) :
    Tri (Frame w0 i j) (eachPhrase f l) (fun _ w => Frame w0 i j w) (Frame w0 i j) := by
  induction l with
  | nil => exact Tri.pure fun _ h => h
  | cons e l ih =>
    exact Tri.bind (onPhrase_frame _ _ (hl e List.mem_cons_self)) fun _ => ih fun e he => hl e (List.mem_cons_of_mem _ he)

end Xmm.TS
