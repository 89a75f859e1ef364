import Verif.Lemmas.TrainingSetFrame
import Verif.Spec.TrainingSetCopy
import Verif.Props.TrainingSet
import Verif.Props.PhraseCopy
set_option linter.unusedSectionVars false
/- C23: copies of training sets. -/
namespace Xmm.TS
open Prog
variable {K L : Type} [LinearOrder L] {w0 : World K L} {i j : Nat}

theorem mem_of_holds_erase {m : SMap Int Nat} (k k' : Int) (r : Nat) (h : SMap.Sorted m)
    (hk : SMap.find? k' (SMap.erase k m) = some r) : SMap.find? k' m = some r := by
  rw [SMap.find?_erase h] at hk
  split at hk
  · cases hk
  · exact hk

/-- set `i` is sorted -/
def SortedAt (i : Nat) (w : World K L) : Prop := ∀ t, w.sets i = some t → SMap.Sorted t.phrases

theorem sortedAt_insens (i : Nat) : Insens (SortedAt (K := K) (L := L) i) := by
  intro w w' hb h t ht
  have := hb.sets i
  rw [ht] at this
  cases hu : w.sets i with
  | none => rw [hu] at this; cases this
  | some u =>
    rw [hu] at this
    simp only [Option.map_some, Option.some.injEq] at this
    have h2 : t.strip.phrases = u.strip.phrases := congrArg TSet.phrases this
    simp only [TSet.strip] at h2
    rw [h2]; exact h u hu

theorem Insens.and {P Q : World K L → Prop} (h1 : Insens P) (h2 : Insens Q) : Insens fun w => P w ∧ Q w :=
  fun w w' hb h => ⟨h1 w w' hb h.1, h2 w w' hb h.2⟩

abbrev FS (w0 : World K L) (i j : Nat) (w : World K L) : Prop := Frame w0 i j w ∧ SortedAt i w

theorem fs_insens : Insens (FS w0 i j) := (frame_insens w0 i j).and (sortedAt_insens i)

theorem sortedAt_putSet {w : World K L} (t : TSet L) (h : SMap.Sorted t.phrases) :
    SortedAt i (w.putSet i (some t)) := by
  intro u hu
  rw [putSet_sets] at hu
  simp only [if_true, Option.some.injEq] at hu
  exact hu ▸ h

theorem remove_frame' (hij : i ≠ j) (k : Int) : Tri (FS w0 i j) (remove i k) (fun _ w => FS w0 i j w) (FS w0 i j) := by
  refine Tri.bind (getSet_tri i _ _) fun t => ?_
  refine Tri.bind (Q := fun _ w => FS w0 i j w) (Tri.modify fun w hw => ?_) fun _ => update_insens fs_insens i
  have hst := hw.1.2 t hw.2
  exact ⟨hw.1.1.putSet hij t _ hw.2 fun k' r h => mem_of_holds_erase k k' r hst h, sortedAt_putSet _ hst.erase⟩

theorem removeClassLoop_frame (hij : i ≠ j) (l : L) (n : Nat) :
    Tri (FS w0 i j) (removeClassLoop i l n) (fun _ w => FS w0 i j w) (FS w0 i j) := by
  induction n with
  | zero => exact Tri.undef
  | succ n ih =>
    unfold removeClassLoop
    refine Tri.bind ((getSet_tri i _ _).conseq (fun _ h => h) (fun _ _ h => h.1) (fun _ h => h)) fun t => ?_
    refine Tri.bind (Q := fun _ w => FS w0 i j w) (Tri.get fun _ h => h) fun w' => ?_
    cases List.find? (fun e => decide ((w'.obj e.2).label = l)) t.phrases with
    | none => exact Tri.pure fun _ h => h
    | some e => exact Tri.bind (remove_frame' hij e.1) fun _ => ih

theorem eachPhrase_sorted (f : Prog (Phrase K) Unit) (l : List (Int × Nat)) :
    Tri (SortedAt (K := K) (L := L) i) (eachPhrase f l) (fun _ w => SortedAt i w) (SortedAt i) := by
  induction l with
  | nil => exact Tri.pure fun _ h => h
  | cons e l ih =>
    refine Tri.bind (Q := fun _ w => SortedAt i w) ?_ fun _ => ih
    intro w hw
    simp only [onPhrase]
    cases f (w.obj e.2).ph with
    | ret a p => exact hw
    | throw e p => exact hw
    | ub => trivial

/-- the three attribute changes: replace set `i` by one with the same phrases, call each phrase, then change sub sets -/
theorem attr_frame (hij : i ≠ j) (t t' : TSet L) (hp : t'.phrases = t.phrases) (f : Prog (Phrase K) Unit)
    (g : Prog (World K L) Unit) (hg : Tri (FS w0 i j) g (fun _ w => FS w0 i j w) (FS w0 i j)) :
    Tri (fun w => FS w0 i j w ∧ w.sets i = some t)
      (do Prog.modify fun w => w.putSet i (some t')
          eachPhrase f t.phrases
          g) (fun _ w => FS w0 i j w) (FS w0 i j) := by
  intro w hw
  have h0 : FS w0 i j (w.putSet i (some t')) :=
    ⟨hw.1.1.putSet hij t t' hw.2 (fun k r h => by simpa [TSet.Holds, hp] using h),
      sortedAt_putSet t' (hp ▸ hw.1.2 t hw.2)⟩
  have hl : ∀ e ∈ t.phrases, ¬ HeldBy (w0.sets j) e.2 := by
    intro e he
    exact hw.1.1.disj e.2 ⟨t, e.1, hw.2, (SMap.mem_iff_find? (hw.1.2 t hw.2)).1 he⟩
  have := Tri.bind (Tri.and (eachPhrase_frame (w0 := w0) (i := i) (j := j) f t.phrases hl)
    (eachPhrase_sorted (i := i) f t.phrases)) (g := fun _ => g) (fun _ => hg) _ h0
  simpa [bind_def] using this

theorem sideStep_frame [Inhabited L] (hij : i ≠ j) (op : SideOp K L) (w : World K L) (hI : Inv w)
    (o : Op K L) (ho : op.toOp w i = some o) (hC : o.updates = true → w.Coherent) (hF : Frame w0 i j w) :
    Tri (fun w' => w' = w) (step o) (fun _ w => Frame w0 i j w) (Frame w0 i j) := by
  have hS : SortedAt i w := fun t ht => (hI.1 i t ht).sorted
  have fin : ∀ {f : Prog (World K L) Unit}, Tri (FS w0 i j) f (fun _ w => FS w0 i j w) (FS w0 i j) →
      Tri (fun w' => w' = w) f (fun _ w => Frame w0 i j w) (Frame w0 i j) := by
    intro f h
    exact h.conseq (fun w' hw => hw ▸ ⟨hF, hS⟩) (fun _ _ h => h.1) (fun _ h => h.1)
  cases op with
  | addLabel k l =>
    intro w' hww; rw [hww]; clear hww w'
    simp only [SideOp.toOp, Option.some.injEq] at ho
    subst ho
    cases ht : w.sets i with
    | none => simp [step, addLabel, getSet, ht]
    | some t =>
      obtain ⟨p2, _, _, _, _, _, _, _, _, he⟩ := addLabel_eq i k l w t ht (hI.1 i t ht).dims (hC rfl i t ht)
      have := update_insens (frame_insens w0 i j) i _ (hF.added hij t ht k ⟨p2, l, EventGen.addListener i () []⟩)
      rw [← he] at this
      simp only [step]
      cases hf : addLabel i k l w with
      | ret a w' => rw [hf] at this; exact this
      | throw e w' => rw [hf] at this; exact this
      | ub => trivial
  | addCopy k p l =>
    intro w' hww; rw [hww]; clear hww w'
    simp only [SideOp.toOp, Option.some.injEq] at ho
    subst ho
    cases hq : Phrase.copy p with
    | none => simp [step, addCopy, hq]
    | some q =>
      cases ht : w.sets i with
      | none =>
        have : addCopy i k p l w = .ub := by
          simp [addCopy, hq, alloc, putPhrase, getSet, World.putObj, ht]
        simp [step, this]
      | some t =>
        have he := addCopy_eq i k p q l w t ht hq
        have := update_insens (frame_insens w0 i j) i _ (hF.added hij t ht k ⟨q, l, EventGen.addListener i () []⟩)
        rw [← he] at this
        simp only [step]
        cases hf : addCopy i k p l w with
        | ret a w' => rw [hf] at this; exact this
        | throw e w' => rw [hf] at this; exact this
        | ub => trivial
  | remove k =>
    simp only [SideOp.toOp, Option.some.injEq] at ho
    subst ho
    exact fin (remove_frame' hij k)
  | removeClass l =>
    simp only [SideOp.toOp, Option.some.injEq] at ho
    subst ho
    refine fin ?_
    refine Tri.bind ((getSet_tri i _ _).conseq (fun _ h => h) (fun _ _ h => h.1) (fun _ h => h)) fun t => ?_
    exact Tri.bind (removeClassLoop_frame hij l _) fun _ => update_insens fs_insens i
  | clear =>
    simp only [SideOp.toOp, Option.some.injEq] at ho
    subst ho
    refine fin ?_
    refine Tri.bind (getSet_tri i _ _) fun t => Tri.modify fun w hw => ?_
    exact ⟨hw.1.1.putSet hij t _ hw.2 (fun k r h => by simp [TSet.Holds, SMap.find?] at h),
      sortedAt_putSet _ SMap.sorted_nil⟩
  | setDim d =>
    simp only [SideOp.toOp, Option.some.injEq] at ho
    subst ho
    refine fin ?_
    refine Tri.bind (getSet_tri i _ _) fun t => Tri.ite (fun _ => Tri.throw fun w hw => hw.1) fun _ => ?_
    refine attr_frame hij t { t with dims := { t.dims with dim := d } } rfl _ _ ?_
    refine Tri.bind (onSubs_insens fs_insens i _) fun _ => Tri.bind (getSet_tri i _ _) fun t => Tri.modify fun w hw => ?_
    exact ⟨hw.1.1.putSet hij t _ hw.2 (fun k r h => h), sortedAt_putSet _ (hw.1.2 t hw.2)⟩
  | setDi d =>
    simp only [SideOp.toOp, Option.some.injEq] at ho
    subst ho
    refine fin ?_
    refine Tri.bind (getSet_tri i _ _) fun t => Tri.ite (fun _ => Tri.throw fun w hw => hw.1) fun _ => ?_
    exact attr_frame hij t { t with dims := { t.dims with di := d } } rfl _ _ (onSubs_insens fs_insens i _)
  | setCols c =>
    simp only [SideOp.toOp, Option.some.injEq] at ho
    subst ho
    refine fin ?_
    refine Tri.bind (getSet_tri i _ _) fun t => Tri.ite (fun _ => Tri.throw fun w hw => hw.1) fun _ => ?_
    exact attr_frame hij t { t with cols := c } rfl _ _ (onSubs_insens fs_insens i _)
  | phrase k op =>
    intro w' hww; rw [hww]; clear hww w'
    simp only [SideOp.toOp, Option.map_eq_some_iff, Option.bind_eq_some_iff] at ho
    obtain ⟨r, ⟨t, ht, hk⟩, rfl⟩ := ho
    have hr := hF.disj r ⟨t, k, ht, hk⟩
    have hlt := hF.lti r ⟨t, k, ht, hk⟩
    have := onPhrase_frame (i := i) r (Phrase.step op) hr w hF
    simp only [step, phraseOp, bind_def, get_def, hlt, if_true]
    exact this
  | relabel k l =>
    intro w' hww; rw [hww]; clear hww w'
    simp only [SideOp.toOp, Option.map_eq_some_iff, Option.bind_eq_some_iff] at ho
    obtain ⟨r, ⟨t, ht, hk⟩, rfl⟩ := ho
    have hr := hF.disj r ⟨t, k, ht, hk⟩
    have hlt := hF.lti r ⟨t, k, ht, hk⟩
    have := notify_insens (frame_insens w0 i j) (EventGen.notifyListeners () (w.obj r).listeners |>.map Prod.fst)
      _ (hF.putObj r { w.obj r with label := l } hr)
    simp only [step, userRelabel, relabel, bind_def, get_def, hlt, if_true, set_def]
    exact this

/-- training set `i` exists -/
def Exists (i : Nat) (w : World K L) : Prop := ∃ t, w.sets i = some t

theorem exists_insens (i : Nat) : Insens (Exists (K := K) (L := L) i) := by
  rintro w w' hb ⟨t, ht⟩
  have := hb.sets i
  rw [ht] at this
  cases hu : w'.sets i with
  | none => rw [hu] at this; cases this
  | some u => exact ⟨u, hu⟩

theorem exists_put (w : World K L) (t : TSet L) : Exists i (w.putSet i (some t)) := ⟨t, by rw [putSet_sets, if_pos rfl]⟩

theorem onPhrase_exists (r : Nat) (f : Prog (Phrase K) Unit) :
    Tri (Exists (K := K) (L := L) i) (onPhrase r f) (fun _ w => Exists i w) (Exists i) := by
  intro w hw
  simp only [onPhrase]
  cases f (w.obj r).ph with
  | ret a p => exact hw
  | throw e p => exact hw
  | ub => trivial

theorem eachPhrase_exists (f : Prog (Phrase K) Unit) (l : List (Int × Nat)) :
    Tri (Exists (K := K) (L := L) i) (eachPhrase f l) (fun _ w => Exists i w) (Exists i) := by
  induction l with
  | nil => exact Tri.pure fun _ h => h
  | cons e l ih => exact Tri.bind (onPhrase_exists _ _) fun _ => ih

theorem remove_exists (k : Int) : Tri (Exists (K := K) (L := L) i) (remove i k) (fun _ w => Exists i w) (Exists i) :=
  Tri.bind (getSet_tri i _ _) fun _ => Tri.bind (Q := fun _ w => Exists i w) (Tri.modify fun w _ => exists_put w _)
    fun _ => update_insens (exists_insens i) i

theorem removeClassLoop_exists (l : L) (n : Nat) :
    Tri (Exists (K := K) (L := L) i) (removeClassLoop i l n) (fun _ w => Exists i w) (Exists i) := by
  induction n with
  | zero => exact Tri.undef
  | succ n ih =>
    unfold removeClassLoop
    refine Tri.bind ((getSet_tri i _ _).conseq (fun _ h => h) (fun _ _ h => h.1) (fun _ h => h)) fun t => ?_
    refine Tri.bind (Q := fun _ w => Exists i w) (Tri.get fun _ h => h) fun w' => ?_
    cases List.find? (fun e => decide ((w'.obj e.2).label = l)) t.phrases with
    | none => exact Tri.pure fun _ h => h
    | some e => exact Tri.bind (remove_exists e.1) fun _ => ih

theorem putPhrase_exists (k : Int) (r : Nat) :
    Tri (Exists (K := K) (L := L) i) (putPhrase i k r) (fun _ w => Exists i w) (Exists i) :=
  Tri.bind (getSet_tri i _ _) fun _ => Tri.modify fun w _ => exists_put w _

theorem alloc_exists (o : PhraseObj K L) : Tri (Exists (K := K) (L := L) i) (alloc o) (fun _ w => Exists i w) (Exists i) :=
  fun _ h => h

theorem listen_exists (r : Nat) : Tri (Exists (K := K) (L := L) i) (listen i r) (fun _ w => Exists i w) (Exists i) :=
  fun _ h => h

theorem sideStep_exists [Inhabited L] (op : SideOp K L) (w : World K L) (i : Nat) (t : TSet L) (ht : w.sets i = some t)
    (o : Op K L) (ho : op.toOp w i = some o) :
    Tri (fun w' => w' = w) (step o) (fun _ w' => ∃ t, w'.sets i = some t) (fun w' => ∃ t, w'.sets i = some t) := by
  suffices h : Tri (Exists i) (step o) (fun _ w => Exists i w) (Exists i) from
    h.conseq (fun _ e => e ▸ ⟨t, ht⟩) (fun _ _ h => h) (fun _ h => h)
  have U := update_insens (exists_insens (K := K) (L := L) i) i
  cases op with
  | addLabel k l =>
    simp only [SideOp.toOp, Option.some.injEq] at ho
    subst ho
    refine Tri.bind ((getSet_tri i _ _).conseq (fun _ h => h) (fun _ _ h => h.1) (fun _ h => h)) fun t => ?_
    exact Tri.bind (alloc_exists _) fun r => Tri.bind (putPhrase_exists k r) fun _ => Tri.bind (listen_exists r) fun _ =>
      Tri.bind (onPhrase_exists _ _) fun _ => Tri.bind (onPhrase_exists _ _) fun _ =>
      Tri.bind (Q := fun _ w => Exists i w) (Tri.modify fun _ h => h) fun _ => U
  | addCopy k p l =>
    simp only [SideOp.toOp, Option.some.injEq] at ho
    subst ho
    simp only [step, addCopy]
    cases Phrase.copy p with
    | none => exact Tri.undef
    | some q =>
      exact Tri.bind (alloc_exists _) fun r => Tri.bind (putPhrase_exists k r) fun _ =>
        Tri.bind (listen_exists r) fun _ => U
  | remove k =>
    simp only [SideOp.toOp, Option.some.injEq] at ho
    subst ho
    exact remove_exists k
  | removeClass l =>
    simp only [SideOp.toOp, Option.some.injEq] at ho
    subst ho
    refine Tri.bind ((getSet_tri i _ _).conseq (fun _ h => h) (fun _ _ h => h.1) (fun _ h => h)) fun t => ?_
    exact Tri.bind (removeClassLoop_exists l _) fun _ => U
  | clear =>
    simp only [SideOp.toOp, Option.some.injEq] at ho
    subst ho
    exact Tri.bind (getSet_tri i _ _) fun t => Tri.modify fun w _ => exists_put w _
  | setDim d =>
    simp only [SideOp.toOp, Option.some.injEq] at ho
    subst ho
    refine Tri.bind (getSet_tri i _ _) fun t => Tri.ite (fun _ => Tri.throw fun w hw => hw.1) fun _ => ?_
    refine Tri.bind (Q := fun _ w => Exists i w) (Tri.modify fun w _ => exists_put w _) fun _ => ?_
    refine Tri.bind (eachPhrase_exists _ _) fun _ => Tri.bind (onSubs_insens (exists_insens i) i _) fun _ => ?_
    exact Tri.bind (getSet_tri i _ _) fun t => Tri.modify fun w _ => exists_put w _
  | setDi d =>
    simp only [SideOp.toOp, Option.some.injEq] at ho
    subst ho
    refine Tri.bind (getSet_tri i _ _) fun t => Tri.ite (fun _ => Tri.throw fun w hw => hw.1) fun _ => ?_
    refine Tri.bind (Q := fun _ w => Exists i w) (Tri.modify fun w _ => exists_put w _) fun _ => ?_
    exact Tri.bind (eachPhrase_exists _ _) fun _ => onSubs_insens (exists_insens i) i _
  | setCols c =>
    simp only [SideOp.toOp, Option.some.injEq] at ho
    subst ho
    refine Tri.bind (getSet_tri i _ _) fun t => Tri.ite (fun _ => Tri.throw fun w hw => hw.1) fun _ => ?_
    refine Tri.bind (Q := fun _ w => Exists i w) (Tri.modify fun w _ => exists_put w _) fun _ => ?_
    exact Tri.bind (eachPhrase_exists _ _) fun _ => onSubs_insens (exists_insens i) i _
  | phrase k op =>
    simp only [SideOp.toOp, Option.map_eq_some_iff, Option.bind_eq_some_iff] at ho
    obtain ⟨r, _, rfl⟩ := ho
    refine Tri.bind (Q := fun _ w => Exists i w) (Tri.get fun _ h => h) fun w' => ?_
    exact Tri.ite (fun _ => onPhrase_exists _ _) fun _ => Tri.undef
  | relabel k l =>
    simp only [SideOp.toOp, Option.map_eq_some_iff, Option.bind_eq_some_iff] at ho
    obtain ⟨r, _, rfl⟩ := ho
    refine Tri.bind (Q := fun _ w => Exists i w) (Tri.get fun _ h => h) fun w' => ?_
    refine Tri.ite (fun _ => ?_) fun _ => Tri.undef
    exact Tri.bind (Q := fun w' w => Exists i w' ∧ Exists i w) (Tri.get fun _ h => ⟨h, h⟩) fun w' =>
      Tri.bind (Q := fun _ w => Exists i w) (Tri.set fun _ h => h.1) fun _ => notify_insens (exists_insens i) _

/-! ## Independence -/

/-- two training sets that share no phrase -/
def Disj (w : World K L) (a b : Nat) : Prop := ∀ r, HeldBy (w.sets a) r → ¬ HeldBy (w.sets b) r

theorem Disj.frame {w : World K L} (h : Disj w i j) (hI : Inv w) : Frame w i j w := by
  have hlt : ∀ n r, HeldBy (w.sets n) r → r < w.next := by
    rintro n r ⟨t, k, ht, hk⟩; exact ((hI.1 n t ht).refs k r hk).1
  exact ⟨rfl, fun _ _ => ⟨rfl, rfl⟩, hlt j, hlt i, h⟩

theorem Frame.disj' {w w' : World K L} (h : Frame w i j w') : Disj w' i j :=
  fun r hi hj => h.disj r hi ((heldBy_strip h.sets r).1 hj)

theorem inClass_iff {lab : Nat → L} {t : TSet L} (h : Exact lab t) (l : L) (k : Int) (r : Nat) :
    t.InClass l k r ↔ t.Holds k r ∧ lab r = l := by
  have h2 := h.2 l
  unfold TSet.InClass
  cases hs : t.subs.find? l with
  | none =>
    rw [hs] at h2
    constructor
    · rintro ⟨s, h, _⟩; cases h
    · rintro h3; exact absurd ⟨k, r, h3⟩ h2
  | some s =>
    rw [hs] at h2
    rw [← h2.2 k r]
    simp

theorem Frame.sameView {w w' : World K L} (h : Frame w i j w') (hI : Inv w) (hI' : Inv w') (t : TSet L)
    (ht : w.sets j = some t) : ∃ t', SameView w w' j t t' := by
  have hs := h.sets
  rw [ht] at hs
  cases ht' : w'.sets j with
  | none => rw [ht'] at hs; cases hs
  | some t' =>
    rw [ht'] at hs
    simp only [Option.map_some, Option.some.injEq] at hs
    have e1 : t'.strip.own = t.strip.own := congrArg TSet.own hs
    have e2 : t'.strip.bimodal = t.strip.bimodal := congrArg TSet.bimodal hs
    have e3 : t'.strip.dims = t.strip.dims := congrArg TSet.dims hs
    have e4 : t'.strip.cols = t.strip.cols := congrArg TSet.cols hs
    have e5 : t'.strip.phrases = t.strip.phrases := congrArg TSet.phrases hs
    simp only [TSet.strip] at e1 e2 e3 e4 e5
    have hh : ∀ k r, t'.Holds k r ↔ t.Holds k r := by intro k r; simp [TSet.Holds, e5]
    have hc : ∀ k r, t.Holds k r → (w'.obj r).ph = (w.obj r).ph ∧ (w'.obj r).label = (w.obj r).label :=
      fun k r hk => h.obj r ⟨t, k, ht, hk⟩
    have E := hI.2 j id t ht
    have E' := hI'.2 j id t' ht'
    refine ⟨t', ht, ht', e1, e2, e3, e4, e5, hc, fun l => ?_, fun l k r => ?_⟩
    · rw [E.1, E'.1]
      constructor
      · rintro ⟨k, r, hk, hl⟩
        have hk' := (hh k r).1 hk
        exact ⟨k, r, hk', (hc k r hk').2.symm.trans hl⟩
      · rintro ⟨k, r, hk, hl⟩
        exact ⟨k, r, (hh k r).2 hk, (hc k r hk).2.trans hl⟩
    · rw [inClass_iff E, inClass_iff E', hh]
      constructor
      · rintro ⟨hk, hl⟩; exact ⟨hk, (hc k r hk).2.symm.trans hl⟩
      · rintro ⟨hk, hl⟩; exact ⟨hk, (hc k r hk).2.trans hl⟩

theorem independent [Inhabited L] (a b : Nat) (hab : a ≠ b) (ops : List (Bool × SideOp K L)) (w : World K L)
    (hI : Inv w) (hD : Disj w a b) (ta tb : TSet L) (ha : w.sets a = some ta) (hb : w.sets b = some tb) :
    Independent a b ops w := by
  induction ops generalizing w ta tb with
  | nil => trivial
  | cons x ops ih =>
    obtain ⟨side, op⟩ := x
    -- the two sides
    have main : ∀ (i j : Nat) (ti tj : TSet L), i ≠ j → Disj w i j → w.sets i = some ti → w.sets j = some tj →
        (∀ w', Inv w' → Disj w' i j → (∃ t, w'.sets i = some t) → (∃ t, w'.sets j = some t) →
          Independent a b ops w') →
        ∀ o, op.toOp w i = some o → (o.updates = true → w.Coherent) →
        Tri (fun w' => w' = w) (step o) (fun _ w' => (∃ t t', SameView w w' j t t') ∧ Independent a b ops w')
          (fun w' => (∃ t t', SameView w w' j t t') ∧ Independent a b ops w') := by
      intro i j ti tj hij hd hti htj hih o ho hC
      have hF := sideStep_frame hij op w hI o ho hC (hd.frame hI)
      have hinv : Tri (fun w' => w' = w) (step o) (fun _ w => Inv w) (fun w => Inv w) :=
        (step_inv o).conseq (fun _ h => h ▸ ⟨hI, hC⟩) (fun _ _ h => h) (fun _ h => h)
      have hex : Tri (fun w' => w' = w) (step o) (fun _ w' => ∃ t, w'.sets i = some t)
          (fun w' => ∃ t, w'.sets i = some t) := sideStep_exists op w i ti hti o ho
      refine (Tri.and (Tri.and hF hinv) hex).conseq (fun _ h => ⟨⟨h, h⟩, h⟩) ?_ ?_
      all_goals
        intros
        rename_i w' h
        obtain ⟨⟨hf, hi'⟩, he⟩ := h
        obtain ⟨t', hv⟩ := hf.sameView hI hi' tj htj
        exact ⟨⟨tj, t', hv⟩, hih w' hi' hf.disj' he ⟨t', hv.after⟩⟩
    have hDs : Disj w b a := fun r h1 h2 => hD r h2 h1
    cases side with
    | true =>
      simp only [Independent, if_true]
      cases ho : op.toOp w a with
      | none => exact ih w hI hD ta tb ha hb
      | some o =>
        intro hC
        have hm := main a b ta tb hab hD ha hb (fun w' h1 h2 ⟨t, h3⟩ ⟨t2, h4⟩ => ih w' h1 h2 t t2 h3 h4) o ho hC
        cases hf : step o w with
        | ret x w' => exact hm.ret rfl hf
        | throw e w' => exact hm.thrown rfl hf
        | ub => trivial
    | false =>
      simp only [Independent]
      cases ho : op.toOp w b with
      | none => simp only [Bool.false_eq_true, if_false, ho]; exact ih w hI hD ta tb ha hb
      | some o =>
        simp only [Bool.false_eq_true, if_false, ho]
        intro hC
        have hm := main b a tb ta (Ne.symm hab) hDs hb ha
          (fun w' h1 h2 ⟨t, h3⟩ ⟨t2, h4⟩ => ih w' h1 (fun r p q => h2 r q p) t2 t h4 h3) o ho hC
        cases hf : step o w with
        | ret x w' => exact hm.ret rfl hf
        | throw e w' => exact hm.thrown rfl hf
        | ub => trivial

/-! ## Assignment -/

theorem copyPhrases_ret (i : Nat) (l : List (Int × Nat)) (hl : SMap.Sorted (l : SMap Int Nat)) (w w' : World K L)
    (t : TSet L) (ht : w.sets i = some t) (hlt : ∀ e ∈ l, e.2 < w.next) (h : copyPhrases i l w = .ret () w') :
    w.next ≤ w'.next ∧ (∀ r, r < w.next → w'.obj r = w.obj r) ∧ (∀ j, j ≠ i → w'.sets j = w.sets j) ∧
    ∃ t', w'.sets i = some t' ∧ t' = { t with phrases := t'.phrases } ∧
      (∀ k, match SMap.find? k (l : SMap Int Nat) with
        | none => SMap.find? k t'.phrases = SMap.find? k t.phrases
        | some r => ∃ r', SMap.find? k t'.phrases = some r' ∧ w.next ≤ r' ∧
            Phrase.copy (w.obj r).ph = some (w'.obj r').ph ∧ (w'.obj r').label = (w.obj r).label ∧
            (w'.obj r').listeners = [(i, ())]) := by
  induction l generalizing w t with
  | nil =>
    simp only [copyPhrases, pure_def, Res.ret.injEq, true_and] at h
    subst h
    exact ⟨le_refl _, fun _ _ => rfl, fun _ _ => rfl, t, ht, rfl, fun k => by simp [SMap.find?]⟩
  | cons e l ih =>
    obtain ⟨k0, r0⟩ := e
    rw [SMap.sorted_cons] at hl
    have hr0 : r0 < w.next := hlt (k0, r0) List.mem_cons_self
    simp only [copyPhrases, bind_def, get_def] at h
    cases hq : Phrase.copy (w.obj r0).ph with
    | none => rw [hq] at h; simp at h
    | some q =>
      rw [hq] at h
      simp only [alloc, putPhrase, listen, getSet, bind_def, get_def, set_def, pure_def, World.putObj, ht, modify_def,
        World.putSet, if_true] at h
      obtain ⟨n1, o1, s1, t', st', et', ph'⟩ := ih hl.2 _ { t with phrases := SMap.assign k0 w.next t.phrases }
        (by simp) (fun e he => Nat.lt_succ_of_lt (hlt e (List.mem_cons_of_mem _ he))) h
      simp only at n1 o1 s1 ph'
      have hne : ∀ r, r < w.next → r ≠ w.next := fun r hr => Nat.ne_of_lt hr
      refine ⟨by omega, fun r hr => ?_, fun j hj => ?_, t', st', by rw [et'], fun k => ?_⟩
      · rw [o1 r (by omega)]; simp [hne r hr]
      · rw [s1 j hj]; simp [hj]
      · by_cases hk : k = k0
        · subst hk
          have h2 := ph' k
          rw [SMap.find?_none_of_lt hl.1] at h2
          simp only [SMap.find?, if_true]
          refine ⟨w.next, by rw [h2]; simp [SMap.find?_assign], le_refl _, ?_, ?_, ?_⟩
          · rw [hq, o1 w.next (by omega)]; simp
          · rw [o1 w.next (by omega)]; simp
          · rw [o1 w.next (by omega)]; simp [EventGen.addListener, SMap.insertNew, SMap.assign]; try rfl
        · have h2 := ph' k
          simp only [SMap.find?, hk, if_false]
          cases hf : SMap.find? k (l : SMap Int Nat) with
          | none =>
            rw [hf] at h2
            simp only at h2 ⊢
            rw [h2, SMap.find?_assign, if_neg hk]
          | some r =>
            rw [hf] at h2
            simp only at h2 ⊢
            obtain ⟨r', h3, h4, h5, h6, h7⟩ := h2
            have hr : r < w.next := hlt (k, r) (List.mem_cons_of_mem _ ((SMap.mem_iff_find? hl.2).2 hf))
            simp only [hne r hr, if_false] at h5 h6
            exact ⟨r', h3, by omega, h5, h6, h7⟩

/-- the copy loop has no undefined behaviour when every phrase can be copied -/
theorem copyPhrases_total (i : Nat) (l : List (Int × Nat)) (w : World K L) (t : TSet L) (ht : w.sets i = some t)
    (hlt : ∀ e ∈ l, e.2 < w.next) (hc : ∀ e ∈ l, ∃ q, Phrase.copy (w.obj e.2).ph = some q) :
    ∃ w', copyPhrases i l w = .ret () w' := by
  induction l generalizing w t with
  | nil => exact ⟨w, rfl⟩
  | cons e l ih =>
    obtain ⟨q, hq⟩ := hc e List.mem_cons_self
    simp only [copyPhrases, bind_def, get_def, hq, alloc, putPhrase, listen, getSet, set_def, pure_def, World.putObj, ht,
      modify_def, World.putSet, if_true]
    refine ih _ { t with phrases := SMap.assign e.1 w.next t.phrases } (by simp)
      (fun e he => Nat.lt_succ_of_lt (hlt e (List.mem_cons_of_mem _ he))) fun e he => ?_
    have : e.2 ≠ w.next := Nat.ne_of_lt (hlt e (List.mem_cons_of_mem _ he))
    simp only [this, if_false]
    exact hc e (List.mem_cons_of_mem _ he)

/-- the effect of an assignment, from any state that meets the invariant -/
theorem assign_spec [Inhabited L] (w : World K L) (hI : Inv w) (hC : w.Coherent)
    (a b : Nat) (hab : a ≠ b) (ta tb : TSet L) (ha : w.sets a = some ta) (hb : w.sets b = some tb)
    (hcopy : ∀ k r, tb.Holds k r → ∃ q, Phrase.copy (w.obj r).ph = some q) :
    ∃ w' ta' tb', step (.assign a b) w = .ret () w' ∧ w'.sets a = some ta' ∧ SameView w w' b tb tb' ∧
      ta'.own = tb.own ∧ ta'.bimodal = tb.bimodal ∧ ta'.dims = tb.dims ∧ ta'.cols = tb.cols ∧
      (∀ l, l ∈ ta'.labels.keys ↔ l ∈ tb.labels.keys) ∧
      (∀ k, (∃ r', ta'.Holds k r') ↔ ∃ r, tb.Holds k r) ∧
      (∀ k r r', tb.Holds k r → ta'.Holds k r' → (w'.obj r').label = (w.obj r).label ∧
        Phrase.copy (w.obj r).ph = some (w'.obj r').ph) ∧
      (∀ k r', ta'.Holds k r' → (w'.obj r').listeners.keys = [a]) ∧
      (∀ ops : List (Bool × SideOp K L), Independent a b ops w') ∧
      Inv w' ∧ (∀ l, l ≠ a → w'.sets l = w.sets l) ∧ (∀ k r', ta'.Holds k r' → w.next ≤ r') ∧
      (∀ r, r < w.next → w'.obj r = w.obj r) := by
  have hregb := hI.1 b tb hb
  set s0 : TSet L := ⟨tb.own, tb.bimodal, tb.dims, tb.cols, tb.labels, [], []⟩ with hs0
  set w1 := w.putSet a (some s0) with hw1
  have hlt : ∀ e ∈ tb.phrases, e.2 < w1.next := fun e he =>
    (hregb.refs e.1 e.2 ((SMap.mem_iff_find? hregb.sorted).1 he)).1
  have hc : ∀ e ∈ tb.phrases, ∃ q, Phrase.copy (w1.obj e.2).ph = some q := by
    intro e he
    obtain ⟨q, hq⟩ := hcopy e.1 e.2 ((SMap.mem_iff_find? hregb.sorted).1 he)
    exact ⟨q, hq⟩
  have hs1 : w1.sets a = some s0 := by simp [hw1, putSet_sets]
  obtain ⟨w2, h2⟩ := copyPhrases_total a tb.phrases w1 s0 hs1 hlt hc
  obtain ⟨n2, o2, p2, t2, st2, et2, ph2⟩ := copyPhrases_ret a tb.phrases hregb.sorted w1 w2 s0 hs1 hlt h2
  have hstep : step (.assign a b) w = update a w2 := by
    simp only [step, assign, getSet, bind_def, get_def, hb, ha, pure_def, hab, if_false, modify_def]
    rw [← hs0, ← hw1, h2]
  have hA := assign_tri (K := K) a b w ⟨hI, hC⟩
  -- the update at the end
  cases hu : updateSet (fun r => (w2.obj r).label) t2 with
  | mk t3 e3 =>
    have hstrip := updateSet_strip (fun r => (w2.obj r).label) t2
    rw [hu] at hstrip
    cases e3 with
    | some e =>
      exfalso
      have : step (.assign a b) w = .throw e (w2.putSet a (some t3)) := by
        rw [hstep]; simp [update, getSet, st2, hu]
      exact (assign_tri (K := K) a b).thrown ⟨hI, hC⟩ this
    | none =>
      have hret : step (.assign a b) w = .ret () (w2.putSet a (some t3)) := by
        rw [hstep]; simp [update, getSet, st2, hu]
      have hI' := ((assign_tri (K := K) a b).ret ⟨hI, hC⟩ hret).1
      have q1 : t3.strip.own = t2.strip.own := congrArg TSet.own hstrip
      have q2 : t3.strip.bimodal = t2.strip.bimodal := congrArg TSet.bimodal hstrip
      have q3 : t3.strip.dims = t2.strip.dims := congrArg TSet.dims hstrip
      have q4 : t3.strip.cols = t2.strip.cols := congrArg TSet.cols hstrip
      have q5 : t3.strip.phrases = t2.strip.phrases := congrArg TSet.phrases hstrip
      simp only [TSet.strip] at q1 q2 q3 q4 q5
      have u1 : t2.own = tb.own := by rw [et2]
      have u2 : t2.bimodal = tb.bimodal := by rw [et2]
      have u3 : t2.dims = tb.dims := by rw [et2]
      have u4 : t2.cols = tb.cols := by rw [et2]
      -- contents
      have hcont : ∀ k, match SMap.find? k tb.phrases with
          | none => SMap.find? k t3.phrases = none
          | some r => ∃ r', SMap.find? k t3.phrases = some r' ∧ w.next ≤ r' ∧
              Phrase.copy (w.obj r).ph = some (w2.obj r').ph ∧ (w2.obj r').label = (w.obj r).label ∧
              (w2.obj r').listeners = [(a, ())] := by
        intro k
        have := ph2 k
        cases hf : SMap.find? k tb.phrases with
        | none => rw [hf] at this; simp only at this ⊢; rw [q5, this]; rfl
        | some r => rw [hf] at this; simp only at this ⊢; rw [q5]; exact this
      have hset3 : (w2.putSet a (some t3)).sets a = some t3 := by simp [putSet_sets]
      have hsetb : (w2.putSet a (some t3)).sets b = some tb := by
        rw [putSet_sets, if_neg (Ne.symm hab), p2 b (Ne.symm hab), hw1, putSet_sets, if_neg (Ne.symm hab), hb]
      have hobj : ∀ r, r < w.next → (w2.putSet a (some t3)).obj r = w.obj r := o2
      have hdisj : Disj (w2.putSet a (some t3)) a b := by
        rintro r ⟨t, k, ht, hk⟩ ⟨u, k', hu', hk'⟩
        rw [hset3] at ht
        rw [hsetb] at hu'
        cases ht; cases hu'
        have hlt' := (hregb.refs k' r hk').1
        have := hcont k
        cases hf : SMap.find? k tb.phrases with
        | none => rw [hf] at this; simp only at this; rw [TSet.Holds, this] at hk; cases hk
        | some r0 =>
          rw [hf] at this
          obtain ⟨r', e1, e2, _⟩ := this
          rw [TSet.Holds, e1] at hk
          cases hk
          omega
      have hE3 := hI'.2 a id t3 hset3
      have hEb := hI.2 b id tb hb
      refine ⟨w2.putSet a (some t3), t3, tb, hret, hset3, ⟨hb, hsetb, rfl, rfl, rfl, rfl, rfl, fun k r hk => ?_,
        fun l => Iff.rfl, fun l k r => Iff.rfl⟩, q1.trans u1, q2.trans u2, q3.trans u3, q4.trans u4, fun l => ?_,
        fun k => ?_, fun k r r' hk hk' => ?_, fun k r' hk' => ?_, fun ops => ?_, hI',
        fun l hl => ?_, fun k r' hk' => ?_, hobj⟩
      · rw [hobj r (hregb.refs k r hk).1]; exact ⟨rfl, rfl⟩
      · rw [hE3.1, hEb.1]
        constructor
        · rintro ⟨k, r', hk', hl⟩
          have := hcont k
          cases hf : SMap.find? k tb.phrases with
          | none => rw [hf] at this; simp only at this; rw [TSet.Holds, this] at hk'; cases hk'
          | some r0 =>
            rw [hf] at this
            obtain ⟨r'', e1, e2, e3, e4, e5⟩ := this
            rw [TSet.Holds, e1] at hk'
            cases hk'
            exact ⟨k, r0, hf, e4.symm.trans hl⟩
        · rintro ⟨k, r, hk, hl⟩
          have := hcont k
          rw [show SMap.find? k tb.phrases = some r from hk] at this
          obtain ⟨r'', e1, e2, e3, e4, e5⟩ := this
          exact ⟨k, r'', e1, e4.trans hl⟩
      · have := hcont k
        simp only [TSet.Holds]
        cases hf : SMap.find? k tb.phrases with
        | none => rw [hf] at this; simp only at this; simp [this]
        | some r0 =>
          rw [hf] at this
          obtain ⟨r'', e1, _⟩ := this
          simp [e1]
      · have := hcont k
        rw [show SMap.find? k tb.phrases = some r from hk] at this
        obtain ⟨r'', e1, e2, e3, e4, e5⟩ := this
        rw [TSet.Holds, e1] at hk'
        cases hk'
        exact ⟨e4, e3⟩
      · have := hcont k
        cases hf : SMap.find? k tb.phrases with
        | none => rw [hf] at this; simp only at this; rw [TSet.Holds, this] at hk'; cases hk'
        | some r0 =>
          rw [hf] at this
          obtain ⟨r'', e1, e2, e3, e4, e5⟩ := this
          rw [TSet.Holds, e1] at hk'
          cases hk'
          show SMap.keys (w2.obj r').listeners = [a]
          rw [e5]; rfl
      · exact independent a b hab ops _ hI' hdisj t3 tb hset3 hsetb
      · rw [putSet_sets, if_neg hl, p2 l hl, hw1, putSet_sets, if_neg hl]
      · have := hcont k
        cases hf : SMap.find? k tb.phrases with
        | none => rw [hf] at this; simp only at this; rw [TSet.Holds, this] at hk'; cases hk'
        | some r0 =>
          rw [hf] at this
          obtain ⟨r'', e1, e2, e3, e4, e5⟩ := this
          rw [TSet.Holds, e1] at hk'
          cases hk'
          exact e2

/-- C23 (assignment): let `a` and `b` be training sets of a reachable state, and let every phrase of `b` be an own-memory
    phrase holding recorded frames. Then `a = b` returns normally, `b` is untouched, `a` has the attributes of `b` and, at
    exactly the same indices, copies of its phrases, with the same label and the same frames, which notify `a` and no other
    training set when their label changes; and from then on the two are
    independent: in every interleaving of calls made through them, no call changes anything that can be read from the
    other one. -/
theorem C23_assignment_independent [Inhabited L] (before : List (Op K L)) (hadm : Admissible before World.empty)
    (w : World K L) (es : List (Option Exn)) (hr : run before World.empty = some (w, es)) (hC : w.Coherent)
    (a b : Nat) (hab : a ≠ b) (ta tb : TSet L) (ha : w.sets a = some ta) (hb : w.sets b = some tb)
    (frames : Nat → PhraseSpec.S K)
    (hrec : ∀ k r, tb.Holds k r → (w.obj r).ph.Rep (frames r) ∧ (frames r).Coherent ∧
      ((frames r).ins ≠ [] ∨ (frames r).outs ≠ [])) :
    ∃ w' ta' tb', step (.assign a b) w = .ret () w' ∧ w'.sets a = some ta' ∧ SameView w w' b tb tb' ∧
      ta'.own = tb.own ∧ ta'.bimodal = tb.bimodal ∧ ta'.dims = tb.dims ∧ ta'.cols = tb.cols ∧
      (∀ l, l ∈ ta'.labels.keys ↔ l ∈ tb.labels.keys) ∧
      (∀ k, (∃ r', ta'.Holds k r') ↔ ∃ r, tb.Holds k r) ∧
      (∀ k r r', tb.Holds k r → ta'.Holds k r' → (w'.obj r').label = (w.obj r).label ∧
        (w'.obj r').ph.Rep (frames r)) ∧
      (∀ k r', ta'.Holds k r' → (w'.obj r').listeners.keys = [a]) ∧
      ∀ ops : List (Bool × SideOp K L), Independent a b ops w' := by
  have hcopy : ∀ k r, tb.Holds k r → ∃ q, Phrase.copy (w.obj r).ph = some q ∧ q.Rep (frames r) := by
    intro k r hk
    obtain ⟨h1, h2, h3⟩ := hrec k r hk
    refine h1.copy h2 ?_
    cases hbm : (frames r).bimodal with
    | false =>
      obtain ⟨b0, _, ho⟩ := h1.uni hbm
      have := b0.le
      have h4 : (frames r).ins ≠ [] := h3.resolve_right (fun h => h ho)
      have := List.length_pos_iff.2 h4
      omega
    | true =>
      obtain ⟨b0, b1, _⟩ := h1.bi hbm
      have e0 := b0.le
      have e1 := b1.le
      rcases h3 with h4 | h4
      · have := List.length_pos_iff.2 h4; omega
      · have := List.length_pos_iff.2 h4; omega
  obtain ⟨w', ta', tb', h1, h2, h3, h4, h5, h6, h7, h8, h9, h10, h11, h12, _⟩ :=
    assign_spec w (run_inv before _ inv_empty hadm w es hr) hC a b hab ta tb ha hb
      fun k r hk => (hcopy k r hk).imp fun _ h => h.1
  refine ⟨w', ta', tb', h1, h2, h3, h4, h5, h6, h7, h8, h9, fun k r r' hk hk' => ?_, h11, h12⟩
  obtain ⟨g1, g2⟩ := h10 k r r' hk hk'
  obtain ⟨q, hq, hrep⟩ := hcopy k r hk
  rw [hq, Option.some.injEq] at g2
  exact ⟨g1, g2 ▸ hrep⟩

/-- non-vacuity: a training set with a recorded phrase meets the hypotheses of `C23_assignment_independent` -/
example : ∃ w es t, run [.newSet 0 true false, .addLabel 0 1 7, .phraseOp 0 (.record [5]), .newSet 1 true false]
      (World.empty : World ℚ Nat) = some (w, es) ∧ w.sets 0 = some t ∧ t.Holds 1 0 ∧ (∀ k r, t.Holds k r → r = 0) ∧
      (w.obj 0).ph.Rep ⟨false, 1, 0, 0, 0, [[5]], []⟩ := by
  obtain ⟨w, es, h1, h2⟩ := run_obs (K := ℚ) (L := Nat)
    (ops := [.newSet 0 true false, .addLabel 0 1 7, .phraseOp 0 (.record [5]), .newSet 1 true false])
    (w0 := World.empty) (f := fun p => ((p.1.obj 0).ph, (p.1.sets 0).map fun t => t.phrases))
    (x := (⟨true, false, false, 1, 1, 0, 256, 1, 1, 0, 0, 0, "", [""],
      .cells (some 5 :: List.replicate 255 none), .garbage⟩, some [(1, 0)])) (by decide +kernel)
  simp only [Prod.mk.injEq, Option.map_eq_some_iff] at h2
  obtain ⟨h3, t, h4, h5⟩ := h2
  refine ⟨w, es, t, h1, h4, by simp [TSet.Holds, h5, SMap.find?], fun k r hk => ?_, ?_⟩
  · simp only [TSet.Holds, h5, SMap.find?] at hk
    split at hk
    · simpa using hk.symm
    · cases hk
  · rw [h3]
    refine ⟨rfl, rfl, rfl, rfl, rfl, rfl, rfl, rfl, fun _ => ⟨⟨by simp, by simp, Or.inr ⟨_, rfl, ?_, ?_⟩⟩, rfl, rfl⟩, ?_⟩
    · rw [List.length_cons, List.length_replicate]; rfl
    · rfl
    · intro h; cases h

/-- C23 is violated by the copy constructor: the copy holds the phrases of its source.  Recording a frame in a phrase of
    the source after the copy changes the phrase read through the copy, whose recorded length goes from 1 to 2. -/
theorem C23_copy_constructor_violated :
    (run [.newSet 0 true false, .addLabel 0 1 7, .phraseOp 0 (.record [1]), .copyConstruct 0 1]
        (World.empty : World ℚ Nat)).map (fun p => (p.1.sets 1).map fun t =>
          (SMap.find? 1 t.phrases).map fun r => (p.1.obj r).ph.length) = some (some (some 1)) ∧
    (run [.newSet 0 true false, .addLabel 0 1 7, .phraseOp 0 (.record [1]), .copyConstruct 0 1,
        .phraseOp 0 (.record [2])]
        (World.empty : World ℚ Nat)).map (fun p => (p.1.sets 1).map fun t =>
          (SMap.find? 1 t.phrases).map fun r => (p.1.obj r).ph.length) = some (some (some 2)) := by
  constructor <;> decide +kernel

/-- Copying a training set that holds a phrase without data is undefined behaviour (the discarded deep copy is destroyed
    with uninitialised pointers). -/
theorem C23_copy_of_empty_phrase_ub :
    run [.newSet 0 true false, .addLabel 0 1 7, .copyConstruct 0 1] (World.empty : World ℚ Nat) = none := by
  rw [← Option.isNone_iff_eq_none]; decide +kernel

end Xmm.TS
