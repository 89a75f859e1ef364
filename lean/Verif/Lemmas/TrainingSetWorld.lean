import Verif.Lemmas.TrainingSet
set_option linter.unusedSectionVars false
/- Every public call keeps the label index of every training set exact. -/
namespace Xmm.TS
open Prog
variable {K L : Type} [LinearOrder L]

/-- bookkeeping of one training set; `x` are references that may not be registered yet -/
structure RegSet (w : World K L) (i : Nat) (t : TSet L) (x : Nat → Prop) : Prop where
  sorted : SMap.Sorted t.phrases
  dims : DimsOk t.bimodal t.dims
  refs : ∀ k r, t.Holds k r → r < w.next ∧ (x r ∨ (w.obj r).listeners.find? i = some ())

/-- bookkeeping of all training sets -/
def RegX (x : Nat → Nat → Prop) (w : World K L) : Prop := ∀ i t, w.sets i = some t → RegSet w i t (x i)

/-- the index of training set `i` is exact -/
def Ex (w : World K L) (i : Nat) : Prop := ∀ t, w.sets i = some t → Exact (fun r => (w.obj r).label) t

/-- no exemption -/
abbrev noX : Nat → Nat → Prop := fun _ _ => False

/-- the invariant, except for the sets in `S` -/
def P (S : Nat → Prop) (x : Nat → Nat → Prop) (w : World K L) : Prop := RegX x w ∧ ∀ i, ¬ S i → Ex w i

/-- the invariant of all reachable worlds -/
def Inv (w : World K L) : Prop := P (fun _ => False) noX w

theorem getSet_tri (i : Nat) (Q : World K L → Prop) (E : World K L → Prop) :
    Tri Q (getSet i) (fun t w => Q w ∧ w.sets i = some t) E := by
  intro w hw
  simp only [getSet, bind_def, get_def]
  cases h : w.sets i with
  | none => trivial
  | some t => exact ⟨hw, h⟩

theorem putSet_sets (w : World K L) (i j : Nat) (t : Option (TSet L)) :
    (w.putSet i t).sets j = if j = i then t else w.sets j := rfl

theorem P.putSet {S : Nat → Prop} {x : Nat → Nat → Prop} {w : World K L} (h : P S x w) (i : Nat) (t : TSet L)
    (hr : RegSet w i t (x i)) (he : ¬ S i → Exact (fun r => (w.obj r).label) t) : P S x (w.putSet i (some t)) := by
  refine ⟨fun j u hu => ?_, fun j hj u hu => ?_⟩
  · rw [putSet_sets] at hu
    by_cases hji : j = i
    · subst hji; simp only [if_true, Option.some.injEq] at hu; subst hu; exact ⟨hr.sorted, hr.dims, hr.refs⟩
    · rw [if_neg hji] at hu
      have := h.1 j u hu
      exact ⟨this.sorted, this.dims, this.refs⟩
  · rw [putSet_sets] at hu
    by_cases hji : j = i
    · subst hji; simp only [if_true, Option.some.injEq] at hu; subst hu; exact he hj
    · rw [if_neg hji] at hu; exact h.2 j hj u hu

theorem P.mono {S S' : Nat → Prop} {x : Nat → Nat → Prop} {w : World K L} (h : P S x w) (hs : ∀ i, S i → S' i) :
    P S' x w := ⟨h.1, fun i hi => h.2 i fun h' => hi (hs i h')⟩

theorem update_tri (i : Nat) (S : Nat → Prop) :
    Tri (fun w : World K L => P (fun j => S j ∨ j = i) noX w ∧ w.Coherent) (update i)
      (fun _ w => P S noX w ∧ w.Coherent) (fun _ => False) := by
  intro w hw
  simp only [update, getSet, bind_def, get_def]
  cases h : w.sets i with
  | none => simp
  | some t =>
    have hr := hw.1.1 i t h
    have hc := hw.2 i t h
    obtain ⟨lb, su, h1, h2, _⟩ := updateSet_ok (fun r => (w.obj r).label) t hr.dims hc hr.sorted
    simp only [pure_def, h1, set_def]
    refine ⟨⟨fun j u hu => ?_, fun j hj u hu => ?_⟩, fun j u hu => ?_⟩
    · rw [putSet_sets] at hu
      by_cases hji : j = i
      · subst hji; simp only [if_true, Option.some.injEq] at hu; subst hu; exact ⟨hr.sorted, hr.dims, hr.refs⟩
      · rw [if_neg hji] at hu; have := hw.1.1 j u hu; exact ⟨this.sorted, this.dims, this.refs⟩
    · rw [putSet_sets] at hu
      by_cases hji : j = i
      · subst hji; simp only [if_true, Option.some.injEq] at hu; subst hu; exact h2
      · rw [if_neg hji] at hu; exact hw.1.2 j (by simp [hj, hji]) u hu
    · rw [putSet_sets] at hu
      by_cases hji : j = i
      · subst hji; simp only [if_true, Option.some.injEq] at hu; subst hu; exact hc
      · rw [if_neg hji] at hu; exact hw.2 j u hu

theorem notify_tri (is : List Nat) :
    Tri (fun w : World K L => P (fun j => j ∈ is) noX w ∧ w.Coherent) (notify is)
      (fun _ w => Inv w ∧ w.Coherent) (fun _ => False) := by
  induction is with
  | nil => exact Tri.pure fun w hw => ⟨hw.1.mono (by simp), hw.2⟩
  | cons i is ih =>
    refine Tri.bind (Q := fun _ w => P (fun j => j ∈ is) noX w ∧ w.Coherent) ?_ (fun _ => ih)
    refine (update_tri i fun j => j ∈ is).conseq (fun w hw => ⟨hw.1.mono ?_, hw.2⟩) (fun _ _ h => h) (fun _ h => h)
    intro j hj
    rcases List.mem_cons.1 hj with h | h
    · exact Or.inr h
    · exact Or.inl h

/-- changing a phrase object without touching label and listeners -/
theorem P.putObj_same {S : Nat → Prop} {x : Nat → Nat → Prop} {w : World K L} (h : P S x w) (r : Nat)
    (o : PhraseObj K L) (hl : o.label = (w.obj r).label) (hi : o.listeners = (w.obj r).listeners) :
    P S x (w.putObj r o) := by
  have hlab : ∀ r', ((w.putObj r o).obj r').label = (w.obj r').label := by
    intro r'; simp only [World.putObj]; split
    · rename_i h; rw [h, hl]
    · rfl
  have hlis : ∀ r', ((w.putObj r o).obj r').listeners = (w.obj r').listeners := by
    intro r'; simp only [World.putObj]; split
    · rename_i h; rw [h, hi]
    · rfl
  refine ⟨fun j u hu => ?_, fun j hj u hu => ?_⟩
  · have := h.1 j u hu
    exact ⟨this.sorted, this.dims, fun k r' hk => by rw [hlis]; exact this.refs k r' hk⟩
  · exact (h.2 j hj u hu).congr fun k r' _ => (hlab r').symm

theorem onPhrase_tri (r : Nat) (f : Prog (Phrase K) Unit) (S : Nat → Prop) (x : Nat → Nat → Prop) :
    Tri (fun w : World K L => P S x w) (onPhrase r f) (fun _ w => P S x w) (fun w => P S x w) := by
  intro w hw
  simp only [onPhrase]
  cases f (w.obj r).ph with
  | ret a p => exact hw.putObj_same r _ rfl rfl
  | throw e p => exact hw.putObj_same r _ rfl rfl
  | ub => trivial

theorem eachPhrase_tri (f : Prog (Phrase K) Unit) (l : List (Int × Nat)) (S : Nat → Prop) (x : Nat → Nat → Prop) :
    Tri (fun w : World K L => P S x w) (eachPhrase f l) (fun _ w => P S x w) (fun w => P S x w) := by
  induction l with
  | nil => exact Tri.pure fun w hw => hw
  | cons e l ih => exact Tri.bind (onPhrase_tri e.2 f S x) fun _ => ih

/-- the new object is in no training set -/
theorem alloc_tri (o : PhraseObj K L) (S : Nat → Prop) :
    Tri (fun w : World K L => P S noX w ∧ w.Coherent) (alloc o)
      (fun r w => P S noX w ∧ w.Coherent ∧ r < w.next ∧ w.obj r = o) (fun _ => False) := by
  intro w hw
  simp only [alloc, bind_def, get_def, set_def, pure_def]
  have hne : ∀ j u, w.sets j = some u → ∀ k r, u.Holds k r → r ≠ w.next :=
    fun j u hu k r hk => Nat.ne_of_lt ((hw.1.1 j u hu).refs k r hk).1
  refine ⟨⟨fun j u hu => ?_, fun j hj u hu => ?_⟩, hw.2, Nat.lt_succ_self _, by simp [World.putObj]⟩
  · have h := hw.1.1 j u hu
    refine ⟨h.sorted, h.dims, fun k r hk => ⟨Nat.lt_succ_of_lt (h.refs k r hk).1, ?_⟩⟩
    simp only [World.putObj, if_neg (hne j u hu k r hk)]
    exact (h.refs k r hk).2
  · refine (hw.1.2 j hj u hu).congr fun k r hk => ?_
    simp only [World.putObj, if_neg (hne j u hu k r hk)]

theorem putPhrase_tri (i : Nat) (k : Int) (r : Nat) (S : Nat → Prop) (o : PhraseObj K L → Prop) :
    Tri (fun w : World K L => P S noX w ∧ w.Coherent ∧ r < w.next ∧ o (w.obj r)) (putPhrase i k r)
      (fun _ w => P (fun j => S j ∨ j = i) (fun j r' => j = i ∧ r' = r) w ∧ w.Coherent ∧ o (w.obj r))
      (fun _ => False) := by
  intro w hw
  obtain ⟨hP, hC, hr, ho⟩ := hw
  simp only [putPhrase, getSet, bind_def, get_def]
  cases h : w.sets i with
  | none => simp
  | some t =>
    simp only [pure_def, modify_def]
    refine ⟨⟨fun j u hu => ?_, fun j hj u hu => ?_⟩, fun j u hu => ?_, ho⟩
    · rw [putSet_sets] at hu
      by_cases hji : j = i
      · subst hji
        simp only [if_true, Option.some.injEq] at hu; subst hu
        have hreg := hP.1 j t h
        refine ⟨hreg.sorted.assign, hreg.dims, fun k' r' hk' => ?_⟩
        simp only [TSet.Holds, SMap.find?_assign] at hk'
        by_cases hkk : k' = k
        · rw [if_pos hkk] at hk'; cases hk'; exact ⟨hr, Or.inl ⟨rfl, rfl⟩⟩
        · rw [if_neg hkk] at hk'
          have := hreg.refs k' r' hk'
          exact ⟨this.1, Or.inr (this.2.resolve_left id)⟩
      · rw [if_neg hji] at hu
        have := hP.1 j u hu
        exact ⟨this.sorted, this.dims, fun k' r' hk' => ⟨(this.refs k' r' hk').1,
          Or.inr ((this.refs k' r' hk').2.resolve_left id)⟩⟩
    · rw [putSet_sets] at hu
      simp only [not_or] at hj
      rw [if_neg hj.2] at hu
      exact hP.2 j hj.1 u hu
    · rw [putSet_sets] at hu
      by_cases hji : j = i
      · subst hji; simp only [if_true, Option.some.injEq] at hu; subst hu; exact hC j t h
      · rw [if_neg hji] at hu; exact hC j u hu

/-- registering a listener on `r` -/
theorem listen_P {S : Nat → Prop} {x y : Nat → Nat → Prop} {w : World K L} (i r : Nat) (h : P S x w)
    (hxy : ∀ j r', x j r' → y j r' ∨ (j = i ∧ r' = r)) :
    P S y (w.putObj r { w.obj r with listeners := EventGen.addListener i () (w.obj r).listeners }) := by
  have hlab : ∀ r', ((w.putObj r { w.obj r with listeners := EventGen.addListener i () (w.obj r).listeners }).obj r').label
      = (w.obj r').label := by
    intro r'; simp only [World.putObj]; split
    · rename_i h; rw [h]
    · rfl
  refine ⟨fun j u hu => ?_, fun j hj u hu => (h.2 j hj u hu).congr fun k r' _ => (hlab r').symm⟩
  have hreg := h.1 j u hu
  refine ⟨hreg.sorted, hreg.dims, fun k r' hk => ⟨(hreg.refs k r' hk).1, ?_⟩⟩
  simp only [World.putObj]
  rcases (hreg.refs k r' hk).2 with hx | hx
  · rcases hxy j r' hx with hy | ⟨rfl, rfl⟩
    · exact Or.inl hy
    · right
      simp only [if_true, EventGen.addListener, SMap.find?_insertNew]
      by_cases hf : SMap.find? j (w.obj r').listeners = none
      · simp [hf]
      · simp only [hf, and_false, if_false]
        cases hg : SMap.find? j (w.obj r').listeners with
        | none => exact absurd hg hf
        | some u => rfl
  · right
    by_cases hrr : r' = r
    · subst hrr
      simp only [if_true, EventGen.addListener, SMap.find?_insertNew]
      by_cases hc : j = i ∧ SMap.find? i (w.obj r').listeners = none
      · rw [if_pos hc]
      · rw [if_neg hc]; exact hx
    · rw [if_neg hrr]; exact hx

theorem listen_tri (i r : Nat) (S : Nat → Prop) (o : PhraseObj K L → Prop)
    (ho : ∀ a b, a.ph = b.ph → o a → o b) :
    Tri (fun w : World K L => P S (fun j r' => j = i ∧ r' = r) w ∧ w.Coherent ∧ o (w.obj r)) (listen i r)
      (fun _ w => P S noX w ∧ w.Coherent ∧ o (w.obj r)) (fun _ => False) := by
  intro w hw
  exact ⟨listen_P i r hw.1 (fun j r' h => Or.inr h), hw.2.1, ho _ _ (by simp [World.putObj]) hw.2.2⟩

theorem relabel_tri (r : Nat) (l : L) :
    Tri (fun w : World K L => Inv w ∧ w.Coherent) (relabel r l) (fun _ w => Inv w ∧ w.Coherent) (fun _ => False) := by
  intro w hw
  have := notify_tri (EventGen.notifyListeners () (w.obj r).listeners |>.map Prod.fst)
    (w.putObj r { w.obj r with label := l }) ?_
  · simpa [relabel] using this
  · refine ⟨⟨fun j u hu => ?_, fun j hj u hu => ?_⟩, hw.2⟩
    · have hreg := hw.1.1 j u hu
      refine ⟨hreg.sorted, hreg.dims, fun k r' hk => ⟨(hreg.refs k r' hk).1, Or.inr ?_⟩⟩
      have := (hreg.refs k r' hk).2.resolve_left id
      simp only [World.putObj]; split
      · rename_i h; subst h; exact this
      · exact this
    · refine (hw.1.2 j id u hu).congr fun k r' hk => ?_
      have hne : r' ≠ r := by
        rintro rfl
        apply hj
        have := ((hw.1.1 j u hu).refs k r' hk).2.resolve_left id
        have hk2 : j ∈ SMap.keys (w.obj r').listeners := SMap.mem_keys_iff.2 ⟨_, this⟩
        simpa [EventGen.notifyListeners, SMap.keys] using hk2
      simp only [World.putObj, if_neg hne]

/-- dimensions set on a new phrase -/
theorem construct_dims (own b : Bool) (d di : Nat) (h1 : (Dims.new b).dimMin ≤ d) (h2 : (Dims.new b).diMin ≤ di)
    (h3 : di < d) :
    ∃ p1 p2 : Phrase K, Phrase.setDimension d (Phrase.construct K own b) = .ret () p1 ∧
      Phrase.setDimensionInput di p1 = .ret () p2 ∧ p2.dimension = d ∧ p2.dimensionInput = di ∧
      p2.ownMemory = own ∧ p2.bimodal = b ∧ p2.dimMin = (Dims.new b).dimMin ∧ p2.diMin = (Dims.new b).diMin ∧
      p2.diMax = d - 1 ∧ p2.length = 0 ∧ p2.data0 = .null ∧ (b = true → p2.data1 = .null) ∧
      p2.maxLength = 0 ∧ p2.inputLength = 0 ∧ p2.outputLength = 0 ∧ p2.empty = true := by
  have hd : ¬ d < (if b then 2 else 1) := by simpa [Dims.new] using h1
  have hdi : ¬ (di < (if b then 1 else 0) ∨ d - 1 < di) := by
    have : ¬ di < (if b then 1 else 0) := by simpa [Dims.new] using h2
    omega
  obtain ⟨p1, e1, f1⟩ : ∃ p1 : Phrase K, Phrase.setDimension d (Phrase.construct K own b) = .ret () p1 ∧
      p1 = { Phrase.construct K own b with
        dimension := d, diMax := d - 1, columnNames := Phrase.resizeNames d [] } := by
    cases b <;> cases own <;>
      simp [Phrase.setDimension, Phrase.construct, Phrase.resetData, Ptr.isGarbage, Ptr.isNull] <;>
      simp at hd <;> split <;> simp_all <;> omega
  obtain ⟨p2, e2, f2⟩ : ∃ p2 : Phrase K, Phrase.setDimensionInput di p1 = .ret () p2 ∧
      p2 = { p1 with dimensionInput := di, columnNames := Phrase.resizeNames d p1.columnNames } := by
    subst f1
    have hdi' : ¬ (di < (Phrase.construct K own b).diMin ∨ d - 1 < di) := hdi
    simp only [Phrase.setDimensionInput, bind_def, get_def, if_neg hdi', set_def]
    cases b <;> cases own <;>
      simp [Phrase.construct, Phrase.resetData, Ptr.isGarbage, Ptr.isNull]
  refine ⟨p1, p2, e1, e2, ?_⟩
  subst f1; subst f2
  cases b <;> cases own <;> simp [Phrase.construct, Dims.new]

theorem onPhrase_exact (r : Nat) (f : Prog (Phrase K) Unit) (p p' : Phrase K) (hf : f p = .ret () p')
    (S : Nat → Prop) (x : Nat → Nat → Prop) :
    Tri (fun w : World K L => P S x w ∧ w.Coherent ∧ (w.obj r).ph = p) (onPhrase r f)
      (fun _ w => P S x w ∧ w.Coherent ∧ (w.obj r).ph = p') (fun _ => False) := by
  intro w hw
  simp only [onPhrase, hw.2.2, hf]
  exact ⟨hw.1.putObj_same r _ rfl rfl, hw.2.1, by simp [World.putObj]⟩

/-- relabelling an object and changing its data, while set `i` is exempt and is the only one that may hold it -/
theorem addLabel_tri [Inhabited L] (i : Nat) (k : Int) (l : L) :
    Tri (fun w : World K L => Inv w ∧ w.Coherent) (addLabel i k l) (fun _ w => Inv w ∧ w.Coherent) (fun _ => False) := by
  unfold addLabel
  refine Tri.bind (getSet_tri i _ _) fun t => ?_
  by_cases hin : ∃ w : World K L, (Inv w ∧ w.Coherent) ∧ w.sets i = some t
  · obtain ⟨w0, ⟨hI, hC⟩, hset⟩ := hin
    have hd := (hI.1 i t hset).dims
    have hco := hC i t hset
    obtain ⟨p1, p2, e1, e2, _⟩ := construct_dims (K := K) t.own t.bimodal t.dims.dim t.dims.di
      (by rw [← hd.dimMin]; exact hd.dim) (by rw [← hd.diMin]; exact hd.di) hco
    -- the new object is held by set `i` only
    let Q : (PhraseObj K L → Prop) → Nat → World K L → Prop := fun o r w =>
      (P (fun j => False ∨ j = i) noX w ∧ w.Coherent ∧ o (w.obj r)) ∧
        ∀ j u, j ≠ i → w.sets j = some u → ∀ k' r', u.Holds k' r' → r' ≠ r
    refine Tri.bind (Q := fun r w => (P (fun _ => False) noX w ∧ w.Coherent ∧ r < w.next ∧
        (w.obj r).ph = Phrase.construct K t.own t.bimodal) ∧
        ∀ j u, w.sets j = some u → ∀ k' r', u.Holds k' r' → r' ≠ r) ?_ fun r => ?_
    · intro w hw
      have := alloc_tri (⟨Phrase.construct K t.own t.bimodal, default, []⟩ : PhraseObj K L) (fun _ => False) w hw.1
      simp only [alloc, bind_def, get_def, set_def, pure_def] at this ⊢
      refine ⟨⟨this.1, this.2.1, this.2.2.1, by rw [this.2.2.2]⟩, ?_⟩
      intro j u hu k' r' hk'
      exact Nat.ne_of_lt ((hw.1.1.1 j u hu).refs k' r' hk').1
    · refine Tri.bind (Q := fun _ w => (P (fun j => False ∨ j = i) (fun j r' => j = i ∧ r' = r) w ∧ w.Coherent ∧
          (w.obj r).ph = Phrase.construct K t.own t.bimodal) ∧
          ∀ j u, j ≠ i → w.sets j = some u → ∀ k' r', u.Holds k' r' → r' ≠ r) ?_ fun _ => ?_
      · intro w hw
        have := putPhrase_tri i k r (fun _ => False) (fun o => o.ph = Phrase.construct K t.own t.bimodal) w hw.1
        simp only [putPhrase, getSet, bind_def, get_def] at this ⊢
        cases h : w.sets i with
        | none => simp
        | some u =>
          simp only [h, pure_def, modify_def] at this ⊢
          refine ⟨this, fun j v hj hv => ?_⟩
          rw [putSet_sets, if_neg hj] at hv
          exact hw.2 j v hv
      · refine Tri.bind (Q := fun _ => Q (fun o => o.ph = Phrase.construct K t.own t.bimodal) r) ?_ fun _ => ?_
        · intro w hw
          have := listen_tri i r (fun j => False ∨ j = i) (fun o => o.ph = Phrase.construct K t.own t.bimodal)
            (fun a b hab h => hab ▸ h) w hw.1
          exact ⟨this, hw.2⟩
        · have hon : ∀ (f : Prog (Phrase K) Unit) (p p' : Phrase K), f p = .ret () p' →
              Tri (Q (fun o => o.ph = p) r) (onPhrase r f) (fun _ => Q (fun o => o.ph = p') r) (fun _ => False) := by
            intro f p p' hf w hw
            have := onPhrase_exact r f p p' hf (fun j => False ∨ j = i) noX w hw.1
            simp only [onPhrase, hw.1.2.2, hf] at this ⊢
            exact ⟨this, hw.2⟩
          refine Tri.bind (hon _ _ _ e1) fun _ => Tri.bind (hon _ _ _ e2) fun _ => ?_
          refine Tri.bind (Q := fun _ w => P (fun j => False ∨ j = i) noX w ∧ w.Coherent) ?_ fun _ => update_tri i _
          refine Tri.modify fun w hw => ⟨⟨fun j u hu => ?_, fun j hj u hu => ?_⟩, hw.1.2.1⟩
          · have hreg := hw.1.1.1 j u hu
            refine ⟨hreg.sorted, hreg.dims, fun k' r' hk' => ⟨(hreg.refs k' r' hk').1, Or.inr ?_⟩⟩
            have := (hreg.refs k' r' hk').2.resolve_left id
            simp only [World.putObj]; split
            · rename_i h; subst h; exact this
            · exact this
          · simp only [false_or] at hj
            refine (hw.1.1.2 j (by simpa using hj) u hu).congr fun k' r' hk' => ?_
            simp only [World.putObj, if_neg (hw.2 j u hj hu k' r' hk')]
  · intro w hw
    exact absurd ⟨w, hw.1, hw.2⟩ hin

theorem addCopy_tri (i : Nat) (k : Int) (p : Phrase K) (l : L) :
    Tri (fun w : World K L => Inv w ∧ w.Coherent) (addCopy i k p l) (fun _ w => Inv w ∧ w.Coherent) (fun _ => False) := by
  unfold addCopy
  cases Phrase.copy p with
  | none => exact Tri.undef
  | some q =>
    refine Tri.bind (alloc_tri _ _) fun r => ?_
    refine Tri.bind ((putPhrase_tri i k r (fun _ => False) (fun _ => True)).conseq
      (fun w hw => ⟨hw.1, hw.2.1, hw.2.2.1, trivial⟩) (fun _ _ h => h) (fun _ h => h)) fun _ => ?_
    refine Tri.bind (listen_tri i r _ (fun _ => True) (fun _ _ _ h => h)) fun _ => ?_
    exact (update_tri i _).conseq (fun w hw => ⟨hw.1, hw.2.1⟩) (fun _ _ h => h) (fun _ h => h)

theorem addShared_tri (i : Nat) (k : Int) (r : Nat) :
    Tri (fun w : World K L => Inv w ∧ w.Coherent) (addShared i k r) (fun _ w => Inv w ∧ w.Coherent) (fun _ => False) := by
  unfold addShared
  refine Tri.bind (Q := fun w' w => w' = w ∧ Inv w ∧ w.Coherent) (Tri.get fun w hw => ⟨rfl, hw⟩) fun w' => ?_
  refine Tri.ite (fun hr => ?_) (fun _ => Tri.undef)
  refine Tri.bind ((putPhrase_tri i k r (fun _ => False) (fun _ => True)).conseq
    (fun w hw => ⟨hw.2.1, hw.2.2, hw.1 ▸ hr, trivial⟩) (fun _ _ h => h) (fun _ h => h)) fun _ => ?_
  refine Tri.bind (listen_tri i r _ (fun _ => True) (fun _ _ _ h => h)) fun _ => ?_
  exact (update_tri i _).conseq (fun w hw => ⟨hw.1, hw.2.1⟩) (fun _ _ h => h) (fun _ h => h)

/-- storing a training set with the same dimensions -/
theorem putSet_coherent {w : World K L} (h : w.Coherent) (i : Nat) (t : TSet L) (ht : t.Coherent) :
    (w.putSet i (some t)).Coherent := by
  intro j u hu
  rw [putSet_sets] at hu
  by_cases hji : j = i
  · subst hji; simp only [if_true, Option.some.injEq] at hu; subst hu; exact ht
  · rw [if_neg hji] at hu; exact h j u hu

theorem remove_tri (i : Nat) (k : Int) :
    Tri (fun w : World K L => Inv w ∧ w.Coherent) (remove i k) (fun _ w => Inv w ∧ w.Coherent) (fun _ => False) := by
  unfold remove
  refine Tri.bind (getSet_tri i _ _) fun t => ?_
  refine Tri.bind (Q := fun _ w => P (fun j => False ∨ j = i) noX w ∧ w.Coherent) ?_ fun _ => update_tri i _
  refine Tri.modify fun w hw => ⟨?_, putSet_coherent hw.1.2 i _ (hw.1.2 i t hw.2)⟩
  have hreg := hw.1.1.1 i t hw.2
  refine (hw.1.1.mono (by simp)).putSet i _ ⟨hreg.sorted.erase, hreg.dims, fun k' r' hk' => ?_⟩ (by simp)
  simp only [TSet.Holds, SMap.find?_erase hreg.sorted] at hk'
  by_cases hkk : k' = k
  · simp [hkk] at hk'
  · rw [if_neg hkk] at hk'; exact hreg.refs k' r' hk'

theorem removeClassLoop_tri (i : Nat) (l : L) (n : Nat) :
    Tri (fun w : World K L => Inv w ∧ w.Coherent) (removeClassLoop i l n) (fun _ w => Inv w ∧ w.Coherent)
      (fun _ => False) := by
  induction n with
  | zero => exact Tri.undef
  | succ n ih =>
    unfold removeClassLoop
    refine Tri.bind (getSet_tri i _ _) fun t => ?_
    refine Tri.bind (Q := fun _ w => Inv w ∧ w.Coherent) (Tri.get fun w hw => hw.1) fun w' => ?_
    cases List.find? (fun e => decide ((w'.obj e.2).label = l)) t.phrases with
    | none => exact Tri.pure fun w hw => hw
    | some e => exact Tri.bind (remove_tri i e.1) fun _ => ih

theorem removeClass_tri (i : Nat) (l : L) :
    Tri (fun w : World K L => Inv w ∧ w.Coherent) (removeClass i l) (fun _ w => Inv w ∧ w.Coherent) (fun _ => False) := by
  unfold removeClass
  refine Tri.bind ((getSet_tri i _ _).conseq (fun _ h => h) (fun _ _ h => h.1) (fun _ h => h)) fun t => ?_
  refine Tri.bind (removeClassLoop_tri i l _) fun _ => ?_
  exact (update_tri i fun _ => False).conseq (fun w hw => ⟨hw.1.mono (by simp), hw.2⟩) (fun _ _ h => h) (fun _ h => h)

theorem exact_empty (lab : Nat → L) (t : TSet L) (h1 : t.phrases = []) (h2 : t.labels = []) (h3 : t.subs = []) :
    Exact lab t := by
  constructor
  · intro l; simp [h1, h2, SMap.keys, TSet.Holds, SMap.find?]
  · intro l; rw [h3]; simp [SMap.find?, TSet.Holds, h1]

theorem clear_tri (i : Nat) :
    Tri (fun w : World K L => Inv w) (clear i) (fun _ w => Inv w) (fun w => Inv w) := by
  unfold clear
  refine Tri.bind (getSet_tri i _ _) fun t => ?_
  refine Tri.modify fun w hw => ?_
  exact hw.1.putSet i _ ⟨SMap.sorted_nil, (hw.1.1 i t hw.2).dims, by simp [TSet.Holds, SMap.find?]⟩
    fun _ => exact_empty _ _ rfl rfl rfl

/-- a loop over the sub sets that keeps their phrases -/
theorem eachSub_find (f : Sub → Sub × Option Exn) (hf : ∀ s, (f s).1.phrases = s.phrases) (m : SMap L Sub) (l : L) :
    (SMap.find? l (eachSub f m).1).map Sub.phrases = (SMap.find? l m).map Sub.phrases := by
  induction m with
  | nil => rfl
  | cons e m ih =>
    obtain ⟨l', s⟩ := e
    simp only [eachSub]
    have := hf s
    cases hfs : f s with
    | mk s' o =>
      rw [hfs] at this
      cases o with
      | some e =>
        simp only [SMap.find?]
        split
        · exact congrArg some this
        · rfl
      | none =>
        simp only [SMap.find?]
        split
        · exact congrArg some this
        · exact ih

theorem Exact.subs_congr {lab : Nat → L} {t : TSet L} (h : Exact lab t) (su : SMap L Sub)
    (hs : ∀ l, (SMap.find? l su).map Sub.phrases = (SMap.find? l t.subs).map Sub.phrases) :
    Exact lab { t with subs := su } := by
  refine ⟨h.1, fun l => ?_⟩
  have h2 := h.2 l
  have hl := hs l
  simp only
  cases hf : SMap.find? l su with
  | none =>
    rw [hf] at hl
    cases hg : SMap.find? l t.subs with
    | none => rw [hg] at h2; exact h2
    | some s => rw [hg] at hl; simp at hl
  | some s' =>
    rw [hf] at hl
    cases hg : SMap.find? l t.subs with
    | none => rw [hg] at hl; simp at hl
    | some s =>
      rw [hg] at hl h2
      simp only [Option.map_some, Option.some.injEq] at hl
      simp only at h2 ⊢
      rw [hl]; exact h2

theorem onSubs_tri (i : Nat) (f : Sub → Sub × Option Exn) (hf : ∀ s, (f s).1.phrases = s.phrases) :
    Tri (fun w : World K L => Inv w) (onSubs i f) (fun _ w => Inv w) (fun w => Inv w) := by
  unfold onSubs
  refine Tri.bind (getSet_tri i _ _) fun t => ?_
  simp only
  refine Tri.bind (Q := fun _ w => Inv w) ?_ fun _ => ?_
  · refine Tri.modify fun w hw => ?_
    have hreg := hw.1.1 i t hw.2
    exact hw.1.putSet i _ ⟨hreg.sorted, hreg.dims, hreg.refs⟩ fun hi =>
      (hw.1.2 i hi t hw.2).subs_congr _ (eachSub_find f hf t.subs)
  · cases (eachSub f t.subs).2 with
    | none => exact Tri.pure fun _ h => h
    | some e => exact Tri.throw fun _ h => h

theorem setDim_tri (i d : Nat) :
    Tri (fun w : World K L => Inv w) (setDim i d) (fun _ w => Inv w) (fun w => Inv w) := by
  unfold setDim
  refine Tri.bind (getSet_tri i _ _) fun t => Tri.ite (fun _ => Tri.throw fun w hw => hw.1) fun hd => ?_
  refine Tri.bind (Q := fun _ w => Inv w) ?_ fun _ => ?_
  · refine Tri.modify fun w hw => ?_
    have hreg := hw.1.1 i t hw.2
    exact hw.1.putSet i _ ⟨hreg.sorted, ⟨hreg.dims.dimMin, hreg.dims.diMin, Nat.not_lt.1 hd, hreg.dims.di⟩, hreg.refs⟩
      fun hi => hw.1.2 i hi t hw.2
  · refine Tri.bind (eachPhrase_tri _ _ _ _) fun _ => ?_
    refine Tri.bind (onSubs_tri i _ (by intro s; unfold Sub.setDimSilently; split <;> rfl)) fun _ => ?_
    refine Tri.bind (getSet_tri i _ _) fun t' => ?_
    refine Tri.modify fun w hw => ?_
    have hreg := hw.1.1 i t' hw.2
    exact hw.1.putSet i _ ⟨hreg.sorted, ⟨hreg.dims.dimMin, hreg.dims.diMin, hreg.dims.dim, hreg.dims.di⟩, hreg.refs⟩
      fun hi => hw.1.2 i hi t' hw.2

theorem setDi_tri (i d : Nat) :
    Tri (fun w : World K L => Inv w) (setDi i d) (fun _ w => Inv w) (fun w => Inv w) := by
  unfold setDi
  refine Tri.bind (getSet_tri i _ _) fun t => Tri.ite (fun _ => Tri.throw fun w hw => hw.1) fun hd => ?_
  refine Tri.bind (Q := fun _ w => Inv w) ?_ fun _ => ?_
  · refine Tri.modify fun w hw => ?_
    have hreg := hw.1.1 i t hw.2
    exact hw.1.putSet i _ ⟨hreg.sorted, ⟨hreg.dims.dimMin, hreg.dims.diMin, hreg.dims.dim, by
      simp only; omega⟩, hreg.refs⟩ fun hi => hw.1.2 i hi t hw.2
  · refine Tri.bind (eachPhrase_tri _ _ _ _) fun _ => ?_
    exact onSubs_tri i _ (by intro s; unfold Sub.setDi; split <;> rfl)

theorem setCols_tri (i : Nat) (c : List String) :
    Tri (fun w : World K L => Inv w) (setCols i c) (fun _ w => Inv w) (fun w => Inv w) := by
  unfold setCols
  refine Tri.bind (getSet_tri i _ _) fun t => Tri.ite (fun _ => Tri.throw fun w hw => hw.1) fun _ => ?_
  refine Tri.bind (Q := fun _ w => Inv w) ?_ fun _ => ?_
  · refine Tri.modify fun w hw => ?_
    have hreg := hw.1.1 i t hw.2
    exact hw.1.putSet i _ ⟨hreg.sorted, hreg.dims, hreg.refs⟩ fun hi => hw.1.2 i hi t hw.2
  · refine Tri.bind (eachPhrase_tri _ _ _ _) fun _ => ?_
    exact onSubs_tri i _ (by intro s; unfold Sub.setCols; split <;> rfl)

theorem dimsOk_new (b : Bool) : DimsOk b (Dims.new b) := by
  cases b <;> exact ⟨rfl, rfl, by decide, by decide⟩

theorem newSet_tri (i : Nat) (own b : Bool) :
    Tri (fun w : World K L => Inv w) (newSet i own b) (fun _ w => Inv w) (fun w => Inv w) := by
  intro w hw
  simp only [newSet, bind_def, get_def]
  cases w.sets i with
  | some t => trivial
  | none =>
    exact hw.putSet i _ ⟨SMap.sorted_nil, dimsOk_new b, by simp [TSet.Holds, TSet.new, SMap.find?]⟩
      fun _ => exact_empty _ _ rfl rfl rfl

theorem destroy_tri (i : Nat) :
    Tri (fun w : World K L => Inv w) (destroy i) (fun _ w => Inv w) (fun w => Inv w) := by
  unfold destroy
  refine Tri.bind (getSet_tri i _ _) fun t => Tri.modify fun w hw => ⟨fun j u hu => ?_, fun j hj u hu => ?_⟩
  all_goals
    rw [putSet_sets] at hu
    by_cases hji : j = i
    · simp [hji] at hu
    · rw [if_neg hji] at hu
      first
        | exact ⟨(hw.1.1 j u hu).sorted, (hw.1.1 j u hu).dims, (hw.1.1 j u hu).refs⟩
        | exact hw.1.2 j hj u hu

theorem newPhrase_tri [Inhabited L] (own b : Bool) :
    Tri (fun w : World K L => Inv w) (newPhrase own b) (fun _ w => Inv w) (fun w => Inv w) := by
  intro w hw
  simp only [newPhrase, alloc, bind_def, get_def, set_def, pure_def]
  have hne : ∀ j u, w.sets j = some u → ∀ k r, u.Holds k r → r ≠ w.next :=
    fun j u hu k r hk => Nat.ne_of_lt ((hw.1 j u hu).refs k r hk).1
  refine ⟨fun j u hu => ?_, fun j hj u hu => ?_⟩
  · have h := hw.1 j u hu
    refine ⟨h.sorted, h.dims, fun k r hk => ⟨Nat.lt_succ_of_lt (h.refs k r hk).1, ?_⟩⟩
    simp only [World.putObj, if_neg (hne j u hu k r hk)]
    exact (h.refs k r hk).2
  · refine (hw.2 j hj u hu).congr fun k r hk => ?_
    simp only [World.putObj, if_neg (hne j u hu k r hk)]

theorem phraseOp_tri (r : Nat) (op : Phrase.Op K) :
    Tri (fun w : World K L => Inv w) (phraseOp r op) (fun _ w => Inv w) (fun w => Inv w) := by
  unfold phraseOp
  refine Tri.bind (Q := fun _ w => Inv w) (Tri.get fun _ h => h) fun w' => ?_
  exact Tri.ite (fun _ => onPhrase_tri _ _ _ _) fun _ => Tri.undef

theorem userRelabel_tri (r : Nat) (l : L) :
    Tri (fun w : World K L => Inv w ∧ w.Coherent) (userRelabel r l) (fun _ w => Inv w ∧ w.Coherent) (fun _ => False) := by
  unfold userRelabel
  refine Tri.bind (Q := fun _ w => Inv w ∧ w.Coherent) (Tri.get fun _ h => h) fun w' => ?_
  exact Tri.ite (fun _ => relabel_tri _ _) fun _ => Tri.undef

theorem listenAll_tri (i : Nat) (l : List (Int × Nat)) (S : Nat → Prop) :
    Tri (fun w : World K L => P S (fun j r => j = i ∧ ∃ e ∈ l, e.2 = r) w ∧ w.Coherent)
      (copyConstruct.listenAll i l) (fun _ w => P S noX w ∧ w.Coherent) (fun _ => False) := by
  induction l with
  | nil =>
    refine Tri.pure fun w hw => ⟨⟨fun j u hu => ?_, hw.1.2⟩, hw.2⟩
    have := hw.1.1 j u hu
    exact ⟨this.sorted, this.dims, fun k r hk => ⟨(this.refs k r hk).1, Or.inr
      ((this.refs k r hk).2.resolve_left (by simp))⟩⟩
  | cons e l ih =>
    refine Tri.bind (Q := fun _ w => P S (fun j r => j = i ∧ ∃ e ∈ l, e.2 = r) w ∧ w.Coherent) ?_ fun _ => ih
    intro w hw
    refine ⟨listen_P i e.2 hw.1 ?_, hw.2⟩
    rintro j r ⟨rfl, e', he', rfl⟩
    rcases List.mem_cons.1 he' with rfl | h
    · exact Or.inr ⟨rfl, rfl⟩
    · exact Or.inl ⟨rfl, e', h, rfl⟩

theorem copyConstruct_tri (src i : Nat) :
    Tri (fun w : World K L => Inv w ∧ w.Coherent) (copyConstruct src i) (fun _ w => Inv w ∧ w.Coherent)
      (fun _ => False) := by
  unfold copyConstruct
  refine Tri.bind (getSet_tri src _ _) fun t => ?_
  refine Tri.bind (Q := fun w' w => w' = w ∧ (Inv w ∧ w.Coherent) ∧ w.sets src = some t)
    (Tri.get fun w h => ⟨rfl, h⟩) fun w' => ?_
  cases hi : w'.sets i with
  | some u => exact Tri.undef
  | none =>
    simp only
    refine Tri.ite (fun _ => ?_) (fun _ => Tri.undef)
    refine Tri.bind (Q := fun _ w => P (fun j => False ∨ j = i) (fun j r => j = i ∧ ∃ e ∈ t.phrases, e.2 = r) w ∧
      w.Coherent) ?_ fun _ => ?_
    · refine Tri.set fun w hw => ?_
      obtain ⟨rfl, ⟨hI, hC⟩, hs⟩ := hw
      have hreg := hI.1 src t hs
      refine ⟨?_, putSet_coherent hC i _ (hC src t hs)⟩
      have hP : P (fun j => False ∨ j = i) (fun j r => j = i ∧ ∃ e ∈ t.phrases, e.2 = r) w' := by
        refine ⟨fun j u hu => ?_, fun j hj u hu => hI.2 j id u hu⟩
        have := hI.1 j u hu
        exact ⟨this.sorted, this.dims, fun k r hk => ⟨(this.refs k r hk).1,
          Or.inr ((this.refs k r hk).2.resolve_left id)⟩⟩
      refine hP.putSet i _ ⟨hreg.sorted, hreg.dims, fun k r hk => ⟨(hreg.refs k r hk).1, Or.inl ⟨rfl, ?_⟩⟩⟩ (by simp)
      exact ⟨(k, r), (SMap.mem_iff_find? hreg.sorted).2 hk, rfl⟩
    · refine Tri.bind (listenAll_tri i t.phrases _) fun _ => ?_
      exact update_tri i _

theorem copyPhrases_tri (i : Nat) (l : List (Int × Nat)) :
    Tri (fun w : World K L => P (fun j => j = i) noX w ∧ w.Coherent) (copyPhrases i l)
      (fun _ w => P (fun j => j = i) noX w ∧ w.Coherent) (fun _ => False) := by
  induction l with
  | nil => exact Tri.pure fun _ h => h
  | cons e l ih =>
    unfold copyPhrases
    refine Tri.bind (Q := fun _ w => P (fun j => j = i) noX w ∧ w.Coherent) (Tri.get fun _ h => h) fun w' => ?_
    cases Phrase.copy (w'.obj e.2).ph with
    | none => exact Tri.undef
    | some q =>
      refine Tri.bind (alloc_tri _ _) fun r => ?_
      refine Tri.bind ((putPhrase_tri i e.1 r (fun j => j = i) (fun _ => True)).conseq
        (fun w hw => ⟨hw.1, hw.2.1, hw.2.2.1, trivial⟩) (fun _ _ h => h) (fun _ h => h)) fun _ => ?_
      refine Tri.bind (listen_tri i r _ (fun _ => True) (fun _ _ _ h => h)) fun _ => ?_
      exact ih.conseq (fun w hw => ⟨hw.1.mono (by simp), hw.2.1⟩) (fun _ _ h => h) (fun _ h => h)

theorem assign_tri (i src : Nat) :
    Tri (fun w : World K L => Inv w ∧ w.Coherent) (assign i src) (fun _ w => Inv w ∧ w.Coherent) (fun _ => False) := by
  unfold assign
  refine Tri.bind (getSet_tri src _ _) fun s => ?_
  refine Tri.bind ((getSet_tri i _ _).conseq (fun _ h => h) (fun _ _ h => h.1) (fun _ h => h)) fun _ => ?_
  refine Tri.ite (fun _ => Tri.pure fun w hw => hw.1) fun hne => ?_
  refine Tri.bind (Q := fun _ w => P (fun j => j = i) noX w ∧ w.Coherent) ?_ fun _ => ?_
  · refine Tri.modify fun w hw => ?_
    have hreg := hw.1.1.1 src s hw.2
    refine ⟨(hw.1.1.mono (by simp)).putSet i _ ⟨SMap.sorted_nil, hreg.dims, by simp [TSet.Holds, SMap.find?]⟩ (by simp),
      putSet_coherent hw.1.2 i _ (hw.1.2 src s hw.2)⟩
  · refine Tri.bind (copyPhrases_tri i s.phrases) fun _ => ?_
    exact (update_tri i fun _ => False).conseq (fun w hw => ⟨hw.1.mono (by simp), hw.2⟩) (fun _ _ h => h) (fun _ h => h)

theorem step_inv [Inhabited L] (op : Op K L) :
    Tri (fun w : World K L => Inv w ∧ (op.updates = true → w.Coherent)) (step op) (fun _ w => Inv w) (fun w => Inv w) := by
  have upd : ∀ {f : Prog (World K L) Unit}, op.updates = true → Tri (fun w => Inv w ∧ w.Coherent) f
      (fun _ w => Inv w ∧ w.Coherent) (fun _ => False) →
      Tri (fun w : World K L => Inv w ∧ (op.updates = true → w.Coherent)) f (fun _ w => Inv w) (fun w => Inv w) := by
    intro f ho hf
    exact hf.conseq (fun _ h => ⟨h.1, h.2 ho⟩) (fun _ _ h => h.1) (fun _ h => h.elim)
  have pln : ∀ {f : Prog (World K L) Unit}, Tri (fun w => Inv w) f (fun _ w => Inv w) (fun w => Inv w) →
      Tri (fun w : World K L => Inv w ∧ (op.updates = true → w.Coherent)) f (fun _ w => Inv w) (fun w => Inv w) := by
    intro f hf
    exact hf.conseq (fun _ h => h.1) (fun _ _ h => h) (fun _ h => h)
  cases op with
  | newSet i o b => exact pln (newSet_tri i o b)
  | copyConstruct s i => exact upd rfl (copyConstruct_tri s i)
  | assign i s => exact upd rfl (assign_tri i s)
  | destroy i => exact pln (destroy_tri i)
  | newPhrase o b => exact pln (newPhrase_tri o b)
  | phraseOp r op => exact pln (phraseOp_tri r op)
  | relabel r l => exact upd rfl (userRelabel_tri r l)
  | addLabel i k l => exact upd rfl (addLabel_tri i k l)
  | addCopy i k p l => exact upd rfl (addCopy_tri i k p l)
  | addShared i k r => exact upd rfl (addShared_tri i k r)
  | remove i k => exact upd rfl (remove_tri i k)
  | removeClass i l => exact upd rfl (removeClass_tri i l)
  | clear i => exact pln (clear_tri i)
  | setDim i d => exact pln (setDim_tri i d)
  | setDi i d => exact pln (setDi_tri i d)
  | setCols i c => exact pln (setCols_tri i c)

theorem run_inv [Inhabited L] (ops : List (Op K L)) (w : World K L) (hw : Inv w) (ha : Admissible ops w)
    (w' : World K L) (es : List (Option Exn)) (hr : run ops w = some (w', es)) : Inv w' := by
  induction ops generalizing w es with
  | nil => simp only [run, Option.some.injEq, Prod.mk.injEq] at hr; rw [← hr.1]; exact hw
  | cons op ops ih =>
    have hs := step_inv op w ⟨hw, ha.1⟩
    have ha2 := ha.2
    simp only [run] at hr
    cases hst : step op w with
    | ret a w1 =>
      rw [hst] at hs hr ha2
      simp only [Option.map_eq_some_iff] at hr
      obtain ⟨⟨w2, es2⟩, h1, h2⟩ := hr
      simp only [Prod.mk.injEq] at h2
      obtain ⟨rfl, _⟩ := h2
      exact ih w1 hs ha2 es2 h1
    | throw e w1 =>
      rw [hst] at hs hr ha2
      simp only [Option.map_eq_some_iff] at hr
      obtain ⟨⟨w2, es2⟩, h1, h2⟩ := hr
      simp only [Prod.mk.injEq] at h2
      obtain ⟨rfl, _⟩ := h2
      exact ih w1 hs ha2 es2 h1
    | ub => rw [hst] at hr; simp at hr

theorem inv_empty [Inhabited L] : Inv (World.empty : World K L) := by
  constructor
  · intro i t h; simp [World.empty] at h
  · intro i _ t h; simp [World.empty] at h

end Xmm.TS
