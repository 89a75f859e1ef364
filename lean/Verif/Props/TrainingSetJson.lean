import Verif.Model.TrainingSetJson
import Verif.Props.TrainingSetCopy
import Verif.Props.PhraseJson
/- C25 (training sets): a training set written to JSON and read back. -/
namespace Xmm.TS
open PhraseSpec Phrase
open Prog (bind_def pure_def get_def set_def modify_def throw_def undef_def)
open SharedParams (liftE_ok)
variable {K : Type}

theorem member_index (m : List (String × Json K)) (x : Json K) (key : String) (h : key ≠ "index") :
    Json.member key (.obj (m ++ [("index", x)])) = Json.member key (.obj m) := by
  have : List.find? (fun e : String × Json K => decide (e.1 = key)) [("index", x)] = none := by
    simp [List.find?, Ne.symm h]
  simp only [Json.member, List.find?_append, this]
  cases List.find? (fun e : String × Json K => decide (e.1 = key)) m <;> rfl

theorem getKey_index (m : List (String × Json K)) (x : Json K) (key : String) (h : key ≠ "index") :
    Json.getKey key (.obj (m ++ [("index", x)])) = Json.getKey key (.obj m) := by
  simp only [Json.getKey, member_index m x key h]

theorem getOr_index (m : List (String × Json K)) (x d : Json K) (key : String) (h : key ≠ "index") :
    Json.getOr (.obj (m ++ [("index", x)])) key d = Json.getOr (.obj m) key d := by
  simp only [Json.getOr, member_index m x key h]

/-- the index added to a phrase is not read by the phrase -/
theorem ofJson_index [Field K] [DecidableEq K] [JsonReal K] {σ : Type} (m : List (String × Json K)) (x : Json K) (st : σ) :
    Phrase.ofJson (.obj (m ++ [("index", x)])) st = Phrase.ofJson (.obj m) st := by
  have e : ∀ key, key ≠ "index" → Json.getKey key (.obj (m ++ [("index", x)])) = Json.getKey key (.obj m) :=
    fun key h => getKey_index m x key h
  have e' : ∀ d key, key ≠ "index" → Json.getOr (.obj (m ++ [("index", x)])) key d = Json.getOr (.obj m) key d :=
    fun d key h => getOr_index m x d key h
  simp only [Phrase.ofJson, readDims, readData, e "column_names" (by decide), e "label" (by decide),
    e "data" (by decide), e "data_input" (by decide), e "data_output" (by decide), e' _ "bimodal" (by decide),
    e' _ "dimension" (by decide), e' _ "dimension_input" (by decide), e' _ "length" (by decide)]

/-- What must hold of a phrase for its JSON to be read back: its frames are `s`. -/
structure Savable (p : Phrase K) (s : S K) : Prop where
  rep : p.Rep s
  coherent : s.Coherent
  fits : s.Fits
  dim : (if s.bimodal then 2 else 1) ≤ s.dim
  uni : s.bimodal = false → s.di = 0
  names : p.columnNames.length ≤ s.dim

/-- the node of a phrase -/
def nodeOf [Field K] (s : S K) (k : Int) (label : String) (names : List String) : Json K :=
  match jsonOf s label names with
  | .obj m => .obj (m ++ [("index", .int k)])
  | j => j

theorem phraseNode_ok [Field K] (k : Int) (o : PhraseObj K String) (s : S K) (h : Savable o.ph s) :
    phraseNode k o = some (nodeOf s k o.label o.ph.columnNames) := by
  have hr : Rep ({ o.ph with label := o.label } : Phrase K) s := h.rep.named o.label o.ph.columnNames
  simp only [phraseNode, toJson_of_rep hr h.coherent, nodeOf]
  rfl

theorem nodeOf_index [Field K] (s : S K) (k : Int) (label : String) (names : List String) :
    (nodeOf s k label names).getKey "index" = .ok (.int k) := by
  by_cases hn : names = [] <;> cases hb : s.bimodal <;>
    simp [nodeOf, jsonOf, Json.getKey, Json.member, List.find?, dataMembers, hn, hb]

theorem nodeOf_phrase [Field K] [DecidableEq K] [JsonReal K] {σ : Type} {p : Phrase K} {s : S K} (h : Savable p s)
    (k : Int) (label : String) (st : σ) :
    Phrase.ofJson (nodeOf s k label p.columnNames) st = .ret (restored s label p.columnNames) st := by
  have hw := wellSized_of_rep h.rep h.dim
  rw [← ofJson_ok hw h.coherent h.fits h.uni label p.columnNames h.names st]
  exact ofJson_index _ _ st

theorem mapM_some {α β : Type} (f : α → Option β) (g : α → β) (l : List α) (h : ∀ a ∈ l, f a = some (g a)) :
    l.mapM f = some (l.map g) := by
  induction l with
  | nil => rfl
  | cons a l ih =>
    simp [h a List.mem_cons_self, ih fun b hb => h b (List.mem_cons_of_mem _ hb)]

/-- reading the nodes of the phrases `l` -/
theorem loadPhrases_ret [Field K] [DecidableEq K] [JsonReal K] (i : Nat) (src : Nat → PhraseObj K String)
    (frames : Nat → S K) (l : List (Int × Nat)) :
    ∀ (w : World K String) (t : TSet String), SMap.Sorted (l : SMap Int Nat) → w.sets i = some t →
      (∀ e ∈ l, Savable (src e.2).ph (frames e.2)) → (∀ e ∈ l, -2147483648 ≤ e.1 ∧ e.1 ≤ 2147483647) →
      (∀ e ∈ l, SMap.find? e.1 t.phrases = none) → SMap.Sorted t.phrases →
    ∃ w', loadPhrases i (l.map fun e => nodeOf (frames e.2) e.1 (src e.2).label (src e.2).ph.columnNames) w = .ret () w' ∧
    w.next ≤ w'.next ∧ (∀ r, r < w.next → w'.obj r = w.obj r) ∧ (∀ j, j ≠ i → w'.sets j = w.sets j) ∧
    ∃ t', w'.sets i = some t' ∧ t' = { t with phrases := t'.phrases } ∧ SMap.Sorted t'.phrases ∧
      (∀ k, match SMap.find? k (l : SMap Int Nat) with
        | none => SMap.find? k t'.phrases = SMap.find? k t.phrases
        | some r => ∃ r', SMap.find? k t'.phrases = some r' ∧ w.next ≤ r' ∧ r' < w'.next ∧
            w'.obj r' = ⟨restored (frames r) (src r).label (src r).ph.columnNames, (src r).label, [(i, ())]⟩) := by
  induction l with
  | nil =>
    intro w t _ ht _ _ _ hst
    exact ⟨w, rfl, le_refl _, fun _ _ => rfl, fun _ _ => rfl, t, ht, rfl, hst, fun k => by simp [SMap.find?]⟩
  | cons e l ih =>
    intro w t hl ht hsav hint hnew hst
    obtain ⟨k0, r0⟩ := e
    rw [SMap.sorted_cons] at hl
    have hs0 := hsav (k0, r0) List.mem_cons_self
    have hk0 := hint (k0, r0) List.mem_cons_self
    have hn0 := hnew (k0, r0) List.mem_cons_self
    set ph0 := restored (frames r0) (src r0).label (src r0).ph.columnNames with hph0
    have hins : SMap.find? k0 (SMap.insertNew k0 w.next t.phrases) = some w.next := by
      rw [SMap.find?_insertNew]; simp [hn0]
    set t1 : TSet String := { t with phrases := SMap.insertNew k0 w.next t.phrases } with ht1
    set o1 : PhraseObj K String := ⟨ph0, (src r0).label, [(i, ())]⟩ with ho1
    set w1 : World K String :=
      { obj := fun r' => if r' = w.next then o1 else w.obj r', next := w.next + 1,
        sets := fun i' => if i' = i then some t1 else w.sets i' } with hw1
    have hstep : loadPhrases i (((k0, r0) :: l).map fun e =>
          nodeOf (frames e.2) e.1 (src e.2).label (src e.2).ph.columnNames) w =
        loadPhrases i (l.map fun e => nodeOf (frames e.2) e.1 (src e.2).label (src e.2).ph.columnNames) w1 := by
      rw [List.map_cons, loadPhrases, nodeOf_index, bind_of_ret (liftE_ok _ _),
        show (Json.int k0 : Json K).asInt = .ok k0 from if_pos hk0, bind_of_ret (liftE_ok _ _),
        bind_of_ret (nodeOf_phrase hs0 k0 _ w)]
      simp only [alloc, insertPhrase, listenAt, listen, getSet, bind_def, get_def, set_def, pure_def, World.putObj, ht,
        modify_def, World.putSet, if_true, hins]
      congr 1
      rw [hw1]
      congr 1
      funext r'
      by_cases hr' : r' = w.next
      · subst hr'; simp [ho1, EventGen.addListener, SMap.insertNew, hph0]; exact ⟨rfl, rfl⟩
      · simp [hr']
    have hl1 : ∀ e ∈ l, SMap.find? e.1 t1.phrases = none := by
      intro e he
      have hne : e.1 ≠ k0 := by
        have := hl.1 e he
        exact ne_of_gt this
      rw [ht1]
      simp only [SMap.find?_insertNew]
      rw [if_neg (fun h => hne h.1)]
      exact hnew e (List.mem_cons_of_mem _ he)
    obtain ⟨w', e1, n1, ob1, s1, t', st', et', hs', ph'⟩ := ih w1 t1 hl.2 (by simp [hw1])
      (fun e he => hsav e (List.mem_cons_of_mem _ he)) (fun e he => hint e (List.mem_cons_of_mem _ he)) hl1 hst.insertNew
    have n1' : w.next + 1 ≤ w'.next := n1
    refine ⟨w', hstep.trans e1, by omega, fun r hr => ?_, fun j hj => ?_, t', st', by rw [et'], hs', fun k => ?_⟩
    · rw [ob1 r (by show r < w.next + 1; omega)]; simp [hw1, Nat.ne_of_lt hr]
    · rw [s1 j hj]; simp [hw1, hj]
    · by_cases hk : k = k0
      · subst hk
        have h2 := ph' k
        rw [SMap.find?_none_of_lt hl.1] at h2
        simp only [SMap.find?, if_true]
        refine ⟨w.next, by rw [h2]; exact hins, le_refl _, by omega, ?_⟩
        rw [ob1 w.next (by show w.next < w.next + 1; omega)]; simp [hw1, ho1, hph0]
      · have h2 := ph' k
        simp only [SMap.find?, hk, if_false]
        cases hf : SMap.find? k (l : SMap Int Nat) with
        | none =>
          rw [hf] at h2
          simp only at h2 ⊢
          rw [h2, ht1]
          simp only [SMap.find?_insertNew]
          rw [if_neg (fun h => hk h.1)]
        | some r =>
          rw [hf] at h2
          simp only at h2 ⊢
          obtain ⟨r', h3, h4, h5, h6⟩ := h2
          have h4 : w.next + 1 ≤ r' := h4
          exact ⟨r', h3, by omega, h5, h6⟩

theorem putSet_putSet {L : Type} (w : World K L) (i : Nat) (t u : Option (TSet L)) : (w.putSet i t).putSet i u = w.putSet i u := by
  simp only [World.putSet, World.mk.injEq, true_and]
  funext j
  by_cases h : j = i <;> simp [h]

theorem setDim_bare {L : Type} [LinearOrder L] (w : World K L) (i : Nat) (t : TSet L) (ht : w.sets i = some t)
    (hp : t.phrases = []) (hs : t.subs = []) (d : Nat) (hd : t.dims.dimMin ≤ d) :
    setDim i d w = .ret () (w.putSet i (some { t with dims := { t.dims with dim := d, diMax := d - 1 },
                                                      cols := resizeCols d t.cols })) := by
  simp only [setDim, getSet, bind_def, get_def, ht, pure_def, if_neg (Nat.not_lt.2 hd), modify_def, hp, eachPhrase, onSubs,
    hs, eachSub, putSet_sets, if_true, putSet_putSet]

theorem setDi_bare {L : Type} [LinearOrder L] (w : World K L) (i : Nat) (t : TSet L) (ht : w.sets i = some t)
    (hp : t.phrases = []) (hs : t.subs = []) (d : Nat) (hd : ¬ (d < t.dims.diMin ∨ t.dims.diMax < d)) :
    setDi i d w = .ret () (w.putSet i (some { t with dims := { t.dims with di := d } })) := by
  simp only [setDi, getSet, bind_def, get_def, ht, pure_def, if_neg hd, modify_def, hp, eachPhrase, onSubs,
    hs, eachSub, putSet_sets, if_true, putSet_putSet]

theorem setCols_bare {L : Type} [LinearOrder L] (w : World K L) (i : Nat) (t : TSet L) (ht : w.sets i = some t)
    (hp : t.phrases = []) (hs : t.subs = []) (c : List String) (hd : c.length = t.cols.length) :
    setCols i c w = .ret () (w.putSet i (some { t with cols := c })) := by
  simp only [setCols, getSet, bind_def, get_def, ht, pure_def, hd, ne_eq, not_true, and_false, if_false, modify_def, hp,
    eachPhrase, onSubs, hs, eachSub, putSet_sets, if_true, putSet_putSet]

/-- What must hold of a training set for its JSON to be read back; `frames r` are the frames of the phrase `r`. -/
structure SetSavable (w : World K String) (t : TSet String) (frames : Nat → S K) : Prop where
  cols : t.cols.length = t.dims.dim
  dim : t.dims.dim ≤ uintMax
  index : ∀ k r, t.Holds k r → -2147483648 ≤ k ∧ k ≤ 2147483647
  phrases : ∀ k r, t.Holds k r → Savable (w.obj r).ph (frames r)

/-- the file of a training set -/
def fileOf [Field K] (w : World K String) (t : TSet String) (frames : Nat → S K) : Json K :=
  setNode t t.cols (t.phrases.map fun e => nodeOf (frames e.2) e.1 (w.obj e.2).label (w.obj e.2).ph.columnNames)

theorem toJson_ok [Field K] (w : World K String) (i : Nat) (t : TSet String) (frames : Nat → S K) (ht : w.sets i = some t)
    (hI : Inv w) (h : SetSavable w t frames) : toJson i w = .ret (fileOf w t frames) w := by
  have hst := (hI.1 i t ht).sorted
  have hm : t.phrases.mapM (fun e => phraseNode e.1 (w.obj e.2)) =
      some (t.phrases.map fun e => nodeOf (frames e.2) e.1 (w.obj e.2).label (w.obj e.2).ph.columnNames) :=
    mapM_some _ _ _ fun e he => phraseNode_ok e.1 _ _ (h.phrases e.1 e.2 ((SMap.mem_iff_find? hst).1 he))
  have hn : namesTo t.dims.dim t.cols = .ok t.cols := by
    rw [namesTo, if_pos (by rw [h.cols]), ← h.cols, List.take_length]
  simp only [toJson, getSet, bind_def, get_def, ht, pure_def, hn, liftE, hm]
  rfl

/-- the restored training set is created next to the others, which are untouched -/
theorem ofJson_spec [Field K] [DecidableEq K] [JsonReal K] (w : World K String) (i j : Nat) (t : TSet String)
    (frames : Nat → S K) (ht : w.sets i = some t) (hj : w.sets j = none) (hI : Inv w) (hC : w.Coherent)
    (h : SetSavable w t frames) :
    ∃ w' t', ofJson j (fileOf w t frames) w = .ret () w' ∧ w'.sets j = some t' ∧ Inv w' ∧ w'.Coherent ∧
      w.next ≤ w'.next ∧ (∀ r, r < w.next → w'.obj r = w.obj r) ∧ (∀ l, l ≠ j → w'.sets l = w.sets l) ∧
      t'.own = true ∧ t'.bimodal = t.bimodal ∧ t'.dims.dim = t.dims.dim ∧ t'.dims.di = t.dims.di ∧ t'.cols = t.cols ∧
      ∀ k, match SMap.find? k t.phrases with
        | none => SMap.find? k t'.phrases = none
        | some r => ∃ r', SMap.find? k t'.phrases = some r' ∧ w.next ≤ r' ∧ r' < w'.next ∧
            w'.obj r' = ⟨restored (frames r) (w.obj r).label (w.obj r).ph.columnNames, (w.obj r).label, [(j, ())]⟩ := by
  have hreg := hI.1 i t ht
  have hco : t.dims.di < t.dims.dim := hC i t ht
  have hmin : (if t.bimodal then 2 else 1) ≤ t.dims.dim := by
    have := hreg.dims.dim; rw [hreg.dims.dimMin] at this; simpa [Dims.new] using this
  have himin : (if t.bimodal then 1 else 0) ≤ t.dims.di := by
    have := hreg.dims.di; rw [hreg.dims.diMin] at this; simpa [Dims.new] using this
  have hdi : t.dims.di ≤ uintMax := by have := h.dim; omega
  set b := t.bimodal with hb
  set root := fileOf w t frames with hroot
  have k1 : ∀ d, root.getOr "bimodal" d = .ok (.bool b) := fun d => by
    simp [hroot, fileOf, setNode, Json.getOr, Json.member, List.find?, hb]
  have k2 : ∀ d, root.getOr "dimension" d = .ok (.int (sint t.dims.dim)) := fun d => by
    simp [hroot, fileOf, setNode, Json.getOr, Json.member, List.find?]
  have k3 : ∀ d, root.getOr "dimension_input" d = .ok (.int (sint t.dims.di)) := fun d => by
    simp [hroot, fileOf, setNode, Json.getOr, Json.member, List.find?]
  have k4 : root.getKey "column_names" = .ok (.arr (t.cols.map .str)) := by
    simp [hroot, fileOf, setNode, Json.getKey, Json.member, List.find?]
  have k5 : root.getKey "phrases" = .ok (.arr (t.phrases.map fun e =>
      nodeOf (frames e.2) e.1 (w.obj e.2).label (w.obj e.2).ph.columnNames)) := by
    simp [hroot, fileOf, setNode, Json.getKey, Json.member, List.find?]
  -- the attributes
  set t0 : TSet String := TSet.blank b with ht0
  set t1 : TSet String := { t0 with dims := { t0.dims with dim := t.dims.dim, diMax := t.dims.dim - 1 },
                                    cols := resizeCols t.dims.dim t0.cols } with ht1
  set t2 : TSet String := { t1 with dims := { t1.dims with di := t.dims.di } } with ht2
  set t3 : TSet String := { t2 with cols := t.cols } with ht3
  have s1 : setDim j t.dims.dim (w.putSet j (some t0)) = .ret () (w.putSet j (some t1)) := by
    rw [setDim_bare _ j t0 (by simp [putSet_sets]) rfl rfl t.dims.dim hmin, putSet_putSet]
  have s2 : setDi j t.dims.di (w.putSet j (some t1)) = .ret () (w.putSet j (some t2)) := by
    have hnot : ¬ (t.dims.di < t1.dims.diMin ∨ t1.dims.diMax < t.dims.di) := by
      have a1 : t1.dims.diMin = if b then 1 else 0 := rfl
      have a2 : t1.dims.diMax = t.dims.dim - 1 := rfl
      rw [a1, a2]; omega
    rw [setDi_bare _ j t1 (by simp [putSet_sets]) rfl rfl t.dims.di hnot, putSet_putSet]
  have hlen : t2.cols.length = t.dims.dim := by
    show (resizeCols t.dims.dim []).length = _
    simp [resizeCols]
  have s3 : setCols j t.cols (w.putSet j (some t2)) = .ret () (w.putSet j (some t3)) := by
    rw [setCols_bare _ j t2 (by simp [putSet_sets]) rfl rfl t.cols (h.cols.trans hlen.symm), putSet_putSet]
  -- the phrases
  obtain ⟨w4, e4, n4, o4, p4, t4, st4, et4, so4, ph4⟩ := loadPhrases_ret j w.obj frames t.phrases (w.putSet j (some t3)) t3
    hreg.sorted (by simp [putSet_sets])
    (fun e he => h.phrases e.1 e.2 ((SMap.mem_iff_find? hreg.sorted).1 he))
    (fun e he => h.index e.1 e.2 ((SMap.mem_iff_find? hreg.sorted).1 he))
    (fun _ _ => rfl) SMap.sorted_nil
  have n4 : w.next ≤ w4.next := n4
  have o4 : ∀ r, r < w.next → w4.obj r = w.obj r := o4
  have ph4 : ∀ k, match SMap.find? k t.phrases with
      | none => SMap.find? k t4.phrases = none
      | some r => ∃ r', SMap.find? k t4.phrases = some r' ∧ w.next ≤ r' ∧ r' < w4.next ∧
          w4.obj r' = ⟨restored (frames r) (w.obj r).label (w.obj r).ph.columnNames, (w.obj r).label, [(j, ())]⟩ := ph4
  have p4 : ∀ l, l ≠ j → w4.sets l = w.sets l := fun l hl => by rw [p4 l hl, putSet_sets, if_neg hl]
  have d4 : t4.dims = t3.dims := by rw [et4]
  have bm4 : t4.bimodal = b := by rw [et4]; rfl
  have dok : DimsOk t4.bimodal t4.dims := by
    rw [bm4, d4]
    refine ⟨rfl, rfl, hmin, ?_⟩
    exact himin
  have cok : t4.Coherent := by
    show t4.dims.di < t4.dims.dim
    rw [d4]; exact hco
  have hrefs : ∀ k r', SMap.find? k t4.phrases = some r' → ∃ r, SMap.find? k t.phrases = some r ∧ w.next ≤ r' ∧ r' < w4.next ∧
      w4.obj r' = ⟨restored (frames r) (w.obj r).label (w.obj r).ph.columnNames, (w.obj r).label, [(j, ())]⟩ := by
    intro k r' hk
    have := ph4 k
    cases hf : SMap.find? k t.phrases with
    | none => rw [hf] at this; simp only at this; rw [this] at hk; cases hk
    | some r =>
      rw [hf] at this
      obtain ⟨r'', a1, a2, a3, a4⟩ := this
      rw [a1] at hk
      cases hk
      exact ⟨r, rfl, a2, a3, a4⟩
  have hP4 : P (fun l => False ∨ l = j) noX w4 ∧ w4.Coherent := by
    refine ⟨⟨fun l u hu => ?_, fun l hl u hu => ?_⟩, fun l u hu => ?_⟩
    · by_cases hlj : l = j
      · subst hlj
        rw [st4] at hu; cases hu
        refine ⟨so4, dok, fun k r' hk => ?_⟩
        obtain ⟨r, _, _, a3, a4⟩ := hrefs k r' hk
        refine ⟨a3, Or.inr ?_⟩
        rw [a4]; simp [SMap.find?]
      · rw [p4 l hlj] at hu
        have := hI.1 l u hu
        refine ⟨this.sorted, this.dims, fun k r hk => ?_⟩
        have hr := this.refs k r hk
        rw [o4 r hr.1]
        exact ⟨by omega, hr.2⟩
    · simp only [false_or] at hl
      rw [p4 l hl] at hu
      exact (hI.2 l id u hu).congr fun k r hk => by rw [o4 r ((hI.1 l u hu).refs k r hk).1]
    · by_cases hlj : l = j
      · subst hlj; rw [st4] at hu; cases hu; exact cok
      · rw [p4 l hlj] at hu; exact hC l u hu
  obtain ⟨lb, su, h1, h2, _⟩ := updateSet_ok (fun r => (w4.obj r).label) t4 dok cok so4
  have hupd : update j w4 = .ret () (w4.putSet j (some { t4 with labels := lb, subs := su })) := by
    simp only [update, getSet, bind_def, get_def, st4, pure_def, h1, set_def]
  have hP5 := (update_tri (K := K) j fun _ => False).ret hP4 hupd
  refine ⟨w4.putSet j (some { t4 with labels := lb, subs := su }), { t4 with labels := lb, subs := su }, ?_,
    by simp [putSet_sets], hP5.1, hP5.2, n4, o4, fun l hl => ?_, ?_, bm4, ?_, ?_, ?_, ph4⟩
  · have hread : readJson j root b (w.putSet j (some t0)) =
        .ret () (w4.putSet j (some { t4 with labels := lb, subs := su })) := by
      unfold readJson
      rw [k2, bind_of_ret (liftE_ok _ _), SharedParams.asInt_sint h.dim, bind_of_ret (liftE_ok _ _),
        SharedParams.uint_sint h.dim, bind_of_ret s1, k3, bind_of_ret (liftE_ok _ _), SharedParams.asInt_sint hdi,
        bind_of_ret (liftE_ok _ _), SharedParams.uint_sint hdi, bind_of_ret s2]
      have hg : getSet j (w.putSet j (some t2)) = .ret t2 (w.putSet j (some t2)) := by
        simp [getSet, putSet_sets]
      rw [bind_of_ret hg, k4, bind_of_ret (liftE_ok _ _)]
      have hne : t.cols ≠ [] := by
        intro h0; have := h.cols; rw [h0] at this; simp at this; omega
      have hnames := readNames_json (K := K) t.cols t2.dims.dim (by rw [h.cols]) (w.putSet j (some t2))
      simp only [if_neg hne] at hnames
      rw [bind_of_ret hnames, show t.cols ++ List.replicate (t2.dims.dim - t.cols.length) "" = t.cols by
        rw [show t2.dims.dim = t.dims.dim from rfl, h.cols]; simp]
      rw [bind_of_ret s3, k5, bind_of_ret (liftE_ok _ _)]
      exact (bind_of_ret e4).trans hupd
    unfold ofJson
    simp only [bind_def, get_def, hj, k1, liftE, pure_def, Json.asBool, set_def]
    rw [← ht0]
    show (match readJson j root b (w.putSet j (some t0)) with
      | .throw e w2 => Res.throw e (w2.putSet j none)
      | r => r) = _
    rw [hread]
  · rw [putSet_sets, if_neg hl, p4 l hl]
  · show t4.own = true
    rw [et4]; rfl
  · show t4.dims.dim = _
    rw [d4]
  · show t4.dims.di = _
    rw [d4]
  · show t4.cols = _
    rw [et4]

/-- What a user finds in a training set `t'` restored from the file of `t`: the attributes and labels of `t`, and at exactly the same
    indices own-memory phrases with the same label, the frames complete in both modalities and the column names (completed to the
    dimension by empty names), which can be destroyed and which notify the training set `listener` and no other one. -/
structure Restored (w w' : World K String) (t t' : TSet String) (fr : Nat → S K) (listener : Nat) : Prop where
  own : t'.own = true
  bimodal : t'.bimodal = t.bimodal
  dim : t'.dims.dim = t.dims.dim
  di : t'.dims.di = t.dims.di
  cols : t'.cols = t.cols
  labels : ∀ l, l ∈ t'.labels.keys ↔ l ∈ t.labels.keys
  indices : ∀ k, (∃ r', t'.Holds k r') ↔ ∃ r, t.Holds k r
  label : ∀ k r r', t.Holds k r → t'.Holds k r' → (w'.obj r').label = (w.obj r).label
  frames : ∀ k r r', t.Holds k r → t'.Holds k r' → (w'.obj r').ph.Rep (fr r).saved
  names : ∀ k r r', t.Holds k r → t'.Holds k r' → (w'.obj r').ph.columnNames = (w.obj r).ph.columnNames ++
    List.replicate ((fr r).dim - (w.obj r).ph.columnNames.length) ""
  destroy : ∀ k r', t'.Holds k r' → (w'.obj r').ph.destroy = true
  listeners : ∀ k r', t'.Holds k r' → (w'.obj r').listeners.keys = [listener]

theorem restored_of [Field K] [DecidableEq K] [JsonReal K] {w w' : World K String} {i j : Nat} {t t' : TSet String}
    {frames : Nat → S K} (ht : w.sets i = some t) (hI : Inv w) (h : SetSavable w t frames)
    (st : w'.sets j = some t') (hI' : Inv w')
    (a1 : t'.own = true) (a2 : t'.bimodal = t.bimodal) (a3 : t'.dims.dim = t.dims.dim) (a4 : t'.dims.di = t.dims.di)
    (a5 : t'.cols = t.cols)
    (ph : ∀ k, match SMap.find? k t.phrases with
        | none => SMap.find? k t'.phrases = none
        | some r => ∃ r', SMap.find? k t'.phrases = some r' ∧ w.next ≤ r' ∧ r' < w'.next ∧
            w'.obj r' = ⟨restored (frames r) (w.obj r).label (w.obj r).ph.columnNames, (w.obj r).label, [(j, ())]⟩) :
    Restored w w' t t' frames j := by
  have fwd : ∀ k r, t.Holds k r → ∃ r', t'.Holds k r' ∧
      w'.obj r' = ⟨restored (frames r) (w.obj r).label (w.obj r).ph.columnNames, (w.obj r).label, [(j, ())]⟩ := by
    intro k r hk
    have := ph k
    rw [show SMap.find? k t.phrases = some r from hk] at this
    obtain ⟨r', b1, _, _, b4⟩ := this
    exact ⟨r', b1, b4⟩
  have bwd : ∀ k r', t'.Holds k r' → ∃ r, t.Holds k r := by
    intro k r' hk
    have := ph k
    cases hf : SMap.find? k t.phrases with
    | none => rw [hf] at this; simp only at this; rw [TSet.Holds, this] at hk; cases hk
    | some r => exact ⟨r, hf⟩
  have both : ∀ k r r', t.Holds k r → t'.Holds k r' →
      w'.obj r' = ⟨restored (frames r) (w.obj r).label (w.obj r).ph.columnNames, (w.obj r).label, [(j, ())]⟩ := by
    intro k r r' hk hk'
    obtain ⟨r'', b1, b2⟩ := fwd k r hk
    rw [TSet.Holds] at b1 hk'
    rw [b1] at hk'
    cases hk'
    exact b2
  have rep : ∀ k r r', t.Holds k r → t'.Holds k r' → (w'.obj r').ph.Rep (frames r).saved := by
    intro k r r' hk hk'
    rw [both k r r' hk hk']
    exact rep_restored (wellSized_of_rep (h.phrases k r hk).rep (h.phrases k r hk).dim) _ _
  refine ⟨a1, a2, a3, a4, a5, fun l => ?_, fun k => ⟨fun ⟨r', hk⟩ => bwd k r' hk, fun ⟨r, hk⟩ => ?_⟩, ?_, rep, ?_, ?_, ?_⟩
  · rw [(hI'.2 j id t' st).1, (hI.2 i id t ht).1]
    constructor
    · rintro ⟨k, r', hk', hl⟩
      obtain ⟨r, hk⟩ := bwd k r' hk'
      refine ⟨k, r, hk, ?_⟩
      rw [← hl]
      show _ = (w'.obj r').label
      rw [both k r r' hk hk']
    · rintro ⟨k, r, hk, hl⟩
      obtain ⟨r', b1, b2⟩ := fwd k r hk
      exact ⟨k, r', b1, by show (w'.obj r').label = l; rw [b2]; exact hl⟩
  · obtain ⟨r', b1, _⟩ := fwd k r hk
    exact ⟨r', b1⟩
  · intro k r r' hk hk'
    rw [both k r r' hk hk']
  · intro k r r' hk hk'
    rw [both k r r' hk hk']; rfl
  · intro k r' hk'
    obtain ⟨r, hk⟩ := bwd k r' hk'
    exact Phrase.destroy_of_rep (rep k r r' hk hk')
  · intro k r' hk'
    obtain ⟨r, hk⟩ := bwd k r' hk'
    rw [both k r r' hk hk']; rfl

/-- C25 (training sets): let `i` be a training set of a reachable state, `frames r` the frames of each of its phrases. If its numbers
    fit in the JSON integers, it has as many column names as dimensions, no phrase has more column names than dimensions, and
    no unimodal phrase has an input dimension, then `toJson` returns a value, changes nothing, and the JSON constructor applied to it
    builds a training set with the same attributes, labels and phrases. The original is untouched, and the two share nothing: in
    every interleaving of calls made through them, no call changes anything that can be read from the other one. -/
theorem C25_trainingset_partial [Field K] [DecidableEq K] [JsonReal K] (before : List (Op K String))
    (hadm : Admissible before World.empty) (w : World K String) (es : List (Option Exn))
    (hr : run before World.empty = some (w, es)) (hC : w.Coherent)
    (i j : Nat) (t : TSet String) (ht : w.sets i = some t) (hj : w.sets j = none)
    (frames : Nat → S K) (h : SetSavable w t frames) :
    ∃ root w' t', toJson i w = .ret root w ∧ ofJson j root w = .ret () w' ∧ w'.sets j = some t' ∧
      Restored w w' t t' frames j ∧ SameView w w' i t t ∧
      ∀ ops : List (Bool × SideOp K String), Independent i j ops w' := by
  have hI := run_inv before _ inv_empty hadm w es hr
  obtain ⟨w', t', e, st, hI', hC', hn, ho, hs, a1, a2, a3, a4, a5, ph⟩ := ofJson_spec w i j t frames ht hj hI hC h
  have hij : i ≠ j := by rintro rfl; rw [ht] at hj; cases hj
  have hti : w'.sets i = some t := by rw [hs i hij, ht]
  refine ⟨_, w', t', toJson_ok w i t frames ht hI h, e, st, restored_of ht hI h st hI' a1 a2 a3 a4 a5 ph,
    ⟨ht, hti, rfl, rfl, rfl, rfl, rfl, fun k r hk => ?_, fun _ => Iff.rfl, fun _ _ _ => Iff.rfl⟩, fun ops => ?_⟩
  · rw [ho r ((hI.1 i t ht).refs k r hk).1]; exact ⟨rfl, rfl⟩
  · refine independent i j hij ops w' hI' ?_ t t' hti st
    rintro r ⟨u, k, hu, hk⟩ ⟨v, k', hv, hk'⟩
    rw [hti] at hu; cases hu
    rw [st] at hv; cases hv
    have hlt := ((hI.1 i t ht).refs k r hk).1
    have := ph k'
    cases hf : SMap.find? k' t.phrases with
    | none => rw [hf] at this; simp only at this; rw [TSet.Holds, this] at hk'; cases hk'
    | some r0 =>
      rw [hf] at this
      obtain ⟨r', b1, b2, _⟩ := this
      rw [TSet.Holds, b1] at hk'
      cases hk'
      omega

theorem saved_ins {s : S K} (h : 0 < s.size) : s.saved.ins ≠ [] := by
  intro h0
  rw [← saved_size] at h
  unfold S.size at h
  rw [h0] at h
  cases hb : s.saved.bimodal <;> simp [hb] at h

theorem copy_restored {p : Phrase K} {s : S K} (hp : p.Rep s.saved) (hc : s.Coherent) (h : 0 < s.size) :
    ∃ q, Phrase.copy p = some q ∧ q.Rep s.saved := by
  refine hp.copy (saved_coherent hc) ?_
  have := List.length_pos_iff.2 (saved_ins h)
  cases hbm : s.saved.bimodal with
  | false => obtain ⟨b0, _, _⟩ := hp.uni hbm; have := b0.le; omega
  | true => obtain ⟨b0, _, _⟩ := hp.bi hbm; have := b0.le; omega

theorem copy_restored_empty {s : S K} (l : String) (n : List String) (h : s.size = 0) :
    Phrase.copy (restored s l n) = some { restored s l n with data0 := .garbage, data1 := .garbage } := by
  unfold Phrase.copy
  rw [if_pos (show (restored s l n).ownMemory = true from rfl), if_neg (by show ¬ s.size > 0; omega)]

/-- the effect of `fromJson`, whether or not the saved phrases have frames -/
theorem fromJson_spec [Field K] [DecidableEq K] [JsonReal K] (w : World K String) (hI : Inv w) (hC : w.Coherent)
    (i a tmp : Nat) (t ta : TSet String) (ht : w.sets i = some t) (ha : w.sets a = some ta) (htmp : w.sets tmp = none)
    (frames : Nat → S K) (h : SetSavable w t frames) :
    ∃ w1 t1 w' ta', Restored w w1 t t1 frames tmp ∧ fromJson a (fileOf w t frames) tmp w = .ret () w' ∧ w'.sets a = some ta' ∧
      ta'.own = true ∧ ta'.bimodal = t.bimodal ∧ ta'.dims.dim = t.dims.dim ∧ ta'.dims.di = t.dims.di ∧ ta'.cols = t.cols ∧
      (∀ l, l ∈ ta'.labels.keys ↔ l ∈ t.labels.keys) ∧ (∀ k, (∃ r', ta'.Holds k r') ↔ ∃ r, t.Holds k r) ∧
      (∀ k r r', t.Holds k r → ta'.Holds k r' → (w'.obj r').label = (w.obj r).label ∧
        ∃ r1, t1.Holds k r1 ∧ (w1.obj r1).ph = restored (frames r) (w.obj r).label (w.obj r).ph.columnNames ∧
          Phrase.copy (w1.obj r1).ph = some (w'.obj r').ph) ∧
      (∀ k r', ta'.Holds k r' → (w'.obj r').listeners.keys = [a]) ∧
      (∀ l, l ≠ a → w'.sets l = w.sets l) ∧ ∀ r, r < w.next → w'.obj r = w.obj r := by
  obtain ⟨w1, t1, e, st, hI1, hC1, hn, ho, hs, a1, a2, a3, a4, a5, ph⟩ := ofJson_spec w i tmp t frames ht htmp hI hC h
  have R := restored_of ht hI h st hI1 a1 a2 a3 a4 a5 ph
  have hat : a ≠ tmp := by rintro rfl; rw [ha] at htmp; cases htmp
  have ha1 : w1.sets a = some ta := by rw [hs a hat, ha]
  have obj1 : ∀ k r r1, t.Holds k r → t1.Holds k r1 →
      (w1.obj r1).ph = restored (frames r) (w.obj r).label (w.obj r).ph.columnNames := by
    intro k r r1 hk hk1
    have := ph k
    rw [show SMap.find? k t.phrases = some r from hk] at this
    obtain ⟨r', b1, _, _, b4⟩ := this
    rw [TSet.Holds, b1] at hk1
    cases hk1
    rw [b4]
  have hcopy : ∀ k r, t1.Holds k r → ∃ q, Phrase.copy (w1.obj r).ph = some q := by
    intro k r' hk'
    obtain ⟨r, hk⟩ := (R.indices k).1 ⟨r', hk'⟩
    by_cases h0 : (frames r).size = 0
    · rw [obj1 k r r' hk hk']
      exact ⟨_, copy_restored_empty _ _ h0⟩
    · exact (copy_restored (R.frames k r r' hk hk') (h.phrases k r hk).coherent (Nat.pos_of_ne_zero h0)).imp fun _ h => h.1
  obtain ⟨w2, ta', tb', f1, f2, f3, f4, f5, f6, f7, f8, f9, f10, f11, f12, f13, f14, f15, f16⟩ :=
    assign_spec w1 hI1 hC1 a tmp hat ta t1 ha1 st hcopy
  refine ⟨w1, t1, w2.putSet tmp none, ta', R, ?_, ?_, f4.trans a1, f5.trans a2, ?_, ?_, f7.trans a5,
    fun l => (f8 l).trans (R.labels l), fun k => (f9 k).trans (R.indices k), fun k r r' hk hk' => ?_, f11, fun l hl => ?_,
    fun r hr => ?_⟩
  · unfold fromJson
    refine (bind_of_ret e).trans ?_
    have : assign a tmp w1 = .ret () w2 := f1
    show (match assign a tmp w1 with
      | .ret _ w2 => Res.ret () (w2.putSet tmp none)
      | .throw e w2 => Res.throw e (w2.putSet tmp none)
      | .ub => Res.ub) = _
    rw [this]
  · rw [putSet_sets, if_neg hat, f2]
  · rw [f6]; exact a3
  · rw [f6]; exact a4
  · obtain ⟨r1, hk1⟩ := (R.indices k).2 ⟨r, hk⟩
    obtain ⟨g1, g2⟩ := f10 k r1 r' hk1 hk'
    exact ⟨g1.trans (R.label k r r1 hk hk1), r1, hk1, obj1 k r r1 hk hk1, g2⟩
  · rw [putSet_sets]
    by_cases hlt : l = tmp
    · rw [if_pos hlt, hlt, htmp]
    · rw [if_neg hlt, f14 l hl, hs l hlt]
  · show w2.obj r = _
    rw [f16 r (by omega), ho r hr]

/-- C25 (`fromJson` on an existing training set `a`): under the same hypotheses, and if every phrase of the saved training set has at
    least one complete frame, `fromJson` replaces whatever `a` held by the saved training set; the temporary is gone and the other
    training sets are untouched. -/
theorem C25_trainingset_fromJson_partial [Field K] [DecidableEq K] [JsonReal K] (before : List (Op K String))
    (hadm : Admissible before World.empty) (w : World K String) (es : List (Option Exn))
    (hr : run before World.empty = some (w, es)) (hC : w.Coherent)
    (i a tmp : Nat) (t ta : TSet String) (ht : w.sets i = some t) (ha : w.sets a = some ta) (htmp : w.sets tmp = none)
    (frames : Nat → S K) (h : SetSavable w t frames) (hdata : ∀ k r, t.Holds k r → 0 < (frames r).size) :
    ∃ root w' ta', toJson i w = .ret root w ∧ fromJson a root tmp w = .ret () w' ∧ w'.sets a = some ta' ∧
      Restored w w' t ta' frames a ∧ (∀ l, l ≠ a → w'.sets l = w.sets l) ∧ ∀ r, r < w.next → w'.obj r = w.obj r := by
  have hI := run_inv before _ inv_empty hadm w es hr
  obtain ⟨w1, t1, w', ta', R, e, st, a1, a2, a3, a4, a5, a6, a7, a8, a9, a10, a11⟩ :=
    fromJson_spec w hI hC i a tmp t ta ht ha htmp frames h
  have rep : ∀ k r r', t.Holds k r → ta'.Holds k r' → (w'.obj r').ph.Rep (frames r).saved := by
    intro k r r' hk hk'
    obtain ⟨_, r1, hk1, _, hc⟩ := a8 k r r' hk hk'
    obtain ⟨q, hq, rq⟩ := copy_restored (R.frames k r r1 hk hk1) (h.phrases k r hk).coherent (hdata k r hk)
    rw [hq, Option.some.injEq] at hc
    exact hc ▸ rq
  refine ⟨_, w', ta', toJson_ok w i t frames ht hI h, e, st, ⟨a1, a2, a3, a4, a5, a6, a7,
    fun k r r' hk hk' => (a8 k r r' hk hk').1, rep, fun k r r' hk hk' => ?_, fun k r' hk' => ?_, a9⟩, a10, a11⟩
  · obtain ⟨_, r1, hk1, _, hc⟩ := a8 k r r' hk hk'
    obtain ⟨x, y, hxy⟩ := Phrase.copy_same hc
    rw [← R.names k r r1 hk hk1, hxy]
  · obtain ⟨r, hk⟩ := (a7 k).1 ⟨r', hk'⟩
    exact Phrase.destroy_of_rep (rep k r r' hk hk')

/-! ## Where the property fails -/

/-- The full statement fails (a defect): if the saved training set holds a phrase without a complete frame, `fromJson` returns, and
    the phrase at its index has uninitialised data pointers, which its destruction deletes. -/
theorem C25_trainingset_fromJson_empty_violated [Field K] [DecidableEq K] [JsonReal K] (before : List (Op K String))
    (hadm : Admissible before World.empty) (w : World K String) (es : List (Option Exn))
    (hr : run before World.empty = some (w, es)) (hC : w.Coherent)
    (i a tmp : Nat) (t ta : TSet String) (ht : w.sets i = some t) (ha : w.sets a = some ta) (htmp : w.sets tmp = none)
    (frames : Nat → S K) (h : SetSavable w t frames) (k : Int) (r : Nat) (hk : t.Holds k r) (hempty : (frames r).size = 0) :
    ∃ root w' ta' r', toJson i w = .ret root w ∧ fromJson a root tmp w = .ret () w' ∧ w'.sets a = some ta' ∧
      ta'.Holds k r' ∧ (w'.obj r').ph.destroy = false := by
  have hI := run_inv before _ inv_empty hadm w es hr
  obtain ⟨w1, t1, w', ta', R, e, st, a1, a2, a3, a4, a5, a6, a7, a8, a9, a10, a11⟩ :=
    fromJson_spec w hI hC i a tmp t ta ht ha htmp frames h
  obtain ⟨r', hk'⟩ := (a7 k).2 ⟨r, hk⟩
  refine ⟨_, w', ta', r', toJson_ok w i t frames ht hI h, e, st, hk', ?_⟩
  obtain ⟨_, r1, hk1, ho, hc⟩ := a8 k r r' hk hk'
  rw [ho, copy_restored_empty _ _ hempty, Option.some.injEq] at hc
  rw [← hc]
  simp [Phrase.destroy, restored, Phrase.blank, Ptr.isGarbage]

/-- after the calls `ops`: what reading the file of training set `i` into a new training set `j` answers, and whether `j` then
    exists -/
def readBack (ops : List (Op ℚ String)) (i j : Nat) : Option (Option Exn × Bool) :=
  match run ops World.empty with
  | none => none
  | some (w, _) => match toJson i w with
    | .ret root w1 => match ofJson j root w1 with
      | .ret _ w2 => some (none, (w2.sets j).isSome)
      | .throw e w2 => some (some e, (w2.sets j).isSome)
      | .ub => none
    | _ => none

/-- The full statement fails (a defect): in a unimodal training set of dimension 3 the input dimension can be set to 1, phrases can
    be added and the set can be saved, but its file is refused by the JSON constructor. -/
theorem C25_trainingset_unimodal_violated : ∃ (ops : List (Op ℚ String)) (w : World ℚ String) (es : List (Option Exn)),
    run ops World.empty = some (w, es) ∧ (∀ e ∈ es, e = none) ∧
    ∃ root w1 w2, toJson 0 w = .ret root w1 ∧ ofJson 1 root w1 = .throw .domainError w2 ∧ w2.sets 1 = none := by
  have h : readBack [.newSet 0 true false, .setDim 0 3, .setDi 0 1, .addLabel 0 1 "a"] 0 1 = some (some .domainError, false) := by
    decide +kernel
  have h2 : (run [.newSet 0 true false, .setDim 0 3, .setDi 0 1, .addLabel 0 1 "a"] (World.empty : World ℚ String)).map
      (fun p => p.2) = some [none, none, none, none] := by decide +kernel
  refine ⟨[.newSet 0 true false, .setDim 0 3, .setDi 0 1, .addLabel 0 1 "a"], ?_⟩
  unfold readBack at h
  cases hr : run [.newSet 0 true false, .setDim 0 3, .setDi 0 1, .addLabel 0 1 "a"] (World.empty : World ℚ String) with
  | none => rw [hr] at h2; cases h2
  | some p =>
    obtain ⟨w, es⟩ := p
    rw [hr] at h h2
    simp only [Option.map_some, Option.some.injEq] at h2
    refine ⟨w, es, rfl, by rw [h2]; simp, ?_⟩
    simp only at h
    cases hj : toJson 0 w with
    | throw e w1 => rw [hj] at h; cases h
    | ub => rw [hj] at h; cases h
    | ret root w1 =>
      rw [hj] at h
      simp only at h
      cases hk : ofJson 1 root w1 with
      | ret x w2 => rw [hk] at h; simp at h
      | ub => rw [hk] at h; simp at h
      | throw e w2 =>
        rw [hk] at h
        simp only [Option.some.injEq, Prod.mk.injEq] at h
        obtain ⟨rfl, h4⟩ := h
        exact ⟨root, w1, w2, rfl, hk, by simpa using h4⟩

theorem coherent_without_dims {L : Type} [LinearOrder L] [Inhabited L] (ops : List (Op K L)) :
    ∀ (w0 w : World K L) (es : List (Option Exn)), Inv w0 → w0.Coherent → (∀ op ∈ ops, op.keepsDims = true) →
      run ops w0 = some (w, es) → w.Coherent := by
  induction ops with
  | nil =>
    intro w0 w es _ hC _ hr
    simp only [run, Option.some.injEq, Prod.mk.injEq] at hr
    rw [← hr.1]; exact hC
  | cons op ops ih =>
    intro w0 w es hI hC hk hr
    have hs := step_coherent op (hk op List.mem_cons_self) w0 ⟨hI, hC⟩
    rw [run] at hr
    cases hst : step op w0 with
    | ret a w1 =>
      rw [hst] at hs hr
      obtain ⟨x, hx, he⟩ := Option.map_eq_some_iff.1 hr
      cases he
      exact ih w1 x.1 x.2 hs.1 hs.2 (fun o ho => hk o (List.mem_cons_of_mem _ ho)) hx
    | throw e w1 =>
      rw [hst] at hs hr
      obtain ⟨x, hx, he⟩ := Option.map_eq_some_iff.1 hr
      cases he
      exact ih w1 x.1 x.2 hs.1 hs.2 (fun o ho => hk o (List.mem_cons_of_mem _ ho)) hx
    | ub => rw [hst] at hr; cases hr

set_option synthInstance.maxHeartbeats 400000 in
set_option synthInstance.maxSize 4000 in
/-- non-vacuity: a training set holding a recorded phrase meets the hypotheses of `C25_trainingset_partial` and
    `C25_trainingset_fromJson_partial` -/
example : ∃ (w : World ℚ String) (es : List (Option Exn)) (t ta : TSet String) (frames : Nat → S ℚ),
    Admissible [.newSet 0 true false, .addLabel 0 1 "a", .phraseOp 0 (.record [5]), .newSet 1 true false] (World.empty : World ℚ String) ∧
    run [.newSet 0 true false, .addLabel 0 1 "a", .phraseOp 0 (.record [5]), .newSet 1 true false] World.empty = some (w, es) ∧
    w.Coherent ∧ w.sets 0 = some t ∧ w.sets 1 = some ta ∧ w.sets 2 = none ∧ SetSavable w t frames ∧ t.Holds 1 0 ∧
    ∀ k r, t.Holds k r → 0 < (frames r).size := by
  obtain ⟨w, es, h1, h2⟩ := run_obs (K := ℚ) (L := String)
    (α := Phrase ℚ × Option (List (Int × Nat) × List String × Nat) × Bool × Bool)
    (ops := [.newSet 0 true false, .addLabel 0 1 "a", .phraseOp 0 (.record [5]), .newSet 1 true false])
    (w0 := World.empty) (f := fun p => ((p.1.obj 0).ph, (p.1.sets 0).map fun t => ((t.phrases : List (Int × Nat)), t.cols, t.dims.dim),
      (p.1.sets 1).isSome, (p.1.sets 2).isSome))
    (x := (⟨true, false, false, 1, 1, 0, 256, 1, 1, 0, 0, 0, "", [""],
      .cells (some 5 :: List.replicate 255 none), .garbage⟩, some ([(1, 0)], [""], 1), true, false)) (by decide +kernel)
  simp only [Prod.mk.injEq, Option.map_eq_some_iff] at h2
  obtain ⟨h3, ⟨t, h4, h5, h6, h7⟩, h8, h9⟩ := h2
  obtain ⟨ta, h8⟩ := Option.isSome_iff_exists.1 h8
  have hk : ∀ k r, t.Holds k r → k = 1 ∧ r = 0 := by
    intro k r hk
    simp only [TSet.Holds, h5, SMap.find?] at hk
    split at hk
    · rename_i h; exact ⟨h, by simpa using hk.symm⟩
    · cases hk
  refine ⟨w, es, t, ta, fun _ => ⟨false, 1, 0, 0, 0, [[5]], []⟩, C21_admissible_without_dims _ (by simp [Op.keepsDims]), h1, ?_, h4,
    h8, by simpa using h9, ⟨by rw [h6, h7]; rfl, by rw [h7]; decide, fun k r h => ?_, fun k r h => ?_⟩,
    by simp [TSet.Holds, h5, SMap.find?], fun _ _ _ => by simp [S.size]⟩
  · exact coherent_without_dims _ _ w es inv_empty (by intro i t ht; simp [World.empty] at ht) (by simp [Op.keepsDims]) h1
  · rw [(hk k r h).1]; decide
  · rw [(hk k r h).2, h3]
    refine ⟨⟨rfl, rfl, rfl, rfl, rfl, rfl, rfl, rfl, fun _ => ⟨⟨by simp, by simp, Or.inr ⟨_, rfl, ?_, ?_⟩⟩, rfl, rfl⟩, ?_⟩, ?_, ?_, ?_, ?_, ?_⟩
    · rw [List.length_cons, List.length_replicate]; rfl
    · rfl
    · intro h; cases h
    · intro h; cases h
    · simp [S.Fits, S.size, uintMax]
    · simp
    · simp
    · simp

end Xmm.TS
