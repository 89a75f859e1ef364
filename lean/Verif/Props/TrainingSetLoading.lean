import Verif.Spec.TrainingSetFile
import Verif.Props.JsonLoading
import Verif.Props.TrainingSetJson
import Verif.Props.LoadedFilter
set_option linter.unusedSectionVars false
/- C86 (training sets): loading arbitrary JSON. -/
namespace Xmm.TS
open PhraseSpec Prog
open Phrase (Rep Described destroy_of_rep)
variable {K : Type} [Field K] [DecidableEq K] [JsonReal K]

theorem tri_lift {σ α : Type} {P : σ → Prop} (x : Except Exn α) : Tri P (liftE x) (fun a s => P s ∧ x = .ok a) P := by
  intro s hs
  cases x with
  | ok a => exact ⟨hs, rfl⟩
  | error e => exact hs

theorem tri_reads {σ α : Type} {P : σ → Prop} {f : Prog σ α} (hf : f.Reads) : Tri P f (fun a s => P s ∧ f s = .ret a s) P := by
  intro s hs
  cases h : f s with
  | ret a s' => have := hf.ret h; subst this; exact ⟨hs, h⟩
  | throw e s' => have := hf.throw h; subst this; exact hs
  | ub => trivial

/-- nothing but the training set `j` and new phrases has changed -/
structure Aside (w0 : World K String) (j : Nat) (w : World K String) : Prop where
  sets : ∀ l, l ≠ j → w.sets l = w0.sets l
  next : w0.next ≤ w.next
  obj : ∀ r, r < w0.next → w.obj r = w0.obj r

/-- the phrase object `o` has been read from `p` and notifies the training set `j` -/
structure ReadFrom (j : Nat) (p : Json K) (o : PhraseObj K String) : Prop where
  rep : ∃ s, Described p s ∧ Rep o.ph s ∧ o.ph.maxLength = s.size ∧ o.ph.empty = (s.size == 0)
  label : HoldsText p "label" o.label
  listens : o.listeners.find? j = some ()

/-- the training set `j` while the phrases are read: `seen` have been -/
structure Filling (w0 : World K String) (j : Nat) (t0 : TSet String) (seen : List (Json K)) (w : World K String) : Prop extends Aside w0 j w where
  here : ∃ t, w.sets j = some t ∧ t = { t0 with phrases := t.phrases } ∧ SMap.Sorted t.phrases ∧
    (∀ p ∈ seen, indexOf p ≠ none) ∧
    ∀ k, match elementAt seen k with
      | none => SMap.find? k t.phrases = none
      | some p => ∃ r, SMap.find? k t.phrases = some r ∧ w0.next ≤ r ∧ r < w.next ∧ ReadFrom j p (w.obj r)

omit [DecidableEq K] in
theorem elementAt_append (ps : List (Json K)) (p : Json K) (k : Int) :
    elementAt (ps ++ [p]) k = match elementAt ps k with
      | some q => some q
      | none => if indexOf p = some k then some p else none := by
  unfold elementAt
  rw [List.find?_append]
  cases List.find? (fun p => decide (indexOf p = some k)) ps with
  | some q => rfl
  | none =>
    by_cases h : indexOf p = some k
    · simp [List.find?, h]
    · simp [List.find?, h]

theorem label_ret {σ : Type} {root : Json K} {st st' : σ} {q : Phrase K} (h : Phrase.ofJson root st = .ret q st') :
    HoldsText root "label" q.label := by
  unfold Phrase.ofJson at h
  obtain ⟨p, h0, h⟩ := Reads.bind_inv (Reads.dims root) h
  obtain ⟨jn, e1, h⟩ := bindE_inv h
  obtain ⟨names, e2, h⟩ := Reads.bind_inv (Reads.names _ _ _ _) h
  obtain ⟨jl, e3, h⟩ := bindE_inv h
  obtain ⟨label, e4, h⟩ := bindE_inv h
  obtain ⟨jn, e5, h⟩ := bindE_inv h
  obtain ⟨n, e6, h⟩ := bindE_inv h
  refine ⟨jl, e3, ?_⟩
  unfold Phrase.readData at h
  by_cases hb : p.bimodal = true
  · simp only [hb, if_true] at h
    obtain ⟨_, _, h⟩ := bindE_inv h
    obtain ⟨_, _, h⟩ := Reads.bind_inv (Reads.block _ _) h
    obtain ⟨_, _, h⟩ := bindE_inv h
    obtain ⟨_, _, h⟩ := Reads.bind_inv (Reads.block _ _) h
    injection h with h _
    rw [← h]; exact e4
  · simp only [hb] at h
    obtain ⟨_, _, h⟩ := bindE_inv h
    obtain ⟨_, _, h⟩ := Reads.bind_inv (Reads.block _ _) h
    injection h with h _
    rw [← h]; exact e4

/-- one phrase is stored -/
theorem store_filling (w0 : World K String) (j : Nat) (t0 : TSet String) (seen : List (Json K)) (p : Json K) (k : Int) (ph : Phrase K) (w : World K String)
    (hk : indexOf p = some k) (hp : Phrase.ofJson p w = .ret ph w) (h : Filling w0 j t0 seen w) :
    ∃ w', (do let r ← alloc ⟨ph, ph.label, []⟩; insertPhrase j k r; listenAt j k : Prog (World K String) Unit) w = .ret () w' ∧
      Filling w0 j t0 (seen ++ [p]) w' := by
  obtain ⟨t, ht, et, hs, hall, hph⟩ := h.here
  obtain ⟨s, hd, hr', hm, he⟩ := Phrase.ofJson_ret hp
  have hl := label_ret hp
  have hr0 : ∃ r0, SMap.find? k (SMap.insertNew k w.next t.phrases) = some r0 ∧ w0.next ≤ r0 ∧ r0 < w.next + 1 ∧
      (SMap.find? k t.phrases = none → r0 = w.next) ∧ (SMap.find? k t.phrases ≠ none → SMap.find? k t.phrases = some r0 ∧ r0 < w.next) := by
    rw [SMap.find?_insertNew]
    cases hf : SMap.find? k t.phrases with
    | none => exact ⟨w.next, by simp, h.next, by omega, fun _ => rfl, fun h => absurd rfl h⟩
    | some r =>
      have hx := hph k
      split at hx
      · rw [hx] at hf; cases hf
      · obtain ⟨r', h1, h2, h3, _⟩ := hx
        have : r' = r := by rw [h1] at hf; injection hf
        subst this
        exact ⟨r', by simp, h2, by omega, fun h => (by cases h), fun _ => ⟨rfl, h3⟩⟩
  obtain ⟨r0, f0, f1, f2, f3, f4⟩ := hr0
  set w1 : World K String := { w.putObj w.next ⟨ph, ph.label, []⟩ with next := w.next + 1 } with hw1
  set w2 : World K String := w1.putSet j (some { t with phrases := SMap.insertNew k w.next t.phrases }) with hw2
  refine ⟨w2.putObj r0 { w2.obj r0 with listeners := EventGen.addListener j () (w2.obj r0).listeners }, ?_, ?_⟩
  · have hg : getSet j w1 = .ret t w1 := by simp [getSet, hw1, World.putObj, ht]
    have hg2 : getSet j w2 = .ret { t with phrases := SMap.insertNew k w.next t.phrases } w2 := by simp [getSet, hw2, putSet_sets]
    have e1 : (alloc ⟨ph, ph.label, []⟩ : Prog (World K String) Nat) w = .ret w.next w1 := rfl
    have e2 : insertPhrase j k w.next w1 = .ret () w2 := by
      unfold insertPhrase
      rw [bind_of_ret hg]; rfl
    rw [bind_of_ret e1, bind_of_ret (a := ()) e2]
    unfold listenAt
    rw [bind_of_ret hg2]
    simp only [f0]
    rfl
  · have ho : ∀ r, r ≠ r0 → r < w.next → ((w2.putObj r0 { w2.obj r0 with listeners := EventGen.addListener j () (w2.obj r0).listeners }).obj r) = w.obj r := by
      intro r h1 h2
      simp [World.putObj, h1, hw2, World.putSet, hw1, Nat.ne_of_lt h2]
    have hl0 : ((w2.putObj r0 { w2.obj r0 with listeners := EventGen.addListener j () (w2.obj r0).listeners }).obj r0) =
        { w2.obj r0 with listeners := EventGen.addListener j () (w2.obj r0).listeners } := by simp [World.putObj]
    have hfind : ∀ g : EventGen Unit, SMap.find? j (EventGen.addListener j () g) = some () := by
      intro g
      simp only [EventGen.addListener, SMap.find?_insertNew]
      cases SMap.find? j g <;> simp
    have keep : ∀ q r, r < w.next → ReadFrom j q (w.obj r) →
        ReadFrom j q ((w2.putObj r0 { w2.obj r0 with listeners := EventGen.addListener j () (w2.obj r0).listeners }).obj r) := by
      intro q r h1 h2
      by_cases hr : r = r0
      · subst hr
        rw [hl0]
        have : w2.obj r = w.obj r := by simp [hw2, World.putSet, hw1, World.putObj, Nat.ne_of_lt h1]
        rw [this]
        exact ⟨h2.rep, h2.label, hfind _⟩
      · rw [ho r hr h1]; exact h2
    have hnext : (w2.putObj r0 { w2.obj r0 with listeners := EventGen.addListener j () (w2.obj r0).listeners }).next = w.next + 1 := rfl
    refine ⟨⟨fun l hl' => ?_, by rw [hnext]; have := h.next; omega, fun r hlt => ?_⟩, { t with phrases := SMap.insertNew k w.next t.phrases }, ?_, ?_, hs.insertNew, ?_, fun k' => ?_⟩
    · rw [← h.sets l hl']
      simp [World.putObj, hw2, World.putSet, hw1, hl']
    · rw [ho r (by omega) (by have := h.next; omega), h.obj r hlt]
    · simp [World.putObj, hw2, World.putSet]
    · rw [et]
    · intro q hq
      rcases List.mem_append.1 hq with hq | hq
      · exact hall q hq
      · simp at hq; subst hq; rw [hk]; simp
    · rw [elementAt_append, hnext]
      have hx := hph k'
      cases he' : elementAt seen k' with
      | some q =>
        rw [he'] at hx
        obtain ⟨r, h1, h2, h3, h4⟩ := hx
        refine ⟨r, ?_, h2, by omega, keep q r h3 h4⟩
        show SMap.find? k' (SMap.insertNew k w.next t.phrases) = _
        rw [SMap.find?_insertNew]
        split
        · rename_i hc
          rw [hc.1, hc.2] at h1; cases h1
        · exact h1
      | none =>
        rw [he'] at hx
        simp only at hx
        by_cases hkk : indexOf p = some k'
        · rw [if_pos hkk]
          rw [hk] at hkk
          injection hkk with hkk
          subst hkk
          have hr := f3 hx
          subst hr
          refine ⟨w.next, f0, f1, f2, ?_⟩
          rw [hl0]
          have : w2.obj w.next = ⟨ph, ph.label, []⟩ := by simp [hw2, World.putSet, hw1, World.putObj]
          rw [this]
          exact ⟨⟨s, hd, hr', hm, he⟩, hl, hfind []⟩
        · rw [if_neg hkk]
          show SMap.find? k' (SMap.insertNew k w.next t.phrases) = none
          rw [SMap.find?_insertNew, if_neg, hx]
          rintro ⟨rfl, _⟩
          exact hkk hk

theorem loadPhrases_filling (w0 : World K String) (j : Nat) (t0 : TSet String) (ps seen : List (Json K)) :
    Tri (Filling w0 j t0 seen) (loadPhrases j ps) (fun _ w => Filling w0 j t0 (seen ++ ps) w) (Aside w0 j) := by
  induction ps generalizing seen with
  | nil => intro w hw; simpa [loadPhrases, pure_def] using hw
  | cons p ps ih =>
    unfold loadPhrases
    refine Tri.bind ((tri_lift _).conseq (fun _ h => h) (fun _ _ h => h) fun _ h => h.toAside) fun ji => ?_
    refine Tri.bind ((tri_lift _).conseq (fun _ h => h) (fun _ _ h => h) fun _ h => h.1.toAside) fun k => ?_
    refine Tri.bind ((tri_reads (Reads.phrase p)).conseq (fun _ h => h) (fun _ _ h => h) fun _ h => h.1.1.toAside) fun ph => ?_
    intro w hw
    obtain ⟨⟨⟨hf, h1⟩, h2⟩, h3⟩ := hw
    have hk : indexOf p = some k := by simp only [indexOf, h1, h2]
    obtain ⟨w', e, h'⟩ := store_filling w0 j t0 seen p k ph w hk h3 hf
    have e' : (alloc ⟨ph, ph.label, []⟩ >>= fun r => insertPhrase j k r >>= fun _ => listenAt j k >>= fun _ => loadPhrases j ps : Prog (World K String) Unit) w =
        loadPhrases j ps w' := by
      have e1 : (alloc ⟨ph, ph.label, []⟩ : Prog (World K String) Nat) w = .ret w.next { w.putObj w.next ⟨ph, ph.label, []⟩ with next := w.next + 1 } := rfl
      rw [bind_of_ret e1] at e ⊢
      obtain ⟨_, wa, ea, e⟩ := bind_inv e
      rw [bind_of_ret ea, bind_of_ret e]
    have := ih (seen ++ [p]) w' h'
    rw [e']
    simpa using this

/-- the names that have been read -/
theorem readNames_ret {σ : Type} {node : Json K} {st st' : σ} : ∀ (n i : Nat) (names names' : List String),
    Phrase.readNames node i n names st = .ret names' st' → i ≤ names.length →
    names'.length = names.length ∧ i + n ≤ names.length ∧
    (∀ m, i ≤ m → m < i + n → ∃ j s, node.getIndexOr m (.str "") = .ok j ∧ j.asString = .ok s ∧ names'[m]? = some s) ∧
    ∀ m, (m < i ∨ i + n ≤ m) → names'[m]? = names[m]? := by
  intro n
  induction n with
  | zero =>
    intro i names names' h hi
    injection h with h _
    subst h
    exact ⟨rfl, by omega, fun m h1 h2 => by omega, fun _ _ => rfl⟩
  | succ n ih =>
    intro i names names' h hi
    unfold Phrase.readNames at h
    obtain ⟨j, e1, h⟩ := bindE_inv h
    obtain ⟨s, e2, h⟩ := bindE_inv h
    by_cases hlt : i < names.length
    · rw [if_pos hlt] at h
      obtain ⟨h1, h2, h3, h4⟩ := ih (i + 1) _ _ h (by simp; omega)
      rw [List.length_set] at h1 h2
      refine ⟨h1, by omega, fun m hm1 hm2 => ?_, fun m hm => ?_⟩
      · by_cases hmi : m = i
        · subst hmi
          exact ⟨j, s, e1, e2, by rw [h4 m (by omega)]; simp [hlt]⟩
        · exact h3 m (by omega) (by omega)
      · rw [h4 m (by omega), List.getElem?_set_ne (by omega)]
    · rw [if_neg hlt] at h; cases h

/-- a training set read from the file `root` at `j` -/
structure Read (w0 : World K String) (j : Nat) (root : Json K) (w : World K String) : Prop extends Aside w0 j w where
  here : ∃ t, w.sets j = some t ∧ HasAttributes root t ∧ DimsOk t.bimodal t.dims ∧ t.Coherent ∧ SMap.Sorted t.phrases ∧
    Exact (fun r => (w.obj r).label) t ∧ (∀ k r, t.Holds k r → w0.next ≤ r ∧ r < w.next ∧ (w.obj r).listeners.find? j = some ()) ∧
    HasPhrases root t fun p r => ReadFrom j p (w.obj r)

theorem aside_put (w : World K String) (j : Nat) (t : Option (TSet String)) : Aside w j (w.putSet j t) :=
  ⟨fun l hl => by rw [putSet_sets, if_neg hl], le_refl _, fun _ _ => rfl⟩

theorem readJson_tri (w : World K String) (j : Nat) (root : Json K) (b : Bool) (hb : HoldsMode root b) :
    Tri (fun v => v = w.putSet j (some (TSet.blank b))) (readJson j root b) (fun _ w' => Read w j root w') (Aside w j) := by
  unfold readJson
  refine Tri.bind ((tri_lift _).conseq (fun _ h => h) (fun _ _ h => h) fun _ h => h ▸ aside_put w j _) fun j1 => ?_
  refine Tri.bind ((tri_lift _).conseq (fun _ h => h) (fun _ _ h => h) fun _ h => h.1 ▸ aside_put w j _) fun d => ?_
  -- the dimension
  refine Tri.bind (Q := fun _ v => (root.getOr "dimension" (.int (if b then 2 else 1)) = .ok j1 ∧ j1.asInt = .ok d ∧ (if b then 2 else 1) ≤ uint d) ∧
    v = w.putSet j (some { TSet.blank b with dims := { (TSet.blank b).dims with dim := uint d, diMax := uint d - 1 }, cols := resizeCols (uint d) [] })) ?_ fun _ => ?_
  · rintro v ⟨⟨rfl, e1⟩, e2⟩
    by_cases hd : (TSet.blank b).dims.dimMin ≤ uint d
    · rw [setDim_bare _ j (TSet.blank b) (by simp [putSet_sets]) rfl rfl (uint d) hd, putSet_putSet]
      exact ⟨⟨e1, e2, hd⟩, rfl⟩
    · have : setDim j (uint d) (w.putSet j (some (TSet.blank b))) = .throw .domainError (w.putSet j (some (TSet.blank b))) := by
        simp [setDim, getSet, putSet_sets, Nat.lt_of_not_le hd, throw_def]
      rw [this]
      exact aside_put w j _
  refine Tri.of_imp fun ⟨e1, e2, hd⟩ => ?_
  refine Tri.bind ((tri_lift _).conseq (fun _ h => h) (fun _ _ h => h) fun _ h => h ▸ aside_put w j _) fun j2 => ?_
  refine Tri.bind ((tri_lift _).conseq (fun _ h => h) (fun _ _ h => h) fun _ h => h.1 ▸ aside_put w j _) fun k => ?_
  set t1 : TSet String := { TSet.blank b with dims := { (TSet.blank b).dims with dim := uint d, diMax := uint d - 1 }, cols := resizeCols (uint d) [] } with ht1
  -- the input dimension
  refine Tri.bind (Q := fun _ v => (root.getOr "dimension_input" (.int (if b then 1 else 0)) = .ok j2 ∧ j2.asInt = .ok k ∧ (if b then 1 else 0) ≤ uint k ∧ uint k ≤ uint d - 1) ∧
    v = w.putSet j (some { t1 with dims := { t1.dims with di := uint k } })) ?_ fun _ => ?_
  · rintro v ⟨⟨rfl, e3⟩, e4⟩
    by_cases hk : uint k < t1.dims.diMin ∨ t1.dims.diMax < uint k
    · have : setDi j (uint k) (w.putSet j (some t1)) = .throw .domainError (w.putSet j (some t1)) := by
        simp [setDi, getSet, putSet_sets, hk, throw_def]
      rw [this]
      exact aside_put w j _
    · rw [setDi_bare _ j t1 (by simp [putSet_sets]) rfl rfl (uint k) hk, putSet_putSet]
      rw [not_or, not_lt, not_lt] at hk
      exact ⟨⟨e3, e4, hk.1, hk.2⟩, rfl⟩
  refine Tri.of_imp fun ⟨e3, e4, hk1, hk2⟩ => ?_
  set t2 : TSet String := { t1 with dims := { t1.dims with di := uint k } } with ht2
  refine Tri.bind (Q := fun t v => t = t2 ∧ v = w.putSet j (some t2)) ?_ fun t => ?_
  · rintro v rfl
    simp [getSet, putSet_sets]
  refine Tri.of_imp fun ht => ?_
  subst ht
  refine Tri.bind ((tri_lift _).conseq (fun _ h => h) (fun _ _ h => h) fun _ h => h ▸ aside_put w j _) fun node => ?_
  refine Tri.bind ((tri_reads (Reads.names _ _ _ _)).conseq (fun _ h => h) (fun _ _ h => h) fun _ h => h.1 ▸ aside_put w j _) fun names => ?_
  -- the names
  refine Tri.bind (Q := fun _ v => (HoldsNames root names ∧ names.length = uint d) ∧ v = w.putSet j (some { t2 with cols := names })) ?_ fun _ => ?_
  · rintro v ⟨⟨rfl, e5⟩, e6⟩
    obtain ⟨n1, n2, n3, n4⟩ := readNames_ret _ _ _ _ e6 (Nat.zero_le _)
    have hlen : names.length = uint d := by rw [n1]; simp [ht2, ht1]
    rw [setCols_bare _ j t2 (by simp [putSet_sets]) rfl rfl names (by rw [hlen]; simp [ht2, ht1, resizeCols]), putSet_putSet]
    refine ⟨⟨⟨node, e5, by rw [n1]; omega, fun i hi => n3 i (Nat.zero_le _) (by omega), fun i h1 h2 => ?_⟩, hlen⟩, rfl⟩
    rw [n4 i (Or.inr (by omega)), List.getElem?_replicate, if_pos (by rw [n1] at h2; simpa using h2)]
  refine Tri.of_imp fun ⟨hn, hlen⟩ => ?_
  set t3 : TSet String := { t2 with cols := names } with ht3
  refine Tri.bind ((tri_lift _).conseq (fun _ h => h) (fun _ _ h => h) fun _ h => h ▸ aside_put w j _) fun ps => ?_
  -- the phrases
  refine Tri.bind (Q := fun _ v => root.getKey "phrases" = .ok ps ∧ Filling w j t3 (elements ps) v) ?_ fun _ => ?_
  · rintro v ⟨rfl, e7⟩
    have := loadPhrases_filling w j t3 (elements ps) [] (w.putSet j (some t3))
      ⟨aside_put w j _, t3, by simp [putSet_sets], rfl, SMap.sorted_nil, by simp, fun k => rfl⟩
    revert this
    cases loadPhrases j (elements ps) (w.putSet j (some t3)) with
    | ret a v => exact fun h => ⟨e7, by simpa using h⟩
    | throw e v => exact id
    | ub => exact id
  refine Tri.of_imp fun e7 => ?_
  intro v hv
  obtain ⟨t, st, et, hs, hall, hph⟩ := hv.here
  have dk : t.dims = t3.dims := by rw [et]
  have bm : t.bimodal = b := by rw [et]; rfl
  have dok : DimsOk t.bimodal t.dims := by
    rw [bm, dk]
    exact ⟨rfl, rfl, hd, hk1⟩
  have hpos : 0 < uint d := by
    cases b
    · exact Nat.lt_of_lt_of_le Nat.one_pos hd
    · exact Nat.lt_of_lt_of_le Nat.two_pos hd
  have cok : t.Coherent := by
    show t.dims.di < t.dims.dim
    rw [dk]
    show uint k < uint d
    omega
  obtain ⟨lb, su, h1, h2, _⟩ := updateSet_ok (fun r => (v.obj r).label) t dok cok hs
  have hupd : update j v = .ret () (v.putSet j (some { t with labels := lb, subs := su })) := by
    simp only [update, getSet, bind_def, get_def, st, pure_def, h1, set_def]
  rw [hupd]
  refine ⟨⟨fun l hl => by rw [putSet_sets, if_neg hl]; exact hv.sets l hl, hv.next, hv.obj⟩, { t with labels := lb, subs := su }, by simp [putSet_sets],
    ?_, dok, cok, hs, h2, fun k r hk => ?_, ps, e7, hall, fun k => ?_⟩
  · refine ⟨?_, ?_, ?_, ?_, ?_, ?_, cok, ?_, ?_⟩
    · show t.own = true
      rw [et]; rfl
    · show HoldsMode root t.bimodal
      rw [bm]; exact hb
    · show HoldsSize root "dimension" (if t.bimodal then 2 else 1) t.dims.dim
      rw [bm, dk]
      exact ⟨j1, d, e1, e2, rfl⟩
    · show HoldsSize root "dimension_input" (if t.bimodal then 1 else 0) t.dims.di
      rw [bm, dk]
      exact ⟨j2, k, e3, e4, rfl⟩
    · show (if t.bimodal then 2 else 1) ≤ t.dims.dim
      rw [bm, dk]; exact hd
    · show (if t.bimodal then 1 else 0) ≤ t.dims.di
      rw [bm, dk]; exact hk1
    · show HoldsNames root t.cols
      rw [et]; exact hn
    · show t.cols.length = t.dims.dim
      rw [dk, et]; exact hlen
  · have := hph k
    split at this
    · rw [show SMap.find? k t.phrases = some r from hk] at this; cases this
    · obtain ⟨r', a1, a2, a3, a4⟩ := this
      rw [show SMap.find? k t.phrases = some r from hk] at a1
      injection a1 with a1
      subst a1
      exact ⟨a2, a3, a4.listens⟩
  · have := hph k
    split at this
    · rename_i hnone
      rw [hnone]
      rintro ⟨r, hr⟩
      rw [show SMap.find? k t.phrases = some r from hr] at this; cases this
    · rename_i p hsome
      rw [hsome]
      obtain ⟨r', a1, a2, a3, a4⟩ := this
      exact ⟨r', a1, a4⟩

theorem ofJson_tri (w : World K String) (j : Nat) (root : Json K) (hj : w.sets j = none) :
    Tri (fun v => v = w) (ofJson j root) (fun _ w' => Read w j root w') (fun w' => Aside w j w' ∧ w'.sets j = none) := by
  rintro v rfl
  have hself : Aside v j v := ⟨fun _ _ => rfl, le_refl _, fun _ _ => rfl⟩
  unfold ofJson
  simp only [bind_def, get_def, hj]
  cases h1 : root.getOr "bimodal" (.bool false) with
  | error e => exact ⟨hself, hj⟩
  | ok jb =>
    simp only [liftE, pure_def]
    cases h2 : jb.asBool with
    | error e => exact ⟨hself, hj⟩
    | ok b =>
      have hb : ∀ f : Unit → World K String → Res (World K String) Unit,
          (Prog.set (v.putSet j (some (TSet.blank b))) >>= f : Prog (World K String) Unit) v = f () (v.putSet j (some (TSet.blank b))) :=
        fun f => bind_of_ret (f := f) rfl
      simp only [pure_def]
      rw [hb]
      have := readJson_tri v j root b ⟨jb, h1, h2⟩ _ rfl
      revert this
      cases readJson j root b (v.putSet j (some (TSet.blank b))) with
      | ret a u => exact id
      | throw e u => exact fun h => ⟨⟨fun l hl => by rw [putSet_sets, if_neg hl]; exact h.sets l hl, h.next, h.obj⟩, by simp [putSet_sets]⟩
      | ub => exact id

theorem copyPhrases_aside (w0 : World K String) (i : Nat) (t0 : TSet String) (es : List (Int × Nat)) :
    Tri (fun w => Aside w0 i w ∧ ∃ t, w.sets i = some t ∧ t = { t0 with phrases := t.phrases } ∧ SMap.Sorted t.phrases) (copyPhrases i es)
      (fun _ w => Aside w0 i w ∧ ∃ t, w.sets i = some t ∧ t = { t0 with phrases := t.phrases } ∧ SMap.Sorted t.phrases) (fun _ => False) := by
  induction es with
  | nil => exact Tri.pure fun _ h => h
  | cons e es ih =>
    rintro w ⟨ha, t, ht, et, hs⟩
    unfold copyPhrases
    simp only [bind_def, get_def]
    cases Phrase.copy (w.obj e.2).ph with
    | none => trivial
    | some q =>
      simp only [alloc, putPhrase, listen, getSet, bind_def, get_def, set_def, pure_def, World.putObj, ht, modify_def]
      refine ih _ ⟨⟨fun l hl => ?_, ?_, fun r hr => ?_⟩, { t with phrases := SMap.assign e.1 w.next t.phrases }, ?_, ?_, hs.assign⟩
      · simp [World.putSet, hl, ha.sets l hl]
      · show w0.next ≤ w.next + 1
        have := ha.next
        omega
      · have : r ≠ w.next := by have := ha.next; omega
        simp [World.putSet, this, ha.obj r hr]
      · simp [World.putSet]
      · rw [et]

theorem fromJson_eq (w : World K String) (i tmp : Nat) (root : Json K) : fromJson i root tmp w =
    match ofJson tmp root w with
    | .ret _ w1 => (match assign i tmp w1 with
      | .ret _ w2 => .ret () (w2.putSet tmp none)
      | .throw e w2 => .throw e (w2.putSet tmp none)
      | .ub => .ub)
    | .throw e w1 => .throw e w1
    | .ub => .ub := by
  unfold fromJson
  cases h : ofJson tmp root w with
  | ret a w1 => exact bind_of_ret h
  | throw e w1 => exact bind_of_throw h
  | ub => exact bind_of_ub h

/-- C86 (training sets, what is refused): if `fromJson` of any JSON throws, the training set, all other training sets and all phrases are unchanged. -/
theorem C86_trainingset_unchanged (w w' : World K String) (i tmp : Nat) (root : Json K) (e : Exn) (htmp : w.sets tmp = none)
    (h : fromJson i root tmp w = .throw e w') : (∀ l, w'.sets l = w.sets l) ∧ ∀ r, r < w.next → w'.obj r = w.obj r := by
  have h1 := ofJson_tri w tmp root htmp w rfl
  rw [fromJson_eq] at h
  cases ho : ofJson tmp root w with
  | ub => rw [ho] at h; cases h
  | throw e1 w1 =>
    rw [ho] at h h1
    injection h with _ h
    subst h
    refine ⟨fun l => ?_, h1.1.obj⟩
    by_cases hl : l = tmp
    · subst hl; rw [h1.2, htmp]
    · exact h1.1.sets l hl
  | ret a w1 =>
    exfalso
    rw [ho] at h h1
    simp only at h
    obtain ⟨t, st, -, dok, cok, -⟩ := h1.here
    unfold assign at h
    have hg : getSet tmp w1 = .ret t w1 := by simp [getSet, st]
    rw [bind_of_ret hg] at h
    cases hi : w1.sets i with
    | none =>
      have : getSet i w1 = .ub := by simp [getSet, hi, undef_def]
      rw [bind_of_ub this] at h
      cases h
    | some ti =>
      have : getSet i w1 = .ret ti w1 := by simp [getSet, hi]
      rw [bind_of_ret this] at h
      by_cases hit : i = tmp
      · rw [if_pos hit] at h; cases h
      · rw [if_neg hit] at h
        simp only [bind_def, modify_def] at h
        have h2 := copyPhrases_aside w1 i ⟨t.own, t.bimodal, t.dims, t.cols, t.labels, [], []⟩ t.phrases
          (w1.putSet i (some ⟨t.own, t.bimodal, t.dims, t.cols, t.labels, [], []⟩))
          ⟨aside_put w1 i _, ⟨t.own, t.bimodal, t.dims, t.cols, t.labels, [], []⟩, by simp [putSet_sets], rfl, SMap.sorted_nil⟩
        cases hc : copyPhrases i t.phrases (w1.putSet i (some ⟨t.own, t.bimodal, t.dims, t.cols, t.labels, [], []⟩)) with
        | ub => rw [hc] at h; cases h
        | throw e2 w2 => rw [hc] at h2; exact h2
        | ret a2 w2 =>
          rw [hc] at h h2
          simp only at h
          obtain ⟨-, t', st', et', hs'⟩ := h2
          have dok' : DimsOk t'.bimodal t'.dims := by rw [et']; exact dok
          have cok' : t'.Coherent := by rw [et']; exact cok
          obtain ⟨lb, su, e3, -, -⟩ := updateSet_ok (fun r => (w2.obj r).label) t' dok' cok' hs'
          have hupd : update i w2 = .ret () (w2.putSet i (some { t' with labels := lb, subs := su })) := by
            simp only [update, getSet, bind_def, get_def, st', pure_def, e3, set_def]
          rw [hupd] at h
          cases h

/-- The phrase object shows the frames and the label that the element `p` of the file describes, can be destroyed, and notifies the training set `j` of a
    change of its label. -/
def Shows (j : Nat) (p : Json K) (o : PhraseObj K String) : Prop :=
  ∃ s, Described p s ∧ Reads o.ph s ∧ o.ph.destroy = true ∧ HoldsText p "label" o.label ∧ o.listeners.find? j = some ()

/-- C86 (training sets, what the constructor does): the construction of a training set from any JSON changes no other training set and no existing phrase.
    If it throws there is no new training set.  If it returns, the attributes are those of the file and within their limits, there is a phrase exactly under
    the indices of the file, which shows what the file describes, and the labels and the sets of phrases per label agree with the phrases. -/
theorem C86_trainingset_constructed (w w' : World K String) (j : Nat) (root : Json K) (hj : w.sets j = none) :
    (∀ e, ofJson j root w = .throw e w' → (∀ l, w'.sets l = w.sets l) ∧ ∀ r, r < w.next → w'.obj r = w.obj r) ∧
    (ofJson j root w = .ret () w' →
      (∀ l, l ≠ j → w'.sets l = w.sets l) ∧ (∀ r, r < w.next → w'.obj r = w.obj r) ∧
      ∃ t, w'.sets j = some t ∧ HasAttributes root t ∧ Exact (fun r => (w'.obj r).label) t ∧ HasPhrases root t fun p r => Shows j p (w'.obj r)) := by
  have h1 := ofJson_tri w j root hj w rfl
  refine ⟨fun e h => ?_, fun h => ?_⟩
  · rw [h] at h1
    refine ⟨fun l => ?_, h1.1.obj⟩
    by_cases hl : l = j
    · subst hl; rw [h1.2, hj]
    · exact h1.1.sets l hl
  · rw [h] at h1
    obtain ⟨t, st, ha, -, -, -, hx, -, node, e1, e2, e3⟩ := h1.here
    refine ⟨h1.sets, h1.obj, t, st, ha, hx, node, e1, e2, fun k => ?_⟩
    have := e3 k
    split at this
    · exact this
    · obtain ⟨r, hr, ⟨s, hd, hrep, -, -⟩, hl, hli⟩ := this
      exact ⟨r, hr, s, hd, reads_of_rep hrep hd.coherent, destroy_of_rep hrep, hl, hli⟩

/-- the bookkeeping of the world after a construction from JSON -/
theorem Read.inv {w w' : World K String} {j : Nat} {root : Json K} (h : Read w j root w') (hI : Inv w) (hC : w.Coherent) : Inv w' ∧ w'.Coherent := by
  obtain ⟨t, st, -, dok, cok, hs, hx, hr, -⟩ := h.here
  refine ⟨⟨fun l u hu => ?_, fun l _ u hu => ?_⟩, fun l u hu => ?_⟩
  · by_cases hl : l = j
    · subst hl
      rw [st] at hu; cases hu
      exact ⟨hs, dok, fun k r hk => ⟨(hr k r hk).2.1, Or.inr (hr k r hk).2.2⟩⟩
    · rw [h.sets l hl] at hu
      have := hI.1 l u hu
      refine ⟨this.sorted, this.dims, fun k r hk => ?_⟩
      have hr := this.refs k r hk
      rw [h.obj r hr.1]
      exact ⟨Nat.lt_of_lt_of_le hr.1 h.next, hr.2⟩
  · by_cases hl : l = j
    · subst hl; rw [st] at hu; cases hu; exact hx
    · rw [h.sets l hl] at hu
      exact (hI.2 l id u hu).congr fun k r hk => by rw [h.obj r ((hI.1 l u hu).refs k r hk).1]
  · by_cases hl : l = j
    · subst hl; rw [st] at hu; cases hu; exact cok
    · rw [h.sets l hl] at hu; exact hC l u hu

/-- C86 (training sets, what is accepted): after any admissible history, if `fromJson` of any JSON on a training set returns, no other training set and no
    existing phrase has changed, and the training set is as the file describes, as in `C86_trainingset_constructed`.  The data of the phrases are only claimed
    for those with at least one frame (the others have uninitialised pointers, see `C25_trainingset_fromJson_empty_violated`). -/
theorem C86_trainingset_accepted_partial (before : List (Op K String)) (hadm : Admissible before World.empty) (w w' : World K String)
    (es : List (Option Exn)) (hr : run before World.empty = some (w, es)) (hC : w.Coherent) (i tmp : Nat) (hi : (w.sets i).isSome = true)
    (htmp : w.sets tmp = none) (root : Json K)
    (h : fromJson i root tmp w = .ret () w') :
    (∀ l, l ≠ i → w'.sets l = w.sets l) ∧ (∀ r, r < w.next → w'.obj r = w.obj r) ∧
    ∃ t, w'.sets i = some t ∧ HasAttributes root t ∧ Exact (fun r => (w'.obj r).label) t ∧
      HasPhrases root t fun p r => HoldsText p "label" (w'.obj r).label ∧ (w'.obj r).listeners.keys = [i] ∧
        ((w'.obj r).ph.length ≠ 0 → Shows i p (w'.obj r)) := by
  have hI := run_inv before _ inv_empty hadm w es hr
  have h1 := ofJson_tri w tmp root htmp w rfl
  unfold fromJson at h
  obtain ⟨_, w1, ho, h⟩ := bind_inv h
  rw [ho] at h1
  obtain ⟨hI1, hC1⟩ := h1.inv hI hC
  obtain ⟨t, st, hat, dok, cok, hs, hx, hrf, node, e1, e2, e3⟩ := h1.here
  have hph : ∀ k r, t.Holds k r → ∃ p, elementAt (elements node) k = some p ∧ ReadFrom tmp p (w1.obj r) := by
    intro k r hk
    have := e3 k
    split at this
    · exact absurd ⟨r, hk⟩ this
    · rename_i p hp
      obtain ⟨r', hr', hrd⟩ := this
      unfold TSet.Holds at hk hr'
      rw [hr'] at hk
      injection hk with hk
      subst hk
      exact ⟨p, hp, hrd⟩
  cases ha : assign i tmp w1 with
  | ub => rw [ha] at h; cases h
  | throw e w2 => rw [ha] at h; cases h
  | ret a w2 =>
    rw [ha] at h
    injection h with _ h
    subst h
    have hia : ∃ ti, w1.sets i = some ti := by
      unfold assign at ha
      have hg : getSet tmp w1 = .ret t w1 := by simp [getSet, st]
      rw [bind_of_ret hg] at ha
      cases hi : w1.sets i with
      | some ti => exact ⟨ti, rfl⟩
      | none =>
        have : getSet i w1 = .ub := by simp [getSet, hi, undef_def]
        rw [bind_of_ub this] at ha
        cases ha
    obtain ⟨ti, hti⟩ := hia
    have hit : i ≠ tmp := by rintro rfl; rw [htmp] at hi; cases hi
    have hcopy : ∀ k r, t.Holds k r → ∃ q, Phrase.copy (w1.obj r).ph = some q := by
      intro k r hk
      obtain ⟨p, -, ⟨s, hd, hrep, hm, -⟩, -, -⟩ := hph k r hk
      by_cases h0 : 0 < (w1.obj r).ph.maxLength
      · exact (hrep.copy hd.coherent h0).imp fun _ h => h.1
      · unfold Phrase.copy
        rw [if_pos hrep.own, if_neg (by omega)]
        exact ⟨_, rfl⟩
    obtain ⟨w2', ta', tb', f1, f2, f3, f4, f5, f6, f7, f8, f9, f10, f11, f12, f13, f14, f15, f16⟩ :=
      assign_spec w1 hI1 hC1 i tmp hit ti t hti st hcopy
    have f1 : assign i tmp w1 = .ret () w2' := f1
    rw [ha] at f1
    injection f1 with _ f1
    subst f1
    have hrt : ∀ k r', ta'.Holds k r' → ∃ r, t.Holds k r := fun k r' hk => (f9 k).1 ⟨r', hk⟩
    refine ⟨fun l hl => ?_, fun r hr => ?_, ta', ?_, ?_, ?_, node, e1, e2, fun k => ?_⟩
    · rw [putSet_sets]
      by_cases hlt : l = tmp
      · rw [if_pos hlt, hlt, htmp]
      · rw [if_neg hlt, f14 l hl, h1.sets l hlt]
    · show w2.obj r = _
      rw [f16 r (by have := h1.next; omega), h1.obj r hr]
    · rw [putSet_sets, if_neg hit, f2]
    · exact ⟨f4.trans hat.own, by rw [f5]; exact hat.mode, by rw [f5, f6]; exact hat.dim, by rw [f5, f6]; exact hat.di, by rw [f5, f6]; exact hat.dim_min,
        by rw [f5, f6]; exact hat.di_min, by rw [f6]; exact hat.di_max, by rw [f7]; exact hat.names, by rw [f6, f7]; exact hat.count⟩
    · exact f13.2 i id ta' f2
    · have := e3 k
      split at this
      · rintro ⟨r', hr'⟩
        exact this (hrt k r' hr')
      · rename_i p hp
        obtain ⟨r, hk, ⟨s, hd, hrep, hm, -⟩, hl, hli⟩ := this
        obtain ⟨r', hk'⟩ := (f9 k).2 ⟨r, hk⟩
        obtain ⟨g1, g2⟩ := f10 k r r' hk hk'
        have hlab : HoldsText p "label" (w2.obj r').label := by rw [g1]; exact hl
        have hkeys : (w2.obj r').listeners.keys = [i] := f11 k r' hk'
        refine ⟨r', hk', hlab, hkeys, fun hne => ⟨s, hd, ?_⟩⟩
        obtain ⟨x, y, hxy⟩ := Phrase.copy_same g2
        have hsz : (w2.obj r').ph.length = s.size := by rw [hxy]; exact hrep.size
        have hne' : (w2.obj r').ph.length ≠ 0 := hne
        obtain ⟨q, q1, q2⟩ := hrep.copy hd.coherent (by rw [hm]; omega)
        rw [g2] at q1
        injection q1 with q1
        subst q1
        refine ⟨reads_of_rep q2 hd.coherent, destroy_of_rep q2, hlab, ?_⟩
        have : SMap.find? i (w2.obj r').listeners = some () := by
          cases hlis : (w2.obj r').listeners with
          | nil => rw [hlis] at hkeys; simp [SMap.keys] at hkeys
          | cons c cs =>
            rw [hlis] at hkeys
            simp only [SMap.keys, List.map_cons, List.cons.injEq] at hkeys
            obtain ⟨c1, c2⟩ := c
            simp only at hkeys
            simp [SMap.find?, hkeys.1]
        exact this

end Xmm.TS
