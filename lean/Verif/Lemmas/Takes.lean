import Verif.Spec.Takes
import Verif.Lemmas.TrainingSetFrame
import Verif.Props.TrainingSetStats
set_option linter.unusedSectionVars false
/- A training set filled in a recording session shows the takes. -/
namespace Xmm
open PhraseSpec

namespace SMap
variable {κ : Type u} {ν : Type v} {ν' : Type w} [LinearOrder κ]

/-- maps with the same keys -/
def Zip (R : κ → ν → ν' → Prop) (m : SMap κ ν) (m' : SMap κ ν') : Prop := List.Forall₂ (fun e f => e.1 = f.1 ∧ R e.1 e.2 f.2) m m'

variable {R : κ → ν → ν' → Prop} {m : SMap κ ν} {m' : SMap κ ν'}

theorem Zip.keys (h : Zip R m m') : SMap.keys m = SMap.keys m' := by
  unfold Zip at h
  induction h with
  | nil => rfl
  | cons hab _ ih => simp only [SMap.keys, List.map_cons] at *; rw [ih, hab.1]

theorem Zip.imp {R' : κ → ν → ν' → Prop} (h : Zip R m m') (hi : ∀ k v v', (k, v) ∈ m → (k, v') ∈ m' → R k v v' → R' k v v') : Zip R' m m' := by
  unfold Zip at *
  induction h with
  | nil => exact .nil
  | @cons a b l l' hab _ ih =>
    refine .cons ⟨hab.1, hi a.1 a.2 b.2 List.mem_cons_self (by rw [hab.1]; exact List.mem_cons_self) hab.2⟩
      (ih fun k v v' h1 h2 => hi k v v' (List.mem_cons_of_mem _ h1) (List.mem_cons_of_mem _ h2))

theorem Zip.assign (h : Zip R m m') {k : κ} {v : ν} {v' : ν'} (hr : R k v v') : Zip R (assign k v m) (assign k v' m') := by
  unfold Zip at *
  induction h with
  | nil => exact .cons ⟨rfl, hr⟩ .nil
  | @cons a b l l' hab hl ih =>
    obtain ⟨ka, va⟩ := a
    obtain ⟨kb, vb⟩ := b
    obtain ⟨rfl, h2⟩ := hab
    simp only [SMap.assign]
    split
    · exact .cons ⟨rfl, hr⟩ (.cons ⟨rfl, h2⟩ hl)
    · split
      · exact .cons ⟨rfl, hr⟩ hl
      · exact .cons ⟨rfl, h2⟩ ih

theorem Zip.erase (h : Zip R m m') (k : κ) : Zip R (erase k m) (erase k m') := by
  unfold Zip at *
  induction h with
  | nil => exact .nil
  | @cons a b l l' hab hl ih =>
    obtain ⟨ka, va⟩ := a
    obtain ⟨kb, vb⟩ := b
    obtain ⟨rfl, h2⟩ := hab
    simp only [SMap.erase]
    split
    · exact hl
    · exact .cons ⟨rfl, h2⟩ ih

theorem Zip.find (h : Zip R m m') (k : κ) :
    match find? k m, find? k m' with
    | none, none => True
    | some v, some v' => R k v v'
    | _, _ => False := by
  unfold Zip at h
  induction h with
  | nil => trivial
  | @cons a b l l' hab hl ih =>
    obtain ⟨ka, va⟩ := a
    obtain ⟨kb, vb⟩ := b
    obtain ⟨rfl, h2⟩ := hab
    simp only [SMap.find?]
    by_cases hk : k = ka
    · subst hk; simpa using h2
    · simpa [hk] using ih

theorem Zip.filter (h : Zip R m m') (p : κ × ν → Bool) (p' : κ × ν' → Bool) (hp : ∀ k v v', R k v v' → p (k, v) = p' (k, v')) :
    Zip R (m.filter p) (m'.filter p') := by
  unfold Zip at *
  induction h with
  | nil => exact .nil
  | @cons a b l l' hab hl ih =>
    obtain ⟨ka, va⟩ := a
    obtain ⟨kb, vb⟩ := b
    obtain ⟨rfl, h2⟩ := hab
    simp only [List.filter_cons, hp _ _ _ h2]
    cases p' (ka, vb) with
    | true => exact .cons ⟨rfl, h2⟩ ih
    | false => exact ih

theorem Zip.change {R' : κ → ν → ν' → Prop} (h : Zip R m m') (k : κ) (g : ν' → ν')
    (hi : ∀ k' v v', (k', v) ∈ m → R k' v v' → R' k' v (if k' = k then g v' else v')) :
    Zip R' m (m'.map fun e => if e.1 = k then (e.1, g e.2) else e) := by
  unfold Zip at *
  induction h with
  | nil => exact .nil
  | @cons a b l l' hab hl ih =>
    obtain ⟨ka, va⟩ := a
    obtain ⟨kb, vb⟩ := b
    obtain ⟨rfl, h2⟩ := hab
    have := hi ka va vb List.mem_cons_self h2
    refine .cons ?_ (ih fun k' v v' hm => hi k' v v' (List.mem_cons_of_mem _ hm))
    simp only
    by_cases hk : ka = k
    · subst hk; simpa using this
    · simpa [hk] using this

theorem foldl_assign_sorted (m : SMap κ ν) : ∀ acc : SMap κ ν, Sorted (acc ++ m) → m.foldl (fun m e => SMap.assign e.1 e.2 m) acc = acc ++ m := by
  have app : ∀ (acc : SMap κ ν) (k : κ) (v : ν), (∀ e ∈ acc, e.1 < k) → SMap.assign k v acc = acc ++ [(k, v)] := by
    intro acc
    induction acc with
    | nil => intros; rfl
    | cons e acc ih =>
      intro k v he
      obtain ⟨k', v'⟩ := e
      have h1 : k' < k := he (k', v') List.mem_cons_self
      simp only [SMap.assign, if_neg (not_lt.2 h1.le), if_neg (ne_of_gt h1), List.cons_append]
      rw [ih k v fun e he' => he e (List.mem_cons_of_mem _ he')]
  induction m with
  | nil => intro acc _; simp
  | cons e m ih =>
    intro acc h
    rw [List.foldl_cons, app acc e.1 e.2 ?_, ih]
    · simp
    · simpa using h
    · intro e' he'
      exact List.pairwise_append.1 h |>.2.2 e' he' e List.mem_cons_self

/-- values of a map after an assignment -/
theorem nodup_assign {m : SMap κ ν} (h : (m.map Prod.snd).Nodup) {k : κ} {v : ν} (hv : v ∉ m.map Prod.snd) :
    ((SMap.assign k v m).map Prod.snd).Nodup ∧ ∀ x ∈ (SMap.assign k v m).map Prod.snd, x = v ∨ x ∈ m.map Prod.snd := by
  induction m with
  | nil => simp [SMap.assign]
  | cons e m ih =>
    obtain ⟨k', v'⟩ := e
    simp only [List.map_cons, List.nodup_cons, List.mem_cons, not_or] at h hv
    obtain ⟨h1, h2⟩ := ih h.2 hv.2
    simp only [SMap.assign]
    split
    · simp only [List.map_cons, List.nodup_cons, List.mem_cons, not_or]
      refine ⟨⟨hv, h⟩, ?_⟩
      tauto
    · split
      · simp only [List.map_cons, List.nodup_cons, List.mem_cons]
        exact ⟨⟨hv.2, h.2⟩, by tauto⟩
      · simp only [List.map_cons, List.nodup_cons, List.mem_cons]
        refine ⟨⟨fun hc => ?_, h1⟩, fun x hx => ?_⟩
        · rcases h2 _ hc with rfl | hc
          · exact hv.1 rfl
          · exact h.1 hc
        · rcases hx with rfl | hx
          · exact .inr (.inl rfl)
          · rcases h2 x hx with h | h
            · exact .inl h
            · exact .inr (.inr h)

theorem erase_sublist (k : κ) (m : SMap κ ν) : (SMap.erase k m).Sublist m := by
  induction m with
  | nil => exact .slnil
  | cons e m ih =>
    obtain ⟨k', v'⟩ := e
    simp only [SMap.erase]
    split
    · exact List.sublist_cons_self _ _
    · exact ih.cons_cons _

end SMap

/-! ## reading the frames of a phrase -/
variable {K : Type}

theorem frames_length (s : S K) : s.frames.length = s.size := by
  cases hb : s.bimodal <;> simp [S.frames, S.size, hb]

theorem Phrase.Rep.frames_row {p : Phrase K} {s : S K} (h : Phrase.Rep p s) (hc : s.Coherent) {row : List K} (hr : row ∈ s.frames) :
    row.length = s.dim := by
  cases hb : s.bimodal with
  | false =>
    simp only [S.frames, hb, Bool.false_eq_true, if_false] at hr
    exact (h.uni hb).1.uni row hr
  | true =>
    simp only [S.frames, hb, if_true] at hr
    obtain ⟨b0, b1, _⟩ := h.bi hb
    obtain ⟨n, hn, rfl⟩ := List.getElem_of_mem hr
    rw [List.getElem_zipWith]
    rw [List.length_zipWith, lt_min_iff] at hn
    have hx := b0.uni _ (List.getElem_mem hn.1)
    have hy := b1.uni _ (List.getElem_mem hn.2)
    have := hc hb
    simp only [List.length_append, hx, hy]
    omega

theorem Phrase.Rep.frames_value {p : Phrase K} {s : S K} (h : Phrase.Rep p s) (hc : s.Coherent) {t d : Nat} (ht : t < s.size) (hd : d < s.dim) :
    s.value t d = (s.frames[t]?).bind fun f => f[d]? := by
  cases hb : s.bimodal with
  | false => simp [S.value, S.frames, hb]
  | true =>
    obtain ⟨b0, b1, _⟩ := h.bi hb
    simp only [S.size, hb, if_true, lt_min_iff] at ht
    have hx : s.ins[t]? = some s.ins[t] := List.getElem?_eq_getElem ht.1
    have hy : s.outs[t]? = some s.outs[t] := List.getElem?_eq_getElem ht.2
    have hl := b0.uni _ (List.getElem_mem ht.1)
    simp only [S.value, S.frames, hb, if_true, List.getElem?_zipWith, hx, hy, Option.bind_some]
    by_cases hdi : d < s.di
    · rw [if_pos hdi, List.getElem?_append_left (by omega)]
    · rw [if_neg hdi, List.getElem?_append_right (by omega), hl]

theorem range_map_getD {α : Type} (l : List α) (z : α) (n : Nat) (h : l.length = n) : (List.range n).map (fun i => l.getD i z) = l := by
  subst h
  apply List.ext_getElem
  · simp
  · intro i h1 h2; simp at h1 h2 ⊢; simp [h2]

/-- training reads what was recorded -/
theorem Phrase.Rep.frames [Zero K] {p : Phrase K} {s : S K} (h : Phrase.Rep p s) (hc : s.Coherent) : Phrase.readFrames p = .ret s.frames p := by
  have row : ∀ t ∈ List.range p.length, ((List.range p.dimension).mapM fun d => Phrase.getValue t d : Prog (Phrase K) (List K)) p =
      .ret (s.frames.getD t []) p := by
    intro t ht
    have ht' : t < s.size := by rw [← h.size]; exact List.mem_range.1 ht
    have htf : t < s.frames.length := by rw [frames_length]; exact ht'
    have hlen := h.frames_row hc (List.getElem_mem htf)
    have hg : s.frames.getD t [] = s.frames[t] := by simp [htf]
    rw [hg, ← range_map_getD s.frames[t] 0 _ (hlen.trans h.dim.symm)]
    refine prog_mapM_ret _ _ _ _ fun d hd => ?_
    have hd' : d < s.dim := by rw [← h.dim]; exact List.mem_range.1 hd
    rw [h.getValue_colVal hc ht' hd', colVal, h.frames_value hc ht' hd', List.getElem?_eq_getElem htf]
    simp [List.getD]
  have := prog_mapM_ret (List.range p.length) (fun t => ((List.range p.dimension).mapM fun d => Phrase.getValue t d : Prog (Phrase K) (List K)))
    (fun t => s.frames.getD t []) p row
  simp only [Phrase.readFrames, Prog.bind_def, Prog.get_def, this]
  rw [range_map_getD _ _ _ (by rw [frames_length, h.size])]

end Xmm

/-! ## a session and its training set -/
namespace Xmm.TS
open PhraseSpec Phrase Prog
variable {K L : Type} [LinearOrder L]

theorem step_throw_same (s : S K) (op : Phrase.Op K) (e : Exn) (h : (s.step op).2 = some e) : (s.step op).1 = s := by
  cases op <;> simp only [S.step] at h ⊢ <;> (repeat' split at h) <;> simp_all

theorem step_data_dims (s : S K) (op : Phrase.Op K) (h : op.IsData) :
    (s.step op).1.bimodal = s.bimodal ∧ (s.step op).1.dim = s.dim ∧ (s.step op).1.di = s.di := by
  cases op <;> simp only [S.step, Op.IsData] at h ⊢ <;> (repeat' split) <;> simp_all

/-- the object `r` holds the take `e` -/
structure Item (f : Format) (i : Nat) (w : World K L) (r : Nat) (e : L × S K) : Prop where
  lt : r < w.next
  label : (w.obj r).label = e.1
  listeners : (w.obj r).listeners = [(i, ())]
  rep : Rep (w.obj r).ph e.2
  bim : e.2.bimodal = f.bimodal
  dim : e.2.dim = f.dim
  di : e.2.di = f.di

theorem Item.coh {f : Format} {i : Nat} {w : World K L} {r : Nat} {e : L × S K} (h : Item f i w r e) (hv : f.Valid) : e.2.Coherent := by
  intro hb
  rw [h.bim] at hb
  simp only [Format.Valid, hb, if_true] at hv
  rw [h.dim, h.di]; exact hv

/-- the set `t` at `i` holds the takes -/
structure Sim (f : Format) (i : Nat) (w : World K L) (t : TSet L) (τ : Takes K L) : Prop where
  set : w.sets i = some t
  own : t.own = true
  bim : t.bimodal = f.bimodal
  dim : t.dims.dim = f.dim
  di : t.dims.di = f.di
  dims : DimsOk t.bimodal t.dims
  sorted : SMap.Sorted t.phrases
  nodup : (t.phrases.map Prod.snd).Nodup
  items : SMap.Zip (fun _ r e => Item f i w r e) t.phrases τ

/-- the index is up to date -/
def Indexed (w : World K L) (t : TSet L) : Prop := updateSet (fun r => (w.obj r).label) t = (t, none)

variable {f : Format} {i : Nat} {w : World K L} {t : TSet L} {τ : Takes K L}

theorem Format.Valid.lt (hv : f.Valid) : f.di < f.dim := by
  cases hb : f.bimodal <;> simp [Format.Valid, hb] at hv <;> omega

theorem Sim.coh (h : Sim f i w t τ) (hv : f.Valid) : t.Coherent := by
  have := hv.lt
  simpa [TSet.Coherent, h.dim, h.di] using this

theorem Sim.mem (h : Sim f i w t τ) {k : Int} {r : Nat} (hk : SMap.find? k t.phrases = some r) :
    ∃ e, SMap.find? k τ = some e ∧ Item f i w r e := by
  have := h.items.find k
  rw [hk] at this
  cases hf : SMap.find? k τ with
  | none => simp [hf] at this
  | some e => exact ⟨e, rfl, by simpa [hf] using this⟩

theorem Sim.mem' (h : Sim f i w t τ) {k : Int} (hk : k ∈ SMap.keys τ) :
    ∃ r e, SMap.find? k t.phrases = some r ∧ SMap.find? k τ = some e ∧ Item f i w r e := by
  rw [← h.items.keys] at hk
  obtain ⟨r, hr⟩ := SMap.mem_keys_iff.1 hk
  obtain ⟨e, h1, h2⟩ := h.mem hr
  exact ⟨r, e, hr, h1, h2⟩

/-- the same takes in another index -/
theorem Sim.reindex (h : Sim f i w t τ) (lb : SMap L Unit) (su : SMap L Sub) :
    Sim f i (w.putSet i (some { t with labels := lb, subs := su })) { t with labels := lb, subs := su } τ where
  set := by simp [World.putSet]
  own := h.own
  bim := h.bim
  dim := h.dim
  di := h.di
  dims := h.dims
  sorted := h.sorted
  nodup := h.nodup
  items := h.items.imp fun _ _ _ _ _ hi => ⟨hi.lt, hi.label, hi.listeners, hi.rep, hi.bim, hi.dim, hi.di⟩

theorem Sim.update (h : Sim f i w t τ) (hv : f.Valid) :
    ∃ w' t', TS.update i w = .ret () w' ∧ Sim f i w' t' τ ∧ Indexed w' t' := by
  obtain ⟨lb, su, h1, _, _⟩ := updateSet_ok (fun r => (w.obj r).label) t h.dims (h.coh hv) h.sorted
  refine ⟨_, _, ?_, h.reindex lb su, ?_⟩
  · simp only [TS.update, getSet, bind_def, get_def, h.set, pure_def, h1, set_def]
  · exact h1

theorem addLabel_blank [Inhabited L] (h : Sim f i w t τ) (hv : f.Valid) (k : Int) (l : L) :
    ∃ o : PhraseObj K L, o.label = l ∧ o.listeners = [(i, ())] ∧ Rep o.ph (f.blank : S K) ∧
      addLabel i k l w = TS.update i (w.added i t k o) := by
  have hd := h.dims
  obtain ⟨p1, p2, e1, e2, a1, a2, a3, a4, a5, a6, a7, a8, a9, a10, a11, a12, a13, a14⟩ :=
    construct_dims (K := K) t.own t.bimodal t.dims.dim t.dims.di
    (by rw [← hd.dimMin]; exact hd.dim) (by rw [← hd.diMin]; exact hd.di) (h.coh hv)
  refine ⟨⟨{ p2 with columnNames := t.cols }, l, EventGen.addListener i () []⟩, rfl, rfl, ?_, ?_⟩
  · rw [h.own] at a3
    rw [h.bim] at a4 a5 a6 a10
    rw [h.dim] at a1 a7
    rw [h.di] at a2
    constructor
    · exact a3
    · exact a4
    · exact a1
    · exact a2
    · rw [Format.blank]; exact a5
    · rw [Format.blank]; exact a6
    · exact a7
    · simp [a9, Ptr.isGarbage]
    · intro hb
      simp [Format.blank, a9, a8, a11, Block.nil_of_null]
    · intro hb
      have hb' : f.bimodal = true := hb
      simp [Format.blank, a9, a8, a10 hb', a11, a12, a13, a14, Block.nil_of_null]
  · simp only [addLabel, alloc, putPhrase, listen, getSet, bind_def, get_def, set_def, pure_def, h.set, modify_def,
      World.putObj, World.putSet, onPhrase, if_true, e1, e2]
    congr 1
    refine World.ext' (funext fun r => ?_) rfl rfl
    by_cases hr : r = w.next <;> simp [World.added, hr]

theorem Sim.add (h : Sim f i w t τ) (k : Int) (l : L) (o : PhraseObj K L) (h1 : o.label = l) (h2 : o.listeners = [(i, ())])
    (h3 : Rep o.ph (f.blank : S K)) :
    Sim f i (w.added i t k o) { t with phrases := SMap.assign k w.next t.phrases } (SMap.assign k (l, f.blank) τ) := by
  have hlt : ∀ r ∈ t.phrases.map Prod.snd, r < w.next := by
    intro r hr
    obtain ⟨⟨k', r'⟩, hm, rfl⟩ := List.mem_map.1 hr
    obtain ⟨e, _, hi⟩ := h.mem ((SMap.mem_iff_find? h.sorted).1 hm)
    exact hi.lt
  refine ⟨by simp [World.added], h.own, h.bim, h.dim, h.di, h.dims, h.sorted.assign,
    (SMap.nodup_assign h.nodup fun hc => lt_irrefl _ (hlt _ hc)).1, ?_⟩
  refine SMap.Zip.assign (h.items.imp fun k' r' e' _ _ hi => ?_) ?_
  · have hne : r' ≠ w.next := ne_of_lt hi.lt
    refine ⟨Nat.lt_succ_of_lt hi.lt, ?_, ?_, ?_, hi.bim, hi.dim, hi.di⟩ <;> simp only [World.added, if_neg hne]
    · exact hi.label
    · exact hi.listeners
    · exact hi.rep
  · refine ⟨Nat.lt_succ_self _, ?_, ?_, ?_, rfl, rfl, rfl⟩ <;> simp only [World.added, if_true]
    · exact h1
    · exact h2
    · exact h3

/-- the object of take `k` changes -/
theorem Sim.put (h : Sim f i w t τ) {k : Int} {r : Nat} {e : L × S K} (hk : SMap.find? k t.phrases = some r) (he : SMap.find? k τ = some e)
    (o : PhraseObj K L) (g : L × S K → L × S K) (hg : Item f i (w.putObj r o) r (g e)) :
    Sim f i (w.putObj r o) t (τ.change k g) := by
  refine ⟨h.set, h.own, h.bim, h.dim, h.di, h.dims, h.sorted, h.nodup, ?_⟩
  have hz : SMap.Zip (fun k' r' e' => Item f i w r' e' ∧ SMap.find? k' τ = some e') t.phrases τ :=
    h.items.imp fun k' r' e' hm _ hi => ⟨hi, by
      obtain ⟨e'', h1, _⟩ := h.mem ((SMap.mem_iff_find? h.sorted).1 hm)
      have hs : SMap.Sorted τ := by
        have hks := SMap.keys_sorted h.sorted
        rw [h.items.keys] at hks
        simpa [SMap.keys, SMap.Sorted, List.pairwise_map] using hks
      exact (SMap.mem_iff_find? hs).1 ‹_›⟩
  refine hz.change k g fun k' r' e' hm hi => ?_
  have hm' := (SMap.mem_iff_find? h.sorted).1 hm
  by_cases hkk : k' = k
  · subst hkk
    rw [hk] at hm'
    have hr : r = r' := by simpa using hm'
    subst hr
    rw [he] at hi
    have := hi.2
    simp only [Option.some.injEq] at this
    subst this
    simpa using hg
  · rw [if_neg hkk]
    have hne : r' ≠ r := by
      rintro rfl
      have hk' := (SMap.mem_iff_find? h.sorted).2 hk
      have := List.inj_on_of_nodup_map h.nodup hm hk' rfl
      exact hkk (congrArg Prod.fst this)
    refine ⟨hi.1.lt, ?_, ?_, ?_, hi.1.bim, hi.1.dim, hi.1.di⟩ <;> simp only [World.putObj, if_neg hne]
    · exact hi.1.label
    · exact hi.1.listeners
    · exact hi.1.rep

theorem Sim.call (h : Sim f i w t τ) (hx : Indexed w t) (hv : f.Valid) (k : Int) (op : Phrase.Op K) (hk : k ∈ SMap.keys τ) (hop : op.IsData) :
    ∃ w', takeOp i k op w = (match (SMap.find? k τ).bind fun e => (e.2.step op).2 with | none => .ret () w' | some e => .throw e w') ∧
      Sim f i w' t (τ.change k fun e => (e.1, (e.2.step op).1)) ∧ Indexed w' t := by
  obtain ⟨r, e, h1, h2, hi⟩ := h.mem' hk
  obtain ⟨p', hr, hs⟩ := hi.rep.step (hi.coh hv) op
  obtain ⟨d1, d2, d3⟩ := step_data_dims e.2 op hop
  have key : ∀ q, Rep q (e.2.step op).1 →
      Sim f i (w.putObj r { w.obj r with ph := q }) t (τ.change k fun e => (e.1, (e.2.step op).1)) ∧
        Indexed (w.putObj r { w.obj r with ph := q }) t := by
    intro q hq
    constructor
    · refine h.put h1 h2 _ _ ⟨hi.lt, ?_, ?_, ?_, d1.trans hi.bim, d2.trans hi.dim, d3.trans hi.di⟩ <;> simp only [World.putObj, if_true]
      · exact hi.label
      · exact hi.listeners
      · exact hq
    · have : (fun r' => ((w.putObj r { w.obj r with ph := q }).obj r').label) = fun r' => (w.obj r').label := by
        funext r'
        by_cases hrr : r' = r
        · subst hrr; simp [World.putObj]
        · simp [World.putObj, hrr]
      rw [Indexed, this]; exact hx
  simp only [takeOp, getSet, bind_def, get_def, h.set, pure_def, h1, phraseOp, if_pos hi.lt, onPhrase, h2, Option.bind_some]
  cases hst : (e.2.step op).2 with
  | none =>
    rw [hst] at hs
    simp only [hs]
    exact ⟨_, rfl, key p' hr⟩
  | some ex =>
    rw [hst] at hs
    simp only [hs]
    refine ⟨_, rfl, key _ ?_⟩
    rw [step_throw_same _ _ _ hst]; exact hi.rep

theorem Sim.relabel (h : Sim f i w t τ) (hv : f.Valid) (k : Int) (l : L) (hk : k ∈ SMap.keys τ) :
    ∃ w' t', takeLabel i k l w = .ret () w' ∧ Sim f i w' t' (τ.change k fun e => (l, e.2)) ∧ Indexed w' t' := by
  obtain ⟨r, e, h1, h2, hi⟩ := h.mem' hk
  have hsim : Sim f i (w.putObj r { w.obj r with label := l }) t (τ.change k fun e => (l, e.2)) := by
    refine h.put h1 h2 _ _ ⟨hi.lt, ?_, ?_, ?_, hi.bim, hi.dim, hi.di⟩ <;> simp only [World.putObj, if_true]
    · exact hi.listeners
    · exact hi.rep
  obtain ⟨w', t', e1, e2, e3⟩ := hsim.update hv
  refine ⟨w', t', ?_, e2, e3⟩
  have hl : ((EventGen.notifyListeners () (w.obj r).listeners).map Prod.fst) = [i] := by rw [hi.listeners]; rfl
  simp only [takeLabel, getSet, bind_def, get_def, h.set, pure_def, h1, userRelabel, if_pos hi.lt, TS.relabel, set_def, hl, notify]
  rw [e1]

/-- phrases are taken out -/
theorem Sim.shrink (h : Sim f i w t τ) (m : SMap Int Nat) (τ' : Takes K L) (lb : SMap L Unit) (su : SMap L Sub) (hm : m.Sublist t.phrases)
    (hz : SMap.Zip (fun _ r e => Item f i w r e) m τ') :
    Sim f i (w.putSet i (some { t with phrases := m, labels := lb, subs := su })) { t with phrases := m, labels := lb, subs := su } τ' where
  set := by simp [World.putSet]
  own := h.own
  bim := h.bim
  dim := h.dim
  di := h.di
  dims := h.dims
  sorted := h.sorted.sublist hm
  nodup := h.nodup.sublist (hm.map _)
  items := hz.imp fun _ _ _ _ _ hi => ⟨hi.lt, hi.label, hi.listeners, hi.rep, hi.bim, hi.dim, hi.di⟩

theorem Sim.remove (h : Sim f i w t τ) (hv : f.Valid) (k : Int) :
    ∃ w' t', TS.remove i k w = .ret () w' ∧ Sim f i w' t' (SMap.erase k τ) ∧ Indexed w' t' := by
  have := h.shrink (SMap.erase k t.phrases) (SMap.erase k τ) t.labels t.subs (SMap.erase_sublist k _) (h.items.erase k)
  obtain ⟨w', t', e1, e2, e3⟩ := this.update hv
  refine ⟨w', t', ?_, e2, e3⟩
  simp only [TS.remove, getSet, bind_def, get_def, h.set, pure_def, modify_def]
  exact e1

theorem erase_filter (k : Int) (v : L × S K) (p : Int × L × S K → Bool) (τ : Takes K L) (h1 : SMap.find? k τ = some v) (h2 : p (k, v) = false) :
    (SMap.erase k τ).filter p = τ.filter p := by
  induction τ with
  | nil => rfl
  | cons e τ ih =>
    obtain ⟨k', v'⟩ := e
    simp only [SMap.erase, SMap.find?] at h1 ⊢
    by_cases hk : k = k'
    · subst hk
      simp only [if_true, Option.some.injEq] at h1 ⊢
      subst h1
      simp [List.filter_cons, h2]
    · simp only [if_neg hk] at h1 ⊢
      simp only [List.filter_cons, ih h1]

theorem erase_length (k : Int) (v : L × S K) (τ : Takes K L) (h1 : SMap.find? k τ = some v) : (SMap.erase k τ).length + 1 = τ.length := by
  induction τ with
  | nil => simp [SMap.find?] at h1
  | cons e τ ih =>
    obtain ⟨k', v'⟩ := e
    simp only [SMap.erase, SMap.find?] at h1 ⊢
    by_cases hk : k = k'
    · simp [hk]
    · simp only [if_neg hk] at h1 ⊢
      simp [ih h1]

theorem Sim.removeLoop (hv : f.Valid) (l : L) (n : Nat) : ∀ {w : World K L} {t : TSet L} {τ : Takes K L}, Sim f i w t τ → τ.length < n →
    ∃ w' t', removeClassLoop i l n w = .ret () w' ∧ Sim f i w' t' (τ.filter fun e => decide (e.2.1 ≠ l)) := by
  induction n with
  | zero => intro w t τ _ h; omega
  | succ n ih =>
    intro w t τ h hn
    simp only [removeClassLoop, getSet, bind_def, get_def, h.set, pure_def]
    cases hf : List.find? (fun e => decide ((w.obj e.2).label = l)) t.phrases with
    | none =>
      refine ⟨w, t, rfl, ?_⟩
      have : (τ.filter fun e => decide (e.2.1 ≠ l)) = τ := by
        rw [List.filter_eq_self]
        rintro ⟨k, e⟩ he
        have hk : k ∈ SMap.keys τ := List.mem_map.2 ⟨_, he, rfl⟩
        have hs : SMap.Sorted τ := by
          have hks := SMap.keys_sorted h.sorted
          rw [h.items.keys] at hks
          simpa [SMap.keys, SMap.Sorted, List.pairwise_map] using hks
        obtain ⟨r, e', h1, h2, hi⟩ := h.mem' hk
        rw [(SMap.mem_iff_find? hs).1 he] at h2
        simp only [Option.some.injEq] at h2
        subst h2
        have := List.find?_eq_none.1 hf _ ((SMap.mem_iff_find? h.sorted).2 h1)
        simpa [hi.label] using this
      rw [this]; exact h
    | some e =>
      have hm := List.mem_of_find?_eq_some hf
      have hl := List.find?_some hf
      obtain ⟨v, h1, hi⟩ := h.mem ((SMap.mem_iff_find? h.sorted).1 hm)
      obtain ⟨w1, t1, e1, e2, _⟩ := h.remove hv e.1
      have hlen := erase_length e.1 v τ h1
      obtain ⟨w', t', e3, e4⟩ := ih e2 (by omega)
      refine ⟨w', t', ?_, ?_⟩
      · simp only [bind_def, e1, e3]
      · rw [erase_filter e.1 v _ τ h1] at e4
        · exact e4
        · have : v.1 = l := by rw [← hi.label]; simpa using hl
          simp [this]

theorem Sim.removeClass (h : Sim f i w t τ) (hv : f.Valid) (l : L) :
    ∃ w' t', TS.removeClass i l w = .ret () w' ∧ Sim f i w' t' (τ.filter fun e => decide (e.2.1 ≠ l)) ∧ Indexed w' t' := by
  obtain ⟨w1, t1, e1, e2⟩ := Sim.removeLoop hv l (t.phrases.length + 1) h (by
    have := congrArg List.length h.items.keys
    simp only [SMap.keys, List.length_map] at this; omega)
  obtain ⟨w', t', e3, e4, e5⟩ := e2.update hv
  refine ⟨w', t', ?_, e4, e5⟩
  simp only [TS.removeClass, getSet, bind_def, get_def, h.set, pure_def, e1, e3]

/-- one call of a session -/
theorem Sim.step [Inhabited L] (h : Sim f i w t τ) (hx : Indexed w t) (hv : f.Valid) (op : RecOp K L) (ha : τ.Fair op) :
    ∃ w' t', recStep i op w = (match (τ.step f op).2 with | none => .ret () w' | some e => .throw e w') ∧
      Sim f i w' t' (τ.step f op).1 ∧ Indexed w' t' := by
  cases op with
  | add k l =>
    obtain ⟨o, h1, h2, h3, h4⟩ := addLabel_blank h hv k l
    obtain ⟨w', t', e1, e2, e3⟩ := (h.add k l o h1 h2 h3).update hv
    exact ⟨w', t', h4.trans e1, e2, e3⟩
  | call k op =>
    obtain ⟨w', e1, e2, e3⟩ := h.call hx hv k op ha.1 ha.2
    exact ⟨w', t, e1, e2, e3⟩
  | relabel k l => exact h.relabel hv k l ha
  | remove k => exact h.remove hv k
  | removeClass l => exact h.removeClass hv l
  | clear =>
    have := h.shrink [] [] [] [] (List.nil_sublist _) .nil
    refine ⟨_, _, ?_, this, rfl⟩
    simp only [recStep, TS.clear, getSet, bind_def, get_def, h.set, pure_def, modify_def, Takes.step]

/-- a whole session -/
theorem Sim.run [Inhabited L] (hv : f.Valid) (ops : List (RecOp K L)) : ∀ {w : World K L} {t : TSet L} {τ : Takes K L},
    Sim f i w t τ → Indexed w t → Takes.Admissible f ops τ →
    ∃ w' t', recRun i ops w = some (w', (Takes.run f ops τ).2) ∧ Sim f i w' t' (Takes.run f ops τ).1 ∧ Indexed w' t' := by
  induction ops with
  | nil => intro w t τ h hx _; exact ⟨w, t, rfl, h, hx⟩
  | cons op ops ih =>
    intro w t τ h hx ha
    obtain ⟨w1, t1, e1, e2, e3⟩ := h.step hx hv op ha.1
    obtain ⟨w', t', e4, e5, e6⟩ := ih e2 e3 ha.2
    refine ⟨w', t', ?_, e5, e6⟩
    simp only [recRun, e1, Takes.run]
    cases (τ.step f op).2 <;> simp [e4]

/-- a new set -/
theorem sim_open (hv : f.Valid) (h : w.sets i = none) :
    ∃ (w' : World K L) (t' : TSet L), openSet i f.bimodal f.dim f.di w = .ret () w' ∧ Sim f i w' t' ([] : Takes K L) ∧ Indexed w' t' := by
  have hcols : ∀ c, Sim f i (w.putSet i (some ⟨true, f.bimodal, ⟨f.dim, if f.bimodal then 2 else 1, f.di, if f.bimodal then 1 else 0, f.dim - 1⟩,
      c, [], [], []⟩)) ⟨true, f.bimodal, ⟨f.dim, if f.bimodal then 2 else 1, f.di, if f.bimodal then 1 else 0, f.dim - 1⟩,
      c, [], [], []⟩ ([] : Takes K L) := by
    intro c
    refine ⟨by simp [World.putSet], rfl, rfl, rfl, rfl, ⟨rfl, rfl, ?_, ?_⟩, SMap.sorted_nil, List.nodup_nil, .nil⟩ <;>
      cases hb : f.bimodal <;> simp [Format.Valid, hb] at hv ⊢ <;> omega
  refine ⟨_, _, ?_, hcols (resizeCols f.dim (resizeCols (if f.bimodal then 2 else 1) [])), rfl⟩
  cases hb : f.bimodal with
  | false =>
    obtain ⟨h1, h2⟩ : f.di = 0 ∧ 1 ≤ f.dim := by simpa [Format.Valid, hb] using hv
    have hd : ¬ f.dim < 1 := by omega
    simp only [openSet, newSet, setDim, getSet, bind_def, get_def, h, set_def, pure_def, modify_def, World.putSet, TSet.new, Dims.new, hd,
        eachPhrase, onSubs, eachSub, if_true, if_false, Bool.false_eq_true, h1]
    congr 1
    refine World.ext' rfl rfl (funext fun j => ?_)
    by_cases hj : j = i <;> simp [hj]
  | true =>
    obtain ⟨h1, h2⟩ : 1 ≤ f.di ∧ f.di < f.dim := by simpa [Format.Valid, hb] using hv
    have hd : ¬ f.dim < 2 := by omega
    have hdi : ¬ (f.di < 1 ∨ f.dim - 1 < f.di) := by omega
    simp only [openSet, newSet, setDim, setDi, getSet, bind_def, get_def, h, set_def, pure_def, modify_def, World.putSet, TSet.new, Dims.new,
        hd, hdi, eachPhrase, onSubs, eachSub, if_true, if_false]
    congr 1
    refine World.ext' rfl rfl (funext fun j => ?_)
    by_cases hj : j = i <;> simp [hj]

/-- reading the phrases of a set -/
theorem allFrames_zip [Zero K] (hv : f.Valid) (m : SMap Int Nat) (τ : Takes K L) (h : SMap.Zip (fun _ r e => Item f i w r e) m τ) :
    TSStats.allFrames (m.map Prod.snd) w.store = .ret τ.frames w.store := by
  have hl : ∀ (m : SMap Int Nat) (τ : Takes K L) (acc : List (List (List K))), SMap.Zip (fun _ r e => Item f i w r e) m τ →
      (List.mapM.loop (fun r => TSStats.on r Phrase.readFrames) (m.map Prod.snd) acc : Prog (TSStats.Store K) _) w.store =
        .ret (acc.reverse ++ τ.frames) w.store := by
    intro m τ acc h
    unfold SMap.Zip at h
    induction h generalizing acc with
    | nil => simp [List.mapM.loop, Takes.frames]
    | @cons a b m τ hab _ ih =>
      have := hab.2.rep.frames (hab.2.coh hv)
      have h1 : TSStats.on a.2 Phrase.readFrames w.store = .ret b.2.2.frames w.store := on_ret this
      simp only [List.map_cons, List.mapM.loop, Prog.bind_def, h1]
      rw [ih]
      simp [Takes.frames]
  simpa [TSStats.allFrames, List.mapM] using hl m τ [] h

/-- the set of one class -/
theorem makeSub_phrases (lab : Nat → L) (t : TSet L) (hd : DimsOk t.bimodal t.dims) (hc : t.Coherent) (hs : SMap.Sorted t.phrases) (l : L) :
    (makeSub lab t l).1.phrases = t.phrases.filter fun e => decide (lab e.2 = l) := by
  have h1 : ¬ t.dims.dim < (Dims.new t.bimodal).dimMin := by
    have := hd.dim; rw [hd.dimMin] at this; omega
  have h2 : ¬ (t.dims.di < (Dims.new t.bimodal).diMin ∨ t.dims.dim - 1 < t.dims.di) := by
    have h := hd.di; rw [hd.diMin] at h
    have : t.dims.di < t.dims.dim := hc
    omega
  simp only [makeSub, Sub.setDim, h1, if_false, Sub.setDi, h2]
  have := SMap.foldl_assign_sorted (t.phrases.filter fun e => decide (lab e.2 = l)) [] (by simpa using hs.filter _)
  simpa using this

theorem Sim.class (h : Sim f i w t τ) (l : L) :
    SMap.Zip (fun _ r e => Item f i w r e) (t.phrases.filter fun e => decide ((w.obj e.2).label = l)) (τ.ofClass l) :=
  h.items.filter _ _ fun k r e hi => by simp [hi.label]

/-- the index of a set that is up to date -/
theorem Sim.index (h : Sim f i w t τ) (hx : Indexed w t) (hv : f.Valid) :
    t.labels = labelsOf (fun r => (w.obj r).label) t.phrases ∧
    ∀ l, SMap.find? l t.subs = if l ∈ SMap.keys t.labels then some (makeSub (fun r => (w.obj r).label) t l).1 else none := by
  obtain ⟨su, h1, h2⟩ := updateLoop_ok (fun r => (w.obj r).label) { t with labels := labelsOf (fun r => (w.obj r).label) t.phrases }
    h.dims (h.coh hv) h.sorted (labelsOf (fun r => (w.obj r).label) t.phrases).keys []
  have hx' : ({ t with labels := labelsOf (fun r => (w.obj r).label) t.phrases, subs := su } : TSet L) = t := by
    have : updateSet (fun r => (w.obj r).label) t = (t, none) := hx
    simp only [updateSet, h1, Prod.mk.injEq, and_true] at this
    exact this
  have hl : t.labels = labelsOf (fun r => (w.obj r).label) t.phrases := by rw [← hx']
  have hs : t.subs = su := by rw [← hx']
  refine ⟨hl, fun l => ?_⟩
  rw [hs, h2 l, hl]
  rfl

theorem Sim.presents [Zero K] (h : Sim f i w t τ) (hx : Indexed w t) (hv : f.Valid) : Presents f w t τ := by
  obtain ⟨hl, hsub⟩ := h.index hx hv
  refine ⟨⟨h.bim, h.dim, h.di⟩, h.items.keys, fun l => ?_, ?_, fun l hnl => ?_, fun l hin => ?_⟩
  · rw [hl, labelsOf, SMap.mem_keys_foldl_insertNew]
    simp only [SMap.keys, List.map_nil, List.not_mem_nil, or_false]
    have hz := h.items
    unfold SMap.Zip at hz
    constructor
    · rintro ⟨e, he, rfl⟩
      obtain ⟨n, hn, rfl⟩ := List.getElem_of_mem he
      have hn' : n < τ.length := by rw [← hz.length_eq]; exact hn
      exact ⟨_, List.getElem_mem hn', ((List.forall₂_iff_get.1 hz).2 n hn hn').2.label.symm⟩
    · rintro ⟨e, he, rfl⟩
      obtain ⟨n, hn, rfl⟩ := List.getElem_of_mem he
      have hn' : n < t.phrases.length := by rw [hz.length_eq]; exact hn
      exact ⟨_, List.getElem_mem hn', ((List.forall₂_iff_get.1 hz).2 n hn' hn).2.label⟩
  · rw [hl]; exact SMap.sorted_foldl_insertNew _ _ _ _ SMap.sorted_nil
  · rw [hsub, if_neg hnl]
  · obtain ⟨s, h1, h2, _⟩ := makeSub_ok (fun r => (w.obj r).label) t h.dims (h.coh hv) h.sorted l
    have hp := makeSub_phrases (fun r => (w.obj r).label) t h.dims (h.coh hv) h.sorted l
    rw [h1] at hp
    simp only at hp
    refine ⟨s, by rw [hsub, if_pos hin, h1], h2.trans h.dim, ?_, ?_⟩
    · rw [hp]; exact (h.class l).keys
    · rw [hp]; exact allFrames_zip hv _ _ (h.class l)

end Xmm.TS
