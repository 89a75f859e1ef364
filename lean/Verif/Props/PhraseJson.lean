import Verif.Spec.PhraseJson
import Verif.Props.PhraseCopy
import Verif.Props.Json
import Verif.Props.SharedJson
/- C25 (phrases): a phrase written to JSON and read back. -/
namespace Xmm
open PhraseSpec Phrase
open Prog (bind_def pure_def get_def set_def throw_def undef_def)
open SharedParams (liftE_ok)
variable {K : Type}

theorem range_mapM {α : Type} (f : Nat → Option α) (l : List α) (h : ∀ i (hi : i < l.length), f i = some l[i]) :
    (List.range l.length).mapM f = some l := by
  induction l using List.reverseRecOn with
  | nil => rfl
  | append_singleton l x ih =>
    have h1 := ih fun i hi => by
      rw [h i (by simp; omega)]; simp [List.getElem_append_left hi]
    have h2 := h l.length (by simp)
    simp only [List.length_append, List.length_cons, List.length_nil, List.range_succ, List.mapM_append, h1]
    simp [h2]

theorem flatten_take_length {d : Nat} {fs : List (List K)} (h : ∀ f ∈ fs, f.length = d) (n : Nat) (hn : n ≤ fs.length) :
    (fs.take n).flatten.length = n * d := by
  rw [flatten_length_uniform (fun f hf => h f (List.mem_of_mem_take hf)), List.length_take, Nat.min_eq_left hn]

theorem flatten_take {d : Nat} {fs : List (List K)} (h : ∀ f ∈ fs, f.length = d) (n : Nat) (hn : n ≤ fs.length) :
    (fs.take n).flatten = fs.flatten.take (n * d) := by
  have h1 : fs.flatten = (fs.take n).flatten ++ (fs.drop n).flatten := by
    rw [← List.flatten_append, List.take_append_drop]
  have h2 := flatten_take_length h n hn
  conv_rhs => rw [h1, ← h2, List.take_left]

namespace Phrase

/-- the complete frames of a block are written in order -/
theorem block_json [Field K] {ptr : Ptr K} {d max : Nat} {fs : List (List K)} (h : Block ptr d max fs) (n : Nat)
    (hn : n ≤ fs.length) :
    block2json ptr (n * d) = some (vector2json (realCodec K) (fs.take n).flatten) := by
  have hlen := flatten_take_length h.uni n hn
  have hm : (List.range (n * d)).mapM ptr.read = some (fs.take n).flatten := by
    rw [← hlen]
    apply range_mapM
    intro i hi
    rcases h.rep with ⟨_, h0⟩ | ⟨l, hl, h2, h3⟩
    · have := h.le
      have hn0 : n = 0 := by omega
      subst hn0
      simp at hi
    · subst hl
      have hi' : i < n * d := hlen ▸ hi
      have h4 : n * d ≤ fs.length * d := Nat.mul_le_mul_right d hn
      have h5 : (l.take (fs.length * d))[i]? = l[i]? := by
        rw [List.getElem?_take, if_pos (by omega)]
      rw [h3] at h5
      have h6 : fs.flatten[i]? = some (fs.take n).flatten[i] := by
        have : (fs.take n).flatten[i]? = some (fs.take n).flatten[i] := List.getElem?_eq_getElem hi
        rw [← this, flatten_take h.uni n hn, List.getElem?_take, if_pos hi']
      rw [List.getElem?_map, h6] at h5
      simp only [Ptr.read, ← h5, Option.map_some]
  rw [block2json, hm]; rfl

/-- a block read back holds exactly the written values -/
theorem readBlock_ok {σ : Type} [Field K] (vals : List K) (n : Nat) (hn : vals.length = n) (st : σ) :
    readBlock (vector2json (realCodec K) vals) n st = .ret (.cells (vals.map some)) st := by
  subst hn
  have h := (C12_round_trip (cellCodec K) (vals.map some) (List.replicate vals.length none)
    (by intro x hx; obtain ⟨y, _, rfl⟩ := List.mem_map.1 hx; rfl) (by simp)).1
  have he : vector2json (cellCodec K) (vals.map some) = vector2json (realCodec K) vals := by
    simp only [vector2json, List.map_map]; rfl
  rw [he, List.length_map] at h
  rw [readBlock, h]

/-- the names read back, completed with empty names up to the dimension -/
theorem readNames_ok {σ : Type} [JsonReal K] (all : List String) (st : σ) :
    ∀ (n i : Nat) (names : List String), i + n = all.length → all.length ≤ names.length → names.take i = all.take i →
      readNames (.arr (all.map .str) : Json K) i n names st = .ret (all ++ names.drop all.length) st
  | 0, i, names, h, h1, h2 => by
    have : all = names.take all.length := by
      have e : i = all.length := by omega
      rw [e, List.take_of_length_le (Nat.le_refl _)] at h2
      exact h2.symm
    rw [readNames, pure_def]
    congr 1
    conv_rhs => lhs; rw [this]
    exact (List.take_append_drop _ _).symm
  | n + 1, i, names, h, h1, h2 => by
    have hi : i < all.length := by omega
    have hi' : i < names.length := by omega
    rw [readNames]
    have e1 : (Json.arr (all.map .str) : Json K).getIndexOr i (.str "") = .ok (.str all[i]) := by
      simp [Json.getIndexOr, List.getElem?_eq_getElem hi]
    rw [e1, bind_of_ret (liftE_ok _ _), show (Json.str all[i] : Json K).asString = .ok all[i] from rfl,
      bind_of_ret (liftE_ok _ _), if_pos hi']
    rw [readNames_ok all st n (i + 1) (names.set i all[i]) (by omega) (by simpa using h1) ?_]
    · congr 2
      rw [List.drop_set, if_pos hi]
    · apply List.ext_getElem?
      intro j
      by_cases hj : j < i + 1
      · rw [List.getElem?_take, if_pos hj, List.getElem?_take, if_pos hj, List.getElem?_set]
        by_cases hij : i = j
        · subst hij; simp [hi', hi]
        · rw [if_neg hij]
          have := congrArg (fun l => l[j]?) h2
          simp only [List.getElem?_take, show j < i by omega, if_true] at this
          exact this
      · rw [List.getElem?_take, if_neg hj, List.getElem?_take, if_neg hj]

/-- one name too many is written outside the vector -/
theorem readNames_ub {σ : Type} [JsonReal K] (all : List String) (st : σ) :
    ∀ (n i : Nat) (names : List String), i + n = all.length → i ≤ names.length → names.length < all.length →
      readNames (.arr (all.map .str) : Json K) i n names st = .ub
  | 0, i, names, h, h1, h2 => by omega
  | n + 1, i, names, h, h1, h2 => by
    have hi : i < all.length := by omega
    rw [readNames]
    have e1 : (Json.arr (all.map .str) : Json K).getIndexOr i (.str "") = .ok (.str all[i]) := by
      simp [Json.getIndexOr, List.getElem?_eq_getElem hi]
    rw [e1, bind_of_ret (liftE_ok _ _), show (Json.str all[i] : Json K).asString = .ok all[i] from rfl,
      bind_of_ret (liftE_ok _ _)]
    split
    · exact readNames_ub all st n (i + 1) _ (by omega) (by simpa using by assumption) (by simpa using h2)
    · rfl

/-- the data members of the file -/
def dataMembers [Field K] (s : S K) : List (String × Json K) :=
  if s.bimodal then
    [("data_input", vector2json (realCodec K) (s.ins.take s.size).flatten),
     ("data_output", vector2json (realCodec K) (s.outs.take s.size).flatten)]
  else [("data", vector2json (realCodec K) (s.ins.take s.size).flatten)]

/-- the file, from what the user knows of the phrase -/
def jsonOf [Field K] (s : S K) (label : String) (names : List String) : Json K := .obj
  ([("bimodal", .bool s.bimodal), ("dimension", .int (sint s.dim)), ("dimension_input", .int (sint s.di)),
    ("length", .int (sint s.size)), ("label", .str label)] ++
   (if names = [] then [] else [("column_names", .arr (names.map .str))]) ++ dataMembers s)

theorem toJson_of_rep [Field K] {p : Phrase K} {s : S K} (h : Rep p s) (hc : s.Coherent) :
    toJson p = some (jsonOf s p.label p.columnNames) := by
  have hsz := h.size
  cases hb : s.bimodal with
  | false =>
    obtain ⟨b0, l, _⟩ := h.uni hb
    have e0 := block_json b0 s.size (by simp [S.size, hb])
    simp only [toJson, h.bim, hb, Bool.false_eq_true, if_false, hsz, h.dim, e0, jsonOf, dataMembers, jsonHead, h.di,
      Option.bind_eq_bind, Option.bind_some]
    rfl
  | true =>
    obtain ⟨b0, b1, _⟩ := h.bi hb
    have e0 := block_json b0 s.size (by simp [S.size, hb])
    have e1 := block_json b1 s.size (by simp [S.size, hb])
    simp only [toJson, h.bim, hb, if_true, hsz, h.dim, h.outDim_eq hb hc, e0, e1, jsonOf, dataMembers, jsonHead, h.di,
      Option.bind_eq_bind, Option.bind_some]
    rfl

section keys
variable [Field K] (s : S K) (label : String) (names : List String)

theorem jsonOf_bimodal (d : Json K) : (jsonOf s label names).getOr "bimodal" d = .ok (.bool s.bimodal) := by
  simp [jsonOf, Json.getOr, Json.member, List.find?]

theorem jsonOf_dimension (d : Json K) : (jsonOf s label names).getOr "dimension" d = .ok (.int (sint s.dim)) := by
  simp [jsonOf, Json.getOr, Json.member, List.find?]

theorem jsonOf_dimension_input (d : Json K) :
    (jsonOf s label names).getOr "dimension_input" d = .ok (.int (sint s.di)) := by
  simp [jsonOf, Json.getOr, Json.member, List.find?]

theorem jsonOf_length (d : Json K) : (jsonOf s label names).getOr "length" d = .ok (.int (sint s.size)) := by
  simp [jsonOf, Json.getOr, Json.member, List.find?]

theorem jsonOf_label : (jsonOf s label names).getKey "label" = .ok (.str label) := by
  simp [jsonOf, Json.getKey, Json.member, List.find?]

theorem jsonOf_names : (jsonOf s label names).getKey "column_names" =
    .ok (if names = [] then .null else .arr (names.map .str)) := by
  by_cases hn : names = []
  · cases hb : s.bimodal <;> simp [jsonOf, Json.getKey, Json.member, List.find?, dataMembers, hn, hb]
  · simp [jsonOf, Json.getKey, Json.member, List.find?, hn]

theorem jsonOf_data (hb : s.bimodal = false) : (jsonOf s label names).getKey "data" =
    .ok (vector2json (realCodec K) (s.ins.take s.size).flatten) := by
  by_cases hn : names = [] <;> simp [jsonOf, Json.getKey, Json.member, List.find?, dataMembers, hn, hb]

theorem jsonOf_data_input (hb : s.bimodal = true) : (jsonOf s label names).getKey "data_input" =
    .ok (vector2json (realCodec K) (s.ins.take s.size).flatten) := by
  by_cases hn : names = [] <;> simp [jsonOf, Json.getKey, Json.member, List.find?, dataMembers, hn, hb]

theorem jsonOf_data_output (hb : s.bimodal = true) : (jsonOf s label names).getKey "data_output" =
    .ok (vector2json (realCodec K) (s.outs.take s.size).flatten) := by
  by_cases hn : names = [] <;> simp [jsonOf, Json.getKey, Json.member, List.find?, dataMembers, hn, hb]

end keys

/-- the frames fill a block exactly -/
theorem block_exact {d : Nat} {fs : List (List K)} (h : ∀ f ∈ fs, f.length = d) :
    Block (.cells (fs.flatten.map some)) d fs.length fs := by
  refine ⟨h, Nat.le_refl _, Or.inr ⟨_, rfl, ?_, ?_⟩⟩
  · rw [List.length_map, flatten_length_uniform h]
  · rw [List.take_of_length_le]
    rw [List.length_map, flatten_length_uniform h]

/-- the phrase restored from the file -/
def restored (s : S K) (label : String) (names : List String) : Phrase K :=
  { blank K s.bimodal s.dim s.di with
    columnNames := names ++ List.replicate (s.dim - names.length) "", label := label, length := s.size,
    maxLength := s.size, inputLength := s.size, outputLength := s.size, empty := s.size == 0,
    data0 := .cells ((s.ins.take s.size).flatten.map some),
    data1 := if s.bimodal then .cells ((s.outs.take s.size).flatten.map some) else .garbage }

/-- what the frames of a phrase satisfy in every reachable state -/
structure WellSized (s : S K) : Prop where
  dim : (if s.bimodal then 2 else 1) ≤ s.dim
  uni : s.bimodal = false → (∀ f ∈ s.ins, f.length = s.dim) ∧ s.outs = []
  bi : s.bimodal = true → (∀ f ∈ s.ins, f.length = s.di) ∧ ∀ f ∈ s.outs, f.length = s.dim - s.di

theorem rep_restored {s : S K} (hw : WellSized s) (label : String) (names : List String) :
    Rep (restored s label names) s.saved := by
  have t1 : (s.ins.take s.size).length = s.size := by
    rw [List.length_take]; unfold S.size; split <;> omega
  constructor
  · rfl
  · rfl
  · rfl
  · rfl
  · rfl
  · rfl
  · rfl
  · rfl
  · intro hb
    have hb : s.bimodal = false := hb
    obtain ⟨h1, h2⟩ := hw.uni hb
    refine ⟨?_, t1.symm, ?_⟩
    · have := block_exact (fs := s.ins.take s.size) (d := s.dim) fun f hf => h1 f (List.mem_of_mem_take hf)
      rw [t1] at this
      exact this
    · simp [S.saved, h2]
  · intro hb
    have hb : s.bimodal = true := hb
    obtain ⟨h1, h2⟩ := hw.bi hb
    have t2 : (s.outs.take s.size).length = s.size := by
      rw [List.length_take]; unfold S.size; rw [if_pos hb]; omega
    have e1 := block_exact (fs := s.ins.take s.size) (d := s.di) fun f hf => h1 f (List.mem_of_mem_take hf)
    have e2 := block_exact (fs := s.outs.take s.size) (d := s.dim - s.di) fun f hf => h2 f (List.mem_of_mem_take hf)
    rw [t1] at e1
    rw [t2] at e2
    refine ⟨e1, ?_, t1.symm, t2.symm, ?_, ?_⟩
    · simpa [restored, hb, S.saved] using e2
    · simp [restored, S.saved, t1, t2]
    · simp [restored, S.saved, t1, t2]

theorem wellSized_of_rep {p : Phrase K} {s : S K} (h : Rep p s) (hd : (if s.bimodal then 2 else 1) ≤ s.dim) : WellSized s :=
  ⟨hd, fun hb => ⟨(h.uni hb).1.uni, (h.uni hb).2.2⟩, fun hb => ⟨(h.bi hb).1.uni, (h.bi hb).2.1.uni⟩⟩

section read
variable [Field K] [DecidableEq K] [JsonReal K] {σ : Type}

theorem readDims_ok {s : S K} (hw : WellSized s) (hc : s.Coherent) (hf : s.Fits) (hu : s.bimodal = false → s.di = 0)
    (label : String) (names : List String) (st : σ) :
    readDims (jsonOf s label names) st = .ret (blank K s.bimodal s.dim s.di) st := by
  have hdi : s.di ≤ uintMax := by
    cases hb : s.bimodal with
    | false => rw [hu hb]; exact Nat.zero_le _
    | true => have := hc hb; have := hf.1; omega
  unfold readDims
  rw [jsonOf_bimodal, bind_of_ret (liftE_ok _ _), show (Json.bool s.bimodal : Json K).asBool = .ok s.bimodal from rfl,
    bind_of_ret (liftE_ok _ _), jsonOf_dimension, bind_of_ret (liftE_ok _ _), SharedParams.asInt_sint hf.1,
    bind_of_ret (liftE_ok _ _), SharedParams.uint_sint hf.1, if_neg (by have := hw.dim; omega)]
  rw [jsonOf_dimension_input, bind_of_ret (liftE_ok _ _), SharedParams.asInt_sint hdi,
    bind_of_ret (liftE_ok _ _), SharedParams.uint_sint hdi, if_neg ?_]
  · rfl
  · cases hb : s.bimodal with
    | false => simp [hu hb]
    | true => have := hc hb; simp; omega

theorem readNames_json {σ : Type} (names : List String) (d : Nat) (hn : names.length ≤ d) (st : σ) :
    let node : Json K := if names = [] then .null else .arr (names.map .str)
    readNames node 0 node.size (List.replicate d "") st =
      .ret (names ++ List.replicate (d - names.length) "") st := by
  by_cases h : names = []
  · subst h
    simp [Json.size, readNames]
  · simp only [h, if_false, Json.size, List.length_map]
    rw [readNames_ok names st names.length 0 (List.replicate d "") (by omega) (by simpa using hn) (by simp)]
    simp

theorem ofJson_ok {s : S K} (hw : WellSized s) (hc : s.Coherent) (hf : s.Fits) (hu : s.bimodal = false → s.di = 0)
    (label : String) (names : List String) (hn : names.length ≤ s.dim) (st : σ) :
    ofJson (jsonOf s label names) st = .ret (restored s label names) st := by
  unfold ofJson
  rw [bind_of_ret (readDims_ok hw hc hf hu label names st), jsonOf_names, bind_of_ret (liftE_ok _ _)]
  refine (bind_of_ret (readNames_json names s.dim hn st)).trans ?_
  rw [jsonOf_label, bind_of_ret (liftE_ok _ _), show (Json.str label : Json K).asString = .ok label from rfl,
    bind_of_ret (liftE_ok _ _), jsonOf_length, bind_of_ret (liftE_ok _ _), SharedParams.asInt_sint hf.2,
    bind_of_ret (liftE_ok _ _), SharedParams.uint_sint hf.2]
  have t1 : s.size ≤ s.ins.length := by unfold S.size; split <;> omega
  unfold readData
  cases hb : s.bimodal with
  | false =>
    have l1 := flatten_take_length (hw.uni hb).1 s.size t1
    simp only [blank, Bool.false_eq_true, if_false]
    rw [jsonOf_data _ _ _ hb, bind_of_ret (liftE_ok _ _)]
    refine (bind_of_ret (readBlock_ok _ _ l1 st)).trans ?_
    simp [restored, blank, hb]
  | true =>
    have t2 : s.size ≤ s.outs.length := by unfold S.size; rw [if_pos hb]; omega
    have l1 := flatten_take_length (hw.bi hb).1 s.size t1
    have l2 := flatten_take_length (hw.bi hb).2 s.size t2
    have ho : s.dim - s.di = (blank K true s.dim s.di).outDim := by
      have := hc hb
      simp only [blank, outDim]; rw [if_pos (by omega)]
    simp only [blank, if_true]
    rw [jsonOf_data_input _ _ _ hb, bind_of_ret (liftE_ok _ _)]
    refine (bind_of_ret (readBlock_ok _ _ l1 st)).trans ?_
    rw [jsonOf_data_output _ _ _ hb, bind_of_ret (liftE_ok _ _)]
    refine (bind_of_ret (readBlock_ok _ _ (l2.trans (congrArg (s.size * ·) ho)) st)).trans ?_
    simp [restored, blank, hb]

end read

theorem step_dim (s : S K) (h : (if s.bimodal then 2 else 1) ≤ s.dim) (op : Op K) :
    (if (s.step op).1.bimodal then 2 else 1) ≤ (s.step op).1.dim := by
  rw [PhraseSpec.step_bimodal]
  revert h
  generalize hm : (if s.bimodal then 2 else 1) = m
  intro h
  cases op <;> simp only [S.step, hm] <;> (repeat' split) <;> first | exact h | (simp only; omega)

theorem run_dim (ops : List (Op K)) : ∀ s : S K, (if s.bimodal then 2 else 1) ≤ s.dim →
    (if (S.run ops s).1.bimodal then 2 else 1) ≤ (S.run ops s).1.dim := by
  induction ops with
  | nil => exact fun s h => h
  | cons op ops ih => exact fun s h => ih _ (step_dim s h op)

theorem new_dim (b : Bool) : (if (PhraseSpec.new K b).bimodal then 2 else 1) ≤ (PhraseSpec.new K b).dim := by
  cases b <;> simp [PhraseSpec.new]

theorem saved_coherent {s : S K} (h : s.Coherent) : s.saved.Coherent := h

/-- the label and the names play no part in the frames -/
theorem Rep.named {p : Phrase K} {s : S K} (h : Rep p s) (label : String) (names : List String) :
    Rep { p with label := label, columnNames := names } s :=
  ⟨h.own, h.bim, h.dim, h.di, h.dmin, h.diMin, h.diMax, h.nogarbage, h.uni, h.bi⟩

theorem saved_value (s : S K) (t d : Nat) (ht : t < s.size) : s.saved.value t d = s.value t d := by
  have h1 : ∀ l : List (List K), (l.take s.size)[t]? = l[t]? := fun l => by rw [List.getElem?_take, if_pos ht]
  simp only [S.value, S.saved, h1]

/-- every read of a restored phrase answers as the read of the phrase it was saved from -/
theorem reads_saved {p q : Phrase K} {s : S K} (hp : Rep p s) (hq : Rep q s.saved) (hc : s.Coherent) (t d : Nat)
    (ht : t < p.length) : (Phrase.getValue t d q).answer = (Phrase.getValue t d p).answer := by
  rw [hp.getValue hc, hq.getValue (saved_coherent hc)]
  simp only [expectedRead, saved_value s t d (hp.size ▸ ht)]
  cases s.value t d <;> rfl

theorem saved_size (s : S K) : s.saved.size = s.size := by
  have h : ∀ n, s.size = n → s.saved.size = n := by
    intro n hn
    have hs : s.saved.size = if s.bimodal then min (s.ins.take s.size).length (s.outs.take s.size).length
      else (s.ins.take s.size).length := rfl
    rw [hs, hn]
    unfold S.size at hn
    cases hb : s.bimodal <;> simp [hb] at hn ⊢ <;> omega
  exact h _ rfl

/-- C25 (phrases): let a phrase be built by any history of calls that keeps the input dimension below the dimension (and, for a
    unimodal phrase, at 0), with any label and at most as many column names as dimensions.  Then `toJson` succeeds, the JSON
    constructor accepts the file and gives a phrase in own memory with the same modality, dimensions, size and label, with the same
    names (completed with empty names), whose every value is the same, and from then on every history of calls on it behaves as
    specified for a phrase holding these frames. -/
theorem C25_phrase_partial [Field K] [DecidableEq K] [JsonReal K] {σ : Type} (b : Bool) (ops : List (Op K))
    (ha : S.Admissible ops (PhraseSpec.new K b)) (label : String) (names : List String)
    (hfits : (S.run ops (PhraseSpec.new K b)).1.Fits)
    (hnames : names.length ≤ (S.run ops (PhraseSpec.new K b)).1.dim)
    (huni : b = false → (S.run ops (PhraseSpec.new K b)).1.di = 0) :
    let s := (S.run ops (PhraseSpec.new K b)).1
    ∃ p0 es, Phrase.run ops (construct K true b) = some (p0, es) ∧
    let p := { p0 with label := label, columnNames := names }
    ∃ root, toJson p = some root ∧ ∃ q : Phrase K, (∀ st : σ, ofJson root st = .ret q st) ∧
      q.ownMemory = true ∧ q.bimodal = p.bimodal ∧ q.dimension = p.dimension ∧ q.dimensionInput = p.dimensionInput ∧
      q.length = p.length ∧ q.label = p.label ∧ q.empty = (q.length == 0) ∧
      q.columnNames = p.columnNames ++ List.replicate (p.dimension - p.columnNames.length) "" ∧
      (∀ t d, t < p.length → (Phrase.getValue t d q).answer = (Phrase.getValue t d p).answer) ∧
      (∀ t d, p.length ≤ t → (Phrase.getValue t d q).answer = some (.error .outOfRange)) ∧
      ∀ later, S.Admissible later s.saved → ∃ q', Phrase.run later q = some (q', (S.run later s.saved).2) ∧
        Reads q' (S.run later s.saved).1 := by
  intro s
  obtain ⟨p0, e0, r0, c0⟩ := Phrase.reach b ops ha
  have hbm : s.bimodal = b := by
    rw [show s.bimodal = _ from run_bimodal ops _]; cases b <;> rfl
  have hw : WellSized s := wellSized_of_rep r0 (run_dim ops _ (new_dim b))
  have rq := rep_restored hw label names
  have rp := r0.named label names
  refine ⟨p0, _, e0, _, toJson_of_rep rp c0, restored s label names,
    fun st => ofJson_ok hw c0 hfits (fun h => huni (hbm.symm.trans h)) label names hnames st,
    rfl, r0.bim.symm, r0.dim.symm, r0.di.symm, r0.size.symm, rfl, rfl, ?_, ?_, ?_, ?_⟩
  · show names ++ _ = names ++ List.replicate (p0.dimension - names.length) ""
    rw [r0.dim]
  · exact fun t d ht => reads_saved rp rq c0 t d ht
  · intro t d ht
    have hp : p0.length = s.size := r0.size
    have ht' : s.size ≤ t := hp ▸ ht
    have hv : s.saved.value t d = none := by
      have h1 : ∀ l : List (List K), (l.take s.size)[t]? = none := fun l => by
        rw [List.getElem?_take, if_neg (by omega)]
      simp [S.value, S.saved, h1]
    rw [rq.getValue (saved_coherent c0)]
    simp only [expectedRead, hv]
    rfl
  · intro later hl
    obtain ⟨q', e1, r1, c1⟩ := rq.run (saved_coherent c0) later hl
    exact ⟨q', e1, reads_of_rep r1 c1⟩

theorem copy_same {p q : Phrase K} (h : Phrase.copy p = some q) : ∃ a b, q = { p with data0 := a, data1 := b } := by
  unfold Phrase.copy at h
  split at h
  · split at h
    · obtain ⟨d0, -, h⟩ := Option.bind_eq_some_iff.1 h
      split at h
      · obtain ⟨d1, -, h⟩ := Option.bind_eq_some_iff.1 h
        exact ⟨d0, d1, (Option.some.inj h).symm⟩
      · exact ⟨d0, _, (Option.some.inj h).symm⟩
    · exact ⟨_, _, (Option.some.inj h).symm⟩
  · cases h

theorem destroy_of_rep {p : Phrase K} {s : S K} (h : Rep p s) : p.destroy = true := by
  unfold Phrase.destroy
  rw [if_pos h.own, h.nogarbage]
  by_cases hb : p.bimodal = true
  · rw [HPhrase.rep_garbage h hb]; simp
  · simp [hb]

/-- C25 (`fromJson` on an existing phrase): if at least one complete frame was saved, `fromJson` replaces whatever the phrase held by
    the saved phrase. -/
theorem C25_phrase_fromJson_partial [Field K] [DecidableEq K] [JsonReal K] (b : Bool) (ops : List (Op K))
    (ha : S.Admissible ops (PhraseSpec.new K b)) (label : String) (names : List String)
    (hfits : (S.run ops (PhraseSpec.new K b)).1.Fits)
    (hnames : names.length ≤ (S.run ops (PhraseSpec.new K b)).1.dim)
    (huni : b = false → (S.run ops (PhraseSpec.new K b)).1.di = 0)
    (hdata : 0 < (S.run ops (PhraseSpec.new K b)).1.size)
    (b' : Bool) (ops' : List (Op K)) (ha' : S.Admissible ops' (PhraseSpec.new K b')) :
    let s := (S.run ops (PhraseSpec.new K b)).1
    ∃ p0 es, Phrase.run ops (construct K true b) = some (p0, es) ∧
    ∃ dst es', Phrase.run ops' (construct K true b') = some (dst, es') ∧
    let p := { p0 with label := label, columnNames := names }
    ∃ root q, toJson p = some root ∧ fromJson root dst = .ret () q ∧
      q.ownMemory = true ∧ q.bimodal = p.bimodal ∧ q.dimension = p.dimension ∧ q.dimensionInput = p.dimensionInput ∧
      q.length = p.length ∧ q.label = p.label ∧ q.empty = false ∧
      q.columnNames = p.columnNames ++ List.replicate (p.dimension - p.columnNames.length) "" ∧
      (∀ t d, t < p.length → (Phrase.getValue t d q).answer = (Phrase.getValue t d p).answer) ∧
      q.destroy = true ∧
      ∀ later, S.Admissible later s.saved → ∃ q', Phrase.run later q = some (q', (S.run later s.saved).2) ∧
        Reads q' (S.run later s.saved).1 := by
  intro s
  obtain ⟨p0, e0, r0, c0⟩ := Phrase.reach b ops ha
  obtain ⟨dst, e1, r1, c1⟩ := Phrase.reach b' ops' ha'
  have hbm : s.bimodal = b := by
    rw [show s.bimodal = _ from run_bimodal ops _]; cases b <;> rfl
  have hw : WellSized s := wellSized_of_rep r0 (run_dim ops _ (new_dim b))
  have rq := rep_restored hw label names
  have rp := r0.named label names
  obtain ⟨q, hq, rq'⟩ := rq.copy (saved_coherent c0) hdata
  obtain ⟨x, y, hxy⟩ := copy_same hq
  refine ⟨p0, _, e0, dst, _, e1, _, q, toJson_of_rep rp c0, ?_, rq'.own, ?_, ?_, ?_, ?_, ?_, ?_, ?_, ?_, destroy_of_rep rq', ?_⟩
  · unfold fromJson
    rw [bind_of_ret (ofJson_ok hw c0 hfits (fun h => huni (hbm.symm.trans h)) label names hnames dst)]
    simp only [bind_def, get_def, destroy_of_rep r1, hq, destroy_of_rep rq, Bool.not_true, Bool.false_eq_true, if_false,
      if_true, set_def]
  · exact rq'.bim.trans r0.bim.symm
  · exact rq'.dim.trans r0.dim.symm
  · exact rq'.di.trans r0.di.symm
  · exact rq'.size.trans ((saved_size s).trans r0.size.symm)
  · rw [hxy]; rfl
  · rw [hxy]; show (s.size == 0) = false; simpa using Nat.pos_iff_ne_zero.1 hdata
  · rw [hxy]; show names ++ _ = names ++ List.replicate (p0.dimension - names.length) ""; rw [r0.dim]
  · exact fun t d ht => reads_saved rp rq' c0 t d ht
  · intro later hl
    obtain ⟨q', e1, r1, c1⟩ := rq'.run (saved_coherent c0) later hl
    exact ⟨q', e1, reads_of_rep r1 c1⟩

/-- The full statement fails (a defect) when no complete frame was saved: `fromJson` returns, but leaves uninitialised data pointers,
    which the destructor deletes. -/
theorem C25_phrase_fromJson_empty_violated [Field K] [DecidableEq K] [JsonReal K] (b : Bool) (ops : List (Op K))
    (ha : S.Admissible ops (PhraseSpec.new K b)) (label : String) (names : List String)
    (hfits : (S.run ops (PhraseSpec.new K b)).1.Fits)
    (hnames : names.length ≤ (S.run ops (PhraseSpec.new K b)).1.dim)
    (huni : b = false → (S.run ops (PhraseSpec.new K b)).1.di = 0)
    (hdata : (S.run ops (PhraseSpec.new K b)).1.size = 0) :
    ∃ p es, Phrase.run ops (construct K true b) = some (p, es) ∧
    ∃ root q, toJson { p with label := label, columnNames := names } = some root ∧
      fromJson root (construct K true b) = .ret () q ∧ q.destroy = false := by
  obtain ⟨p, e0, r0, c0⟩ := Phrase.reach b ops ha
  set s := (S.run ops (PhraseSpec.new K b)).1 with hs
  have hbm : s.bimodal = b := by
    rw [show s.bimodal = _ from run_bimodal ops _]; cases b <;> rfl
  have hw : WellSized s := wellSized_of_rep r0 (run_dim ops _ (new_dim b))
  have rq := rep_restored hw label names
  refine ⟨p, _, e0, _, { restored s label names with data0 := .garbage, data1 := .garbage },
    toJson_of_rep (r0.named label names) c0, ?_, ?_⟩
  · have hq : Phrase.copy (restored s label names) =
        some { restored s label names with data0 := .garbage, data1 := .garbage } := by
      unfold Phrase.copy
      rw [if_pos rq.own, if_neg (by show ¬ s.size > 0; omega)]
    unfold fromJson
    rw [bind_of_ret (ofJson_ok hw c0 hfits (fun h => huni (hbm.symm.trans h)) label names hnames _)]
    simp only [bind_def, get_def, destroy_of_rep (rep_construct b), hq, destroy_of_rep rq, Bool.not_true,
      Bool.false_eq_true, if_false, if_true, set_def]
  · simp [Phrase.destroy, restored, blank, Ptr.isGarbage]

/-- The full statement fails (a defect) for a unimodal phrase whose input dimension is not 0 (accepted by the attribute after the
    dimension has been set): the file written by `toJson` is refused by the JSON constructor. -/
theorem C25_phrase_unimodal_violated [Field K] [DecidableEq K] [JsonReal K] {σ : Type} (ops : List (Op K)) (label : String)
    (names : List String) (hfits : (S.run ops (PhraseSpec.new K false)).1.Fits)
    (hdi : 0 < (S.run ops (PhraseSpec.new K false)).1.di)
    (hdi' : (S.run ops (PhraseSpec.new K false)).1.di ≤ uintMax) :
    ∃ p es, Phrase.run ops (construct K true false) = some (p, es) ∧
    ∃ root, toJson { p with label := label, columnNames := names } = some root ∧
      ∀ st : σ, (ofJson root : Prog σ (Phrase K)) st = .throw .domainError st := by
  obtain ⟨p, e0, r0, c0⟩ := Phrase.reach false ops (PhraseSpec.admissible_unimodal _ rfl ops)
  set s := (S.run ops (PhraseSpec.new K false)).1 with hs
  have hbm : s.bimodal = false := run_bimodal ops _
  have hw : WellSized s := wellSized_of_rep r0 (run_dim ops _ (new_dim false))
  refine ⟨p, _, e0, _, toJson_of_rep (r0.named label names) c0, fun st => ?_⟩
  have h1 : readDims (jsonOf s label names) st = .throw .domainError st := by
    unfold readDims
    rw [jsonOf_bimodal, bind_of_ret (liftE_ok _ _), show (Json.bool s.bimodal : Json K).asBool = .ok s.bimodal from rfl,
      bind_of_ret (liftE_ok _ _), jsonOf_dimension, bind_of_ret (liftE_ok _ _), SharedParams.asInt_sint hfits.1,
      bind_of_ret (liftE_ok _ _), SharedParams.uint_sint hfits.1, if_neg (by have := hw.dim; omega)]
    rw [jsonOf_dimension_input, bind_of_ret (liftE_ok _ _), SharedParams.asInt_sint hdi',
      bind_of_ret (liftE_ok _ _), SharedParams.uint_sint hdi', if_pos (Or.inr (by simpa [hbm] using hdi))]
    rfl
  show ofJson (jsonOf s label names) st = _
  unfold ofJson
  rw [bind_def, h1]

/-- The full statement fails (a defect) for a phrase with more column names than dimensions (`column_names` is a public vector): the
    JSON constructor writes outside its own vector of names. -/
theorem C25_phrase_names_ub [Field K] [DecidableEq K] [JsonReal K] {σ : Type} (b : Bool) (ops : List (Op K))
    (ha : S.Admissible ops (PhraseSpec.new K b)) (label : String) (names : List String)
    (hfits : (S.run ops (PhraseSpec.new K b)).1.Fits)
    (hnames : (S.run ops (PhraseSpec.new K b)).1.dim < names.length)
    (huni : b = false → (S.run ops (PhraseSpec.new K b)).1.di = 0) :
    ∃ p es, Phrase.run ops (construct K true b) = some (p, es) ∧
    ∃ root, toJson { p with label := label, columnNames := names } = some root ∧
      ∀ st : σ, (ofJson root : Prog σ (Phrase K)) st = .ub := by
  obtain ⟨p, e0, r0, c0⟩ := Phrase.reach b ops ha
  set s := (S.run ops (PhraseSpec.new K b)).1 with hs
  have hbm : s.bimodal = b := by
    rw [show s.bimodal = _ from run_bimodal ops _]; cases b <;> rfl
  have hw : WellSized s := wellSized_of_rep r0 (run_dim ops _ (new_dim b))
  refine ⟨p, _, e0, _, toJson_of_rep (r0.named label names) c0, fun st => ?_⟩
  show ofJson (jsonOf s label names) st = _
  have hne : names ≠ [] := by rintro rfl; simp at hnames
  unfold ofJson
  rw [bind_of_ret (readDims_ok hw c0 hfits (fun h => huni (hbm.symm.trans h)) label names st), jsonOf_names,
    bind_of_ret (liftE_ok _ _), if_neg hne]
  have h1 := readNames_ub (K := K) names st names.length 0 (List.replicate s.dim "") (by omega) (by omega)
    (by simpa using hnames)
  have h2 : (Json.arr (names.map .str) : Json K).size = names.length := by simp [Json.size]
  rw [bind_def, h2, show (blank K s.bimodal s.dim s.di).dimension = s.dim from rfl, h1]

/-- non-vacuity of the round trip: a bimodal phrase of 3 dimensions, two complete frames and a third one without output -/
example : let ops : List (Op ℚ) := [.setDimension 3, .setDimensionInput 1, .record [1, 2, 3], .record [4, 5, 6], .recordInput [7]]
    let s := (S.run ops (PhraseSpec.new ℚ true)).1
    S.Admissible ops (PhraseSpec.new ℚ true) ∧ s.Fits ∧ s.size = 2 ∧ ["x", "y"].length ≤ s.dim ∧
    s.saved.ins = [[1], [4]] ∧ s.saved.outs = [[2, 3], [5, 6]] := by
  refine ⟨?_, ?_, ?_, ?_, ?_, ?_⟩ <;> simp [S.Admissible, S.step, S.run, PhraseSpec.new, S.Coherent, S.Fits, S.size, uintMax, S.saved]

/-- non-vacuity: a unimodal phrase of 2 dimensions -/
example : let ops : List (Op ℚ) := [.setDimension 2, .record [1, 2], .record [4, 5]]
    let s := (S.run ops (PhraseSpec.new ℚ false)).1
    S.Admissible ops (PhraseSpec.new ℚ false) ∧ s.Fits ∧ s.size = 2 ∧ s.di = 0 := by
  refine ⟨?_, ?_, ?_, ?_⟩ <;> simp [S.Admissible, S.step, S.run, PhraseSpec.new, S.Coherent, S.Fits, S.size, uintMax]

/-- non-vacuity: the input dimension of a unimodal phrase can be set -/
example : let ops : List (Op ℚ) := [.setDimension 2, .setDimensionInput 1, .record [1, 2]]
    let s := (S.run ops (PhraseSpec.new ℚ false)).1
    s.Fits ∧ 0 < s.di ∧ s.di ≤ uintMax ∧ (S.run ops (PhraseSpec.new ℚ false)).2 = [none, none, none] := by
  refine ⟨?_, ?_, ?_, ?_⟩ <;> simp [S.step, S.run, PhraseSpec.new, S.Fits, S.size, uintMax]

end Phrase
end Xmm
