import Verif.Spec.Rewritten
import Verif.Model.TrainingSetJson
import Verif.Model.ModelLoad
import Verif.Model.HmmLoad
import Mathlib.Algebra.CharZero.Defs
import Mathlib.Algebra.Order.Field.Rat
/- C99: a file written by another JSON writer loads the same. -/
namespace Xmm
open Json
variable {K : Type}

section values
variable [Field K] {v v' : Json K} {z : Int}

theorem Json.Writes.asReal (h : Writes v z) : v.asReal = .ok (z : K) := by
  cases h <;> simp [Json.asReal]

theorem Json.Writes.asBool [CharZero K] [DecidableEq K] (h : Writes v z) : v.asBool = .ok (decide (z ≠ 0)) := by
  cases h <;> simp [Json.asBool]

theorem Json.Writes.asInt [JsonReal K] (ht : TruncatesWhole K) (h : Writes v z) :
    v.asInt = if -2147483648 ≤ z ∧ z ≤ 2147483647 then .ok z else .error .jsonLogicError := by
  cases h with
  | integer => rfl
  | real =>
    rw [Json.asInt, ht z]
    by_cases hz : -2147483648 ≤ z ∧ z ≤ 2147483647
    · rw [if_pos hz, if_pos hz]
    · rw [if_neg hz, if_neg hz]
  | yes => simp [Json.asInt]
  | no => simp [Json.asInt]

theorem Json.Rewritten.asReal (h : Rewritten v v') : v.asReal = v'.asReal := by
  cases h with
  | whole a b => rw [a.asReal, b.asReal]
  | _ => rfl

theorem Json.Rewritten.asFloat (h : Rewritten v v') (nar : K → K) : v.asFloat nar = v'.asFloat nar := by
  rw [Json.asFloat, Json.asFloat, h.asReal]

theorem Json.Rewritten.asBool [CharZero K] [DecidableEq K] (h : Rewritten v v') : v.asBool = v'.asBool := by
  cases h with
  | whole a b => rw [a.asBool, b.asBool]
  | _ => rfl

theorem Json.Rewritten.asInt [JsonReal K] (ht : TruncatesWhole K) (h : Rewritten v v') : v.asInt = v'.asInt := by
  cases h with
  | whole a b => rw [a.asInt ht, b.asInt ht]
  | _ => rfl

/-- the same exception, or rewritten values -/
inductive Json.Both [IntCast K] : Except Exn (Json K) → Except Exn (Json K) → Prop
  | error (e : Exn) : Both (.error e) (.error e)
  | ok {v v' : Json K} : Rewritten v v' → Both (.ok v) (.ok v')

theorem Json.Writes.member (h : Writes v z) (key : String) : v.member key = .error .jsonLogicError := by
  cases h <;> rfl

/-- what `find` gives -/
inductive Json.Found [IntCast K] (key : String) : Option (Json K) → Option (Json K) → Prop
  | none : Found key none none
  | text (v : Json K) : key ∈ textKeys → Found key (some v) (some v)
  | some {v v' : Json K} : key ∉ textKeys → Rewritten v v' → Found key (some v) (some v')

theorem Json.RewrittenMembers.find {m m' : List (String × Json K)} (h : RewrittenMembers m m') (key : String) :
    Found key (m.find? (fun e => e.1 = key) |>.map Prod.snd) (m'.find? (fun e => e.1 = key) |>.map Prod.snd) := by
  induction m generalizing m' with
  | nil => cases h; exact .none
  | cons e m ih =>
    cases h with
    | @text k v _ m'' ht hm =>
      by_cases hk : k = key
      · simp only [List.find?_cons, hk, decide_true, Option.map_some]; exact .text v (hk ▸ ht)
      · simp only [List.find?_cons, hk, decide_false]; exact ih hm
    | @other k v v' _ m'' ht hv hm =>
      by_cases hk : k = key
      · simp only [List.find?_cons, hk, decide_true, Option.map_some]; exact .some (hk ▸ ht) hv
      · simp only [List.find?_cons, hk, decide_false]; exact ih hm

/-- `isMember` and the members -/
theorem Json.Rewritten.member (h : Rewritten v v') (key : String) :
    (∃ e, v.member key = .error e ∧ v'.member key = .error e) ∨ ∃ o o', v.member key = .ok o ∧ v'.member key = .ok o' ∧ Found key o o' := by
  cases h with
  | null => exact .inr ⟨none, none, rfl, rfl, .none⟩
  | str s => exact .inl ⟨_, rfl, rfl⟩
  | real x => exact .inl ⟨_, rfl, rfl⟩
  | whole a b => exact .inl ⟨_, a.member key, b.member key⟩
  | arr => exact .inl ⟨_, rfl, rfl⟩
  | obj hm => exact .inr ⟨_, _, rfl, rfl, hm.find key⟩

theorem Json.Rewritten.getKey (h : Rewritten v v') {key : String} (hk : key ∉ textKeys) : Both (v.getKey key) (v'.getKey key) := by
  rcases h.member key with ⟨e, h1, h2⟩ | ⟨o, o', h1, h2, hf⟩
  · rw [Json.getKey, Json.getKey, h1, h2]; exact .error e
  · rw [Json.getKey, Json.getKey, h1, h2]
    cases hf with
    | none => exact .ok .null
    | text v ht => exact absurd ht hk
    | some _ hv => exact .ok hv

theorem Json.Rewritten.getText (h : Rewritten v v') {key : String} (hk : key ∈ textKeys) : v.getKey key = v'.getKey key := by
  rcases h.member key with ⟨e, h1, h2⟩ | ⟨o, o', h1, h2, hf⟩
  · rw [Json.getKey, Json.getKey, h1, h2]
  · rw [Json.getKey, Json.getKey, h1, h2]
    cases hf with
    | none => rfl
    | text v ht => rfl
    | some ht _ => exact absurd hk ht

theorem Json.Rewritten.getOr (h : Rewritten v v') {key : String} (hk : key ∉ textKeys) {d : Json K} (hd : Rewritten d d) : Both (v.getOr key d) (v'.getOr key d) := by
  rcases h.member key with ⟨e, h1, h2⟩ | ⟨o, o', h1, h2, hf⟩
  · rw [Json.getOr, Json.getOr, h1, h2]; exact .error e
  · rw [Json.getOr, Json.getOr, h1, h2]
    cases hf with
    | none => exact .ok hd
    | text v ht => exact absurd ht hk
    | some _ hv => exact .ok hv

theorem Json.RewrittenList.getElem {l l' : List (Json K)} (h : RewrittenList l l') (i : Nat) :
    Rewritten (match l[i]? with | some v => v | none => .null) (match l'[i]? with | some v => v | none => .null) := by
  induction l generalizing l' i with
  | nil => cases h; exact .null
  | cons v l ih =>
    cases h with
    | cons hv hl =>
      cases i with
      | zero => exact hv
      | succ i => simpa using ih hl i

theorem Json.Rewritten.getIndex (h : Rewritten v v') (i : Nat) : Both (v.getIndex i) (v'.getIndex i) := by
  cases h with
  | null => exact .ok .null
  | arr hl => exact .ok (hl.getElem i)
  | whole a b => cases a <;> cases b <;> exact .error _
  | _ => exact .error _

theorem Json.RewrittenList.length {l l' : List (Json K)} (h : RewrittenList l l') : l.length = l'.length := by
  induction l generalizing l' with
  | nil => cases h; rfl
  | cons v l ih => cases h with | cons hv hl => simp [ih hl]

theorem Json.RewrittenMembers.values {m m' : List (String × Json K)} (h : RewrittenMembers m m') (hr : ∀ v ∈ m.map Prod.snd, Rewritten v v) :
    RewrittenList (m.map Prod.snd) (m'.map Prod.snd) := by
  induction m generalizing m' with
  | nil => cases h; exact .nil
  | cons e m ih =>
    cases h with
    | text v ht hm => exact .cons (hr _ (by simp)) (ih hm fun v hv => hr v (by simp at hv ⊢; exact .inr hv))
    | other ht hv hm => exact .cons hv (ih hm fun v hv => hr v (by simp at hv ⊢; exact .inr hv))

mutual
theorem Json.Rewritten.rfl' : ∀ v : Json K, Rewritten v v
  | .null => .null
  | .bool true => .whole .yes .yes
  | .bool false => .whole .no .no
  | .int z => .whole (.integer z) (.integer z)
  | .real x => .real x
  | .str s => .str s
  | .arr l => .arr (Json.RewrittenList.rfl' l)
  | .obj m => .obj (Json.RewrittenMembers.rfl' m)
theorem Json.RewrittenList.rfl' : ∀ l : List (Json K), RewrittenList l l
  | [] => .nil
  | v :: l => .cons (Json.Rewritten.rfl' v) (Json.RewrittenList.rfl' l)
theorem Json.RewrittenMembers.rfl' : ∀ m : List (String × Json K), RewrittenMembers m m
  | [] => .nil
  | (k, v) :: m => by
    by_cases hk : k ∈ textKeys
    · exact .text v hk (Json.RewrittenMembers.rfl' m)
    · exact .other hk (Json.Rewritten.rfl' v) (Json.RewrittenMembers.rfl' m)
end

theorem Json.Rewritten.elements (h : Rewritten v v') : RewrittenList v.elements v'.elements := by
  cases h with
  | arr hl => exact hl
  | obj hm => exact hm.values fun v _ => .rfl' v
  | whole a b => cases a <;> cases b <;> exact .nil
  | _ => exact .nil

theorem Json.Rewritten.names (h : Rewritten v v') : Configuration.memberNames v = Configuration.memberNames v' := by
  cases h with
  | @obj m m' hm =>
    simp only [Configuration.memberNames, Except.ok.injEq]
    induction m generalizing m' with
    | nil => cases hm; rfl
    | cons e m ih => cases hm with
      | text v ht hm => simp [ih hm]
      | other ht hv hm => simp [ih hm]
  | whole a b => cases a <;> cases b <;> rfl
  | _ => rfl

/-- a key of class parameters may be "label" -/
theorem Json.Rewritten.getAny (h : Rewritten v v') (key : String) : Both (v.getKey key) (v'.getKey key) := by
  by_cases hk : key ∈ textKeys
  · rw [h.getText hk]
    cases v'.getKey key with
    | error e => exact .error e
    | ok v => exact .ok (.rfl' v)
  · exact h.getKey hk

end values

section steps
variable [Field K] {σ α : Type} {v v' : Json K} {x x' : Except Exn (Json K)}

theorem Json.Both.bind {f f' : Json K → Prog σ α} (h : Both x x') (hf : ∀ v v', Rewritten v v' → f v = f' v') : (liftE x >>= f) = (liftE x' >>= f') := by
  cases h with
  | error e => rfl
  | ok hv => exact hf _ _ hv

/-- reading a number or a flag -/
theorem Json.Both.step {β : Type} {g : Json K → Except Exn β} {f f' : β → Prog σ α} (h : Both x x') (hg : ∀ v v', Rewritten v v' → g v = g v') (hf : ∀ b, f b = f' b) :
    (liftE x >>= fun j => liftE (g j) >>= f) = (liftE x' >>= fun j => liftE (g j) >>= f') :=
  h.bind fun v v' hv => by rw [hg v v' hv, funext hf]

theorem bind_same {β : Type} {p : Prog σ β} {f f' : β → Prog σ α} (hf : ∀ b, f b = f' b) : (p >>= f) = (p >>= f') := by
  rw [funext hf]

theorem readLoop_rewritten {T : Type} (c : JsonCodec K T) (hc : ∀ v v', Rewritten v v' → c.dec v = c.dec v') {l l' : List (Json K)} (h : RewrittenList l l') (i : Nat) :
    readLoop c l i = readLoop c l' i := by
  induction l generalizing l' i with
  | nil => cases h; rfl
  | cons v l ih =>
    cases h with
    | cons hv hl =>
      rw [readLoop, readLoop, hc _ _ hv, ih hl]

theorem json2array_rewritten {T : Type} (c : JsonCodec K T) (hc : ∀ v v', Rewritten v v' → c.dec v = c.dec v') (h : Rewritten v v') (n : Nat) :
    json2array c v n = json2array c v' n := by
  cases h with
  | arr hl => simp only [json2array, hl.length, readLoop_rewritten c hc hl]
  | whole a b => cases a <;> cases b <;> rfl
  | obj => rfl
  | _ => rfl

theorem readVector_rewritten (h : Rewritten v v') (n : Nat) (a : List K) : (Gauss.readVector v n a : Prog σ (List K)) = Gauss.readVector v' n a := by
  have : json2vector (realCodec K) v n = json2vector (realCodec K) v' n := by
    rw [json2vector, json2vector, json2array_rewritten _ (fun v v' hv => hv.asReal) h]
  funext s; rw [Gauss.readVector, Gauss.readVector, this]

theorem readBlock_rewritten (h : Rewritten v v') (n : Nat) : (Phrase.readBlock v n : Prog σ (Ptr K)) = Phrase.readBlock v' n := by
  have := json2array_rewritten (cellCodec K) (fun v v' hv => by simp only [cellCodec, hv.asReal]) h n
  funext s; rw [Phrase.readBlock, Phrase.readBlock, this]

end steps

section readers
variable [Field K] [CharZero K] [DecidableEq K] [JsonReal K] (ht : TruncatesWhole K) {root root' : Json K} (h : Rewritten root root')
include ht h

theorem Phrase.readDims_rewritten {σ : Type} : (Phrase.readDims root : Prog σ (Phrase K)) = Phrase.readDims root' := by
  unfold Phrase.readDims
  refine (h.getOr (by decide) (.rfl' _)).step (fun v v' hv => hv.asBool) fun b => ?_
  refine (h.getOr (by decide) (.rfl' _)).step (fun v v' hv => hv.asInt ht) fun d => ?_
  by_cases hd : uint d < (if b then 2 else 1)
  · rw [if_pos hd, if_pos hd]
  · rw [if_neg hd, if_neg hd]
    exact (h.getOr (by decide) (.rfl' _)).step (fun v v' hv => hv.asInt ht) fun k => rfl

omit [CharZero K] [DecidableEq K] [JsonReal K] ht in
theorem Phrase.readData_rewritten {σ : Type} (p : Phrase K) : (Phrase.readData root p : Prog σ (Phrase K)) = Phrase.readData root' p := by
  unfold Phrase.readData
  split
  · refine (h.getKey (by decide)).bind fun v v' hv => ?_
    rw [readBlock_rewritten hv]
    refine bind_same fun a => (h.getKey (by decide)).bind fun v v' hv => ?_
    rw [readBlock_rewritten hv]
  · refine (h.getKey (by decide)).bind fun v v' hv => ?_
    rw [readBlock_rewritten hv]

theorem Phrase.ofJson_rewritten {σ : Type} : (Phrase.ofJson root : Prog σ (Phrase K)) = Phrase.ofJson root' := by
  unfold Phrase.ofJson
  rw [Phrase.readDims_rewritten ht h]
  refine bind_same fun p => ?_
  rw [h.getText (by decide : "column_names" ∈ textKeys)]
  refine bind_same fun node => bind_same fun names => ?_
  rw [h.getText (by decide : "label" ∈ textKeys)]
  refine bind_same fun j => bind_same fun label => ?_
  refine (h.getOr (by decide) (.rfl' _)).step (fun v v' hv => hv.asInt ht) fun n => ?_
  exact Phrase.readData_rewritten h _

/-- A phrase -/
theorem C99_phrase : Phrase.fromJson root = Phrase.fromJson root' := by
  unfold Phrase.fromJson
  rw [Phrase.ofJson_rewritten ht h]

omit h in
theorem TS.loadPhrases_rewritten (i : Nat) {l l' : List (Json K)} (hl : RewrittenList l l') : TS.loadPhrases i l = TS.loadPhrases i l' := by
  induction l generalizing l' with
  | nil => cases hl; rfl
  | cons v l ih =>
    cases hl with
    | cons hv hl =>
      rw [TS.loadPhrases, TS.loadPhrases]
      refine (hv.getKey (by decide)).step (fun v v' hv => hv.asInt ht) fun k => ?_
      rw [Phrase.ofJson_rewritten ht hv, ih hl]

theorem TS.readJson_rewritten (i : Nat) (b : Bool) : TS.readJson i root b = TS.readJson i root' b := by
  unfold TS.readJson
  refine (h.getOr (by decide) (.rfl' _)).step (fun v v' hv => hv.asInt ht) fun d => bind_same fun _ => ?_
  refine (h.getOr (by decide) (.rfl' _)).step (fun v v' hv => hv.asInt ht) fun k => bind_same fun _ => bind_same fun t => ?_
  rw [h.getText (by decide : "column_names" ∈ textKeys)]
  refine bind_same fun node => bind_same fun names => bind_same fun _ => ?_
  refine (h.getKey (by decide)).bind fun v v' hv => ?_
  have e : RewrittenList (TS.elements v) (TS.elements v') := hv.elements
  rw [TS.loadPhrases_rewritten ht i e]

/-- A training set -/
theorem C99_training_set (i tmp : Nat) : TS.fromJson i root tmp = TS.fromJson i root' tmp := by
  have e : TS.ofJson tmp root = TS.ofJson tmp root' := by
    unfold TS.ofJson
    refine bind_same fun w => ?_
    cases w.sets tmp with
    | some => rfl
    | none =>
      refine (h.getOr (by decide) (.rfl' _)).step (fun v v' hv => hv.asBool) fun b => bind_same fun _ => ?_
      rw [TS.readJson_rewritten ht h]
  rw [TS.fromJson, TS.fromJson, e]

theorem Gauss.ofJson_rewritten {σ : Type} : (Gauss.ofJson root : Prog σ (Gauss K)) = Gauss.ofJson root' := by
  unfold Gauss.ofJson
  refine (h.getOr (by decide) (.rfl' _)).step (fun v v' hv => hv.asBool) fun b => ?_
  refine (h.getOr (by decide) (.rfl' _)).step (fun v v' hv => hv.asInt ht) fun d => ?_
  refine (h.getOr (by decide) (.rfl' _)).step (fun v v' hv => hv.asInt ht) fun k => ?_
  refine (h.getKey (by decide)).step (fun v v' hv => hv.asInt ht) fun code => bind_same fun mode => ?_
  refine (h.getKey (by decide)).bind fun v v' hv => ?_
  rw [readVector_rewritten hv]
  refine bind_same fun mean => (h.getKey (by decide)).bind fun v v' hv => ?_
  rw [readVector_rewritten hv]
  refine bind_same fun cov => (h.getKey (by decide)).bind fun v v' hv => ?_
  rw [readVector_rewritten hv]
  refine bind_same fun inv => (h.getOr (by decide) (.rfl' _)).step (fun v v' hv => hv.asReal) fun det => ?_
  refine (h.getKey (by decide)).bind fun v v' hv => ?_
  rw [readVector_rewritten hv]
  exact bind_same fun invIn => (h.getOr (by decide) (.rfl' _)).step (fun v v' hv => hv.asReal) fun detIn => rfl

/-- A Gaussian distribution -/
theorem C99_distribution (tmp : Nat) : GaussObj.fromJson tmp root = GaussObj.fromJson tmp root' := by
  unfold GaussObj.fromJson GaussObj.ofJson
  rw [Gauss.ofJson_rewritten ht h]

variable [LT K] [DecidableLT K] (nar : K → K) (realMax tiny : K) (me : Nat)

/-- The shared parameters of a model -/
theorem C99_shared_parameters (alive : Nat → Bool) (tmp : Nat) :
    SharedParams.fromJson alive nar tmp realMax root = SharedParams.fromJson alive nar tmp realMax root' := by
  have e : SharedParams.readJson alive tmp nar root = SharedParams.readJson alive tmp nar root' := by
    unfold SharedParams.readJson
    refine (h.getOr (by decide) (.rfl' _)).step (fun v v' hv => hv.asBool) fun b => bind_same fun _ => bind_same fun s => ?_
    refine (h.getOr (by decide) (.rfl' _)).step (fun v v' hv => hv.asInt ht) fun d => bind_same fun _ => bind_same fun s => ?_
    refine (h.getOr (by decide) (.rfl' _)).step (fun v v' hv => hv.asInt ht) fun d => bind_same fun _ => ?_
    refine (h.getOr (by decide) (.rfl' _)).step (fun v v' hv => hv.asInt ht) fun d => bind_same fun _ => ?_
    refine (h.getOr (by decide) (.rfl' _)).step (fun v v' hv => hv.asInt ht) fun d => bind_same fun _ => ?_
    refine (h.getOr (by decide) (.rfl' _)).step (fun v v' hv => hv.asFloat nar) fun d => bind_same fun _ => ?_
    refine (h.getOr (by decide) (.rfl' _)).step (fun v v' hv => hv.asInt ht) fun d => bind_same fun _ => bind_same fun s => ?_
    have n : ∀ i n, SharedParams.readNames root i n = SharedParams.readNames root' i n := by
      intro i n
      induction n generalizing i with
      | zero => rfl
      | succ n ih => rw [SharedParams.readNames, SharedParams.readNames, h.getText (by decide : "column_names" ∈ textKeys), ih]
    rw [n]
  funext s
  rw [SharedParams.fromJson, SharedParams.fromJson, SharedParams.ofJson, SharedParams.ofJson, e]

/-- The parameters of k-means -/
theorem C99_kmeans_parameters (tmp : Nat) : KMeansAttrs.fromJson me nar tmp tiny realMax root = KMeansAttrs.fromJson me nar tmp tiny realMax root' := by
  have e : KMeansAttrs.readJson tmp nar root = KMeansAttrs.readJson tmp nar root' := by
    unfold KMeansAttrs.readJson
    refine (h.getKey (by decide)).step (fun v v' hv => hv.asInt ht) fun v => bind_same fun _ => ?_
    refine (h.getKey (by decide)).step (fun v v' hv => hv.asInt ht) fun v => bind_same fun _ => ?_
    exact (h.getKey (by decide)).step (fun v v' hv => hv.asFloat nar) fun v => rfl
  funext s
  rw [KMeansAttrs.fromJson, KMeansAttrs.fromJson, e]

/-- The parameters of a mixture -/
theorem C99_mixture_parameters (tmp : Nat) : GmmAttrs.fromJson me nar tmp tiny realMax root = GmmAttrs.fromJson me nar tmp tiny realMax root' := by
  have e : GmmAttrs.readJson tmp nar root = GmmAttrs.readJson tmp nar root' := by
    unfold GmmAttrs.readJson
    refine (h.getKey (by decide)).step (fun v v' hv => hv.asInt ht) fun v => bind_same fun _ => ?_
    refine (h.getKey (by decide)).step (fun v v' hv => hv.asFloat nar) fun v => bind_same fun _ => ?_
    refine (h.getKey (by decide)).step (fun v v' hv => hv.asFloat nar) fun v => bind_same fun _ => ?_
    exact (h.getKey (by decide)).step (fun v v' hv => hv.asInt ht) fun v => rfl
  funext s
  rw [GmmAttrs.fromJson, GmmAttrs.fromJson, e]

/-- The parameters of a hidden Markov model -/
theorem C99_hmm_parameters (tmp : Nat) : HmmAttrs.fromJson me nar tmp tiny realMax root = HmmAttrs.fromJson me nar tmp tiny realMax root' := by
  have e : HmmAttrs.readJson tmp nar root = HmmAttrs.readJson tmp nar root' := by
    unfold HmmAttrs.readJson
    refine (h.getKey (by decide)).step (fun v v' hv => hv.asInt ht) fun v => bind_same fun _ => ?_
    refine (h.getKey (by decide)).step (fun v v' hv => hv.asInt ht) fun v => bind_same fun _ => ?_
    refine (h.getKey (by decide)).step (fun v v' hv => hv.asFloat nar) fun v => bind_same fun _ => ?_
    refine (h.getKey (by decide)).step (fun v v' hv => hv.asFloat nar) fun v => bind_same fun _ => ?_
    refine (h.getKey (by decide)).step (fun v v' hv => hv.asInt ht) fun v => bind_same fun _ => ?_
    refine (h.getKey (by decide)).step (fun v v' hv => hv.asInt ht) fun v => bind_same fun _ => ?_
    refine (h.getKey (by decide)).step (fun v v' hv => hv.asInt ht) fun v => bind_same fun _ => ?_
    exact (h.getKey (by decide)).step (fun v v' hv => hv.asBool) fun v => rfl
  funext s
  rw [HmmAttrs.fromJson, HmmAttrs.fromJson, e]

end readers

section configuration
variable [Field K] [JsonReal K] {P : Type} (T : ParamType P) (slot : String → Nat) (read : Nat → Json K → Prog P Unit)

theorem Configuration.readClasses_rewritten (hr : ∀ id v v', Rewritten v v' → read id v = read id v') {v v' : Json K} (h : Rewritten v v') (names : List String) :
    Configuration.readClasses T slot read v names = Configuration.readClasses T slot read v' names := by
  induction names with
  | nil => rfl
  | cons l names ih =>
    rw [Configuration.readClasses, Configuration.readClasses]
    refine (h.getAny l).bind fun v v' hv => ?_
    rw [hr _ v v' hv, ih]

/-- The configuration of a model, with any parameters whose reader is indifferent to the writing -/
theorem C99_configuration (ht : TruncatesWhole K) (hr : ∀ id v v', Rewritten v v' → read id v = read id v') {root root' : Json K} (h : Rewritten root root')
    (me tmp : Nat) (tslot : String → Nat) :
    Configuration.fromJson T me slot read tmp tslot root = Configuration.fromJson T me slot read tmp tslot root' := by
  have e : Configuration.readJson T tmp tslot read root = Configuration.readJson T tmp tslot read root' := by
    unfold Configuration.readJson
    refine (h.getKey (by decide)).bind fun v v' hv => ?_
    rw [hr _ v v' hv]
    refine bind_same fun _ => (h.getOr (by decide) (.rfl' _)).step (fun v v' hv => hv.asInt ht) fun z => bind_same fun _ => ?_
    refine (h.getOr (by decide) (.rfl' _)).step (fun v v' hv => hv.asInt ht) fun z => bind_same fun _ => ?_
    refine (h.getKey (by decide)).bind fun v v' hv => ?_
    rw [hv.names]
    exact bind_same fun names => Configuration.readClasses_rewritten T tslot read hr hv names
  funext s
  rw [Configuration.fromJson, Configuration.fromJson, e]

end configuration

section models
variable [Field K] [CharZero K] [LinearOrder K] [JsonReal K] (ht : TruncatesWhole K) (nar : K → K) (tiny realMax z : K) {root root' : Json K}
include ht

theorem Gmm.readComponents_rewritten {l l' : List (Json K)} (hl : RewrittenList l l') (c : Nat) : Gmm.readComponents l c = Gmm.readComponents l' c := by
  induction l generalizing l' c with
  | nil => cases hl; rfl
  | cons v l ih =>
    cases hl with
    | cons hv hl => rw [Gmm.readComponents, Gmm.readComponents, Gauss.ofJson_rewritten ht hv, ih hl]

theorem Gmm.ofJson_rewritten {σ : Type} (sh : SharedView) (h : Rewritten root root') :
    (Gmm.ofJson nar tiny realMax sh z root : Prog σ (String × Gmm K)) = Gmm.ofJson nar tiny realMax sh z root' := by
  have e1 : (Gmm.readAttrs nar tiny realMax root : Prog σ (GmmAttrs K)) = Gmm.readAttrs nar tiny realMax root' := by
    unfold Gmm.readAttrs
    refine (h.getKey (by decide)).bind fun v v' hv => ?_
    rw [C99_mixture_parameters ht hv]
  have e2 : Gmm.readBody root = Gmm.readBody root' := by
    unfold Gmm.readBody
    refine bind_same fun _ => (h.getKey (by decide)).bind fun v v' hv => ?_
    have e : Gmm.readCoeffs v = Gmm.readCoeffs v' := by
      unfold Gmm.readCoeffs
      exact bind_same fun m => by rw [readVector_rewritten hv]
    rw [e]
    refine bind_same fun _ => (h.getKey (by decide)).bind fun v v' hv => ?_
    rw [Gmm.readComponents_rewritten ht hv.elements]
  unfold Gmm.ofJson
  rw [h.getText (by decide : "label" ∈ textKeys), e1, e2]

/-- A class of a mixture model -/
theorem C99_mixture_class (h : Rewritten root root') : Gmm.fromJson nar tiny realMax z root = Gmm.fromJson nar tiny realMax z root' := by
  unfold Gmm.fromJson
  refine bind_same fun _ => bind_same fun m => ?_
  rw [Gmm.ofJson_rewritten ht nar tiny realMax z _ h]

theorem Hmm.readStates_rewritten {l l' : List (Json K)} (hl : RewrittenList l l') (s : Nat) :
    Hmm.readStates nar tiny realMax z l s = Hmm.readStates nar tiny realMax z l' s := by
  induction l generalizing l' s with
  | nil => cases hl; rfl
  | cons v l ih =>
    cases hl with
    | cons hv hl => rw [Hmm.readStates, Hmm.readStates, C99_mixture_class ht nar tiny realMax z hv, ih hl]

theorem Hmm.ofJson_rewritten {σ : Type} (sh : SharedView) (h : Rewritten root root') :
    (Hmm.ofJson nar tiny realMax sh z root : Prog σ (String × Hmm K)) = Hmm.ofJson nar tiny realMax sh z root' := by
  have e1 : (Hmm.readAttrs nar tiny realMax root : Prog σ (HmmAttrs K)) = Hmm.readAttrs nar tiny realMax root' := by
    unfold Hmm.readAttrs
    refine (h.getKey (by decide)).bind fun v v' hv => ?_
    rw [C99_hmm_parameters ht hv]
  have e3 : Hmm.readTransitions root = Hmm.readTransitions root' := by
    unfold Hmm.readTransitions
    refine bind_same fun m => ?_
    split
    · refine (h.getKey (by decide)).bind fun v v' hv => ?_
      rw [readVector_rewritten hv]
      refine bind_same fun _ => (h.getKey (by decide)).bind fun v v' hv => ?_
      rw [readVector_rewritten hv]
    · refine (h.getKey (by decide)).bind fun v v' hv => ?_
      rw [readVector_rewritten hv]
  have e4 : Hmm.readExit root = Hmm.readExit root' := by
    unfold Hmm.readExit
    refine bind_same fun m => ?_
    rcases h.member "exitProbabilities" with ⟨e, h1, h2⟩ | ⟨o, o', h1, h2, hf⟩
    · rw [h1, h2]
    · rw [h1, h2]
      cases hf with
      | none => rfl
      | text v ht => rfl
      | some _ hv =>
        funext s
        simp only [Prog.bind_def, liftE, Prog.pure_def, readVector_rewritten hv]
  have e2 : Hmm.readBody nar tiny realMax z root = Hmm.readBody nar tiny realMax z root' := by
    unfold Hmm.readBody
    rw [e3, e4]
    refine bind_same fun _ => bind_same fun _ => bind_same fun _ => (h.getKey (by decide)).bind fun v v' hv => ?_
    rw [Hmm.readStates_rewritten ht nar tiny realMax z hv.elements]
  unfold Hmm.ofJson
  rw [h.getText (by decide : "label" ∈ textKeys), e1, e2]

/-- A class of a hidden Markov model -/
theorem C99_hmm_class (h : Rewritten root root') : Hmm.fromJson nar tiny realMax z root = Hmm.fromJson nar tiny realMax z root' := by
  unfold Hmm.fromJson
  refine bind_same fun _ => bind_same fun m => ?_
  rw [Hmm.ofJson_rewritten ht nar tiny realMax z _ h]

omit [CharZero K] [LinearOrder K] ht in
theorem ModelBody.readJson_rewritten {P C : Type} {readS : Json K → Prog (SharedParams K) Unit} {readP : Json K → Prog (Configuration P) Unit}
    {readC : SharedView → Json K → Prog (ModelBody K P C) (String × C)} (copyC : C → C)
    (hs : ∀ v v', Rewritten v v' → readS v = readS v') (hp : ∀ v v', Rewritten v v' → readP v = readP v')
    (hc : ∀ sh v v', Rewritten v v' → readC sh v = readC sh v') (h : Rewritten root root') :
    ModelBody.readJson readS readP readC copyC root = ModelBody.readJson readS readP readC copyC root' := by
  have e : ∀ {l l' : List (Json K)}, RewrittenList l l' → ModelBody.readModels readC copyC l = ModelBody.readModels readC copyC l' := by
    intro l
    induction l with
    | nil => intro l' hl; cases hl; rfl
    | cons v l ih =>
      intro l' hl
      cases hl with
      | cons hv hl =>
        rw [ModelBody.readModels, ModelBody.readModels, hv.getText (by decide : "label" ∈ textKeys), ih hl]
        refine bind_same fun _ => bind_same fun _ => bind_same fun M => ?_
        rw [hc _ _ _ hv]
  unfold ModelBody.readJson
  refine (h.getKey (by decide)).bind fun v v' hv => bind_same fun M => ?_
  rw [hs _ _ hv]
  refine bind_same fun _ => bind_same fun _ => (h.getKey (by decide)).bind fun v v' hv => bind_same fun M => ?_
  rw [hp _ _ hv]
  refine bind_same fun _ => bind_same fun _ => (h.getKey (by decide)).bind fun v v' hv => ?_
  rw [e hv.elements]

variable (alive : Nat → Bool) (ids : JsonIds) {μ : Type} (i tmp : Nat)

omit μ in
theorem GmmBody.read_rewritten (h : Rewritten root root') : GmmBody.read alive ids nar tiny realMax z root = GmmBody.read alive ids nar tiny realMax z root' := by
  have hp := fun v v' (hv : Rewritten v v') => C99_configuration (GmmAttrs.type tiny realMax) ids.slot (fun id => GmmAttrs.fromJson id nar (id + 1) tiny realMax) ht
    (fun id v v' hv => C99_mixture_parameters ht hv nar realMax tiny id (id + 1)) hv ids.config ids.configTmp ids.slotTmp
  have hs := fun v v' (hv : Rewritten v v') => C99_shared_parameters ht hv nar realMax alive ids.sharedTmp
  have hc := fun sh v v' (hv : Rewritten v v') => Gmm.ofJson_rewritten (σ := GmmBody K) ht nar tiny realMax z sh hv
  have e := ModelBody.readJson_rewritten (Gmm.copy z) hs hp hc h
  have e : GmmBody.ofJson alive ids nar tiny realMax z root = GmmBody.ofJson alive ids nar tiny realMax z root' := congrFun e _
  unfold GmmBody.read
  rw [e]

omit μ in
theorem HierBody.read_rewritten (h : Rewritten root root') : HierBody.read alive ids nar tiny realMax z root = HierBody.read alive ids nar tiny realMax z root' := by
  have hp := fun v v' (hv : Rewritten v v') => C99_configuration (HmmAttrs.type tiny realMax) ids.slot (fun id => HmmAttrs.fromJson id nar (id + 1) tiny realMax) ht
    (fun id v v' hv => C99_hmm_parameters ht hv nar realMax tiny id (id + 1)) hv ids.config ids.configTmp ids.slotTmp
  have hs := fun v v' (hv : Rewritten v v') => C99_shared_parameters ht hv nar realMax alive ids.sharedTmp
  have hc := fun sh v v' (hv : Rewritten v v') => Hmm.ofJson_rewritten (σ := ModelBody K (HmmAttrs K) (Hmm K)) ht nar tiny realMax z sh hv
  have e := ModelBody.readJson_rewritten (Hmm.copy z) hs hp hc h
  have e : HierBody.ofJson alive ids nar tiny realMax z root = HierBody.ofJson alive ids nar tiny realMax z root' := by
    unfold HierBody.ofJson
    refine congrFun ?_ _
    refine (congrArg (fun p => p >>= _) e).trans (bind_same fun _ => bind_same fun M => ?_)
    refine (h.getKey (by decide)).bind fun v v' hv => ?_
    rw [readVector_rewritten hv]
    refine bind_same fun _ => (h.getKey (by decide)).bind fun v v' hv => ?_
    have r : (HierBody.readRows M.models.length v : Prog (ModelBody K (HmmAttrs K) (Hmm K)) (List (List K))) = HierBody.readRows M.models.length v' := by
      unfold HierBody.readRows
      refine congrArg (fun f => List.mapM f _) ?_
      funext k
      refine (hv.getIndex k).bind fun v v' hv => ?_
      rw [readVector_rewritten hv]
    rw [r]
    refine bind_same fun _ => (h.getKey (by decide)).bind fun v v' hv => ?_
    rw [readVector_rewritten hv]
  unfold HierBody.read
  rw [e]

/-- **C99 for mixture models.** -/
theorem C99_mixture_model (h : Rewritten root root') :
    (gmmFromJson alive ids nar tiny realMax z root i tmp : Prog (Copies.Heard (GmmModel K) μ) Unit) = gmmFromJson alive ids nar tiny realMax z root' i tmp :=
  congrArg (fun r => Copies.modelFromJson (gmmFamily z) _ r i tmp) (GmmBody.read_rewritten ht nar tiny realMax z alive ids h)

/-- **C99 for hidden Markov models.** -/
theorem C99_hidden_markov_model (h : Rewritten root root') :
    (hmmFromJson alive ids nar tiny realMax z root i tmp : Prog (Copies.Heard (HierHmm K) μ) Unit) = hmmFromJson alive ids nar tiny realMax z root' i tmp :=
  congrArg (fun r => Copies.hierFromJson (hmmFamily z) r i tmp) (HierBody.read_rewritten ht nar tiny realMax z alive ids h)

end models

/-- the conversion of the examples truncates whole numbers exactly -/
theorem truncatesWhole_rat : TruncatesWhole ℚ := by
  intro z
  have e : ((z : ℚ) ≥ -2147483648 ∧ (z : ℚ) ≤ 2147483647) ↔ (-2147483648 ≤ z ∧ z ≤ 2147483647) := by
    constructor
    · rintro ⟨a, b⟩; exact ⟨by exact_mod_cast a, by exact_mod_cast b⟩
    · rintro ⟨a, b⟩; exact ⟨by exact_mod_cast a, by exact_mod_cast b⟩
  by_cases h : -2147483648 ≤ z ∧ z ≤ 2147483647
  · rw [if_pos h]
    show (if (z : ℚ) ≥ -2147483648 ∧ (z : ℚ) ≤ 2147483647 then some ((z : ℚ).num.tdiv (z : ℚ).den) else none) = some z
    rw [if_pos (e.mpr h)]; simp
  · rw [if_neg h]
    exact if_neg fun hh => h (e.mp hh)

/-- a phrase with flags as numbers, whole numbers as reals and samples as integers -/
example : Rewritten (K := ℚ)
    (.obj [("bimodal", .bool false), ("dimension", .int 1), ("length", .int 2), ("label", .str "a"), ("data", .arr [.real 3, .real (1 / 2)])])
    (.obj [("bimodal", .int 0), ("dimension", .real 1), ("length", .real 2), ("label", .str "a"), ("data", .arr [.int 3, .real (1 / 2)])]) :=
  .obj (.other (by decide) (.whole .no (.integer 0)) (.other (by decide) (.whole (.integer 1) (by simpa using Writes.real (K := ℚ) 1))
    (.other (by decide) (.whole (.integer 2) (by simpa using Writes.real (K := ℚ) 2)) (.text _ (by decide) (.other (by decide)
      (.arr (.cons (.whole (by simpa using Writes.real (K := ℚ) 3) (.integer 3)) (.cons (.real _) .nil))) .nil)))))

end Xmm
