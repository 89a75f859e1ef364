import Verif.Model.Json
/- C12: numeric arrays survive JSON. -/
namespace Xmm

/-- An element is written so that the reader gets it back. -/
def JsonCodec.Lossless {K T : Type} (c : JsonCodec K T) (x : T) : Prop := c.dec (c.enc x) = .ok x

theorem realCodec_lossless {K : Type} [Field K] (x : K) : (realCodec K).Lossless x := rfl
theorem boolCodec_lossless {K : Type} [Zero K] [DecidableEq K] (x : Bool) : (boolCodec K).Lossless x := rfl
theorem stringCodec_lossless {K : Type} [JsonReal K] (x : String) : (stringCodec K).Lossless x := rfl
theorem intCodec_lossless {K : Type} [JsonReal K] (x : Int) (h : -2147483648 ≤ x ∧ x ≤ 2147483647) :
    (intCodec K).Lossless x := by
  simp [JsonCodec.Lossless, intCodec, Json.asInt, h]

theorem readLoop_enc {K T : Type} (c : JsonCodec K T) (a : List T) (h : ∀ x ∈ a, c.Lossless x) (pre rest : List T)
    (hr : rest.length = a.length) :
    readLoop c (a.map c.enc) pre.length (pre ++ rest) = .ret () (pre ++ a) := by
  induction a generalizing pre rest with
  | nil =>
    obtain rfl : rest = [] := List.length_eq_zero_iff.1 hr
    simp [readLoop]
  | cons x xs ih =>
    obtain ⟨r, rs, rfl⟩ : ∃ r rs, rest = r :: rs := by
      cases rest with
      | nil => simp at hr
      | cons r rs => exact ⟨r, rs, rfl⟩
    have hx : c.dec (c.enc x) = .ok x := h x List.mem_cons_self
    simp only [List.map_cons, readLoop, hx, Prog.bind_def, Prog.get_def]
    rw [if_pos (by simp)]
    simp only [Prog.bind_def, Prog.set_def]
    have := ih (fun y hy => h y (List.mem_cons_of_mem _ hy)) (pre ++ [x]) rs (by simpa using hr)
    simpa using this

/-- C12 (round trip): reading back, into any target of the right size, a vector written to JSON gives the same
    values; for real, boolean and string elements without condition, for integers in the range of `int`. -/
theorem C12_round_trip {K T : Type} (c : JsonCodec K T) (a target : List T) (h : ∀ x ∈ a, c.Lossless x)
    (ht : target.length = a.length) :
    json2array c (vector2json c a) a.length target = .ret () a ∧
    json2vector c (vector2json c a) a.length target = .ret () a := by
  have h1 : json2array c (vector2json c a) a.length target = .ret () a := by
    have := readLoop_enc c a h [] target ht
    simpa [json2array, vector2json] using this
  refine ⟨h1, ?_⟩
  unfold json2vector
  split
  · rename_i h0
    have ha : a = [] := List.length_eq_zero_iff.1 h0
    subst ha
    have htt : target = [] := List.length_eq_zero_iff.1 ht
    subst htt
    rfl
  · exact h1

/-- C12 (reals, the case used for all model data): no condition at all. -/
theorem C12_round_trip_real {K : Type} [Field K] (a target : List K) (ht : target.length = a.length) :
    json2vector (realCodec K) (vector2json (realCodec K) a) a.length target = .ret () a :=
  (C12_round_trip (realCodec K) a target (fun x _ => realCodec_lossless x) ht).2

/-- C12 (errors): a node that is not an array raises a type error, an array of another length a value error, and in
    both cases the target is unchanged.  (The specialised vector readers do not look at the node when the declared
    size is 0.) -/
theorem C12_rejects {K T : Type} (c : JsonCodec K T) (root : Json K) (n : Nat) (target : List T) :
    (root.isArray = false → json2array c root n target = .throw .jsonTypeError target) ∧
    (root.isArray = true → root.size ≠ n → json2array c root n target = .throw .jsonValueError target) ∧
    (n ≠ 0 → json2vector c root n target = json2array c root n target) ∧
    (json2vector c root 0 target = .ret () target) := by
  refine ⟨?_, ?_, ?_, ?_⟩
  · intro h; cases root <;> simp_all [json2array, Json.isArray]
  · intro h hs; cases root <;> simp_all [json2array, Json.isArray, Json.size]
  · intro h; simp [json2vector, h]
  · simp [json2vector]

theorem readLoop_no_ub {K T : Type} (c : JsonCodec K T) (l : List (Json K)) (i : Nat) (a : List T)
    (h : i + l.length ≤ a.length) : readLoop c l i a ≠ .ub := by
  induction l generalizing i a with
  | nil => simp [readLoop]
  | cons x xs ih =>
    simp only [readLoop]
    cases c.dec x with
    | error e => simp
    | ok v =>
      simp only [Prog.bind_def, Prog.get_def]
      rw [if_pos (by simp at h; omega)]
      simp only [Prog.bind_def, Prog.set_def]
      exact ih (i + 1) _ (by simp at h ⊢; omega)

/-- C12 (memory safety): with a target at least as long as the declared size, no JSON node whatsoever makes the
    reader write out of bounds. -/
theorem C12_no_out_of_bounds {K T : Type} (c : JsonCodec K T) (root : Json K) (n : Nat) (target : List T)
    (h : n ≤ target.length) :
    json2array c root n target ≠ .ub ∧ json2vector c root n target ≠ .ub := by
  have h1 : json2array c root n target ≠ .ub := by
    cases root with
    | arr l =>
      simp only [json2array]
      split
      · simp
      · rename_i hl
        simp only [ne_eq, not_not] at hl
        exact readLoop_no_ub c l 0 target (by omega)
    | _ => simp [json2array]
  refine ⟨h1, ?_⟩
  unfold json2vector
  split
  · simp
  · exact h1

/-- Non-vacuity: a concrete vector goes through; a concrete wrong node is rejected. -/
example : json2vector (realCodec ℚ) (vector2json (realCodec ℚ) [1/2, -3, 0]) 3 [7, 7, 7] = .ret () [1/2, -3, 0] :=
  C12_round_trip_real _ _ rfl
example : json2vector (realCodec ℚ) (.str "x") 2 [7, 8] = .throw .jsonTypeError [7, 8] := rfl
example : (intCodec ℚ).Lossless (-5) := intCodec_lossless _ (by decide)

end Xmm
