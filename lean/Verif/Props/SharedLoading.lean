import Verif.Spec.SharedFile
import Verif.Props.SharedParams
import Verif.Props.JsonLoading
set_option linter.unusedSimpArgs false
set_option linter.unusedSectionVars false
/- C86 for the shared parameters of a model. -/
namespace Xmm
open Prog (bind_def pure_def get_def set_def modify_def throw_def undef_def)
namespace SharedParams
variable {K : Type} [Field K] [LinearOrder K] [JsonReal K] {nar : K → K} {alive : Nat → Bool} {me : Nat}

theorem fresh_bound (realMax : K) : Bound me (fresh me realMax) := ⟨rfl, rfl, rfl, rfl, rfl, rfl, rfl, rfl⟩

theorem readNames_ok (root : Json K) (n i : Nat) (l : List String) (h : readNames root i n = .ok l) :
    l.length = n ∧ ∀ k s, l[k]? = some s → ∃ node j, root.getKey "column_names" = .ok node ∧ node.getIndexOr (i + k) (.str "") = .ok j ∧ j.asString = .ok s := by
  induction n generalizing i l with
  | zero => injection h with h; subst h; exact ⟨rfl, fun k s hk => by simp at hk⟩
  | succ n ih =>
    unfold readNames at h
    cases h1 : root.getKey "column_names" with
    | error e => rw [h1] at h; cases h
    | ok node =>
      rw [h1] at h
      cases h2 : node.getIndexOr i (.str "") with
      | error e => simp only [bind, Except.bind, h2] at h; cases h
      | ok x =>
        cases h3 : x.asString with
        | error e => simp only [bind, Except.bind, h2, h3] at h; cases h
        | ok s =>
          cases h4 : readNames root (i + 1) n with
          | error e => simp only [bind, Except.bind, h2, h3, h4] at h; cases h
          | ok l' =>
            simp only [bind, Except.bind, h2, h3, h4] at h
            injection h with h
            subst h
            obtain ⟨g1, g2⟩ := ih _ _ h4
            refine ⟨by simp [g1], fun k t hk => ?_⟩
            cases k with
            | zero =>
              simp only [List.getElem?_cons_zero, Option.some.injEq] at hk
              subst hk
              exact ⟨node, x, rfl, h2, h3⟩
            | succ k =>
              rw [List.getElem?_cons_succ] at hk
              obtain ⟨nd, j, q1, q2, q3⟩ := g2 k t hk
              rw [h1] at q1
              exact ⟨nd, j, q1, by rw [← q2]; congr 1; omega, q3⟩

/-- the state after `bimodal.set(b)` on a new object -/
theorem setBimodal_fresh {realMax : K} {b : Bool} {s : SharedParams K} (h : setBimodal alive me b (fresh me realMax) = .ret () s) :
    Bound me s ∧ s.bimodal.value = b ∧ s.dimension.limitMin = (if b then 2 else 1) ∧ s.dimensionInput.limitMin = (if b then 1 else 0) ∧
    s.emMin = (fresh me realMax).emMin ∧ s.emMax = (fresh me realMax).emMax ∧ s.percentChg = (fresh me realMax).percentChg ∧
    s.window = (fresh me realMax).window ∧ (s.columnNames.limitMin = s.columnNames.limitMin) := by
  rw [setBimodal_eq (fresh_bound realMax)] at h
  have hb : Bound me ({ fresh me realMax with bimodal := { (fresh me realMax : SharedParams K).bimodal with value := b, changed := true } } : SharedParams K) :=
    ⟨rfl, rfl, rfl, rfl, rfl, rfl, rfl, rfl⟩
  cases b with
  | true =>
    rw [bimodalChanged_on hb rfl (by simp [fresh, uintMax])] at h
    simp only [fresh] at h
    norm_num at h
    subst h
    exact ⟨⟨rfl, rfl, rfl, rfl, rfl, rfl, rfl, rfl⟩, rfl, rfl, rfl, rfl, rfl, by simp [fresh], rfl, rfl⟩
  | false =>
    rw [bimodalChanged_off hb rfl (by simp [fresh])] at h
    simp only [fresh] at h
    norm_num at h
    subst h
    exact ⟨⟨rfl, rfl, rfl, rfl, rfl, rfl, rfl, rfl⟩, rfl, rfl, rfl, rfl, rfl, by simp [fresh], rfl, rfl⟩

theorem readJson_ret {realMax : K} {root : Json K} {s : SharedParams K} (h : readJson alive me nar root (fresh me realMax) = .ret () s) :
    s.values.Described nar root realMax := by
  unfold readJson at h
  obtain ⟨j1, e1, h⟩ := bindE_inv h
  obtain ⟨b, f1, h⟩ := bindE_inv h
  obtain ⟨_, s1, g1, h⟩ := bind_inv h
  obtain ⟨b1, v1, l1, l2, x1, x2, x3, x4, _⟩ := setBimodal_fresh g1
  rw [bind_def, get_def] at h
  simp only at h
  rw [v1] at h
  obtain ⟨j2, e2, h⟩ := bindE_inv h
  obtain ⟨d, f2, h⟩ := bindE_inv h
  obtain ⟨_, s2, g2, h⟩ := bind_inv h
  rw [setDimension_eq b1] at g2
  by_cases hd : s1.dimension.limitMin ≤ uint d ∧ uint d ≤ s1.dimension.limitMax
  swap
  · rw [if_neg hd] at g2; cases g2
  rw [if_pos hd] at g2
  injection g2 with _ g2
  rw [bind_def, get_def] at h
  simp only at h
  have w2 : s2.bimodal.value = b := by rw [← g2]; exact v1
  rw [w2] at h
  obtain ⟨j3, e3, h⟩ := bindE_inv h
  obtain ⟨k, f3, h⟩ := bindE_inv h
  obtain ⟨_, s3, g3, h⟩ := bind_inv h
  have b2 : Bound me s2 := by
    rw [← g2]
    exact ⟨b1.bimodal, b1.dimension, b1.input, b1.columns, b1.emMin, b1.emMax, b1.percent, b1.window⟩
  rw [setDimensionInput_eq b2] at g3
  by_cases hk : s2.dimensionInput.limitMin ≤ uint k ∧ uint k ≤ s2.dimensionInput.limitMax
  swap
  · rw [if_neg hk] at g3; cases g3
  rw [if_pos hk] at g3
  injection g3 with _ g3
  have b3 : Bound me s3 := by
    rw [← g3]
    exact ⟨b2.bimodal, b2.dimension, b2.input, b2.columns, b2.emMin, b2.emMax, b2.percent, b2.window⟩
  obtain ⟨j4, e4, h⟩ := bindE_inv h
  obtain ⟨v4, f4, h⟩ := bindE_inv h
  obtain ⟨_, s4, g4, h⟩ := bind_inv h
  rw [setEmMin_eq b3] at g4
  by_cases h4 : checkLimits ltNat (uint v4) s3.emMin.limitMin s3.emMin.limitMax = true
  swap
  · rw [if_neg h4] at g4; cases g4
  rw [if_pos h4] at g4
  injection g4 with _ g4
  have b4 : Bound me s4 := by
    rw [← g4]
    exact ⟨b3.bimodal, b3.dimension, b3.input, b3.columns, b3.emMin, b3.emMax, b3.percent, b3.window⟩
  obtain ⟨j5, e5, h⟩ := bindE_inv h
  obtain ⟨v5, f5, h⟩ := bindE_inv h
  obtain ⟨_, s5, g5, h⟩ := bind_inv h
  rw [setEmMax_eq b4] at g5
  by_cases h5 : checkLimits ltNat (uint v5) s4.emMax.limitMin s4.emMax.limitMax = true
  swap
  · rw [if_neg h5] at g5; cases g5
  rw [if_pos h5] at g5
  injection g5 with _ g5
  have b5 : Bound me s5 := by
    rw [← g5]
    exact ⟨b4.bimodal, b4.dimension, b4.input, b4.columns, b4.emMin, b4.emMax, b4.percent, b4.window⟩
  obtain ⟨j6, e6, h⟩ := bindE_inv h
  obtain ⟨v6, f6, h⟩ := bindE_inv h
  obtain ⟨_, s6, g6, h⟩ := bind_inv h
  rw [setPercentChg_eq b5] at g6
  by_cases h6 : checkLimits ltReal v6 s5.percentChg.limitMin s5.percentChg.limitMax = true
  swap
  · rw [if_neg h6] at g6; cases g6
  rw [if_pos h6] at g6
  injection g6 with _ g6
  have b6 : Bound me s6 := by
    rw [← g6]
    exact ⟨b5.bimodal, b5.dimension, b5.input, b5.columns, b5.emMin, b5.emMax, b5.percent, b5.window⟩
  obtain ⟨j7, e7, h⟩ := bindE_inv h
  obtain ⟨v7, f7, h⟩ := bindE_inv h
  obtain ⟨_, s7, g7, h⟩ := bind_inv h
  rw [setWindow_eq b6] at g7
  by_cases h7 : checkLimits ltNat (uint v7) s6.window.limitMin s6.window.limitMax = true
  swap
  · rw [if_neg h7] at g7; cases g7
  rw [if_pos h7] at g7
  injection g7 with _ g7
  have b7 : Bound me s7 := by
    rw [← g7]
    exact ⟨b6.bimodal, b6.dimension, b6.input, b6.columns, b6.emMin, b6.emMax, b6.percent, b6.window⟩
  rw [bind_def, get_def] at h
  simp only at h
  obtain ⟨names, e8, h⟩ := bindE_inv h
  rw [setColumnNames_eq b7] at h
  split at h
  · cases h
  · injection h with _ h
    obtain ⟨n1, n2⟩ := readNames_ok _ _ _ _ e8
    have hw : s7.dimension.value = uint d ∧ s7.bimodal.value = b ∧ s7.dimensionInput.value = uint k := by
      rw [← g7, ← g6, ← g5, ← g4, ← g3, ← g2]; exact ⟨rfl, v1, rfl⟩
    have he : s7.emMin.value = uint v4 ∧ s7.emMax.value = uint v5 ∧ s7.percentChg.value = v6 ∧ s7.window.value = uint v7 := by
      rw [← g7, ← g6, ← g5, ← g4]; exact ⟨rfl, rfl, rfl, rfl⟩
    rw [← g2] at hk
    simp only at hk
    have m4 : 1 ≤ uint v4 := by
      rw [checkLimits_nat, decide_eq_true_eq] at h4
      have : s3.emMin.limitMin = 1 := by rw [← g3, ← g2]; show s1.emMin.limitMin = 1; rw [x1]; rfl
      omega
    have m7 : 1 ≤ uint v7 := by
      rw [checkLimits_nat, decide_eq_true_eq] at h7
      have : s6.window.limitMin = 1 := by rw [← g6, ← g5, ← g4, ← g3, ← g2]; show s1.window.limitMin = 1; rw [x4]; rfl
      omega
    have m6 : 0 ≤ v6 ∧ v6 ≤ realMax := by
      simp only [checkLimits, ltReal, Bool.not_eq_true', Bool.or_eq_false_iff, decide_eq_false_iff_not, not_lt] at h6
      have : s5.percentChg = (fresh me realMax).percentChg := by rw [← g5, ← g4, ← g3, ← g2]; exact x3
      rw [this] at h6
      exact h6
    have hd2 : uint k ≤ uintPred (uint d) := hk.2
    have hd1 : 1 ≤ uint d := by have := hd.1; rw [l1] at this; split at this <;> omega
    subst h
    refine ⟨?_, ?_, ?_, ?_, ?_, ?_, ?_, ?_, ?_, ?_, ?_, ?_, ?_, ?_, ?_⟩
    all_goals simp only [values, hw.1, hw.2.1, hw.2.2, he.1, he.2.1, he.2.2.1, he.2.2.2]
    · exact ⟨j1, e1, f1⟩
    · exact ⟨j2, d, e2, f2, rfl⟩
    · exact ⟨j3, k, e3, f3, rfl⟩
    · exact ⟨j4, v4, e4, f4, rfl⟩
    · exact ⟨j5, v5, e5, f5, rfl⟩
    · exact ⟨j6, e6, f6⟩
    · exact ⟨j7, v7, e7, f7, rfl⟩
    · rw [← l1]; exact hd.1
    · rw [← l2]; exact hk.1
    · unfold uintPred at hd2; split at hd2 <;> omega
    · exact m4
    · exact m6
    · exact m7
    · rw [n1, hw.1]
    · intro i s hs
      obtain ⟨nd, j, q1, q2, q3⟩ := n2 i s hs
      exact ⟨nd, j, q1, by rw [← q2]; congr 1; omega, q3⟩

end SharedParams

variable {K : Type} [Field K] [LinearOrder K] [JsonReal K] (nar : K → K)

/-- C86 (shared parameters, what is accepted): after `fromJson` of any JSON that returns, the shared parameters are the values of the file and within their limits.
    (Not proved, since it is false: in a unimodal file the input dimension is 0, see `C86_shared_input_violated`.) -/
theorem C86_shared_accepted_partial {alive : Nat → Bool} {tmp : Nat} {realMax : K} {root : Json K} {s s' : SharedParams K}
    (h : SharedParams.fromJson alive nar tmp realMax root s = .ret () s') : s'.values.Described nar root realMax := by
  unfold SharedParams.fromJson SharedParams.ofJson at h
  split at h
  · rename_i hr
    have := SharedParams.readJson_ret hr
    unfold SharedParams.assignFrom at h
    rw [modify_def] at h
    injection h with _ h
    subst h
    exact this
  · cases h
  · cases h

/-- the values after the construction from a file -/
def sharedSeen (r : Res (SharedParams ℚ) Unit) : Option (SharedValues ℚ) :=
  match r with
  | .ret _ s => some s.values
  | _ => none

theorem fromJson_seen {alive : Nat → Bool} {root : Json ℚ} {v : SharedValues ℚ} (h : sharedSeen (SharedParams.ofJson alive 7 id 10 root) = some v)
    (s : SharedParams ℚ) : ∃ s', SharedParams.fromJson alive id 7 10 root s = .ret () s' ∧ s'.values = v := by
  unfold SharedParams.fromJson
  cases hr : SharedParams.ofJson alive 7 id 10 root with
  | ret u t =>
    rw [hr] at h
    injection h with h
    exact ⟨_, rfl, h⟩
  | throw e t => rw [hr] at h; cases h
  | ub => rw [hr] at h; cases h

/-- C86 (shared parameters, a defect): a unimodal file with an input dimension is accepted: the shared parameters are then not coherent. -/
theorem C86_shared_input_violated (alive : Nat → Bool) (s : SharedParams ℚ) :
    ∃ root s', SharedParams.fromJson alive id 7 10 root s = .ret () s' ∧ s'.values.bimodal = false ∧ s'.values.dimension = 3 ∧ s'.values.dimensionInput = 2 ∧
      ¬ SharedSpec.Coherent s'.values := by
  obtain ⟨s', h1, h2⟩ := fromJson_seen (alive := alive) (root := .obj [("dimension", .int 3), ("dimension_input", .int 2)])
    (v := ⟨false, 3, 2, ["", "", ""], 10, 0, 1 / 100, 1⟩) (by with_unfolding_all rfl) s
  refine ⟨_, s', h1, ?_⟩
  rw [h2]
  exact ⟨rfl, rfl, rfl, fun hc => absurd (hc.2 rfl) (by decide)⟩

/-- a file that is accepted, with defaults for what it does not say -/
example (alive : Nat → Bool) (s : SharedParams ℚ) : ∃ s', SharedParams.fromJson alive id 7 10
    (.obj [("bimodal", .bool true), ("dimension", .int 3), ("column_names", .arr [.str "x", .str "y"])]) s = .ret () s' ∧
    s'.values = ⟨true, 3, 1, ["x", "y", ""], 10, 0, 1 / 100, 1⟩ := fromJson_seen (by with_unfolding_all rfl) s

/-- a file that is refused: bimodal, but of dimension 1 -/
example (alive : Nat → Bool) (s : SharedParams ℚ) : SharedParams.fromJson alive id 7 10 (.obj [("bimodal", .bool true), ("dimension", .int 1)]) s =
    .throw .domainError s := by
  have h : ∃ s', SharedParams.ofJson alive 7 id 10 (.obj [("bimodal", .bool true), ("dimension", .int 1)] : Json ℚ) = .throw .domainError s' := ⟨_, rfl⟩
  obtain ⟨t, h1⟩ := h
  unfold SharedParams.fromJson
  rw [h1]

end Xmm
