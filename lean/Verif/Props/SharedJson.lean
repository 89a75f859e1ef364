import Verif.Props.SharedHistory
import Verif.Lemmas.Loop
import Mathlib.Algebra.Order.Field.Basic
import Mathlib.Tactic.NormNum
import Mathlib.Algebra.Order.Round
import Mathlib.Data.Rat.Floor
/-
C27, shared parameters: JSON and assignment.
-/
namespace Xmm
open SharedSpec
namespace SharedParams
variable {K : Type} {alive : Nat → Bool} {me : Nat}

theorem uint_sint {n : Nat} (h : n ≤ uintMax) : uint (sint n) = n := by
  unfold uint sint
  unfold uintMax at h
  split <;> omega

theorem sint_range {n : Nat} (h : n ≤ uintMax) : -2147483648 ≤ sint n ∧ sint n ≤ 2147483647 := by
  unfold sint
  unfold uintMax at h
  split <;> omega

theorem asInt_sint [JsonReal K] {n : Nat} (h : n ≤ uintMax) : (Json.int (sint n) : Json K).asInt = .ok (sint n) := by
  rw [Json.asInt, if_pos (sint_range h)]

theorem asInt_nat [JsonReal K] {n : Nat} (h : n < 2147483648) : (Json.int n : Json K).asInt = .ok (n : Int) := by
  rw [Json.asInt, if_pos (by omega)]

theorem uint_nat {n : Nat} (h : n < 2147483648) : uint n = n := by
  unfold uint; omega

theorem namesFrom_eq (v : VAttr String) (hv : v.size = v.value.length) : ∀ n i, i + n = v.value.length →
    namesFrom v i n = .ok (v.value.drop i)
  | 0, i, h => by rw [namesFrom, List.drop_of_length_le (by omega)]
  | n + 1, i, h => by
    have hi : i < v.value.length := by omega
    have h1 : VAttr.at' i v = .ret v.value[i] v := by
      simp [VAttr.at', hv, hi]
    rw [namesFrom, h1]
    simp only [namesFrom_eq v hv n (i + 1) (by omega)]
    rw [List.drop_eq_getElem_cons hi]

section
variable [Field K] [JsonReal K]

theorem readNames_eq (root : Json K) (names : List String) (hr : root.getKey "column_names" = .ok (.arr (names.map .str))) :
    ∀ n i, i + n = names.length → readNames root i n = .ok (names.drop i)
  | 0, i, h => by rw [readNames, List.drop_of_length_le (by omega)]
  | n + 1, i, h => by
    have hi : i < names.length := by omega
    have ih := readNames_eq root names hr n (i + 1) (by omega)
    simp only [readNames, hr, ih, bind, Except.bind, Json.getIndexOr, List.getElem?_map, List.getElem?_eq_getElem hi,
      Option.map, Json.asString, pure, Except.pure]
    rw [List.drop_eq_getElem_cons hi]

end

/-- the tree written by `toJson` for the given values -/
def tree (v : SharedValues K) : Json K := .obj
  ([("bimodal", .bool v.bimodal), ("dimension", .int (sint v.dimension)), ("dimension_input", .int (sint v.dimensionInput))] ++
   (if v.columnNames = [] then [] else [("column_names", .arr (v.columnNames.map .str))]) ++
   [("em_algorithm_min_iterations", .int v.emMin), ("em_algorithm_max_iterations", .int v.emMax),
    ("em_algorithm_percent_chg", .real v.percentChg), ("likelihood_window", .int (sint v.window))])

theorem toJson_eq {s : SharedParams K} (h : s.columnNames.size = s.columnNames.value.length) :
    toJson s = .ret (tree s.values) s := by
  have h1 := namesFrom_eq s.columnNames h s.columnNames.value.length 0 (by omega)
  simp only [toJson, Prog.bind_def, Prog.get_def, h1, List.drop_zero]
  rfl

theorem liftE_ok {σ α : Type} (a : α) (s : σ) : (liftE (.ok a) : Prog σ α) s = .ret a s := rfl

/-- what the readers find in the tree -/
theorem tree_getOr (v : SharedValues K) (d : Json K) :
    (tree v).getOr "bimodal" d = .ok (.bool v.bimodal) ∧
    (tree v).getOr "dimension" d = .ok (.int (sint v.dimension)) ∧
    (tree v).getOr "dimension_input" d = .ok (.int (sint v.dimensionInput)) ∧
    (tree v).getOr "em_algorithm_min_iterations" d = .ok (.int v.emMin) ∧
    (tree v).getOr "em_algorithm_max_iterations" d = .ok (.int v.emMax) ∧
    (tree v).getOr "em_algorithm_percent_chg" d = .ok (.real v.percentChg) ∧
    (tree v).getOr "likelihood_window" d = .ok (.int (sint v.window)) := by
  by_cases hn : v.columnNames = [] <;>
  simp [tree, hn, Json.getOr, Json.member, List.find?]

theorem tree_names (v : SharedValues K) :
    (tree v).getKey "column_names" = .ok (if v.columnNames = [] then .null else .arr (v.columnNames.map .str)) := by
  by_cases hn : v.columnNames = [] <;>
  simp [tree, hn, Json.getKey, Json.member, List.find?]

theorem tree_readNames [Field K] [JsonReal K] {v : SharedValues K} (hd : 1 ≤ v.dimension)
    (hl : v.columnNames.length = v.dimension) :
    readNames (tree v) 0 v.dimension = .ok v.columnNames := by
  have hne : v.columnNames ≠ [] := by intro h; rw [h] at hl; simp at hl; omega
  have h := tree_names v
  rw [if_neg hne] at h
  have := readNames_eq (tree v) v.columnNames h v.dimension 0 (by omega)
  rwa [List.drop_zero] at this

variable [Field K] [LinearOrder K] [JsonReal K] {nar : K → K} {realMax : K}

omit [JsonReal K] in
/-- the first three reads of the constructor put the new object in the given mode, with the given dimensions -/
theorem setModes {v : SharedValues K} (hv : Coherent v) (hd : 1 ≤ v.dimension) (hd' : v.dimension ≤ uintMax) :
    ∃ s1 s2 s3 : SharedParams K, setBimodal alive me v.bimodal (fresh me realMax) = .ret () s1 ∧
      s1.bimodal.value = v.bimodal ∧
      setDimension alive me v.dimension s1 = .ret () s2 ∧ s2.bimodal.value = v.bimodal ∧
      setDimensionInput alive me v.dimensionInput s2 = .ret () s3 ∧ Bound me s3 ∧
      s3.values = { (fresh me realMax).values with
        bimodal := v.bimodal, dimension := v.dimension, dimensionInput := v.dimensionInput
        columnNames := List.replicate v.dimension "" } ∧
      s3.columnNames.size = v.dimension ∧ s3.emMin = (fresh me realMax).emMin ∧ s3.emMax = (fresh me realMax).emMax ∧
      s3.percentChg = (fresh me realMax).percentChg ∧ s3.window = (fresh me realMax).window := by
  cases hb : v.bimodal with
  | false =>
    obtain ⟨s1, hs1⟩ : ∃ s1 : SharedParams K, s1 = { fresh me realMax with
      bimodal := ⟨false, false, true, false, some me⟩ } := ⟨_, rfl⟩
    have hb1 : Bound me s1 := by subst hs1; exact ⟨rfl, rfl, rfl, rfl, rfl, rfl, rfl, rfl⟩
    have e1 : setBimodal alive me false (fresh me realMax) = .ret () s1 := by
      subst hs1
      rw [setBimodal_eq (fresh_WInv me realMax).bound, bimodalChanged_off]
      · rfl
      · exact ⟨rfl, rfl, rfl, rfl, rfl, rfl, rfl, rfl⟩
      · rfl
      · exact le_refl 1
    have e2 := (setDimension_eq (alive := alive) hb1 v.dimension).trans (if_pos (by subst hs1; exact ⟨hd, hd'⟩))
    have h0 := hv.2 hb
    refine ⟨s1, _, _, e1, by subst hs1; rfl, e2, by subst hs1; rfl,
      (setDimensionInput_eq ?_ v.dimensionInput).trans (if_pos ?_), ?_, ?_, rfl, ?_, ?_, ?_, ?_⟩
    · exact ⟨hb1.bimodal, hb1.dimension, hb1.input, hb1.columns, hb1.emMin, hb1.emMax, hb1.percent, hb1.window⟩
    · subst hs1
      rw [h0]
      exact ⟨le_refl 0, Nat.zero_le _⟩
    · exact ⟨hb1.bimodal, hb1.dimension, hb1.input, hb1.columns, hb1.emMin, hb1.emMax, hb1.percent, hb1.window⟩
    · subst hs1
      simp [SharedParams.values, fresh, resized]
    all_goals subst hs1; rfl
  | true =>
    obtain ⟨s1, hs1⟩ : ∃ s1 : SharedParams K, s1 = { fresh me realMax with
      bimodal := ⟨true, false, true, false, some me⟩
      dimension := ⟨2, 2, uintMax, false, some me⟩
      dimensionInput := ⟨1, 1, 1, false, some me⟩
      columnNames := ⟨["", ""], "", "", 2, false, some me⟩ } := ⟨_, rfl⟩
    have hb1 : Bound me s1 := by subst hs1; exact ⟨rfl, rfl, rfl, rfl, rfl, rfl, rfl, rfl⟩
    have e1 : setBimodal alive me true (fresh me realMax) = .ret () s1 := by
      subst hs1
      rw [setBimodal_eq (fresh_WInv me realMax).bound, bimodalChanged_on]
      · rfl
      · exact ⟨rfl, rfl, rfl, rfl, rfl, rfl, rfl, rfl⟩
      · rfl
      · show 2 ≤ uintMax; rw [uintMax]; omega
    obtain ⟨h2, h3, h4⟩ := hv.1 hb
    have e2 := (setDimension_eq (alive := alive) hb1 v.dimension).trans (if_pos (by subst hs1; exact ⟨h2, hd'⟩))
    refine ⟨s1, _, _, e1, by subst hs1; rfl, e2, by subst hs1; rfl,
      (setDimensionInput_eq ?_ v.dimensionInput).trans (if_pos ?_), ?_, ?_, rfl, ?_, ?_, ?_, ?_⟩
    · exact ⟨hb1.bimodal, hb1.dimension, hb1.input, hb1.columns, hb1.emMin, hb1.emMax, hb1.percent, hb1.window⟩
    · subst hs1
      refine ⟨h3, ?_⟩
      show v.dimensionInput ≤ uintPred v.dimension
      rw [uintPred, if_neg (by omega)]
      omega
    · exact ⟨hb1.bimodal, hb1.dimension, hb1.input, hb1.columns, hb1.emMin, hb1.emMax, hb1.percent, hb1.window⟩
    · subst hs1
      have h5 : resized v.dimension ["", ""] = List.replicate v.dimension "" := by
        obtain ⟨m, hm⟩ : ∃ m, v.dimension = m + 2 := ⟨v.dimension - 2, by omega⟩
        rw [hm]
        simp [resized, List.replicate_succ]
      simp [SharedParams.values, fresh, h5]
    all_goals subst hs1; rfl

omit [Field K] [JsonReal K] in
theorem checkLimits_real (x a b : K) : checkLimits ltReal x a b = decide (a ≤ x ∧ x ≤ b) := by
  simp only [checkLimits, ltReal]
  rcases le_or_gt a x with h | h <;> rcases le_or_gt x b with h' | h' <;>
    simp [h, h', not_lt_of_ge, not_le_of_gt]

/-- the JSON constructor on the tree of coherent values, up to the numeric fields -/
theorem ofJson_tree {v : SharedValues K} (hv : Coherent v) (hd : 1 ≤ v.dimension) (hd' : v.dimension ≤ uintMax)
    {names : List String} (hnames : readNames (tree v) 0 v.dimension = .ok names) (hl : names.length = v.dimension) :
    (1 ≤ v.emMin → v.emMin < 2147483648 → v.emMax < 2147483648 → 1 ≤ v.window → v.window ≤ uintMax →
      if 0 ≤ nar v.percentChg ∧ nar v.percentChg ≤ realMax then
        ∃ t, ofJson alive me nar realMax (tree v) = .ret () t ∧ t.values = { v with columnNames := names, percentChg := nar v.percentChg } ∧ Bound me t
      else ∃ t, ofJson alive me nar realMax (tree v) = .throw .domainError t) ∧
    (2147483648 ≤ v.emMin → ∃ t, ofJson alive me nar realMax (tree v) = .throw .jsonLogicError t) := by
  have hdi : v.dimensionInput ≤ uintMax := by
    cases hb : v.bimodal with
    | true => have := hv.1 hb; omega
    | false => have := hv.2 hb; omega
  obtain ⟨s1, s2, s3, e1, b1, e2, b2, e3, hb3, hval, hsz, f1, f2, f3, f4⟩ :=
    setModes (alive := alive) (me := me) (realMax := realMax) hv hd hd'
  have g := tree_getOr v
  have hprefix : ofJson alive me nar realMax (tree v) =
      ((do
        let j ← liftE ((tree v).getOr "em_algorithm_min_iterations" (.int 10))
        let w ← liftE j.asInt
        setEmMin alive me (uint w)
        let j ← liftE ((tree v).getOr "em_algorithm_max_iterations" (.int 0))
        let w ← liftE j.asInt
        setEmMax alive me (uint w)
        let j ← liftE ((tree v).getOr "em_algorithm_percent_chg" (.real (1 / 100)))
        let w ← liftE (j.asFloat nar)
        setPercentChg alive me w
        let j ← liftE ((tree v).getOr "likelihood_window" (.int 1))
        let w ← liftE j.asInt
        setWindow alive me (uint w)
        let s ← Prog.get
        let names ← liftE (readNames (tree v) 0 s.dimension.value)
        setColumnNames alive me names) : Prog (SharedParams K) Unit) s3 := by
    unfold ofJson readJson
    rw [bind_of_ret (by rw [(g _).1, liftE_ok]), bind_of_ret (by rw [Json.asBool, liftE_ok]), bind_of_ret e1]
    rw [bind_of_ret (Prog.get_def _), bind_of_ret (by rw [(g _).2.1, liftE_ok]),
      bind_of_ret (by rw [asInt_sint hd', liftE_ok]), bind_of_ret (by rw [uint_sint hd', e2])]
    rw [bind_of_ret (Prog.get_def _), bind_of_ret (by rw [(g _).2.2.1, liftE_ok]),
      bind_of_ret (by rw [asInt_sint hdi, liftE_ok]), bind_of_ret (by rw [uint_sint hdi, e3])]
  constructor
  · intro m1 m2 m3 w1 w2
    have hmin := (setEmMin_eq (alive := alive) hb3 v.emMin).trans (if_pos (by
      rw [f1, checkLimits_nat, decide_eq_true_eq]
      exact ⟨m1, by show v.emMin ≤ uintMax; rw [uintMax]; omega⟩))
    have hmax := (setEmMax_eq (alive := alive) (s := { s3 with emMin := { s3.emMin with value := v.emMin, changed := false } })
      ⟨hb3.bimodal, hb3.dimension, hb3.input, hb3.columns, hb3.emMin, hb3.emMax, hb3.percent, hb3.window⟩ v.emMax).trans
      (if_pos (by
        show checkLimits ltNat v.emMax s3.emMax.limitMin s3.emMax.limitMax = true
        rw [f2, checkLimits_nat, decide_eq_true_eq]
        exact ⟨Nat.zero_le _, by show v.emMax ≤ uintMax; rw [uintMax]; omega⟩))
    have hpct := setPercentChg_eq (alive := alive) (me := me) (s := { s3 with
        emMin := { s3.emMin with value := v.emMin, changed := false }
        emMax := { s3.emMax with value := v.emMax, changed := false } })
      ⟨hb3.bimodal, hb3.dimension, hb3.input, hb3.columns, hb3.emMin, hb3.emMax, hb3.percent, hb3.window⟩ (nar v.percentChg)
    have hcond : (checkLimits ltReal (nar v.percentChg) s3.percentChg.limitMin s3.percentChg.limitMax = true) ↔
        (0 ≤ nar v.percentChg ∧ nar v.percentChg ≤ realMax) := by
      rw [f3, checkLimits_real, decide_eq_true_eq]; rfl
    rw [hprefix, bind_of_ret (by rw [(g _).2.2.2.1, liftE_ok]), bind_of_ret (by rw [asInt_nat m2, liftE_ok]),
      bind_of_ret (by rw [uint_nat m2, hmin]), bind_of_ret (by rw [(g _).2.2.2.2.1, liftE_ok]),
      bind_of_ret (by rw [asInt_nat m3, liftE_ok]), bind_of_ret (by rw [uint_nat m3, hmax]),
      bind_of_ret (by rw [(g _).2.2.2.2.2.1, liftE_ok]), bind_of_ret (by simp only [Json.asFloat, Json.asReal]; rw [liftE_ok])]
    by_cases hc : 0 ≤ nar v.percentChg ∧ nar v.percentChg ≤ realMax
    · rw [if_pos hc]
      rw [if_pos (hcond.2 hc)] at hpct
      have hwin := (setWindow_eq (alive := alive) (me := me) (s := { s3 with
          emMin := { s3.emMin with value := v.emMin, changed := false }
          emMax := { s3.emMax with value := v.emMax, changed := false }
          percentChg := { s3.percentChg with value := nar v.percentChg, changed := false } })
        ⟨hb3.bimodal, hb3.dimension, hb3.input, hb3.columns, hb3.emMin, hb3.emMax, hb3.percent, hb3.window⟩ v.window).trans
        (if_pos (by
          show checkLimits ltNat v.window s3.window.limitMin s3.window.limitMax = true
          rw [f4, checkLimits_nat, decide_eq_true_eq]
          exact ⟨w1, w2⟩))
      have hdim : s3.dimension.value = v.dimension := congrArg SharedValues.dimension hval
      rw [bind_of_ret hpct, bind_of_ret (by rw [(g _).2.2.2.2.2.2, liftE_ok]),
        bind_of_ret (by rw [asInt_sint w2, liftE_ok]), bind_of_ret (by rw [uint_sint w2, hwin]),
        bind_of_ret (Prog.get_def _), bind_of_ret (by simp only; rw [hdim, hnames, liftE_ok])]
      rw [setColumnNames_eq, if_neg]
      · refine ⟨_, rfl, ?_, ⟨hb3.bimodal, hb3.dimension, hb3.input, hb3.columns, hb3.emMin, hb3.emMax, hb3.percent, hb3.window⟩⟩
        have i1 : s3.bimodal.value = v.bimodal := congrArg SharedValues.bimodal hval
        have i2 : s3.dimensionInput.value = v.dimensionInput := congrArg SharedValues.dimensionInput hval
        simp only [SharedParams.values, i1, i2, hdim]
      · simp only [hsz, hl]
        exact fun h => h.2 rfl
      · exact ⟨hb3.bimodal, hb3.dimension, hb3.input, hb3.columns, hb3.emMin, hb3.emMax, hb3.percent, hb3.window⟩
    · rw [if_neg hc]
      rw [if_neg (fun h => hc (hcond.1 h))] at hpct
      exact ⟨_, by rw [Prog.bind_def, hpct]⟩
  · intro m1
    rw [hprefix, bind_of_ret (by rw [(g _).2.2.2.1, liftE_ok])]
    refine ⟨s3, ?_⟩
    rw [Prog.bind_def, Json.asInt, if_neg (by omega)]
    rfl

end SharedParams

open SharedParams
variable {K : Type} [Field K] [LinearOrder K] [JsonReal K] {nar : K → K} {realMax : K} {alive : Nat → Bool} {me tmp : Nat}

/-- **C27 (partial), shared parameters.**  An object whose dimension has been set writes its values to JSON, and reading them
    back restores every one of them, on any target; the change threshold passes through `float`, so it is restored when it
    is a `float`.  Missing: thresholds that are not `float`s, iteration counts from 2^31 on, new objects whose dimension was
    never set, incoherent dimensions (theorems `C27_shared_…_violated` below). -/
theorem C27_shared_partial {s : SharedParams K} (hs : After alive me anyCall (fresh me realMax) s)
    (hv : Admissible realMax s.values) (hset : s.columnNames.size ≠ 0) (hfl : nar s.values.percentChg = s.values.percentChg)
    (target : SharedParams K) :
    ∃ root t, toJson s = .ret root s ∧ fromJson alive nar tmp realMax root target = .ret () t ∧ t.values = s.values := by
  have hw := (fresh_WInv me realMax).after hs
  have hsz : s.columnNames.size = s.columnNames.value.length := by
    rcases hw.columns with h | h
    · exact absurd h.1 hset
    · rw [h.1, h.2]
  obtain ⟨h1, h2, h3, h4, h5, h6, h7, h8, h9, h10, h11⟩ := hv
  have h := (ofJson_tree (alive := alive) (me := tmp) (nar := nar) (realMax := realMax) h1 h2 h3
    (tree_readNames h2 h4) h4).1 h5 h6 h7 h10 h11
  rw [hfl, if_pos ⟨h8, h9⟩] at h
  obtain ⟨t, ht, hval, _⟩ := h
  refine ⟨_, t, toJson_eq hsz, ?_, hval⟩
  rw [fromJson, ht]
  rfl

/-- **C27, shared parameters, assignment.**  Every value is assigned. -/
theorem C27_shared_assign (src dst : SharedParams K) : ∃ s', assignFrom src dst = .ret () s' ∧ s'.values = src.values :=
  ⟨src, rfl, rfl⟩

/-- **C27 (violated), shared parameters.**  A change threshold is restored only up to its conversion to `float`; if that
    conversion leaves the limits, reading throws `domain_error`. -/
theorem C27_shared_float_violated {s : SharedParams K} (hs : After alive me anyCall (fresh me realMax) s)
    (hv : Admissible realMax s.values) (hset : s.columnNames.size ≠ 0) (target : SharedParams K) :
    ∃ root, toJson s = .ret root s ∧
      if 0 ≤ nar s.values.percentChg ∧ nar s.values.percentChg ≤ realMax then
        ∃ t, fromJson alive nar tmp realMax root target = .ret () t ∧ t.values.percentChg = nar s.values.percentChg
      else fromJson alive nar tmp realMax root target = .throw .domainError target := by
  have hw := (fresh_WInv me realMax).after hs
  have hsz : s.columnNames.size = s.columnNames.value.length := by
    rcases hw.columns with h | h
    · exact absurd h.1 hset
    · rw [h.1, h.2]
  obtain ⟨h1, h2, h3, h4, h5, h6, h7, h8, h9, h10, h11⟩ := hv
  have h := (ofJson_tree (alive := alive) (me := tmp) (nar := nar) (realMax := realMax) h1 h2 h3
    (tree_readNames h2 h4) h4).1 h5 h6 h7 h10 h11
  refine ⟨_, toJson_eq hsz, ?_⟩
  split at h
  · rename_i hc
    rw [if_pos hc]
    obtain ⟨t, ht, hval, _⟩ := h
    refine ⟨t, by rw [fromJson, ht]; rfl, ?_⟩
    rw [hval]
  · rename_i hc
    rw [if_neg hc]
    obtain ⟨t, ht⟩ := h
    rw [fromJson, ht]

/-- **C27 (violated), shared parameters.**  A minimum number of iterations from 2^31 on (accepted by `set`) is written and
    cannot be read back: reading throws jsoncpp's logic error. -/
theorem C27_shared_iterations_violated {s : SharedParams K} (hs : After alive me anyCall (fresh me realMax) s)
    (hset : s.columnNames.size ≠ 0) (hv : Coherent s.values) (hd : s.values.dimension ≤ uintMax)
    (hm : 2147483648 ≤ s.values.emMin) (target : SharedParams K) :
    ∃ root, toJson s = .ret root s ∧ fromJson alive nar tmp realMax root target = .throw .jsonLogicError target := by
  have hw := (fresh_WInv me realMax).after hs
  have hsz : s.columnNames.size = s.columnNames.value.length ∧ s.columnNames.value.length = s.dimension.value := by
    rcases hw.columns with h | h
    · exact absurd h.1 hset
    · exact ⟨by rw [h.1, h.2], h.2⟩
  have hone : 1 ≤ s.dimension.value := by
    refine le_trans ?_ hw.le
    rw [hw.lo]; split <;> omega
  obtain ⟨t, ht⟩ := (ofJson_tree (alive := alive) (me := tmp) (nar := nar) (realMax := realMax) hv hone hd
    (tree_readNames hone hsz.2) hsz.2).2 hm
  refine ⟨_, toJson_eq hsz.1, ?_⟩
  rw [fromJson, ht]

/-- **C27 (violated), shared parameters.**  Naming the columns of a new object makes it impossible to save: `toJson` throws
    `out_of_range`. -/
theorem C27_shared_names_violated (name : String) (l : List String) :
    ∃ s' : SharedParams K, call alive me (.columnNames (name :: l)) (fresh me realMax) = .ret () s' ∧
      toJson s' = .throw .outOfRange s' :=
  ⟨_, (setColumnNames_eq (fresh_WInv me realMax).bound (name :: l)).trans
    (if_neg fun h => absurd h.1 (lt_irrefl _)), rfl⟩

/-- **C27 (violated), shared parameters.**  A new object, which has no column name, is read back with one empty name. -/
theorem C27_shared_new_violated (target : SharedParams K) (h0 : 0 ≤ nar (1 / 100)) (h1 : nar (1 / 100) ≤ realMax) :
    ∃ root t, toJson (fresh me realMax) = .ret root (fresh me realMax) ∧
      fromJson alive nar tmp realMax root target = .ret () t ∧
      (fresh me realMax : SharedParams K).values.columnNames = [] ∧ t.values.columnNames = [""] := by
  have h := (ofJson_tree (alive := alive) (me := tmp) (nar := nar) (realMax := realMax)
    (v := (fresh me realMax : SharedParams K).values) (names := [""])
    ⟨nofun, fun _ => rfl⟩ (le_refl 1) (by show 1 ≤ uintMax; rw [uintMax]; omega) rfl rfl).1
    (by show 1 ≤ 10; omega) (by show 10 < 2147483648; omega) (by show 0 < 2147483648; omega) (le_refl 1)
    (by show 1 ≤ uintMax; rw [uintMax]; omega)
  rw [if_pos ⟨h0, h1⟩] at h
  obtain ⟨t, ht, hval, _⟩ := h
  refine ⟨_, t, toJson_eq rfl, ?_, rfl, ?_⟩
  · rw [fromJson, ht]; rfl
  · rw [hval]

/-- conversion to `float` of the numbers between 2^-7 and 2^-6: rounding to a multiple of 2^-30 -/
private def narrow : ℚ → ℚ := fun q => round (q * 2 ^ 30) / 2 ^ 30

/-- the default threshold, the `double` nearest to 0.01, is not a `float`: it does not survive JSON -/
example : narrow (5764607523034235 / 2 ^ 59) ≠ 5764607523034235 / 2 ^ 59 := by decide +kernel

/-- the hypotheses of `C27_shared_partial` are met, by a bimodal object of dimension 3 with threshold 1/64 -/
example : ∃ s : SharedParams ℚ, After (fun _ => true) 0 anyCall (fresh 0 1000) s ∧ Admissible 1000 s.values ∧
    s.columnNames.size ≠ 0 ∧ narrow s.values.percentChg = s.values.percentChg ∧ s.values.dimension = 3 := by
  have step : ∀ {s : SharedParams ℚ} (op : Op ℚ), After (fun _ => true) 0 anyCall (fresh 0 1000) s →
      ∀ s', call (fun _ => true) 0 op s = .ret () s' → After (fun _ => true) 0 anyCall (fresh 0 1000) s' :=
    fun op h s' h' => .step h trivial (by rw [h']; rfl)
  have h1 := step (.percentChg (1 / 64)) .start _
    ((setPercentChg_eq (fresh_WInv 0 1000).bound _).trans (if_pos (by decide +kernel)))
  have h2 := step (.bimodal true) h1 _ (by rfl)
  have h3 := step (.dimension 3) h2 _ (by rfl)
  exact ⟨_, h3, ⟨⟨fun _ => by decide, nofun⟩, by decide, by decide, rfl, by decide, by decide, by decide, by decide +kernel,
    by decide +kernel, by decide, by decide⟩, by decide, by decide +kernel, rfl⟩

end Xmm
