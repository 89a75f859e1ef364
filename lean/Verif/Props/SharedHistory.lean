import Verif.Props.SharedParams
import Mathlib.Algebra.Field.Rat
import Mathlib.Algebra.Order.Ring.Unbundled.Rat
/-
C26: the theorems.
-/
namespace Xmm
open SharedSpec
namespace SharedParams
variable {K : Type} {alive : Nat → Bool} {me : Nat}

theorem fresh_WInv [Field K] (me : Nat) (realMax : K) : WInv me (fresh me realMax) :=
  ⟨⟨rfl, rfl, rfl, rfl, rfl, rfl, rfl, rfl⟩, rfl, rfl, le_refl _, Or.inl ⟨rfl, rfl⟩⟩

/-- the invariant of careful histories -/
structure SInv (me : Nat) (s : SharedParams K) : Prop where
  weak : WInv me s
  coherent : Coherent s.values
  on : s.bimodal.value = true → s.dimensionInput.limitMin = 1 ∧ s.dimensionInput.limitMax = s.dimension.value - 1
  off : s.bimodal.value = false → s.dimensionInput.limitMin = 0 ∧
    (s.dimension.value = 1 ∨ s.dimensionInput.limitMax = s.dimension.value - 1)

theorem fresh_SInv [Field K] (me : Nat) (realMax : K) : SInv me (fresh me realMax) :=
  ⟨fresh_WInv me realMax, ⟨nofun, fun _ => rfl⟩, nofun, fun _ => ⟨rfl, Or.inl rfl⟩⟩

variable [LT K] [DecidableLT K]

/-- switching bimodal on in a careful history succeeds -/
theorem SInv.turn_on {s : SharedParams K} (hs : SInv me s) : ∃ s' : SharedParams K,
    setBimodal alive me true s = .ret () s' ∧ s'.values =
      { s.values with
        bimodal := true, dimension := max 2 s.dimension.value, dimensionInput := max 1 s.dimensionInput.value,
        columnNames := if s.dimension.value < 2 then resized 2 s.columnNames.value else s.columnNames.value } ∧
      s'.dimensionInput.limitMin = 1 ∧ s'.dimensionInput.limitMax = max 2 s.dimension.value - 1 := by
  obtain ⟨⟨hb, hmax, hmin, hle, hc⟩, hco, hon, hoff⟩ := hs
  have hb1 : Bound me ({ s with bimodal := { s.bimodal with value := true, changed := true } } : SharedParams K) :=
    ⟨hb.bimodal, hb.dimension, hb.input, hb.columns, hb.emMin, hb.emMax, hb.percent, hb.window⟩
  rw [setBimodal_eq hb, bimodalChanged_on hb1 rfl (by simp only [hmax, uintMax]; omega)]
  have hone : 1 ≤ s.dimension.value := by
    refine le_trans ?_ hle
    rw [hmin]; split <;> omega
  have hco1 := hco.1
  have hco2 := hco.2
  simp only [SharedParams.values] at hco1 hco2
  by_cases hd : s.dimension.value < 2
  · have h0 : s.dimensionInput.value = 0 := by
      cases h : s.bimodal.value with
      | true => have := hco1 h; omega
      | false => exact hco2 h
    have hn1 : max 1 s.dimensionInput.value = 1 := by omega
    have hn2 : max 2 s.dimension.value = 2 := by omega
    simp only [hd, if_true, h0, le_refl]
    refine ⟨_, rfl, ?_, rfl, ?_⟩
    · simp only [SharedParams.values, hn2]; rfl
    · simp only [hn2]
  · have hn2 : max 2 s.dimension.value = s.dimension.value := by omega
    have htop : s.dimensionInput.limitMax = s.dimension.value - 1 := by
      cases h : s.bimodal.value with
      | true => exact (hon h).2
      | false => rcases (hoff h).2 with h | h <;> omega
    by_cases hi : 1 ≤ s.dimensionInput.value
    · have hn1 : max 1 s.dimensionInput.value = s.dimensionInput.value := by omega
      simp only [hd, if_false, hi, if_true]
      refine ⟨_, rfl, ?_, rfl, ?_⟩
      · simp only [SharedParams.values, hn1]
      · simp only [hn2, htop]
    · have hn1 : max 1 s.dimensionInput.value = 1 := by omega
      have ht1 : 1 ≤ s.dimensionInput.limitMax := by omega
      simp only [hd, if_false, hi, ht1, if_true]
      refine ⟨_, rfl, ?_, rfl, ?_⟩
      · simp only [SharedParams.values, hn1]
      · simp only [hn2, htop]

theorem SInv.step {s s' : SharedParams K} (hs : SInv me s) (op : Op K) (hok : careful s.values op)
    (h : (call alive me op s).stateAfter = some s') : SInv me s' := by
  have hw := hs.weak.step op h
  have hone : 1 ≤ s.dimension.value := by
    refine le_trans ?_ hs.weak.le
    rw [hs.weak.lo]; split <;> omega
  obtain ⟨⟨hb, hmax, hmin, hle, hc⟩, hco, hon, hoff⟩ := id hs
  have hco1 := hco.1
  have hco2 := hco.2
  simp only [SharedParams.values] at hco1 hco2
  cases op with
  | bimodal b =>
    simp only [call] at h
    cases b with
    | true =>
      obtain ⟨s1, h1, hv, hl, hm⟩ := hs.turn_on (alive := alive)
      rw [h1] at h
      simp only [Res.stateAfter, Option.some.injEq] at h
      subst h
      have e1 : s1.bimodal.value = true := congrArg SharedValues.bimodal hv
      have e2 : s1.dimension.value = max 2 s.dimension.value := congrArg SharedValues.dimension hv
      have e3 : s1.dimensionInput.value = max 1 s.dimensionInput.value := congrArg SharedValues.dimensionInput hv
      refine ⟨hw, ⟨fun _ => ?_, fun hf => ?_⟩, fun _ => ⟨hl, by omega⟩, fun hf => ?_⟩
      · simp only [SharedParams.values]
        refine ⟨by omega, by omega, ?_⟩
        cases hbv : s.bimodal.value with
        | true => have := hco1 hbv; omega
        | false => have := hco2 hbv; omega
      · simp [SharedParams.values, e1] at hf
      · simp [e1] at hf
    | false =>
      have hok' : s.bimodal.value = false ∧ s.dimension.value = 1 := by
        rcases hok with h | h
        · cases h
        · exact h
      have hb1 : Bound me ({ s with bimodal := { s.bimodal with value := false, changed := true } } : SharedParams K) :=
        ⟨hb.bimodal, hb.dimension, hb.input, hb.columns, hb.emMin, hb.emMax, hb.percent, hb.window⟩
      rw [setBimodal_eq hb, bimodalChanged_off hb1 rfl hone] at h
      simp only [(hoff hok'.1).1, if_true] at h
      simp only [Res.stateAfter, Option.some.injEq] at h
      subst h
      exact ⟨hw, ⟨nofun, fun _ => rfl⟩, nofun, fun _ => ⟨rfl, Or.inl hok'.2⟩⟩
  | dimension n =>
    simp only [call] at h
    rw [setDimension_eq hb] at h
    split at h
    · rename_i hn
      simp only [Res.stateAfter, Option.some.injEq] at h
      subst h
      have hn0 : n ≠ 0 := by
        have := hn.1
        rw [hmin] at this
        split at this <;> omega
      have hp : uintPred n = n - 1 := by rw [uintPred, if_neg hn0]
      refine ⟨hw, ⟨fun hbt => ?_, fun hbf => hco2 hbf⟩, fun hbt => ⟨(hon hbt).1, hp⟩, fun hbf => ⟨(hoff hbf).1, Or.inr hp⟩⟩
      simp only [SharedParams.values] at hbt ⊢
      have h2 := hn.1
      rw [hmin, if_pos hbt] at h2
      have h3 := hco1 hbt
      have h4 := hok hbt
      simp only [SharedParams.values] at h4
      exact ⟨h2, h3.2.1, by omega⟩
    · simp only [Res.stateAfter, Option.some.injEq] at h
      subst h
      exact hs
  | dimensionInput k =>
    simp only [call] at h
    rw [setDimensionInput_eq hb] at h
    split at h
    · rename_i hk
      simp only [Res.stateAfter, Option.some.injEq] at h
      subst h
      refine ⟨hw, ⟨fun hbt => ?_, fun hbf => ?_⟩, hon, hoff⟩
      · simp only [SharedParams.values] at hbt ⊢
        have h1 := hon hbt
        have h2 := hco1 hbt
        exact ⟨h2.1, by omega, by omega⟩
      · simp only [SharedParams.values] at hbf ⊢
        rcases hok with h | h
        · simp only [SharedParams.values] at h
          rw [hbf] at h; cases h
        · exact h
    · simp only [Res.stateAfter, Option.some.injEq] at h
      subst h
      exact hs
  | columnNames l =>
    simp only [call] at h
    rw [setColumnNames_eq hb] at h
    split at h <;> simp only [Res.stateAfter, Option.some.injEq] at h <;> subst h
    · exact hs
    · exact ⟨hw, hco, hon, hoff⟩
  | emMin n =>
    simp only [call] at h
    rw [setEmMin_eq hb] at h
    split at h <;> simp only [Res.stateAfter, Option.some.injEq] at h <;> subst h
    · exact ⟨hw, hco, hon, hoff⟩
    · exact hs
  | emMax n =>
    simp only [call] at h
    rw [setEmMax_eq hb] at h
    split at h <;> simp only [Res.stateAfter, Option.some.injEq] at h <;> subst h
    · exact ⟨hw, hco, hon, hoff⟩
    · exact hs
  | percentChg x =>
    simp only [call] at h
    rw [setPercentChg_eq hb] at h
    split at h <;> simp only [Res.stateAfter, Option.some.injEq] at h <;> subst h
    · exact ⟨hw, hco, hon, hoff⟩
    · exact hs
  | window n =>
    simp only [call] at h
    rw [setWindow_eq hb] at h
    split at h <;> simp only [Res.stateAfter, Option.some.injEq] at h <;> subst h
    · exact ⟨hw, hco, hon, hoff⟩
    · exact hs

theorem WInv.after {ok : SharedValues K → Op K → Prop} {s s' : SharedParams K} (hs : WInv me s)
    (h : After alive me ok s s') : WInv me s' := by
  induction h with
  | start => exact hs
  | step _ _ h ih => exact ih.step _ h

theorem SInv.after {s s' : SharedParams K} (hs : SInv me s) (h : After alive me careful s s') : SInv me s' := by
  induction h with
  | start => exact hs
  | step _ hok h ih => exact ih.step _ hok h

/-- the two outcomes of switching on -/
theorem setBimodal_true_cases {s : SharedParams K} (hs : WInv me s) : ∃ s' : SharedParams K, s'.bimodal.value = true ∧
    (setBimodal alive me true s = .ret () s' ∨ setBimodal alive me true s = .throw .domainError s') := by
  have hb := hs.bound
  have hb1 : Bound me ({ s with bimodal := { s.bimodal with value := true, changed := true } } : SharedParams K) :=
    ⟨hb.bimodal, hb.dimension, hb.input, hb.columns, hb.emMin, hb.emMax, hb.percent, hb.window⟩
  rw [setBimodal_eq hb, bimodalChanged_on hb1 rfl (by rw [hs.hi, uintMax]; omega)]
  simp only
  by_cases h1 : 1 ≤ s.dimensionInput.value
  · simp only [h1, if_true]
    exact ⟨_, rfl, Or.inl rfl⟩
  · by_cases h2 : 1 ≤ (if s.dimension.value < 2 then 1 else s.dimensionInput.limitMax)
    · simp only [h1, h2, if_true, if_false]
      exact ⟨_, rfl, Or.inl rfl⟩
    · simp only [h1, h2, if_false]
      exact ⟨_, rfl, Or.inr rfl⟩

/-- every call is defined on an object whose callbacks are in place: it returns or throws `domain_error` -/
theorem WInv.defined {s : SharedParams K} (hs : WInv me s) (op : Op K) :
    (∃ s', call alive me op s = .ret () s') ∨ ∃ s', call alive me op s = .throw .domainError s' := by
  have hb := hs.bound
  have hone : 1 ≤ s.dimension.value := by
    refine le_trans ?_ hs.le
    rw [hs.lo]; split <;> omega
  cases op with
  | bimodal b =>
    have hb1 : Bound me ({ s with bimodal := { s.bimodal with value := b, changed := true } } : SharedParams K) :=
      ⟨hb.bimodal, hb.dimension, hb.input, hb.columns, hb.emMin, hb.emMax, hb.percent, hb.window⟩
    simp only [call]
    rw [setBimodal_eq hb]
    cases b with
    | true =>
      rw [← setBimodal_eq hb]
      obtain ⟨s', _, h | h⟩ := setBimodal_true_cases (alive := alive) hs
      · exact Or.inl ⟨s', h⟩
      · exact Or.inr ⟨s', h⟩
    | false =>
      rw [bimodalChanged_off hb1 rfl hone]
      simp only
      by_cases h0 : s.dimensionInput.limitMin = 0
      · exact Or.inl ⟨_, by rw [if_pos h0]⟩
      · exact Or.inr ⟨_, by rw [if_neg h0]⟩
  | dimension n => simp only [call]; rw [setDimension_eq hb]; split; exacts [Or.inl ⟨_, rfl⟩, Or.inr ⟨_, rfl⟩]
  | dimensionInput n => simp only [call]; rw [setDimensionInput_eq hb]; split; exacts [Or.inl ⟨_, rfl⟩, Or.inr ⟨_, rfl⟩]
  | columnNames n => simp only [call]; rw [setColumnNames_eq hb]; split; exacts [Or.inr ⟨_, rfl⟩, Or.inl ⟨_, rfl⟩]
  | emMin n => simp only [call]; rw [setEmMin_eq hb]; split; exacts [Or.inl ⟨_, rfl⟩, Or.inr ⟨_, rfl⟩]
  | emMax n => simp only [call]; rw [setEmMax_eq hb]; split; exacts [Or.inl ⟨_, rfl⟩, Or.inr ⟨_, rfl⟩]
  | percentChg n => simp only [call]; rw [setPercentChg_eq hb]; split; exacts [Or.inl ⟨_, rfl⟩, Or.inr ⟨_, rfl⟩]
  | window n => simp only [call]; rw [setWindow_eq hb]; split; exacts [Or.inl ⟨_, rfl⟩, Or.inr ⟨_, rfl⟩]

end SharedParams

open SharedParams
variable {K : Type} [Field K] [LT K] [DecidableLT K] {alive : Nat → Bool} {me : Nat} {realMax : K}

/-- **C26 (partial).**  From a new object, after every history of careful calls (exceptions caught) the parameters are
    coherent.  Missing: histories that switch bimodal off, shrink the dimension to the input dimension, or set the input
    dimension of a unimodal object; the property is false for them (theorems `C26_…_violated` below). -/
theorem C26_coherent_partial {s : SharedParams K} (h : After alive me careful (fresh me realMax) s) : Coherent s.values :=
  ((fresh_SInv me realMax).after h).coherent

/-- **C26 (partial).**  In a careful history: bimodal can be switched on, keeping the dimensions that already make sense;
    every dimension above the input dimension can be chosen, and every input dimension between 1 and dimension - 1. -/
theorem C26_settable_partial {s : SharedParams K} (h : After alive me careful (fresh me realMax) s) :
    (∃ s', call alive me (.bimodal true) s = .ret () s' ∧ s'.values.bimodal = true ∧
      s'.values.dimension = max 2 s.values.dimension ∧ s'.values.dimensionInput = max 1 s.values.dimensionInput) ∧
    (∀ n, s.values.dimensionInput < n → (if s.values.bimodal = true then 2 else 1) ≤ n → n ≤ uintMax →
      ∃ s', call alive me (.dimension n) s = .ret () s' ∧ s'.values.dimension = n ∧ s'.values.columnNames.length = n) ∧
    (s.values.bimodal = true → ∀ k, 1 ≤ k → k < s.values.dimension →
      ∃ s', call alive me (.dimensionInput k) s = .ret () s' ∧ s'.values.dimensionInput = k) := by
  have hs := (fresh_SInv me realMax).after h
  refine ⟨?_, fun n h1 h2 h3 => ?_, fun hb k h1 h2 => ?_⟩
  · obtain ⟨s1, h1, hv, _⟩ := hs.turn_on (alive := alive)
    exact ⟨s1, h1, congrArg SharedValues.bimodal hv, congrArg SharedValues.dimension hv,
      congrArg SharedValues.dimensionInput hv⟩
  · refine ⟨_, (setDimension_eq hs.weak.bound n).trans (if_pos ?_), rfl, length_resized n _⟩
    rw [hs.weak.lo, hs.weak.hi]
    exact ⟨h2, h3⟩
  · refine ⟨_, (setDimensionInput_eq hs.weak.bound k).trans (if_pos ?_), rfl⟩
    have := hs.on hb
    simp only [SharedParams.values] at h2
    omega

/-- **C26 (partial).**  After every history of calls whatsoever: the dimension is at least 1, at least 2 in bimodal mode,
    and once it is not 1 there is one column name per dimension; and no call is undefined: it returns or throws
    `domain_error`. -/
theorem C26_dimension_partial {s : SharedParams K} (h : After alive me anyCall (fresh me realMax) s) :
    1 ≤ s.values.dimension ∧ (s.values.bimodal = true → 2 ≤ s.values.dimension) ∧
    (s.values.dimension ≠ 1 → s.values.columnNames.length = s.values.dimension) ∧
    ∀ op, (∃ s', call alive me op s = .ret () s') ∨ ∃ s', call alive me op s = .throw .domainError s' := by
  have hs := (fresh_WInv me realMax).after h
  have hl := hs.lo
  have hle := hs.le
  refine ⟨?_, fun hb => ?_, fun h1 => ?_, hs.defined⟩
  · simp only [SharedParams.values]
    split at hl <;> omega
  · simp only [SharedParams.values] at hb ⊢
    rw [if_pos hb] at hl
    omega
  · rcases hs.columns with hc | hc
    · exact absurd hc.2 h1
    · exact hc.2

/-- **C26 (partial).**  After a successful `dimension.set(n)` there is one column name per dimension in every later history. -/
theorem C26_columns_partial {s s' s'' : SharedParams K} {n : Nat} (h : After alive me anyCall (fresh me realMax) s)
    (hn : call alive me (.dimension n) s = .ret () s') (h' : After alive me anyCall s' s'') :
    s''.values.columnNames.length = s''.values.dimension := by
  have hs := (fresh_WInv me realMax).after h
  have hs' : WInv me s' := hs.step _ (by rw [hn]; rfl)
  have key : ∀ {t : SharedParams K}, After alive me anyCall s' t → t.columnNames.size ≠ 0 := by
    intro t ht
    induction ht with
    | start =>
      simp only [call] at hn
      rw [setDimension_eq hs.bound] at hn
      split at hn
      · rename_i hr
        simp only [Res.ret.injEq, true_and] at hn
        subst hn
        have := hr.1
        rw [hs.lo] at this
        show n ≠ 0
        split at this <;> omega
      · cases hn
    | @step t t' op ht _ hstep ih =>
      have hwt := hs'.after ht
      have hwt' := hwt.step _ hstep
      intro h0
      rcases hwt'.columns with hc | hc
      · cases op with
        | dimension m =>
          simp only [call] at hstep
          rw [setDimension_eq hwt.bound] at hstep
          split at hstep
          · rename_i hr
            simp only [Res.stateAfter, Option.some.injEq] at hstep
            subst hstep
            have h1 : m = 0 := h0
            have := hr.1
            rw [hwt.lo] at this
            split at this <;> omega
          · simp only [Res.stateAfter, Option.some.injEq] at hstep
            subst hstep
            exact ih h0
        | bimodal b =>
          simp only [call] at hstep
          have hb := hwt.bound
          have hb1 : Bound me ({ t with bimodal := { t.bimodal with value := b, changed := true } } : SharedParams K) :=
            ⟨hb.bimodal, hb.dimension, hb.input, hb.columns, hb.emMin, hb.emMax, hb.percent, hb.window⟩
          have hone : 1 ≤ t.dimension.value := by
            refine le_trans ?_ hwt.le
            rw [hwt.lo]; split <;> omega
          rw [setBimodal_eq hb] at hstep
          cases b with
          | true =>
            have : 2 ≤ t'.dimension.value := by
              have h1 := hwt'.le
              have h2 := hwt'.lo
              rw [if_pos] at h2
              · omega
              · rw [← setBimodal_eq hb] at hstep
                obtain ⟨s2, hv, h | h⟩ := setBimodal_true_cases (alive := alive) hwt
                all_goals
                  rw [h] at hstep
                  simp only [Res.stateAfter, Option.some.injEq] at hstep
                  rw [← hstep]
                  exact hv
            omega
          | false =>
            rw [bimodalChanged_off hb1 rfl hone] at hstep
            simp only at hstep
            by_cases hz : t.dimensionInput.limitMin = 0
            · rw [if_pos hz] at hstep
              simp only [Res.stateAfter, Option.some.injEq] at hstep
              subst hstep
              exact ih h0
            · rw [if_neg hz] at hstep
              simp only [Res.stateAfter, Option.some.injEq] at hstep
              subst hstep
              exact ih h0
        | dimensionInput m =>
          simp only [call] at hstep
          rw [setDimensionInput_eq hwt.bound] at hstep
          split at hstep <;> simp only [Res.stateAfter, Option.some.injEq] at hstep <;> subst hstep <;> exact ih h0
        | columnNames m =>
          simp only [call] at hstep
          rw [setColumnNames_eq hwt.bound] at hstep
          split at hstep <;> simp only [Res.stateAfter, Option.some.injEq] at hstep <;> subst hstep <;> exact ih h0
        | emMin m =>
          simp only [call] at hstep
          rw [setEmMin_eq hwt.bound] at hstep
          split at hstep <;> simp only [Res.stateAfter, Option.some.injEq] at hstep <;> subst hstep <;> exact ih h0
        | emMax m =>
          simp only [call] at hstep
          rw [setEmMax_eq hwt.bound] at hstep
          split at hstep <;> simp only [Res.stateAfter, Option.some.injEq] at hstep <;> subst hstep <;> exact ih h0
        | percentChg m =>
          simp only [call] at hstep
          rw [setPercentChg_eq hwt.bound] at hstep
          split at hstep <;> simp only [Res.stateAfter, Option.some.injEq] at hstep <;> subst hstep <;> exact ih h0
        | window m =>
          simp only [call] at hstep
          rw [setWindow_eq hwt.bound] at hstep
          split at hstep <;> simp only [Res.stateAfter, Option.some.injEq] at hstep <;> subst hstep <;> exact ih h0
      · have h1 : 1 ≤ t'.dimension.value := by
          refine le_trans ?_ hwt'.le
          rw [hwt'.lo]; split <;> omega
        omega
  rcases (hs'.after h').columns with hc | hc
  · exact absurd hc.1 (key h')
  · exact hc.2

/-- **C26 (violated).**  Bimodal can never be switched off: in every careful history that has made the object bimodal,
    `bimodal.set(false)` throws `domain_error`, after having stored `false`: the object is left unimodal with a non-zero input
    dimension. -/
theorem C26_off_violated {s : SharedParams K} (h : After alive me careful (fresh me realMax) s)
    (hb : s.values.bimodal = true) : ∃ s', call alive me (.bimodal false) s = .throw .domainError s' ∧
      s'.values.bimodal = false ∧ s'.values.dimensionInput = s.values.dimensionInput ∧ ¬ Coherent s'.values := by
  have hs := (fresh_SInv me realMax).after h
  have hbd := hs.weak.bound
  have hb1 : Bound me ({ s with bimodal := { s.bimodal with value := false, changed := true } } : SharedParams K) :=
    ⟨hbd.bimodal, hbd.dimension, hbd.input, hbd.columns, hbd.emMin, hbd.emMax, hbd.percent, hbd.window⟩
  have hco := hs.coherent.1 hb
  simp only [call]
  rw [setBimodal_eq hbd, bimodalChanged_off hb1 rfl (by simp only [SharedParams.values] at hco ⊢; omega)]
  have hne : ¬ s.dimensionInput.limitMin = 0 := by have := (hs.on hb).1; omega
  simp only [hne, if_false]
  refine ⟨_, rfl, rfl, rfl, fun hc => ?_⟩
  have := hc.2 rfl
  simp only [SharedParams.values] at hco this
  omega

/-- **C26 (violated).**  Lowering the dimension of a bimodal object to its input dimension or below is accepted. -/
theorem C26_shrink_violated {s : SharedParams K} (h : After alive me careful (fresh me realMax) s)
    (hb : s.values.bimodal = true) {n : Nat} (h2 : 2 ≤ n) (hn : n ≤ s.values.dimensionInput) (hn' : n ≤ uintMax) :
    ∃ s', call alive me (.dimension n) s = .ret () s' ∧ s'.values.bimodal = true ∧ s'.values.dimension = n ∧
      s'.values.dimensionInput = s.values.dimensionInput ∧ ¬ Coherent s'.values := by
  have hs := (fresh_SInv me realMax).after h
  refine ⟨_, (setDimension_eq hs.weak.bound n).trans (if_pos ?_), hb, rfl, rfl, fun hc => ?_⟩
  · rw [hs.weak.lo, hs.weak.hi, if_pos (show s.bimodal.value = true from hb)]
    exact ⟨h2, hn'⟩
  · have := (hc.1 hb).2.2
    simp only [SharedParams.values] at this hn
    omega

/-- **C26 (violated).**  Once the dimension of a unimodal object has been set, a non-zero input dimension is accepted. -/
theorem C26_unimodal_violated {n k : Nat} (hk : 1 ≤ k) (hkn : k < n) (hn : n ≤ uintMax) :
    ∃ s s', call alive me (.dimension n) (fresh me realMax) = .ret () s ∧ call alive me (.dimensionInput k) s = .ret () s' ∧
      s'.values.bimodal = false ∧ s'.values.dimensionInput = k ∧ ¬ Coherent s'.values := by
  have hw := fresh_WInv me realMax
  have h1 := (setDimension_eq (alive := alive) hw.bound n).trans (if_pos ⟨(by show 1 ≤ n; omega), hn⟩)
  have hw' := hw.step (alive := alive) (.dimension n) (congrArg Res.stateAfter h1)
  refine ⟨_, _, h1, (setDimensionInput_eq hw'.bound k).trans (if_pos ⟨Nat.zero_le _, ?_⟩), rfl, rfl, ?_⟩
  · intro hc
    have h0 : k = 0 := hc.2 rfl
    omega
  · show k ≤ uintPred n
    rw [uintPred, if_neg (by omega)]
    omega

/-- **C26 (violated).**  Switching bimodal off when it is already off makes switching it on impossible: after
    `dimension.set(n)` (n at least 2) and `bimodal.set(false)`, both of which succeed, `bimodal.set(true)` throws
    `domain_error` and leaves the object bimodal with input dimension 0. -/
theorem C26_off_on_violated {n : Nat} (h2 : 2 ≤ n) (hn : n ≤ uintMax) :
    ∃ s s' s'', call alive me (.dimension n) (fresh me realMax) = .ret () s ∧ call alive me (.bimodal false) s = .ret () s' ∧
      call alive me (.bimodal true) s' = .throw .domainError s'' ∧
      s''.values.bimodal = true ∧ s''.values.dimensionInput = 0 := by
  have hw := fresh_WInv me realMax
  obtain ⟨s, hsd⟩ : ∃ s, s = ({ fresh me realMax with
      dimension := { (fresh me realMax).dimension with value := n, changed := false }
      dimensionInput := { (fresh me realMax).dimensionInput with limitMax := uintPred n }
      columnNames := { (fresh me realMax).columnNames with value := resized n (fresh me realMax).columnNames.value, size := n } } :
        SharedParams K) := ⟨_, rfl⟩
  have h1 : call alive me (.dimension n) (fresh me realMax) = .ret () s := by
    simp only [call]
    rw [setDimension_eq hw.bound, if_pos ⟨(by show 1 ≤ n; omega), hn⟩, hsd]
  have hw1 : WInv me s := hw.step (alive := alive) (.dimension n) (by rw [h1]; rfl)
  have hb := hw1.bound
  have hb1 : Bound me ({ s with bimodal := { s.bimodal with value := false, changed := true } } : SharedParams K) :=
    ⟨hb.bimodal, hb.dimension, hb.input, hb.columns, hb.emMin, hb.emMax, hb.percent, hb.window⟩
  have hd : s.dimension.value = n := by rw [hsd]
  have hl : s.dimensionInput.limitMin = 0 := by rw [hsd]; rfl
  obtain ⟨s1, h3, h4, h5, h6⟩ : ∃ s1, call alive me (.bimodal false) s = .ret () s1 ∧ s1.dimension.value = n ∧
      s1.dimensionInput.value = 0 ∧ s1.dimensionInput.limitMax = 0 := by
    simp only [call]
    rw [setBimodal_eq hb, bimodalChanged_off hb1 rfl (by show 1 ≤ s.dimension.value; omega)]
    simp only [hl, if_true]
    exact ⟨_, rfl, hd, rfl, rfl⟩
  have hw2 : WInv me s1 := hw1.step (alive := alive) (.bimodal false) (by rw [h3]; rfl)
  have hb2 := hw2.bound
  have hb3 : Bound me ({ s1 with bimodal := { s1.bimodal with value := true, changed := true } } : SharedParams K) :=
    ⟨hb2.bimodal, hb2.dimension, hb2.input, hb2.columns, hb2.emMin, hb2.emMax, hb2.percent, hb2.window⟩
  obtain ⟨s2, h7, h8, h9⟩ : ∃ s2, call alive me (.bimodal true) s1 = .throw .domainError s2 ∧
      s2.values.bimodal = true ∧ s2.values.dimensionInput = 0 := by
    simp only [call]
    rw [setBimodal_eq hb2, bimodalChanged_on hb3 rfl (by rw [hw2.hi, uintMax]; omega)]
    have hn2 : ¬ s1.dimension.value < 2 := by omega
    have h5' : ¬ 1 ≤ s1.dimensionInput.value := by omega
    have h6' : ¬ 1 ≤ s1.dimensionInput.limitMax := by omega
    simp only [hn2, h5', h6', if_false]
    exact ⟨_, rfl, rfl, h5⟩
  exact ⟨s, s1, s2, h1, h3, h7, h8, h9⟩

/-- **C26 (violated).**  A new object has dimension 1 and no column name; any number of names is accepted. -/
theorem C26_fresh_columns_violated (l : List String) :
    (fresh me realMax).values.dimension = 1 ∧ (fresh me realMax).values.columnNames = [] ∧
    ∃ s', call alive me (.columnNames l) (fresh me realMax) = .ret () s' ∧ s'.values.dimension = 1 ∧
      s'.values.columnNames = l := by
  exact ⟨rfl, rfl, _, (setColumnNames_eq (fresh_WInv me realMax).bound l).trans
    (if_neg fun h => absurd h.1 (lt_irrefl _)), rfl, rfl⟩

/-- **C26 (violated).**  After an assignment `a = b` the callbacks of `a` are those of `b`: switching bimodal on in a copy of
    a new object leaves dimension 1 and input dimension 0, and when `b` has been destroyed the call is undefined. -/
theorem C26_assigned_violated {other : Nat} (hne : other ≠ me) (s : SharedParams K) :
    ∃ s', assignFrom (fresh other realMax) s = .ret () s' ∧
      (alive other = true → ∃ s'', call alive me (.bimodal true) s' = .ret () s'' ∧ s''.values.bimodal = true ∧
        s''.values.dimension = 1 ∧ s''.values.dimensionInput = 0) ∧
      (alive other = false → call alive me (.bimodal true) s' = .ub) := by
  refine ⟨fresh other realMax, rfl, fun ha => ?_, fun ha => ?_⟩
  · refine ⟨{ fresh other realMax with bimodal := ⟨true, false, true, false, some other⟩ }, ?_, rfl, rfl, rfl⟩
    simp [call, setBimodal, onBimodal, fresh, Attr.set, checkLimits_never, notify, hne, ha, unchanged]
  · simp [call, setBimodal, onBimodal, fresh, Attr.set, checkLimits_never, notify, hne, ha]

/-- copying with the copy constructor keeps the values, and the callbacks of the new object are its own -/
theorem C26_copied {s : SharedParams K} (h : After alive me anyCall (fresh me realMax) s) (new : Nat) :
    (copy new s).values = s.values ∧ WInv new (copy new s) := by
  have hs := (fresh_WInv me realMax).after h
  exact ⟨rfl, ⟨rfl, rfl, rfl, rfl, rfl, rfl, rfl, rfl⟩, hs.hi, hs.lo, hs.le, hs.columns⟩

/-- the hypotheses of the theorems above are met: a careful history reaching a bimodal object of dimension 5, input
    dimension 4 -/
example : ∃ s : SharedParams ℚ, After (fun _ => true) 0 careful (fresh 0 1000) s ∧ s.values.bimodal = true ∧
    s.values.dimension = 5 ∧ s.values.dimensionInput = 4 := by
  have step : ∀ {s : SharedParams ℚ} (op : Op ℚ), After (fun _ => true) 0 careful (fresh 0 1000) s → careful s.values op →
      ∀ s', call (fun _ => true) 0 op s = .ret () s' → After (fun _ => true) 0 careful (fresh 0 1000) s' :=
    fun op h hok s' h' => .step h hok (by rw [h']; rfl)
  have h1 := step (.bimodal true) .start (Or.inl rfl) _ (by rfl)
  have h2 := step (.dimension 5) h1 (fun _ => Or.inl (by decide)) _ (by rfl)
  have h3 := step (.dimensionInput 4) h2 (Or.inl rfl) _ (by rfl)
  exact ⟨_, h3, rfl, rfl, rfl⟩

end Xmm
