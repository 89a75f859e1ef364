import Verif.Spec.SharedParams
import Mathlib.Tactic.NormNum
/-
C26: histories of attribute sets on the shared parameters.
-/
namespace Xmm
namespace SharedParams
open SharedSpec
variable {K : Type} {alive : Nat → Bool} {me : Nat}

/-- all callbacks are bound to the object itself -/
structure Bound (me : Nat) (s : SharedParams K) : Prop where
  bimodal : s.bimodal.listener = some me
  dimension : s.dimension.listener = some me
  input : s.dimensionInput.listener = some me
  columns : s.columnNames.listener = some me
  emMin : s.emMin.listener = some me
  emMax : s.emMax.listener = some me
  percent : s.percentChg.listener = some me
  window : s.window.listener = some me

theorem checkLimits_nat (v a b : Nat) : checkLimits ltNat v a b = decide (a ≤ v ∧ v ≤ b) := by
  simp only [checkLimits, ltNat]
  by_cases h : a ≤ v <;> by_cases h' : v ≤ b <;> simp [h, h'] <;> omega

theorem checkLimits_never {α : Type} (v a b : α) : checkLimits ltNever v a b = true := rfl

/-- `set` on an attribute bound to `me` -/
theorem attr_set {α : Type} (lt : α → α → Bool) {a : Attr α} (h : a.listener = some me) (v : α) :
    Attr.set lt v false a =
      if checkLimits lt v a.limitMin a.limitMax = true then .ret [⟨me, v⟩] { a with value := v, changed := true }
      else .throw .domainError a := by
  cases hc : checkLimits lt v a.limitMin a.limitMax <;> simp [Attr.set, hc, h]

/-- `dimension_input.set(k)` -/
theorem setDimensionInput_eq {s : SharedParams K} (hs : Bound me s) (k : Nat) :
    setDimensionInput alive me k s =
      if s.dimensionInput.limitMin ≤ k ∧ k ≤ s.dimensionInput.limitMax then
        .ret () { s with dimensionInput := { s.dimensionInput with value := k, changed := false } }
      else .throw .domainError s := by
  have h := hs.input
  by_cases hk : s.dimensionInput.limitMin ≤ k ∧ k ≤ s.dimensionInput.limitMax
  · simp [setDimensionInput, onInput, attr_set ltNat h, checkLimits_nat, hk, notify, unchanged]
  · simp [setDimensionInput, onInput, attr_set ltNat h, checkLimits_nat, hk]

/-- the vector after `resize(n, "")` -/
def resized (n : Nat) (l : List String) : List String := l.take n ++ List.replicate (n - l.length) ""

theorem length_resized (n : Nat) (l : List String) : (resized n l).length = n := by
  simp [resized]; omega

/-- `dimension.set(n)` -/
theorem setDimension_eq {s : SharedParams K} (hs : Bound me s) (n : Nat) :
    setDimension alive me n s =
      if s.dimension.limitMin ≤ n ∧ n ≤ s.dimension.limitMax then
        .ret () { s with
          dimension := { s.dimension with value := n, changed := false }
          dimensionInput := { s.dimensionInput with limitMax := uintPred n }
          columnNames := { s.columnNames with value := resized n s.columnNames.value, size := n } }
      else .throw .domainError s := by
  have h := hs.dimension
  by_cases hk : s.dimension.limitMin ≤ n ∧ n ≤ s.dimension.limitMax
  · simp [setDimension, onDimension, onInput, onColumns, attr_set ltNat h, Attr.setLimitMax, VAttr.resize, checkLimits_nat, hk,
      notify, unchanged, resized]
  · simp [setDimension, onDimension, attr_set ltNat h, checkLimits_nat, hk]

/-- `bimodal.set(b)`: the value is stored, then the callback runs -/
theorem setBimodal_eq {s : SharedParams K} (hs : Bound me s) (b : Bool) :
    setBimodal alive me b s =
      match bimodalChanged alive me { s with bimodal := { s.bimodal with value := b, changed := true } } with
      | .ret _ s' => .ret () { s' with bimodal := { s'.bimodal with changed := false } }
      | .throw e s' => .throw e s'
      | .ub => .ub := by
  have h := hs.bimodal
  simp only [setBimodal, onBimodal, attr_set ltNever h, checkLimits_never, Prog.bind_def, if_true, notify]
  cases bimodalChanged alive me { s with bimodal := { s.bimodal with value := b, changed := true } } <;> rfl

/-- switching on: the limits are adjusted, and the dimensions raised if needed -/
theorem bimodalChanged_on {s : SharedParams K} (hs : Bound me s) (hb : s.bimodal.value = true)
    (hmax : 2 ≤ s.dimension.limitMax) :
    bimodalChanged alive me s =
      let n := max 2 s.dimension.value
      let top := if s.dimension.value < 2 then 1 else s.dimensionInput.limitMax
      let s' : SharedParams K := { s with
          dimension := { s.dimension with
            value := n
            limitMin := 2
            changed := if s.dimension.value < 2 then false else s.dimension.changed }
          dimensionInput := { s.dimensionInput with limitMin := 1, limitMax := top }
          columnNames := if s.dimension.value < 2 then
              { s.columnNames with value := resized 2 s.columnNames.value, size := 2 } else s.columnNames }
      if 1 ≤ s.dimensionInput.value then .ret () s'
      else if 1 ≤ top then
        .ret () { s' with dimensionInput := { s'.dimensionInput with value := 1, changed := false } }
      else .throw .domainError s' := by
  have h1 : bimodalChanged alive me s =
      (match (if s.dimension.value < 2 then
          setDimension alive me 2 { s with dimension := { s.dimension with limitMin := 2 } }
        else .ret () { s with dimension := { s.dimension with limitMin := 2 } }) with
      | .ret _ s2 =>
        if s2.dimensionInput.value < 1 then
          setDimensionInput alive me 1 { s2 with dimensionInput := { s2.dimensionInput with limitMin := 1 } }
        else .ret () { s2 with dimensionInput := { s2.dimensionInput with limitMin := 1 } }
      | .throw e s2 => .throw e s2
      | .ub => .ub) := by
    simp only [bimodalChanged, Prog.bind_def, Prog.get_def, hb, if_true, onDimension, Attr.setLimitMin, Prog.modify_def]
    by_cases hd : s.dimension.value < 2
    · simp only [hd, if_true, Prog.bind_def, Prog.get_def]
      cases setDimension alive me 2 { s with dimension := { s.dimension with limitMin := 2 } } with
      | ret a s2 =>
        by_cases hi : s2.dimensionInput.value < 1
        · simp only [onInput, Prog.modify_def, hi, if_true]
        · simp only [onInput, Prog.modify_def, hi, if_false, Prog.pure_def]
      | throw e s2 => rfl
      | ub => rfl
    · simp only [hd, if_false, Prog.pure_def, Prog.bind_def, Prog.get_def]
      by_cases hi : s.dimensionInput.value < 1
      · simp only [onInput, Prog.modify_def, hi, if_true]
      · simp only [onInput, Prog.modify_def, hi, if_false, Prog.pure_def]
  rw [h1]
  have hs1 : Bound me ({ s with dimension := { s.dimension with limitMin := 2 } } : SharedParams K) :=
    ⟨hs.bimodal, hs.dimension, hs.input, hs.columns, hs.emMin, hs.emMax, hs.percent, hs.window⟩
  by_cases hd : s.dimension.value < 2
  · have hn : max 2 s.dimension.value = 2 := by omega
    simp only [hd, if_true, setDimension_eq hs1, le_refl, hmax, and_self, hn]
    by_cases hi : s.dimensionInput.value < 1
    · rw [if_pos hi, if_neg (by omega : ¬ 1 ≤ s.dimensionInput.value), setDimensionInput_eq]
      · rfl
      · exact ⟨hs.bimodal, hs.dimension, hs.input, hs.columns, hs.emMin, hs.emMax, hs.percent, hs.window⟩
    · rw [if_neg hi, if_pos (by omega : 1 ≤ s.dimensionInput.value)]
      rfl
  · have hn : max 2 s.dimension.value = s.dimension.value := by omega
    simp only [hd, if_false, hn]
    by_cases hi : s.dimensionInput.value < 1
    · rw [if_pos hi, if_neg (by omega : ¬ 1 ≤ s.dimensionInput.value), setDimensionInput_eq]
      · simp only [le_refl, true_and]
      · exact ⟨hs.bimodal, hs.dimension, hs.input, hs.columns, hs.emMin, hs.emMax, hs.percent, hs.window⟩
    · rw [if_neg hi, if_pos (by omega : 1 ≤ s.dimensionInput.value)]

/-- switching off: the input dimension is set to 0 under the limits left by the earlier calls -/
theorem bimodalChanged_off {s : SharedParams K} (hs : Bound me s) (hb : s.bimodal.value = false)
    (hd : 1 ≤ s.dimension.value) :
    bimodalChanged alive me s =
      let s' : SharedParams K := { s with
          dimension := { s.dimension with limitMin := 1 }
          dimensionInput := { s.dimensionInput with limitMax := 0 } }
      if s.dimensionInput.limitMin = 0 then
        .ret () { s' with dimensionInput := { s'.dimensionInput with value := 0, changed := false } }
      else .throw .domainError s' := by
  have h1 : bimodalChanged alive me s = setDimensionInput alive me 0 { s with
          dimension := { s.dimension with limitMin := 1 }
          dimensionInput := { s.dimensionInput with limitMax := 0 } } := by
    have hd' : ¬ s.dimension.value < 1 := by omega
    simp only [bimodalChanged, Prog.bind_def, Prog.get_def, hb, onDimension, Attr.setLimitMin, Attr.setLimitMax,
      Prog.modify_def, hd', if_false, Prog.pure_def, onInput, Bool.false_eq_true]
  rw [h1, setDimensionInput_eq]
  · simp only [Nat.le_zero, le_refl, and_true]
  · exact ⟨hs.bimodal, hs.dimension, hs.input, hs.columns, hs.emMin, hs.emMax, hs.percent, hs.window⟩

/-- `em_algorithm_min_iterations.set(v)` -/
theorem setEmMin_eq {s : SharedParams K} (hs : Bound me s) (v : Nat) :
    setEmMin alive me v s =
      if checkLimits ltNat v s.emMin.limitMin s.emMin.limitMax = true then
        .ret () { s with emMin := { s.emMin with value := v, changed := false } }
      else .throw .domainError s := by
  have h := hs.emMin
  by_cases hk : checkLimits ltNat v s.emMin.limitMin s.emMin.limitMax = true
  · simp [setEmMin, onEmMin, attr_set ltNat h, hk, notify, unchanged]
  · simp [setEmMin, onEmMin, attr_set ltNat h, hk]

/-- `em_algorithm_max_iterations.set(v)` -/
theorem setEmMax_eq {s : SharedParams K} (hs : Bound me s) (v : Nat) :
    setEmMax alive me v s =
      if checkLimits ltNat v s.emMax.limitMin s.emMax.limitMax = true then
        .ret () { s with emMax := { s.emMax with value := v, changed := false } }
      else .throw .domainError s := by
  have h := hs.emMax
  by_cases hk : checkLimits ltNat v s.emMax.limitMin s.emMax.limitMax = true
  · simp [setEmMax, onEmMax, attr_set ltNat h, hk, notify, unchanged]
  · simp [setEmMax, onEmMax, attr_set ltNat h, hk]

/-- `likelihood_window.set(v)` -/
theorem setWindow_eq {s : SharedParams K} (hs : Bound me s) (v : Nat) :
    setWindow alive me v s =
      if checkLimits ltNat v s.window.limitMin s.window.limitMax = true then
        .ret () { s with window := { s.window with value := v, changed := false } }
      else .throw .domainError s := by
  have h := hs.window
  by_cases hk : checkLimits ltNat v s.window.limitMin s.window.limitMax = true
  · simp [setWindow, onWindow, attr_set ltNat h, hk, notify, unchanged]
  · simp [setWindow, onWindow, attr_set ltNat h, hk]

/-- `em_algorithm_percent_chg.set(v)` -/
theorem setPercentChg_eq [LT K] [DecidableLT K] {s : SharedParams K} (hs : Bound me s) (v : K) :
    setPercentChg alive me v s =
      if checkLimits ltReal v s.percentChg.limitMin s.percentChg.limitMax = true then
        .ret () { s with percentChg := { s.percentChg with value := v, changed := false } }
      else .throw .domainError s := by
  have h := hs.percent
  by_cases hk : checkLimits ltReal v s.percentChg.limitMin s.percentChg.limitMax = true
  · simp [setPercentChg, onPercent, attr_set ltReal h, hk, notify, unchanged]
  · simp [setPercentChg, onPercent, attr_set ltReal h, hk]

/-- `column_names.set(l)` -/
theorem setColumnNames_eq {s : SharedParams K} (hs : Bound me s) (l : List String) :
    setColumnNames alive me l s =
      if 0 < s.columnNames.size ∧ l.length ≠ s.columnNames.size then .throw .domainError s
      else .ret () { s with columnNames := { s.columnNames with value := l, changed := false } } := by
  have h := hs.columns
  have h1 : VAttr.set ltNever l false s.columnNames =
      if 0 < s.columnNames.size ∧ l.length ≠ s.columnNames.size then .throw .domainError s.columnNames
      else .ret true { s.columnNames with value := l, changed := true } := by
    by_cases hk : 0 < s.columnNames.size ∧ l.length ≠ s.columnNames.size
    · simp only [VAttr.set, Prog.bind_def, Prog.get_def]
      rw [if_pos hk, if_pos hk]; rfl
    · simp only [VAttr.set, Prog.bind_def, Prog.get_def]
      rw [if_neg hk, if_neg hk]
      simp [checkLimits_never, h]
  by_cases hk : 0 < s.columnNames.size ∧ l.length ≠ s.columnNames.size
  · rw [if_pos hk] at h1
    rw [if_pos hk]
    simp only [setColumnNames, Prog.bind_def, Prog.get_def, onColumns, h1]
  · rw [if_neg hk] at h1
    rw [if_neg hk]
    simp only [setColumnNames, Prog.bind_def, Prog.get_def, onColumns, h1, if_true, notify, h, Prog.pure_def, Prog.modify_def]

/-- what holds after every history: the callbacks are in place, the dimension respects its limits, and the column names follow
    the dimension once it has been set -/
structure WInv (me : Nat) (s : SharedParams K) : Prop where
  bound : Bound me s
  hi : s.dimension.limitMax = uintMax
  lo : s.dimension.limitMin = if s.bimodal.value = true then 2 else 1
  le : s.dimension.limitMin ≤ s.dimension.value
  columns : (s.columnNames.size = 0 ∧ s.dimension.value = 1) ∨
    (s.columnNames.size = s.dimension.value ∧ s.columnNames.value.length = s.dimension.value)

variable [LT K] [DecidableLT K]

theorem WInv.step {s s' : SharedParams K} (hs : WInv me s) (op : Op K)
    (h : (call alive me op s).stateAfter = some s') : WInv me s' := by
  obtain ⟨hb, hmax, hmin, hle, hc⟩ := hs
  have hone : 1 ≤ s.dimension.value := by
    refine le_trans ?_ hle
    rw [hmin]; split <;> omega
  cases op with
  | bimodal b =>
    simp only [call] at h
    rw [setBimodal_eq hb] at h
    have hb1 : Bound me ({ s with bimodal := { s.bimodal with value := b, changed := true } } : SharedParams K) :=
      ⟨hb.bimodal, hb.dimension, hb.input, hb.columns, hb.emMin, hb.emMax, hb.percent, hb.window⟩
    cases b with
    | true =>
      rw [bimodalChanged_on hb1 rfl (by simp only [hmax, uintMax]; omega)] at h
      by_cases hd : s.dimension.value < 2
      · simp only [hd, if_true, le_refl] at h
        split at h <;> (rename_i heq; split at heq <;> simp at heq)
        all_goals
          simp only [Res.stateAfter, Option.some.injEq] at h
          subst h
          subst heq
          refine ⟨⟨hb.bimodal, hb.dimension, hb.input, hb.columns, hb.emMin, hb.emMax, hb.percent, hb.window⟩, hmax, rfl, ?_,
            Or.inr ⟨?_, ?_⟩⟩
          · exact le_max_left _ _
          · show 2 = max 2 s.dimension.value; omega
          · show (resized 2 _).length = max 2 s.dimension.value
            rw [length_resized]; omega
      · simp only [hd, if_false] at h
        have hcol : s.columnNames.size = s.dimension.value ∧ s.columnNames.value.length = s.dimension.value := by
          rcases hc with hc | hc
          · omega
          · exact hc
        have hn : max 2 s.dimension.value = s.dimension.value := by omega
        split at h
        · rename_i heq
          split at heq
          all_goals try split at heq
          all_goals simp at heq
          all_goals
            simp only [Res.stateAfter, Option.some.injEq] at h
            subst h
            subst heq
            refine ⟨⟨hb.bimodal, hb.dimension, hb.input, hb.columns, hb.emMin, hb.emMax, hb.percent, hb.window⟩, hmax, rfl,
              le_max_left _ _, Or.inr ⟨hcol.1.trans hn.symm, hcol.2.trans hn.symm⟩⟩
        · rename_i heq
          split at heq
          all_goals try split at heq
          all_goals simp at heq
          all_goals
            simp only [Res.stateAfter, Option.some.injEq] at h
            subst h
            obtain ⟨_, rfl⟩ := heq
            refine ⟨⟨hb.bimodal, hb.dimension, hb.input, hb.columns, hb.emMin, hb.emMax, hb.percent, hb.window⟩, hmax, rfl,
              le_max_left _ _, Or.inr ⟨hcol.1.trans hn.symm, hcol.2.trans hn.symm⟩⟩
        · cases h
    | false =>
      rw [bimodalChanged_off hb1 rfl hone] at h
      split at h
      · rename_i heq
        split at heq
        all_goals simp at heq
        simp only [Res.stateAfter, Option.some.injEq] at h
        subst h
        subst heq
        exact ⟨⟨hb.bimodal, hb.dimension, hb.input, hb.columns, hb.emMin, hb.emMax, hb.percent, hb.window⟩, hmax, rfl,
              hone, hc⟩
      · rename_i heq
        split at heq
        all_goals simp at heq
        simp only [Res.stateAfter, Option.some.injEq] at h
        subst h
        obtain ⟨_, rfl⟩ := heq
        exact ⟨⟨hb.bimodal, hb.dimension, hb.input, hb.columns, hb.emMin, hb.emMax, hb.percent, hb.window⟩, hmax, rfl,
              hone, hc⟩
      · cases h
  | dimension n =>
    simp only [call] at h
    rw [setDimension_eq hb] at h
    split at h
    · rename_i hn
      simp only [Res.stateAfter, Option.some.injEq] at h
      subst h
      exact ⟨⟨hb.bimodal, hb.dimension, hb.input, hb.columns, hb.emMin, hb.emMax, hb.percent, hb.window⟩, hmax, hmin, hn.1,
        Or.inr ⟨rfl, length_resized _ _⟩⟩
    · simp only [Res.stateAfter, Option.some.injEq] at h
      subst h
      exact ⟨hb, hmax, hmin, hle, hc⟩
  | dimensionInput k =>
    simp only [call] at h
    rw [setDimensionInput_eq hb] at h
    split at h <;> simp only [Res.stateAfter, Option.some.injEq] at h <;> subst h
    · exact ⟨⟨hb.bimodal, hb.dimension, hb.input, hb.columns, hb.emMin, hb.emMax, hb.percent, hb.window⟩, hmax, hmin, hle, hc⟩
    · exact ⟨hb, hmax, hmin, hle, hc⟩
  | columnNames l =>
    simp only [call] at h
    rw [setColumnNames_eq hb] at h
    split at h <;> simp only [Res.stateAfter, Option.some.injEq] at h <;> subst h
    · exact ⟨hb, hmax, hmin, hle, hc⟩
    · rename_i hk
      refine ⟨⟨hb.bimodal, hb.dimension, hb.input, hb.columns, hb.emMin, hb.emMax, hb.percent, hb.window⟩, hmax, hmin, hle, ?_⟩
      rcases hc with hc | hc
      · exact Or.inl hc
      · refine Or.inr ⟨hc.1, ?_⟩
        show l.length = s.dimension.value
        by_contra hne
        exact hk ⟨by omega, by omega⟩
  | emMin n =>
    simp only [call] at h
    rw [setEmMin_eq hb] at h
    split at h <;> simp only [Res.stateAfter, Option.some.injEq] at h <;> subst h
    · exact ⟨⟨hb.bimodal, hb.dimension, hb.input, hb.columns, hb.emMin, hb.emMax, hb.percent, hb.window⟩, hmax, hmin, hle, hc⟩
    · exact ⟨hb, hmax, hmin, hle, hc⟩
  | emMax n =>
    simp only [call] at h
    rw [setEmMax_eq hb] at h
    split at h <;> simp only [Res.stateAfter, Option.some.injEq] at h <;> subst h
    · exact ⟨⟨hb.bimodal, hb.dimension, hb.input, hb.columns, hb.emMin, hb.emMax, hb.percent, hb.window⟩, hmax, hmin, hle, hc⟩
    · exact ⟨hb, hmax, hmin, hle, hc⟩
  | percentChg x =>
    simp only [call] at h
    rw [setPercentChg_eq hb] at h
    split at h <;> simp only [Res.stateAfter, Option.some.injEq] at h <;> subst h
    · exact ⟨⟨hb.bimodal, hb.dimension, hb.input, hb.columns, hb.emMin, hb.emMax, hb.percent, hb.window⟩, hmax, hmin, hle, hc⟩
    · exact ⟨hb, hmax, hmin, hle, hc⟩
  | window n =>
    simp only [call] at h
    rw [setWindow_eq hb] at h
    split at h <;> simp only [Res.stateAfter, Option.some.injEq] at h <;> subst h
    · exact ⟨⟨hb.bimodal, hb.dimension, hb.input, hb.columns, hb.emMin, hb.emMax, hb.percent, hb.window⟩, hmax, hmin, hle, hc⟩
    · exact ⟨hb, hmax, hmin, hle, hc⟩

end SharedParams
end Xmm
