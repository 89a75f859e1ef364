import Verif.Spec.Attribute
import Mathlib.Order.Defs.LinearOrder
import Mathlib.Data.Nat.Basic
/-
C01, C02, C03: attributes.
-/
namespace Xmm
open Attr AttrSpec

variable {α : Type} [LinearOrder α]

/-- The comparison of the ordered types (`<` of unsigned, int, enum and non-NaN floating-point values). -/
def ltb (a b : α) : Bool := decide (a < b)

theorem checkLimits_ltb (v lo hi : α) : checkLimits ltb v lo hi = true ↔ lo ≤ v ∧ v ≤ hi := by
  simp [checkLimits, ltb]

/-! ### helper lemmas on one step and on histories -/

theorem Attr.step_set (a : Attr α) (v : α) (s : Bool) :
    step ltb a (.set v s) =
      if a.limitMin ≤ v ∧ v ≤ a.limitMax then
        ({ a with value := v, changed := true },
          match a.listener with | some o => if s then [] else [⟨o, v⟩] | none => [])
      else (a, []) := by
  by_cases h : checkLimits ltb v a.limitMin a.limitMax = true
  · have h' := (checkLimits_ltb v _ _).1 h
    simp only [step, Attr.set, Prog.bind_def, Prog.get_def, h, h', and_self, if_true]
    cases hl : a.listener <;> cases s <;> simp
  · have h' : ¬ (a.limitMin ≤ v ∧ v ≤ a.limitMax) := fun hh => h ((checkLimits_ltb v _ _).2 hh)
    simp only [Bool.not_eq_true] at h
    simp [step, Attr.set, h, h']

theorem Attr.run_append (a : Attr α) (h1 h2 : List (Op α)) :
    run ltb a (h1 ++ h2) =
      ((run ltb (run ltb a h1).1 h2).1, (run ltb a h1).2 ++ (run ltb (run ltb a h1).1 h2).2) := by
  induction h1 generalizing a with
  | nil => simp [run]
  | cons op ops ih => simp [run, ih]

theorem Attr.run_limitMin (a : Attr α) (h : List (Op α)) :
    (run ltb a h).1.limitMin = limitMinAfter a.limitMin h := by
  induction h generalizing a with
  | nil => rfl
  | cons op ops ih =>
    simp only [run, ih]
    cases op with
    | set v s => rw [step_set]; split <;> rfl
    | limitMin _ => rfl
    | limitMax _ => rfl
    | listen _ => rfl

theorem Attr.run_limitMax (a : Attr α) (h : List (Op α)) :
    (run ltb a h).1.limitMax = limitMaxAfter a.limitMax h := by
  induction h generalizing a with
  | nil => rfl
  | cons op ops ih =>
    simp only [run, ih]
    cases op with
    | set v s => rw [step_set]; split <;> rfl
    | limitMin _ => rfl
    | limitMax _ => rfl
    | listen _ => rfl

theorem Attr.run_listener (a : Attr α) (h : List (Op α)) :
    (run ltb a h).1.listener = listenerAfter a.listener h := by
  induction h generalizing a with
  | nil => rfl
  | cons op ops ih =>
    simp only [run, ih]
    cases op with
    | set v s => rw [step_set]; split <;> rfl
    | limitMin _ => rfl
    | limitMax _ => rfl
    | listen _ => rfl

/-! ### C01 -/

/-- C01, one call after an arbitrary history (limit edits included): a `set` is accepted exactly when the
    value lies within the limits then in force; accepted, it stores exactly that value; rejected, it throws
    `domain_error` and leaves the attribute untouched. -/
theorem C01_set_accepts_exactly_in_range (a : Attr α) (h : List (Op α)) (v : α) (s : Bool) :
    (Accepted a.limitMin a.limitMax h v →
        ∃ ns, Attr.set ltb v s (run ltb a h).1 =
          .ret ns { (run ltb a h).1 with value := v, changed := true }) ∧
    (¬ Accepted a.limitMin a.limitMax h v →
        Attr.set ltb v s (run ltb a h).1 = .throw .domainError (run ltb a h).1) := by
  unfold Accepted
  rw [← run_limitMin, ← run_limitMax]
  generalize (run ltb a h).1 = b
  constructor
  · intro hb
    have hc := (checkLimits_ltb v _ _).2 hb
    cases hl : b.listener <;> cases s <;>
      simp [Attr.set, hc, hl]
  · intro hb
    have hc : checkLimits ltb v b.limitMin b.limitMax = false := by
      rw [← Bool.not_eq_true, checkLimits_ltb]; exact hb
    simp [Attr.set, hc]

/-- C01: an attribute built by its constructor, whose limits are not edited afterwards, is inside its
    limits after every history of calls, rejected ones included. -/
theorem C01_value_in_limits (v lo hi : α) (a : Attr α) (hc : construct ltb v lo hi = some a)
    (h : List (Op α)) (hfix : LimitsFixed h) :
    lo ≤ (run ltb a h).1.value ∧ (run ltb a h).1.value ≤ hi := by
  have key : ∀ (h : List (Op α)) (a : Attr α), LimitsFixed h →
      a.limitMin ≤ a.value ∧ a.value ≤ a.limitMax →
      a.limitMin ≤ (run ltb a h).1.value ∧ (run ltb a h).1.value ≤ a.limitMax := by
    intro h
    induction h with
    | nil => intro a _ ha; exact ha
    | cons op ops ih =>
      intro a hf ha
      have hf' : LimitsFixed ops := fun o ho => hf o (List.mem_cons_of_mem _ ho)
      have hop := hf op List.mem_cons_self
      cases op with
      | set w s =>
        simp only [run]
        rw [step_set]
        split
        · next hw => exact ih { a with value := w, changed := true } hf' hw
        · exact ih a hf' ha
      | limitMin _ => exact absurd hop (by simp)
      | limitMax _ => exact absurd hop (by simp)
      | listen o => exact ih { a with listener := o } hf' ha
  by_cases hl : checkLimits ltb v lo hi = true
  · have : a = ⟨v, lo, hi, false, none⟩ := by
      simp [construct, Attr.set, hl] at hc; exact hc.symm
    subst this
    exact key h ⟨v, lo, hi, false, none⟩ hfix ((checkLimits_ltb v lo hi).1 hl)
  · simp [construct, Attr.set, Bool.not_eq_true _ ▸ hl] at hc

/-- Non-vacuity: `Attribute<unsigned>(10, 1, 100)`, one accepted and one rejected set. -/
example : ∃ a, construct ltb (10 : Nat) 1 100 = some a ∧
    LimitsFixed [Op.set 42 false, Op.set 1000 false] ∧
    (run ltb a [Op.set 42 false, Op.set 1000 false]).1.value = 42 :=
  ⟨⟨10, 1, 100, false, none⟩, by decide, by simp [LimitsFixed], by decide⟩

/-- What the unchanged code does not guarantee: the current value is not re-validated when a limit moves, so
    with limit edits the value can be outside the limits. -/
theorem C01_violated_after_limit_edit :
    ∃ (a : Attr Nat) (h : List (Op Nat)), construct ltb 10 1 100 = some a ∧
      (run ltb a h).1.limitMax < (run ltb a h).1.value :=
  ⟨⟨10, 1, 100, false, none⟩, [Op.limitMax 5], by decide, by decide⟩

/-- Floating-point values: a finite number or NaN, with IEEE `<` (false as soon as one side is NaN). -/
inductive FloatVal where
  | nan
  | num (q : Int)
  deriving DecidableEq

/-- IEEE comparison. -/
def FloatVal.lt : FloatVal → FloatVal → Bool
  | .num a, .num b => decide (a < b)
  | _, _ => false

/-- C01 is violated for floating-point attributes by NaN: with finite limits, `set(NaN)` is accepted
    (both comparisons of `checkLimits<double>` are false). -/
theorem C01_violated_by_nan (lo hi v : Int) (s : Bool) :
    ∃ ns a', Attr.set FloatVal.lt .nan s ⟨.num v, .num lo, .num hi, false, none⟩ = .ret ns a' ∧
      a'.value = .nan :=
  ⟨[], ⟨.nan, .num lo, .num hi, true, none⟩, by simp [Attr.set, checkLimits, FloatVal.lt], rfl⟩

/-! ### C02 -/

/-- C02: after any history, a `set` call notifies exactly once, and only, the listener registered last,
    which then sees the new value – when the value is accepted, the call is not silent and a listener is
    registered; in every other case nobody is called. -/
theorem C02_notifications_exact (a : Attr α) (h : List (Op α)) (v : α) (s : Bool) :
    (run ltb a (h ++ [.set v s])).2 = (run ltb a h).2 ++
      [match listenerAfter a.listener h with
        | none => []
        | some o =>
          open Classical in
          if Accepted a.limitMin a.limitMax h v ∧ s = false then [⟨o, v⟩] else []] := by
  rw [run_append]
  simp only [run, step_set]
  rw [run_limitMin, run_limitMax, run_listener]
  unfold Accepted
  congr 1
  cases hl : listenerAfter a.listener h <;>
    by_cases hc : limitMinAfter a.limitMin h ≤ v ∧ v ≤ limitMaxAfter a.limitMax h <;>
    cases s <;> simp [hc]

/-- C02: calls other than `set` notify nobody. -/
theorem C02_no_notification_without_set (a : Attr α) (op : Op α)
    (hop : ∀ v s, op ≠ .set v s) : (step ltb a op).2 = [] := by
  cases op with
  | set v s => exact absurd rfl (hop v s)
  | limitMin _ => rfl
  | limitMax _ => rfl
  | listen _ => rfl

/-- C02: every accepted `set` raises the `changed` flag and no other call lowers it. -/
theorem C02_changed_flag (a : Attr α) (h : List (Op α)) (v : α) (s : Bool)
    (hacc : Accepted a.limitMin a.limitMax h v) (h' : List (Op α)) :
    (run ltb a (h ++ [.set v s] ++ h')).1.changed = true := by
  have mono : ∀ (h' : List (Op α)) (b : Attr α), b.changed = true → (run ltb b h').1.changed = true := by
    intro h'
    induction h' with
    | nil => intro b hb; exact hb
    | cons op ops ih =>
      intro b hb
      simp only [run]
      apply ih
      cases op with
      | set w s => rw [step_set]; split <;> simp [hb]
      | limitMin _ => exact hb
      | limitMax _ => exact hb
      | listen _ => exact hb
  rw [run_append]
  apply mono
  rw [run_append]
  simp only [run, step_set]
  rw [run_limitMin, run_limitMax]
  unfold Accepted at hacc
  simp [hacc]

/-- Non-vacuity of C02: listener 7 registered, in-range set: one notification. -/
example : (run ltb (⟨10, 1, 100, false, none⟩ : Attr Nat) ([.listen (some 7)] ++ [.set 42 false])).2
    = [[], [⟨7, 42⟩]] := by decide

/-! ### C03 -/

/-- C03 (partial: copy construction only; the assignment half is false, see `C03_assign_violated`).
    Copy construction carries value and limits, and a later non-silent `set` on the copy calls nobody. -/
theorem C03_copy_construct_drops_listener_partial (src : Attr α) (v : α) (s : Bool) :
    (copyConstruct src).value = src.value ∧ (copyConstruct src).limitMin = src.limitMin ∧
    (copyConstruct src).limitMax = src.limitMax ∧
    (step ltb (copyConstruct src) (.set v s)).2 = [] := by
  refine ⟨rfl, rfl, rfl, ?_⟩
  rw [step_set]
  split <;> simp [copyConstruct]

/-- C03 is violated by assignment: for *every* target, and every source with a listener `o`, the next
    in-range `set` on the target calls the owner of the *source*, and never the target's own former owner. -/
theorem C03_assign_violated (dst src : Attr α) (o : Nat) (hsrc : src.listener = some o) (v : α)
    (hv : src.limitMin ≤ v ∧ v ≤ src.limitMax) :
    (step ltb (assign dst src) (.set v false)).2 = [⟨o, v⟩] := by
  rw [step_set]
  simp [assign, hsrc, hv]

/-- The documented behaviour would have called the target's owner. -/
theorem C03_documented_assign (dst src : Attr α) (v : α) (hv : src.limitMin ≤ v ∧ v ≤ src.limitMax) :
    (step ltb (documentedAssign dst src) (.set v false)).2 =
      match dst.listener with | some o => [⟨o, v⟩] | none => [] := by
  rw [step_set]
  simp [documentedAssign, hv]

/-- Witness: target owned by 1, source owned by 2. -/
example : (step ltb (assign (⟨1, 0, 9, false, some 1⟩ : Attr Nat) ⟨5, 0, 9, false, some 2⟩)
    (.set 3 false)).2 = [⟨2, 3⟩] := by decide

/-! ### vector attributes (C01) -/

omit [LinearOrder α] in
/-- State of a vector attribute that was built with consistent size. -/
def VAttr.Consistent (a : VAttr α) : Prop := a.size = 0 ∨ a.value.length = a.size

/-- C01 for vector attributes: after any history of `set` and `resize`, the stored vector has the declared
    size whenever a size is declared, hence `at(i)` returns a value for `i < size` and throws
    `out_of_range` otherwise – it never reads out of bounds. -/
theorem C01_vector_size_and_access (dflt : α) (a : VAttr α) (ha : a.Consistent)
    (h : List (VAttr.Op α)) (i : Nat) :
    (h.foldl (VAttr.step ltb dflt) a).Consistent ∧
    VAttr.at' i (h.foldl (VAttr.step ltb dflt) a) =
      if hi : i < (h.foldl (VAttr.step ltb dflt) a).size ∧ i < (h.foldl (VAttr.step ltb dflt) a).value.length
      then .ret ((h.foldl (VAttr.step ltb dflt) a).value[i]'hi.2) (h.foldl (VAttr.step ltb dflt) a)
      else .throw .outOfRange (h.foldl (VAttr.step ltb dflt) a) := by
  have hcons : (h.foldl (VAttr.step ltb dflt) a).Consistent := by
    induction h generalizing a with
    | nil => exact ha
    | cons op ops ih =>
      rw [List.foldl_cons]
      apply ih
      cases op with
      | set v s =>
        simp only [VAttr.step, VAttr.set, Prog.bind_def, Prog.get_def]
        by_cases h1 : 0 < a.size ∧ v.length ≠ a.size
        · simp [h1]; exact ha
        · rw [if_neg h1]
          by_cases h2 : (!(v.all fun x => checkLimits ltb x a.limitMin a.limitMax)) = true
          · rw [if_pos h2]; exact ha
          · rw [if_neg h2]
            simp only [Prog.bind_def, Prog.set_def, Prog.pure_def]
            unfold VAttr.Consistent
            simp only
            by_cases hz : a.size = 0
            · exact Or.inl hz
            · right
              by_contra hne
              exact h1 ⟨Nat.pos_of_ne_zero hz, hne⟩
      | resize n =>
        right
        simp [VAttr.step, VAttr.resize, List.length_append, List.length_take]
        omega
  refine ⟨hcons, ?_⟩
  generalize h.foldl (VAttr.step ltb dflt) a = b at hcons ⊢
  by_cases h1 : i < b.size
  · have h2 : i < b.value.length := by
      rcases hcons with hz | hz <;> omega
    simp [VAttr.at', h1, h2]
  · simp [VAttr.at', h1]

example : VAttr.Consistent (⟨[1, 2, 3], 0, 9, 3, false, none⟩ : VAttr Nat) := Or.inr rfl

end Xmm
