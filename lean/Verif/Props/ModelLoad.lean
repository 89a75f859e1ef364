import Verif.Spec.ModelLoad
import Verif.Props.LoadedFilter
import Verif.Props.ModelCopyFilter
/- C91: loading JSON into a model that exists. -/
namespace Xmm
set_option linter.unusedSectionVars false
open Prog (bind_def pure_def get_def set_def modify_def throw_def undef_def)

namespace Copies
open World
variable {M μ : Type} (F : Family M)

theorem onWorld_ret {α : Type} {p : Prog (World M) α} {s : Heard M μ} {a : α} {w : World M} (h : p s.world = .ret a w) : onWorld p s = .ret a { s with world := w } := by
  simp only [onWorld, h]

theorem onWorld_ub {α : Type} {p : Prog (World M) α} {s : Heard M μ} (h : p s.world = .ub) : onWorld p s = .ub := by
  simp only [onWorld, h]

/-- the world with the temporary -/
def withTmp (w : World M) (tmp : Nat) (v : SharedView) (m : M) : World M := (w.allocShared v).put tmp (some ⟨w.next, fun _ => w.next, m⟩)

/-- the world after loading -/
def loaded (keep : M → M → M) (w : World M) (i : Nat) (o : Obj M) (v : SharedView) (m : M) : World M :=
  ((w.allocShared v).allocShared v).put i (some ⟨w.next + 1, fun _ => w.next, keep o.state (F.copy (F.attach v (fun _ => v) m))⟩)

theorem construct_ret {v : SharedView} {m : M} {tmp : Nat} {s : Heard M μ} (h : s.world.obj tmp = none) :
    construct (.ret (v, m) ()) tmp s = .ret () ⟨withTmp s.world tmp v m, fun j => if j = tmp then [] else s.listeners j⟩ := by
  simp only [construct, bind_def]
  rw [onWorld_ret (a := ()) (w := withTmp s.world tmp v m) (by simp only [create, bind_def, get_def, h, set_def]; rfl)]
  rfl

/-- the assignment of the temporary -/
theorem assign_tmp {keep : M → M → M} {v : SharedView} {m : M} {i tmp : Nat} {s : Heard M μ} {o : Obj M} (ho : s.world.obj i = some o) (hi : i ≠ tmp) :
    assignModel F keep i tmp ⟨withTmp s.world tmp v m, fun j => if j = tmp then [] else s.listeners j⟩ =
      if F.training o.state = true ∨ F.training m = true then .throw .runtimeError ⟨withTmp s.world tmp v m, fun j => if j = tmp then [] else s.listeners j⟩
      else .ret () ⟨((withTmp s.world tmp v m).allocShared v).put i (some ⟨s.world.next + 1, fun _ => s.world.next, keep o.state (F.copy (F.attach v (fun _ => v) m))⟩),
        fun j => if j = i then [] else if j = tmp then [] else s.listeners j⟩ := by
  have h1 : (withTmp s.world tmp v m).obj i = some o := (if_neg hi).trans ho
  have h2 : (withTmp s.world tmp v m).obj tmp = some ⟨s.world.next, fun _ => s.world.next, m⟩ := if_pos rfl
  have h3 : (withTmp s.world tmp v m).shared s.world.next = v := if_pos rfl
  unfold assignModel
  rw [bind_of_ret (onWorld_ret (getObj_some h1)), bind_of_ret (onWorld_ret (getObj_some h2)), if_neg hi]
  by_cases ht : F.training o.state = true
  · rw [if_pos ht, if_pos (.inl ht)]; rfl
  · by_cases hm : F.training m = true
    · rw [if_neg ht, if_pos hm, if_pos (.inr hm)]; rfl
    rw [if_neg ht, if_neg hm, if_neg (by simp [ht, hm])]
    simp only [bind_def, onWorld, modify_def, get_def, setListeners, h3, attached, if_pos]
    rfl

theorem destroy_ret {w : World M} {tmp : Nat} {o : Obj M} (h : w.obj tmp = some o) : destroy tmp w = .ret () (w.put tmp none) := by
  simp only [destroy, bind_def, getObj_some h, modify_def]

variable {F}

/-- what loading does with the temporary and the target, whatever is read -/
theorem withLocal_ret {tmp : Nat} {p : Prog (Heard M μ) Unit} {s s' : Heard M μ} {o : Obj M} (h : p s = .ret () s') (ho : s'.world.obj tmp = some o) :
    withLocal tmp p s = .ret () { s' with world := s'.world.put tmp none } := by
  simp only [withLocal, h]
  exact onWorld_ret (destroy_ret ho)

theorem withLocal_throw {tmp : Nat} {p : Prog (Heard M μ) Unit} {s s' : Heard M μ} {e : Exn} {o : Obj M} (h : p s = .throw e s') (ho : s'.world.obj tmp = some o) :
    withLocal tmp p s = .throw e { s' with world := s'.world.put tmp none } := by
  simp only [withLocal, h, onWorld_ret (destroy_ret ho)]

section
variable {keep : M → M → M} {v : SharedView} {m : M} {i tmp : Nat} {s : Heard M μ} {o : Obj M}

theorem ne_tmp (ho : s.world.obj i = some o) (ht : s.world.obj tmp = none) : i ≠ tmp := by
  rintro rfl
  rw [ht] at ho
  cases ho

/-- loading into a `Model` -/
theorem load_ret (ho : s.world.obj i = some o) (ht : s.world.obj tmp = none) (hm : F.training m = false) (hi : F.training o.state = false) :
    ∃ s', modelFromJson F keep (.ret (v, m) ()) i tmp s = .ret () s' ∧
      s'.world.next = s.world.next + 2 ∧ (∀ a, s'.world.shared a = if a = s.world.next ∨ a = s.world.next + 1 then v else s.world.shared a) ∧
      (∀ j, s'.world.obj j = if j = i then some ⟨s.world.next + 1, fun _ => s.world.next, keep o.state (F.copy (F.attach v (fun _ => v) m))⟩ else s.world.obj j) ∧
      ∀ j, s'.listeners j = if j = tmp then [] else s.listeners j := by
  have hne := ne_tmp ho ht
  have h1 := assign_tmp (F := F) (keep := keep) (v := v) (m := m) ho hne
  rw [if_neg (by simp [hi, hm])] at h1
  have e : modelFromJson F keep (.ret (v, m) ()) i tmp s = .ret () ⟨(((withTmp s.world tmp v m).allocShared v).put i
      (some ⟨s.world.next + 1, fun _ => s.world.next, keep o.state (F.copy (F.attach v (fun _ => v) m))⟩)).put tmp none,
      fun j => if j = i then s.listeners i else if j = i then [] else if j = tmp then [] else s.listeners j⟩ := by
    unfold modelFromJson
    rw [bind_of_ret (onWorld_ret (getObj_some ho)), bind_of_ret (get_def _)]
    dsimp only
    rw [bind_of_ret (a := ()) (construct_ret ht)]
    refine withLocal_ret (s' := ⟨((withTmp s.world tmp v m).allocShared v).put i
      (some ⟨s.world.next + 1, fun _ => s.world.next, keep o.state (F.copy (F.attach v (fun _ => v) m))⟩), fun j => if j = i then s.listeners i else if j = i then [] else
      if j = tmp then [] else s.listeners j⟩) (o := ⟨s.world.next, fun _ => s.world.next, m⟩) (by rw [bind_of_ret (a := ()) h1]; rfl) ?_
    simp [withTmp, put, allocShared, Ne.symm hne]
  refine ⟨_, e, rfl, fun a => ?_, fun j => ?_, fun j => ?_⟩
  · simp only [withTmp, put, allocShared]
    by_cases h : a = s.world.next + 1 <;> by_cases h' : a = s.world.next <;> simp [h, h']
  · simp only [withTmp, put, allocShared]
    by_cases h : j = i
    · subst h; simp [hne]
    · by_cases h' : j = tmp
      · subst h'; simp [ht, h]
      · simp [h, h']
  · simp only
    by_cases h : j = i
    · subst h; simp [hne]
    · simp [h]

/-- loading into a `HierarchicalHMM` -/
theorem loadHier_ret (ho : s.world.obj i = some o) (ht : s.world.obj tmp = none) (hm : F.training m = false) (hi : F.training o.state = false) :
    ∃ s', hierFromJson F (.ret (v, m) ()) i tmp s = .ret () s' ∧
      s'.world.next = s.world.next + 2 ∧ (∀ a, s'.world.shared a = if a = s.world.next ∨ a = s.world.next + 1 then v else s.world.shared a) ∧
      (∀ j, s'.world.obj j = if j = i then some ⟨s.world.next + 1, fun _ => s.world.next, F.copy (F.attach v (fun _ => v) m)⟩ else s.world.obj j) ∧
      ∀ j, s'.listeners j = if j = tmp ∨ j = i then [] else s.listeners j := by
  have hne := ne_tmp ho ht
  have h1 := assign_tmp (F := F) (keep := fun _ s => s) (v := v) (m := m) ho hne
  rw [if_neg (by simp [hi, hm])] at h1
  have e : hierFromJson F (.ret (v, m) ()) i tmp s = .ret () ⟨(((withTmp s.world tmp v m).allocShared v).put i
      (some ⟨s.world.next + 1, fun _ => s.world.next, F.copy (F.attach v (fun _ => v) m)⟩)).put tmp none,
      fun j => if j = i then [] else if j = tmp then [] else s.listeners j⟩ := by
    unfold hierFromJson
    rw [bind_of_ret (onWorld_ret (getObj_some ho)), if_neg (by simp [hi]), bind_of_ret (a := ()) (construct_ret ht)]
    refine withLocal_ret (o := ⟨s.world.next, fun _ => s.world.next, m⟩) h1 ?_
    simp [withTmp, put, allocShared, Ne.symm hne]
  refine ⟨_, e, rfl, fun a => ?_, fun j => ?_, fun j => ?_⟩
  · simp only [withTmp, put, allocShared]
    by_cases h : a = s.world.next + 1 <;> by_cases h' : a = s.world.next <;> simp [h, h']
  · simp only [withTmp, put, allocShared]
    by_cases h : j = i
    · subst h; simp [hne]
    · by_cases h' : j = tmp
      · subst h'; simp [ht, h]
      · simp [h, h']
  · simp only
    by_cases h : j = i <;> by_cases h' : j = tmp <;> simp [h, h']

/-- a target that is training -/
theorem load_training (ho : s.world.obj i = some o) (ht : s.world.obj tmp = none) (hi : F.training o.state = true ∨ F.training m = true) :
    ∃ s', modelFromJson F keep (.ret (v, m) ()) i tmp s = .throw .runtimeError s' ∧
      s'.world.next = s.world.next + 1 ∧ (∀ a, s'.world.shared a = if a = s.world.next then v else s.world.shared a) ∧ (∀ j, s'.world.obj j = s.world.obj j) ∧
      ∀ j, s'.listeners j = if j = tmp then [] else s.listeners j := by
  have hne := ne_tmp ho ht
  have h1 := assign_tmp (F := F) (keep := keep) (v := v) (m := m) ho hne
  rw [if_pos hi] at h1
  have e : modelFromJson F keep (.ret (v, m) ()) i tmp s = .throw .runtimeError ⟨(withTmp s.world tmp v m).put tmp none,
      fun j => if j = tmp then [] else s.listeners j⟩ := by
    unfold modelFromJson
    rw [bind_of_ret (onWorld_ret (getObj_some ho)), bind_of_ret (get_def _)]
    dsimp only
    rw [bind_of_ret (a := ()) (construct_ret ht)]
    refine withLocal_throw (o := ⟨s.world.next, fun _ => s.world.next, m⟩) (bind_of_throw h1) ?_
    simp [withTmp, put]
  refine ⟨_, e, rfl, fun a => rfl, fun j => ?_, fun j => rfl⟩
  simp only [withTmp, put, allocShared]
  by_cases h' : j = tmp
  · subst h'; simp [ht]
  · simp [h']

theorem loadHier_training (ho : s.world.obj i = some o) (ht : s.world.obj tmp = none) (hi : F.training o.state = false) (hm : F.training m = true) :
    ∃ s', hierFromJson F (.ret (v, m) ()) i tmp s = .throw .runtimeError s' ∧
      s'.world.next = s.world.next + 1 ∧ (∀ a, s'.world.shared a = if a = s.world.next then v else s.world.shared a) ∧ (∀ j, s'.world.obj j = s.world.obj j) ∧
      ∀ j, s'.listeners j = if j = tmp then [] else s.listeners j := by
  have hne := ne_tmp ho ht
  have h1 := assign_tmp (F := F) (keep := fun _ s => s) (v := v) (m := m) ho hne
  rw [if_pos (.inr hm)] at h1
  have e : hierFromJson F (.ret (v, m) ()) i tmp s = .throw .runtimeError ⟨(withTmp s.world tmp v m).put tmp none,
      fun j => if j = tmp then [] else s.listeners j⟩ := by
    unfold hierFromJson
    rw [bind_of_ret (onWorld_ret (getObj_some ho)), if_neg (by simp [hi]), bind_of_ret (a := ()) (construct_ret ht)]
    refine withLocal_throw (o := ⟨s.world.next, fun _ => s.world.next, m⟩) h1 ?_
    simp [withTmp, put]
  refine ⟨_, e, rfl, fun a => rfl, fun j => ?_, fun j => rfl⟩
  simp only [withTmp, put, allocShared]
  by_cases h' : j = tmp
  · subst h'; simp [ht]
  · simp [h']

end

/-- who has read less than there is -/
theorem construct_cases {read : ReadModel M} {i : Nat} {s s' : Heard M μ} (h : (construct read i s).stateAfter = some s') :
    s' = s ∨ ∃ v m, read = .ret (v, m) () ∧ s.world.obj i = none ∧ s' = ⟨withTmp s.world i v m, fun j => if j = i then [] else s.listeners j⟩ := by
  cases read with
  | ub => simp [construct, Res.stateAfter] at h
  | throw e u => simp only [construct, Res.stateAfter, Option.some.injEq] at h; exact .inl h.symm
  | ret vm u =>
    cases ho : s.world.obj i with
    | some o => simp [construct, bind_def, onWorld, create, get_def, ho, undef_def, Res.stateAfter] at h
    | none =>
      rw [show (Res.ret vm u : ReadModel M) = .ret (vm.1, vm.2) () from rfl, construct_ret ho] at h
      simp only [Res.stateAfter, Option.some.injEq] at h
      exact .inr ⟨vm.1, vm.2, rfl, rfl, h.symm⟩

/-- loading ends in one of four ways -/
theorem load_cases {keep : M → M → M} {read : ReadModel M} {i tmp : Nat} {s s' : Heard M μ} (h : (modelFromJson F keep read i tmp s).stateAfter = some s') :
    ∃ o, s.world.obj i = some o ∧ ((∃ e, read = .throw e () ∧ s' = s) ∨ s.world.obj tmp = none ∧ ∃ v m, read = .ret (v, m) ()) := by
  cases ho : s.world.obj i with
  | none =>
    unfold modelFromJson at h
    rw [bind_of_ub (onWorld_ub (getObj_none ho))] at h
    cases h
  | some o =>
    refine ⟨o, rfl, ?_⟩
    unfold modelFromJson at h
    rw [bind_of_ret (onWorld_ret (getObj_some ho)), bind_of_ret (get_def _)] at h
    dsimp only at h
    cases read with
    | ub => rw [bind_of_ub rfl] at h; cases h
    | throw e u =>
      rw [bind_of_throw (show construct (.throw e u) tmp s = .throw e s from rfl)] at h
      simp only [Res.stateAfter, Option.some.injEq] at h
      exact .inl ⟨e, rfl, h.symm⟩
    | ret vm u =>
      cases ht : s.world.obj tmp with
      | none => exact .inr ⟨rfl, vm.1, vm.2, rfl⟩
      | some o' =>
        rw [bind_of_ub (by simp [construct, bind_def, onWorld, create, get_def, ht, undef_def])] at h
        cases h

theorem loadHier_cases {read : ReadModel M} {i tmp : Nat} {s s' : Heard M μ} (h : (hierFromJson F read i tmp s).stateAfter = some s') :
    ∃ o, s.world.obj i = some o ∧ (s' = s ∧ (F.training o.state = true ∨ ∃ e, read = .throw e ()) ∨ F.training o.state = false ∧ s.world.obj tmp = none ∧ ∃ v m, read = .ret (v, m) ()) := by
  cases ho : s.world.obj i with
  | none =>
    unfold hierFromJson at h
    rw [bind_of_ub (onWorld_ub (getObj_none ho))] at h
    cases h
  | some o =>
    refine ⟨o, rfl, ?_⟩
    unfold hierFromJson at h
    rw [bind_of_ret (onWorld_ret (getObj_some ho))] at h
    by_cases hi : F.training o.state = true
    · rw [if_pos hi] at h
      simp only [throw_def, Res.stateAfter, Option.some.injEq] at h
      exact .inl ⟨h.symm, .inl hi⟩
    rw [if_neg hi] at h
    cases read with
    | ub => rw [bind_of_ub rfl] at h; cases h
    | throw e u =>
      rw [bind_of_throw (show construct (.throw e u) tmp s = .throw e s from rfl)] at h
      simp only [Res.stateAfter, Option.some.injEq] at h
      exact .inl ⟨h.symm, .inr ⟨e, rfl⟩⟩
    | ret vm u =>
      cases ht : s.world.obj tmp with
      | none => exact .inr ⟨by simpa using hi, rfl, vm.1, vm.2, rfl⟩
      | some o' =>
        rw [bind_of_ub (by simp [construct, bind_def, onWorld, create, get_def, ht, undef_def])] at h
        cases h

/-- all addresses are in use, in every state of a program -/
theorem Reached.bounded {s : Heard M μ} (h : Reached F s) : Bounded s.world := by
  have grow : ∀ {w w' : World M}, Bounded w → w.next ≤ w'.next → (∀ j, w'.obj j = w.obj j ∨ ∃ o, w'.obj j = some o ∧ o.ptr < w'.next ∧ ∀ l, o.classPtr l < w'.next) → Bounded w' := by
    intro w w' hb hn hj j o ho
    rcases hj j with e | ⟨o', e, e1, e2⟩
    · rw [e] at ho
      have := hb j o ho
      exact ⟨by omega, fun l => by have := this.2 l; omega⟩
    · rw [e] at ho
      cases ho
      exact ⟨e1, e2⟩
  induction h with
  | start => exact bounded_empty
  | step op l _ hs ih =>
    rcases step_effect F hs with e | e
    · exact e ▸ ih
    · exact effect_bounded F ih e
  | construct read i _ hs ih =>
    rcases construct_cases hs with rfl | ⟨v, m, _, _, rfl⟩
    · exact ih
    · refine grow ih (by simp [withTmp, put, allocShared]) fun j => ?_
      by_cases hj : j = i
      · exact .inr ⟨_, if_pos hj, by simp [withTmp, put, allocShared], fun _ => by simp [withTmp, put, allocShared]⟩
      · exact .inl (if_neg hj)
  | @load s s' keep read i tmp _ hs ih =>
    obtain ⟨o, ho, ⟨e, _, rfl⟩ | ⟨ht, v, m, rfl⟩⟩ := load_cases hs
    · exact ih
    by_cases hi : F.training o.state = true ∨ F.training m = true
    · obtain ⟨s2, e1, e2, _, e3, _⟩ := load_training (keep := keep) (v := v) ho ht hi
      rw [e1] at hs
      cases hs
      exact grow ih (by omega) fun j => .inl (e3 j)
    · simp only [not_or, Bool.not_eq_true] at hi
      obtain ⟨s2, e1, e2, _, e3, _⟩ := load_ret (keep := keep) (v := v) ho ht hi.2 hi.1
      rw [e1] at hs
      cases hs
      refine grow ih (by omega) fun j => ?_
      by_cases hj : j = i
      · exact .inr ⟨_, (e3 j).trans (if_pos hj), by simp [e2], fun _ => by simp [e2]⟩
      · exact .inl ((e3 j).trans (if_neg hj))
  | @loadHier s s' read i tmp _ hs ih =>
    obtain ⟨o, ho, ⟨rfl, _⟩ | ⟨hi, ht, v, m, rfl⟩⟩ := loadHier_cases hs
    · exact ih
    cases hm : F.training m with
    | true =>
      obtain ⟨s2, e1, e2, _, e3, _⟩ := loadHier_training (v := v) ho ht hi hm
      rw [e1] at hs
      cases hs
      exact grow ih (by omega) fun j => .inl (e3 j)
    | false =>
      obtain ⟨s2, e1, e2, _, e3, _⟩ := loadHier_ret (v := v) ho ht hm hi
      rw [e1] at hs
      cases hs
      refine grow ih (by omega) fun j => ?_
      by_cases hj : j = i
      · exact .inr ⟨_, (e3 j).trans (if_pos hj), by simp [e2], fun _ => by simp [e2]⟩
      · exact .inl ((e3 j).trans (if_neg hj))

/-- what a model sees is kept, if its pointers are -/
theorem view_kept {w w' : World M} (hb : Bounded w) {j : Nat} (hs : ∀ a < w.next, w'.shared a = w.shared a) (ho : w'.obj j = w.obj j) : w'.view F j = w.view F j := by
  simp only [view, ho]
  cases h : w.obj j with
  | none => rfl
  | some o =>
    have := hb j o h
    simp only [Option.map_some, attached, hs _ this.1, fun l => hs _ (this.2 l)]

/-- a function that throws has not changed the models -/
theorem load_unchanged {keep : M → M → M} {read : ReadModel M} {i tmp : Nat} {s s' : Heard M μ} {e : Exn} (hr : Reached F s) (h : modelFromJson F keep read i tmp s = .throw e s') :
    ∀ j ≠ tmp, Unchanged F s s' j := by
  obtain ⟨o, ho, ⟨_, _, rfl⟩ | ⟨ht, v, m, rfl⟩⟩ := load_cases (s' := s') (by rw [h]; rfl)
  · exact fun _ _ => ⟨rfl, rfl⟩
  by_cases hi : F.training o.state = true ∨ F.training m = true
  · obtain ⟨s2, e1, e2, e4, e3, e5⟩ := load_training (keep := keep) (v := v) ho ht hi
    rw [e1] at h
    injection h with _ h
    subst h
    intro j hj
    exact ⟨view_kept hr.bounded (fun a ha => (e4 a).trans (if_neg (by omega))) (e3 j), (e5 j).trans (if_neg hj)⟩
  · simp only [not_or, Bool.not_eq_true] at hi
    obtain ⟨s2, e1, _⟩ := load_ret (keep := keep) (v := v) ho ht hi.2 hi.1
    rw [e1] at h
    cases h

theorem loadHier_unchanged {read : ReadModel M} {i tmp : Nat} {s s' : Heard M μ} {e : Exn} (hr : Reached F s) (h : hierFromJson F read i tmp s = .throw e s') :
    ∀ j ≠ tmp, Unchanged F s s' j := by
  obtain ⟨o, ho, ⟨rfl, _⟩ | ⟨hi, ht, v, m, rfl⟩⟩ := loadHier_cases (s' := s') (by rw [h]; rfl)
  · exact fun _ _ => ⟨rfl, rfl⟩
  cases hm : F.training m with
  | true =>
    obtain ⟨s2, e1, e2, e4, e3, e5⟩ := loadHier_training (v := v) ho ht hi hm
    rw [e1] at h
    injection h with _ h
    subst h
    intro j hj
    exact ⟨view_kept hr.bounded (fun a ha => (e4 a).trans (if_neg (by omega))) (e3 j), (e5 j).trans (if_neg hj)⟩
  | false =>
    obtain ⟨s2, e1, _⟩ := loadHier_ret (v := v) ho ht hm hi
    rw [e1] at h
    cases h

/-- what is seen after loading -/
theorem load_views {keep : M → M → M} (hF : ∀ v c m d, F.attach v c (keep d (F.copy (F.attach v c m))) = keep d (F.copy (F.attach v c m))) {v : SharedView} {m : M} {i tmp : Nat}
    {s : Heard M μ} {o : Obj M} (hr : Reached F s) (ho : s.world.obj i = some o) (ht : s.world.obj tmp = none) (hm : F.training m = false) (hi : F.training o.state = false) :
    ∃ s', modelFromJson F keep (.ret (v, m) ()) i tmp s = .ret () s' ∧ s'.world.obj i = some ⟨s.world.next + 1, fun _ => s.world.next, keep o.state (F.copy (F.attach v (fun _ => v) m))⟩ ∧
      s'.world.shared (s.world.next + 1) = v ∧ s'.world.shared s.world.next = v ∧
      s'.world.view F i = some (keep o.state (F.copy (F.attach v (fun _ => v) m))) ∧ s'.listeners i = s.listeners i ∧ ∀ j ≠ i, j ≠ tmp → Unchanged F s s' j := by
  obtain ⟨s', e1, e2, e3, e4, e5⟩ := load_ret (keep := keep) (v := v) ho ht hm hi
  have h1 : s'.world.shared (s.world.next + 1) = v := (e3 _).trans (if_pos (.inr rfl))
  have h2 : s'.world.shared s.world.next = v := (e3 _).trans (if_pos (.inl rfl))
  refine ⟨s', e1, (e4 i).trans (if_pos rfl), h1, h2, ?_, (e5 i).trans (if_neg (ne_tmp ho ht)), fun j h j' => ⟨?_, (e5 j).trans (if_neg j')⟩⟩
  · simp only [view, (e4 i).trans (if_pos rfl), Option.map_some, attached, h1, h2, hF]
  · exact view_kept hr.bounded (fun a ha => (e3 a).trans (if_neg (by omega))) ((e4 j).trans (if_neg h))

theorem loadHier_views (hF : ∀ v c m, F.attach v c (F.copy (F.attach v c m)) = F.copy (F.attach v c m)) {v : SharedView} {m : M} {i tmp : Nat}
    {s : Heard M μ} {o : Obj M} (hr : Reached F s) (ho : s.world.obj i = some o) (ht : s.world.obj tmp = none) (hm : F.training m = false) (hi : F.training o.state = false) :
    ∃ s', hierFromJson F (.ret (v, m) ()) i tmp s = .ret () s' ∧ s'.world.obj i = some ⟨s.world.next + 1, fun _ => s.world.next, F.copy (F.attach v (fun _ => v) m)⟩ ∧
      s'.world.shared (s.world.next + 1) = v ∧ s'.world.shared s.world.next = v ∧
      s'.world.view F i = some (F.copy (F.attach v (fun _ => v) m)) ∧ s'.listeners i = [] ∧ ∀ j ≠ i, j ≠ tmp → Unchanged F s s' j := by
  obtain ⟨s', e1, e2, e3, e4, e5⟩ := loadHier_ret (v := v) ho ht hm hi
  have h1 : s'.world.shared (s.world.next + 1) = v := (e3 _).trans (if_pos (.inr rfl))
  have h2 : s'.world.shared s.world.next = v := (e3 _).trans (if_pos (.inl rfl))
  refine ⟨s', e1, (e4 i).trans (if_pos rfl), h1, h2, ?_, (e5 i).trans (if_pos (.inr rfl)), fun j h j' => ⟨?_, (e5 j).trans (if_neg (by simp [h, j']))⟩⟩
  · simp only [view, (e4 i).trans (if_pos rfl), Option.map_some, attached, h1, h2, hF]
  · exact view_kept hr.bounded (fun a ha => (e3 a).trans (if_neg (by omega))) ((e4 j).trans (if_neg h))

/-- what the constructor makes -/
theorem construct_view {v : SharedView} {m : M} {i : Nat} {s : Heard M μ} (ht : s.world.obj i = none) :
    ∃ s', construct (.ret (v, m) ()) i s = .ret () s' ∧ s'.world.obj i = some ⟨s.world.next, fun _ => s.world.next, m⟩ ∧ s'.world.shared s.world.next = v ∧
      s'.world.view F i = some (F.attach v (fun _ => v) m) ∧ s'.listeners i = [] := by
  refine ⟨_, construct_ret ht, if_pos rfl, if_pos rfl, ?_, if_pos rfl⟩
  simp only [view, withTmp, put, if_pos, Option.map_some, attached, allocShared]

/-- the model that is seen and the one that is stored are training, or not, together -/
theorem view_some {w : World M} {i : Nat} {m : M} (h : w.view F i = some m) : ∃ o, w.obj i = some o ∧ m = w.attached F o := by
  simp only [view] at h
  cases ho : w.obj i with
  | none => rw [ho] at h; cases h
  | some o =>
    rw [ho] at h
    simp only [Option.map_some, Option.some.injEq] at h
    exact ⟨o, rfl, h.symm⟩

/-- a call on a model -/
theorem call_on {α : Type} {w : World M} {i : Nat} {m m' : M} {f : Prog M α} {a : α} (h : w.view F i = some m) (hf : f m = .ret a m') :
    ∃ w', call F i f w = .ret a w' ∧ (w'.obj i).map Obj.state = some m' := by
  obtain ⟨o, ho, rfl⟩ := view_some h
  exact ⟨w.put i (some { o with state := m' }), by simp only [call, ho, hf], by simp [put]⟩

/-- the pointers after loading: the classes do not hold that of the model -/
theorem load_pointers {keep : M → M → M} {read : ReadModel M} {i tmp : Nat} {s s' : Heard M μ} (h : modelFromJson F keep read i tmp s = .ret () s') :
    ∃ p q st, s'.world.obj i = some ⟨p, fun _ => q, st⟩ ∧ q ≠ p := by
  obtain ⟨o, ho, ⟨e, hx, rfl⟩ | ⟨ht, v, m, rfl⟩⟩ := load_cases (s' := s') (by rw [h]; rfl)
  · subst hx
    unfold modelFromJson at h
    rw [bind_of_ret (onWorld_ret (getObj_some ho)), bind_of_ret (get_def _)] at h
    cases h
  by_cases hi : F.training o.state = true ∨ F.training m = true
  · obtain ⟨s2, e1, _⟩ := load_training (keep := keep) (v := v) ho ht hi
    rw [e1] at h
    cases h
  · simp only [not_or, Bool.not_eq_true] at hi
    obtain ⟨s2, e1, _, _, e4, _⟩ := load_ret (keep := keep) (v := v) ho ht hi.2 hi.1
    rw [e1] at h
    injection h with _ h
    subst h
    exact ⟨_, _, _, (e4 i).trans (if_pos rfl), by omega⟩

theorem loadHier_pointers {read : ReadModel M} {i tmp : Nat} {s s' : Heard M μ} (h : hierFromJson F read i tmp s = .ret () s') :
    (∃ p q st, s'.world.obj i = some ⟨p, fun _ => q, st⟩ ∧ q ≠ p) ∧ s'.listeners i = [] := by
  obtain ⟨o, ho, ⟨rfl, hx⟩ | ⟨hi, ht, v, m, rfl⟩⟩ := loadHier_cases (s' := s') (by rw [h]; rfl)
  · exfalso
    unfold hierFromJson at h
    rw [bind_of_ret (onWorld_ret (getObj_some ho))] at h
    by_cases hi : F.training o.state = true
    · rw [if_pos hi] at h
      cases h
    · rcases hx with hx | ⟨e, hx⟩
      · exact hi hx
      · rw [if_neg hi, hx] at h
        cases h
  · cases hm' : F.training m with
    | true =>
      obtain ⟨s2, e1, _⟩ := loadHier_training (v := v) ho ht hi hm'
      rw [e1] at h
      cases h
    | false =>
      obtain ⟨s2, e1, _, _, e4, e5⟩ := loadHier_ret (v := v) ho ht hm' hi
      rw [e1] at h
      injection h with _ h
      subst h
      exact ⟨⟨_, _, _, (e4 i).trans (if_pos rfl), by omega⟩, (e5 i).trans (if_pos (.inr rfl))⟩

theorem construct_pointers {read : ReadModel M} {i : Nat} {s s' : Heard M μ} (h : construct read i s = .ret () s') : ∃ p st, s'.world.obj i = some ⟨p, fun _ => p, st⟩ := by
  rcases construct_cases (s' := s') (by rw [h]; rfl) with rfl | ⟨v, m, rfl, ht, rfl⟩
  · cases read with
    | ub => cases h
    | throw e u => cases h
    | ret vm u =>
      cases ho : s'.world.obj i with
      | some o => simp [construct, bind_def, onWorld, create, get_def, ho, undef_def] at h
      | none =>
        rw [show (Res.ret vm u : ReadModel M) = .ret (vm.1, vm.2) () from rfl, construct_ret ho] at h
        injection h with _ h
        have := congrArg (fun t => t.world.obj i) h
        simp [withTmp, put, ho] at this
  · exact ⟨_, _, if_pos rfl⟩

end Copies
open Copies Copies.World

variable {K μ : Type} [Field K] [LinearOrder K] [IsStrictOrderedRing K] [JsonReal K] {alive : Nat → Bool} {nar : K → K} {tiny realMax : K}

/-! ### Mixtures -/

/-- **C91, exceptions, GMM.**  For every JSON document: if `fromJson` throws (the document is rejected, or the model is training), then for every model of the program nothing has changed, and the
    same objects listen to it. -/
theorem C91_gmm_unchanged (ids : JsonIds) (z : K) (root : Json K) (i tmp : Nat) (s s' : Heard (GmmModel K) μ) (e : Exn) (hr : Reached (gmmFamily z) s)
    (h : gmmFromJson alive ids nar tiny realMax z root i tmp s = .throw e s') : ∀ j ≠ tmp, Unchanged (gmmFamily z) s s' j :=
  load_unchanged hr h

/-- **C91, hierarchical HMM.**  Likewise. -/
theorem C91_hierarchical_unchanged (ids : JsonIds) (z : K) (root : Json K) (i tmp : Nat) (s s' : Heard (HierHmm K) μ) (e : Exn) (hr : Reached (hmmFamily z) s)
    (h : hmmFromJson alive ids nar tiny realMax z root i tmp s = .throw e s') : ∀ j ≠ tmp, Unchanged (hmmFamily z) s s' j :=
  loadHier_unchanged hr h

theorem gmmFamily_keep (z : K) (v : SharedView) (c : String → SharedView) (M d : GmmModel K) :
    (gmmFamily z).attach v c { (gmmFamily z).copy ((gmmFamily z).attach v c M) with results := d.results } =
      { (gmmFamily z).copy ((gmmFamily z).attach v c M) with results := d.results } := by
  simp only [gmmFamily, List.map_map, GmmModel.mk.injEq, true_and, and_true]
  rfl

/-- **C91, GMM.**  If the document `root` can be read and the model number `i` is not training, `fromJson` makes of it a copy of the model that the JSON constructor makes of `root`, except for its
    `results`, which stay; the same objects listen to it as before; all other models are unchanged. -/
theorem C91_gmm_loaded (ids : JsonIds) (z : K) (root : Json K) (i tmp k : Nat) (s : Heard (GmmModel K) μ) (hr : Reached (gmmFamily z) s) (M : GmmModel K)
    (hM : s.world.view (gmmFamily z) i = some M) (hi : M.training = false) (ht : s.world.obj tmp = none) (hk : s.world.obj k = none)
    (B : GmmBody K) (hB : GmmBody.ofJson alive ids nar tiny realMax z root = .ret () B) :
    ∃ s1 s' C, construct (GmmBody.read alive ids nar tiny realMax z root) k s = .ret () s1 ∧ s1.world.view (gmmFamily z) k = some C ∧
      gmmFromJson alive ids nar tiny realMax z root i tmp s = .ret () s' ∧ s'.world.view (gmmFamily z) i = some { (gmmFamily z).copy C with results := M.results } ∧
      s'.listeners i = s.listeners i ∧ ∀ j ≠ i, j ≠ tmp → Unchanged (gmmFamily z) s s' j := by
  have hread : GmmBody.read alive ids nar tiny realMax z root = .ret (B.view, GmmBody.model B MultiRes.empty) () := by simp only [GmmBody.read, hB]
  obtain ⟨o, ho, rfl⟩ := view_some hM
  obtain ⟨s1, a1, _, _, a2, _⟩ := construct_view (F := gmmFamily z) (v := B.view) (m := GmmBody.model B MultiRes.empty) hk
  obtain ⟨s', b1, _, _, _, b2, b3, b4⟩ := load_views (F := gmmFamily z) (keep := fun old new => { new with results := old.results }) (gmmFamily_keep z) (v := B.view)
    (m := GmmBody.model B MultiRes.empty) hr ho ht rfl hi
  exact ⟨s1, s', _, hread ▸ a1, a2, by unfold gmmFromJson; rw [hread]; exact b1, b2, b3, b4⟩

/-- **C91 is violated, GMM:** the results of the model before loading stay, although its classes are others: with every document, and whatever `results` was; for instance, `results.likeliest` still names
    a class of the former model that the new one does not have. -/
theorem C91_gmm_results_violated (ids : JsonIds) (z : K) (root : Json K) (i tmp : Nat) (s : Heard (GmmModel K) μ) (hr : Reached (gmmFamily z) s) (M : GmmModel K)
    (hM : s.world.view (gmmFamily z) i = some M) (hi : M.training = false) (ht : s.world.obj tmp = none)
    (B : GmmBody K) (hB : GmmBody.ofJson alive ids nar tiny realMax z root = .ret () B) (hl : ∀ lc ∈ B.models, lc.1 ≠ M.results.likeliest) :
    ∃ s' M', gmmFromJson alive ids nar tiny realMax z root i tmp s = .ret () s' ∧ s'.world.view (gmmFamily z) i = some M' ∧ M'.results = M.results ∧
      M'.models.map Prod.fst = B.models.map Prod.fst ∧ M'.results.likeliest ∉ M'.models.map Prod.fst := by
  obtain ⟨s1, s', C, a1, a2, a3, a4, _⟩ := C91_gmm_loaded (alive := alive) (nar := nar) (tiny := tiny) (realMax := realMax) ids z root i tmp tmp s hr M hM hi ht ht B hB
  have hread : GmmBody.read alive ids nar tiny realMax z root = .ret (B.view, GmmBody.model B MultiRes.empty) () := by simp only [GmmBody.read, hB]
  obtain ⟨s2, b1, _, _, b2, _⟩ := construct_view (F := gmmFamily z) (v := B.view) (m := GmmBody.model B MultiRes.empty) ht
  rw [hread, b1] at a1
  cases a1
  rw [b2] at a2
  cases a2
  have hl' : (({ (gmmFamily z).copy ((gmmFamily z).attach B.view (fun _ => B.view) (GmmBody.model B MultiRes.empty)) with results := M.results } : GmmModel K).models.map Prod.fst) =
      B.models.map Prod.fst := by
    simp only [gmmFamily, GmmBody.model, List.map_map]
    rfl
  refine ⟨s', _, a3, a4, rfl, hl', ?_⟩
  rw [hl']
  intro h
  obtain ⟨lc, h1, h2⟩ := List.mem_map.1 h
  exact hl lc h1 h2

/-- **C91 is violated, GMM:** after `fromJson`, a change of the likelihood window of the model does not take effect on its classes, whatever the value. -/
theorem C91_gmm_params_violated (ids : JsonIds) (z : K) (root : Json K) (i tmp : Nat) (s s' : Heard (GmmModel K) μ) (h : gmmFromJson alive ids nar tiny realMax z root i tmp s = .ret () s') (n : Nat) :
    ∃ w, Copies.step (gmmFamily z) (.params i (setWindow n)) s'.world = .ret () w ∧ gmmWindows z w i = gmmWindows z s'.world i := by
  obtain ⟨p, q, st, h1, h2⟩ := load_pointers h
  refine ⟨_, params_ret h1 _, ?_⟩
  simp only [gmmWindows, view, h1, Option.map_some, attached, if_neg h2]
  rfl

/-- After construction from JSON, it takes effect on all classes. -/
theorem C91_gmm_constructed_params (ids : JsonIds) (z : K) (root : Json K) (i : Nat) (s s' : Heard (GmmModel K) μ)
    (h : construct (GmmBody.read alive ids nar tiny realMax z root) i s = .ret () s') (n : Nat) :
    ∃ w M, s'.world.view (gmmFamily z) i = some M ∧ Copies.step (gmmFamily z) (.params i (setWindow n)) s'.world = .ret () w ∧
      gmmWindows z w i = some (M.models.map fun lc => (lc.1, n)) := by
  obtain ⟨p, st, h1⟩ := construct_pointers h
  refine ⟨_, _, by simp only [view, h1, Option.map_some]; rfl, params_ret h1 _, ?_⟩
  simp only [gmmWindows, view, h1, Option.map_some, attached, if_pos, gmmFamily, List.map_map]
  rfl

/-- a model whose classes read its own shared parameters, and are as copied -/
theorem GmmBody.attach_model (z : K) (B : GmmBody K) (r : MultiRes K) (h : ∀ lc ∈ B.models, lc.2.view = B.view) (hc : ∀ lc ∈ B.models, ∃ m : Gmm K, lc.2 = m.copy z) :
    (gmmFamily z).attach B.view (fun _ => B.view) (GmmBody.model B r) = GmmBody.model B r ∧ (gmmFamily z).copy (GmmBody.model B r) = GmmBody.model B r := by
  constructor
  · simp only [gmmFamily, GmmBody.model, GmmModel.mk.injEq, true_and, and_true]
    refine ⟨?_, rfl, rfl⟩
    conv_rhs => rw [← List.map_id B.models]
    refine List.map_congr_left fun lc hlc => Prod.ext rfl ?_
    show Gmm.attach B.view lc.2 = lc.2
    rw [← h lc hlc]
    rfl
  · simp only [gmmFamily, GmmBody.model, GmmModel.mk.injEq, true_and, and_true]
    conv_rhs => rw [← List.map_id B.models]
    refine List.map_congr_left fun lc hlc => Prod.ext rfl ?_
    obtain ⟨m, hm⟩ := hc lc hlc
    show Gmm.copy z lc.2 = lc.2
    rw [hm]
    rfl

/-- **C91 (partial), recognition, GMM.**  The JSON of a trained model that can be saved (C57) and can filter is loaded into any model that is not training: after `reset()`, that model reports on every
    stream of observations the results that the saved model reports after `reset()`.  Missing: Diagonal covariances, see `C90_gmm_partial`, and the behaviour before `reset()`, see `C91_gmm_results_violated`. -/
theorem C91_gmm_recognises_partial (ids : JsonIds) (z : K) (h1 : Regularization tiny realMax (1 / 100)) (h2 : Regularization tiny realMax (1 / 1000))
    (B : GmmBody K) (c : ConfigSpec (GmmValues K)) (hs : SharedSavable alive nar realMax B.shared) (hc : GmmConfig nar tiny realMax B.config c)
    (hsort : SMap.Sorted B.models) (hcls : ∀ lc ∈ B.models, lc.2.Savable nar tiny realMax ∧ lc.2.Loadable ∧
      lc.2.view = ⟨B.shared.bimodal.value, B.shared.dimension.value, B.shared.dimensionInput.value, B.shared.window.value⟩)
    (hne : B.models ≠ []) (hcan : ∀ lc ∈ B.models, lc.2.CanFilter ∧ BufOk lc.2.buf)
    (hmode : B.shared.bimodal.value = true → ∀ lc ∈ B.models, Gauss.modeCode lc.2.mode = B.config.base.covMode.value)
    (D : Dens K) (hD : D.Sound) (hB : D.Blind) (log exp : K → K) (hexp : ∀ x, 0 < exp x)
    (xs : List (List K)) (hxs : xs ≠ []) (hx : ∀ x ∈ xs, ∀ lc ∈ B.models, lc.2.Fits x) (r : MultiRes K)
    (i tmp : Nat) (s : Heard (GmmModel K) μ) (hr : Reached (gmmFamily z) s) (T : GmmModel K)
    (hT : s.world.view (gmmFamily z) i = some T) (hi : T.training = false) (ht : s.world.obj tmp = none) :
    ∃ root s' M M', GmmBody.toJson B = .ret root B ∧ gmmFromJson alive ids nar tiny realMax z root i tmp s = .ret () s' ∧
      (do GmmModel.reset; GmmModel.filterAll D log exp xs) (GmmBody.model B r) = .ret () M ∧
      (∃ w, Copies.call (gmmFamily z) i (do GmmModel.reset; GmmModel.filterAll D log exp xs) s'.world = .ret () w ∧ (w.obj i).map Obj.state = some M') ∧
      M'.results = { M.results with outVals := M'.results.outVals, outCov := M'.results.outCov } ∧
      (B.shared.bimodal.value = true → M'.results = M.results) := by
  obtain ⟨root, B', b1, b2, b3, b4, b5⟩ := gmm_loads (alive := alive) ids z h1 h2 B c hs hc hsort hcls
  obtain ⟨root', B'', c1, c2, c3⟩ := C90_gmm_partial (alive := alive) ids z h1 h2 B c hs hc hsort hcls hne hcan hmode D hD hB log exp hexp xs hxs hx r
  rw [b1] at c1
  injection c1 with c1
  subst c1
  rw [b2] at c2
  injection c2 with _ c2
  subst c2
  have hv : B'.view = B.view := by
    have v1 : B'.shared.bimodal.value = B.shared.bimodal.value := congrArg SharedValues.bimodal b3
    have v2 : B'.shared.dimension.value = B.shared.dimension.value := congrArg SharedValues.dimension b3
    have v3 : B'.shared.dimensionInput.value = B.shared.dimensionInput.value := congrArg SharedValues.dimensionInput b3
    have v4 : B'.shared.window.value = B.shared.window.value := congrArg SharedValues.window b3
    simp only [ModelBody.view, v1, v2, v3, v4]
  obtain ⟨k1, k2⟩ := GmmBody.attach_model z B' MultiRes.empty (by
      intro lc hlc
      rw [b5] at hlc
      obtain ⟨lc0, h0, rfl⟩ := List.mem_map.1 hlc
      rw [hv]
      exact (hcls lc0 h0).2.2) (by
      intro lc hlc
      rw [b5] at hlc
      obtain ⟨lc0, h0, rfl⟩ := List.mem_map.1 hlc
      exact ⟨_, rfl⟩)
  have hread : GmmBody.read alive ids nar tiny realMax z root = .ret (B'.view, GmmBody.model B' MultiRes.empty) () := by simp only [GmmBody.read, b2]
  obtain ⟨o, ho, rfl⟩ := view_some hT
  obtain ⟨s', e1, e2, e3, e4, e5, _, _⟩ := load_views (F := gmmFamily z) (keep := fun old new => { new with results := old.results }) (gmmFamily_keep z) (v := B'.view)
    (m := GmmBody.model B' MultiRes.empty) hr ho ht rfl hi
  rw [k1, k2] at e5 e2
  obtain ⟨M, M', g1, g2, g3, g4⟩ := c3 o.state.results
  exact ⟨root, s', M, M', b1, by unfold gmmFromJson; rw [hread]; exact e1, g1, call_on e5 g2, g3, g4⟩

/-! ### Hidden Markov models -/

theorem HierBody.ofJson_idle {ids : JsonIds} {z : K} {root : Json K} {B : HierBody K} {B0 : ModelBody K (HmmAttrs K) (Hmm K)}
    (h : HierBody.ofJson alive ids nar tiny realMax z root = .ret B B0) : B.training = false := by
  unfold HierBody.ofJson at h
  obtain ⟨_, _, _, h⟩ := bind_inv h
  obtain ⟨_, _, _, h⟩ := bind_inv h
  obtain ⟨_, _, _, h⟩ := bind_inv h
  obtain ⟨_, _, _, h⟩ := bind_inv h
  obtain ⟨_, _, _, h⟩ := bind_inv h
  obtain ⟨_, _, _, h⟩ := bind_inv h
  obtain ⟨_, _, _, h⟩ := bind_inv h
  obtain ⟨_, _, _, h⟩ := bind_inv h
  injection h with h _
  rw [← h]

/-- **C91 (partial), hierarchical HMM.**  If the document can be read and the model number `i` is not training, `fromJson` makes of it a copy of the model that the JSON constructor makes of `root`;
    all other models are unchanged.  Missing: the listeners, see `C91_hierarchical_listeners_violated`. -/
theorem C91_hierarchical_loaded_partial (ids : JsonIds) (z : K) (root : Json K) (i tmp k : Nat) (s : Heard (HierHmm K) μ) (hr : Reached (hmmFamily z) s) (M : HierHmm K)
    (hM : s.world.view (hmmFamily z) i = some M) (hi : M.training = false) (ht : s.world.obj tmp = none) (hk : s.world.obj k = none)
    (B : HierBody K) (B0 : ModelBody K (HmmAttrs K) (Hmm K)) (hB : HierBody.ofJson alive ids nar tiny realMax z root = .ret B B0) :
    ∃ s1 s' C, construct (HierBody.read alive ids nar tiny realMax z root) k s = .ret () s1 ∧ s1.world.view (hmmFamily z) k = some C ∧
      hmmFromJson alive ids nar tiny realMax z root i tmp s = .ret () s' ∧ s'.world.view (hmmFamily z) i = some ((hmmFamily z).copy C) ∧
      ∀ j ≠ i, j ≠ tmp → Unchanged (hmmFamily z) s s' j := by
  have hread : HierBody.read alive ids nar tiny realMax z root = .ret (B.body.view, HierBody.model B MultiRes.empty [] [] false) () := by simp only [HierBody.read, hB]
  obtain ⟨o, ho, rfl⟩ := view_some hM
  obtain ⟨s1, a1, _, _, a2, _⟩ := construct_view (F := hmmFamily z) (v := B.body.view) (m := HierBody.model B MultiRes.empty [] [] false) hk
  obtain ⟨s', b1, _, _, _, b2, _, b4⟩ := loadHier_views (F := hmmFamily z) (hmmFamily_attach z) (v := B.body.view) (m := HierBody.model B MultiRes.empty [] [] false) hr ho ht
    (HierBody.ofJson_idle hB) hi
  exact ⟨s1, s', _, hread ▸ a1, a2, by unfold hmmFromJson; rw [hread]; exact b1, b2, b4⟩

/-- **C91 is violated, hierarchical HMM:** after `fromJson` nobody listens to the model any more: whoever listened before, no training event reaches them. -/
theorem C91_hierarchical_listeners_violated {ε : Type} (ids : JsonIds) (z : K) (root : Json K) (i tmp : Nat) (s s' : Heard (HierHmm K) μ)
    (h : hmmFromJson alive ids nar tiny realMax z root i tmp s = .ret () s') (e : ε) : EventGen.notifyListeners e (s'.listeners i) = [] := by
  rw [(loadHier_pointers h).2]
  rfl

/-- **C91 is violated, hierarchical HMM:** after `fromJson`, a change of the likelihood window of the model does not take effect on its classes. -/
theorem C91_hierarchical_params_violated (ids : JsonIds) (z : K) (root : Json K) (i tmp : Nat) (s s' : Heard (HierHmm K) μ) (h : hmmFromJson alive ids nar tiny realMax z root i tmp s = .ret () s') (n : Nat) :
    ∃ w, Copies.step (hmmFamily z) (.params i (setWindow n)) s'.world = .ret () w ∧ hmmWindows z w i = hmmWindows z s'.world i := by
  obtain ⟨p, q, st, h1, h2⟩ := (loadHier_pointers h).1
  refine ⟨_, params_ret h1 _, ?_⟩
  simp only [hmmWindows, view, h1, Option.map_some, attached, if_neg h2]
  rfl

/-- After construction from JSON, it takes effect on all classes. -/
theorem C91_hierarchical_constructed_params (ids : JsonIds) (z : K) (root : Json K) (i : Nat) (s s' : Heard (HierHmm K) μ)
    (h : construct (HierBody.read alive ids nar tiny realMax z root) i s = .ret () s') (n : Nat) :
    ∃ w M, s'.world.view (hmmFamily z) i = some M ∧ Copies.step (hmmFamily z) (.params i (setWindow n)) s'.world = .ret () w ∧
      hmmWindows z w i = some (M.models.map fun lc => (lc.1, n)) := by
  obtain ⟨p, st, h1⟩ := construct_pointers h
  refine ⟨_, _, by simp only [view, h1, Option.map_some]; rfl, params_ret h1 _, ?_⟩
  simp only [hmmWindows, view, h1, Option.map_some, attached, if_pos, hmmFamily, List.map_map]
  rfl

theorem Hmm.attach_self {v : SharedView} {m : Hmm K} (h : m.view = v) (hs : ∀ st ∈ m.sts, st.view = v) : m.attach v = m := by
  have e : m.sts.map (Gmm.attach v) = m.sts := by
    conv_rhs => rw [← List.map_id m.sts]
    refine List.map_congr_left fun st hst => ?_
    rw [← hs st hst]
    rfl
  subst h
  simp only [Hmm.attach, e]
  rfl

/-- a model whose classes read its own shared parameters, and are as copied -/
theorem HierBody.attach_model (z : K) (B : HierBody K) (r : MultiRes K) (f1 f2 : List K) (ht : B.training = false) (h : ∀ lc ∈ B.body.models, lc.2.view = B.body.view ∧ ∀ st ∈ lc.2.sts, st.view = B.body.view)
    (hc : ∀ lc ∈ B.body.models, ∃ m : Hmm K, lc.2 = m.copy z) :
    (hmmFamily z).attach B.body.view (fun _ => B.body.view) (HierBody.model B r f1 f2 false) = HierBody.model B r f1 f2 false ∧
      (hmmFamily z).copy (HierBody.model B r f1 f2 false) = HierBody.model B r f1 f2 false := by
  constructor
  · simp only [hmmFamily, HierBody.model, HierHmm.mk.injEq, true_and, and_true]
    refine ⟨?_, rfl, rfl, rfl, rfl⟩
    conv_rhs => rw [← List.map_id B.body.models]
    exact List.map_congr_left fun lc hlc => Prod.ext rfl (Hmm.attach_self (h lc hlc).1 (h lc hlc).2)
  · simp only [hmmFamily, HierBody.model, HierHmm.mk.injEq, true_and, and_true]
    refine ⟨?_, ht.symm⟩
    conv_rhs => rw [← List.map_id B.body.models]
    refine List.map_congr_left fun lc hlc => Prod.ext rfl ?_
    obtain ⟨m, hm⟩ := hc lc hlc
    show Hmm.copy z lc.2 = lc.2
    rw [hm]
    simp only [Hmm.copy, List.map_map]
    rfl

/-- **C91 (partial), recognition, hierarchical HMM.**  The JSON of a trained hierarchical model that can be saved (C57), whose classes are left-right, is loaded into any model that is not training: after
    `reset()`, that model reports on every stream of observations the likelihoods and the results that the saved model reports after `reset()`.  Missing: see `C90_hierarchical_partial`. -/
theorem C91_hierarchical_recognises_partial (ids : JsonIds) (z : K) (h1 : Regularization tiny realMax (1 / 100)) (h2 : Regularization tiny realMax (1 / 1000))
    (hb : Bool) (B : HierBody K) (c : ConfigSpec (HmmValues K)) (hs : SharedSavable alive nar realMax B.body.shared) (hc : HmmConfig nar tiny realMax B.body.config c)
    (hcls : ∀ lc ∈ B.body.models, lc.2.Savable nar tiny realMax ∧ lc.2.Loadable ∧
      lc.2.view = ⟨B.body.shared.bimodal.value, B.body.shared.dimension.value, B.body.shared.dimensionInput.value, B.body.shared.window.value⟩)
    (r : MultiRes K) (f1 f2 : List K) (st : Bool) (hM : (HierBody.model B r f1 f2 st).Trained) (hne : B.body.models ≠ [])
    (herg : ∀ lc ∈ B.body.models, lc.2.ergodic = false)
    (D : Dens K) (hD : D.Sound) (hB : D.Blind) (log exp : K → K)
    (xs : List (List K)) (hxs : xs ≠ []) (hx : ∀ x ∈ xs, ∀ lc ∈ B.body.models, lc.2.Fits x)
    (i tmp : Nat) (s : Heard (HierHmm K) μ) (hr : Reached (hmmFamily z) s) (T : HierHmm K)
    (hT : s.world.view (hmmFamily z) i = some T) (hi : T.training = false) (ht : s.world.obj tmp = none) :
    ∃ root s' rs M M', HierBody.toJson hb B = .ret root B ∧ hmmFromJson alive ids nar tiny realMax z root i tmp s = .ret () s' ∧
      (do HierHmm.reset; HierHmm.filterAll D log exp xs) (HierBody.model B r f1 f2 st) = .ret rs M ∧
      (∃ w, Copies.call (hmmFamily z) i (do HierHmm.reset; HierHmm.filterAll D log exp xs) s'.world = .ret rs w ∧ (w.obj i).map Obj.state = some M') ∧
      HierHmm.SameResults M M' := by
  obtain ⟨root, B', B0, b1, b2, b3, b4, ⟨a, b5⟩, _, _, _, _, _⟩ := hmm_loads (alive := alive) ids z h1 h2 hb B c hs hc hM.sorted hcls hM.idle hM.top.prior hM.top.trans hM.top.row hM.top.exitTrans
  obtain ⟨root', B'', B0', c1, c2, c3⟩ := C90_hierarchical_partial (alive := alive) ids z h1 h2 hb B c hs hc hcls r f1 f2 st hM hne herg D hD hB log exp xs hxs hx
  rw [b1] at c1
  injection c1 with c1
  subst c1
  rw [b2] at c2
  injection c2 with c2 _
  subst c2
  have hv : B'.body.view = B.body.view := by
    have v1 : B'.body.shared.bimodal.value = B.body.shared.bimodal.value := congrArg SharedValues.bimodal b3
    have v2 : B'.body.shared.dimension.value = B.body.shared.dimension.value := congrArg SharedValues.dimension b3
    have v3 : B'.body.shared.dimensionInput.value = B.body.shared.dimensionInput.value := congrArg SharedValues.dimensionInput b3
    have v4 : B'.body.shared.window.value = B.body.shared.window.value := congrArg SharedValues.window b3
    simp only [ModelBody.view, v1, v2, v3, v4]
  obtain ⟨k1, k2⟩ := HierBody.attach_model z B' MultiRes.empty [] [] (HierBody.ofJson_idle b2) (by
      intro lc hlc
      rw [b5] at hlc
      obtain ⟨lc0, h0, rfl⟩ := List.mem_map.1 hlc
      rw [hv]
      refine ⟨(hcls lc0 h0).2.2, fun st hst => ?_⟩
      have hview := (hcls lc0 h0).2.2
      simp only [Hmm.copy, Hmm.reread, List.map_map, List.mem_map] at hst
      obtain ⟨st0, q1, rfl⟩ := hst
      obtain ⟨_, q2, q3, q4, q5, _⟩ := (hcls lc0 h0).1.states st0 q1
      refine Eq.trans ?_ hview
      show SharedView.mk st0.bimodal st0.dim st0.di st0.window = SharedView.mk lc0.2.bimodal lc0.2.dim lc0.2.di lc0.2.window
      rw [q2, q3, q4, q5]) (by
      intro lc hlc
      rw [b5] at hlc
      obtain ⟨lc0, h0, rfl⟩ := List.mem_map.1 hlc
      exact ⟨_, rfl⟩)
  have hread : HierBody.read alive ids nar tiny realMax z root = .ret (B'.body.view, HierBody.model B' MultiRes.empty [] [] false) () := by simp only [HierBody.read, b2]
  obtain ⟨o, ho, rfl⟩ := view_some hT
  obtain ⟨s', e1, e2, e3, e4, e5, _, _⟩ := loadHier_views (F := hmmFamily z) (hmmFamily_attach z) (v := B'.body.view)
    (m := HierBody.model B' MultiRes.empty [] [] false) hr ho ht (HierBody.ofJson_idle b2) hi
  rw [k1, k2] at e5
  obtain ⟨rs, M, M', g1, g2, g3⟩ := c3 MultiRes.empty [] []
  exact ⟨root, s', rs, M, M', b1, by unfold hmmFromJson; rw [hread]; exact e1, g1, call_on e5 g2, g3⟩

end Xmm
