import Verif.Spec.ModelCopy
import Verif.Props.GmmModel
import Verif.Props.HierProperties
import Verif.Props.HierResults
/- C56: copies of models. -/
namespace Xmm
namespace Copies
open World
open Prog (bind_def pure_def get_def set_def modify_def throw_def undef_def)
variable {M : Type} (F : Family M)

/-- the state after the copy of `o` -/
def copied (w : World M) (dst : Nat) (o : Obj M) : World M :=
  (w.allocShared (w.shared o.ptr)).put dst (some ⟨w.next, o.classPtr, F.copy (w.attached F o)⟩)

theorem getObj_some {w : World M} {i : Nat} {o : Obj M} (h : w.obj i = some o) : getObj i w = .ret o w := by
  simp [getObj, bind_def, get_def, pure_def, h]

theorem getObj_none {w : World M} {i : Nat} (h : w.obj i = none) : getObj (M := M) i w = .ub := by
  simp [getObj, bind_def, get_def, undef_def, h]

/-- what an operation that neither fails nor does nothing does -/
def Effect (w w' : World M) : Op M → Prop
  | .create i v s => w' = (w.allocShared v).put i (some ⟨w.next, fun _ => w.next, s⟩)
  | .copyConstruct src dst => ∃ o, w.obj src = some o ∧ src ≠ dst ∧ w' = copied F w dst o
  | .assign dst src => ∃ o, w.obj src = some o ∧ src ≠ dst ∧ w' = copied F w dst o
  | .params i g => ∃ o, w.obj i = some o ∧ w' = { w with shared := fun a => if a = o.ptr then g (w.shared a) else w.shared a }
  | .train i s => ∃ o, w.obj i = some o ∧ w' = w.put i (some ⟨o.ptr, fun _ => o.ptr, s⟩)
  | .trainClass i label s => ∃ o, w.obj i = some o ∧
      w' = w.put i (some ⟨o.ptr, fun l => if l = label ∧ ¬ F.has l o.state then o.ptr else o.classPtr l, s⟩)
  | .call i _ => ∃ o s, w.obj i = some o ∧ w' = w.put i (some { o with state := s })
  | .destroy i => w' = w.put i none

theorem step_effect {op : Op M} {w w' : World M} (h : (step F op w).stateAfter = some w') : w' = w ∨ Effect F w w' op := by
  cases op with
  | create i v s =>
    simp only [step, create, bind_def, get_def] at h
    cases ho : w.obj i with
    | some o => rw [ho] at h; simp [undef_def, Res.stateAfter] at h
    | none => rw [ho] at h; simp only [set_def, Res.stateAfter, Option.some.injEq] at h; exact .inr h.symm
  | copyConstruct src dst =>
    simp only [step, copyConstruct, bind_def, get_def] at h
    cases hd : w.obj dst with
    | some o => rw [hd] at h; simp [undef_def, Res.stateAfter] at h
    | none =>
      rw [hd] at h
      simp only [bind_def] at h
      cases ho : w.obj src with
      | none => rw [getObj_none ho] at h; simp [Res.stateAfter] at h
      | some o =>
        rw [getObj_some ho] at h
        simp only at h
        split at h
        · simp only [throw_def, Res.stateAfter, Option.some.injEq] at h; exact .inl h.symm
        · simp only [copyTo, modify_def, Res.stateAfter, Option.some.injEq] at h
          refine .inr ⟨o, ho, ?_, h.symm⟩
          rintro rfl
          rw [hd] at ho; cases ho
  | assign dst src =>
    simp only [step, assign, bind_def] at h
    cases hd : w.obj dst with
    | none => rw [getObj_none hd] at h; simp [Res.stateAfter] at h
    | some d =>
      rw [getObj_some hd] at h
      simp only [bind_def] at h
      cases ho : w.obj src with
      | none => rw [getObj_none ho] at h; simp [Res.stateAfter] at h
      | some o =>
        rw [getObj_some ho] at h
        simp only at h
        split at h
        · simp only [pure_def, Res.stateAfter, Option.some.injEq] at h; exact .inl h.symm
        · next hne =>
          split at h
          · simp only [throw_def, Res.stateAfter, Option.some.injEq] at h; exact .inl h.symm
          · split at h
            · simp only [throw_def, Res.stateAfter, Option.some.injEq] at h; exact .inl h.symm
            · simp only [copyTo, modify_def, Res.stateAfter, Option.some.injEq] at h
              exact .inr ⟨o, ho, fun e => hne e.symm, h.symm⟩
  | params i g =>
    simp only [step, params, bind_def] at h
    cases ho : w.obj i with
    | none => rw [getObj_none ho] at h; simp [Res.stateAfter] at h
    | some o =>
      rw [getObj_some ho] at h
      simp only [modify_def, Res.stateAfter, Option.some.injEq] at h
      exact .inr ⟨o, ho, h.symm⟩
  | train i s =>
    simp only [step, train, bind_def] at h
    cases ho : w.obj i with
    | none => rw [getObj_none ho] at h; simp [Res.stateAfter] at h
    | some o =>
      rw [getObj_some ho] at h
      simp only [modify_def, Res.stateAfter, Option.some.injEq] at h
      exact .inr ⟨o, ho, h.symm⟩
  | trainClass i l s =>
    simp only [step, trainClass, bind_def] at h
    cases ho : w.obj i with
    | none => rw [getObj_none ho] at h; simp [Res.stateAfter] at h
    | some o =>
      rw [getObj_some ho] at h
      simp only [modify_def, Res.stateAfter, Option.some.injEq] at h
      exact .inr ⟨o, ho, h.symm⟩
  | call i f =>
    simp only [step, call] at h
    cases ho : w.obj i with
    | none => rw [ho] at h; simp [Res.stateAfter] at h
    | some o =>
      rw [ho] at h
      simp only at h
      cases hf : f (w.attached F o) with
      | ret a s => rw [hf] at h; simp only [Res.stateAfter, Option.some.injEq] at h; exact .inr ⟨o, s, ho, h.symm⟩
      | throw e s => rw [hf] at h; simp only [Res.stateAfter, Option.some.injEq] at h; exact .inr ⟨o, s, ho, h.symm⟩
      | ub => rw [hf] at h; simp [Res.stateAfter] at h
  | destroy i =>
    simp only [step, destroy, bind_def] at h
    cases ho : w.obj i with
    | none => rw [getObj_none ho] at h; simp [Res.stateAfter] at h
    | some o =>
      rw [getObj_some ho] at h
      simp only [modify_def, Res.stateAfter, Option.some.injEq] at h
      exact .inr h.symm

/-- all addresses are in use -/
def Bounded (w : World M) : Prop := ∀ i o, w.obj i = some o → o.ptr < w.next ∧ ∀ l, o.classPtr l < w.next

/-- the model number `i` reads nothing that belongs to the model number `j` -/
def Separate (w : World M) (i j : Nat) : Prop :=
  ∀ oi oj, w.obj i = some oi → w.obj j = some oj → oi.ptr ≠ oj.ptr ∧ ∀ l, oi.classPtr l ≠ oj.ptr

theorem obj_put (w : World M) (i j : Nat) (o : Option (Obj M)) : (w.put i o).obj j = if j = i then o else w.obj j := rfl
theorem obj_alloc (w : World M) (v : SharedView) (j : Nat) : (w.allocShared v).obj j = w.obj j := rfl

/-- the addresses of a model after an operation: those that a model had, or new ones -/
theorem effect_bounded {op : Op M} {w w' : World M} (hb : Bounded w) (h : Effect F w w' op) : Bounded w' := by
  intro i o hi
  cases op with
  | create k v s =>
    cases h
    rw [obj_put] at hi
    split at hi
    · cases hi; exact ⟨Nat.lt_succ_self _, fun _ => Nat.lt_succ_self _⟩
    · have := hb i o hi; exact ⟨Nat.lt_succ_of_lt this.1, fun l => Nat.lt_succ_of_lt (this.2 l)⟩
  | copyConstruct src dst =>
    obtain ⟨s, hs, _, rfl⟩ := h
    unfold copied at hi
    rw [obj_put] at hi
    split at hi
    · cases hi; exact ⟨Nat.lt_succ_self _, fun l => Nat.lt_succ_of_lt ((hb src s hs).2 l)⟩
    · have := hb i o hi; exact ⟨Nat.lt_succ_of_lt this.1, fun l => Nat.lt_succ_of_lt (this.2 l)⟩
  | assign dst src =>
    obtain ⟨s, hs, _, rfl⟩ := h
    unfold copied at hi
    rw [obj_put] at hi
    split at hi
    · cases hi; exact ⟨Nat.lt_succ_self _, fun l => Nat.lt_succ_of_lt ((hb src s hs).2 l)⟩
    · have := hb i o hi; exact ⟨Nat.lt_succ_of_lt this.1, fun l => Nat.lt_succ_of_lt (this.2 l)⟩
  | params k g =>
    obtain ⟨p, hp, rfl⟩ := h
    exact hb i o hi
  | train k s =>
    obtain ⟨p, hp, rfl⟩ := h
    rw [obj_put] at hi
    split at hi
    · cases hi; exact ⟨(hb k p hp).1, fun _ => (hb k p hp).1⟩
    · exact hb i o hi
  | trainClass k l s =>
    obtain ⟨p, hp, rfl⟩ := h
    rw [obj_put] at hi
    split at hi
    · cases hi
      refine ⟨(hb k p hp).1, fun l' => ?_⟩
      dsimp only
      split
      · exact (hb k p hp).1
      · exact (hb k p hp).2 l'
    · exact hb i o hi
  | call k f =>
    obtain ⟨p, s, hp, rfl⟩ := h
    rw [obj_put] at hi
    split at hi
    · cases hi; exact hb k p hp
    · exact hb i o hi
  | destroy k =>
    cases h
    rw [obj_put] at hi
    split at hi
    · cases hi
    · exact hb i o hi

theorem effect_separate {op : Op M} {w w' : World M} {i j : Nat} (hb : Bounded w) (hs : Separate w i j) (hij : i ≠ j)
    (hop : ¬ op.replaces i) (h : Effect F w w' op) : Separate w' i j := by
  intro oi oj hi hj
  cases op with
  | create k v s =>
    have hk : ¬ i = k := fun e => hop e.symm
    cases h
    rw [obj_put] at hi hj
    rw [if_neg hk, obj_alloc] at hi
    split at hj
    · cases hj; exact ⟨(hb i oi hi).1.ne, fun l => ((hb i oi hi).2 l).ne⟩
    · exact hs oi oj hi hj
  | copyConstruct src dst =>
    have hk : ¬ i = dst := fun e => hop e.symm
    obtain ⟨s, hs', _, rfl⟩ := h
    unfold copied at hi hj
    rw [obj_put] at hi hj
    rw [if_neg hk, obj_alloc] at hi
    split at hj
    · cases hj; exact ⟨(hb i oi hi).1.ne, fun l => ((hb i oi hi).2 l).ne⟩
    · exact hs oi oj hi hj
  | assign dst src =>
    have hk : ¬ i = dst := fun e => hop e.symm
    obtain ⟨s, hs', _, rfl⟩ := h
    unfold copied at hi hj
    rw [obj_put] at hi hj
    rw [if_neg hk, obj_alloc] at hi
    split at hj
    · cases hj; exact ⟨(hb i oi hi).1.ne, fun l => ((hb i oi hi).2 l).ne⟩
    · exact hs oi oj hi hj
  | params k g =>
    obtain ⟨p, hp, rfl⟩ := h
    exact hs oi oj hi hj
  | train k s =>
    obtain ⟨p, hp, rfl⟩ := h
    rw [obj_put] at hi hj
    by_cases h1 : i = k
    · subst h1
      rw [if_pos rfl] at hi
      rw [if_neg (Ne.symm hij)] at hj
      cases hi
      exact ⟨(hs p oj hp hj).1, fun _ => (hs p oj hp hj).1⟩
    · rw [if_neg h1] at hi
      split at hj
      · next h2 => subst h2; cases hj; exact hs oi p hi hp
      · exact hs oi oj hi hj
  | trainClass k l s =>
    obtain ⟨p, hp, rfl⟩ := h
    rw [obj_put] at hi hj
    by_cases h1 : i = k
    · subst h1
      rw [if_pos rfl] at hi
      rw [if_neg (Ne.symm hij)] at hj
      cases hi
      refine ⟨(hs p oj hp hj).1, fun l' => ?_⟩
      dsimp only
      split
      · exact (hs p oj hp hj).1
      · exact (hs p oj hp hj).2 l'
    · rw [if_neg h1] at hi
      split at hj
      · next h2 => subst h2; cases hj; exact hs oi p hi hp
      · exact hs oi oj hi hj
  | call k f =>
    obtain ⟨p, s, hp, rfl⟩ := h
    rw [obj_put] at hi hj
    by_cases h1 : i = k
    · subst h1
      rw [if_pos rfl] at hi
      rw [if_neg (Ne.symm hij)] at hj
      cases hi
      exact hs p oj hp hj
    · rw [if_neg h1] at hi
      split at hj
      · next h2 => subst h2; cases hj; exact hs oi p hi hp
      · exact hs oi oj hi hj
  | destroy k =>
    cases h
    rw [obj_put] at hi hj
    split at hi
    · cases hi
    · split at hj
      · cases hj
      · exact hs oi oj hi hj

/-- the same model and the same shared parameters behind its pointers -/
theorem view_congr {w w' : World M} {i : Nat} (ho : w'.obj i = w.obj i)
    (hs : ∀ o, w.obj i = some o → w'.shared o.ptr = w.shared o.ptr ∧ ∀ l, w'.shared (o.classPtr l) = w.shared (o.classPtr l)) :
    w'.view F i = w.view F i := by
  unfold view
  rw [ho]
  cases h : w.obj i with
  | none => rfl
  | some o =>
    obtain ⟨h1, h2⟩ := hs o h
    simp only [Option.map_some, attached, h1, h2]

theorem effect_view {op : Op M} {w w' : World M} {i j : Nat} (hb : Bounded w) (hs : Separate w i j) (hij : i ≠ j)
    (hop : op.target = j) (h : Effect F w w' op) : w'.view F i = w.view F i := by
  have fresh : ∀ (v : SharedView) o, w.obj i = some o → (w.allocShared v).shared o.ptr = w.shared o.ptr ∧
      ∀ l, (w.allocShared v).shared (o.classPtr l) = w.shared (o.classPtr l) := fun v o ho => by
    have := hb i o ho
    exact ⟨if_neg this.1.ne, fun l => if_neg (this.2 l).ne⟩
  cases op with
  | create k v s => cases hop; cases h; exact view_congr F (if_neg hij) (fresh v)
  | copyConstruct src dst => cases hop; obtain ⟨s, _, _, rfl⟩ := h; exact view_congr F (if_neg hij) (fresh _)
  | assign dst src => cases hop; obtain ⟨s, _, _, rfl⟩ := h; exact view_congr F (if_neg hij) (fresh _)
  | params k g =>
    cases hop
    obtain ⟨p, hp, rfl⟩ := h
    refine view_congr F rfl fun o ho => ?_
    obtain ⟨h1, h2⟩ := hs o p ho hp
    exact ⟨if_neg h1, fun l => if_neg (h2 l)⟩
  | train k s => cases hop; obtain ⟨p, hp, rfl⟩ := h; exact view_congr F (if_neg hij) fun _ _ => ⟨rfl, fun _ => rfl⟩
  | trainClass k l s => cases hop; obtain ⟨p, hp, rfl⟩ := h; exact view_congr F (if_neg hij) fun _ _ => ⟨rfl, fun _ => rfl⟩
  | call k f => cases hop; obtain ⟨p, s, hp, rfl⟩ := h; exact view_congr F (if_neg hij) fun _ _ => ⟨rfl, fun _ => rfl⟩
  | destroy k => cases hop; cases h; exact view_congr F (if_neg hij) fun _ _ => ⟨rfl, fun _ => rfl⟩

theorem run_cons {op : Op M} {ops : List (Op M)} {w w' : World M} (h : run F (op :: ops) w = some w') :
    ∃ w1, (step F op w).stateAfter = some w1 ∧ run F ops w1 = some w' := by
  unfold run at h
  cases hr : step F op w with
  | ret a s => rw [hr] at h; exact ⟨s, rfl, h⟩
  | throw e s => rw [hr] at h; exact ⟨s, rfl, h⟩
  | ub => rw [hr] at h; cases h

theorem run_bounded {ops : List (Op M)} : ∀ {w w' : World M}, Bounded w → run F ops w = some w' → Bounded w' := by
  induction ops with
  | nil => intro w w' hb h; cases h; exact hb
  | cons op ops ih =>
    intro w w' hb h
    obtain ⟨w1, h1, h2⟩ := run_cons F h
    refine ih ?_ h2
    rcases step_effect F h1 with rfl | he
    · exact hb
    · exact effect_bounded F hb he

theorem run_separate {i j : Nat} (hij : i ≠ j) {ops : List (Op M)} : ∀ {w w' : World M}, Bounded w → Separate w i j → (∀ op ∈ ops, ¬ op.replaces i) →
    run F ops w = some w' → Bounded w' ∧ Separate w' i j := by
  induction ops with
  | nil => intro w w' hb hs _ h; cases h; exact ⟨hb, hs⟩
  | cons op ops ih =>
    intro w w' hb hs hops h
    obtain ⟨w1, h1, h2⟩ := run_cons F h
    have h3 : Bounded w1 ∧ Separate w1 i j := by
      rcases step_effect F h1 with rfl | he
      · exact ⟨hb, hs⟩
      · exact ⟨effect_bounded F hb he, effect_separate F hb hs hij (hops op List.mem_cons_self) he⟩
    exact ih h3.1 h3.2 (fun o ho => hops o (List.mem_cons_of_mem _ ho)) h2

theorem bounded_empty : Bounded (World.empty (M := M)) := fun _ _ h => by cases h

/-- a successful copy -/
theorem copy_effect {op : Op M} {w w' : World M} {i j : Nat} (hop : op.IsCopy i j) (hij : i ≠ j) (h : step F op w = .ret () w') :
    ∃ o, w.obj i = some o ∧ w' = copied F w j o := by
  cases hop with
  | construct =>
    simp only [step, copyConstruct, bind_def, get_def] at h
    cases hd : w.obj j with
    | some o => rw [hd] at h; simp [undef_def] at h
    | none =>
      rw [hd] at h
      simp only [bind_def] at h
      cases ho : w.obj i with
      | none => rw [getObj_none ho] at h; cases h
      | some o =>
        rw [getObj_some ho] at h
        simp only at h
        split at h
        · simp [throw_def] at h
        · simp only [copyTo, modify_def, Res.ret.injEq, true_and] at h
          exact ⟨o, rfl, h.symm⟩
  | assign =>
    simp only [step, assign, bind_def] at h
    cases hd : w.obj j with
    | none => rw [getObj_none hd] at h; cases h
    | some d =>
      rw [getObj_some hd] at h
      simp only [bind_def] at h
      cases ho : w.obj i with
      | none => rw [getObj_none ho] at h; cases h
      | some o =>
        rw [getObj_some ho] at h
        simp only at h
        rw [if_neg (Ne.symm hij)] at h
        split at h
        · simp [throw_def] at h
        · split at h
          · simp [throw_def] at h
          · simp only [copyTo, modify_def, Res.ret.injEq, true_and] at h
            exact ⟨o, rfl, h.symm⟩

theorem copied_separate {w : World M} {i j : Nat} {o : Obj M} (hb : Bounded w) (ho : w.obj i = some o) (hij : i ≠ j) :
    Separate (copied F w j o) i j := by
  intro oi oj hi hj
  unfold copied at hi hj
  rw [obj_put, if_neg hij, obj_alloc] at hi
  rw [obj_put, if_pos rfl] at hj
  cases hj
  rw [ho] at hi
  cases hi
  exact ⟨(hb i o ho).1.ne, fun l => ((hb i o ho).2 l).ne⟩

/-- C56, the source is not affected: in every history in which the model `j` is made a copy of the model `i` (by the copy constructor or by `operator=`), and `i` is not assigned
    afterwards, no operation on `j` (training, change of a parameter, call of any function, assignment, destruction) changes what the functions of `i` see: neither its state,
    nor the shared parameters of the model and of its classes.  Copying does not change it either. -/
theorem C56_source_unaffected (before later : List (Op M)) (w w1 w2 w3 : World M) (i j : Nat) (hij : i ≠ j) (copy op : Op M)
    (h0 : run F before World.empty = some w) (hcopy : copy.IsCopy i j) (h1 : step F copy w = .ret () w1)
    (hlater : ∀ o ∈ later, ¬ o.replaces i) (h2 : run F later w1 = some w2) (hop : op.target = j) (h3 : (step F op w2).stateAfter = some w3) :
    w1.view F i = w.view F i ∧ w3.view F i = w2.view F i := by
  have hb := run_bounded F bounded_empty h0
  obtain ⟨o, ho, rfl⟩ := copy_effect F hcopy hij h1
  have hb1 : Bounded (copied F w j o) := effect_bounded F (op := .copyConstruct i j) hb ⟨o, ho, hij, rfl⟩
  obtain ⟨hb2, hs2⟩ := run_separate F hij hb1 (copied_separate F hb ho hij) hlater h2
  refine ⟨view_congr F (if_neg hij) fun o' ho' => ?_, ?_⟩
  · have := hb i o' ho'
    exact ⟨if_neg this.1.ne, fun l => if_neg (this.2 l).ne⟩
  · rcases step_effect F h3 with rfl | he
    · rfl
    · exact effect_view F hb2 hs2 hij hop he

/-- C56, the copy once trained: if the copy `j` of `i` is trained again (all its classes), then, in every later history in which neither `i` nor `j` is assigned, no operation on one of
    them changes what the other one sees. -/
theorem C56_trained_copy_independent (before later : List (Op M)) (w w1 w2 w3 w4 : World M) (i j : Nat) (hij : i ≠ j) (copy op : Op M) (s : M)
    (h0 : run F before World.empty = some w) (hcopy : copy.IsCopy i j) (h1 : step F copy w = .ret () w1) (ht : step F (.train j s) w1 = .ret () w2)
    (hlater : ∀ o ∈ later, ¬ o.replaces i ∧ ¬ o.replaces j) (h2 : run F later w2 = some w3) (h3 : (step F op w3).stateAfter = some w4) :
    (op.target = j → w4.view F i = w3.view F i) ∧ (op.target = i → w4.view F j = w3.view F j) := by
  have hb := run_bounded F bounded_empty h0
  obtain ⟨o, ho, rfl⟩ := copy_effect F hcopy hij h1
  have hb1 : Bounded (copied F w j o) := effect_bounded F (op := .copyConstruct i j) hb ⟨o, ho, hij, rfl⟩
  have hs1 := copied_separate F hb ho hij
  have he : Effect F (copied F w j o) w2 (.train j s) := by
    obtain ⟨p, hp⟩ : ∃ p, (copied F w j o).obj j = some p := ⟨_, if_pos rfl⟩
    simp only [step, train, bind_def, getObj_some hp, modify_def, Res.ret.injEq, true_and] at ht
    exact ⟨p, hp, ht.symm⟩
  have hb2 := effect_bounded F hb1 he
  have hs2 := effect_separate F hb1 hs1 hij (show ¬ Op.replaces i (.train j s) from fun h => h) he
  have hs2' : Separate w2 j i := by
    obtain ⟨p, hp, rfl⟩ := he
    intro oj oi hj hi
    rw [obj_put, if_pos rfl] at hj
    rw [obj_put, if_neg hij] at hi
    cases hj
    have := (hs1 oi p hi hp).1
    exact ⟨this.symm, fun _ => this.symm⟩
  obtain ⟨hb3, hs3⟩ := run_separate F hij hb2 hs2 (fun o ho => (hlater o ho).1) h2
  obtain ⟨_, hs3'⟩ := run_separate F hij.symm hb2 hs2' (fun o ho => (hlater o ho).2) h2
  refine ⟨fun hop => ?_, fun hop => ?_⟩
  · rcases step_effect F h3 with rfl | he
    · rfl
    · exact effect_view F hb3 hs3 hij hop he
  · rcases step_effect F h3 with rfl | he
    · rfl
    · exact effect_view F hb3 hs3' hij.symm hop he

/-- what the functions of a copy see, if copying and attaching the shared parameters commute -/
theorem copied_view (hF : ∀ v c m, F.attach v c (F.copy (F.attach v c m)) = F.copy (F.attach v c m)) {w : World M} {i j : Nat} {o : Obj M} (hb : Bounded w)
    (ho : w.obj i = some o) : (copied F w j o).view F j = (w.view F i).map F.copy := by
  have h1 : (copied F w j o).obj j = some ⟨w.next, o.classPtr, F.copy (w.attached F o)⟩ := if_pos rfl
  unfold view
  rw [h1, ho]
  have h2 : (copied F w j o).shared w.next = w.shared o.ptr := if_pos rfl
  have h3 : ∀ l, (copied F w j o).shared (o.classPtr l) = w.shared (o.classPtr l) := fun l => if_neg ((hb i o ho).2 l).ne
  simp only [Option.map_some, attached, h2, h3]
  exact congrArg some (hF _ _ _)

theorem copy_view (hF : ∀ v c m, F.attach v c (F.copy (F.attach v c m)) = F.copy (F.attach v c m)) {before : List (Op M)} {w w1 : World M} {i j : Nat} (hij : i ≠ j)
    {copy : Op M} (h0 : run F before World.empty = some w) (hcopy : copy.IsCopy i j) (h1 : step F copy w = .ret () w1) :
    w1.view F j = (w.view F i).map F.copy := by
  obtain ⟨o, ho, rfl⟩ := copy_effect F hcopy hij h1
  exact copied_view F hF (run_bounded F bounded_empty h0) ho

/-- a call, on what the function sees -/
theorem call_ret {α : Type} {w : World M} {i : Nat} {m s : M} {f : Prog M α} {a : α} (hv : w.view F i = some m) (hf : f m = .ret a s) :
    ∃ o, w.obj i = some o ∧ call F i f w = .ret a (w.put i (some { o with state := s })) := by
  unfold view at hv
  cases ho : w.obj i with
  | none => rw [ho] at hv; cases hv
  | some o =>
    rw [ho] at hv
    cases hv
    exact ⟨o, rfl, by simp only [call, ho, hf]⟩

theorem view_put {w : World M} {i : Nat} {o : Obj M} : (w.put i (some o)).view F i = some (w.attached F o) := by
  simp only [view, obj_put, if_pos, Option.map_some]
  rfl

end Copies
end Xmm
