import Verif.Props.PoolModes
/- At most one thread joins the threads of the classes. -/
namespace Xmm
namespace Pool

/-- between lines 490 and 510 of src/core/model/xmmModel.hpp: the thread joins the others and removes the failed classes -/
def Joining (pc : JoinPc) : Bool := pc = .join ∨ pc = .sweep ∨ pc = .unjoin

/-- the number of threads that join the threads of the classes or remove classes -/
def owners (s : Pool) : Nat := s.joiners.countP Joining + (match s.main with | .join pc => if Joining pc then 1 else 0 | _ => 0)

theorem joinStep_joining {weak : Bool} {pc pc' : JoinPc} {s s' : Pool} (h : s.joinStep weak pc = some (pc', s')) :
    s'.joiners = s.joiners ∧ s'.main = s.main ∧ ((Joining pc' = Joining pc ∧ s'.isJoining = s.isJoining) ∨
      (Joining pc = false ∧ Joining pc' = true ∧ s.isJoining = false ∧ s'.isJoining = true) ∨ (Joining pc = true ∧ Joining pc' = false ∧ s'.isJoining = false)) := by
  cases pc <;> simp only [joinStep] at h
  case enter =>
    split at h
    · simp only [Option.some.injEq, Prod.mk.injEq] at h
      obtain ⟨rfl, rfl⟩ := h
      simp [Joining]
    · split at h
      · simp only [Option.some.injEq, Prod.mk.injEq] at h
        obtain ⟨rfl, rfl⟩ := h
        simp [Joining]
      · rename_i hj
        simp only [Option.some.injEq, Prod.mk.injEq] at h
        obtain ⟨rfl, rfl⟩ := h
        simp only [Bool.or_eq_true, not_or, Bool.not_eq_true] at hj
        simp [Joining, hj.1]
  case join =>
    split at h
    · simp only [Option.some.injEq, Prod.mk.injEq] at h
      obtain ⟨rfl, rfl⟩ := h
      simp [Joining]
    · split at h
      · simp only [Option.some.injEq, Prod.mk.injEq] at h
        obtain ⟨rfl, rfl⟩ := h
        simp [Joining]
      · cases h
  case reset =>
    split at h <;>
    · simp only [Option.some.injEq, Prod.mk.injEq] at h
      obtain ⟨rfl, rfl⟩ := h
      simp [Joining]
  case wait =>
    split at h
    · cases h
    · simp only [Option.some.injEq, Prod.mk.injEq] at h
      obtain ⟨rfl, rfl⟩ := h
      simp [Joining]
  all_goals
    first
    | (simp only [Option.some.injEq, Prod.mk.injEq] at h
       obtain ⟨rfl, rfl⟩ := h
       simp [Joining])
    | cases h

/-- the owner of `is_joining_` -/
def Owned (s : Pool) : Prop := s.owners = if s.isJoining then 1 else 0

theorem countP_eraseIdx {p : JoinPc → Bool} : ∀ {l : List JoinPc} {i : Nat} {a : JoinPc}, l[i]? = some a →
    (l.eraseIdx i).countP p + (if p a then 1 else 0) = l.countP p
  | [], i, a, h => by simp at h
  | b :: l, 0, a, h => by
    simp only [List.getElem?_cons_zero, Option.some.injEq] at h
    subst h
    simp [List.countP_cons]
  | b :: l, i + 1, a, h => by
    simp only [List.getElem?_cons_succ] at h
    have := countP_eraseIdx (p := p) h
    simp only [List.eraseIdx_cons_succ, List.countP_cons]
    omega

theorem countP_set' {p : JoinPc → Bool} : ∀ {l : List JoinPc} {i : Nat} {a b : JoinPc}, l[i]? = some a →
    (l.set i b).countP p + (if p a then 1 else 0) = l.countP p + (if p b then 1 else 0)
  | [], i, a, b, h => by simp at h
  | c :: l, 0, a, b, h => by
    simp only [List.getElem?_cons_zero, Option.some.injEq] at h
    subst h
    simp only [List.set_cons_zero, List.countP_cons]
    omega
  | c :: l, i + 1, a, b, h => by
    simp only [List.getElem?_cons_succ] at h
    have := countP_set' (p := p) (b := b) h
    simp only [List.set_cons_succ, List.countP_cons]
    omega

theorem owned_step {s s' : Pool} {a : Act} (h : s.Owned) (hs : s.act a = some s') : s'.Owned := by
  unfold act at hs
  split at hs
  · cases hs
  cases a with
  | run l =>
    simp only [runStep] at hs
    split at hs
    · cases hs; exact h
    · cases hs
  | final l st =>
    simp only [finalStep] at hs
    split at hs
    · split at hs
      · rename_i hc
        cases hs
        have hj : s.isJoining = false := hc.2.1
        unfold Owned owners at h ⊢
        rw [hj] at h
        simp only [onClass, List.countP_append] at h ⊢
        simpa [Joining] using h
      · cases hs; exact h
    · cases hs
  | main weak =>
    simp only [mainStep] at hs
    split at hs
    · rename_i hm
      split at hs <;> cases hs <;> (unfold Owned owners at h ⊢; rw [hm] at h; simpa [Joining] using h)
    · rename_i hm
      split at hs <;> cases hs <;> (unfold Owned owners at h ⊢; rw [hm] at h; simpa [Joining, startClass, onClass] using h)
    · rename_i hm
      cases hs; unfold Owned owners at h ⊢; rw [hm] at h; simpa using h
    · rename_i hm
      split at hs
      · cases hs; unfold Owned owners at h ⊢; rw [hm] at h; simpa using h
      · cases hs
    · rename_i pc hm
      have key : ∀ pc' s1, s.joinStep weak pc = some (pc', s1) →
          s1.joiners.countP Joining + (if Joining pc' then 1 else 0) = if s1.isJoining then 1 else 0 := by
        intro pc' s1 hj
        obtain ⟨e1, e2, e3⟩ := joinStep_joining hj
        unfold Owned owners at h
        rw [hm] at h
        simp only at h
        rw [e1]
        rcases e3 with ⟨e3, e4⟩ | ⟨e3, e4, e5, e6⟩ | ⟨e3, e4, e5⟩
        · rw [e3, e4]; exact h
        · rw [e3, e5] at h
          rw [e4, e6]
          simp at h ⊢
          exact h
        · rw [e3] at h
          rw [e4, e5]
          simp only [if_true] at h
          have : (if s.isJoining = true then 1 else 0) ≤ 1 := by split <;> omega
          simp only [Bool.false_eq_true, if_false]
          omega
      split at hs
      · cases hs
      · rename_i s1 hj
        cases hs
        have := key _ _ hj
        unfold Owned owners
        simpa [Joining] using this
      · rename_i s1 hj
        cases hs
        have := key _ _ hj
        unfold Owned owners
        simpa [Joining] using this
      · rename_i pc' s1 _ _ hj
        cases hs
        exact key pc' s1 hj
    · cases hs
    · cases hs
  | joiner i weak =>
    simp only [joinerStep] at hs
    split at hs
    · cases hs
    · rename_i pc hi
      have key : ∀ pc' s1, s.joinStep weak pc = some (pc', s1) → s1.joiners = s.joiners ∧ s1.main = s.main ∧
          (s.owners - (if Joining pc then 1 else 0)) + (if Joining pc' then 1 else 0) = (if s1.isJoining then 1 else 0) := by
        intro pc' s1 hj
        obtain ⟨e1, e2, e3⟩ := joinStep_joining hj
        refine ⟨e1, e2, ?_⟩
        have hc := countP_eraseIdx (p := Joining) hi
        have hle : (if Joining pc = true then 1 else 0) ≤ s.owners := by unfold owners; omega
        have h' := h
        unfold Owned at h'
        rcases e3 with ⟨e3, e4⟩ | ⟨e3, e4, e5, e6⟩ | ⟨e3, e4, e5⟩
        · rw [e3, e4, ← h']; omega
        · rw [e3, e4, e6]
          rw [e5] at h'
          simp at h' ⊢
          exact h'
        · rw [e3, e4, e5]
          rw [e3] at hle
          simp only [if_true] at hle
          have : (if s.isJoining = true then 1 else 0) ≤ 1 := by split <;> omega
          simp only [Bool.false_eq_true, if_false, if_true]
          omega
      have hc := countP_eraseIdx (p := Joining) hi
      split at hs
      · cases hs
      · rename_i s1 hj
        cases hs
        obtain ⟨e1, e2, e3⟩ := key _ _ hj
        unfold Owned owners
        unfold owners at e3
        simp only [e1, e2]
        simp only [show Joining .left = false from rfl, Bool.false_eq_true, if_false] at e3
        rw [← e3]
        omega
      · rename_i s1 hj
        cases hs
        obtain ⟨e1, e2, e3⟩ := key _ _ hj
        unfold Owned owners
        unfold owners at e3
        simp only [e1, e2]
        simp only [show Joining .failed = false from rfl, Bool.false_eq_true, if_false] at e3
        rw [← e3]
        omega
      · rename_i pc' s1 _ _ hj
        cases hs
        obtain ⟨e1, e2, e3⟩ := key _ _ hj
        have hset := countP_set' (p := Joining) (b := pc') hi
        unfold Owned owners
        unfold owners at e3
        simp only [e1, e2]
        rw [← e3]
        omega

/-- **C53**, in all modes, for every interleaving of the threads, even if `compare_exchange_weak` fails spuriously: at most one thread at a time joins the
    threads of the classes and removes the failed classes (so that no thread is joined twice), and it is the one that owns `is_joining_`. -/
theorem C53_one_joiner {todo : List String} {s₀ s : Pool} (h0 : Begins todo s₀) (h : Reach (fun _ _ => True) s₀ s) :
    s.owners ≤ 1 ∧ (s.isJoining = true ↔ s.owners = 1) := by
  have hi : s.Owned := by
    induction h with
    | refl =>
      unfold Owned owners
      rw [h0.joiners, h0.main, h0.joining]
      simp
    | step _ _ hs ih => exact owned_step ih hs
  unfold Owned at hi
  cases hj : s.isJoining <;> simp [hj] at hi <;> simp [hi]

/-- two detached threads at the same time: the first one joins, the second one waits -/
example : ∃ s, Reach (fun _ _ => True) (begin_ .background ["a", "b"]) s ∧ s.joiners = [.join, .wait] := by
  let as : List Act := [.main false, .main false, .final "a" .done, .main false, .main false, .main false, .final "b" .done, .joiner 0 false, .joiner 1 false]
  obtain ⟨s, hs⟩ : ∃ s, acts as (begin_ .background ["a", "b"]) = some s := Option.isSome_iff_exists.1 (by decide +kernel)
  refine ⟨s, reach_acts as (fun _ _ _ => trivial) .refl hs, ?_⟩
  have hk : ((acts as (begin_ .background ["a", "b"])).map fun s => decide (s.joiners = [.join, .wait])) = some true := by decide +kernel
  rw [hs] at hk
  simpa only [Option.map_some, Option.some.injEq, decide_eq_true_eq] using hk

end Pool
end Xmm
