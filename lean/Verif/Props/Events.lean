import Verif.Lemmas.StdMap
import Verif.Spec.Events
import Mathlib.Data.Nat.Basic
/- C07: event delivery. -/
namespace Xmm
open EventGen

theorem EventGen.run_refines {μ : Type} (ops : List (EventGen.Op μ)) :
    ∀ (g : EventGen μ), SMap.Sorted g →
      SMap.Sorted (ops.foldl step g) ∧ ∀ o, SMap.find? o (ops.foldl step g) =
        ops.foldl (fun cur op => match op with
          | .add o' m => if o' = o then (match cur with | none => some m | some m' => some m') else cur
          | .remove o' _ => if o' = o then none else cur
          | .removeAll => none) (SMap.find? o g) := by
  induction ops with
  | nil => intro g hg; exact ⟨hg, fun _ => rfl⟩
  | cons op ops ih =>
    intro g hg
    have hstep : SMap.Sorted (step g op) := by
      cases op with
      | add o m => exact hg.insertNew
      | remove o m => exact hg.erase
      | removeAll => exact SMap.sorted_nil
    obtain ⟨h1, h2⟩ := ih _ hstep
    refine ⟨h1, fun o => ?_⟩
    rw [List.foldl_cons, List.foldl_cons, h2 o]
    congr 1
    cases op with
    | add o' m =>
      simp only [step, addListener, SMap.find?_insertNew]
      by_cases h : o' = o
      · subst h
        cases hf : SMap.find? o' g <;> simp
      · simp [h, Ne.symm h]
    | remove o' m =>
      simp only [step, removeListener, SMap.find?_erase hg]
      by_cases h : o' = o
      · simp [h]
      · simp [h, Ne.symm h]
    | removeAll => rfl

/-- C07: after any history of registrations and removals, notifying an event makes exactly these calls: one
    call to every currently registered owner with the method it registered first since its last removal, no
    call to anybody else, and no owner is called twice. -/
theorem C07_delivery_exact {μ ε : Type} (ops : List (EventGen.Op μ)) (e : ε) :
    let calls := notifyListeners e (ops.foldl step ([] : EventGen μ))
    (∀ o m e', (o, m, e') ∈ calls ↔ EventSpec.registered o ops = some m ∧ e' = e) ∧
    (calls.map (fun c => c.1)).Nodup := by
  obtain ⟨h1, h2⟩ := EventGen.run_refines ops ([] : EventGen μ) SMap.sorted_nil
  refine ⟨?_, ?_⟩
  · intro o m e'
    have : EventSpec.registered o ops = SMap.find? o (ops.foldl step ([] : EventGen μ)) := (h2 o).symm
    rw [this, ← SMap.mem_iff_find? h1]
    simp only [notifyListeners, List.mem_map, Prod.mk.injEq, Prod.exists]
    constructor
    · rintro ⟨a, b, hab, rfl, rfl, rfl⟩; exact ⟨hab, rfl⟩
    · rintro ⟨hab, rfl⟩; exact ⟨o, m, hab, rfl, rfl, rfl⟩
  · have := SMap.keys_nodup h1
    simpa [notifyListeners, SMap.keys, List.map_map, Function.comp_def] using this

/-- Non-vacuity: owner 7 registers method `a`, tries `b` (ignored), 3 registers and is removed. -/
example : notifyListeners "ev" (([.add 7 "a", .add 3 "x", .add 7 "b", .remove 3 "y", .add 9 "c"] :
    List (EventGen.Op String)).foldl step []) = [(7, "a", "ev"), (9, "c", "ev")] := by decide

end Xmm
