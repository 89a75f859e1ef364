import Verif.Model.ModelJson
import Verif.Model.TrainingSetJson
/- Computations that do not change the state. -/
namespace Xmm
variable {σ τ α β : Type}
open Prog (bind_def pure_def get_def set_def modify_def throw_def undef_def)

/-- the state is unchanged when `p` returns or throws -/
structure Prog.Reads (p : Prog σ α) : Prop where
  ret : ∀ {s a s'}, p s = .ret a s' → s' = s
  throw : ∀ {s e s'}, p s = .throw e s' → s' = s

namespace Reads

theorem pure (a : α) : Prog.Reads (Pure.pure a : Prog σ α) :=
  ⟨fun h => by rw [pure_def] at h; injection h with _ h; exact h.symm, fun h => by rw [pure_def] at h; cases h⟩

theorem get : Prog.Reads (Prog.get : Prog σ σ) :=
  ⟨fun h => by rw [get_def] at h; injection h with _ h; exact h.symm, fun h => by rw [get_def] at h; cases h⟩

theorem throws (e : Exn) : Prog.Reads (Prog.throw e : Prog σ α) :=
  ⟨fun h => (by rw [throw_def] at h; cases h), fun h => by rw [throw_def] at h; injection h with _ h; exact h.symm⟩

theorem undef : Prog.Reads (Prog.undef : Prog σ α) :=
  ⟨fun h => (by rw [undef_def] at h; cases h), fun h => by rw [undef_def] at h; cases h⟩

theorem bind {p : Prog σ α} {f : α → Prog σ β} (hp : p.Reads) (hf : ∀ a, (f a).Reads) : (p >>= f).Reads := by
  constructor
  · intro s a s' h
    rw [bind_def] at h
    cases hq : p s with
    | ret b t => rw [hq] at h; have := hp.ret hq; subst this; exact (hf b).ret h
    | throw e t => rw [hq] at h; cases h
    | ub => rw [hq] at h; cases h
  · intro s e s' h
    rw [bind_def] at h
    cases hq : p s with
    | ret b t => rw [hq] at h; have := hp.ret hq; subst this; exact (hf b).throw h
    | throw e t => rw [hq] at h; injection h with _ h; rw [← h]; exact hp.throw hq
    | ub => rw [hq] at h; cases h

theorem lift (x : Except Exn α) : Prog.Reads (liftE x : Prog σ α) := by
  cases x with
  | ok a => exact pure a
  | error e => exact throws e

theorem ite {c : Prop} [Decidable c] {p q : Prog σ α} (hp : p.Reads) (hq : q.Reads) : Prog.Reads (if c then p else q) := by
  split
  · exact hp
  · exact hq

theorem build (f : Prog τ Unit) (t : τ) : Prog.Reads (Prog.build f t : Prog σ τ) := by
  constructor
  · intro s a s' h
    unfold Prog.build at h
    split at h
    · injection h with _ h; exact h.symm
    · cases h
    · cases h
  · intro s e s' h
    unfold Prog.build at h
    split at h
    · cases h
    · injection h with _ h; exact h.symm
    · cases h

theorem vector {K : Type} [Field K] (node : Json K) (n : Nat) (v : List K) : Prog.Reads (Gauss.readVector node n v : Prog σ (List K)) := by
  constructor
  · intro s a s' h
    unfold Gauss.readVector at h
    split at h
    · injection h with _ h; exact h.symm
    · cases h
    · cases h
  · intro s e s' h
    unfold Gauss.readVector at h
    split at h
    · cases h
    · injection h with _ h; exact h.symm
    · cases h

theorem block {K : Type} [Field K] (node : Json K) (n : Nat) : Prog.Reads (Phrase.readBlock node n : Prog σ (Ptr K)) := by
  constructor
  · intro s a s' h
    unfold Phrase.readBlock at h
    split at h
    · injection h with _ h; exact h.symm
    · cases h
    · cases h
  · intro s e s' h
    unfold Phrase.readBlock at h
    split at h
    · cases h
    · injection h with _ h; exact h.symm
    · cases h

theorem names {K : Type} [JsonReal K] (node : Json K) (n i : Nat) (l : List String) : Prog.Reads (Phrase.readNames node i n l : Prog σ (List String)) := by
  induction n generalizing i l with
  | zero => exact pure l
  | succ n ih =>
    unfold Phrase.readNames
    exact bind (lift _) fun j => bind (lift _) fun s => ite (ih _ _) undef

theorem gauss {K : Type} [Field K] [DecidableEq K] [JsonReal K] (root : Json K) : Prog.Reads (Gauss.ofJson root : Prog σ (Gauss K)) := by
  unfold Gauss.ofJson
  repeat first
    | exact pure _
    | refine bind (lift _) fun _ => ?_
    | refine bind (vector _ _ _) fun _ => ?_
    | dsimp only

theorem dims {K : Type} [Field K] [DecidableEq K] [JsonReal K] (root : Json K) : Prog.Reads (Phrase.readDims root : Prog σ (Phrase K)) := by
  unfold Phrase.readDims
  refine bind (lift _) fun _ => bind (lift _) fun _ => bind (lift _) fun _ => bind (lift _) fun _ => ite (throws _) ?_
  exact bind (lift _) fun _ => bind (lift _) fun _ => ite (throws _) (pure _)

theorem phrase {K : Type} [Field K] [DecidableEq K] [JsonReal K] (root : Json K) : Prog.Reads (Phrase.ofJson root : Prog σ (Phrase K)) := by
  unfold Phrase.ofJson
  refine bind (dims root) fun p => bind (lift _) fun _ => bind (names _ _ _ _) fun _ => bind (lift _) fun _ => bind (lift _) fun _ => bind (lift _) fun _ =>
    bind (lift _) fun _ => ?_
  unfold Phrase.readData
  refine ite ?_ ?_
  · exact bind (lift _) fun _ => bind (block _ _) fun _ => bind (lift _) fun _ => bind (block _ _) fun _ => pure _
  · exact bind (lift _) fun _ => bind (block _ _) fun _ => pure _

end Reads
end Xmm
