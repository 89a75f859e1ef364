import Verif.Model.Cpp
/- Partial-correctness triples for the outcome monad: undefined behaviour satisfies every triple, exceptions have their own
   postcondition. -/
namespace Xmm.Prog
variable {σ α β : Type}

/-- from a state with `P`, `f` either has undefined behaviour, or returns with `Q`, or throws with `E` -/
def Tri (P : σ → Prop) (f : Prog σ α) (Q : α → σ → Prop) (E : σ → Prop) : Prop :=
  ∀ s, P s → match f s with
    | .ret a s' => Q a s'
    | .throw _ s' => E s'
    | .ub => True

theorem Tri.bind {P : σ → Prop} {f : Prog σ α} {g : α → Prog σ β} {Q : α → σ → Prop} {R : β → σ → Prop} {E : σ → Prop}
    (hf : Tri P f Q E) (hg : ∀ a, Tri (Q a) (g a) R E) : Tri P (f >>= g) R E := by
  intro s hs
  have h := hf s hs
  rw [bind_def]
  cases hfs : f s with
  | ret a s' => rw [hfs] at h; exact hg a s' h
  | throw e s' => rw [hfs] at h; exact h
  | ub => trivial

theorem Tri.pure {P : σ → Prop} {a : α} {Q : α → σ → Prop} {E : σ → Prop} (h : ∀ s, P s → Q a s) :
    Tri P (Pure.pure a) Q E := fun s hs => h s hs

theorem Tri.get {P : σ → Prop} {Q : σ → σ → Prop} {E : σ → Prop} (h : ∀ s, P s → Q s s) :
    Tri P (Prog.get) Q E := fun s hs => h s hs

theorem Tri.set {P : σ → Prop} {s' : σ} {Q : Unit → σ → Prop} {E : σ → Prop} (h : ∀ s, P s → Q () s') :
    Tri P (Prog.set s') Q E := fun s hs => h s hs

theorem Tri.modify {P : σ → Prop} {f : σ → σ} {Q : Unit → σ → Prop} {E : σ → Prop} (h : ∀ s, P s → Q () (f s)) :
    Tri P (Prog.modify f) Q E := fun s hs => h s hs

theorem Tri.throw {P : σ → Prop} {e : Exn} {Q : α → σ → Prop} {E : σ → Prop} (h : ∀ s, P s → E s) :
    Tri P (Prog.throw e) Q E := fun s hs => h s hs

theorem Tri.undef {P : σ → Prop} {Q : α → σ → Prop} {E : σ → Prop} : Tri P Prog.undef Q E := fun _ _ => trivial

theorem Tri.ite {P : σ → Prop} {c : Prop} [Decidable c] {f g : Prog σ α} {Q : α → σ → Prop} {E : σ → Prop}
    (hf : c → Tri P f Q E) (hg : ¬ c → Tri P g Q E) : Tri P (if c then f else g) Q E := by
  split
  · exact hf (by assumption)
  · exact hg (by assumption)

theorem Tri.conseq {P P' : σ → Prop} {f : Prog σ α} {Q Q' : α → σ → Prop} {E E' : σ → Prop} (h : Tri P f Q E)
    (hp : ∀ s, P' s → P s) (hq : ∀ a s, Q a s → Q' a s) (he : ∀ s, E s → E' s) : Tri P' f Q' E' := by
  intro s hs
  have := h s (hp s hs)
  cases hfs : f s with
  | ret a s' => rw [hfs] at this; exact hq a s' this
  | throw e s' => rw [hfs] at this; exact he s' this
  | ub => trivial

theorem Tri.false {f : Prog σ α} {Q : α → σ → Prop} {E : σ → Prop} : Tri (fun _ => False) f Q E := fun _ h => h.elim

/-- a pure hypothesis can be moved out of the precondition -/
theorem Tri.of_imp {P : σ → Prop} {c : Prop} {f : Prog σ α} {Q : α → σ → Prop} {E : σ → Prop} (h : c → Tri P f Q E) :
    Tri (fun s => c ∧ P s) f Q E := fun s hs => h hs.1 s hs.2

theorem Tri.ret {P : σ → Prop} {f : Prog σ α} {Q : α → σ → Prop} {E : σ → Prop} (h : Tri P f Q E) {s s' : σ} {a : α}
    (hs : P s) (hf : f s = .ret a s') : Q a s' := by
  have := h s hs; rw [hf] at this; exact this

theorem Tri.thrown {P : σ → Prop} {f : Prog σ α} {Q : α → σ → Prop} {E : σ → Prop} (h : Tri P f Q E) {s s' : σ} {e : Exn}
    (hs : P s) (hf : f s = .throw e s') : E s' := by
  have := h s hs; rw [hf] at this; exact this

theorem Tri.and {P P' : σ → Prop} {f : Prog σ α} {Q Q' : α → σ → Prop} {E E' : σ → Prop}
    (h : Tri P f Q E) (h' : Tri P' f Q' E') : Tri (fun s => P s ∧ P' s) f (fun a s => Q a s ∧ Q' a s)
      (fun s => E s ∧ E' s) := by
  intro s hs
  cases hf : f s with
  | ret a s' => exact ⟨h.ret hs.1 hf, h'.ret hs.2 hf⟩
  | throw e s' => exact ⟨h.thrown hs.1 hf, h'.thrown hs.2 hf⟩
  | ub => trivial

end Xmm.Prog
