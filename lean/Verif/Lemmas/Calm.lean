import Verif.Props.PhraseStats
import Verif.Lemmas.Loop
import Verif.Model.Gaussian
/- Programs that only read, and either return or have undefined behaviour: sums of their results do not depend on the order. -/
namespace Xmm
open Prog (bind_def pure_def get_def set_def modify_def throw_def undef_def)
open Phrase (loop)
open Gauss (rd)

/-- the program returns a value that does not depend on the state and leaves the state alone, or it always has undefined behaviour -/
def Prog.Calm {σ α : Type} (p : Prog σ α) : Prop := (∃ v, ∀ s, p s = .ret v s) ∨ ∀ s, p s = .ub

theorem loop_bind {σ α : Type} (n : Nat) (a : α) (f : α → Nat → Prog σ α) : loop (n + 1) a f = (loop n a f >>= fun b => f b n) := by
  funext s
  rw [loop_succ, bind_def]
  cases loop n a f s <;> rfl

namespace Prog.Calm
variable {σ α β : Type}

theorem pure (a : α) : (Pure.pure a : Prog σ α).Calm := Or.inl ⟨a, fun _ => rfl⟩

theorem bind {p : Prog σ α} {f : α → Prog σ β} (hp : p.Calm) (hf : ∀ a, (f a).Calm) : (p >>= f).Calm := by
  rcases hp with ⟨v, hv⟩ | hu
  · rcases hf v with ⟨w, hw⟩ | hw
    · exact Or.inl ⟨w, fun s => by rw [bind_of_ret (hv s), hw]⟩
    · exact Or.inr fun s => by rw [bind_of_ret (hv s), hw]
  · exact Or.inr fun s => by rw [bind_def, hu]

theorem rd (l : List α) (i : Nat) : (Gauss.rd l i : Prog σ α).Calm := by
  unfold Gauss.rd
  cases l[i]? with
  | some a => exact Calm.pure a
  | none => exact Or.inr fun _ => rfl

theorem loop {n : Nat} {a : α} {f : α → Nat → Prog σ α} (h : ∀ a k, (f a k).Calm) : (Phrase.loop n a f).Calm := by
  induction n with
  | zero => exact Calm.pure a
  | succ n ih => rw [loop_bind]; exact Calm.bind ih fun b => h b n

end Prog.Calm

section sums
variable {σ β K : Type} [AddCommMonoid K]

/-- one term more -/
def addTo (g : β → Prog σ K) (acc : K) (e : β) : Prog σ K := do
  let v ← g e
  pure (acc + v)

theorem addTo_swap {g : β → Prog σ K} (hg : ∀ e, (g e).Calm) (a : K) (x y : β) :
    (addTo g a x >>= fun b => addTo g b y) = (addTo g a y >>= fun b => addTo g b x) := by
  funext s
  unfold addTo
  rcases hg x with ⟨v, hv⟩ | hv <;> rcases hg y with ⟨w, hw⟩ | hw <;> simp only [bind_def, hv, hw, pure_def]
  rw [add_assoc, add_assoc, add_comm v]

theorem sumM_perm {g : β → Prog σ K} (hg : ∀ e, (g e).Calm) {l l' : List β} (h : l.Perm l') : ∀ a : K, l.foldlM (addTo g) a = l'.foldlM (addTo g) a := by
  induction h with
  | nil => intro a; rfl
  | cons x _ ih =>
    intro a
    rw [List.foldlM_cons, List.foldlM_cons]
    congr 1
    exact funext ih
  | swap x y l =>
    intro a
    simp only [List.foldlM_cons]
    funext s
    have e := congrFun (addTo_swap hg a x y) s
    simp only [bind_def] at e ⊢
    cases h1 : addTo g a x s with
    | ub =>
      rw [h1] at e
      cases h2 : addTo g a y s with
      | ub => rfl
      | throw e1 s1 => rw [h2] at e; cases e
      | ret b s1 =>
        rw [h2] at e
        simp only at e ⊢
        rw [← e]
    | throw e1 s1 =>
      rw [h1] at e
      cases h2 : addTo g a y s with
      | ub => rw [h2] at e; cases e
      | throw e2 s2 => rw [h2] at e; exact e.symm
      | ret b s1 =>
        rw [h2] at e
        simp only at e ⊢
        rw [← e]
    | ret b s1 =>
      rw [h1] at e
      simp only at e
      cases h2 : addTo g a y s with
      | ub => rw [h2] at e; simp only at e ⊢; rw [e]
      | throw e2 s2 => rw [h2] at e; simp only at e ⊢; rw [e]
      | ret b' s2 =>
        rw [h2] at e
        simp only at e ⊢
        rw [e]
  | trans _ _ ih1 ih2 => intro a; rw [ih1, ih2]

theorem addTo_loop {n : Nat} {g : Nat → Prog σ K} (hg : ∀ t, (g t).Calm) : ∀ a : K,
    loop n a (fun a t => addTo g a t) = (do let v ← loop n 0 (fun a t => addTo g a t); pure (a + v)) := by
  induction n with
  | zero =>
    intro a
    funext s
    show Res.ret a s = Res.ret (a + 0) s
    rw [add_zero]
  | succ n ih =>
    intro a
    have hc : (loop n (0 : K) (fun a t => addTo g a t)).Calm := Prog.Calm.loop fun b t => Prog.Calm.bind (hg t) fun v => Prog.Calm.pure _
    have e : ∀ a : K, loop (n + 1) a (fun a t => addTo g a t) = (loop n a (fun a t => addTo g a t) >>= fun b => addTo g b n) := fun a => loop_bind _ _ _
    rw [e, e, ih a]
    funext s
    generalize loop n (0 : K) (fun a t => addTo g a t) = p at hc
    rcases hc with ⟨v, hv⟩ | hv <;> rcases hg n with ⟨w, hw⟩ | hw <;> simp only [bind_def, hv, hw, pure_def, addTo]
    rw [add_assoc]

end sums
end Xmm
