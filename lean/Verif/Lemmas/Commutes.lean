import Verif.Model.ClassTraining
import Verif.Props.PhraseStats
/- Programs that do not read a part of the state, and leave it as it is. -/
namespace Xmm
open Phrase (loop)
open Gauss (rd)
open Prog

variable {σ α β : Type} {φ : σ → σ}

/-- the result with another final state -/
def Res.mapState (φ : σ → σ) : Res σ α → Res σ α
  | .ret a s => .ret a (φ s)
  | .throw e s => .throw e (φ s)
  | .ub => .ub

/-- changing the state before the program, or after it -/
def Commutes (φ : σ → σ) (p : Prog σ α) : Prop := ∀ s, p (φ s) = (p s).mapState φ

theorem step_bind {p : Prog σ α} (hp : Commutes φ p) {q q' : α → Prog σ β} (h : ∀ a s, q' a (φ s) = (q a s).mapState φ) (s : σ) :
    (p >>= q') (φ s) = ((p >>= q) s).mapState φ := by
  simp only [bind_def, hp s]
  cases p s with
  | ret a t => exact h a t
  | throw e t => rfl
  | ub => rfl

theorem commutes_bind {p : Prog σ α} {q : α → Prog σ β} (hp : Commutes φ p) (h : ∀ a, Commutes φ (q a)) : Commutes φ (p >>= q) :=
  fun s => step_bind hp (fun a s => h a s) s

theorem bind_map {p : Prog σ α} {q : α → Prog σ β} {s s' : σ} (h : p s' = (p s).mapState φ) (hq : ∀ a, Commutes φ (q a)) : (p >>= q) s' = ((p >>= q) s).mapState φ := by
  simp only [bind_def, h]
  cases p s with
  | ret a t => exact hq a t
  | throw e t => rfl
  | ub => rfl

theorem commutes_pure (a : α) : Commutes φ (Pure.pure a : Prog σ α) := fun _ => rfl

theorem commutes_throw (e : Exn) : Commutes φ (Prog.throw e : Prog σ α) := fun _ => rfl

theorem commutes_undef : Commutes φ (Prog.undef : Prog σ α) := fun _ => rfl

theorem commutes_rd {F : Type} (l : List F) (i : Nat) : Commutes φ (rd l i : Prog σ F) := by
  intro s
  unfold rd
  cases l[i]? <;> rfl

theorem commutes_get {body : σ → Prog σ α} (h : ∀ s, body (φ s) (φ s) = (body s s).mapState φ) : Commutes φ (Prog.get >>= body) := fun s => h s

theorem commutes_modify {F : σ → σ} (h : ∀ s, F (φ s) = φ (F s)) : Commutes φ (Prog.modify F) := by
  intro s
  simp only [modify_def, h]
  rfl

theorem commutes_foldlM {γ : Type} (l : List γ) (body : α → γ → Prog σ α) (h : ∀ a, ∀ x ∈ l, Commutes φ (body a x)) : ∀ a, Commutes φ (l.foldlM body a) := by
  induction l with
  | nil => intro a; exact commutes_pure a
  | cons x l ih =>
    intro a
    rw [List.foldlM_cons]
    exact commutes_bind (h a x (by simp)) fun b => ih (fun a y hy => h a y (by simp [hy])) b

theorem commutes_loop (n : Nat) (a : α) (body : α → Nat → Prog σ α) (h : ∀ a i, Commutes φ (body a i)) : Commutes φ (loop n a body) :=
  commutes_foldlM _ _ (fun a x _ => h a x) a

theorem commutes_mapM {γ : Type} (l : List γ) (body : γ → Prog σ α) (h : ∀ x, Commutes φ (body x)) : Commutes φ (l.mapM body) := by
  have h1 : ∀ (l : List γ) (acc : List α), Commutes φ (List.mapM.loop body l acc) := by
    intro l
    induction l with
    | nil => intro acc; exact commutes_pure _
    | cons x l ih => intro acc; exact commutes_bind (h x) fun a => ih _
  exact h1 l []

theorem commutes_ite {c : Prop} [Decidable c] {p q : Prog σ α} (hp : Commutes φ p) (hq : Commutes φ q) : Commutes φ (if c then p else q) := by
  split
  · exact hp
  · exact hq

theorem commutes_attempt {p : Prog σ α} (hp : Commutes φ p) : Commutes φ (Trainee.attempt p) := by
  intro s
  unfold Trainee.attempt
  rw [hp s]
  cases p s <;> rfl

/-- `train` does not read what the functions that it calls do not read -/
theorem after_map {V : Type} (update : Nat → Prog σ V) (h : ∀ k, Commutes φ (update k)) (s : σ) (k : Nat) :
    Trainee.after update (φ s) k = (Trainee.after update s k).map φ := by
  induction k with
  | zero => rfl
  | succ k ih =>
    unfold Trainee.after
    rw [ih]
    cases Trainee.after update s k with
    | none => rfl
    | some t =>
      simp only [Option.map_some, Option.bind_some, h k t]
      cases update k t <;> rfl

theorem env_map {V : Type} (C : Compare V) (init : Bool) (update : Nat → Prog σ V) (h : ∀ k, Commutes φ (update k)) (s : σ) (cancel : Nat → Bool) :
    Trainee.env C init update (φ s) cancel = Trainee.env C init update s cancel := by
  unfold Trainee.env
  congr 1
  funext k
  rw [after_map update h]
  cases Trainee.after update s k with
  | none => rfl
  | some t =>
    simp only [Option.map_some, Option.bind_some, h k t]
    cases update k t <;> rfl

/-- The rest of `train` after `allocate()`. -/
def Trainee.afterAllocate {V : Type} [Zero V] (T : Trainee σ V) (C : Compare V) (P : EmParams) (cancel : Nat → Bool) : Prog σ (Trainer V) := do
  let ok ← Trainee.begin' (cancel 0) true T.init
  let s ← Prog.get
  let update := T.update (ok.getD false)
  match Trainer.train (Trainee.env C ok.isSome update s cancel) P true true 1001 (Trainee.start V) with
  | .ret true t =>
    match Trainee.after update s t.updates with
    | none => Prog.undef
    | some s' => do
      Prog.set s'
      Trainee.finish T t
  | _ => Prog.undef

theorem commutes_afterInit {V : Type} [Zero V] (T : Trainee σ V) (hu : ∀ b k, Commutes φ (T.update b k)) (ht : Commutes φ T.terminate)
    (hd : ∀ s, T.idle (φ s) = φ (T.idle s)) (C : Compare V) (P : EmParams) (cancel : Nat → Bool) (ok : Option Bool) :
    Commutes φ (do
      let s ← Prog.get
      let update := T.update (ok.getD false)
      match Trainer.train (Trainee.env C ok.isSome update s cancel) P true true 1001 (Trainee.start V) with
      | .ret true t =>
        match Trainee.after update s t.updates with
        | none => Prog.undef
        | some s' => do
          Prog.set s'
          Trainee.finish T t
      | _ => Prog.undef : Prog σ (Trainer V)) := by
  apply commutes_get
  intro s
  simp only [env_map C ok.isSome _ (hu _) s cancel]
  cases Trainer.train (Trainee.env C ok.isSome (T.update (ok.getD false)) s cancel) P true true 1001 (Trainee.start V) with
  | throw e t => rfl
  | ub => rfl
  | ret b t =>
    cases b with
    | false => rfl
    | true =>
      simp only [after_map _ (hu _)]
      cases Trainee.after (T.update (ok.getD false)) s t.updates with
      | none => rfl
      | some s' =>
        simp only [Option.map_some, bind_def, set_def]
        have : Commutes φ (Trainee.finish T t) := by
          unfold Trainee.finish
          have hj : Commutes φ (do Prog.modify T.idle; Pure.pure t : Prog σ (Trainer V)) := commutes_bind (commutes_modify hd) fun _ => commutes_pure _
          show Commutes φ (if t.status = .done then (do let _ ← T.terminate; Prog.modify T.idle; Pure.pure t) else (do Prog.modify T.idle; Pure.pure t))
          split
          · exact commutes_bind ht fun _ => hj
          · exact hj
        exact this s'

end Xmm
