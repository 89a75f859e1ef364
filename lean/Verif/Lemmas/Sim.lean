import Verif.Props.GaussianJson
/- Two runs of a program from related states. -/
namespace Xmm
open Phrase (loop)
open Prog (bind_def pure_def get_def set_def modify_def throw_def undef_def)
open Gauss (Quiet)

/-- the outcome with another state -/
def Res.mapS {σ τ α : Type} (φ : σ → τ) : Res σ α → Res τ α
  | .ret a s => .ret a (φ s)
  | .throw e s => .throw e (φ s)
  | .ub => .ub

/-- `q` run from `φ s` does what `p` does from `s` -/
def SimAt {σ τ α : Type} (φ : σ → τ) (p : Prog σ α) (q : Prog τ α) (s : σ) : Prop := q (φ s) = (p s).mapS φ

namespace SimAt
variable {σ τ α β : Type} {φ : σ → τ}

theorem pure (a : α) (s : σ) : SimAt φ (Pure.pure a) (Pure.pure a) s := rfl
theorem throw (e : Exn) (s : σ) : SimAt φ (Prog.throw e : Prog σ α) (Prog.throw e) s := rfl
theorem undef (s : σ) : SimAt φ (Prog.undef : Prog σ α) Prog.undef s := rfl

theorem set {s s1 : σ} {t1 : τ} (h : t1 = φ s1) : SimAt φ (Prog.set s1) (Prog.set t1) s := by
  simp [SimAt, set_def, Res.mapS, h]

theorem modify {s : σ} {f : σ → σ} {g : τ → τ} (h : g (φ s) = φ (f s)) : SimAt φ (Prog.modify f) (Prog.modify g) s := by
  simp [SimAt, modify_def, Res.mapS, h]

theorem get {s : σ} {k : σ → Prog σ α} {k' : τ → Prog τ α} (h : SimAt φ (k s) (k' (φ s)) s) : SimAt φ (Prog.get >>= k) (Prog.get >>= k') s := by
  simpa [SimAt, bind_def, get_def] using h

theorem bind {s : σ} {p : Prog σ α} {q : Prog τ α} {k : α → Prog σ β} {k' : α → Prog τ β} (h : SimAt φ p q s)
    (hk : ∀ a s', p s = .ret a s' → SimAt φ (k a) (k' a) s') : SimAt φ (p >>= k) (q >>= k') s := by
  simp only [SimAt, bind_def] at h ⊢
  rw [h]
  cases hp : p s with
  | ret a s' => exact hk a s' hp
  | throw e s' => rfl
  | ub => rfl

theorem ite {s : σ} {c : Prop} [Decidable c] {p p' : Prog σ α} {q q' : Prog τ α} (h : c → SimAt φ p q s) (h' : ¬ c → SimAt φ p' q' s) :
    SimAt φ (if c then p else p') (if c then q else q') s := by
  split
  · next hc => exact h hc
  · next hc => exact h' hc

theorem loop (n : Nat) (a : α) {f : α → Nat → Prog σ α} {f' : α → Nat → Prog τ α} (s : σ) (h : ∀ a i s, i < n → SimAt φ (f a i) (f' a i) s) :
    SimAt φ (loop n a f) (Phrase.loop n a f') s := by
  induction n with
  | zero => exact pure a s
  | succ n ih =>
    have e : Phrase.loop (n + 1) a f = (Phrase.loop n a f >>= fun a => f a n) := funext fun s => by rw [loop_succ]; rfl
    have e' : Phrase.loop (n + 1) a f' = (Phrase.loop n a f' >>= fun a => f' a n) := funext fun s => by rw [loop_succ]; rfl
    rw [e, e']
    exact bind (ih fun a i s hi => h a i s (by omega)) fun a s' _ => h a n s' (by omega)

theorem mapMLoop {γ : Type} {f : γ → Prog σ β} {f' : γ → Prog τ β} : ∀ (l : List γ) (acc : List β) (s : σ), (∀ x ∈ l, ∀ s, SimAt φ (f x) (f' x) s) →
    SimAt φ (List.mapM.loop f l acc) (List.mapM.loop f' l acc) s
  | [], _, s, _ => pure _ s
  | x :: l, acc, s, h => bind (h x List.mem_cons_self s) fun b s' _ => mapMLoop l (b :: acc) s' fun y hy => h y (List.mem_cons_of_mem _ hy)

theorem mapM {γ : Type} {f : γ → Prog σ β} {f' : γ → Prog τ β} (l : List γ) (s : σ) (h : ∀ x ∈ l, ∀ s, SimAt φ (f x) (f' x) s) :
    SimAt φ (l.mapM f) (l.mapM f') s := mapMLoop l [] s h

theorem rd (l : List β) (i : Nat) (s : σ) : SimAt φ (Gauss.rd l i) (Gauss.rd l i) s := by
  unfold Gauss.rd
  split
  · exact pure _ s
  · exact undef s

/-- reading an element of a list of objects that are related -/
theorem rdMap {γ δ : Type} {f : γ → δ} (l : List γ) (i : Nat) {k : γ → Prog σ α} {k' : δ → Prog τ α} (s : σ) (h : ∀ a ∈ l, SimAt φ (k a) (k' (f a)) s) :
    SimAt φ (Gauss.rd l i >>= k) (Gauss.rd (l.map f) i >>= k') s := by
  unfold Gauss.rd
  rw [List.getElem?_map]
  cases hl : l[i]? with
  | none => simp [SimAt, bind_def, undef_def, Res.mapS]
  | some a => simpa [SimAt, bind_def, pure_def] using h a (List.mem_of_getElem? hl)

theorem quiet {φ : σ → σ} {p : Prog σ α} (h : Quiet p) (s : σ) : SimAt φ p p s := by
  obtain ⟨o, ho⟩ := h
  match o, ho with
  | some (.ok a), ho => simp only [SimAt, ho]; rfl
  | some (.error e), ho => simp only [SimAt, ho]; rfl
  | none, ho => simp only [SimAt, ho]; rfl

end SimAt

/-! ### distributions -/
namespace Gauss
variable {K : Type} [Field K] [LinearOrder K]

theorem Quiet.matrixOf {σ : Type} (r c : Nat) (v : List K) (idx : Nat → Nat → Nat) : Quiet (Gauss.matrixOf r c v idx : Prog σ (Mat K)) :=
  Quiet.ite (Quiet.pure _) Quiet.undef

theorem Quiet.lift {σ α : Type} (e : Except Exn α) : Quiet (Gauss.lift e : Prog σ α) := by
  cases e
  · exact Quiet.throw _
  · exact Quiet.pure _

theorem Quiet.copyInto {σ : Type} (a b : List K) : Quiet (Gauss.copyInto a b : Prog σ (List K)) := by
  unfold Gauss.copyInto
  exact Quiet.ite (Quiet.pure _) Quiet.undef

/-- a distribution without limits on its dimensions -/
def unlimited (g : Gauss K) : Gauss K := { g with dimMin := 0, diMax := uintMax }

theorem Quiet.run {σ α β : Type} {p : Prog σ α} (hq : Quiet p) {k k' : α → Prog σ β} {s t u u' : σ} {b : β}
    (h : ∀ a, k a s = .ret b u → k' a t = .ret b u') : (p >>= k) s = .ret b u → (p >>= k') t = .ret b u' := by
  obtain ⟨o, ho⟩ := hq
  rw [bind_def, bind_def, ho s, ho t]
  match o with
  | some (.ok a) => exact h a
  | some (.error e) => exact nofun
  | none => exact nofun

theorem updateOutput_reloaded {g g' : Gauss K} (h : updateOutputCovariance g = .ret () g') : updateOutputCovariance g.reloaded = .ret () g'.unlimited := by
  obtain ⟨b, dim, dmin, di, dmax, mode, mean, cov, inv, det, invIn, detIn, outCov⟩ := g
  simp only [updateOutputCovariance, bind_def, get_def, reloaded] at h ⊢
  split at h
  · cases h
  · next hb =>
    rw [if_neg hb]
    revert h
    refine Quiet.run (Quiet.outDim _) fun _ => ?_
    cases mode with
    | diagonal =>
      intro h
      by_cases hc : dim ≤ cov.length
      · simp only [hc, if_true] at h ⊢
        simp only [set_def, Res.ret.injEq, true_and] at h ⊢
        rw [← h]; rfl
      · simp only [hc, if_false] at h
        cases h
    | full =>
      refine Quiet.run (Quiet.matrixOf _ _ _ _) fun _ => Quiet.run (Quiet.lift _) fun _ => Quiet.run (Quiet.matrixOf _ _ _ _) fun _ =>
        Quiet.run (Quiet.matrixOf _ _ _ _) fun _ => Quiet.run (Quiet.lift _) fun _ => Quiet.run (Quiet.lift _) fun _ =>
        Quiet.run (Quiet.matrixOf _ _ _ _) fun _ h => ?_
      simp only [set_def, Res.ret.injEq, true_and] at h ⊢
      rw [← h]; rfl

/-- updating a distribution that was written and read back gives what the original had, when the original was up to date -/
theorem update_reloaded (g : Gauss K) (hb : g.bimodal = false → g.outCov = []) (h : updateInverseCovariance g = .ret () g) :
    updateInverseCovariance g.reloaded = .ret () g.unlimited := by
  have full : ∀ g : Gauss K, SimAt reloaded updateInverseFull updateInverseFull g := fun g => by
    unfold updateInverseFull
    refine .get (.bind (.quiet (Quiet.matrixOf _ _ _ _) _) fun _ _ _ => .bind (.quiet (Quiet.lift _) _) fun _ _ _ =>
      .bind (.quiet (Quiet.copyInto _ _) _) fun _ _ _ => .bind (.set rfl) fun _ _ _ => ?_)
    refine .ite (fun _ => .bind (.quiet (Quiet.matrixOf _ _ _ _) _) fun _ _ _ => .bind (.quiet (Quiet.lift _) _) fun _ _ _ =>
      .bind (.quiet (Quiet.copyInto _ _) _) fun _ _ _ => .set rfl) fun _ => .pure _ _
  have diag : ∀ g : Gauss K, SimAt reloaded updateInverseDiagonal updateInverseDiagonal g := fun g => by
    unfold updateInverseDiagonal
    refine .bind (.modify rfl) fun _ _ _ => .get (.loop _ _ _ fun _ d s _ => .get (.bind (.rd _ _ _) fun _ s' h' => ?_))
    refine .ite (fun _ => .throw _ _) fun _ => .bind (.rd _ _ _) fun _ s'' _ => .bind (.modify rfl) fun _ _ _ =>
      .ite (fun _ => .bind (.rd _ _ _) fun _ _ _ => .modify rfl) fun _ => .pure _ _
  have last : ∀ {p : Prog (Gauss K) Unit}, SimAt reloaded p p g → (p >>= fun _ => updateOutputIfBimodal) g = .ret () g →
      (p >>= fun _ => updateOutputIfBimodal) g.reloaded = .ret () g.unlimited := by
    intro p first h
    rw [SimAt] at first
    rw [bind_def] at h ⊢
    rw [first]
    cases h1 : p g with
    | throw e s => rw [h1] at h; cases h
    | ub => rw [h1] at h; cases h
    | ret a s =>
      rw [h1] at h
      simp only [Res.mapS, updateOutputIfBimodal, bind_def, get_def] at h ⊢
      by_cases hs : s.bimodal = true
      · rw [if_pos hs] at h
        rw [if_pos (show s.reloaded.bimodal = true from hs)]
        exact updateOutput_reloaded h
      · rw [if_neg hs] at h
        rw [if_neg (show ¬ s.reloaded.bimodal = true from hs)]
        simp only [pure_def, Res.ret.injEq, true_and] at h ⊢
        subst h
        rw [reloaded, unlimited, hb (by simpa using hs)]
  unfold updateInverseCovariance at h ⊢
  rw [bind_def, get_def] at h ⊢
  cases hm : g.mode with
  | full =>
    simp only [hm, show g.reloaded.mode = .full from hm] at h ⊢
    exact last (full g) h
  | diagonal =>
    simp only [hm, show g.reloaded.mode = .diagonal from hm] at h ⊢
    exact last (diag g) h

theorem Quiet.inv {σ α β : Type} {p : Prog σ α} (hq : Quiet p) {k : α → Prog σ β} {s u : σ} {b : β} (h : (p >>= k) s = .ret b u) :
    ∃ a, (∀ t, p t = .ret a t) ∧ k a s = .ret b u := by
  obtain ⟨o, ho⟩ := hq
  rw [bind_def, ho s] at h
  match o, ho with
  | some (.ok a), ho => exact ⟨a, ho, h⟩
  | some (.error e), _ => cases h
  | none, _ => cases h

theorem copyInto_again {σ : Type} {l d r : List K} {s : σ} (h : ∀ t : σ, copyInto l d t = .ret r t) : copyInto l r s = .ret r s := by
  have h := h s
  unfold copyInto at h ⊢
  split at h
  · simp only [pure_def, Res.ret.injEq, and_true] at h
    rw [← h, if_pos (by simp)]
    simp [pure_def]
  · cases h

theorem updateFull_again {g g1 : Gauss K} (h : updateInverseFull g = .ret () g1) (o : List K) :
    g1.mode = g.mode ∧ updateInverseFull { g1 with outCov := o } = .ret () { g1 with outCov := o } := by
  unfold updateInverseFull at h ⊢
  rw [bind_of_ret (get_def g)] at h
  obtain ⟨M, hM, h⟩ := Quiet.inv (Quiet.matrixOf _ _ _ _) h
  obtain ⟨⟨inverse, det⟩, hI, h⟩ := Quiet.inv (Quiet.lift _) h
  obtain ⟨inv, hV, h⟩ := Quiet.inv (Quiet.copyInto _ _) h
  simp only at h hV
  rw [bind_of_ret (set_def _ _)] at h
  by_cases hb : g.bimodal = true
  · rw [if_pos hb] at h
    obtain ⟨M', hM', h⟩ := Quiet.inv (Quiet.matrixOf _ _ _ _) h
    obtain ⟨⟨inverse', det'⟩, hI', h⟩ := Quiet.inv (Quiet.lift _) h
    obtain ⟨inv', hV', h⟩ := Quiet.inv (Quiet.copyInto _ _) h
    simp only [set_def, Res.ret.injEq, true_and] at h hV'
    subst h
    refine ⟨rfl, ?_⟩
    rw [bind_of_ret (get_def _), bind_of_ret (hM _), bind_of_ret (hI _)]
    simp only
    rw [bind_of_ret (copyInto_again hV), bind_of_ret (set_def _ _), if_pos hb, bind_of_ret (hM' _), bind_of_ret (hI' _)]
    simp only
    rw [bind_of_ret (copyInto_again hV')]
    rfl
  · rw [if_neg hb] at h
    simp only [pure_def, Res.ret.injEq, true_and] at h
    subst h
    refine ⟨rfl, ?_⟩
    rw [bind_of_ret (get_def _), bind_of_ret (hM _), bind_of_ret (hI _)]
    simp only
    rw [bind_of_ret (copyInto_again hV), bind_of_ret (set_def _ _), if_neg hb]
    rfl

theorem updateOutput_again {g g1 : Gauss K} (h : updateOutputIfBimodal g = .ret () g1) :
    (∃ o, g1 = { g with outCov := o }) ∧ updateOutputIfBimodal g1 = .ret () g1 := by
  unfold updateOutputIfBimodal at h ⊢
  rw [bind_of_ret (get_def g)] at h
  by_cases hb : g.bimodal = true
  · rw [if_pos hb] at h
    unfold updateOutputCovariance at h
    rw [bind_of_ret (get_def g), if_neg (by simp [hb])] at h
    obtain ⟨dout, hd, h⟩ := Quiet.inv (Quiet.outDim _) h
    cases hm : g.mode with
    | diagonal =>
      simp only [hm] at h
      by_cases hc : g.dim ≤ g.cov.length
      · simp only [hc, if_true, set_def, Res.ret.injEq, true_and] at h
        subst h
        refine ⟨⟨_, rfl⟩, ?_⟩
        rw [bind_of_ret (get_def _), if_pos hb]
        unfold updateOutputCovariance
        rw [bind_of_ret (get_def _), if_neg (by simp [hb])]
        refine (bind_of_ret (hd _)).trans ?_
        simp only [hm, hc, if_true]
        rfl
      · simp only [hc, if_false] at h
        cases h
    | full =>
      simp only [hm] at h
      obtain ⟨m1, h1, h⟩ := Quiet.inv (Quiet.matrixOf _ _ _ _) h
      obtain ⟨⟨m2, x⟩, h2, h⟩ := Quiet.inv (Quiet.lift _) h
      obtain ⟨m3, h3, h⟩ := Quiet.inv (Quiet.matrixOf _ _ _ _) h
      obtain ⟨m4, h4, h⟩ := Quiet.inv (Quiet.matrixOf _ _ _ _) h
      obtain ⟨m5, h5, h⟩ := Quiet.inv (Quiet.lift _) h
      obtain ⟨m6, h6, h⟩ := Quiet.inv (Quiet.lift _) h
      obtain ⟨m7, h7, h⟩ := Quiet.inv (Quiet.matrixOf _ _ _ _) h
      simp only [set_def, Res.ret.injEq, true_and] at h
      subst h
      refine ⟨⟨_, rfl⟩, ?_⟩
      rw [bind_of_ret (get_def _), if_pos hb]
      unfold updateOutputCovariance
      rw [bind_of_ret (get_def _), if_neg (by simp [hb])]
      refine (bind_of_ret (hd _)).trans ?_
      simp only [hm]
      rw [bind_of_ret (h1 _), bind_of_ret (h2 _)]
      simp only
      rw [bind_of_ret (h3 _), bind_of_ret (h4 _), bind_of_ret (h5 _), bind_of_ret (h6 _), bind_of_ret (h7 _)]
      rfl
  · rw [if_neg hb] at h
    simp only [pure_def, Res.ret.injEq, true_and] at h
    subst h
    exact ⟨⟨_, rfl⟩, by rw [bind_of_ret (get_def g), if_neg hb]; rfl⟩

/-- `updateInverseCovariance()` a second time changes nothing (Full mode) -/
theorem update_again {g g' : Gauss K} (hm : g.mode = .full) (h : updateInverseCovariance g = .ret () g') : updateInverseCovariance g' = .ret () g' := by
  unfold updateInverseCovariance at h ⊢
  rw [bind_of_ret (get_def g), hm] at h
  simp only at h
  cases h1 : updateInverseFull g with
  | throw e s => rw [bind_def, h1] at h; cases h
  | ub => rw [bind_def, h1] at h; cases h
  | ret a s =>
    rw [bind_of_ret h1] at h
    obtain ⟨⟨o, ho⟩, h3⟩ := updateOutput_again h
    obtain ⟨h4, h5⟩ := updateFull_again h1 o
    rw [← ho] at h5
    have hm' : g'.mode = .full := by rw [ho]; exact h4.trans hm
    rw [bind_of_ret (get_def _), hm']
    simp only
    rw [bind_of_ret h5, h3]

end Gauss
end Xmm
