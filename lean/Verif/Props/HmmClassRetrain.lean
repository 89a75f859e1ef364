import Verif.Lemmas.HmmBlind
import Verif.Lemmas.HmmTrain
set_option linter.unusedSectionVars false
/- C109: training a class of a hierarchy again gives what training a new class gives. -/
namespace Xmm
open Phrase (loop)
open Gauss (rd resize)
open Prog

namespace Hmm
open HmmSpec

/-- forward and backward variables for the model -/
def Past.Fits (q : Past ℝ) (n : Nat) : Prop := q.alpha.length = n ∧ q.beta.length = n

theorem EStep.Exact.unique {m : Hmm ℝ} {d : Nat → List ℝ → Nat → ℝ} {fr : List (List ℝ)} {e e' : EStep ℝ} (h : e.Exact m d fr) (h' : e'.Exact m d fr) : e = e' := by
  cases e
  cases e'
  simp only [EStep.mk.injEq]
  exact ⟨h.len.trans h'.len.symm, h.gamma.trans h'.gamma.symm, h.gmix.trans h'.gmix.symm, h.eps.trans h'.eps.symm⟩

/-- an iteration does not read the past -/
theorem emUpdate_related (D : Dens ℝ) (hD : D.Sound) (log : ℝ → ℝ) (hlog : ∀ x y, 0 < x → 0 < y → log (x * y) = log x + log y) {m0 x : Hmm ℝ} {data : KData ℝ}
    (he : m0.ergodic = false) (hl : data.frames.length ≤ 10 ^ 90) (h : Running m0 data x) (q : Past ℝ) (hq : q.Fits x.n) :
    ∃ v x' q', emUpdate D log data x = .ret v x' ∧ Running m0 data x' ∧ emUpdate D log data (withPast q x) = .ret v (withPast q' x') ∧ Past.Fits q' x'.n := by
  obtain ⟨v, x', h1, h2⟩ := Running.next D hD log hlog hl h (by rw [he]; simp)
  obtain ⟨d, d1, d2⟩ := observes_exist D hD x h.training.wf h.training.ready data.frames h.trains.frame
  obtain ⟨es, a, p, b, r, e1, e2, e3, e4⟩ := eSteps_ret D log hlog x h.training d data.phrases d1 d2
  have ht : (withPast q x).InTraining := ⟨⟨h.training.wf.pos, h.training.wf.sts, h.training.wf.prior, h.training.wf.trans, h.training.wf.state⟩, h.training.ready, hq.1, hq.2,
    h.training.start_nonneg, h.training.start_sum, h.training.step_nonneg, h.training.step_sum, h.training.last⟩
  obtain ⟨es', a', p', b', r', f1, f2, f3, f4⟩ := eSteps_ret D log hlog (withPast q x) ht d data.phrases d1 d2
  have hes : es' = es := by
    have : ∀ (l : List (List (List ℝ))) (es es' : List (EStep ℝ)), List.Forall₂ (fun fr e => EStep.Exact x d fr e) l es →
        List.Forall₂ (fun fr e => EStep.Exact (withPast q x) d fr e) l es' → es' = es := by
      intro l es es' k1
      induction k1 generalizing es' with
      | nil => intro k2; cases k2; rfl
      | cons k1 _ ih =>
        intro k2
        cases k2 with
        | cons k2 k3 =>
          rw [ih _ k3, EStep.Exact.unique (m := x) ⟨k2.len, k2.gamma, k2.gmix, k2.eps⟩ k1]
    exact this _ _ _ e4 f4
  subst hes
  set q' : Past ℝ := { q with alpha := a', prevAlpha := p', beta := b', prevBeta := r' } with hq'
  have hs : (withPast q x).scratch a' p' b' r' = withPast q' (x.scratch a p b r) := rfl
  have hv : HmmSpec.logTotal log (withPast q x) d data.phrases = HmmSpec.logTotal log x d data.phrases := rfl
  have hc : Commutes (withPast q') (do
      estimateStates es' data.frames
      let m ← Prog.get
      if m.ergodic then estimatePrior es' else Pure.pure ()
      estimateTransitions es'
      Pure.pure (HmmSpec.logTotal log x d data.phrases) : Prog (Hmm ℝ) ℝ) := by
    refine commutes_bind (commutes_estimateStates q' es' data.frames) fun _ => ?_
    apply commutes_get
    intro m
    have he' : (withPast q' m).ergodic = m.ergodic := rfl
    rw [he']
    have hj : Commutes (withPast q') (do estimateTransitions es'; Pure.pure (HmmSpec.logTotal log x d data.phrases) : Prog (Hmm ℝ) ℝ) :=
      commutes_bind (commutes_estimateTransitions q' es') fun _ => commutes_pure _
    by_cases hm : m.ergodic = true
    · simp only [hm, if_true]
      exact commutes_bind (commutes_estimatePrior q' es') (fun _ => hj) m
    · simp only [hm]
      exact hj m
  refine ⟨v, x', q', h1, h2, ?_, ?_⟩
  · unfold emUpdate at h1 ⊢
    rw [bind_of_ret e1] at h1
    rw [bind_of_ret f1, hs, hv]
    exact (hc _).trans (by rw [h1]; rfl)
  · have : x'.n = x.n := by rw [h2.same, h.same]
    rw [this]
    exact ⟨f2, f3⟩

/-- `train` on two classes that are related: the same outcome, and classes that are related -/
theorem _root_.Xmm.Trainee.afterInit_related {σ V : Type} [Zero V] (T : Trainee σ V) (C : Compare V) (P : EmParams) (cancel : Nat → Bool) (b : Bool) (R Q : σ → σ → Prop)
    (hu : ∀ k x y, R x y → ∃ v x' y', T.update b k x = .ret v x' ∧ T.update b k y = .ret v y' ∧ R x' y')
    (ht : ∀ x y, R x y → ∃ x' y', T.terminate x = .ret () x' ∧ T.terminate y = .ret () y' ∧ Q (T.idle x') (T.idle y')) (hi : ∀ x y, R x y → Q (T.idle x) (T.idle y))
    {s s' : σ} (h : R s s') (p : Prog σ (Trainer V)) (hp : p = (do
      let s ← Prog.get
      let update := T.update b
      match Trainer.train (Trainee.env C true update s cancel) P true true 1001 (Trainee.start V) with
      | .ret true t =>
        match Trainee.after update s t.updates with
        | none => Prog.undef
        | some s' => do
          Prog.set s'
          Trainee.finish T t
      | _ => Prog.undef)) {t : Trainer V} {x : σ} (hx : p s = .ret t x) : ∃ y, p s' = .ret t y ∧ Q x y := by
  have haf : ∀ k, ∃ x y, Trainee.after (T.update b) s k = some x ∧ Trainee.after (T.update b) s' k = some y ∧ R x y := by
    intro k
    induction k with
    | zero => exact ⟨s, s', rfl, rfl, h⟩
    | succ k ih =>
      obtain ⟨x, y, a1, a2, a3⟩ := ih
      obtain ⟨v, x', y', b1, b2, b3⟩ := hu k x y a3
      exact ⟨x', y', by simp [Trainee.after, a1, b1], by simp [Trainee.after, a2, b2], b3⟩
  have henv : Trainee.env C true (T.update b) s' cancel = Trainee.env C true (T.update b) s cancel := by
    unfold Trainee.env
    congr 1
    funext k
    obtain ⟨x, y, a1, a2, a3⟩ := haf k
    obtain ⟨v, x', y', b1, b2, -⟩ := hu k x y a3
    simp [a1, a2, b1, b2]
  subst hp
  rw [bind_def, get_def] at hx ⊢
  simp only [henv] at hx ⊢
  cases hT : Trainer.train (Trainee.env C true (T.update b) s cancel) P true true 1001 (Trainee.start V) with
  | throw e u => rw [hT] at hx; simp [undef_def] at hx
  | ub => rw [hT] at hx; simp [undef_def] at hx
  | ret c u =>
    rw [hT] at hx
    cases c with
    | false => simp [undef_def] at hx
    | true =>
      obtain ⟨y1, y2, a1, a2, a3⟩ := haf u.updates
      simp only [a1, a2, bind_def, set_def] at hx ⊢
      unfold Trainee.finish at hx ⊢
      by_cases hd : u.status = .done
      · obtain ⟨x', y', b1, b2, b3⟩ := ht _ _ a3
        simp only [hd, if_true, bind_def, modify_def, pure_def, b1, b2] at hx ⊢
        injection hx with e1 e2
        subst e1 e2
        exact ⟨_, rfl, b3⟩
      · simp only [hd, if_false, bind_def, modify_def, pure_def] at hx ⊢
        injection hx with e1 e2
        subst e1 e2
        exact ⟨_, rfl, hi _ _ a3⟩

theorem loop_onState_map {φ : Hmm ℝ → Hmm ℝ} (h1 : ∀ m, (φ m).sts = m.sts) (h2 : ∀ m l, φ { m with sts := l } = { φ m with sts := l }) (n : Nat) (f : Prog (Gmm ℝ) Unit) :
    Commutes φ (loop n () (fun _ i => onState i f)) := by
  refine commutes_loop _ _ _ fun _ i m => ?_
  unfold onState
  rw [h1]
  cases m.sts[i]? with
  | none => rfl
  | some s =>
    dsimp only
    cases f s with
    | ret a t => exact congrArg (Res.ret a) (h2 _ _).symm
    | throw e t => exact congrArg (Res.throw e) (h2 _ _).symm
    | ub => rfl

/-- `allocate()` on a class with the same parameters and another past -/
theorem allocate_related (m : Hmm ℝ) (ha : m.Admissible) (he : m.ergodic = false) (hh : m.hier = true) (p : Past ℝ) (s : List (Gmm ℝ)) (pr l : List ℝ) :
    ∃ m1 q l', allocate m = .ret () m1 ∧ allocate (withPast p { m with sts := s, prior := pr, trans := l }) = .ret () (withPast q { m1 with trans := l' }) ∧
      q.Fits m.n ∧ m1.n = m.n ∧ m1.ergodic = false := by
  obtain ⟨g, h1, h2, -⟩ := fresh_states m ha
  set q : Past ℝ := { p with exitP := (resize m.n p.exitP).set (m.n - 1) (1 / 10), alpha := resize m.n p.alpha, prevAlpha := resize m.n p.prevAlpha, beta := resize m.n p.beta, prevBeta := resize m.n p.prevBeta } with hq
  set φ : Hmm ℝ → Hmm ℝ := fun x => withPast { q with exitP := p.exitP } { x with trans := resize (m.n * 2) l } with hφ
  have hal : allocated (withPast p { m with sts := s, prior := pr, trans := l }) = φ (allocated m) := by
    simp only [allocated, withPast, he, hφ, hq, Bool.false_eq_true, if_false]
    rfl
  have hlen : (allocated m).sts.length = m.n := by simp [allocated]
  have hn1 : 1 ≤ m.n := ha.n
  refine ⟨{ allocated m with sts := g, exitP := (resize m.n m.exitP).set (m.n - 1) (1 / 10) }, q, resize (m.n * 2) l, ?_, ?_, ⟨length_resize _ _, length_resize _ _⟩, rfl, he⟩
  · unfold allocate
    rw [bind_of_ret (modify_def _ _), bind_of_ret (get_def _), hlen, bind_of_ret h1]
    rw [if_pos (by exact hh), updateExit_ret _ (by exact hh) (by exact hn1)]
    rfl
  · unfold allocate
    rw [bind_of_ret (modify_def _ _), bind_of_ret (get_def _), hal]
    have h3 : loop m.n () (fun _ i => onState i Gmm.allocate) (φ (allocated m)) = .ret () (φ { allocated m with sts := g }) := by
      rw [loop_onState_map (φ := φ) (fun _ => rfl) (fun _ _ => rfl) m.n Gmm.allocate (allocated m), h1]
      rfl
    rw [show (φ (allocated m)).sts.length = m.n from hlen, bind_of_ret h3, if_pos (by exact hh), updateExit_ret _ (by exact hh) (by exact hn1)]
    rfl

/-- C109 (a class): a class with the parameters of `m`, whatever its past, is trained as `m` is: the training has the same outcome, and if it is done the classes have the same parameters. -/
theorem retrain (D : Dens ℝ) (hD : D.Sound) (log : ℝ → ℝ) (hlog : ∀ x y, 0 < x → 0 < y → log (x * y) = log x + log y) (m : Hmm ℝ)
    (ha : m.Admissible) (he : m.ergodic = false) (hh : m.hier = true) (data : KData ℝ) (hf : m.Fed data) (hl : m.LongPhrase data)
    (hlen : data.frames.length ≤ 10 ^ 90) (hreg : 1 / 10 ^ 9 ≤ m.absReg) (sdOf : KData ℝ → List ℝ)
    (hsd : ∀ d, (sdOf d).length = d.dim) (lowest pct : ℝ) (P : EmParams) (hP : 1 ≤ P.minIter) (cancel : Nat → Bool)
    (p : Past ℝ) (s : List (Gmm ℝ)) (pr l : List ℝ)
    {t : Trainer ℝ} {m' : Hmm ℝ} (ht : (trainee D log Real.sqrt (Compare.exact lowest pct) P sdOf data).train (Compare.exact lowest pct) P cancel m = .ret t m') :
    ∃ t' c', (trainee D log Real.sqrt (Compare.exact lowest pct) P sdOf data).train (Compare.exact lowest pct) P cancel
        (withPast p { m with sts := s, prior := pr, trans := l }) = .ret t' c' ∧ t'.status = t.status ∧
      (t.status ≠ .cancel → t' = t ∧ ∃ q, c' = withPast q m') := by
  set C := Compare.exact lowest pct with hC
  set T := trainee D log Real.sqrt C P sdOf data with hT
  obtain ⟨m1, q, l', a1, a2, a3, a4, a5⟩ := allocate_related m ha he hh p s pr l
  by_cases hc : cancel 0 = true
  · obtain ⟨t1, k1, b1, b2, -⟩ := Trainee.train_cancelled T C P cancel m m1 a1 hP hc
    obtain ⟨t2, k2, c1, c2, -⟩ := Trainee.train_cancelled T C P cancel _ _ a2 hP hc
    rw [ht] at b1
    injection b1 with b1 _
    subst b1
    exact ⟨_, _, c1, by rw [b2, c2], fun h => absurd b2 h⟩
  · obtain ⟨g, n1, m2, b1, b2, -, -, b3⟩ := init_ret D hD log lowest pct P hP sdOf hsd data m ha hf hl (by rw [he]; simp) hreg
    rw [a1] at b1
    injection b1 with _ b1
    subst b1
    have hne : data.phrases.isEmpty = false := by
      rw [← Bool.not_eq_true, List.isEmpty_iff]
      intro he
      exact hf.some (by simp [KData.frames, he])
    have b4 := emInit_blind q D log Real.sqrt C P sdOf data hne m1 a5 l'
    rw [b2] at b4
    have i1 : T.init m1 = .ret true m2 := by
      show (do emInit D log Real.sqrt C P sdOf data; Pure.pure true : Prog (Hmm ℝ) Bool) m1 = _
      rw [bind_of_ret b2]
      rfl
    have i2 : T.init (withPast q { m1 with trans := l' }) = .ret true (withPast q m2) := by
      show (do emInit D log Real.sqrt C P sdOf data; Pure.pure true : Prog (Hmm ℝ) Bool) _ = _
      rw [bind_of_ret b4]
      rfl
    have hbeg : Trainee.begin' (cancel 0) true T.init = Trainee.attempt T.init := if_neg hc
    have j1 : Trainee.begin' (cancel 0) true T.init m1 = .ret (some true) m2 := by
      rw [hbeg]
      unfold Trainee.attempt
      rw [i1]
    have j2 : Trainee.begin' (cancel 0) true T.init (withPast q { m1 with trans := l' }) = .ret (some true) (withPast q m2) := by
      rw [hbeg]
      unfold Trainee.attempt
      rw [i2]
    have hn2 : m2.n = m.n := by rw [b3.same]; exact a4
    unfold Trainee.train at ht ⊢
    rw [bind_of_ret (show T.allocate m = .ret () m1 from a1), bind_of_ret j1] at ht
    rw [bind_of_ret (show T.allocate _ = .ret () _ from a2), bind_of_ret j2]
    obtain ⟨y, y1, y2⟩ := Trainee.afterInit_related T C P cancel true (fun x y => Running m1 data x ∧ ∃ q, Past.Fits q x.n ∧ y = withPast q x) (fun x y => ∃ q, y = withPast q x)
      (by
        rintro k x y ⟨r1, q, r2, rfl⟩
        obtain ⟨v, x', q', u1, u2, u3, u4⟩ := emUpdate_related D hD log hlog a5 hlen r1 q r2
        exact ⟨v, x', _, u1, u3, u2, q', u4, rfl⟩)
      (by
        rintro x y ⟨r1, q, r2, rfl⟩
        have hpos : (0 : ℝ) < 1 / 10 ^ 100 := by positivity
        obtain ⟨x', k1, -⟩ := C44_normalize x r1.training.wf r1.training.start_nonneg (by rw [r1.training.start_sum]; exact one_pos)
          r1.training.step_nonneg fun i hi => lt_of_lt_of_le hpos (r1.training.step_sum i hi)
        refine ⟨x', withPast q x', k1, ?_, q, rfl⟩
        show normalizeTransitions (withPast q x) = _
        rw [commutes_normalizeTransitions q x, k1]
        rfl)
      (by rintro x y ⟨-, q, -, rfl⟩; exact ⟨q, rfl⟩)
      (s := m2) (s' := withPast q m2) ⟨b3, q, by rw [hn2]; exact a3, rfl⟩ _ rfl ht
    exact ⟨t, y, y1, rfl, fun _ => ⟨rfl, y2⟩⟩

theorem withPast_same (q : Past ℝ) {m : Hmm ℝ} (hm : m.CanFilter) (he : q.exitP = m.exitP) : m.SameClass (withPast q m) := ⟨by rw [← he]; rfl, SameStates.refl _ hm.state⟩

end Hmm
end Xmm
