import Verif.Lemmas.Gaussian
import Verif.Model.Float
set_option linter.unusedSimpArgs false
set_option linter.unusedSectionVars false
/- C29 – C32: the Gaussian distribution.  The matrices `sigma`, `precision`, … held by a distribution are defined in
   Verif/Spec/Gaussian.lean. -/
namespace Xmm
open Gauss Phrase
variable {K : Type}

/-! ## C29 -/

theorem density_floor (A : Arith Fl) (hA : A.Ieee) (dist det : Fl) (n : Nat) :
    ∃ x : ℝ, density A dist det n = .fin x ∧ 1 / 10 ^ 180 ≤ x := by
  unfold density
  simp only [hA.lt, hA.isnan, hA.isinf, hA.floor]
  generalize A.div _ _ = p
  cases p with
  | nan => exact ⟨1 / 10 ^ 180, by simp [Fl.isnan], le_refl _⟩
  | inf s => exact ⟨1 / 10 ^ 180, by simp [Fl.isinf], le_refl _⟩
  | fin x =>
    by_cases h : x < 1 / 10 ^ 180
    · exact ⟨1 / 10 ^ 180, by simp only [Fl.lt, h, decide_true, Bool.true_or, if_true], le_refl _⟩
    · exact ⟨x, by simp only [Fl.lt, h, decide_false, Fl.isnan, Fl.isinf, Bool.or_false, Bool.false_eq_true, if_false], not_lt.1 h⟩

theorem bind_ret {σ α β : Type} {f : Prog σ α} {k : α → Prog σ β} {s s' : σ} {b : β} (h : (f >>= k) s = .ret b s') :
    ∃ a s1, f s = .ret a s1 ∧ k a s1 = .ret b s' := by
  rw [Prog.bind_def] at h
  cases hf : f s with
  | ret a s1 => rw [hf] at h; exact ⟨a, s1, rfl, h⟩
  | throw e s1 => rw [hf] at h; cases h
  | ub => rw [hf] at h; cases h

/-- C29: whatever the arithmetic operations answer (rounding, overflow, underflow, NaN), if `likelihood` returns, the
    result is a finite number not below 1e-180. -/
theorem C29_likelihood_floor (A : Arith Fl) (hA : A.Ieee) (g g' : Gauss Fl) (obs : List Fl) (p : Fl)
    (h : likelihood A obs g = .ret p g') : ∃ x : ℝ, p = .fin x ∧ 1 / 10 ^ 180 ≤ x := by
  unfold likelihood at h
  obtain ⟨g1, s1, e1, h⟩ := bind_ret h
  split at h
  · cases h
  · obtain ⟨dist, s2, _, h⟩ := bind_ret h
    cases h
    exact density_floor A hA _ _ _

/-- C29 for `likelihood_input`. -/
theorem C29_likelihood_input_floor (A : Arith Fl) (hA : A.Ieee) (g g' : Gauss Fl) (obs : List Fl) (p : Fl)
    (h : likelihoodInput A obs g = .ret p g') : ∃ x : ℝ, p = .fin x ∧ 1 / 10 ^ 180 ≤ x := by
  unfold likelihoodInput at h
  obtain ⟨g1, s1, e1, h⟩ := bind_ret h
  split at h
  · cases h
  · split at h
    · cases h
    · obtain ⟨dist, s2, _, h⟩ := bind_ret h
      cases h
      exact density_floor A hA _ _ _

/-- C29 for `likelihood_bimodal`. -/
theorem C29_likelihood_bimodal_floor (A : Arith Fl) (hA : A.Ieee) (g g' : Gauss Fl) (x y : List Fl) (p : Fl)
    (h : likelihoodBimodal A x y g = .ret p g') : ∃ x : ℝ, p = .fin x ∧ 1 / 10 ^ 180 ≤ x := by
  unfold likelihoodBimodal at h
  obtain ⟨g1, s1, e1, h⟩ := bind_ret h
  split at h
  · cases h
  · split at h
    · cases h
    · obtain ⟨_, _, _, h⟩ := bind_ret h
      obtain ⟨dist, s2, _, h⟩ := bind_ret h
      cases h
      exact density_floor A hA _ _ _

section Defined
variable {F : Type} (A : Arith F)

/-- a body that only reads returns and keeps the state -/
def ReadsOnly {σ α : Type} (f : Prog σ α) (s : σ) : Prop := ∃ a, f s = .ret a s

theorem ReadsOnly.bind {σ α β : Type} {f : Prog σ α} {k : α → Prog σ β} {s : σ} (h : ReadsOnly f s)
    (hk : ∀ a, ReadsOnly (k a) s) : ReadsOnly (f >>= k) s := by
  obtain ⟨a, e⟩ := h
  obtain ⟨b, e2⟩ := hk a
  exact ⟨b, by rw [Prog.bind_def, e]; exact e2⟩

theorem ReadsOnly.pure {σ α : Type} (a : α) (s : σ) : ReadsOnly (Pure.pure a : Prog σ α) s := ⟨a, rfl⟩

theorem ReadsOnly.rd {σ : Type} {l : List F} {i : Nat} (h : i < l.length) (s : σ) : ReadsOnly (Gauss.rd l i) s :=
  ⟨l[i], by simp [Gauss.rd, h]⟩

theorem ReadsOnly.diff {σ : Type} {l m : List F} {i j : Nat} (h : i < l.length) (h' : j < m.length) (s : σ) :
    ReadsOnly (Gauss.diff A l m i j) s := (ReadsOnly.rd h s).bind fun _ => (ReadsOnly.rd h' s).bind fun _ => ReadsOnly.pure _ _

theorem ReadsOnly.get {σ α : Type} {k : σ → Prog σ α} {s : σ} (h : ReadsOnly (k s) s) : ReadsOnly (Prog.get >>= k) s := by
  obtain ⟨b, e⟩ := h
  exact ⟨b, by rw [Prog.bind_def, Prog.get_def]; exact e⟩

theorem ReadsOnly.outDim {σ : Type} {g : Gauss F} (h : g.di ≤ g.dim) (s : σ) : ReadsOnly (Gauss.outDim g) s :=
  ⟨g.dim - g.di, by simp [Gauss.outDim, not_lt.2 h]⟩

theorem ReadsOnly.loop {σ α : Type} (n : Nat) (body : α → Nat → Prog σ α) (s : σ)
    (h : ∀ a, ∀ t < n, ReadsOnly (body a t) s) (a : α) : ReadsOnly (Phrase.loop n a body) s := by
  induction n with
  | zero => exact ⟨a, rfl⟩
  | succ n ih =>
    obtain ⟨b, e⟩ := ih fun a t ht => h a t (by omega)
    obtain ⟨c, e2⟩ := h b n (by omega)
    exact ⟨c, by rw [loop_succ, e]; exact e2⟩

/-- C29 (defined): on a distribution whose vectors have the sizes of its dimensions and mode, with an observation of at least
    the dimension, `likelihood` throws `runtime_error` exactly when the stored determinant is zero and otherwise returns,
    without changing the distribution. -/
theorem C29_likelihood_defined (g : Gauss F) (hw : g.WF) (obs : List F) (ho : g.dim ≤ obs.length) :
    (A.eq g.det (A.lit 0) = true → likelihood A obs g = .throw .runtimeError g) ∧
    (A.eq g.det (A.lit 0) = false → ∃ p, likelihood A obs g = .ret p g) := by
  constructor
  · intro h; simp [likelihood, h]
  · intro h
    unfold likelihood distance
    have hm := hw.mean
    have hi := hw.inv
    refine ReadsOnly.get ?_
    simp only [h, Bool.false_eq_true, if_false]
    refine (ReadsOnly.bind (s := g) ?_ fun _ => ReadsOnly.pure _ _)
    cases hmode : g.mode with
    | full =>
      rw [hmode] at hi
      simp only at hi ⊢
      refine ReadsOnly.loop _ _ _ (fun a t ht => ?_) _
      refine (ReadsOnly.loop _ _ _ (fun a k hk => ?_) _).bind fun _ => (ReadsOnly.diff A (by omega) (by omega) _).bind fun _ => ReadsOnly.pure _ _
      exact (ReadsOnly.rd (by rw [hi]; exact flat_lt ht hk) _).bind fun _ => (ReadsOnly.diff A (by omega) (by omega) _).bind fun _ => ReadsOnly.pure _ _
    | diagonal =>
      rw [hmode] at hi
      simp only at hi ⊢
      refine ReadsOnly.loop _ _ _ (fun a t ht => ?_) _
      exact (ReadsOnly.rd (by omega) _).bind fun _ => (ReadsOnly.diff A (by omega) (by omega) _).bind fun _ =>
        (ReadsOnly.diff A (by omega) (by omega) _).bind fun _ => ReadsOnly.pure _ _

/-- C29 (defined), `likelihood_input`. -/
theorem C29_likelihood_input_defined (g : Gauss F) (hw : g.WF) (obs : List F) (ho : g.di ≤ obs.length) :
    (g.bimodal = false → likelihoodInput A obs g = .throw .runtimeError g) ∧
    (g.bimodal = true → A.eq g.detIn (A.lit 0) = true → likelihoodInput A obs g = .throw .runtimeError g) ∧
    (g.bimodal = true → A.eq g.detIn (A.lit 0) = false → ∃ p, likelihoodInput A obs g = .ret p g) := by
  refine ⟨fun h => by simp [likelihoodInput, h], fun hb h => by simp [likelihoodInput, hb, h], fun hb h => ?_⟩
  unfold likelihoodInput distanceInput
  have hm := hw.mean
  have hi := hw.inv
  have hii := hw.invIn hb
  have hle := hw.le hb
  refine ReadsOnly.get ?_
  simp only [hb, Bool.not_true, h, Bool.false_eq_true, if_false]
  refine (ReadsOnly.bind (s := g) ?_ fun _ => ReadsOnly.pure _ _)
  cases hmode : g.mode with
  | full =>
    rw [hmode] at hii
    simp only at hii ⊢
    refine ReadsOnly.loop _ _ _ (fun a t ht => ?_) _
    refine (ReadsOnly.loop _ _ _ (fun a k hk => ?_) _).bind fun _ => (ReadsOnly.diff A (by omega) (by omega) _).bind fun _ => ReadsOnly.pure _ _
    exact (ReadsOnly.rd (by rw [hii]; exact flat_lt ht hk) _).bind fun _ => (ReadsOnly.diff A (by omega) (by omega) _).bind fun _ => ReadsOnly.pure _ _
  | diagonal =>
    rw [hmode] at hi
    simp only at hi ⊢
    refine ReadsOnly.loop _ _ _ (fun a t ht => ?_) _
    exact (ReadsOnly.rd (by omega) _).bind fun _ => (ReadsOnly.diff A (by omega) (by omega) _).bind fun _ =>
      (ReadsOnly.diff A (by omega) (by omega) _).bind fun _ => ReadsOnly.pure _ _

/-- C29 (defined), `likelihood_bimodal`. -/
theorem C29_likelihood_bimodal_defined (g : Gauss F) (hw : g.WF) (x y : List F) (hx : g.di ≤ x.length)
    (hy : g.dim - g.di ≤ y.length) :
    (g.bimodal = false → likelihoodBimodal A x y g = .throw .runtimeError g) ∧
    (g.bimodal = true → A.eq g.det (A.lit 0) = true → likelihoodBimodal A x y g = .throw .runtimeError g) ∧
    (g.bimodal = true → A.eq g.det (A.lit 0) = false → ∃ p, likelihoodBimodal A x y g = .ret p g) := by
  refine ⟨fun h => by simp [likelihoodBimodal, h], fun hb h => by simp [likelihoodBimodal, hb, h], fun hb h => ?_⟩
  unfold likelihoodBimodal distanceBimodal
  have hm := hw.mean
  have hi := hw.inv
  have hle := hw.le hb
  refine ReadsOnly.get ?_
  simp only [hb, Bool.not_true, h, Bool.false_eq_true, if_false]
  refine ReadsOnly.bind (ReadsOnly.outDim hle _) fun _ => (ReadsOnly.bind (s := g) ?_ fun _ => ReadsOnly.pure _ _)
  cases hmode : g.mode with
  | full =>
    rw [hmode] at hi
    simp only at hi ⊢
    refine ReadsOnly.loop _ _ _ (fun a t ht => ?_) _
    refine (ReadsOnly.loop _ _ _ (fun a k hk => ?_) _).bind fun _ => (ReadsOnly.loop _ _ _ (fun a k hk => ?_) _).bind fun _ => ?_
    · exact (ReadsOnly.rd (by rw [hi]; exact flat_lt ht (by omega)) _).bind fun _ =>
        (ReadsOnly.diff A (by omega) (by omega) _).bind fun _ => ReadsOnly.pure _ _
    · exact (ReadsOnly.rd (by rw [hi, Nat.add_assoc]; exact flat_lt ht (by omega)) _).bind fun _ =>
        (ReadsOnly.diff A (by omega) (by omega) _).bind fun _ => ReadsOnly.pure _ _
    · split
      · exact (ReadsOnly.diff A (by omega) (by omega) _).bind fun _ => ReadsOnly.pure _ _
      · exact (ReadsOnly.diff A (by omega) (by omega) _).bind fun _ => ReadsOnly.pure _ _
  | diagonal =>
    rw [hmode] at hi
    simp only at hi ⊢
    refine (ReadsOnly.loop _ _ _ (fun a t ht => ?_) _).bind fun _ => ReadsOnly.loop _ _ _ (fun a t ht => ?_) _
    · exact (ReadsOnly.rd (by omega) _).bind fun _ => (ReadsOnly.diff A (by omega) (by omega) _).bind fun _ =>
        (ReadsOnly.diff A (by omega) (by omega) _).bind fun _ => ReadsOnly.pure _ _
    · exact (ReadsOnly.rd (by omega) _).bind fun _ => (ReadsOnly.diff A (by omega) (by omega) _).bind fun _ =>
        (ReadsOnly.diff A (by omega) (by omega) _).bind fun _ => ReadsOnly.pure _ _

end Defined

/-- exact arithmetic satisfies the hypotheses of C29 -/
theorem exact_ieee : Fl.exact.Ieee where
  lt := rfl
  eq := rfl
  isnan := rfl
  isinf := rfl
  floor := by simp [Fl.exact]
  zero := by simp [Fl.exact]

/-- non-vacuity of C29: a distribution with a negative stored determinant (see C10) and one with a huge distance, both return -/
example : ∃ g : Gauss Fl, g.WF ∧ (∃ p, likelihood Fl.exact [.fin 1] g = .ret p g) := by
  refine ⟨⟨false, 1, 1, 0, 0, .full, [.fin 0], [.fin 1], [.fin 1], .fin (-1), [], .fin 0, []⟩,
    ⟨rfl, rfl, rfl, by simp, by simp⟩, ?_⟩
  exact (C29_likelihood_defined Fl.exact _ ⟨rfl, rfl, rfl, by simp, by simp⟩ _ (by simp)).2 (by simp [Fl.exact, Fl.eq])

/-! ## C31 -/

section
variable [Field K] [LinearOrder K] [IsStrictOrderedRing K]

/-- the fields that updating the inverse never changes -/
structure SameParams (g g' : Gauss K) : Prop where
  bimodal : g'.bimodal = g.bimodal
  dim : g'.dim = g.dim
  di : g'.di = g.di
  mode : g'.mode = g.mode
  mean : g'.mean = g.mean
  cov : g'.cov = g.cov

theorem precision_diag (g : Gauss K) (hm : g.mode = .diagonal) (hp : ∀ i < g.dim, 0 < g.cov.getD i 0)
    (hi : ∀ i < g.dim, g.inv.getD i 0 = 1 / g.cov.getD i 0) :
    g.precision * g.sigma = 1 ∧ g.sigma * g.precision = 1 := by
  unfold precision sigma
  rw [hm]
  simp only [Matrix.diagonal_mul_diagonal]
  have : ∀ i : Fin g.dim, vecOf g.dim g.inv i * vecOf g.dim g.cov i = 1 := by
    intro i
    rw [vecOf, vecOf, hi i.val i.isLt, one_div, inv_mul_cancel₀ (ne_of_gt (hp i.val i.isLt))]
  constructor
  · rw [← Matrix.diagonal_one]; congr 1; funext i; exact this i
  · rw [← Matrix.diagonal_one]; congr 1; funext i; rw [mul_comm]; exact this i

theorem precisionIn_diag (g : Gauss K) (hm : g.mode = .diagonal) (hle : g.di ≤ g.dim)
    (hp : ∀ i < g.dim, 0 < g.cov.getD i 0) (hi : ∀ i < g.di, g.invIn.getD i 0 = 1 / g.cov.getD i 0) :
    g.precisionIn * g.sigmaIn hle = 1 ∧ g.sigmaIn hle * g.precisionIn = 1 := by
  have hs : g.sigmaIn hle = Matrix.diagonal (vecOf g.di g.cov) := by
    funext i j
    simp only [sigmaIn, sigma, hm, Matrix.diagonal_apply, Fin.ext_iff, vecOf]
    rfl
  rw [hs]
  unfold precisionIn
  rw [hm]
  simp only [Matrix.diagonal_mul_diagonal]
  have : ∀ i : Fin g.di, vecOf g.di g.invIn i * vecOf g.di g.cov i = 1 := by
    intro i
    rw [vecOf, vecOf, hi i.val i.isLt, one_div, inv_mul_cancel₀ (ne_of_gt (hp i.val (by have := i.isLt; omega)))]
  constructor
  · rw [← Matrix.diagonal_one]; congr 1; funext i; exact this i
  · rw [← Matrix.diagonal_one]; congr 1; funext i; rw [mul_comm]; exact this i

theorem getD_map_range (f : Nat → K) (n i : Nat) (hi : i < n) (l : List K) : ((List.range n).map f ++ l).getD i 0 = f i := by
  simp [List.getD_eq_getElem?_getD, List.getElem?_append, hi]

theorem diagState_spec (g : Gauss K) (hw : g.WF) (hm : g.mode = .diagonal) (hp : ∀ i < g.dim, 0 < g.cov.getD i 0) :
    (diagState g g.dim).WF ∧ SameParams g (diagState g g.dim) ∧
    (diagState g g.dim).precision * (diagState g g.dim).sigma = 1 ∧
    (diagState g g.dim).sigma * (diagState g g.dim).precision = 1 ∧
    (∀ (_ : g.bimodal = true) (hle : (diagState g g.dim).di ≤ (diagState g g.dim).dim),
      (diagState g g.dim).precisionIn * (diagState g g.dim).sigmaIn hle = 1 ∧
      (diagState g g.dim).sigmaIn hle * (diagState g g.dim).precisionIn = 1) := by
  have hi : g.inv.length = g.dim := by have := hw.inv; rw [hm] at this; exact this
  refine ⟨⟨hw.mean, hw.cov, ?_, ?_, hw.le⟩, ⟨rfl, rfl, rfl, rfl, rfl, rfl⟩, ?_⟩
  · have : (diagState g g.dim).mode = .diagonal := hm
    rw [this]; simp [diagState]; omega
  · intro hb
    have hb' : g.bimodal = true := hb
    have : (diagState g g.dim).mode = .diagonal := hm
    have hii : g.invIn.length = g.di := by have := hw.invIn hb'; rw [hm] at this; exact this
    rw [this]; simp [diagState, hb']; omega
  · have h1 := precision_diag (diagState g g.dim) hm hp (fun i hi =>
      getD_map_range (fun i => 1 / g.cov.getD i 0) g.dim i hi _)
    refine ⟨h1.1, h1.2, fun hb hle => ?_⟩
    refine precisionIn_diag (diagState g g.dim) hm hle hp (fun i hi => ?_)
    have hle' : g.di ≤ g.dim := hle
    simp only [diagState, hb, if_true]
    refine getD_map_range (fun i => 1 / g.cov.getD i 0) _ i ?_ _
    have : i < g.di := hi
    omega

theorem mode_cases {F : Type} (g : Gauss F) : g.mode = .full ∨ g.mode = .diagonal := by
  cases g.mode <;> simp

theorem bool_cases (b : Bool) : b = false ∨ b = true := by cases b <;> simp

/-- updating the output covariance keeps everything else -/
theorem updateOutput_keeps (g g' : Gauss K) (hw : g.WF) (h : updateOutputIfBimodal g = .ret () g') :
    ∃ v, g' = { g with outCov := v } := by
  simp only [updateOutputIfBimodal, Prog.bind_def, Prog.get_def] at h
  rcases bool_cases g.bimodal with hb | hb
  · simp only [hb, Bool.false_eq_true, if_false, Prog.pure_def] at h
    cases h; exact ⟨g.outCov, rfl⟩
  · simp only [hb, if_true] at h
    rcases mode_cases g with hm | hm
    · obtain ⟨h1, h2⟩ := updateOutput_full g hw hm hb
      cases hp : (covMatIn g).pinv with
      | error e => rw [h1 e hp] at h; cases h
      | ok r =>
        obtain ⟨v, e, _⟩ := h2 r.1 r.2 hp
        rw [e] at h; cases h; exact ⟨v, rfl⟩
    · rw [updateOutput_diagonal g hw hm hb] at h; cases h; exact ⟨_, rfl⟩

theorem updateInverse_full (g : Gauss K) (hm : g.mode = .full) :
    updateInverseCovariance g = match updateInverseFull g with
      | .ret _ g1 => updateOutputIfBimodal g1
      | .throw e g1 => .throw e g1
      | .ub => .ub := by
  simp only [updateInverseCovariance, Prog.bind_def, Prog.get_def, hm]
  split <;> simp_all

theorem updateInverse_diagonal (g : Gauss K) (hm : g.mode = .diagonal) :
    updateInverseCovariance g = match updateInverseDiagonal g with
      | .ret _ g1 => updateOutputIfBimodal g1
      | .throw e g1 => .throw e g1
      | .ub => .ub := by
  simp only [updateInverseCovariance, Prog.bind_def, Prog.get_def, hm]
  split <;> simp_all

/-- what C31 says of the distribution `g'` after an update of `g` -/
structure Inverted (g g' : Gauss K) : Prop where
  wf : g'.WF
  same : SameParams g g'
  left : g'.precision * g'.sigma = 1
  right : g'.sigma * g'.precision = 1
  input : g.bimodal = true → ∀ hle : g'.di ≤ g'.dim,
    g'.precisionIn * g'.sigmaIn hle = 1 ∧ g'.sigmaIn hle * g'.precisionIn = 1

theorem Inverted.output {g g1 g' : Gauss K} (h : Inverted g g1) (h1 : updateOutputIfBimodal g1 = .ret () g') :
    Inverted g g' := by
  obtain ⟨v, rfl⟩ := updateOutput_keeps g1 g' h.wf h1
  obtain ⟨hw1, hs1, a1, a2, a3⟩ := h
  exact ⟨⟨hw1.mean, hw1.cov, hw1.inv, hw1.invIn, hw1.le⟩, ⟨hs1.1, hs1.2, hs1.3, hs1.4, hs1.5, hs1.6⟩, a1, a2, a3⟩

/-- the two outcomes of the Full update when it does not throw -/
theorem full_inverted (g g1 : Gauss K) (hw : g.WF) (hm : g.mode = .full) (h : updateInverseFull g = .ret () g1) :
    Inverted g g1 ∧ (∃ x, (covMat g).pinv = .ok (x, g1.det)) ∧
    (g.bimodal = true → ∃ y, (covMatIn g).pinv = .ok (y, g1.detIn)) := by
  rw [updateInverseFull_eq g hw hm] at h
  cases hp : (covMat g).pinv with
  | error e => simp only [hp] at h; cases h
  | ok r =>
    obtain ⟨x, d⟩ := r
    obtain ⟨l1, i1, i2⟩ := pinv_cells (covMat_holds g hm) hp
    simp only [hp] at h
    rcases bool_cases g.bimodal with hb | hb
    · rw [if_neg (by simp [hb])] at h
      cases h
      refine ⟨⟨⟨hw.mean, hw.cov, ?_, hw.invIn, hw.le⟩, ⟨rfl, rfl, rfl, rfl, rfl, rfl⟩, ?_, ?_, ?_⟩, ⟨x, rfl⟩, ?_⟩
      · simp only [hm, l1]
      · simp only [precision, hm]; exact i1
      · simp only [precision, hm]; exact i2
      · intro hc; rw [hb] at hc; cases hc
      · intro hc; rw [hb] at hc; cases hc
    · rw [if_pos hb] at h
      cases hp2 : (covMatIn g).pinv with
      | error e => simp only [hp2] at h; cases h
      | ok r2 =>
        obtain ⟨y, d'⟩ := r2
        obtain ⟨l2, j1, j2⟩ := pinv_cells (covMatIn_holds g hm (hw.le hb)) hp2
        simp only [hp2] at h
        cases h
        refine ⟨⟨⟨hw.mean, hw.cov, ?_, ?_, hw.le⟩, ⟨rfl, rfl, rfl, rfl, rfl, rfl⟩, ?_, ?_, ?_⟩, ⟨x, rfl⟩, ?_⟩
        · simp only [hm, l1]
        · intro _; simp only [hm, l2]
        · simp only [precision, hm]; exact i1
        · simp only [precision, hm]; exact i2
        · intro _ hle
          simp only [precisionIn, hm]
          exact ⟨j1, j2⟩
        · intro _; exact ⟨y, rfl⟩

/-- C31: for every distribution whose vectors have the right sizes, in both covariance modes: if `updateInverseCovariance`
    returns, the dimensions, mode, mean and covariance are unchanged, the stored inverse is a two-sided inverse of the
    covariance matrix, in a bimodal distribution the stored inverse for the input is a two-sided inverse of the input block
    of the covariance, and the vectors still have the right sizes. -/
theorem C31_inverse (g g' : Gauss K) (hw : g.WF) (h : updateInverseCovariance g = .ret () g') :
    g'.WF ∧ SameParams g g' ∧ g'.precision * g'.sigma = 1 ∧ g'.sigma * g'.precision = 1 ∧
    (g.bimodal = true → ∀ hle : g'.di ≤ g'.dim,
      g'.precisionIn * g'.sigmaIn hle = 1 ∧ g'.sigmaIn hle * g'.precisionIn = 1) := by
  have : Inverted g g' := by
    rcases mode_cases g with hm | hm
    · rw [updateInverse_full g hm] at h
      cases hf : updateInverseFull g with
      | ret _ g1 => rw [hf] at h; exact (full_inverted g g1 hw hm hf).1.output h
      | throw e g1 => rw [hf] at h; cases h
      | ub => rw [hf] at h; cases h
    · rw [updateInverse_diagonal g hm] at h
      rcases first_nonpos (fun i => g.cov.getD i 0) g.dim with hp | ⟨j, hj, hc, hp⟩
      · rw [(updateInverseDiagonal_eq g hw hm).1 hp] at h
        obtain ⟨a, b, c, d, e⟩ := diagState_spec g hw hm hp
        exact Inverted.output ⟨a, b, c, d, e⟩ h
      · rw [(updateInverseDiagonal_eq g hw hm).2 j hj hc hp] at h
        cases h
  exact ⟨this.wf, this.same, this.left, this.right, this.input⟩

end
end Xmm
