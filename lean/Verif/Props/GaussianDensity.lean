import Verif.Props.GaussianRegression
import Verif.Spec.GaussianDensity
import Mathlib.Analysis.Matrix.PosDef
import Mathlib.Analysis.Real.Pi.Bounds
set_option linter.unusedSimpArgs false
set_option linter.unusedSectionVars false
/- C60 (likelihoods are normal densities) and C61 (bimodal likelihood is the joint likelihood). -/
namespace Xmm
open Gauss Phrase

/-! ## C61 -/

section
variable {F : Type} (A : Arith F)

theorem loop_add {σ α : Type} (m n : Nat) (a : α) (body : α → Nat → Prog σ α) (s : σ) :
    loop (m + n) a body s = (loop m a body >>= fun b => loop n b fun x k => body x (m + k)) s := by
  induction n with
  | zero =>
    rw [Prog.bind_def, Nat.add_zero]
    cases loop m a body s <;> simp [loop]
  | succ n ih =>
    rw [← Nat.add_assoc, loop_succ, ih, Prog.bind_def, Prog.bind_def]
    cases loop m a body s with
    | ret b s1 => simp only [loop_succ]
    | throw e s1 => rfl
    | ub => rfl

theorem loop_congr {σ α : Type} (n : Nat) (a : α) (b1 b2 : α → Nat → Prog σ α) (s : σ)
    (h : ∀ a, ∀ t < n, ∀ s, b1 a t s = b2 a t s) : loop n a b1 s = loop n a b2 s := by
  induction n with
  | zero => rfl
  | succ n ih =>
    rw [loop_succ, loop_succ, ih fun a t ht s => h a t (by omega) s]
    cases loop n a b2 s with
    | ret b s1 => exact h b n (by omega) s1
    | throw e s1 => rfl
    | ub => rfl

theorem diff_left {σ : Type} (x y mean : List F) (i : Nat) (hi : i < x.length) (s : σ) :
    diff A (x ++ y) mean i i s = diff A x mean i i s := by
  simp only [diff, Prog.bind_def, rd, List.getElem?_append_left hi]

theorem diff_right {σ : Type} (x y mean : List F) (k : Nat) (s : σ) :
    diff A (x ++ y) mean (x.length + k) (x.length + k) s = diff A y mean k (x.length + k) s := by
  simp [diff, Prog.bind_def, rd, List.getElem?_append_right]

theorem bind_congr_at {σ α β : Type} {f f' : Prog σ α} {k k' : α → Prog σ β} {s : σ} (h : f s = f' s)
    (hk : ∀ a s, k a s = k' a s) : (f >>= k) s = (f' >>= k') s := by
  rw [Prog.bind_def, Prog.bind_def, h]
  cases f' s with
  | ret a s1 => exact hk a s1
  | throw e s1 => rfl
  | ub => rfl

/-- C61: whatever the arithmetic operations answer, on a bimodal distribution the likelihood of an input and an output is, bit for
    bit, the likelihood of the frame made of the input followed by the output. -/
theorem C61_bimodal_is_joint (g : Gauss F) (hb : g.bimodal = true) (hle : g.di ≤ g.dim) (x y : List F)
    (hx : x.length = g.di) : likelihoodBimodal A x y g = likelihood A (x ++ y) g := by
  obtain ⟨m, hm⟩ : ∃ m, g.dim = g.di + m := ⟨g.dim - g.di, by omega⟩
  have hdist : distanceBimodal A g x y g = distance A g (x ++ y) g := by
    unfold distanceBimodal distance
    have hsub : g.dim - g.di = m := by omega
    cases g.mode with
    | full =>
      simp only
      refine loop_congr _ _ _ _ _ fun a l hl s => ?_
      have inner : (loop g.di (A.lit 0) (fun tmp k => do
            let a ← rd g.inv (l * g.dim + k)
            let b ← diff A x g.mean k k
            pure (A.add tmp (A.mul a b))) >>= fun tmp => loop (g.dim - g.di) tmp (fun tmp k => do
            let a ← rd g.inv (l * g.dim + g.di + k)
            let b ← diff A y g.mean k (g.di + k)
            pure (A.add tmp (A.mul a b)))) s = loop g.dim (A.lit 0) (fun tmp k => do
            let a ← rd g.inv (l * g.dim + k)
            let b ← diff A (x ++ y) g.mean k k
            pure (A.add tmp (A.mul a b))) s := by
        rw [show loop g.dim (A.lit 0) = loop (g.di + m) (A.lit 0) by rw [hm], loop_add]
        refine bind_congr_at (loop_congr _ _ _ _ _ fun a t ht s => ?_) fun a s => ?_
        · exact bind_congr_at rfl fun b s => bind_congr_at (diff_left A x y g.mean t (by omega) s).symm fun _ _ => rfl
        · rw [hsub]
          refine loop_congr _ _ _ _ _ fun a t ht s => ?_
          refine bind_congr_at (by rw [Nat.add_assoc]) fun b s => bind_congr_at ?_ fun _ _ => rfl
          rw [← hx]; exact (diff_right A x y g.mean t s).symm
      have assoc : ∀ (f : Prog (Gauss F) F) (k : F → Prog (Gauss F) F) (j : F → Prog (Gauss F) F) (s : Gauss F),
          (f >>= fun a => k a >>= j) s = ((f >>= k) >>= j) s := by
        intro f k j s
        simp only [Prog.bind_def]
        cases f s <;> rfl
      rw [assoc]
      refine bind_congr_at inner fun tmp s => ?_
      by_cases h : l < g.di
      · rw [if_pos h]
        exact bind_congr_at (diff_left A x y g.mean l (by omega) s).symm fun _ _ => rfl
      · rw [if_neg h]
        refine bind_congr_at ?_ fun _ _ => rfl
        have := diff_right A x y g.mean (l - g.di) s
        rw [hx, show g.di + (l - g.di) = l by omega] at this
        exact this.symm
    | diagonal =>
      simp only
      rw [show loop g.dim (A.lit 0) = loop (g.di + m) (A.lit 0) by rw [hm], loop_add]
      refine bind_congr_at (loop_congr _ _ _ _ _ fun a t ht s => ?_) fun a s => ?_
      · exact bind_congr_at rfl fun b s => bind_congr_at (diff_left A x y g.mean t (by omega) s).symm fun _ s =>
          bind_congr_at (diff_left A x y g.mean t (by omega) s).symm fun _ _ => rfl
      · rw [hsub]
        refine loop_congr _ _ _ _ _ fun a t ht s => ?_
        have e : ∀ s : Gauss F, diff A y g.mean t (g.di + t) s = diff A (x ++ y) g.mean (g.di + t) (g.di + t) s := by
          intro s; rw [← hx]; exact (diff_right A x y g.mean t s).symm
        exact bind_congr_at rfl fun b s => bind_congr_at (e s) fun _ s => bind_congr_at (e s) fun _ _ => rfl
  unfold likelihoodBimodal likelihood
  simp only [Prog.bind_def, Prog.get_def, hb, Bool.not_true, Bool.false_eq_true, if_false]
  split
  · rfl
  · simp only [Prog.bind_def, Gauss.outDim, not_lt.2 hle, if_false, Prog.pure_def, hdist]

/-- its hypotheses are met -/
example : ∃ g : Gauss Fl, g.bimodal = true ∧ g.di ≤ g.dim ∧
    likelihoodBimodal Fl.exact [.fin 1] [.fin 2] g = likelihood Fl.exact [.fin 1, .fin 2] g :=
  ⟨⟨true, 2, 2, 1, 1, .diagonal, [.fin 0, .fin 0], [.fin 1, .fin 1], [.fin 1, .fin 1], .fin 1, [.fin 1], .fin 1, []⟩, rfl, by simp,
    C61_bimodal_is_joint _ _ rfl (by simp) _ _ rfl⟩

end

/-! ## C60 -/

theorem loop_fin {σ : Type} (n : Nat) (a : ℝ) (body : Fl → Nat → Prog σ Fl) (f : Nat → ℝ) (s : σ)
    (h : ∀ a : ℝ, ∀ t < n, body (.fin a) t s = .ret (.fin (a + f t)) s) :
    loop n (.fin a) body s = .ret (.fin (a + ∑ t ∈ Finset.range n, f t)) s := by
  induction n with
  | zero => simp [loop]
  | succ n ih =>
    rw [loop_succ, ih fun a t ht => h a t (by omega)]
    simp only
    rw [h _ n (by omega), Finset.sum_range_succ, add_assoc]

theorem rd_fin {σ : Type} {l : List ℝ} {i : Nat} (h : i < l.length) (s : σ) :
    rd (l.map Fl.fin) i s = .ret (.fin (l.getD i 0)) s := by
  simp [rd, h, List.getD_eq_getElem?_getD]

theorem diff_fin {σ : Type} {l m : List ℝ} {i j : Nat} (h : i < l.length) (h' : j < m.length) (s : σ) :
    diff Fl.exact (l.map Fl.fin) (m.map Fl.fin) i j s = .ret (.fin (l.getD i 0 - m.getD j 0)) s := by
  simp only [diff, Prog.bind_def, rd_fin h, rd_fin h', Prog.pure_def]
  simp [Fl.exact, Fl.sub, Fl.neg, Fl.add, sub_eq_add_neg]

/-- the guard of the code: the density when the determinant is positive, the floor when it is negative -/
noncomputable def clamped (q d : ℝ) (n : Nat) : ℝ :=
  if 0 < d then max likelihoodFloor (Real.exp (-(1 / 2) * q) / Real.sqrt ((2 * Real.pi) ^ n * d)) else likelihoodFloor

theorem density_exact (q d : ℝ) (hd : d ≠ 0) (n : Nat) :
    density Fl.exact (.fin q) (.fin d) n = .fin (clamped q d n) := by
  have hpi : (0 : ℝ) < (2 * Real.pi) ^ n := by have := Real.pi_pos; positivity
  have h2 : ((-1 / 2 : ℚ) : ℝ) = -(1 / 2) := by norm_num
  have hfl : ((1 / 10 ^ 180 : ℚ) : ℝ) = likelihoodFloor := by unfold likelihoodFloor; push_cast; rfl
  unfold density clamped
  simp only [Fl.exact, Fl.mul, Fl.exp, Fl.pow, h2, hfl, Rat.cast_ofNat]
  by_cases h : 0 < d
  · have hpos : 0 < (2 * Real.pi) ^ n * d := mul_pos hpi h
    rw [mul_comm d]
    have hs : Real.sqrt ((2 * Real.pi) ^ n * d) ≠ 0 := (Real.sqrt_pos.2 hpos).ne'
    simp only [Fl.sqrt, not_lt.2 hpos.le, if_false, Fl.div, hs, Fl.lt, Fl.isnan, Fl.isinf, Bool.or_false, h, if_true]
    generalize Real.exp (-(1 / 2) * q) / Real.sqrt ((2 * Real.pi) ^ n * d) = p
    by_cases hp : p < likelihoodFloor
    · simp [hp, max_eq_left hp.le]
    · simp [hp, max_eq_right (not_lt.1 hp)]
  · have hneg : d * (2 * Real.pi) ^ n < 0 := mul_neg_of_neg_of_pos (lt_of_le_of_ne (not_lt.1 h) hd) hpi
    simp [Fl.sqrt, hneg, Fl.div, Fl.lt, Fl.isnan, h]

theorem distance_exact (g : Gauss ℝ) (hw : g.WF) (obs : List ℝ) (ho : g.dim ≤ obs.length) (s : Gauss Fl) :
    distance Fl.exact g.toFl (obs.map .fin) s =
      .ret (.fin (g.offset obs ⬝ᵥ g.precision.mulVec (g.offset obs))) s := by
  have hm := hw.mean
  have hi := hw.inv
  have h0 : Fl.exact.lit 0 = .fin 0 := by simp [Fl.exact]
  rcases mode_cases g with hmode | hmode
  · rw [hmode] at hi
    simp only at hi
    simp only [distance, toFl, hmode, h0]
    rw [loop_fin g.dim 0 _ (fun l => (obs.getD l 0 - g.mean.getD l 0) * (0 + ∑ k ∈ Finset.range g.dim,
      g.inv.getD (l * g.dim + k) 0 * (obs.getD k 0 - g.mean.getD k 0)))]
    · rw [zero_add, Finset.sum_range]
      congr 2
      simp only [dotProduct, Matrix.mulVec, offset, precision, hmode, matOf]
      refine Finset.sum_congr rfl fun l _ => ?_
      rw [zero_add, Finset.sum_range]
    · intro a l hl
      rw [Prog.bind_def, loop_fin g.dim 0 _ (fun k => g.inv.getD (l * g.dim + k) 0 * (obs.getD k 0 - g.mean.getD k 0))]
      · simp only
        rw [Prog.bind_def, diff_fin (by omega) (by omega)]
        simp [Fl.exact, Fl.add, Fl.mul]
      · intro b k hk
        rw [Prog.bind_def, rd_fin (by rw [hi]; exact flat_lt hl hk)]
        simp only
        rw [Prog.bind_def, diff_fin (by omega) (by omega)]
        simp [Fl.exact, Fl.add, Fl.mul]
  · rw [hmode] at hi
    simp only at hi
    simp only [distance, toFl, hmode, h0]
    rw [loop_fin g.dim 0 _ (fun l => g.inv.getD l 0 * (obs.getD l 0 - g.mean.getD l 0) * (obs.getD l 0 - g.mean.getD l 0))]
    · rw [zero_add, Finset.sum_range]
      congr 2
      simp only [dotProduct, offset, precision, hmode, Matrix.mulVec_diagonal, vecOf]
      refine Finset.sum_congr rfl fun l _ => ?_
      ring
    · intro a l hl
      rw [Prog.bind_def, rd_fin (by omega)]
      simp only
      rw [Prog.bind_def, diff_fin (by omega) (by omega)]
      simp only
      rw [Prog.bind_def, diff_fin (by omega) (by omega)]
      simp [Fl.exact, Fl.add, Fl.mul]

/-- what `likelihood` computes without rounding, from the stored inverse and determinant -/
theorem likelihood_exact (g : Gauss ℝ) (hw : g.WF) (obs : List ℝ) (ho : g.dim ≤ obs.length) (hd : g.det ≠ 0) :
    likelihood Fl.exact (obs.map .fin) g.toFl =
      .ret (.fin (clamped (g.offset obs ⬝ᵥ g.precision.mulVec (g.offset obs)) g.det g.dim)) g.toFl := by
  have he : Fl.exact.eq g.toFl.det (Fl.exact.lit 0) = false := by simp [Fl.exact, Fl.eq, toFl, hd]
  unfold likelihood
  simp only [Prog.bind_def, Prog.get_def, he, Bool.false_eq_true, if_false, distance_exact g hw obs ho, Prog.pure_def]
  rw [show g.toFl.det = .fin g.det from rfl, density_exact _ _ hd]
  rfl

/-- C60: after a successful update of the inverse, when the reported determinant is positive (in Diagonal mode it always is, see
    `C31_determinant`), the likelihood of any observation, computed without rounding, is the density of the normal distribution
    with the stored mean and covariance, raised to 1e-180 where it is smaller. -/
theorem C60_likelihood_is_density (g g' : Gauss ℝ) (hw : g.WF) (hu : updateInverseCovariance g = .ret () g')
    (hpd : 0 < g'.sigma.det) (hdet : 0 < g'.det) (obs : List ℝ) (ho : g.dim ≤ obs.length) :
    likelihood Fl.exact (obs.map .fin) g'.toFl =
      .ret (.fin (max likelihoodFloor (normalPdf g'.sigma (g'.offset obs)))) g'.toFl := by
  obtain ⟨w, s, l, _, _⟩ := C31_inverse g g' hw hu
  have hd := C31_determinant g g' hw hu
  have e : g'.det = g'.sigma.det := by
    rcases mode_cases g with hm | hm
    · have := (hd.2.1 hm).1
      rwa [abs_of_pos hdet, abs_of_pos hpd] at this
    · exact (hd.1 hm).1
  have hinv : g'.sigma⁻¹ = g'.precision := Matrix.inv_eq_left_inv l
  rw [likelihood_exact g' w obs (by rw [s.dim]; exact ho) hdet.ne']
  simp only [clamped, hdet, if_true, normalPdf, hinv, ← e]

theorem updateOutput_full_det {g g' : Gauss ℝ} (hw : g.WF) (h : updateOutputIfBimodal g = .ret () g') : g'.sigma.det = g.sigma.det := by
  obtain ⟨v, rfl⟩ := updateOutput_keeps g g' hw h
  rfl

/-- C60 in Diagonal mode, where no condition on the determinant is needed. -/
theorem C60_diagonal (g g' : Gauss ℝ) (hw : g.WF) (hm : g.mode = .diagonal) (hu : updateInverseCovariance g = .ret () g')
    (obs : List ℝ) (ho : g.dim ≤ obs.length) :
    likelihood Fl.exact (obs.map .fin) g'.toFl =
      .ret (.fin (max likelihoodFloor (normalPdf g'.sigma (g'.offset obs)))) g'.toFl := by
  have h := (C31_determinant g g' hw hu).1 hm
  exact C60_likelihood_is_density g g' hw hu (h.1 ▸ h.2) h.2 obs ho

/-- C60 violated: when the reported determinant is negative (which a positive definite covariance can cause, see C10), every
    observation has the likelihood 1e-180. -/
theorem C60_negative_determinant (g : Gauss ℝ) (hw : g.WF) (hd : g.det < 0) (obs : List ℝ) (ho : g.dim ≤ obs.length) :
    likelihood Fl.exact (obs.map .fin) g.toFl = .ret (.fin likelihoodFloor) g.toFl := by
  rw [likelihood_exact g hw obs ho hd.ne]
  simp [clamped, not_lt.2 hd.le]

theorem distanceInput_exact (g : Gauss ℝ) (hw : g.WF) (hb : g.bimodal = true) (hle : g.di ≤ g.dim) (obs : List ℝ)
    (ho : g.di ≤ obs.length) (s : Gauss Fl) :
    distanceInput Fl.exact g.toFl (obs.map .fin) s = .ret (.fin (match g.mode with
      | .full => g.offsetIn obs ⬝ᵥ g.precisionIn.mulVec (g.offsetIn obs)
      | .diagonal => g.offsetIn obs ⬝ᵥ (Matrix.diagonal (vecOf g.di g.inv)).mulVec (g.offsetIn obs))) s := by
  have hm := hw.mean
  have hi := hw.invIn hb
  have hi2 := hw.inv
  have h0 : Fl.exact.lit 0 = .fin 0 := by simp [Fl.exact]
  rcases mode_cases g with hmode | hmode
  · rw [hmode] at hi
    simp only at hi
    simp only [distanceInput, toFl, hmode, h0]
    rw [loop_fin g.di 0 _ (fun l => (obs.getD l 0 - g.mean.getD l 0) * (0 + ∑ k ∈ Finset.range g.di,
      g.invIn.getD (l * g.di + k) 0 * (obs.getD k 0 - g.mean.getD k 0)))]
    · rw [zero_add, Finset.sum_range]
      congr 2
      simp only [dotProduct, Matrix.mulVec, offsetIn, precisionIn, hmode, matOf]
      refine Finset.sum_congr rfl fun l _ => ?_
      rw [zero_add, Finset.sum_range]
    · intro a l hl
      rw [Prog.bind_def, loop_fin g.di 0 _ (fun k => g.invIn.getD (l * g.di + k) 0 * (obs.getD k 0 - g.mean.getD k 0))]
      · simp only
        rw [Prog.bind_def, diff_fin (by omega) (by omega)]
        simp [Fl.exact, Fl.add, Fl.mul]
      · intro b k hk
        rw [Prog.bind_def, rd_fin (by rw [hi]; exact flat_lt hl hk)]
        simp only
        rw [Prog.bind_def, diff_fin (by omega) (by omega)]
        simp [Fl.exact, Fl.add, Fl.mul]
  · rw [hmode] at hi2
    simp only at hi2
    simp only [distanceInput, toFl, hmode, h0]
    rw [loop_fin g.di 0 _ (fun l => g.inv.getD l 0 * (obs.getD l 0 - g.mean.getD l 0) * (obs.getD l 0 - g.mean.getD l 0))]
    · rw [zero_add, Finset.sum_range]
      congr 2
      simp only [dotProduct, offsetIn, Matrix.mulVec_diagonal, vecOf]
      refine Finset.sum_congr rfl fun l _ => ?_
      ring
    · intro a l hl
      rw [Prog.bind_def, rd_fin (by omega)]
      simp only
      rw [Prog.bind_def, diff_fin (by omega) (by omega)]
      simp only
      rw [Prog.bind_def, diff_fin (by omega) (by omega)]
      simp [Fl.exact, Fl.add, Fl.mul]

/-- C60 for `likelihood_input`: the density of the marginal distribution of the input. -/
theorem C60_input_is_marginal_density (g g' : Gauss ℝ) (hw : g.WF) (hb : g.bimodal = true)
    (hu : updateInverseCovariance g = .ret () g') (hle : g'.di ≤ g'.dim) (hpd : 0 < (g'.sigmaIn hle).det) (hdet : 0 < g'.detIn)
    (obs : List ℝ) (ho : g.di ≤ obs.length) :
    likelihoodInput Fl.exact (obs.map .fin) g'.toFl =
      .ret (.fin (max likelihoodFloor (normalPdf (g'.sigmaIn hle) (g'.offsetIn obs)))) g'.toFl := by
  obtain ⟨w, s, lft, _, i⟩ := C31_inverse g g' hw hu
  have hb' : g'.bimodal = true := by rw [s.bimodal, hb]
  have hd := (C31_determinant g g' hw hu).2.2 hb hle
  have e : g'.detIn = (g'.sigmaIn hle).det := by
    rcases mode_cases g with hm | hm
    · have := (hd.2 hm).1
      rwa [abs_of_pos hdet, abs_of_pos hpd] at this
    · exact (hd.1 hm).1
  have hinv : (g'.sigmaIn hle)⁻¹ = g'.precisionIn := Matrix.inv_eq_left_inv (i hb hle).1
  have hq : (match g'.mode with
      | .full => g'.offsetIn obs ⬝ᵥ g'.precisionIn.mulVec (g'.offsetIn obs)
      | .diagonal => g'.offsetIn obs ⬝ᵥ (Matrix.diagonal (vecOf g'.di g'.inv)).mulVec (g'.offsetIn obs)) =
      g'.offsetIn obs ⬝ᵥ (g'.sigmaIn hle)⁻¹.mulVec (g'.offsetIn obs) := by
    rw [hinv]
    rcases mode_cases g' with hm | hm
    · simp only [hm]
    · simp only [hm]
      congr 2
      have hd2 : Matrix.diagonal (vecOf g'.di g'.inv) * g'.sigmaIn hle = 1 := by
        rw [sigmaIn_diagonal g' hm hle, Matrix.diagonal_mul_diagonal, ← Matrix.diagonal_one]
        congr 1
        funext j
        have := congrFun (congrFun lft (Fin.castLE hle j)) (Fin.castLE hle j)
        simpa [precision, sigma, hm, Matrix.diagonal_mul_diagonal, vecOf] using this
      exact left_inv_eq_right_inv hd2 (i hb hle).2
  have he : Fl.exact.eq g'.toFl.detIn (Fl.exact.lit 0) = false := by simp [Fl.exact, Fl.eq, toFl, hdet.ne']
  have hb2 : g'.toFl.bimodal = true := hb'
  unfold likelihoodInput
  simp only [Prog.bind_def, Prog.get_def, hb2, Bool.not_true, he, Bool.false_eq_true, if_false,
    distanceInput_exact g' w hb' hle obs (by rw [s.di]; exact ho), Prog.pure_def]
  rw [show g'.toFl.detIn = .fin g'.detIn from rfl, density_exact _ _ hdet.ne', hq]
  simp only [clamped, hdet, if_true, normalPdf, ← e]
  rfl

/-- the distribution whose covariance is the matrix of C10 -/
noncomputable def pdGauss : Gauss ℝ :=
  ⟨false, 2, 1, 0, 0, .full, [0, 0], [1/10^10, 1/2, 1/2, 10^10], [0, 0, 0, 0], 0, [], 0, []⟩

theorem pdGauss_wf : pdGauss.WF := ⟨rfl, rfl, rfl, by simp [pdGauss], by simp [pdGauss]⟩

theorem pdGauss_sigma : pdGauss.sigma = pdWitness := by
  funext i j
  have hi := i.isLt
  have hj := j.isLt
  obtain ⟨i, hi'⟩ := i
  obtain ⟨j, hj'⟩ := j
  have h1 : i < 2 := hi'
  have h2 : j < 2 := hj'
  have : i = 0 ∨ i = 1 := by omega
  have : j = 0 ∨ j = 1 := by omega
  rcases ‹i = 0 ∨ i = 1› with rfl | rfl <;> rcases ‹j = 0 ∨ j = 1› with rfl | rfl <;>
    simp [sigma, pdGauss, matOf, pdWitness]

theorem holds_unique {n : Nat} {m m' : Mat ℝ} {M : Matrix (Fin n) (Fin n) ℝ} (h : m.Holds M) (h' : m'.Holds M) : m = m' := by
  obtain ⟨a, rfl, ha⟩ := h.elim
  obtain ⟨b, rfl, hb⟩ := h'.elim
  congr 1
  exact Flat.ext fun i j => by rw [ha, hb]

theorem pdWitness_posDef : (pdWitness : Matrix (Fin 2) (Fin 2) ℝ).PosDef := by
  refine Matrix.PosDef.of_dotProduct_mulVec_pos ?_ ?_
  · ext i j
    fin_cases i <;> fin_cases j <;> simp [pdWitness, Matrix.conjTranspose, Matrix.transpose]
  · intro v hv
    simp only [dotProduct, Matrix.mulVec, Fin.sum_univ_two, pdWitness]
    simp
    by_cases hv1 : v 1 = 0
    · have hv0 : v 0 ≠ 0 := by
        intro h0; apply hv; funext i; fin_cases i <;> simp [h0, hv1]
      rw [hv1]
      have := mul_self_pos.2 hv0
      nlinarith
    · have : 0 < v 1 ^ 2 := by positivity
      nlinarith [sq_nonneg (v 0 + 10 ^ 10 / 2 * v 1)]

/-- C60 violated: a distribution with a symmetric covariance matrix of positive diagonal and determinant 3/4 — positive definite —
    is updated without error, and then the likelihood of every observation, including its own mean, is 1e-180, although the
    density at the mean is above 1/10. -/
theorem C60_violated : ∃ g g' : Gauss ℝ, g.WF ∧ g.sigma.PosDef ∧ updateInverseCovariance g = .ret () g' ∧
    (∀ obs : List ℝ, 2 ≤ obs.length → likelihood Fl.exact (obs.map .fin) g'.toFl = .ret (.fin likelihoodFloor) g'.toFl) ∧
    1 / 10 < normalPdf g'.sigma 0 := by
  have hm : pdGauss.mode = .full := rfl
  obtain ⟨m, x, h1, h2, h3⟩ := pdWitness_pinv (K := ℝ)
  have hmat : covMat pdGauss = m := holds_unique (pdGauss_sigma ▸ covMat_holds pdGauss hm) h1
  have hu : updateInverseCovariance pdGauss = .ret () { pdGauss with det := -3/4, inv := cells x } := by
    rw [updateInverse_full _ hm, updateInverseFull_eq _ pdGauss_wf hm, hmat, h2]
    simp [pdGauss, updateOutputIfBimodal]
  obtain ⟨w, s, _⟩ := C31_inverse _ _ pdGauss_wf hu
  refine ⟨pdGauss, _, pdGauss_wf, ?_, hu, fun obs ho => ?_, ?_⟩
  · rw [pdGauss_sigma]; exact pdWitness_posDef
  · exact C60_negative_determinant _ w (by norm_num) obs ho
  · have hs : ({ pdGauss with det := -3/4, inv := cells x } : Gauss ℝ).sigma = pdGauss.sigma := rfl
    rw [hs]
    have hdet : pdGauss.sigma.det = 3/4 := by rw [pdGauss_sigma]; exact h3
    unfold normalPdf
    rw [hdet]
    simp only [zero_dotProduct, mul_zero, Real.exp_zero]
    have hp0 := Real.pi_pos
    have hlt : Real.sqrt ((2 * Real.pi) ^ pdGauss.dim * (3 / 4)) < 10 := by
      rw [Real.sqrt_lt' (by norm_num)]
      show (2 * Real.pi) ^ 2 * (3 / 4) < 10 ^ 2
      nlinarith [Real.pi_lt_d2]
    have hpos : 0 < Real.sqrt ((2 * Real.pi) ^ pdGauss.dim * (3 / 4)) := Real.sqrt_pos.2 (by positivity)
    exact one_div_lt_one_div_of_lt hpos hlt

/-- the hypotheses of C60 are met -/
example : ∃ g g' : Gauss ℝ, g.WF ∧ g.mode = .diagonal ∧ updateInverseCovariance g = .ret () g' := by
  have hw : (⟨false, 2, 1, 0, 0, .diagonal, [0, 0], [2, 3], [0, 0], 0, [], 0, []⟩ : Gauss ℝ).WF :=
    ⟨rfl, rfl, rfl, by simp, by simp⟩
  refine ⟨⟨false, 2, 1, 0, 0, .diagonal, [0, 0], [2, 3], [0, 0], 0, [], 0, []⟩,
    diagState ⟨false, 2, 1, 0, 0, .diagonal, [0, 0], [2, 3], [0, 0], 0, [], 0, []⟩ 2, hw, rfl, ?_⟩
  rw [updateInverse_diagonal _ rfl, (updateInverseDiagonal_eq _ hw rfl).1]
  · simp [updateOutputIfBimodal, diagState]
  · intro i hi
    have : i = 0 ∨ i = 1 := by simp at hi; omega
    rcases this with rfl | rfl <;> simp

end Xmm
