import Verif.Props.GaussianModes
set_option linter.unusedSimpArgs false
set_option linter.unusedSectionVars false
/- C59 (conditional covariance) and C32 (regression). -/
namespace Xmm
open Gauss Phrase
variable {K : Type} [Field K] [LinearOrder K] [IsStrictOrderedRing K]

/-! ## C59 -/

theorem outCovariance_of_output (g g' : Gauss K) (hw : g.WF) (hb : g.bimodal = true) (hle : g.di ≤ g.dim)
    (hi : g.sigmaIn hle * g.precisionIn = 1) (h : updateOutputIfBimodal g = .ret () g') :
    ∃ v, g' = { g with outCov := v } ∧
      ({ g with outCov := v } : Gauss K).outCovariance = g.sigmaOut - g.sigmaOutIn hle * g.precisionIn * g.sigmaInOut hle ∧
      v.length = (match g.mode with | .full => (g.dim - g.di) * (g.dim - g.di) | .diagonal => g.dim - g.di) := by
  simp only [updateOutputIfBimodal, Prog.bind_def, Prog.get_def, hb, if_true] at h
  rcases mode_cases g with hm | hm
  · obtain ⟨h1, h2⟩ := updateOutput_full g hw hm hb
    cases hp : (covMatIn g).pinv with
    | error e => rw [h1 e hp] at h; cases h
    | ok r =>
      obtain ⟨v, e, hl, hv⟩ := h2 r.1 r.2 hp
      rw [e] at h
      cases h
      obtain ⟨l2, j1, j2⟩ := pinv_cells (covMatIn_holds g hm hle) hp
      have hx : matOf g.di g.di (cells r.1) = g.precisionIn :=
        left_inv_eq_right_inv j1 hi
      refine ⟨v, rfl, ?_, by rw [hm]; exact hl⟩
      have : ({ g with outCov := v } : Gauss K).outCovariance = matOf (g.dim - g.di) (g.dim - g.di) v := by
        simp only [outCovariance, hm]
      rw [this, hv, hx, Matrix.mul_assoc]
  · rw [updateOutput_diagonal g hw hm hb] at h
    cases h
    have hc : g.cov.length = g.dim := by have := hw.cov; rw [hm] at this; exact this
    refine ⟨_, rfl, ?_, by simp [hm, hc]⟩
    have h0 : g.sigmaOutIn hle = 0 := by
      funext i j
      simp only [sigmaOutIn, sigma, hm, outIx]
      rw [Matrix.diagonal_apply_ne]
      · rfl
      · intro h; have h1 : g.di + i.val = j.val := congrArg Fin.val h; have := j.isLt; omega
    rw [h0, Matrix.zero_mul, Matrix.zero_mul, sub_zero]
    funext i j
    simp only [outCovariance, hm, sigmaOut, sigma]
    by_cases hij : i = j
    · subst hij
      simp [vecOf, outIx, List.getD_eq_getElem?_getD]
    · rw [Matrix.diagonal_apply_ne _ hij, Matrix.diagonal_apply_ne]
      intro h; apply hij
      have := congrArg Fin.val h
      simp only [outIx] at this
      exact Fin.ext (by omega)

/-- C59: after a successful update of a bimodal distribution, in both covariance modes, the stored output covariance is the
    covariance of the output given the input, `S_oo - S_oi S_ii⁻¹ S_io`. -/
theorem C59_conditional_covariance (g g' : Gauss K) (hw : g.WF) (hb : g.bimodal = true)
    (h : updateInverseCovariance g = .ret () g') :
    ∃ hle : g'.di ≤ g'.dim,
      g'.outCovariance = g'.sigmaOut - g'.sigmaOutIn hle * (g'.sigmaIn hle)⁻¹ * g'.sigmaInOut hle ∧
      g'.outCov.length = (match g'.mode with | .full => (g'.dim - g'.di) * (g'.dim - g'.di) | .diagonal => g'.dim - g'.di) := by
  have fin : ∀ g1 : Gauss K, Inverted g g1 → updateOutputIfBimodal g1 = .ret () g' →
      ∃ hle : g'.di ≤ g'.dim,
      g'.outCovariance = g'.sigmaOut - g'.sigmaOutIn hle * (g'.sigmaIn hle)⁻¹ * g'.sigmaInOut hle ∧
      g'.outCov.length = (match g'.mode with | .full => (g'.dim - g'.di) * (g'.dim - g'.di) | .diagonal => g'.dim - g'.di) := by
    intro g1 hi h1
    have hb1 : g1.bimodal = true := by rw [hi.same.bimodal, hb]
    have hle1 := hi.wf.le hb1
    obtain ⟨v, rfl, hv, hl⟩ := outCovariance_of_output g1 g' hi.wf hb1 hle1 (hi.input hb hle1).2 h1
    refine ⟨hle1, ?_, hl⟩
    have hinv : (g1.sigmaIn hle1)⁻¹ = g1.precisionIn := Matrix.inv_eq_left_inv (hi.input hb hle1).1
    rw [hv, ← hinv]
    rfl
  rcases mode_cases g with hm | hm
  · rw [updateInverse_full g hm] at h
    cases hf : updateInverseFull g with
    | ret _ g1 => rw [hf] at h; exact fin g1 (full_inverted g g1 hw hm hf).1 h
    | throw e g1 => rw [hf] at h; cases h
    | ub => rw [hf] at h; cases h
  · rw [updateInverse_diagonal g hm] at h
    rcases first_nonpos (fun i => g.cov.getD i 0) g.dim with hp | ⟨j, hj, hc, hp⟩
    · rw [(updateInverseDiagonal_eq g hw hm).1 hp] at h
      obtain ⟨a, b, c, d, e⟩ := diagState_spec g hw hm hp
      exact fin _ ⟨a, b, c, d, e⟩ h
    · rw [(updateInverseDiagonal_eq g hw hm).2 j hj hc hp] at h
      cases h

/-! ## C32 -/

theorem sum_range_fin {n : Nat} (f : Nat → K) : ∑ i ∈ Finset.range n, f i = ∑ i : Fin n, f i.val :=
  Finset.sum_range f

/-- C32: on a bimodal distribution, for every input of the right length `regression` returns, without changing the distribution,
    the vector of the output modality `mean_out + S_oi P (x - mean_in)`, where `P` is the stored inverse of the input block. -/
theorem C32_regression (g : Gauss K) (hw : g.WF) (hb : g.bimodal = true) (hle : g.di ≤ g.dim) (x : List K)
    (hx : g.di ≤ x.length) :
    ∃ y, regression x g = .ret y g ∧ y.length = g.dim - g.di ∧
      vecOf (g.dim - g.di) y = (fun i => vecOf g.dim g.mean (g.outIx i)) +
        (g.sigmaOutIn hle * g.precisionIn).mulVec (fun j => vecOf g.di x j - vecOf g.dim g.mean (Fin.castLE hle j)) := by
  have hmean := hw.mean
  have hout : ¬ g.dim < g.di := by omega
  rcases mode_cases g with hm | hm
  · have hc : g.cov.length = g.dim * g.dim := by have := hw.cov; rw [hm] at this; exact this
    have hii : g.invIn.length = g.di * g.di := by have := hw.invIn hb; rw [hm] at this; exact this
    have hinner : ∀ (e : Nat), e < g.di → loop g.di (0 : K) (fun tmp f => do
        let a ← rd g.invIn (e * g.di + f)
        let b ← rd x f
        let c ← rd g.mean f
        pure (tmp + a * (b - c))) g = .ret (0 + ∑ f ∈ Finset.range g.di,
          g.invIn.getD (e * g.di + f) 0 * (x.getD f 0 - g.mean.getD f 0)) g := by
      intro e he
      refine loop_sum _ _ _ _ _ fun a f hf => ?_
      rw [Prog.bind_def, rd_lt (by rw [hii]; exact flat_lt he hf) 0]
      simp only
      rw [Prog.bind_def, rd_lt (by omega : f < x.length) 0]
      simp only
      rw [Prog.bind_def, rd_lt (by omega : f < g.mean.length) 0]
      rfl
    have hbody : ∀ d ∈ List.range (g.dim - g.di), (do
        let m ← rd g.mean (g.di + d)
        loop g.di m (fun acc e => do
          let tmp ← loop g.di 0 (fun tmp f => do
            let a ← rd g.invIn (e * g.di + f)
            let b ← rd x f
            let c ← rd g.mean f
            pure (tmp + a * (b - c)))
          let s ← rd g.cov ((d + g.di) * g.dim + e)
          pure (acc + s * tmp)) : Prog (Gauss K) K) g =
        .ret (g.mean.getD (g.di + d) 0 + ∑ e ∈ Finset.range g.di, g.cov.getD ((d + g.di) * g.dim + e) 0 *
          (0 + ∑ f ∈ Finset.range g.di, g.invIn.getD (e * g.di + f) 0 * (x.getD f 0 - g.mean.getD f 0))) g := by
      intro d hd
      have hd' := List.mem_range.1 hd
      rw [Prog.bind_def, rd_lt (by omega : g.di + d < g.mean.length) 0]
      refine loop_sum _ _ _ _ _ fun a e he => ?_
      rw [Prog.bind_def, hinner e he]
      simp only
      rw [Prog.bind_def, rd_lt (by rw [hc]; exact flat_lt (by omega) (by omega)) 0]
      rfl
    refine ⟨(List.range (g.dim - g.di)).map fun d => g.mean.getD (g.di + d) 0 + ∑ e ∈ Finset.range g.di,
        g.cov.getD ((d + g.di) * g.dim + e) 0 *
          (0 + ∑ f ∈ Finset.range g.di, g.invIn.getD (e * g.di + f) 0 * (x.getD f 0 - g.mean.getD f 0)), ?_, by simp, ?_⟩
    · have := prog_mapM_ret _ _ _ g hbody
      simp only [regression, Prog.bind_def, Prog.get_def, hb, Bool.not_true, Bool.false_eq_true, if_false, Gauss.outDim, hout,
        Prog.pure_def, hm]
      exact this
    · funext i
      rw [vecOf, getD_range_map _ i.isLt]
      simp only [Pi.add_apply, vecOf, outIx]
      congr 1
      rw [← Matrix.mulVec_mulVec]
      simp only [Matrix.mulVec, dotProduct]
      rw [sum_range_fin]
      refine Finset.sum_congr rfl fun e _ => ?_
      rw [zero_add, sum_range_fin]
      congr 1
      · simp only [sigmaOutIn, sigma, hm, matOf, outIx, Nat.add_comm g.di]; rfl
      · refine Finset.sum_congr rfl fun f _ => ?_
        simp only [precisionIn, hm, matOf]; rfl
  · have hbody : ∀ d ∈ List.range (g.dim - g.di), (rd g.mean (g.di + d) : Prog (Gauss K) K) g =
        .ret (g.mean.getD (g.di + d) 0) g := by
      intro d hd
      have hd' := List.mem_range.1 hd
      exact rd_lt (by omega) 0 g
    refine ⟨(List.range (g.dim - g.di)).map fun d => g.mean.getD (g.di + d) 0, ?_, by simp, ?_⟩
    · have := prog_mapM_ret _ _ _ g hbody
      simp only [regression, Prog.bind_def, Prog.get_def, hb, Bool.not_true, Bool.false_eq_true, if_false, Gauss.outDim, hout,
        Prog.pure_def, hm]
      exact this
    · have h0 : g.sigmaOutIn hle = 0 := by
        funext i j
        simp only [sigmaOutIn, sigma, hm, outIx]
        rw [Matrix.diagonal_apply_ne]
        · rfl
        · intro h; have h1 : g.di + i.val = j.val := congrArg Fin.val h; have := j.isLt; omega
      rw [h0, Matrix.zero_mul, Matrix.zero_mulVec, add_zero]
      funext i
      rw [vecOf, getD_range_map _ i.isLt]
      rfl

/-- C32, end to end: after a successful `updateInverseCovariance`, `regression` computes the mean of the output given the input,
    `mean_out + S_oi S_ii⁻¹ (x - mean_in)`. -/
theorem C32_conditional_mean (g g' : Gauss K) (hw : g.WF) (hb : g.bimodal = true)
    (h : updateInverseCovariance g = .ret () g') (x : List K) (hx : g.di ≤ x.length) :
    ∃ (hle : g'.di ≤ g'.dim) (y : List K), regression x g' = .ret y g' ∧ y.length = g'.dim - g'.di ∧
      vecOf (g'.dim - g'.di) y = (fun i => vecOf g'.dim g'.mean (g'.outIx i)) +
        (g'.sigmaOutIn hle * (g'.sigmaIn hle)⁻¹).mulVec
          (fun j => vecOf g'.di x j - vecOf g'.dim g'.mean (Fin.castLE hle j)) := by
  obtain ⟨w, s, _, _, i⟩ := C31_inverse g g' hw h
  have hb' : g'.bimodal = true := by rw [s.bimodal, hb]
  have hle := w.le hb'
  obtain ⟨y, e, l, v⟩ := C32_regression g' w hb' hle x (by rw [s.di]; exact hx)
  have hinv : (g'.sigmaIn hle)⁻¹ = g'.precisionIn := Matrix.inv_eq_left_inv (i hb hle).1
  exact ⟨hle, y, e, l, by rw [hinv]; exact v⟩

/-- C32 (at the mean): at the mean of the input, the regression is the mean of the output. -/
theorem C32_at_mean (g : Gauss K) (hw : g.WF) (hb : g.bimodal = true) :
    regression (g.mean.take g.di) g = .ret (g.mean.drop g.di) g := by
  have hle := hw.le hb
  have hmean := hw.mean
  obtain ⟨y, e, l, v⟩ := C32_regression g hw hb hle (g.mean.take g.di) (by simp; omega)
  rw [e]
  congr 1
  refine List.ext_getElem (by simp [l, hmean]) fun i h1 h2 => ?_
  have hi : i < g.dim - g.di := by rw [l] at h1; exact h1
  have := congrFun v ⟨i, hi⟩
  have hz : (fun j => vecOf g.di (g.mean.take g.di) j - vecOf g.dim g.mean (Fin.castLE hle j)) = 0 := by
    funext j
    simp [vecOf, List.getD_eq_getElem?_getD, List.getElem?_take, j.isLt]
  rw [hz, Matrix.mulVec_zero, add_zero] at this
  simp only [vecOf, outIx, List.getD_eq_getElem?_getD] at this
  rw [List.getElem?_eq_getElem h1, List.getElem?_eq_getElem (by omega)] at this
  simpa using this

/-- C32 (affine): on the same distribution, the regression of `a·x + (1-a)·x'` is the same combination of the regressions. -/
theorem C32_affine (g : Gauss K) (hw : g.WF) (hb : g.bimodal = true) (x x' : List K) (hx : x.length = g.di)
    (hx' : x'.length = g.di) (a : K) (y y' : List K) (h : regression x g = .ret y g) (h' : regression x' g = .ret y' g) :
    regression (List.zipWith (fun u v => a * u + (1 - a) * v) x x') g =
      .ret (List.zipWith (fun u v => a * u + (1 - a) * v) y y') g := by
  have hle := hw.le hb
  obtain ⟨z, e, l, v⟩ := C32_regression g hw hb hle x (by omega)
  obtain ⟨z', e', l', v'⟩ := C32_regression g hw hb hle x' (by omega)
  rw [e] at h; rw [e'] at h'
  cases h; cases h'
  obtain ⟨w, ew, lw, vw⟩ := C32_regression g hw hb hle (List.zipWith (fun u v => a * u + (1 - a) * v) x x') (by simp [hx, hx'])
  rw [ew]
  congr 1
  refine List.ext_getElem (by simp [l, l', lw]) fun i h1 h2 => ?_
  have hi : i < g.dim - g.di := by rw [lw] at h1; exact h1
  have hcomb : (fun j => vecOf g.di (List.zipWith (fun u v => a * u + (1 - a) * v) x x') j - vecOf g.dim g.mean (Fin.castLE hle j)) =
      a • (fun j => vecOf g.di x j - vecOf g.dim g.mean (Fin.castLE hle j)) +
      (1 - a) • (fun j => vecOf g.di x' j - vecOf g.dim g.mean (Fin.castLE hle j)) := by
    funext j
    have hj := j.isLt
    have j1 : j.val < x.length := by omega
    have j2 : j.val < x'.length := by omega
    simp [vecOf, List.getD_eq_getElem?_getD, List.getElem?_zipWith, j1, j2]
    ring
  have e0 := congrFun vw ⟨i, hi⟩
  have e1 := congrFun v ⟨i, hi⟩
  have e2 := congrFun v' ⟨i, hi⟩
  rw [hcomb, Matrix.mulVec_add, Matrix.mulVec_smul, Matrix.mulVec_smul] at e0
  have i1 : i < y.length := by omega
  have i2 : i < y'.length := by omega
  simp only [vecOf, Pi.add_apply, Pi.smul_apply, smul_eq_mul, List.getD_eq_getElem?_getD] at e0 e1 e2
  rw [List.getElem?_eq_getElem h1, Option.getD_some] at e0
  rw [List.getElem?_eq_getElem i1, Option.getD_some] at e1
  rw [List.getElem?_eq_getElem i2, Option.getD_some] at e2
  rw [List.getElem_zipWith, e0, e1, e2]
  ring

/-- C32 (uncorrelated): when no output dimension is correlated with an input dimension, the regression is the mean of the output
    for every input. -/
theorem C32_uncorrelated (g : Gauss K) (hw : g.WF) (hb : g.bimodal = true)
    (h0 : ∀ i j, g.di ≤ i → i < g.dim → j < g.di → g.covAt i j = 0) (x : List K) (hx : g.di ≤ x.length) :
    regression x g = .ret (g.mean.drop g.di) g := by
  have hle := hw.le hb
  have hmean := hw.mean
  obtain ⟨y, e, l, v⟩ := C32_regression g hw hb hle x hx
  have hz : g.sigmaOutIn hle = 0 := by
    funext i j
    have : g.sigmaOutIn hle i j = g.covAt (g.di + i.val) j.val := sigma_covAt g _ _
    rw [this]
    exact h0 _ _ (by omega) (by have := i.isLt; omega) j.isLt
  rw [hz, Matrix.zero_mul, Matrix.zero_mulVec, add_zero] at v
  rw [e]
  congr 1
  refine List.ext_getElem (by simp [l, hmean]) fun i h1 h2 => ?_
  have hi : i < g.dim - g.di := by rw [l] at h1; exact h1
  have := congrFun v ⟨i, hi⟩
  simp only [vecOf, outIx, List.getD_eq_getElem?_getD] at this
  rw [List.getElem?_eq_getElem h1, List.getElem?_eq_getElem (by omega)] at this
  simpa using this

/-- regression on a unimodal distribution throws -/
theorem C32_unimodal_throws (g : Gauss K) (hb : g.bimodal = false) (x : List K) :
    regression x g = .throw .runtimeError g := by
  simp [regression, hb]

/-- the hypotheses of C32 are met with correlated modalities, and the regression then depends on the input -/
example : ∃ (g : Gauss ℚ), g.WF ∧ g.bimodal = true ∧ regression [3] g = .ret [2] g ∧ regression [5] g = .ret [3] g :=
  ⟨⟨true, 2, 2, 1, 1, .full, [1, 1], [2, 1, 1, 3], [3/5, -1/5, -1/5, 2/5], 5, [1/2], 2, [5/2]⟩,
    ⟨rfl, rfl, rfl, fun _ => rfl, by simp⟩, rfl, by decide +kernel, by decide +kernel⟩

end Xmm
