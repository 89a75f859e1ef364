import Verif.Props.Gaussian
set_option linter.unusedSimpArgs false
set_option linter.unusedSectionVars false
/- C31 continued (determinants, failures), C30 (covariance modes), C59 (conditional covariance), C32 (regression). -/
namespace Xmm
open Gauss Phrase
variable {K : Type} [Field K] [LinearOrder K] [IsStrictOrderedRing K]

/-! ## C31: determinants, failures, definedness -/

theorem updateOutput_fields {g g' : Gauss K} (hw : g.WF) (h : updateOutputIfBimodal g = .ret () g') :
    g'.det = g.det ∧ g'.detIn = g.detIn ∧ g'.inv = g.inv ∧ g'.invIn = g.invIn := by
  obtain ⟨v, rfl⟩ := updateOutput_keeps g g' hw h
  exact ⟨rfl, rfl, rfl, rfl⟩

theorem det_diagonal_sigma (g : Gauss K) (hm : g.mode = .diagonal) :
    g.sigma.det = ∏ i ∈ Finset.range g.dim, g.cov.getD i 0 := by
  simp only [sigma, hm, Matrix.det_diagonal, vecOf]
  exact (Finset.prod_range (fun i => g.cov.getD i 0)).symm

theorem sigmaIn_diagonal (g : Gauss K) (hm : g.mode = .diagonal) (hle : g.di ≤ g.dim) :
    g.sigmaIn hle = Matrix.diagonal (vecOf g.di g.cov) := by
  funext i j
  simp only [sigmaIn, sigma, hm, Matrix.diagonal_apply, Fin.ext_iff, vecOf]
  rfl

theorem sigmaIn_det_diagonal (g : Gauss K) (hm : g.mode = .diagonal) (hle : g.di ≤ g.dim) :
    (g.sigmaIn hle).det = ∏ i ∈ Finset.range g.di, g.cov.getD i 0 := by
  rw [sigmaIn_diagonal g hm hle, Matrix.det_diagonal]
  exact (Finset.prod_range (fun i => g.cov.getD i 0)).symm

/-- C31 (determinants): after a successful update the reported determinant is that of the covariance matrix — exactly in
    Diagonal mode, where it is positive; up to the sign in Full mode (see C10) — and likewise for the input block. -/
theorem C31_determinant (g g' : Gauss K) (hw : g.WF) (h : updateInverseCovariance g = .ret () g') :
    (g.mode = .diagonal → g'.det = g'.sigma.det ∧ 0 < g'.det) ∧
    (g.mode = .full → |g'.det| = |g'.sigma.det| ∧ g'.det ≠ 0) ∧
    (g.bimodal = true → ∀ hle : g'.di ≤ g'.dim,
      (g.mode = .diagonal → g'.detIn = (g'.sigmaIn hle).det ∧ 0 < g'.detIn) ∧
      (g.mode = .full → |g'.detIn| = |(g'.sigmaIn hle).det| ∧ g'.detIn ≠ 0)) := by
  have hinv := C31_inverse g g' hw h
  obtain ⟨_, hs, hl, _, hin⟩ := hinv
  have hne : g'.sigma.det ≠ 0 := by
    intro h0
    have := congrArg Matrix.det hl
    rw [Matrix.det_mul, h0, mul_zero, Matrix.det_one] at this
    exact zero_ne_one this
  have hneIn : g.bimodal = true → ∀ hle : g'.di ≤ g'.dim, (g'.sigmaIn hle).det ≠ 0 := by
    intro hb hle h0
    have := congrArg Matrix.det (hin hb hle).1
    rw [Matrix.det_mul, h0, mul_zero, Matrix.det_one] at this
    exact zero_ne_one this
  rcases mode_cases g with hm | hm
  · rw [updateInverse_full g hm] at h
    cases hf : updateInverseFull g with
    | throw e g1 => rw [hf] at h; cases h
    | ub => rw [hf] at h; cases h
    | ret _ g1 =>
      rw [hf] at h
      obtain ⟨hi, ⟨x, hx⟩, hy⟩ := full_inverted g g1 hw hm hf
      obtain ⟨v, hv⟩ := updateOutput_keeps g1 g' hi.wf h
      obtain ⟨e1, e2, -, -⟩ := updateOutput_fields hi.wf h
      have hsig : |g'.det| = |g'.sigma.det| := by
        have hd := (C10_det_partial _ _ (covMat_holds g hm) _ _ hx).1
        have : g'.sigma.det = g.sigma.det := by
          rw [hv]
          obtain ⟨_, sd, _, sm, _, sc⟩ := hi.same
          obtain ⟨_, _, _, _, _, _, _, _, _, _, _, _, _⟩ := g1
          simp only at sd sm sc
          subst sd sm sc
          rfl
        rw [e1, hd, this]
      refine ⟨fun h' => (by rw [hm] at h'; cases h'), fun _ => ⟨hsig, fun h0 => hne ?_⟩, fun hb hle => ⟨fun h' => (by rw [hm] at h'; cases h'), fun _ => ?_⟩⟩
      · rw [h0, abs_zero] at hsig; exact abs_eq_zero.1 hsig.symm
      · obtain ⟨y, hy⟩ := hy hb
        have hd := (C10_det_partial _ _ (covMatIn_holds g hm (hw.le hb)) _ _ hy).1
        have : (g'.sigmaIn hle).det = (g.sigmaIn (hw.le hb)).det := by
          subst hv
          obtain ⟨_, sd, sdi, sm, _, sc⟩ := hi.same
          obtain ⟨_, _, _, _, _, _, _, _, _, _, _, _, _⟩ := g1
          simp only at sd sm sc sdi
          subst sd sm sc sdi
          rfl
        have hsig2 : |g'.detIn| = |(g'.sigmaIn hle).det| := by rw [e2, hd, this]
        exact ⟨hsig2, fun h0 => hneIn hb hle (by rw [h0, abs_zero] at hsig2; exact abs_eq_zero.1 hsig2.symm)⟩
  · rw [updateInverse_diagonal g hm] at h
    rcases first_nonpos (fun i => g.cov.getD i 0) g.dim with hp | ⟨j, hj, hc, hp⟩
    · rw [(updateInverseDiagonal_eq g hw hm).1 hp] at h
      have hwd := (diagState_spec g hw hm hp).1
      obtain ⟨v, hv⟩ := updateOutput_keeps _ g' hwd h
      have hpos : 0 < ∏ i ∈ Finset.range g.dim, g.cov.getD i 0 := Finset.prod_pos fun i hi => hp i (Finset.mem_range.1 hi)
      refine ⟨fun _ => ?_, fun h' => (by rw [hm] at h'; cases h'), fun hb hle => ⟨fun _ => ?_, fun h' => by rw [hm] at h'; cases h'⟩⟩
      · subst hv
        exact ⟨(det_diagonal_sigma ({ (diagState g g.dim) with outCov := v }) hm).symm, hpos⟩
      · subst hv
        have hle' : g.di ≤ g.dim := hle
        have e : (diagState g g.dim).detIn = ∏ i ∈ Finset.range g.di, g.cov.getD i 0 := by
          simp [diagState, hb, hle']
        have e2 : (sigmaIn ({ (diagState g g.dim) with outCov := v }) hle).det = ∏ i ∈ Finset.range g.di, g.cov.getD i 0 := by
          exact sigmaIn_det_diagonal ({ (diagState g g.dim) with outCov := v }) hm hle
        refine ⟨e.trans e2.symm, ?_⟩
        show 0 < (diagState g g.dim).detIn
        rw [e]
        exact Finset.prod_pos fun i hi => hp i (by have := Finset.mem_range.1 hi; omega)
    · rw [(updateInverseDiagonal_eq g hw hm).2 j hj hc hp] at h
      cases h

/-- C31 (failure): a singular covariance in Full mode and a covariance with a variance that is not positive in Diagonal mode
    make the update throw `runtime_error`. -/
theorem C31_throws (g : Gauss K) (hw : g.WF) :
    (g.mode = .full → g.sigma.det = 0 → ∃ g', updateInverseCovariance g = .throw .runtimeError g') ∧
    (g.mode = .diagonal → (∃ i : Fin g.dim, g.sigma i i ≤ 0) →
      ∃ g', updateInverseCovariance g = .throw .runtimeError g') := by
  constructor
  · intro hm h0
    have := C09_singular_throws _ _ (covMat_holds g hm) h0
    exact ⟨g, by rw [updateInverse_full g hm, updateInverseFull_eq g hw hm, this]⟩
  · rintro hm ⟨i, hi⟩
    have hi' : g.cov.getD i.val 0 ≤ 0 := by simpa [sigma, hm, vecOf] using hi
    rcases first_nonpos (fun i => g.cov.getD i 0) g.dim with hp | ⟨j, hj, hc, hp⟩
    · exact absurd (hp i.val i.isLt) (not_lt.2 hi')
    · exact ⟨_, by rw [updateInverse_diagonal g hm, (updateInverseDiagonal_eq g hw hm).2 j hj hc hp]⟩

theorem updateOutput_total (g : Gauss K) (hw : g.WF) : updateOutputIfBimodal g ≠ .ub := by
  simp only [updateOutputIfBimodal, Prog.bind_def, Prog.get_def]
  rcases bool_cases g.bimodal with hb | hb
  · simp [hb]
  · simp only [hb, if_true]
    rcases mode_cases g with hm | hm
    · obtain ⟨h1, h2⟩ := updateOutput_full g hw hm hb
      cases hp : (covMatIn g).pinv with
      | error e => rw [h1 e hp]; simp
      | ok r => obtain ⟨v, e, _⟩ := h2 r.1 r.2 hp; rw [e]; simp
    · rw [updateOutput_diagonal g hw hm hb]; simp

/-- C31 (definedness): the update never runs outside the vectors of a distribution whose vectors have the right sizes. -/
theorem C31_no_ub (g : Gauss K) (hw : g.WF) : updateInverseCovariance g ≠ .ub := by
  rcases mode_cases g with hm | hm
  · rw [updateInverse_full g hm]
    cases hf : updateInverseFull g with
    | throw e g1 => simp
    | ret _ g1 => exact updateOutput_total g1 (full_inverted g g1 hw hm hf).1.wf
    | ub =>
      exfalso
      rw [updateInverseFull_eq g hw hm] at hf
      split at hf
      · cases hf
      · split at hf
        · split at hf <;> cases hf
        · cases hf
  · rw [updateInverse_diagonal g hm]
    rcases first_nonpos (fun i => g.cov.getD i 0) g.dim with hp | ⟨j, hj, hc, hp⟩
    · rw [(updateInverseDiagonal_eq g hw hm).1 hp]
      exact updateOutput_total _ (diagState_spec g hw hm hp).1
    · rw [(updateInverseDiagonal_eq g hw hm).2 j hj hc hp]; simp

/-- Every constructed distribution has vectors of the right sizes. -/
theorem C31_sizes_reachable (b : Bool) (dim di : Nat) (m : CovMode) (g : Gauss K) (h : Gauss.construct b dim di m = some g) :
    g.WF ∧ g.dim = dim ∧ g.di = di ∧ g.mode = m ∧ g.bimodal = b := by
  unfold Gauss.construct at h
  by_cases h1 : dim < (if b then 2 else 1)
  · rw [if_pos h1] at h; cases h
  · rw [if_neg h1] at h
    by_cases h2 : (if b then dim - 1 else 0) < di
    · rw [if_pos h2] at h; cases h
    · rw [if_neg h2] at h
      have h3 : b = true → di ≤ dim := by intro hb; simp [hb] at h2; omega
      have h := (Option.some.inj h).symm
      subst h
      cases m <;> refine ⟨⟨?_, ?_, ?_, ?_, h3⟩, rfl, rfl, rfl, rfl⟩ <;> simp [allocate, resize_length]
      all_goals (intro hb; simp [hb, resize_length])

/-- C31 violated outside that condition: a bimodal distribution of dimension 4 with 3 input dimensions may be set to dimension
    2; its update then runs outside its vectors. -/
theorem C31_shrunk_dimension_ub :
    ∃ g g' : Gauss ℚ, Gauss.construct true 4 3 .diagonal = some g ∧ setDim 2 g = .ret () g' ∧ g'.di = 3 ∧ g'.dim = 2 ∧
      updateInverseCovariance { g' with cov := [1, 1] } = .ub := by
  refine ⟨_, _, rfl, rfl, rfl, rfl, ?_⟩
  decide +kernel

end Xmm
