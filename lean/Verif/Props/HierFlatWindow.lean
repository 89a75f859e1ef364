import Verif.Props.HierFlat
import Verif.Props.HierResults
import Verif.Props.GaussianDensity
set_option linter.unusedSimpArgs false
set_option linter.unusedSectionVars false
/- C70, C85: the likelihood window of a model that is not hierarchical. -/
namespace Xmm
open Prog (bind_def pure_def get_def set_def modify_def throw_def undef_def)
open HmmSpec GmmSpec RecSpec HierSpec CBufSpec
namespace HierHmm
section
variable {K : Type} [Field K] [LinearOrder K] [IsStrictOrderedRing K]

theorem twice_sum (l : List K) : (twice l).sum = 2 * l.sum := by
  induction l with
  | nil => simp [twice]
  | cons a l ih =>
    have : twice (a :: l) = a :: a :: twice l := rfl
    rw [this, List.sum_cons, List.sum_cons, List.sum_cons, ih]; ring

theorem twice_length (l : List K) : (twice l).length = 2 * l.length := by
  induction l with
  | nil => simp [twice]
  | cons a l ih =>
    have : twice (a :: l) = a :: a :: twice l := rfl
    rw [this, List.length_cons, List.length_cons, List.length_cons, ih]; ring

theorem twice_drop (k : Nat) (l : List K) : (twice l).drop (2 * k) = twice (l.drop k) := by
  induction l generalizing k with
  | nil => simp [twice]
  | cons a l ih =>
    cases k with
    | zero => rfl
    | succ k =>
      have : twice (a :: l) = a :: a :: twice l := rfl
      rw [this, show 2 * (k + 1) = 2 * k + 1 + 1 by ring, List.drop_succ_cons, List.drop_succ_cons, List.drop_succ_cons, ih]

/-- the average of the last `2 k` numbers of the doubled list is that of the last `k` numbers -/
theorem avgLast_twice (k : Nat) (l : List K) : avgLast (2 * k) (twice l) = avgLast k l := by
  have h : lastN (2 * k) (twice l) = twice (lastN k l) := by
    unfold lastN
    rw [twice_length, ← Nat.mul_sub, twice_drop]
  unfold avgLast
  rw [h, twice_sum, twice_length]
  push_cast
  exact mul_div_mul_left _ _ two_ne_zero

/-- C85: without hierarchy the smoothed log-likelihood takes half as many observations into account as the likelihood window says. -/
theorem C85_half_window (D : Dens K) (hD : D.Sound) (log exp : K → K) (hexp : ∀ x, 0 < exp x) (M : HierHmm K) (hM : M.FlatTrained)
    (hne : M.models ≠ []) (xs : List (List K)) (hxs : xs ≠ []) (hx : ∀ x ∈ xs, ∀ lc ∈ M.models, lc.2.Fits x) :
    ∃ M0 rs M', reset M = .ret () M0 ∧ filterAll D log exp xs M0 = .ret rs M' ∧
      ∀ (c : Nat) (lc : String × Hmm K), M.models[c]? = some lc → ∀ k, lc.2.window = 2 * k → ∃ m'', M'.models[c]? = some (lc.1, m'') ∧
        m''.logLik = avgLast k (rs.map fun r => log (r.getD c 0)) := by
  obtain ⟨M0, rs, M', h1, h2, h3, _⟩ := C85_flat D hD log exp hexp M hM hne xs hxs hx
  refine ⟨M0, rs, M', h1, h2, fun c lc hlc k hk => ?_⟩
  obtain ⟨m0, ps, m', m'', a1, a2, a3, a4, a5, a6⟩ := h3 c lc hlc
  refine ⟨m'', a3, ?_⟩
  rw [a6, hk, avgLast_twice, ← a4, List.map_map]
  rfl

/-- A hierarchical model of left-right classes that can be used for recognition can also be used with `hierarchical` set to false. -/
theorem Trained.toFlat {M : HierHmm K} (hM : M.Trained) (he : ∀ lc ∈ M.models, lc.2.ergodic = false) : ({ M with hier := false } : HierHmm K).FlatTrained := by
  refine ⟨hM.idle, rfl, hM.nulls, hM.sorted, fun lc hlc => ?_, hM.mode⟩
  obtain ⟨h1, h2, h3, h4⟩ := hM.cls lc hlc
  have hw := h1.can.wf
  refine ⟨⟨⟨⟨hw.pos, hw.sts, hw.prior, hw.trans, hw.state⟩,
          ⟨h1.can.chain.start_nonneg, h1.can.chain.start_sum, h1.can.chain.step_nonneg, h1.can.chain.step_sum⟩, h1.can.idle, h1.can.window,
          h1.can.state⟩, rfl, h4, fun h => ?_⟩, h2, h3, fun h => ?_⟩
  · exact absurd ((he lc hlc).symm.trans h) (by simp)
  · exact absurd ((he lc hlc).symm.trans h) (by simp)

end

/-- Non-vacuity of C85: two bimodal left-right classes of two states with Gaussian mixtures of two components. -/
theorem flatTrained_exists : ∃ M : HierHmm ℝ, M.FlatTrained ∧ M.models.length = 2 ∧ M.bimodal = true ∧ Dens.real.Sound ∧
    ∀ x ∈ [[1], [4], [1 / 2]], ∀ lc ∈ M.models, lc.2.Fits x := by
  obtain ⟨M, h1, h2, h3, h4, _, h5, _⟩ := trained_exists false .full
  refine ⟨_, h1.toFlat fun lc hlc => (h4 lc hlc).1, h2, h3, h5, fun x hx lc hlc => ?_⟩
  have h : lc.2.Fits [1] := (h4 lc hlc).2.2.2.2.2.2.1
  simp only [Hmm.Fits, (h4 lc hlc).2.2.1, if_true] at h ⊢
  simp only [List.mem_cons, List.not_mem_nil, or_false] at hx
  rcases hx with rfl | rfl | rfl <;> simpa using h

/-- Non-vacuity of `C85_ergodic_ub`. -/
theorem freed_exists : ∃ (M : HierHmm ℝ) (lc : String × Hmm ℝ) (rest : SMap String (Hmm ℝ)), M.training = false ∧ M.hier = false ∧ M.nulls = [] ∧
    M.models = lc :: rest ∧ rest ≠ [] ∧ (∀ a ∈ M.models, a.2.CanFilter ∧ BufOk a.2.buf ∧ a.2.hier = true) ∧ lc.2.ergodic = true ∧ lc.2.Fits [1] := by
  obtain ⟨M, h1, h2, h3, h4, _⟩ := trained_exists true .full
  obtain ⟨lc, rest, hm⟩ : ∃ lc rest, M.models = lc :: rest := by
    cases h : M.models with
    | nil => rw [h] at h2; simp at h2
    | cons a l => exact ⟨a, l, rfl⟩
  have hl : lc ∈ M.models := by rw [hm]; simp
  refine ⟨{ M with hier := false }, lc, rest, h1.idle, rfl, h1.nulls, hm, ?_, fun a ha => ?_, (h4 lc hl).1, (h4 lc hl).2.2.2.2.2.2.1⟩
  · rintro rfl
    rw [hm] at h2; simp at h2
  · obtain ⟨a1, _, _, a4⟩ := h1.cls a ha
    exact ⟨a1.can, a4, a1.hier⟩

noncomputable section Witness

/-- the standard normal distribution -/
def stdNormal : Gauss ℝ :=
  { bimodal := false, dim := 1, dimMin := 1, di := 0, diMax := 0, mode := .full, mean := [0], cov := [1], inv := [1], det := 1, invIn := [], detIn := 1,
    outCov := [] }

/-- a mixture of one component -/
def oneComponent : Gmm ℝ :=
  { gaussians := 1, mode := .full, absReg := 1 / 1000, relReg := 1 / 100, bimodal := false, dim := 1, di := 0, window := 2, comps := [stdNormal],
    coeffs := [1], beta := [0], reg := [1 / 1000], training := false, buf := CBuf.construct 0 1 2, instant := 0, logLik := 0, outVals := [], outCov := [] }

/-- a left-right class of one state -/
def oneState : Hmm ℝ :=
  { n := 1, gaussians := 1, ergodic := false, est := .full, absReg := 1 / 1000, relReg := 1 / 100, mode := .full, bimodal := false, dim := 1,
    di := 0, window := 2, sts := [oneComponent], prior := [1], trans := [1, 0], alpha := [0], prevAlpha := [0], beta := [], prevBeta := [],
    alpha0 := [], alpha1 := [], alpha2 := [], exitP := [1 / 10], hier := true, started := false, training := false, winMin := 0, winMax := 0,
    winNorm := 0, buf := CBuf.construct 0 1 2, instant := 0, logLik := 0, progress := 0, exitLik := 0, exitRatio := 0, likeliest := 0,
    outVals := [], outCov := [] }

/-- a model of one class that is not hierarchical, with a likelihood window of two observations -/
def oneClass : HierHmm ℝ :=
  { models := [("a", oneState)], nulls := [], prior := [1], exitTrans := [1 / 10], trans := [[1]], front1 := [], front2 := [], started := false,
    training := false, conf := fun _ => { n := 1, gaussians := 1, absReg := 1 / 1000, relReg := 1 / 100, mode := .full, ergodic := false, est := .full },
    hier := false, mode := .full, est := .likeliest, bimodal := false, dim := 1, di := 0, window := 2,
    results := { inst := [], instNorm := [], smoothed := [], smoothedNorm := [], smoothedLog := [], likeliest := "", outVals := [], outCov := [] } }

theorem stdNormal_wf : stdNormal.WF := ⟨rfl, rfl, rfl, fun h => (by cases h), by simp [stdNormal]⟩

theorem oneComponent_can : oneComponent.CanFilter := by
  refine ⟨⟨⟨by simp [oneComponent], rfl, rfl, rfl, ?_⟩, ⟨?_, ?_⟩, ?_⟩, rfl, by simp [oneComponent], fun h => (by cases h)⟩
  · intro g hg
    have : g = stdNormal := by simpa [oneComponent] using hg
    subst this
    exact ⟨stdNormal_wf, rfl, rfl, rfl, rfl⟩
  · intro x hx
    have : x = 1 := by simpa [oneComponent] using hx
    subst this; norm_num
  · simp [oneComponent]
  · intro g hg
    have : g = stdNormal := by simpa [oneComponent] using hg
    subst this
    simp [stdNormal, oneComponent]

theorem oneState_usable : ({ oneState with hier := false } : Hmm ℝ).Usable := by
  refine ⟨⟨⟨by simp [oneState], rfl, fun h => (by cases h), rfl, ?_⟩, ⟨?_, ?_, ?_, ?_⟩, rfl, by simp [oneState], ?_⟩, rfl, rfl, fun h => (by cases h)⟩
  · intro s hs
    have : s = oneComponent := by simpa [oneState] using hs
    subst this
    exact ⟨rfl, rfl, rfl, rfl, rfl⟩
  · intro i hi
    replace hi : i < 1 := hi
    interval_cases i; norm_num [start, oneState]
  · norm_num [start, oneState]
  · intro i hi j hj
    replace hi : i < 1 := hi
    replace hj : j < 1 := hj
    interval_cases i; interval_cases j; norm_num [step, oneState]
  · intro i hi
    replace hi : i < 1 := hi
    interval_cases i; norm_num [step, oneState]
  · intro s hs
    have : s = oneComponent := by simpa [oneState] using hs
    subst this
    exact ⟨oneComponent_can, 2, [], CBuf.Holds.init 0 2 (by omega)⟩

theorem oneClass_flat : oneClass.FlatTrained := by
  refine ⟨rfl, rfl, rfl, by simp [SMap.Sorted, SMap.keys, oneClass], fun lc hlc => ?_, fun h => (by cases h)⟩
  have : lc = ("a", oneState) := by simpa [oneClass] using hlc
  subst this
  exact ⟨oneState_usable, rfl, rfl, fun h => (by cases h)⟩

theorem stdNormal_likelihood (x : ℝ) : Dens.real.joint [x] stdNormal = .ret (max likelihoodFloor (Real.exp (-(1 / 2) * (x * x)) / Real.sqrt (2 * Real.pi))) stdNormal := by
  have h := likelihood_exact stdNormal stdNormal_wf [x] (by simp [stdNormal]) (by simp [stdNormal])
  show Dens.onReals _ stdNormal = _
  unfold Dens.onReals
  rw [h]
  simp only
  congr 1
  have e : stdNormal.offset [x] ⬝ᵥ stdNormal.precision.mulVec (stdNormal.offset [x]) = x * x := by
    have h0 : ∀ i : Fin stdNormal.dim, (i : Nat) = 0 := fun i => by
      have := i.2
      simp only [stdNormal] at this
      omega
    have ho : stdNormal.offset [x] = fun _ => x := by
      funext i
      simp [Gauss.offset, stdNormal, h0 i]
    have hp : stdNormal.precision = fun _ _ => 1 := by
      funext i j
      simp [Gauss.precision, stdNormal, matOf, h0 i, h0 j]
    rw [ho, hp]
    have hc : ((Finset.univ : Finset (Fin stdNormal.dim)).card : ℝ) = 1 := by rw [Finset.card_fin]; norm_num [stdNormal]
    simp only [dotProduct, Matrix.mulVec, Finset.sum_const, nsmul_eq_mul, hc, one_mul]
  rw [e]
  simp [clamped, stdNormal]

theorem likelihoods_differ : max likelihoodFloor (Real.exp (-(1 / 2) * (1 * 1)) / Real.sqrt (2 * Real.pi)) <
    max likelihoodFloor (Real.exp (-(1 / 2) * (0 * 0)) / Real.sqrt (2 * Real.pi)) := by
  have hpi := Real.pi_pos
  have hs : 0 < Real.sqrt (2 * Real.pi) := Real.sqrt_pos.2 (by positivity)
  have hs' : Real.sqrt (2 * Real.pi) < 10 := by
    rw [Real.sqrt_lt' (by norm_num)]
    have := Real.pi_lt_four
    linarith
  have e : Real.exp (-(1 / 2) * (0 * 0) : ℝ) = 1 := by norm_num
  have e1 : Real.exp (-(1 / 2) * (1 * 1) : ℝ) < 1 := by
    rw [← Real.exp_zero]
    exact Real.exp_lt_exp.2 (by norm_num)
  rw [e]
  have hf : likelihoodFloor < 1 / Real.sqrt (2 * Real.pi) := by
    unfold likelihoodFloor
    apply one_div_lt_one_div_of_lt hs
    calc Real.sqrt (2 * Real.pi) < 10 := hs'
      _ ≤ 10 ^ 180 := by norm_num
  refine max_lt (lt_max_of_lt_right hf) (lt_max_of_lt_right ?_)
  gcongr

/-- what the class alone reports for one observation, and for two: the densities of the standard normal distribution -/
theorem oneState_reports (x y : ℝ) : ∃ m0 m', Hmm.reset { oneState with hier := false } = .ret () m0 ∧
    Hmm.filterAll Dens.real Real.log [[x], [y]] m0 =
      .ret [max likelihoodFloor (Real.exp (-(1 / 2) * (x * x)) / Real.sqrt (2 * Real.pi)),
        max likelihoodFloor (Real.exp (-(1 / 2) * (y * y)) / Real.sqrt (2 * Real.pi))] m' := by
  obtain ⟨m0, b, h1, h2, h3, h4, h5⟩ := Hmm.C42_sequence_likelihood Dens.real Dens.real_sound Real.log _ oneState_usable
  have hf : ∀ z : ℝ, ({ oneState with hier := false } : Hmm ℝ).Fits [z] := fun z => by simp [Hmm.Fits, oneState]
  have hb : ∀ z : ℝ, b [z] 0 = max likelihoodFloor (Real.exp (-(1 / 2) * (z * z)) / Real.sqrt (2 * Real.pi)) := by
    intro z
    obtain ⟨d, d1, d2⟩ := h2 [z] (hf z) 0 oneComponent rfl
    have := d1 0 stdNormal rfl
    rw [if_neg (by simp [oneComponent]), stdNormal_likelihood] at this
    injection this with this _
    rw [d2, this]
    simp [mixture, oneComponent, weights]
  have hst : start m0 0 = 1 := by rw [h3]; simp [start, oneState]
  have hsp : step m0 0 0 = 1 := by
    rw [h4 0 (by simp [oneState]) 0 (by simp [oneState])]
    simp [step, oneState]
  obtain ⟨ps1, m1, a1, a2, a3, _⟩ := h5 [[x]] 0 (fun z hz => by
    have : z = [x] := by simpa using hz
    rw [this]; exact hf x) rfl
  obtain ⟨ps2, m2, b1, b2, b3, _⟩ := h5 [[x], [y]] 1 (fun z hz => by
    simp only [List.mem_cons, List.not_mem_nil, or_false] at hz
    rcases hz with rfl | rfl
    · exact hf x
    · exact hf y) rfl
  have t1 : total 1 (start m0) (step m0) (fun t => b ([[x]].getD t [])) 0 = b [x] 0 := by
    rw [total_eq_sum, Finset.sum_range_one, endingIn_zero _ _ _ _ _ (by omega), hst]; simp
  have t2 : total 1 (start m0) (step m0) (fun t => b ([[x], [y]].getD t [])) 1 = b [x] 0 * b [y] 0 := by
    rw [total_eq_sum, Finset.sum_range_one, endingIn_succ _ _ _ _ _ _ (by omega), Finset.sum_range_one, endingIn_zero _ _ _ _ _ (by omega), hst, hsp]; simp
  replace a2 : ps1.prod = b [x] 0 := a2.trans t1
  replace b2 : ps2.prod = b [x] 0 * b [y] 0 := b2.trans t2
  refine ⟨m0, m2, h1, ?_⟩
  rw [b1]
  unfold Hmm.filterAll at a1 b1
  rw [bind_def] at a1 b1
  cases hq : Hmm.filter Dens.real Real.log [x] m0 with
  | ub => rw [hq] at a1; cases a1
  | throw e s => rw [hq] at a1; cases a1
  | ret p s =>
    rw [hq] at a1 b1
    simp only [Hmm.filterAll, bind_def, pure_def] at a1 b1
    injection a1 with a1 _
    cases hq' : Hmm.filter Dens.real Real.log [y] s with
    | ub => rw [hq'] at b1; cases b1
    | throw e s => rw [hq'] at b1; cases b1
    | ret p' s' =>
      rw [hq'] at b1
      injection b1 with b1 _
      rw [← b1, ← hb, ← hb]
      rw [← a1] at a2
      rw [← b1] at b2 b3
      simp only [List.prod_cons, List.prod_nil, mul_one] at a2 b2 b3
      have hp : p ≠ 0 := by rintro rfl; simp at b3
      rw [a2] at b2 hp
      rw [a2, mul_left_cancel₀ hp b2]

/-- C70 is false without hierarchy: the model has a likelihood window of two observations, but after two observations, at 0 and at 1, the smoothed
    log-likelihood of the class is not the average of the two logarithms. -/
theorem C70_flat_violated : ∃ M0 rs M' m', reset oneClass = .ret () M0 ∧ filterAll Dens.real Real.log Real.exp [[0], [1]] M0 = .ret rs M' ∧
    rs.length = 2 ∧ M'.models = [("a", m')] ∧ (∀ lc ∈ oneClass.models, lc.2.window = 2) ∧ m'.logLik ≠ avgLast 2 (rs.map fun r => Real.log (r.getD 0 0)) := by
  have hfit : ∀ x ∈ ([[0], [1]] : List (List ℝ)), ∀ lc ∈ oneClass.models, lc.2.Fits x := by
    intro x hx lc hlc
    have : lc = ("a", oneState) := by simpa [oneClass] using hlc
    subst this
    simp only [List.mem_cons, List.not_mem_nil, or_false] at hx
    rcases hx with rfl | rfl <;> simp [Hmm.Fits, oneState]
  obtain ⟨M0, rs, M', h1, h2, h3, h4, _⟩ := C85_flat Dens.real Dens.real_sound Real.log Real.exp Real.exp_pos oneClass oneClass_flat
    (by simp [oneClass]) [[0], [1]] (by simp) hfit
  obtain ⟨m0, ps, m', m'', a1, a2, a3, a4, a5, a6⟩ := h3 0 ("a", oneState) rfl
  obtain ⟨n0, n', c1, c2⟩ := oneState_reports 0 1
  rw [c1] at a1
  injection a1 with _ a1
  rw [← a1, c2] at a2
  injection a2 with a2 _
  have hlen : rs.length = 2 := by
    have := congrArg List.length a4
    rw [← a2] at this
    simpa using this
  have hlen' : M'.models.length = 1 := h4
  refine ⟨M0, rs, M', m'', h1, h2, hlen, ?_, ?_, ?_⟩
  · cases hl : M'.models with
    | nil => rw [hl] at hlen'; simp at hlen'
    | cons a l =>
      rw [hl] at hlen' a3
      have : l = [] := by simpa using hlen'
      subst this
      simp only [List.getElem?_cons_zero, Option.some.injEq] at a3
      rw [a3]
  · intro lc hlc
    have : lc = ("a", oneState) := by simpa [oneClass] using hlc
    subst this
    rfl
  · have e : (rs.map fun r => Real.log (r.getD 0 0)) = ps.map Real.log := by rw [← a4, List.map_map]; rfl
    rw [e, a6, ← a2]
    have hw : ("a", oneState).2.window = 2 * 1 := rfl
    rw [hw, avgLast_twice]
    have hlt := likelihoods_differ
    have hp : 0 < max likelihoodFloor (Real.exp (-(1 / 2) * (1 * 1)) / Real.sqrt (2 * Real.pi)) :=
      lt_max_of_lt_left (by unfold likelihoodFloor; positivity)
    generalize max likelihoodFloor (Real.exp (-(1 / 2) * (1 * 1)) / Real.sqrt (2 * Real.pi)) = p at hlt hp
    generalize max likelihoodFloor (Real.exp (-(1 / 2) * (0 * 0)) / Real.sqrt (2 * Real.pi)) = q at hlt
    have hl := Real.log_lt_log hp hlt
    simp only [avgLast, lastN, List.map_cons, List.map_nil, List.length_cons, List.length_nil, List.drop_succ_cons, List.drop_zero, List.sum_cons,
      List.sum_nil, Nat.zero_add, Nat.reduceAdd, Nat.reduceSub, Nat.cast_ofNat, Nat.cast_one]
    intro h
    linarith

end Witness
end HierHmm
end Xmm
