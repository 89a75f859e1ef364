import Verif.Props.BaumWelchForward
import Verif.Props.HmmResults
set_option linter.unusedSimpArgs false
set_option linter.unusedSectionVars false
/- C45: the variables of the Baum-Welch algorithm are the posterior probabilities. -/
namespace Xmm
open Phrase (loop)
open Gauss (rd rd_lt)
open Prog (bind_def pure_def get_def set_def modify_def throw_def undef_def)
variable {K : Type} [Field K] [LinearOrder K]

namespace Hmm
variable [IsStrictOrderedRing K]
open HmmSpec GmmSpec RecSpec Gmm

section Phrase
variable (D : Dens K) (log : K → K) (m : Hmm K) (hm : m.InTraining) (frames : List (List K)) (T : Nat) (hT : frames.length = T + 1)
  (d : Nat → List K → Nat → K) (hd : Observes D m frames d)
  (hpos : ∀ t ≤ T, 0 < total m.n (start m) (step m) (likAt m d frames) t)
include hT hpos

theorem gammas_ret {σ : Type} (s : σ) :
    gammas m.n (T + 1) ((List.range (T + 1)).map (fwdRow m (likAt m d frames))) ((List.range (T + 1)).map (bwdRow m (likAt m d frames) T))
      ((List.range (T + 1)).map (scale m (likAt m d frames))) s =
      .ret ((List.range (T + 1)).map fun t => (List.range m.n).map fun i => gammaOf m d frames t i) s := by
  unfold gammas
  refine collect_ret _ _ _ s fun t ht => ?_
  rw [bind_of_ret (rd_map_range _ _ t ht s)]
  refine collect_ret _ _ _ s fun i hi => ?_
  unfold fwdRow bwdRow
  rw [bind_of_ret (cell_map_range _ _ _ t i ht hi s), bind_of_ret (cell_map_range _ _ _ t i ht hi s), pure_def]
  congr 1
  unfold gammaOf post scale
  rw [show frames.length - 1 = T by omega, atState_eq _ _ _ _ T t (by omega)]
  have h1 := (hpos t (by omega)).ne'
  have h2 := (hpos T le_rfl).ne'
  have h3 : before m (likAt m d frames) t ≠ 0 := by
    cases t with
    | zero => exact one_ne_zero
    | succ t => exact (hpos t (by omega)).ne'
  field_simp

theorem epsCell_ret {σ : Type} (t i k j : Nat) (ht : t < T) (hi : i < m.n) (hj : j < m.n) (hk : k < m.trans.length)
    (hst : m.trans.getD k 0 = step m i j) (s : σ) :
    epsCell m ((List.range (T + 1)).map (fwdRow m (likAt m d frames))) ((List.range (T + 1)).map (bwdRow m (likAt m d frames) T))
      ((List.range (T + 1)).map fun t => (List.range m.n).map (likAt m d frames t)) t i k j s = .ret (xiOf m d frames t i j) s := by
  unfold epsCell fwdRow bwdRow
  rw [bind_of_ret (cell_map_range _ _ _ t i (by omega) hi s), bind_of_ret (rd_lt hk 0 s),
    bind_of_ret (cell_map_range _ _ _ (t + 1) j (by omega) hj s), bind_of_ret (cell_map_range _ _ _ (t + 1) j (by omega) hj s), pure_def]
  congr 1
  unfold xiOf postStep
  rw [hst, show frames.length - 1 = T by omega, atStates_eq _ _ _ _ T t ht i j hi hj]
  have h1 := (hpos t (by omega)).ne'
  have h2 := (hpos T le_rfl).ne'
  simp only [before]
  field_simp

include hm
theorem epses_ret {σ : Type} (s : σ) :
    epses m (T + 1) ((List.range (T + 1)).map (fwdRow m (likAt m d frames))) ((List.range (T + 1)).map (bwdRow m (likAt m d frames) T))
      ((List.range (T + 1)).map fun t => (List.range m.n).map (likAt m d frames t)) s =
      .ret ((List.range T).map fun t => (List.range m.n).map fun i => (m.dests i).map fun j => xiOf m d frames t i j) s := by
  unfold epses
  rw [Nat.add_sub_cancel]
  refine collect_ret _ _ _ s fun t ht => ?_
  refine collect_ret _ _ _ s fun i hi => ?_
  have htr := hm.wf.trans
  unfold dests
  rcases bool_cases m.ergodic with h | h
  · simp only [h, Bool.false_eq_true, if_false] at htr ⊢
    have hst : ∀ j, step m i j = (if j = i then m.trans.getD (i * 2) 0 else 0) +
        (if j = (i + 1) % m.n then m.trans.getD (i * 2 + 1) 0 else 0) := fun j => by simp [step, h]
    by_cases hl : i < m.n - 1
    · rw [bind_of_ret (epsCell_ret m frames T hT d hpos t i (i * 2) i ht hi hi (by omega) (by
        rw [hst, if_pos rfl, Nat.mod_eq_of_lt (by omega), if_neg (by omega), add_zero]) s), if_pos hl, if_pos hl,
        bind_of_ret (epsCell_ret m frames T hT d hpos t i (i * 2 + 1) (i + 1) ht hi (by omega) (by omega) (by
        rw [hst, if_neg (by omega), Nat.mod_eq_of_lt (by omega), if_pos rfl, zero_add]) s), pure_def]
      rfl
    · have h0 := hm.last h
      rw [bind_of_ret (epsCell_ret m frames T hT d hpos t i (i * 2) i ht hi hi (by omega) (by
        rw [hst, if_pos rfl, show i * 2 + 1 = m.n * 2 - 1 by omega, h0]; simp) s), if_neg hl, if_neg hl, pure_def]
      rfl
  · simp only [h, if_true] at htr ⊢
    refine collect_ret _ _ _ s fun j hj => ?_
    have : i * m.n + j < m.n * m.n := by nlinarith
    exact epsCell_ret m frames T hT d hpos t i (i * m.n + j) j ht hi hj (by omega) (by simp [step, h]) s

include hd
theorem gmixes_ret {σ : Type} (hlik : ∀ t ≤ T, ∀ i < m.n, 0 < likAt m d frames t i) (s : σ) :
    gmixes D m frames ((List.range (T + 1)).map fun t => (List.range m.n).map (likAt m d frames t))
      ((List.range (T + 1)).map fun t => (List.range m.n).map fun i => gammaOf m d frames t i) s =
      .ret ((List.range (T + 1)).map fun t => (List.range m.n).map fun i => (List.range m.gaussians).map fun c => gammaMix m d frames t i c) s := by
  unfold gmixes
  rw [hT]
  refine collect_ret _ _ _ s fun t ht => ?_
  have htl : t < frames.length := by omega
  have hmem : frames.getD t [] ∈ frames := by
    rw [List.getD_eq_getElem?_getD, List.getElem?_eq_getElem htl]; exact List.getElem_mem htl
  rw [bind_of_ret (rd_lt htl [] s)]
  refine collect_ret _ _ _ s fun i hi => ?_
  have hi' : i < m.sts.length := by rw [hm.wf.sts]; exact hi
  have hs := List.getElem?_eq_getElem hi'
  have hms := List.getElem_mem hi'
  rw [bind_of_ret (cell_map_range _ _ _ t i ht hi s), bind_of_ret (cell_map_range _ _ _ t i ht hi s)]
  unfold mixGamma
  rw [bind_of_ret (rd_some hs s)]
  have hl := hlik t (by omega) i hi
  have hcw : coeff m i = weights m.sts[i] := by funext c; simp [coeff, hs]
  have hmx : likAt m d frames t i = ∑ c ∈ Finset.range m.gaussians, coeff m i c * d i (frames.getD t []) c := rfl
  by_cases hg : m.gaussians = 1
  · rw [if_pos hg, pure_def, zero_add, if_pos hl]
    congr 1
    rw [hg]
    simp only [List.range_one, List.map_cons, List.map_nil, gammaMix, share, mixture, hg, Finset.range_one, Finset.sum_singleton]
    rw [hg, Finset.range_one, Finset.sum_singleton] at hmx
    rw [hmx, mul_div_assoc]
  · have hc := collect_ret m.gaussians (frameProb (σ := σ) D m.sts[i] (frames.getD t [])) (fun c => coeff m i c * d i (frames.getD t []) c) s
      (by
        intro c hc
        rw [hcw]
        exact frameProb_ret D _ (hm.ready _ hms).wf frames (d i) (hd i _ hs) _ hmem c (by rw [(hm.wf.state _ hms).1]; exact hc) s)
    rw [if_neg hg, bind_of_ret hc, pure_def, sum_map_range, ← hmx, if_pos hl, List.map_map]
    congr 1
    refine List.map_congr_left fun c _ => ?_
    simp only [Function.comp_apply, gammaMix, share, mixture, hmx, mul_div_assoc]

end Phrase

/-- the likelihoods of a phrase are positive, and one more observation does not make them vanish -/
theorem totals_pos (m : Hmm K) (hm : m.InTraining) (frames : List (List K)) (d : Nat → List K → Nat → K)
    (hd : ∀ x ∈ frames, ∀ i < m.n, ∀ c < m.gaussians, 1 / 10 ^ 180 ≤ d i x c) :
    (∀ t < frames.length, ∀ i < m.n, 1 / 10 ^ 180 ≤ likAt m d frames t i) ∧
    (∀ t < frames.length, 0 < total m.n (start m) (step m) (likAt m d frames) t) ∧
    ∀ t, t + 1 < frames.length → 1 / 10 ^ 300 * total m.n (start m) (step m) (likAt m d frames) t <
      total m.n (start m) (step m) (likAt m d frames) (t + 1) := by
  have h180 : (0 : K) < 1 / 10 ^ 180 := by positivity
  have hlik : ∀ t < frames.length, ∀ i < m.n, 1 / 10 ^ 180 ≤ likAt m d frames t i := by
    intro t ht i hi
    refine likOf_ge m hm.wf hm.ready d _ i hi fun c hc => hd _ ?_ i hi c hc
    rw [List.getD_eq_getElem?_getD, List.getElem?_eq_getElem ht]; exact List.getElem_mem ht
  have hE : ∀ t < frames.length, ∀ i < m.n, 0 ≤ endingIn m.n (start m) (step m) (likAt m d frames) t i := fun t ht i hi =>
    endingIn_nonneg t hm.start_nonneg hm.step_nonneg (fun u hu j hj => h180.le.trans (hlik u (by omega) j hj)) i hi
  have hstep : ∀ t, t + 1 < frames.length → 1 / 10 ^ 180 * (1 / 10 ^ 100) * total m.n (start m) (step m) (likAt m d frames) t ≤
      total m.n (start m) (step m) (likAt m d frames) (t + 1) := fun t ht =>
    total_succ_ge h180.le t (hE t (by omega)) hm.step_nonneg hm.step_sum (hlik (t + 1) ht)
  have hpos : ∀ t < frames.length, 0 < total m.n (start m) (step m) (likAt m d frames) t := by
    intro t
    induction t with
    | zero => exact fun h0 => lt_of_lt_of_le h180 (total_zero_ge hm.start_nonneg hm.start_sum (hlik 0 h0))
    | succ t ih => exact fun ht => lt_of_lt_of_le (mul_pos (by positivity) (ih (by omega))) (hstep t ht)
  refine ⟨hlik, hpos, fun t ht => lt_of_lt_of_le (mul_lt_mul_of_pos_right ?_ (hpos t (by omega))) (hstep t ht)⟩
  rw [one_div_mul_one_div, ← pow_add]
  exact one_div_lt_one_div_of_lt (by positivity) (pow_lt_pow_right₀ (by norm_num) (by norm_num))

/-- the scaling factors are the inverses of the likelihoods of the observations given the previous ones -/
theorem prod_scale (m : Hmm K) (b : Nat → Nat → K) (T : Nat) (hpos : ∀ t ≤ T, total m.n (start m) (step m) b t ≠ 0) :
    ∏ t ∈ Finset.range (T + 1), scale m b t = 1 / total m.n (start m) (step m) b T := by
  induction T with
  | zero => simp [scale, before]
  | succ T ih =>
    rw [Finset.prod_range_succ, ih fun t ht => hpos t (by omega)]
    simp only [scale, before]
    have := hpos T (by omega)
    field_simp

/-- the E step of one phrase, for given likelihoods of its frames -/
theorem forwardBackward_ret (D : Dens K) (log : K → K) (m : Hmm K) (hm : m.InTraining) (frames : List (List K)) (d : Nat → List K → Nat → K)
    (hd : Observes D m frames d) (hge : ∀ x ∈ frames, ∀ i < m.n, ∀ c < m.gaussians, 1 / 10 ^ 180 ≤ d i x c) (hne : frames ≠ []) :
    ∃ (e : EStep K) (c : Nat → K) (m' : Hmm K), forwardBackward D log frames m = .ret (e, - ∑ t ∈ Finset.range frames.length, log (c t)) m' ∧
      (∃ a p b q, a.length = m.n ∧ b.length = m.n ∧ m' = m.scratch a p b q) ∧ e.Exact m d frames ∧ (∀ t < frames.length, 0 < c t) ∧
      ∏ t ∈ Finset.range frames.length, c t = 1 / total m.n (start m) (step m) (likAt m d frames) (frames.length - 1) := by
  obtain ⟨hlik, hpos, hstep⟩ := totals_pos m hm frames d hge
  have h180 : (0 : K) < 1 / 10 ^ 180 := by positivity
  have hlen := List.length_pos_iff.2 hne
  obtain ⟨T, hT⟩ : ∃ T, frames.length = T + 1 := ⟨frames.length - 1, by omega⟩
  obtain ⟨a, p, ha, h1⟩ := forwardPass_ret D log m hm frames hne d hd (hpos 0 hlen) (fun t ht => ⟨hpos t (by omega), hstep t ht⟩)
  have hpos' : ∀ t ≤ T, 0 < total m.n (start m) (step m) (likAt m d frames) t := fun t ht => hpos t (by omega)
  obtain ⟨b, q, hb, h2⟩ := backwardPass_ret m hm a p (likAt m d frames) T (fun t ht => (hpos' t ht).ne')
  refine ⟨⟨frames.length, _, _, _⟩, scale m (likAt m d frames), m.scratch a p b q, ?_, ⟨a, p, b, q, ha, hb, rfl⟩, ⟨rfl, rfl, rfl, rfl⟩, ?_, ?_⟩
  · unfold forwardBackward
    rw [bind_of_ret (get_def m), bind_of_ret (obsMatrix_ret D m hm.wf hm.ready frames d hd m), bind_of_ret h1]
    simp only [hT, Nat.add_sub_cancel] at h2 ⊢
    rw [bind_of_ret h2, bind_of_ret (gammas_ret m frames T hT d hpos' _),
      bind_of_ret (gmixes_ret D m hm frames T hT d hd hpos' (fun t ht i hi => lt_of_lt_of_le h180 (hlik t (by omega) i hi)) _),
      bind_of_ret (epses_ret m hm frames T hT d hpos' _), pure_def]
  · intro t ht
    unfold scale
    refine div_pos ?_ (hpos t ht)
    cases t with
    | zero => exact one_pos
    | succ t => exact hpos t (by omega)
  · rw [hT, Nat.add_sub_cancel, prod_scale m _ T fun t ht => (hpos' t ht).ne']

/-- the posterior probabilities of a phrase, for given likelihoods of its frames -/
theorem posteriors (m : Hmm K) (hm : m.InTraining) (frames : List (List K)) (d : Nat → List K → Nat → K)
    (hge : ∀ x ∈ frames, ∀ i < m.n, ∀ c < m.gaussians, 1 / 10 ^ 180 ≤ d i x c) :
      (∀ t < frames.length, (∀ i < m.n, 0 ≤ gammaOf m d frames t i) ∧ ∑ i ∈ Finset.range m.n, gammaOf m d frames t i = 1 ∧
        ∀ i < m.n, ∑ c ∈ Finset.range m.gaussians, gammaMix m d frames t i c = gammaOf m d frames t i) ∧
      (∀ t, t + 1 < frames.length → (∀ i < m.n, ∀ j < m.n, 0 ≤ xiOf m d frames t i j) ∧
        (∀ i < m.n, ∑ j ∈ Finset.range m.n, xiOf m d frames t i j = gammaOf m d frames t i) ∧
        ∀ j < m.n, ∑ i ∈ Finset.range m.n, xiOf m d frames t i j = gammaOf m d frames (t + 1) j) := by
  obtain ⟨hlik, hpos, hstep⟩ := totals_pos m hm frames d hge
  have h180 : (0 : K) < 1 / 10 ^ 180 := by positivity
  have hpw : ∀ s : Fin (frames.length - 1 + 1) → Fin m.n, frames ≠ [] → 0 ≤ pathWeight (start m) (step m) (likAt m d frames) s := by
    intro s hne
    have := List.length_pos_iff.2 hne
    unfold pathWeight
    refine mul_nonneg (mul_nonneg (hm.start_nonneg _ (s 0).2) (Finset.prod_nonneg fun t _ => hm.step_nonneg _ (s _).2 _ (s _).2))
      (Finset.prod_nonneg fun t _ => h180.le.trans (hlik _ (by have := t.2; omega) _ (s _).2))
  refine ⟨fun t ht => ⟨fun i _ => ?_, ?_, fun i hi => ?_⟩, fun t ht => ⟨fun i _ j _ => ?_, fun i _ => ?_, fun j _ => ?_⟩⟩
  · have hne : frames ≠ [] := by rintro rfl; simp at ht
    unfold gammaOf post
    refine div_nonneg (Finset.sum_nonneg fun s _ => ?_) (hpos _ (by omega)).le
    split
    · exact hpw s hne
    · exact le_rfl
  · exact post_sum _ _ _ _ _ t (hpos _ (by omega)).ne'
  · unfold gammaMix
    rw [← Finset.mul_sum]
    have h1 := hlik t ht i hi
    have : ∑ c ∈ Finset.range m.gaussians, share m.gaussians (coeff m i) (d i (frames.getD t [])) c = 1 := by
      unfold share
      rw [← Finset.sum_div]
      exact div_self (lt_of_lt_of_le h180 h1).ne'
    rw [this, mul_one]
  · have hne : frames ≠ [] := by rintro rfl; simp at ht
    unfold xiOf postStep
    refine div_nonneg (Finset.sum_nonneg fun s _ => ?_) (hpos _ (by omega)).le
    split
    · exact hpw s hne
    · exact le_rfl
  · exact postStep_sum _ _ _ _ _ t i
  · exact postStep_sum_into _ _ _ _ _ t j

/-- C45: the variables that the Baum-Welch algorithm computes for a phrase of any length are the posterior probabilities of the states, of the
    components and of the transitions, defined by sums over all paths; the states' ones sum to 1 in each frame, and the
    transitions out of a state (and into it) sum to that of the state.  Only the forward and backward variables of the model change.
    The returned log-likelihood is minus the sum of the logarithms of numbers whose product is the inverse of the
    likelihood of the phrase. -/
theorem C45_posteriors (D : Dens K) (hD : D.Sound) (log : K → K) (m : Hmm K) (hm : m.InTraining) (frames : List (List K))
    (hf : ∀ x ∈ frames, x.length = m.dim) :
    ∃ d : Nat → List K → Nat → K, Observes D m frames d ∧ (∀ x ∈ frames, ∀ i < m.n, ∀ c < m.gaussians, 1 / 10 ^ 180 ≤ d i x c) ∧
      (frames ≠ [] → ∃ (e : EStep K) (c : Nat → K) (m' : Hmm K), forwardBackward D log frames m = .ret (e, - ∑ t ∈ Finset.range frames.length, log (c t)) m' ∧
      (∃ a p b q, a.length = m.n ∧ b.length = m.n ∧ m' = m.scratch a p b q) ∧ e.Exact m d frames ∧
      ∏ t ∈ Finset.range frames.length, c t = 1 / total m.n (start m) (step m) (likAt m d frames) (frames.length - 1)) ∧
      (∀ t < frames.length, (∀ i < m.n, 0 ≤ gammaOf m d frames t i) ∧ ∑ i ∈ Finset.range m.n, gammaOf m d frames t i = 1 ∧
        ∀ i < m.n, ∑ c ∈ Finset.range m.gaussians, gammaMix m d frames t i c = gammaOf m d frames t i) ∧
      (∀ t, t + 1 < frames.length → (∀ i < m.n, ∀ j < m.n, 0 ≤ xiOf m d frames t i j) ∧
        (∀ i < m.n, ∑ j ∈ Finset.range m.n, xiOf m d frames t i j = gammaOf m d frames t i) ∧
        ∀ j < m.n, ∑ i ∈ Finset.range m.n, xiOf m d frames t i j = gammaOf m d frames (t + 1) j) := by
  obtain ⟨d, hd, hge⟩ := observes_exist D hD m hm.wf hm.ready frames hf
  obtain ⟨h1, h2⟩ := posteriors m hm frames d hge
  refine ⟨d, hd, hge, fun hne => ?_, h1, h2⟩
  obtain ⟨e, c, m', k1, k2, k3, _, k4⟩ := forwardBackward_ret D log m hm frames d hd hge hne
  exact ⟨e, c, m', k1, k2, k3, k4⟩

/-- there are models in training of both kinds, with three states of two components, and phrases for them -/
theorem inTraining_exists (e : Bool) : ∃ m : Hmm ℝ, m.InTraining ∧ m.n = 3 ∧ m.gaussians = 2 ∧ m.ergodic = e ∧ Dens.real.Sound ∧
    m.dim = 2 ∧ ∀ s ∈ m.sts, s.reg = [1 / 1000, 1 / 1000] := by
  obtain ⟨g, g1, g2, g3, g4, g5, g6, g7, g8, g9, g10, g11⟩ := Gmm.usable_exists
  refine ⟨{
    n := 3, gaussians := 2, ergodic := e, est := .full, absReg := 1 / 1000, relReg := 1 / 100, mode := .full, bimodal := true, dim := 2,
    di := 1, window := 4, sts := [g, g, g], prior := [1 / 2, 1 / 4, 1 / 4],
    trans := if e then [1 / 2, 1 / 4, 1 / 4, 0, 1, 0, 1 / 3, 1 / 3, 1 / 3] else [1 / 2, 1 / 2, 1 / 4, 3 / 4, 1, 0], alpha := [0, 0, 0],
    prevAlpha := [0, 0, 0], beta := [0, 0, 0], prevBeta := [0, 0, 0], alpha0 := [], alpha1 := [], alpha2 := [], exitP := [], hier := false,
    started := false, training := true, winMin := 0, winMax := 0, winNorm := 0, buf := CBuf.construct 0 1 4, instant := 0, logLik := 0,
    progress := 0, exitLik := 0, exitRatio := 0, likeliest := 0, outVals := [], outCov := [] },
    ⟨⟨by simp, rfl, fun _ => rfl, by cases e <;> rfl, ?_⟩, ?_, rfl, rfl, ?_, ?_, ?_, ?_, ?_⟩, rfl, rfl, rfl, g7, rfl, ?_⟩
  · intro s hs
    have : s = g := by simpa using hs
    subst this
    exact ⟨g3, g8, g2, g9, g10⟩
  · intro s hs
    have : s = g := by simpa using hs
    subst this
    exact g1.ready
  · intro i hi
    replace hi : i < 3 := hi
    cases e <;> interval_cases i <;> norm_num [start]
  · cases e <;> norm_num [start, Finset.sum_range_succ]
  · intro i hi j hj
    replace hi : i < 3 := hi
    replace hj : j < 3 := hj
    cases e <;> interval_cases i <;> interval_cases j <;> norm_num [step]
  · intro i hi
    replace hi : i < 3 := hi
    cases e <;> interval_cases i <;> norm_num [step, Finset.sum_range_succ]
  · intro he
    cases e
    · rfl
    · cases he
  · intro s hs
    have : s = g := by simpa using hs
    subst this
    exact g11

end Hmm
end Xmm
