import Verif.Lemmas.Smoothing
import Verif.Props.GmmLaws
set_option linter.unusedSimpArgs false
set_option linter.unusedSectionVars false
/- C38, C40: recognition and regression with one mixture. -/
namespace Xmm.Gmm
open Phrase (loop)
open Gauss (rd rd_lt)
open Prog (bind_def pure_def get_def set_def modify_def throw_def undef_def)
open GmmSpec RecSpec
variable {K : Type} [Field K] [LinearOrder K] [IsStrictOrderedRing K]

theorem filterProb_ret {σ : Type} (D : Dens K) (m : Gmm K) (hw : m.WF) (x : List K) (d : Nat → K) (hd : ObsDensities D m x d)
    (c : Nat) (hc : c < m.gaussians) (s : σ) : filterProb D m x [] c s = .ret (weights m c * d c) s := by
  obtain ⟨g, _, hg⟩ := getElem_comp hw hc
  have hcl : c < m.coeffs.length := by rw [hw.coeffs]; exact hc
  have := hd c g hg
  unfold filterProb
  rcases bool_cases m.bimodal with hb | hb
  · simp only [hb, Bool.false_eq_true, if_false] at this ⊢
    unfold obsProb
    rw [if_neg (by omega)]
    simp only [bind_def, rd_lt hcl 0, rd_some hg, call, this, pure_def, weights]
  · simp only [hb, if_true, List.isEmpty_nil] at this ⊢
    unfold obsProbInput
    simp only [hb, Bool.not_true, Bool.false_eq_true, if_false]
    simp only [bind_def, rd_lt hcl 0, rd_some hg, call, this, pure_def, weights]

theorem sumBeta_ret (D : Dens K) (m : Gmm K) (hw : m.WF) (x : List K) (d : Nat → K) (hd : ObsDensities D m x d) :
    sumBeta D x [] m = .ret (mixture m.gaussians (weights m) d)
      { m with beta := (List.range m.gaussians).map fun c => weights m c * d c } := by
  have key : ∃ p s, loop m.gaussians (0 : K) (fun acc c => do
      let m ← Prog.get
      let p ← filterProb D m x [] c
      let _ ← rd m.beta c
      Prog.set { m with beta := m.beta.set c p }
      pure (acc + p)) m = .ret p s ∧ p = mixture m.gaussians (weights m) d ∧
      s = { m with beta := s.beta } ∧ s.beta.length = m.gaussians ∧ ∀ c < m.gaussians, s.beta.getD c 0 = weights m c * d c := by
    refine loop_state m.gaussians (0 : K) _ m (fun t p s => p = mixture t (weights m) d ∧
      s = { m with beta := s.beta } ∧ s.beta.length = m.gaussians ∧ ∀ c < t, s.beta.getD c 0 = weights m c * d c)
      ⟨by simp [mixture], rfl, hw.beta, fun c hc => by omega⟩ ?_
    rintro t ht p s ⟨i1, i2, i3, i4⟩
    have hfp : filterProb D s x [] t s = .ret (weights m t * d t) s := by
      have e : (filterProb D s x [] t : Prog (Gmm K) K) = filterProb D m x [] t := by rw [i2]; rfl
      rw [e]
      exact filterProb_ret D m hw x d hd t ht s
    simp only [bind_def, get_def, hfp, rd_lt (show t < s.beta.length by omega) 0, set_def, pure_def]
    refine ⟨_, _, rfl, ?_, ?_, ?_, ?_⟩
    · rw [i1, mixture, mixture, Finset.sum_range_succ]
    · rw [i2]
    · simpa using i3
    · intro c hc
      simp only
      rw [getD_set _ _ _ _ _ (by omega)]
      by_cases h : c = t
      · rw [if_pos h, h]
      · rw [if_neg h]; exact i4 c (by omega)
  obtain ⟨p, s, h1, h2, h3, h4, h5⟩ := key
  unfold sumBeta
  rw [bind_of_ret (get_def m), h1, h2, h3, eq_map_range_of_getD _ _ _ h4 h5]

theorem divideBeta_ret (m : Gmm K) (n : Nat) (f : Nat → K) (h : m.beta = (List.range n).map f) (z : K) :
    divideBeta n z m = .ret () { m with beta := (List.range n).map fun c => f c / z } := by
  have key : ∃ u s, divideBeta n z m = .ret u s ∧
      s = { m with beta := s.beta } ∧ s.beta.length = n ∧ ∀ c < n, s.beta.getD c 0 = if c < n then f c / z else f c := by
    refine loop_state n () _ m (fun t _ s => s = { m with beta := s.beta } ∧ s.beta.length = n ∧
      ∀ c < n, s.beta.getD c 0 = if c < t then f c / z else f c)
      ⟨rfl, by simp [h], fun c hc => by rw [if_neg (by omega), h, getD_map_range' _ _ _ hc]⟩ ?_
    rintro t ht _ s ⟨i2, i3, i4⟩
    simp only [bind_def, get_def, rd_lt (show t < s.beta.length by omega) 0, set_def]
    refine ⟨_, _, rfl, ?_, by simpa using i3, ?_⟩
    · rw [i2]
    · intro c hc
      simp only
      rw [getD_set _ _ _ _ _ (by omega)]
      by_cases h : c = t
      · rw [if_pos h, h, if_pos (by omega), i4 t ht, if_neg (by omega)]
      · rw [if_neg h, i4 c hc]
        by_cases h' : c < t
        · rw [if_pos h', if_pos (by omega)]
        · rw [if_neg h', if_neg (by omega)]
  obtain ⟨u, s, h1, h3, h4, h5⟩ := key
  rw [h1, h3, eq_map_range_of_getD s.beta n (fun c => f c / z) h4 fun i hi => by rw [h5 i hi, if_pos hi]]

theorem checkTraining_idle {m : Gmm K} (h : m.training = false) : checkTraining m = .ret () m := by
  simp [checkTraining, h]

/-- `likelihood(x)` -/
theorem likelihood_ret (D : Dens K) (log : K → K) (m : Gmm K) (hw : m.WF) (hi : m.training = false) (x : List K) (d : Nat → K)
    (hd : ObsDensities D m x d) {w : Nat} (hist : List K) (hl : Logs m.buf w hist) :
    ∃ b, likelihood D log x [] m = .ret (mixture m.gaussians (weights m) d)
      { m with
        beta := (List.range m.gaussians).map (share m.gaussians (weights m) d)
        buf := b
        instant := mixture m.gaussians (weights m) d
        logLik := avgLast w (hist ++ [log (mixture m.gaussians (weights m) d)]) } ∧
      Logs b w (hist ++ [log (mixture m.gaussians (weights m) d)]) := by
  obtain ⟨b, hb1, hb2⟩ := smooth_ret hl (log (mixture m.gaussians (weights m) d))
  refine ⟨b, ?_, hb2⟩
  unfold likelihood
  rw [bind_of_ret (checkTraining_idle hi), bind_of_ret (sumBeta_ret D m hw x d hd), bind_of_ret (get_def _),
    bind_of_ret (divideBeta_ret _ _ (fun c => weights m c * d c) rfl _), bind_of_ret (modify_def _ _)]
  simp only [bind_def, updateResults, get_def, onBuf, hb1, modify_def, pure_def]
  rfl

/-- the sum of the predictions -/
theorem regression_ret (m : Gmm K) (hw : m.WF) (hi : m.training = false) (hb : m.bimodal = true)
    (ho : ∀ g ∈ m.comps, g.outCov.length = outCells m.mode (m.dim - m.di)) (x : List K) (hx : m.di ≤ x.length)
    (y : Nat → List K) (hy : Predictions m x y) :
    regression x m = .ret () { m with
      outVals := (List.range (m.dim - m.di)).map fun k => ∑ c ∈ Finset.range m.gaussians, m.beta.getD c 0 * (y c).getD k 0
      outCov := (List.range (outCells m.mode (m.dim - m.di))).map fun k => ∑ c ∈ Finset.range m.gaussians,
        m.beta.getD c 0 ^ 2 * ((m.comps[c]?.map fun g => g.outCov.getD k 0).getD 0) } := by
  have key : ∃ acc, loop m.gaussians (List.replicate (m.dim - m.di) (0 : K),
      List.replicate (outCells m.mode (m.dim - m.di)) (0 : K)) (addComponent m x) m = .ret acc m ∧
      acc.1.length = m.dim - m.di ∧ acc.2.length = outCells m.mode (m.dim - m.di) ∧
      (∀ k < m.dim - m.di, acc.1.getD k 0 = ∑ c ∈ Finset.range m.gaussians, m.beta.getD c 0 * (y c).getD k 0) ∧
      ∀ k < outCells m.mode (m.dim - m.di), acc.2.getD k 0 = ∑ c ∈ Finset.range m.gaussians,
        m.beta.getD c 0 ^ 2 * ((m.comps[c]?.map fun g => g.outCov.getD k 0).getD 0) := by
    refine loop_inv m.gaussians _ _ m (fun t (acc : List K × List K) => acc.1.length = m.dim - m.di ∧
      acc.2.length = outCells m.mode (m.dim - m.di) ∧
      (∀ k < m.dim - m.di, acc.1.getD k 0 = ∑ c ∈ Finset.range t, m.beta.getD c 0 * (y c).getD k 0) ∧
      ∀ k < outCells m.mode (m.dim - m.di), acc.2.getD k 0 = ∑ c ∈ Finset.range t,
        m.beta.getD c 0 ^ 2 * ((m.comps[c]?.map fun g => g.outCov.getD k 0).getD 0))
      ⟨by simp, by simp, fun k hk => by rw [getD_replicate]; simp, fun k hk => by rw [getD_replicate]; simp⟩ ?_
    rintro t ht ⟨av, ac⟩ ⟨i1, i2, i3, i4⟩
    obtain ⟨g, hg, hg'⟩ := getElem_comp hw ht
    obtain ⟨w, gd, gdi, _, gb⟩ := hw.comp g hg
    have hbg : g.bimodal = true := gb.trans hb
    obtain ⟨y', e1, e2, _⟩ := C32_regression g w hbg (w.le hbg) x (by omega)
    have hyt := hy t g hg'
    rw [e1] at hyt
    obtain rfl : y' = y t := by injection hyt
    have hlen : t < m.beta.length := by rw [hw.beta]; exact ht
    obtain ⟨r1, a1, a2, a3⟩ := addScaled_ret (m.dim - m.di) (m.beta.getD t 0) (y t) av m (by rw [e2, gd, gdi]) (by simpa using i1.ge)
    obtain ⟨r2, b1, b2, b3⟩ := addScaled_ret (outCells m.mode (m.dim - m.di)) (m.beta.getD t 0 * m.beta.getD t 0) g.outCov ac m
      (by rw [ho g hg]) (by simpa using i2.ge)
    refine ⟨(r1, r2), ?_, by rw [a2]; exact i1, by rw [b2]; exact i2, ?_, ?_⟩
    · unfold addComponent
      simp only [bind_def, rd_some hg', call, e1, rd_lt hlen 0, a1, b1, pure_def]
    · intro k hk
      simp only
      rw [a3 k, if_pos hk, i3 k hk, Finset.sum_range_succ]
    · intro k hk
      simp only
      rw [b3 k, if_pos hk, i4 k hk, Finset.sum_range_succ, hg']
      simp only [Option.map_some, Option.getD_some, pow_two]
  obtain ⟨acc, h1, h2, h3, h4, h5⟩ := key
  unfold regression
  rw [bind_of_ret (checkTraining_idle hi), bind_of_ret (get_def m), bind_of_ret h1, modify_def,
    eq_map_range_of_getD _ _ _ h2 h4, eq_map_range_of_getD _ _ _ h3 h5]

/-- `filter(x)` computes the posterior probabilities of the components, the likelihood, its smoothed logarithm and the weighted
    sums of predictions and covariances; nothing else changes. -/
theorem filter_ret (D : Dens K) (log : K → K) (m : Gmm K) (hm : m.CanFilter) (x : List K) (hx : m.bimodal = true → m.di ≤ x.length)
    (d : Nat → K) (hd : ObsDensities D m x d) (y : Nat → List K) (hy : m.bimodal = true → Predictions m x y)
    (hist : List K) (hl : Logs m.buf m.window hist) :
    ∃ m', filter D log x m = .ret (mixture m.gaussians (weights m) d) m' ∧ m.Filtered log hist d y m' ∧
      Logs m'.buf m'.window (hist ++ [log (mixture m.gaussians (weights m) d)]) := by
  obtain ⟨b, h1, h2⟩ := likelihood_ret D log m hm.ready.wf hm.idle x d hd hist hl
  unfold filter
  rw [bind_of_ret (checkTraining_idle hm.idle), bind_of_ret h1, bind_of_ret (get_def _)]
  generalize hm1 : ({ m with
      beta := (List.range m.gaussians).map (share m.gaussians (weights m) d)
      buf := b
      instant := mixture m.gaussians (weights m) d
      logLik := avgLast m.window (hist ++ [log (mixture m.gaussians (weights m) d)]) } : Gmm K) = m1
  have e0 : m1.bimodal = m.bimodal := by subst hm1; rfl
  rcases bool_cases m.bimodal with hb | hb
  · rw [if_neg (by simp [e0, hb]), pure_def]
    refine ⟨_, rfl, ?_, by subst hm1; exact h2⟩
    subst hm1
    refine ⟨rfl, rfl, rfl, rfl, fun _ => ⟨rfl, rfl⟩, fun h => ?_, fun h => ?_⟩
    · rw [hb] at h; cases h
    · rw [hb] at h; cases h
  · rw [if_pos (by rw [e0, hb])]
    have hw1 : m1.WF := by
      obtain ⟨p1, p2, p3, p4, p5⟩ := hm.ready.wf
      subst hm1
      exact ⟨p1, p2, p3, by simp, p5⟩
    have hbeta : ∀ c ∈ Finset.range m.gaussians, m1.beta.getD c 0 = share m.gaussians (weights m) d c := by
      intro c hc
      subst hm1
      exact getD_map_range' _ _ _ (Finset.mem_range.1 hc)
    have := regression_ret m1 hw1 (by subst hm1; exact hm.idle) (by subst hm1; exact hb)
      (by subst hm1; exact hm.out hb) x (by subst hm1; exact hx hb) y (by subst hm1; exact hy hb)
    rw [bind_of_ret this, pure_def]
    have e1 : m1.gaussians = m.gaussians := by subst hm1; rfl
    have e2 : m1.dim - m1.di = m.dim - m.di := by subst hm1; rfl
    have e3 : m1.mode = m.mode := by subst hm1; rfl
    have e4 : m1.comps = m.comps := by subst hm1; rfl
    refine ⟨_, rfl, ⟨?_, ?_, ?_, ?_, fun h => ?_, fun _ => ?_, fun _ => ?_⟩, ?_⟩
    · subst hm1; rfl
    · subst hm1; rfl
    · subst hm1; rfl
    · subst hm1; rfl
    · rw [hb] at h; cases h
    · simp only [e1, e2]
      refine List.map_congr_left fun k _ => ?_
      exact Finset.sum_congr rfl fun c hc => by rw [hbeta c hc]
    · simp only [e1, e2, e3, e4]
      refine List.map_congr_left fun k _ => ?_
      exact Finset.sum_congr rfl fun c hc => by rw [hbeta c hc]
    · subst hm1; exact h2

end Xmm.Gmm
