import Verif.Props.GmmEm
import Verif.Props.GaussianRegular
import Mathlib.Tactic.FieldSimp
import Mathlib.Algebra.Order.BigOperators.Ring.Finset
set_option linter.unusedSimpArgs false
set_option linter.unusedSectionVars false
/- C36, C37: mixture coefficients and covariances after expectation-maximisation. -/
namespace Xmm

/-- the likelihood functions of the code, on real numbers, are defined and bounded below (C29) -/
theorem Dens.real_sound : Dens.real.Sound := by
  have wf : ∀ g : Gauss ℝ, g.WF → g.toFl.WF := fun g w =>
    ⟨by simp [Gauss.toFl, w.mean], by simp [Gauss.toFl, w.cov], by simp [Gauss.toFl, w.inv],
      fun hb => by have := w.invIn hb; simp [Gauss.toFl, this], w.le⟩
  have nz : ∀ x : ℝ, x ≠ 0 → Fl.exact.eq (.fin x) (Fl.exact.lit 0) = false := by
    intro x hx; simp [Fl.exact, Fl.eq, hx]
  refine ⟨fun g w obs ho hd => ?_, fun g w hb x hx hd => ?_, fun g w hb x y hx hy hd => ?_⟩
  · obtain ⟨p, hp⟩ := (C29_likelihood_defined Fl.exact g.toFl (wf g w) (obs.map .fin) (by simpa [Gauss.toFl] using ho)).2
      (nz _ hd)
    obtain ⟨x, rfl, hx⟩ := C29_likelihood_floor Fl.exact exact_ieee _ _ _ _ hp
    exact ⟨x, by simp only [Dens.real, Dens.onReals, hp], hx⟩
  · obtain ⟨p, hp⟩ := (C29_likelihood_input_defined Fl.exact g.toFl (wf g w) (x.map .fin)
      (by simpa [Gauss.toFl] using hx)).2.2 hb (nz _ hd)
    obtain ⟨z, rfl, hz⟩ := C29_likelihood_input_floor Fl.exact exact_ieee _ _ _ _ hp
    exact ⟨z, by simp only [Dens.real, Dens.onReals, hp], hz⟩
  · obtain ⟨p, hp⟩ := (C29_likelihood_bimodal_defined Fl.exact g.toFl (wf g w) (x.map .fin) (y.map .fin)
      (by simpa [Gauss.toFl] using hx) (by simpa [Gauss.toFl] using hy)).2.2 hb (nz _ hd)
    obtain ⟨z, rfl, hz⟩ := C29_likelihood_bimodal_floor Fl.exact exact_ieee _ _ _ _ _ hp
    exact ⟨z, by simp only [Dens.real, Dens.onReals, hp], hz⟩

namespace Gmm
open Phrase (loop)
open Gauss (rd resize copyInto rd_lt)
open Prog (bind_def pure_def get_def set_def modify_def throw_def undef_def)
open GmmSpec
variable {K : Type} [Field K] [LinearOrder K] [IsStrictOrderedRing K]

/-- on a ready mixture every density is defined and positive -/
theorem densities_exist (D : Dens K) (hD : D.Sound) (m : Gmm K) (hr : m.Ready) (frames : List (List K))
    (hf : ∀ x ∈ frames, x.length = m.dim) :
    ∃ dens : List K → Nat → K, Densities D m frames dens ∧ ∀ x ∈ frames, ∀ c < m.gaussians, 0 < dens x c := by
  classical
  have key : ∀ x ∈ frames, ∀ c < m.gaussians, ∃ p : K, (∀ g, m.comps[c]? = some g →
      (if m.bimodal then D.bimodal (x.take m.di) (x.drop m.di) else D.joint x) g = .ret p g) ∧ 0 < p := by
    intro x hx c hc
    obtain ⟨g, hg, hg'⟩ := getElem_comp hr.wf hc
    obtain ⟨w, d, di, _, b⟩ := hr.wf.comp g hg
    have hdet := (hr.det g hg).1
    have hl := hf x hx
    have h180 : (0 : K) < 1 / 10 ^ 180 := by positivity
    rcases bool_cases m.bimodal with hb | hb
    · obtain ⟨p, h1, h2⟩ := hD.joint g w x (by omega) hdet
      refine ⟨p, fun g' h' => ?_, lt_of_lt_of_le h180 h2⟩
      rw [hg'] at h'; cases h'
      simp only [hb, Bool.false_eq_true, if_false, h1]
    · have hle := w.le (b.trans hb)
      obtain ⟨p, h1, h2⟩ := hD.bimodal g w (b.trans hb) (x.take m.di) (x.drop m.di)
        (by simp; omega) (by simp; omega) hdet
      refine ⟨p, fun g' h' => ?_, lt_of_lt_of_le h180 h2⟩
      rw [hg'] at h'; cases h'
      simp only [hb, if_true, h1]
  refine ⟨fun x c => if h : x ∈ frames ∧ c < m.gaussians then (key x h.1 c h.2).choose else 0, ?_, ?_⟩
  · intro x hx c g hg
    have hc : c < m.gaussians := by rw [← hr.wf.comps]; exact (List.getElem?_eq_some_iff.1 hg).1
    simp only [dif_pos (And.intro hx hc)]
    exact (key x hx c hc).choose_spec.1 g hg
  · intro x hx c hc
    simp only [dif_pos (And.intro hx hc)]
    exact (key x hx c hc).choose_spec.2

section Laws
variable {n : Nat} {w : Nat → K} {dens : List K → Nat → K} {frames : List (List K)}

theorem score_pos {d : Nat → K} {c : Nat} (hw : 0 ≤ w c) (hd : 0 < d c) : 0 < score w d c := by
  unfold score
  split
  · positivity
  · next h => exact lt_of_le_of_ne (mul_nonneg hw hd.le) (Ne.symm h)

theorem scores_pos {d : Nat → K} (hn : 1 ≤ n) (hw : ∀ c < n, 0 ≤ w c) (hd : ∀ c < n, 0 < d c) :
    0 < ∑ c ∈ Finset.range n, score w d c :=
  Finset.sum_pos (fun c hc => score_pos (hw c (Finset.mem_range.1 hc)) (hd c (Finset.mem_range.1 hc))) ⟨0, by simp; omega⟩

theorem resp_pos {d : Nat → K} {c : Nat} (hc : c < n) (hw : ∀ c < n, 0 ≤ w c) (hd : ∀ c < n, 0 < d c) :
    0 < resp n w d c := div_pos (score_pos (hw c hc) (hd c hc)) (scores_pos (by omega) hw hd)

theorem resp_sum {d : Nat → K} (hn : 1 ≤ n) (hw : ∀ c < n, 0 ≤ w c) (hd : ∀ c < n, 0 < d c) :
    ∑ c ∈ Finset.range n, resp n w d c = 1 := by
  simp only [resp, ← Finset.sum_div]
  exact div_self (scores_pos hn hw hd).ne'

variable (hw : ∀ c < n, 0 ≤ w c) (hd : ∀ x ∈ frames, ∀ c < n, 0 < dens x c)
include hw hd

theorem wsum_nonneg {c : Nat} (hc : c < n) (f : List K → K) (hf : ∀ x, 0 ≤ f x) : 0 ≤ wsum n w dens frames c f := by
  unfold wsum
  apply List.sum_nonneg
  intro y hy
  obtain ⟨x, hx, rfl⟩ := List.mem_map.1 hy
  exact mul_nonneg (resp_pos hc hw (hd x hx)).le (hf x)

theorem wsum_one_pos {c : Nat} (hc : c < n) (hne : frames ≠ []) : 0 < wsum n w dens frames c fun _ => 1 := by
  cases frames with
  | nil => exact absurd rfl hne
  | cons x xs =>
    have h1 := resp_pos hc hw (hd x (by simp))
    have h2 := wsum_nonneg (frames := xs) hw (fun y hy => hd y (by simp [hy])) hc (fun _ => 1) (fun _ => zero_le_one)
    simp only [wsum, List.map_cons, List.sum_cons, mul_one] at h2 ⊢
    linarith

theorem wsum_total (hn : 1 ≤ n) : ∑ c ∈ Finset.range n, wsum n w dens frames c (fun _ => 1) = (frames.length : K) := by
  induction frames with
  | nil => simp [wsum]
  | cons x xs ih =>
    have := ih fun y hy => hd y (by simp [hy])
    simp only [wsum, List.map_cons, List.sum_cons, Finset.sum_add_distrib, mul_one] at this ⊢
    rw [this, resp_sum hn hw (hd x (by simp))]
    push_cast [List.length_cons]
    ring

end Laws

theorem coeffs_distribution {n : Nat} {l : List K} (hl : l.length = n) (f : Nat → K) (h : ∀ c < n, l.getD c 0 = f c)
    (h0 : ∀ c < n, 0 ≤ f c) (h1 : ∑ c ∈ Finset.range n, f c = 1) : IsDistribution l := by
  have : l = (List.range n).map f := by
    refine List.ext_getElem (by simp [hl]) fun i a b => ?_
    have := h i (by omega)
    rw [List.getD_eq_getElem?_getD, List.getElem?_eq_getElem a, Option.getD_some] at this
    simp [this]
  subst this
  refine ⟨fun x hx => ?_, by rw [sum_map_range, h1]⟩
  obtain ⟨c, hc, rfl⟩ := List.mem_map.1 hx
  exact h0 c (List.mem_range.1 hc)

theorem weights_nonneg {m : Gmm K} (h : IsDistribution m.coeffs) (c : Nat) : 0 ≤ weights m c := by
  unfold weights
  rw [List.getD_eq_getElem?_getD]
  cases hc : m.coeffs[c]? with
  | none => simp
  | some x => exact h.1 x (List.mem_of_getElem? hc)

theorem mode_cases' (m : CovMode) : m = .full ∨ m = .diagonal := by cases m <;> simp

/-- C36: an iteration of expectation-maximisation on a mixture whose coefficients are a probability distribution has no undefined
    behaviour, and whether it returns or throws, it leaves positive coefficients with sum 1.  When it returns, the
    mixture is ready for the next iteration on the same data, so this holds for all iterations. -/
theorem C36_em_update (D : Dens K) (hD : D.Sound) (log : K → K) (data : KData K) (m : Gmm K) (hr : m.Ready)
    (ht : m.Trains data) :
    ∃ m', (emUpdate D log data m).stateAfter = some m' ∧ IsDistribution m'.coeffs ∧ (∀ x ∈ m'.coeffs, 0 < x) ∧
      (∀ ll s, emUpdate D log data m = .ret ll s → m'.Ready ∧ m'.Trains data) := by
  obtain ⟨dens, hd, hp⟩ := densities_exist D hD m hr data.frames ht.frame
  obtain ⟨m', hu, h⟩ := C67_em_update_exact D log data m hr.wf ht dens hd
  have hw : ∀ c < m.gaussians, 0 ≤ weights m c := fun c _ => weights_nonneg hr.coeffs c
  have hlen : (0 : K) < (data.frames.length : K) := by
    have := List.length_pos_iff.2 ht.some
    exact_mod_cast this
  have hg : m'.gaussians = m.gaussians := by rw [hu.same]
  have hcl : m'.coeffs.length = m.gaussians := by rw [hu.wf.coeffs, hg]
  have hdist : IsDistribution m'.coeffs := by
    refine coeffs_distribution hcl _ hu.coeff (fun c hc => ?_) ?_
    · exact div_nonneg (wsum_one_pos hw hp hc ht.some).le hlen.le
    · rw [← Finset.sum_div, wsum_total hw hp hr.wf.pos]
      exact div_self hlen.ne'
  refine ⟨m', ?_, hdist, fun x hx => ?_, fun ll s hs => ?_⟩
  · rcases h with ⟨h, _⟩ | h
    · rw [h]; rfl
    · rw [h]; rfl
  · obtain ⟨c, hc, rfl⟩ := List.getElem_of_mem hx
    have := hu.coeff c (by omega)
    rw [List.getD_eq_getElem?_getD, List.getElem?_eq_getElem hc, Option.getD_some] at this
    rw [this]
    exact div_pos (wsum_one_pos hw hp (by omega) ht.some) hlen
  · rcases h with ⟨h, hdet⟩ | h
    · refine ⟨⟨hu.wf, hdist, hdet⟩, ⟨?_, ht.some, ?_⟩⟩
      · rw [hu.same]; exact ht.frame
      · rw [hu.same]; exact ht.reg
    · rw [h] at hs; cases hs

/-- a mixture reached by training: any number of iterations from a ready mixture, each of which returned -/
inductive TrainedFrom (D : Dens K) (log : K → K) (data : KData K) (m0 : Gmm K) : Gmm K → Prop where
  | start : TrainedFrom D log data m0 m0
  | step {m m' : Gmm K} {ll : K} : TrainedFrom D log data m0 m → emUpdate D log data m = .ret ll m' →
      TrainedFrom D log data m0 m'

/-- C36 for every number of iterations -/
theorem C36_all_iterations (D : Dens K) (hD : D.Sound) (log : K → K) (data : KData K) (m0 m : Gmm K) (hr : m0.Ready)
    (ht : m0.Trains data) (h : TrainedFrom D log data m0 m) :
    m.Ready ∧ m.Trains data ∧ emUpdate D log data m ≠ .ub := by
  have key : m.Ready ∧ m.Trains data := by
    induction h with
    | start => exact ⟨hr, ht⟩
    | step _ hs ih =>
      obtain ⟨m1, e, _, _, h4⟩ := C36_em_update D hD log data _ ih.1 ih.2
      have := h4 _ _ hs
      rw [hs] at e
      cases e
      exact this
  refine ⟨key.1, key.2, fun hub => ?_⟩
  obtain ⟨m1, e, _⟩ := C36_em_update D hD log data m key.1 key.2
  rw [hub] at e
  cases e

/-- the weighted covariance of a linear form -/
theorem wcov_quad {n : Nat} {w : Nat → K} {dens : List K → Nat → K} {frames : List (List K)} (c dim : Nat) (v : Nat → K) :
    ∑ i ∈ Finset.range dim, ∑ j ∈ Finset.range dim, v i * wcov n w dens frames c i j * v j =
      wavg n w dens frames c fun x =>
        (∑ i ∈ Finset.range dim, v i * (x.getD i 0 - wmean n w dens frames c i)) ^ 2 := by
  have key : ∀ (μ : Nat → K) (fr : List (List K)), ∑ i ∈ Finset.range dim, ∑ j ∈ Finset.range dim,
      v i * wsum n w dens fr c (fun x => (x.getD i 0 - μ i) * (x.getD j 0 - μ j)) * v j =
      wsum n w dens fr c fun x => (∑ i ∈ Finset.range dim, v i * (x.getD i 0 - μ i)) ^ 2 := by
    intro μ fr
    induction fr with
    | nil => simp [wsum]
    | cons x xs ih =>
      simp only [wsum, List.map_cons, List.sum_cons] at ih ⊢
      rw [← ih, pow_two, Finset.sum_mul_sum, Finset.mul_sum, ← Finset.sum_add_distrib]
      refine Finset.sum_congr rfl fun i _ => ?_
      rw [Finset.mul_sum, ← Finset.sum_add_distrib]
      refine Finset.sum_congr rfl fun j _ => ?_
      ring
  unfold wcov
  conv_rhs => unfold wavg
  rw [← key, Finset.sum_div]
  refine Finset.sum_congr rfl fun i _ => ?_
  rw [Finset.sum_div]
  refine Finset.sum_congr rfl fun j _ => ?_
  unfold wavg
  ring

/-- the covariances after an update -/
theorem updated_regularised {data : KData K} {m m1 : Gmm K} (hc0 : IsDistribution m.coeffs) (ht : m.Trains data) {dens : List K → Nat → K}
    (hp : ∀ x ∈ data.frames, ∀ c < m.gaussians, 0 < dens x c) (hu : m.Updated data.frames dens m1) (g : Gauss K)
    (hg : g ∈ m1.comps) :
    (∀ i < m.dim, ∀ j < m.dim, g.covAt i j = g.covAt j i) ∧
    (∀ v : Nat → K, ∑ i ∈ Finset.range m.dim, m.reg.getD i 0 * v i ^ 2 ≤
      ∑ i ∈ Finset.range m.dim, ∑ j ∈ Finset.range m.dim, v i * g.covAt i j * v j) ∧
    (∀ i < m.dim, m.reg.getD i 0 ≤ g.covAt i i) ∧
    (m.mode = .diagonal → ∀ i < m.dim, ∀ j < m.dim, i ≠ j → g.covAt i j = 0) := by
  have hw : ∀ c < m.gaussians, 0 ≤ weights m c := fun c _ => weights_nonneg hc0 c
  obtain ⟨c, hc, rfl⟩ := List.getElem_of_mem hg
  have hcg : c < m.gaussians := by rw [hu.wf.comps, hu.same] at hc; exact hc
  have hcov := hu.cov c _ (List.getElem?_eq_getElem hc)
  have avg : ∀ f : List K → K, (∀ x, 0 ≤ f x) → 0 ≤ wavg m.gaussians (weights m) dens data.frames c f := fun f hf =>
    div_nonneg (wsum_nonneg hw hp hcg f hf) (wsum_one_pos hw hp hcg ht.some).le
  have var : ∀ i, 0 ≤ wcov m.gaussians (weights m) dens data.frames c i i := fun i =>
    avg _ fun x => mul_self_nonneg _
  have hvar : ∀ i < m.dim, m.reg.getD i 0 ≤ (m1.comps[c]).covAt i i := by
    intro i hi
    rw [hcov i hi i hi]
    simp only [ne_eq, not_true_eq_false, and_false, if_false, if_true]
    linarith [var i]
  have hdiag : m.mode = .diagonal → ∀ i < m.dim, ∀ j < m.dim, i ≠ j → (m1.comps[c]).covAt i j = 0 := by
    intro hm i hi j hj hij
    rw [hcov i hi j hj, if_pos ⟨hm, hij⟩, if_neg hij, add_zero]
  refine ⟨fun i hi j hj => ?_, fun v => ?_, hvar, hdiag⟩
  · rw [hcov i hi j hj, hcov j hj i hi, wcov_comm]
    by_cases hij : i = j
    · subst hij; rfl
    · rw [if_neg hij, if_neg (Ne.symm hij)]
      simp only [ne_eq, hij, Ne.symm hij, not_false_eq_true]
  · rcases mode_cases' m.mode with hm | hm
    · have e : ∑ i ∈ Finset.range m.dim, ∑ j ∈ Finset.range m.dim, v i * (m1.comps[c]).covAt i j * v j =
          (∑ i ∈ Finset.range m.dim, ∑ j ∈ Finset.range m.dim,
            v i * wcov m.gaussians (weights m) dens data.frames c i j * v j) +
          ∑ i ∈ Finset.range m.dim, m.reg.getD i 0 * v i ^ 2 := by
        rw [← Finset.sum_add_distrib]
        refine Finset.sum_congr rfl fun i hi => ?_
        have hi' := Finset.mem_range.1 hi
        have : ∑ j ∈ Finset.range m.dim, v i * (m1.comps[c]).covAt i j * v j =
            ∑ j ∈ Finset.range m.dim, (v i * wcov m.gaussians (weights m) dens data.frames c i j * v j +
              if i = j then m.reg.getD i 0 * v i ^ 2 else 0) := by
          refine Finset.sum_congr rfl fun j hj => ?_
          rw [hcov i hi' j (Finset.mem_range.1 hj), if_neg (by simp [hm])]
          by_cases hij : i = j
          · subst hij; simp only [if_true]; ring
          · simp only [hij, if_false]; ring
        rw [this, Finset.sum_add_distrib, Finset.sum_ite_eq, if_pos hi]
      rw [e, wcov_quad]
      linarith [avg _ fun x => sq_nonneg (∑ i ∈ Finset.range m.dim,
        v i * (x.getD i 0 - wmean m.gaussians (weights m) dens data.frames c i))]
    · refine Finset.sum_le_sum fun i hi => ?_
      have hi' := Finset.mem_range.1 hi
      rw [Finset.sum_eq_single i]
      · have := mul_le_mul_of_nonneg_right (hvar i hi') (sq_nonneg (v i))
        calc _ ≤ _ := this
          _ = _ := by ring
      · intro j hj hji
        rw [hdiag hm i hi' j (Finset.mem_range.1 hj) (Ne.symm hji)]
        ring
      · intro h0; exact absurd hi h0

/-- C37: after an iteration of expectation-maximisation (whether it returns or throws) every covariance is symmetric; its
    quadratic form is at least the one of the regularisation; each variance is at least the regularisation of its
    dimension; and in Diagonal mode the covariances of different dimensions are zero. -/
theorem C37_regularised (D : Dens K) (hD : D.Sound) (log : K → K) (data : KData K) (m m' : Gmm K) (hr : m.Ready)
    (ht : m.Trains data) (h : (emUpdate D log data m).stateAfter = some m') (g : Gauss K) (hg : g ∈ m'.comps) :
    (∀ i < m.dim, ∀ j < m.dim, g.covAt i j = g.covAt j i) ∧
    (∀ v : Nat → K, ∑ i ∈ Finset.range m.dim, m.reg.getD i 0 * v i ^ 2 ≤
      ∑ i ∈ Finset.range m.dim, ∑ j ∈ Finset.range m.dim, v i * g.covAt i j * v j) ∧
    (∀ i < m.dim, m.reg.getD i 0 ≤ g.covAt i i) ∧
    (m.mode = .diagonal → ∀ i < m.dim, ∀ j < m.dim, i ≠ j → g.covAt i j = 0) := by
  obtain ⟨dens, hd, hp⟩ := densities_exist D hD m hr data.frames ht.frame
  obtain ⟨m1, hu, hrun⟩ := C67_em_update_exact D log data m hr.wf ht dens hd
  have : m1 = m' := by
    rcases hrun with ⟨hrun, _⟩ | hrun
    · rw [hrun] at h; cases h; rfl
    · rw [hrun] at h; cases h; rfl
  subst this
  exact updated_regularised hr.coeffs ht hp hu g hg

/-- C67: when the regularisation is at least 1e-9 for every dimension (the default is 1e-3), an iteration never throws: it returns
    the log-likelihood of the data, the covariances are inverted and the determinants are exact and positive.  So
    training cannot fail because of a covariance matrix. -/
theorem C67_never_fails (D : Dens K) (hD : D.Sound) (log : K → K) (data : KData K) (m : Gmm K) (hr : m.Ready)
    (ht : m.Trains data) (hreg : ∀ i < m.dim, 1 / 10 ^ 9 ≤ m.reg.getD i 0) :
    ∃ ll m', emUpdate D log data m = .ret ll m' ∧ m'.Ready ∧ m'.Trains data ∧ m'.reg = m.reg ∧ m'.dim = m.dim ∧
      ∀ g ∈ m'.comps, g.det = g.sigma.det ∧ 0 < g.det := by
  classical
  obtain ⟨dens, hd, hp⟩ := densities_exist D hD m hr data.frames ht.frame
  obtain ⟨m2, hu, run⟩ := emUpdate_run D log data m hr.wf ht dens hd
  have hdim : m2.dim = m.dim := by rw [hu.same]
  have hregm : m2.reg = m.reg := by rw [hu.same]
  have hinv : ∀ g ∈ m2.comps, ∃ g', Gauss.updateInverseCovariance g = .ret () g' ∧ g'.det = g'.sigma.det ∧ 0 < g'.det := by
    intro g hg
    obtain ⟨w, d, _⟩ := hu.wf.comp g hg
    obtain ⟨h1, h2, _⟩ := updated_regularised hr.coeffs ht hp hu g hg
    have hgd : g.dim = m.dim := d.trans hdim
    obtain ⟨g', e1, e2, e3, _⟩ := C68_gaussian_inverts g w ⟨by rw [hgd]; exact h1, fun v => by
      rw [hgd]
      refine le_trans ?_ (h2 v)
      rw [Finset.mul_sum]
      exact Finset.sum_le_sum fun i hi => mul_le_mul_of_nonneg_right (hreg i (Finset.mem_range.1 hi)) (sq_nonneg _)⟩
    exact ⟨g', e1, e2, e3⟩
  have hret := eachComp_ret Gauss.updateInverseCovariance
    (fun g => if hg : g ∈ m2.comps then (hinv g hg).choose else g) m2 (by
      intro g hg
      rw [dif_pos hg]
      exact (hinv g hg).choose_spec.1)
  have hrun : ∃ ll, emUpdate D log data m = .ret ll { m2 with
      comps := m2.comps.map fun g => if hg : g ∈ m2.comps then (hinv g hg).choose else g } := by
    refine ⟨(data.frames.map fun x => log (∑ c ∈ Finset.range m.gaussians, score (weights m) (dens x) c)).sum, ?_⟩
    rw [run]
    simp only [bind_def, updateInverseCovariances, hret, pure_def]
  obtain ⟨ll, hrun⟩ := hrun
  obtain ⟨m', e, _, _, h4⟩ := C36_em_update D hD log data m hr ht
  have h5 := h4 _ _ hrun
  rw [hrun] at e
  cases e
  refine ⟨ll, _, hrun, h5.1, h5.2, hregm, hdim, fun g' hg' => ?_⟩
  obtain ⟨g, hg, rfl⟩ := List.mem_map.1 hg'
  rw [dif_pos hg]
  exact (hinv g hg).choose_spec.2

/-- C37: the regularisation that training uses is at least the absolute regularisation for every dimension -/
theorem C37_regularisation_floor (m : Gmm K) (sd : List K) : ∀ r ∈ regularization m sd, m.absReg ≤ r := by
  intro r hr
  obtain ⟨s, _, rfl⟩ := List.mem_map.1 hr
  exact le_max_left _ _

/-- Non-vacuity: a two-component mixture in Full mode, dimension 1, ready for training, with the likelihood of the code. -/
example : ∃ (m : Gmm ℝ) (data : KData ℝ), m.Ready ∧ m.Trains data ∧ Dens.real.Sound ∧ data.frames.length = 3 ∧
    ∀ i < m.dim, (1 : ℝ) / 10 ^ 9 ≤ m.reg.getD i 0 := by
  let g : ℝ → Gauss ℝ := fun μ => {
    bimodal := false, dim := 1, dimMin := 1, di := 0, diMax := 0, mode := .full, mean := [μ], cov := [1], inv := [1], det := 1,
    invIn := [], detIn := 1, outCov := [] }
  refine ⟨{
    gaussians := 2, mode := .full, absReg := 1 / 1000, relReg := 1 / 100, bimodal := false, dim := 1, di := 0, window := 1,
    comps := [g 0, g 4], coeffs := [1 / 4, 3 / 4], beta := [0, 0], reg := [1 / 1000], training := false,
    buf := CBuf.construct 0 1 1, instant := 0, logLik := 0, outVals := [], outCov := [] }, ⟨1, [[[0], [1]], [[5]]]⟩,
    ⟨⟨by simp, rfl, rfl, rfl, ?_⟩, ⟨by intro x hx; simp at hx; rcases hx with rfl | rfl <;> norm_num, by norm_num⟩, ?_⟩,
    ⟨?_, by simp [KData.frames], rfl⟩, Dens.real_sound, rfl, ?_⟩
  · intro g' hg'
    simp only [List.mem_cons, List.not_mem_nil, or_false] at hg'
    rcases hg' with rfl | rfl <;> exact ⟨⟨rfl, rfl, rfl, by simp [g], by simp [g]⟩, rfl, rfl, rfl, rfl⟩
  · intro g' hg'
    simp only [List.mem_cons, List.not_mem_nil, or_false] at hg'
    rcases hg' with rfl | rfl <;> simp [g]
  · intro x hx
    simp [KData.frames] at hx
    rcases hx with rfl | rfl | rfl <;> rfl
  · intro i hi
    have : i = 0 := by simp only at hi; omega
    subst this
    simp only [List.getD_cons_zero]
    norm_num

end Gmm
end Xmm
