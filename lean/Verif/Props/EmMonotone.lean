import Verif.Spec.EmMonotone
import Verif.Lemmas.FitGain
import Verif.Props.GmmInit
import Mathlib.Analysis.Complex.ExponentialBounds
import Mathlib.Analysis.Real.Pi.Bounds
set_option linter.unusedSimpArgs false
set_option linter.unusedSectionVars false
/- C94: the log-likelihood from one iteration to the next. -/
namespace Xmm
open Prog (bind_def pure_def get_def set_def modify_def throw_def undef_def)
open GmmSpec

/-- the density of a distribution whose inverse is up to date -/
theorem Gauss.UpToDate.likelihood {g : Gauss ℝ} (h : g.UpToDate) (obs : List ℝ) (ho : g.dim ≤ obs.length) :
    Gauss.likelihood Fl.exact (obs.map .fin) g.toFl = .ret (.fin (max likelihoodFloor (normalPdf g.sigma (g.offset obs)))) g.toFl := by
  have hdet : 0 < g.det := h.det ▸ h.pos.det_pos
  have hinv : g.sigma⁻¹ = g.precision := Matrix.inv_eq_left_inv h.inv
  rw [Xmm.likelihood_exact g h.wf obs ho hdet.ne']
  simp only [clamped, hdet, if_true, normalPdf, hinv, ← h.det]

/-- the covariance of a regular distribution is positive definite -/
theorem Gauss.Regular.posDef {g : Gauss ℝ} (hr : g.Regular) : g.sigma.PosDef := by
  refine Matrix.PosDef.of_dotProduct_mulVec_pos ?_ ?_
  · ext i j
    rw [Matrix.conjTranspose_apply, star_trivial, Xmm.sigma_covAt, Xmm.sigma_covAt, hr.symm _ j.isLt _ i.isLt]
  · intro v hv
    have := hr.sigma g.dim (le_refl _) v
    have hq : v ⬝ᵥ g.sigma.mulVec v = ∑ i, ∑ j, v i * g.sigma (Fin.castLE (le_refl _) i) (Fin.castLE (le_refl _) j) * v j := by
      rw [quad_expand]; rfl
    have hp : 0 < ∑ i, v i ^ 2 := by
      obtain ⟨i, hi⟩ := Function.ne_iff.1 hv
      exact Finset.sum_pos' (fun i _ => sq_nonneg _) ⟨i, Finset.mem_univ i, by have : v i ≠ 0 := hi; positivity⟩
    rw [star_trivial, hq]
    have : 0 < 1 / 10 ^ 9 * ∑ i, v i ^ 2 := by positivity
    linarith

/-- an inverted regular distribution is up to date -/
theorem Gauss.Regular.upToDate {g g' : Gauss ℝ} (hw : g.WF) (h : g.Regular) (hu : Gauss.updateInverseCovariance g = .ret () g') : g'.UpToDate := by
  obtain ⟨w, s, l, -, -⟩ := Xmm.C31_inverse g g' hw hu
  obtain ⟨g1, e1, e2, e3, -⟩ := C68_gaussian_inverts g hw h
  rw [hu] at e1
  injection e1 with _ e1
  subst e1
  exact ⟨w, (h.same s).posDef, l, e2⟩

namespace Gmm

theorem UpToDate.density {m : Gmm ℝ} (hw : m.WF) (hc : ∀ g ∈ m.comps, g.UpToDate) (frames : List (List ℝ)) (hf : ∀ x ∈ frames, x.length = m.dim) :
    Densities Dens.real m frames m.floored := by
  intro x hx c g hg
  have hgm := List.mem_of_getElem? hg
  obtain ⟨gw, gd, gi, -, gb⟩ := hw.comp g hgm
  have hl := (hc g hgm).likelihood x (by rw [gd, hf x hx])
  have hval : m.floored x c = max likelihoodFloor (normalPdf g.sigma (g.offset x)) := by simp only [floored, pdf, hg]
  rw [hval]
  by_cases hb : m.bimodal = true
  · rw [if_pos hb]
    have hgb : g.bimodal = true := gb.trans hb
    have hle := gw.le hgb
    have := Xmm.C61_bimodal_is_joint (A := Fl.exact) g.toFl hgb hle ((x.take m.di).map Fl.fin) ((x.drop m.di).map Fl.fin) (by
      simp only [List.length_map, List.length_take, hf x hx, Gauss.toFl]; omega)
    rw [← List.map_append, List.take_append_drop, hl] at this
    simp only [Dens.real, Dens.onReals, this]
  · rw [if_neg hb]
    simp only [Dens.real, Dens.onReals, hl]

/-- an iteration keeps the mixture as it must be during the training -/
theorem emUpdate_inTraining (D : Dens ℝ) (log : ℝ → ℝ) (data : KData ℝ) (m : Gmm ℝ) (hw : m.WF) (hc : IsDistribution m.coeffs) (ht : m.Trains data)
    (hreg : ∀ i < m.dim, 1 / 10 ^ 9 ≤ m.reg.getD i 0) (dens : List ℝ → Nat → ℝ) (hd : Densities D m data.frames dens)
    (hp : ∀ x ∈ data.frames, ∀ c < m.gaussians, 0 < dens x c) :
    ∃ m', emUpdate D log data m = .ret (data.frames.map fun x => log (∑ c ∈ Finset.range m.gaussians, score (weights m) (dens x) c)).sum m' ∧
      m.Updated data.frames dens m' ∧ m'.InTraining data := by
  classical
  obtain ⟨m2, hu, run⟩ := emUpdate_run D log data m hw ht dens hd
  have hdim : m2.dim = m.dim := by rw [hu.same]
  have hgs : m2.gaussians = m.gaussians := by rw [hu.same]
  have hregm : m2.reg = m.reg := by rw [hu.same]
  have hR : ∀ g ∈ m2.comps, g.WF ∧ g.Regular ∧ g.AtLeast m.reg := by
    intro g hg
    obtain ⟨w, d, _⟩ := hu.wf.comp g hg
    obtain ⟨h1, h2, _⟩ := updated_regularised hc ht hp hu g hg
    have hgd : g.dim = m.dim := d.trans hdim
    refine ⟨w, ⟨by rw [hgd]; exact h1, fun v => ?_⟩, fun v => by rw [hgd]; exact h2 v⟩
    rw [hgd]
    refine le_trans ?_ (h2 v)
    rw [Finset.mul_sum]
    exact Finset.sum_le_sum fun i hi => mul_le_mul_of_nonneg_right (hreg i (Finset.mem_range.1 hi)) (sq_nonneg _)
  have hinv : ∀ g ∈ m2.comps, ∃ g', Gauss.updateInverseCovariance g = .ret () g' := fun g hg => by
    obtain ⟨g', e, -⟩ := C68_gaussian_inverts g (hR g hg).1 (hR g hg).2.1
    exact ⟨g', e⟩
  have hret := eachComp_ret Gauss.updateInverseCovariance (fun g => if hg : g ∈ m2.comps then (hinv g hg).choose else g) m2 (by
      intro g hg
      rw [dif_pos hg]
      exact (hinv g hg).choose_spec)
  set l := m2.comps.map fun g => if hg : g ∈ m2.comps then (hinv g hg).choose else g with hl
  have hf : List.Forall₂ (fun g g' => Gauss.updateInverseCovariance g = .ret () g') m2.comps l := by
    rw [hl, List.forall₂_map_right_iff, List.forall₂_same]
    intro g hg
    rw [dif_pos hg]
    exact (hinv g hg).choose_spec
  have hu' : m.Updated data.frames dens { m2 with comps := l } := hu.inverted (by
    rw [List.forall₂_iff_get] at hf ⊢
    refine ⟨hf.1, fun i h h' => ?_⟩
    have := Xmm.C31_inverse _ _ (hR _ (List.getElem_mem h)).1 (hf.2 i h h')
    exact ⟨this.1, this.2.1⟩)
  have hlen : (0 : ℝ) < (data.frames.length : ℝ) := by
    have := List.length_pos_iff.2 ht.some
    exact_mod_cast this
  have hw0 : ∀ c < m.gaussians, 0 ≤ weights m c := fun c _ => weights_nonneg hc c
  have hpos : ∀ c < m.gaussians, 0 < m2.coeffs.getD c 0 := fun c hc => by
    rw [hu.coeff c hc]
    exact div_pos (wsum_one_pos hw0 hp hc ht.some) hlen
  refine ⟨{ m2 with comps := l }, ?_, hu', ⟨hu'.wf, ⟨?_, ht.some, ?_⟩, ?_, ?_, ?_, ?_⟩⟩
  · rw [run]
    simp only [bind_def, updateInverseCovariances, hret, pure_def]
  · intro x hx; rw [ht.frame x hx]; exact hdim.symm
  · show m2.reg.length = m2.dim
    rw [hdim, ← ht.reg, hregm]
  · refine coeffs_distribution (hu.wf.coeffs.trans hgs) _ hu.coeff (fun c hc => ?_) ?_
    · exact div_nonneg (wsum_one_pos hw0 hp hc ht.some).le hlen.le
    · rw [← Finset.sum_div, wsum_total hw0 hp hw.pos]
      exact div_self hlen.ne'
  · intro w hw'
    obtain ⟨c, hc, rfl⟩ := List.getElem_of_mem hw'
    have := hpos c (by have h1 := hu.wf.coeffs; rw [hgs] at h1; rw [← h1]; exact hc)
    rw [List.getD_eq_getElem?_getD, List.getElem?_eq_getElem hc, Option.getD_some] at this
    exact this
  · intro i hi
    show 1 / 10 ^ 9 ≤ m2.reg.getD i 0
    rw [hregm]; exact hreg i (hdim ▸ hi)
  · intro g' hg'
    rw [List.forall₂_iff_get] at hf
    obtain ⟨c, hc, rfl⟩ := List.getElem_of_mem hg'
    have hc2 : c < m2.comps.length := by rw [hf.1]; exact hc
    obtain ⟨w, r, a⟩ := hR _ (List.getElem_mem hc2)
    have e := hf.2 c hc2 hc
    simp only [List.get_eq_getElem] at e
    refine ⟨r.upToDate w e, ?_⟩
    have s := (Xmm.C31_inverse _ _ w e).2.1
    show Gauss.AtLeast m2.reg _
    rw [hregm]
    intro v
    have := a v
    simp only [Gauss.covAt, s.mode, s.cov, s.dim] at this ⊢
    exact this

/-- the covariance by numbers, as a matrix of size `d` -/
def covMatrix (g : Gauss ℝ) (d : Nat) : Matrix (Fin d) (Fin d) ℝ := fun i j => g.covAt i.val j.val

theorem covMatrix_eq (g : Gauss ℝ) (d : Nat) (h : g.dim = d) :
    (g.UpToDate → (covMatrix g d).PosDef) ∧
    (∀ obs : List ℝ, normalPdf g.sigma (g.offset obs) = normalPdf (covMatrix g d) fun i => obs.getD i.val 0 - g.mean.getD i.val 0) ∧
    ∀ reg, g.regPart reg = ∑ i : Fin d, reg.getD i.val 0 * (covMatrix g d)⁻¹ i i := by
  subst h
  have e : covMatrix g g.dim = g.sigma := by
    ext i j
    rw [Xmm.sigma_covAt]; rfl
  rw [e]
  exact ⟨fun h => h.pos, fun _ => rfl, fun _ => rfl⟩

theorem sum_frames (frames : List (List ℝ)) (f : List ℝ → ℝ) : (frames.map f).sum = ∑ p : Fin frames.length, f frames[p.val] :=
  (Fin.sum_univ_fun_getElem frames f).symm

theorem floored_pos (m : Gmm ℝ) (x : List ℝ) (c : Nat) : 0 < m.floored x c :=
  lt_of_lt_of_le (by unfold likelihoodFloor; positivity) (le_max_left _ _)

theorem InTraining.weight_pos {m : Gmm ℝ} {data : KData ℝ} (h : m.InTraining data) {c : Nat} (hc : c < m.gaussians) : 0 < m.coeffs.getD c 0 := by
  have : c < m.coeffs.length := by rw [h.wf.coeffs]; exact hc
  rw [List.getD_eq_getElem?_getD, List.getElem?_eq_getElem this, Option.getD_some]
  exact h.pos _ (List.getElem_mem this)

theorem InTraining.weight_sum {m : Gmm ℝ} {data : KData ℝ} (h : m.InTraining data) : ∑ c ∈ Finset.range m.gaussians, m.coeffs.getD c 0 = 1 := by
  rw [← h.coeffs.2, ← h.wf.coeffs, Finset.sum_range]
  rw [← Fin.sum_univ_getElem]
  exact Finset.sum_congr rfl fun i _ => by simp

theorem InTraining.score {m : Gmm ℝ} {data : KData ℝ} (h : m.InTraining data) (x : List ℝ) {c : Nat} (hc : c < m.gaussians) :
    GmmSpec.score (weights m) (m.floored x) c = m.coeffs.getD c 0 * m.floored x c := by
  unfold GmmSpec.score weights
  rw [if_neg (mul_pos (h.weight_pos hc) (floored_pos m x c)).ne']

theorem InTraining.total {m : Gmm ℝ} {data : KData ℝ} (h : m.InTraining data) (x : List ℝ) :
    ∑ c ∈ Finset.range m.gaussians, GmmSpec.score (weights m) (m.floored x) c = ∑ c ∈ Finset.range m.gaussians, m.coeffs.getD c 0 * m.floored x c :=
  Finset.sum_congr rfl fun _ hc => h.score x (Finset.mem_range.1 hc)

theorem InTraining.resp {m : Gmm ℝ} {data : KData ℝ} (h : m.InTraining data) (x : List ℝ) {c : Nat} (hc : c < m.gaussians) :
    GmmSpec.resp m.gaussians (weights m) (m.floored x) c =
      m.coeffs.getD c 0 * m.floored x c / ∑ j ∈ Finset.range m.gaussians, m.coeffs.getD j 0 * m.floored x j := by
  unfold GmmSpec.resp
  rw [h.score x hc, h.total x]

/-- what one component loses -/
theorem component_gain {m m' : Gmm ℝ} {data : KData ℝ} (h : m.InTraining data) (h' : m'.InTraining data) (hu : m.Updated data.frames m.floored m') {c : Nat}
    (hc : c < m.gaussians) :
    -((data.frames.length : ℝ) / 2 * (m'.coeffs.getD c 0 * (m.regPart c - m'.regPart c))) ≤
      ∑ p : Fin data.frames.length, GmmSpec.resp m.gaussians (weights m) (m.floored data.frames[p.val]) c *
        (Real.log (m'.pdf data.frames[p.val] c) - Real.log (m.pdf data.frames[p.val] c)) := by
  set γ : Fin data.frames.length → ℝ := fun p => GmmSpec.resp m.gaussians (weights m) (m.floored data.frames[p.val]) c with hγ
  have hdim : m'.dim = m.dim := by rw [hu.same]
  have hgs : m'.gaussians = m.gaussians := by rw [hu.same]
  have hreg : m'.reg = m.reg := by rw [hu.same]
  obtain ⟨g, hg, hgc⟩ := getElem_comp h.wf hc
  obtain ⟨g', hg', hgc'⟩ := getElem_comp h'.wf (hgs ▸ hc)
  obtain ⟨-, gd, -, gm, -⟩ := h.wf.comp g hg
  obtain ⟨-, gd', -⟩ := h'.wf.comp g' hg'
  obtain ⟨a1, a2, a3⟩ := covMatrix_eq g m.dim gd
  obtain ⟨b1, b2, b3⟩ := covMatrix_eq g' m.dim (gd'.trans hdim)
  have hw0 : ∀ c < m.gaussians, 0 ≤ weights m c := fun c _ => weights_nonneg h.coeffs c
  have hfp : ∀ x ∈ data.frames, ∀ c < m.gaussians, 0 < m.floored x c := fun x _ c _ => floored_pos m x c
  have hN : 0 < ∑ p, γ p := by
    have := wsum_one_pos hw0 hfp hc h.trains.some
    rw [wsum, sum_frames] at this
    simpa [hγ] using this
  have hsum : ∀ f : List ℝ → ℝ, wavg m.gaussians (weights m) m.floored data.frames c f = (∑ p, γ p * f data.frames[p.val]) / ∑ p, γ p := by
    intro f
    simp only [wavg, wsum, sum_frames, mul_one, hγ]
  have hmean : ∀ i < m.dim, (∑ p, γ p) * g'.mean.getD i 0 = ∑ p, γ p * (data.frames[p.val]).getD i 0 := fun i hi => by
    rw [hu.mean c g' hgc' i hi, wmean, hsum, mul_div_cancel₀ _ hN.ne']
  have hT : (∑ p, γ p) = (data.frames.length : ℝ) * m'.coeffs.getD c 0 := by
    have hlen : (data.frames.length : ℝ) ≠ 0 := by
      have := List.length_pos_iff.2 h.trains.some
      exact_mod_cast this.ne'
    rw [hu.coeff c hc, mul_div_cancel₀ _ hlen, wsum, sum_frames]
    simp [hγ]
  have key := fit_gain γ (fun p i => (data.frames[p.val]).getD i.val 0) (fun p => (resp_pos hc hw0 (fun c hc => floored_pos m _ c)).le)
    (fun i => g.mean.getD i.val 0) (fun i => g'.mean.getD i.val 0) (covMatrix g' m.dim) (covMatrix g m.dim) (fun i => m.reg.getD i.val 0) (m.mode = .diagonal)
    (b1 (h'.comp g' hg').1) (a1 (h.comp g hg).1) (fun i => by
      simp only [mul_sub, Finset.sum_sub_distrib, ← Finset.sum_mul]
      rw [hmean i.val i.isLt, sub_self]) (fun i j => by
      simp only [covMatrix]
      rw [hu.cov c g' hgc' i.val i.isLt j.val j.isLt, wcov, hsum, mul_add]
      congr 1
      · by_cases hd : m.mode = .diagonal ∧ i ≠ j
        · have : m.mode = .diagonal ∧ i.val ≠ j.val := ⟨hd.1, fun e => hd.2 (Fin.ext e)⟩
          rw [if_pos hd, if_pos this, mul_zero]
        · have : ¬ (m.mode = .diagonal ∧ i.val ≠ j.val) := fun e => hd ⟨e.1, fun e' => e.2 (by rw [e'])⟩
          rw [if_neg hd, if_neg this, mul_div_cancel₀ _ hN.ne']
          refine Finset.sum_congr rfl fun p _ => ?_
          rw [← hu.mean c g' hgc' i.val i.isLt, ← hu.mean c g' hgc' j.val j.isLt]
      · by_cases hij : i = j
        · subst hij; simp
        · rw [if_neg hij, if_neg (fun e => hij (Fin.ext e)), mul_zero]) (fun hd i j hij => by
      simp only [covMatrix, Gauss.covAt, gm.trans hd]
      rw [if_neg (fun e => hij (Fin.ext e))])
  have e1 : m.regPart c = ∑ i : Fin m.dim, m.reg.getD i.val 0 * (covMatrix g m.dim)⁻¹ i i := by
    simp only [Gmm.regPart, hgc]; exact a3 m.reg
  have e2 : m'.regPart c = ∑ i : Fin m.dim, m.reg.getD i.val 0 * (covMatrix g' m.dim)⁻¹ i i := by
    simp only [Gmm.regPart, hgc', hreg]; exact b3 m.reg
  rw [← e1, ← e2, hT] at key
  have e3 : ∀ p : Fin data.frames.length, m.pdf data.frames[p.val] c = normalPdf (covMatrix g m.dim) fun i => (data.frames[p.val]).getD i.val 0 - g.mean.getD i.val 0 :=
    fun p => by simp only [pdf, hgc]; exact a2 _
  have e4 : ∀ p : Fin data.frames.length, m'.pdf data.frames[p.val] c = normalPdf (covMatrix g' m.dim) fun i => (data.frames[p.val]).getD i.val 0 - g'.mean.getD i.val 0 :=
    fun p => by simp only [pdf, hgc']; exact b2 _
  simp only [e3, e4]
  refine le_trans (le_of_eq ?_) key
  ring

theorem pdf_pos {m : Gmm ℝ} {data : KData ℝ} (h : m.InTraining data) (x : List ℝ) {c : Nat} (hc : c < m.gaussians) : 0 < m.pdf x c := by
  obtain ⟨g, hg, hgc⟩ := getElem_comp h.wf hc
  simp only [pdf, hgc]
  exact normalPdf_pos (h.comp g hg).1.pos.det_pos _

/-- what the log-likelihood loses -/
theorem gain {m m' : Gmm ℝ} {data : KData ℝ} (h : m.InTraining data) (h' : m'.InTraining data) (hu : m.Updated data.frames m.floored m') :
    m.logLikelihood data.frames - (data.frames.length : ℝ) / 2 * (∑ c ∈ Finset.range m.gaussians, m'.coeffs.getD c 0 * (m.regPart c - m'.regPart c)) -
      m.floorPart data.frames ≤ m'.logLikelihood data.frames := by
  have hgs : m'.gaussians = m.gaussians := by rw [hu.same]
  set n := m.gaussians with hn
  set γ : Fin data.frames.length → Nat → ℝ := fun p c => GmmSpec.resp n (weights m) (m.floored data.frames[p.val]) c with hγ
  have hγe : ∀ p, ∀ c < n, γ p c = m.coeffs.getD c 0 * m.floored data.frames[p.val] c / ∑ j ∈ Finset.range n, m.coeffs.getD j 0 * m.floored data.frames[p.val] j :=
    fun p c hc => h.resp _ hc
  have hw0 : ∀ c < m.gaussians, 0 ≤ weights m c := fun c _ => weights_nonneg h.coeffs c
  have hγ0 : ∀ p, ∀ c < n, 0 ≤ γ p c := fun p c hc => (resp_pos hc hw0 (fun c hc => floored_pos m _ c)).le
  have hlen : (0 : ℝ) < data.frames.length := by
    have := List.length_pos_iff.2 h.trains.some
    exact_mod_cast this
  -- Jensen's inequality, frame by frame
  have hj : ∀ p : Fin data.frames.length,
      Real.log (∑ c ∈ Finset.range n, m.coeffs.getD c 0 * m.floored data.frames[p.val] c) +
        ∑ c ∈ Finset.range n, (γ p c * (Real.log (m'.coeffs.getD c 0) - Real.log (m.coeffs.getD c 0)) +
          γ p c * (Real.log (m'.pdf data.frames[p.val] c) - Real.log (m.pdf data.frames[p.val] c)) -
          γ p c * (Real.log (m.floored data.frames[p.val] c) - Real.log (m.pdf data.frames[p.val] c))) ≤
      Real.log (∑ c ∈ Finset.range n, m'.coeffs.getD c 0 * m'.floored data.frames[p.val] c) := by
    intro p
    refine le_trans ?_ (log_sum_ge (fun c => m.coeffs.getD c 0 * m.floored data.frames[p.val] c) (fun c => m'.coeffs.getD c 0 * m'.floored data.frames[p.val] c)
      h.wf.pos (fun c hc => mul_pos (h.weight_pos hc) (floored_pos _ _ _)) (fun c hc => mul_pos (h'.weight_pos (hgs ▸ hc)) (floored_pos _ _ _)))
    refine add_le_add le_rfl (Finset.sum_le_sum fun c hc => ?_)
    have hc := Finset.mem_range.1 hc
    rw [← hγe p c hc, Real.log_mul (h.weight_pos hc).ne' (floored_pos _ _ _).ne', Real.log_mul (h'.weight_pos (hgs ▸ hc)).ne' (floored_pos _ _ _).ne']
    have hle : Real.log (m'.pdf data.frames[p.val] c) ≤ Real.log (m'.floored data.frames[p.val] c) :=
      Real.log_le_log (pdf_pos h' _ (hgs ▸ hc)) (le_max_right _ _)
    have := mul_le_mul_of_nonneg_left hle (hγ0 p c hc)
    nlinarith
  have hsum := Finset.sum_le_sum fun p (_ : p ∈ Finset.univ) => hj p
  simp only [Finset.sum_add_distrib, Finset.sum_sub_distrib] at hsum
  -- the coefficients
  have hN : ∀ c < n, ∑ p, γ p c = (data.frames.length : ℝ) * m'.coeffs.getD c 0 := fun c hc => by
    rw [hu.coeff c hc, mul_div_cancel₀ _ hlen.ne', wsum, sum_frames]
    exact Finset.sum_congr rfl fun p _ => (mul_one _).symm
  have h1 : 0 ≤ ∑ p, ∑ c ∈ Finset.range n, γ p c * (Real.log (m'.coeffs.getD c 0) - Real.log (m.coeffs.getD c 0)) := by
    rw [Finset.sum_comm]
    have e : ∑ c ∈ Finset.range n, ∑ p, γ p c * (Real.log (m'.coeffs.getD c 0) - Real.log (m.coeffs.getD c 0)) =
        (data.frames.length : ℝ) * ∑ c ∈ Finset.range n, m'.coeffs.getD c 0 * (Real.log (m'.coeffs.getD c 0) - Real.log (m.coeffs.getD c 0)) := by
      rw [Finset.mul_sum]
      refine Finset.sum_congr rfl fun c hc => ?_
      rw [← Finset.sum_mul, hN c (Finset.mem_range.1 hc), mul_assoc]
    rw [e]
    refine mul_nonneg hlen.le (gibbs _ _ (fun c hc => h.weight_pos hc) (fun c hc => h'.weight_pos (hgs ▸ hc)) h.weight_sum ?_)
    rw [← hgs]; exact h'.weight_sum
  have h2 : -((data.frames.length : ℝ) / 2 * ∑ c ∈ Finset.range n, m'.coeffs.getD c 0 * (m.regPart c - m'.regPart c)) ≤
      ∑ p, ∑ c ∈ Finset.range n, γ p c * (Real.log (m'.pdf data.frames[p.val] c) - Real.log (m.pdf data.frames[p.val] c)) := by
    rw [Finset.sum_comm, Finset.mul_sum, ← Finset.sum_neg_distrib]
    exact Finset.sum_le_sum fun c hc => component_gain h h' hu (Finset.mem_range.1 hc)
  have h3 : m.floorPart data.frames = ∑ p, ∑ c ∈ Finset.range n, γ p c * (Real.log (m.floored data.frames[p.val] c) - Real.log (m.pdf data.frames[p.val] c)) := by
    unfold floorPart
    rw [sum_frames]
    exact Finset.sum_congr rfl fun p _ => Finset.sum_congr rfl fun c hc => by rw [hγe p c (Finset.mem_range.1 hc)]
  have h4 : m.logLikelihood data.frames = ∑ p : Fin data.frames.length, Real.log (∑ c ∈ Finset.range n, m.coeffs.getD c 0 * m.floored data.frames[p.val] c) := by
    unfold logLikelihood; rw [sum_frames]
  have h5 : m'.logLikelihood data.frames = ∑ p : Fin data.frames.length, Real.log (∑ c ∈ Finset.range n, m'.coeffs.getD c 0 * m'.floored data.frames[p.val] c) := by
    unfold logLikelihood; rw [sum_frames, hgs]
  rw [h3, h4, h5]
  linarith

/-- the part of the regularisation is between 0 and the dimension -/
theorem regPart_bounds_of {m : Gmm ℝ} (hw : m.WF) (hreg : ∀ i < m.dim, 1 / 10 ^ 9 ≤ m.reg.getD i 0) (hcomp : ∀ g ∈ m.comps, g.UpToDate ∧ g.AtLeast m.reg) {c : Nat}
    (hc : c < m.gaussians) : 0 ≤ m.regPart c ∧ m.regPart c ≤ m.dim := by
  obtain ⟨g, hg, hgc⟩ := getElem_comp hw hc
  obtain ⟨-, gd, -⟩ := hw.comp g hg
  obtain ⟨hu, ha⟩ := hcomp g hg
  have hr : ∀ i : Fin g.dim, 0 ≤ m.reg.getD i.val 0 := fun i => le_trans (by positivity) (hreg i.val (gd ▸ i.isLt))
  have hq : ∀ v : Fin g.dim → ℝ, ∑ i, m.reg.getD i.val 0 * v i ^ 2 ≤ v ⬝ᵥ g.sigma.mulVec v := by
    intro v
    have := ha fun i => if hi : i < g.dim then v ⟨i, hi⟩ else 0
    simp only [Finset.sum_range, Fin.is_lt, dif_pos, Fin.eta] at this
    rw [quad_expand]
    simpa only [Xmm.sigma_covAt] using this
  have hd := inv_diag_le g.sigma hu.pos (fun i => m.reg.getD i.val 0) hr hq
  have e : m.regPart c = ∑ i : Fin g.dim, m.reg.getD i.val 0 * g.sigma⁻¹ i i := by simp only [Gmm.regPart, hgc]; rfl
  rw [e]
  refine ⟨Finset.sum_nonneg fun i _ => mul_nonneg (hr i) (hd i).1, ?_⟩
  refine le_trans (Finset.sum_le_sum fun i _ => (hd i).2) ?_
  simp [gd]

theorem regPart_bounds {m : Gmm ℝ} {data : KData ℝ} (h : m.InTraining data) {c : Nat} (hc : c < m.gaussians) : 0 ≤ m.regPart c ∧ m.regPart c ≤ m.dim :=
  regPart_bounds_of h.wf h.reg h.comp hc

/-- the initialised mixture is as it must be during the training -/
theorem init_inTraining (m m' : Gmm ℝ) (hw : m.WF) (sd : List ℝ) (data : KData ℝ) (hf : m.Fed sd data) (hl : m.LongPhrase data) (hreg : 1 / 10 ^ 9 ≤ m.absReg)
    (h : emInit Real.sqrt sd data m = .ret true m') : m'.InTraining data := by
  obtain ⟨m'', i1, i2, i3, i4⟩ := C82_initialised m hw sd data hf hl hreg
  rw [h] at i1
  injection i1 with _ i1
  subst i1
  obtain ⟨k, l, -, hrun, hw1, -⟩ := emInit_run m hw sd data hf
  have hz := (segmentFrames_pos (data := data) hw.pos).2 hl
  rw [if_pos hz] at hrun
  set m1 : Gmm ℝ := { m with reg := regularization m sd, coeffs := List.replicate m.gaussians (1 / (m.gaussians : ℝ)), comps := l } with hm1
  obtain ⟨l2, b1, b2⟩ := eachComp_regularize m1 hw1 (reg_length hf)
  rw [hrun, bind_of_ret b1] at h
  obtain ⟨u, s2, h1, h2⟩ := bind_ret h
  injection h2 with _ h2
  subst h2
  have hdim : s2.dim = m.dim := by rw [i2.same]
  have hmode : s2.mode = m.mode := by rw [i2.same]
  have hgs : s2.gaussians = m.gaussians := by rw [i2.same]
  have hwf : ∀ g ∈ l2, g.WF := by
    intro g hg
    rw [List.forall₂_iff_get] at b2
    obtain ⟨c, hc, rfl⟩ := List.getElem_of_mem hg
    have hc' : c < m1.comps.length := by rw [b2.1]; exact hc
    exact (b2.2 c hc' hc).2.1
  obtain ⟨l3, -, h3⟩ := eachComp_throws Gauss.updateInverseCovariance (fun _ _ => True) (fun _ => trivial) { m1 with comps := l2 } (by
    intro g hg
    cases hr : Gauss.updateInverseCovariance g with
    | ret a g' => exact ⟨g', trivial, Or.inl rfl⟩
    | throw e g' => exact ⟨g', trivial, Or.inr ⟨e, rfl⟩⟩
    | ub => exact absurd hr (C31_no_ub g (hwf g hg)))
  have hcomps : List.Forall₂ (fun g g' => Gauss.updateInverseCovariance g = .ret () g') l2 s2.comps := by
    rcases h3 with ⟨h3, h4⟩ | ⟨e, h3⟩
    · simp only [updateInverseCovariances, h3] at h1
      injection h1 with _ h1
      rw [← h1]; exact h4
    · simp only [updateInverseCovariances, h3] at h1
      cases h1
  have hreg' : ∀ i < s2.dim, s2.reg.getD i 0 = max m.absReg (m.relReg * sd.getD i 0) := fun i hi => i2.reg i (hdim ▸ hi)
  refine ⟨i3.wf, i4, i3.coeffs, ?_, fun i hi => ?_, fun g' hg' => ?_⟩
  · intro w hw'
    rw [i2.coeffs] at hw'
    rw [(List.mem_replicate.1 hw').2]
    have : (0 : ℝ) < m.gaussians := by exact_mod_cast hw.pos
    positivity
  · rw [hreg' i hi]; exact le_trans hreg (le_max_left _ _)
  · obtain ⟨c, hgc⟩ := List.getElem?_of_mem hg'
    obtain ⟨hc, rfl⟩ := List.getElem?_eq_some_iff.1 hgc
    rw [List.forall₂_iff_get] at hcomps
    have hc2 : c < l2.length := by rw [hcomps.1]; exact hc
    have e := hcomps.2 c hc2 hc
    simp only [List.get_eq_getElem] at e
    obtain ⟨-, gd, -, gm, -⟩ := i3.wf.comp _ hg'
    have hcov := i2.cov c _ hgc
    have q := cov_atLeast (s2.comps[c]) (segmentOf data m.gaussians c) (fun i => max m.absReg (m.relReg * sd.getD i 0)) (fun i hi j hj => by
      rw [hcov i (by rw [← hdim, ← gd]; exact hi) j (by rw [← hdim, ← gd]; exact hj), gm, hmode])
    have r := regular_of_cov (s2.comps[c]) (segmentOf data m.gaussians c) (fun i => max m.absReg (m.relReg * sd.getD i 0)) (fun i _ => le_trans hreg (le_max_left _ _)) (fun i hi j hj => by
      rw [hcov i (by rw [← hdim, ← gd]; exact hi) j (by rw [← hdim, ← gd]; exact hj), gm, hmode])
    have w := hwf _ (List.getElem_mem hc2)
    have s := (Xmm.C31_inverse _ _ w e).2.1
    refine ⟨Gauss.Regular.upToDate w (r.same ⟨s.bimodal.symm, s.dim.symm, s.di.symm, s.mode.symm, s.mean.symm, s.cov.symm⟩) e, fun v => le_trans (le_of_eq ?_) (q.2 v)⟩
    refine Finset.sum_congr rfl fun i hi => ?_
    rw [hreg' i (gd ▸ Finset.mem_range.1 hi)]

/-- **C94**: an iteration of expectation-maximisation and the next one.  Both return the log-likelihood of the training set, for the parameters that they start from.  The second is
    at least the first, less the effect of the regularisation (it is at most half the dimension for each frame; it is small if the regularisation is small with respect to the variances)
    and of the floor of the likelihoods (zero if no density is below 1e-180). -/
theorem C94_iteration (data : KData ℝ) (m : Gmm ℝ) (h : m.InTraining data) :
    ∃ m' m'', emUpdate Dens.real Real.log data m = .ret (m.logLikelihood data.frames) m' ∧ m'.InTraining data ∧
      emUpdate Dens.real Real.log data m' = .ret (m'.logLikelihood data.frames) m'' ∧
      m.logLikelihood data.frames - (data.frames.length : ℝ) / 2 * (∑ c ∈ Finset.range m.gaussians, m'.coeffs.getD c 0 * (m.regPart c - m'.regPart c)) -
        m.floorPart data.frames ≤ m'.logLikelihood data.frames := by
  have run : ∀ m : Gmm ℝ, m.InTraining data → ∃ m', emUpdate Dens.real Real.log data m = .ret (m.logLikelihood data.frames) m' ∧
      m.Updated data.frames m.floored m' ∧ m'.InTraining data := by
    intro m h
    obtain ⟨m', h1, h2, h3⟩ := emUpdate_inTraining Dens.real Real.log data m h.wf h.coeffs h.trains h.reg m.floored
      (UpToDate.density h.wf (fun g hg => (h.comp g hg).1) data.frames h.trains.frame) (fun x _ c _ => floored_pos m x c)
    refine ⟨m', ?_, h2, h3⟩
    rw [h1]
    unfold logLikelihood
    simp only [h.total]
  obtain ⟨m', h1, h2, h3⟩ := run m h
  obtain ⟨m'', k1, -, -⟩ := run m' h3
  exact ⟨m', m'', h1, h3, k1, gain h h3 h2⟩

theorem floorPart_zero {m : Gmm ℝ} {frames : List (List ℝ)} (h : ∀ x ∈ frames, ∀ c < m.gaussians, likelihoodFloor ≤ m.pdf x c) : m.floorPart frames = 0 := by
  unfold floorPart
  refine List.sum_eq_zero fun y hy => ?_
  obtain ⟨x, hx, rfl⟩ := List.mem_map.1 hy
  refine Finset.sum_eq_zero fun c hc => ?_
  rw [show m.floored x c = m.pdf x c from max_eq_right (h x hx c (Finset.mem_range.1 hc)), sub_self, mul_zero]

theorem loss_le {m m' : Gmm ℝ} {data : KData ℝ} (h' : m'.InTraining data) (hg : m'.gaussians = m.gaussians) {e : ℝ}
    (he : ∀ c < m.gaussians, m.regPart c - m'.regPart c ≤ e) : ∑ c ∈ Finset.range m.gaussians, m'.coeffs.getD c 0 * (m.regPart c - m'.regPart c) ≤ e := by
  refine le_trans (Finset.sum_le_sum fun c hc => mul_le_mul_of_nonneg_left (he c (Finset.mem_range.1 hc)) (h'.weight_pos (hg ▸ Finset.mem_range.1 hc)).le) ?_
  rw [← Finset.sum_mul, ← hg, h'.weight_sum, one_mul]

/-- **C94**, when no density is below the floor: if the part of the regularisation in the covariances decreases by at most `e`, the log-likelihood loses at most `e / 2` for each frame; in
    particular it is not lowered when that part does not decrease.  It never loses more than half the dimension for each frame. -/
theorem C94_bounded (data : KData ℝ) (m : Gmm ℝ) (h : m.InTraining data) (hf : ∀ x ∈ data.frames, ∀ c < m.gaussians, likelihoodFloor ≤ m.pdf x c) :
    ∃ l m' l' m'', emUpdate Dens.real Real.log data m = .ret l m' ∧ emUpdate Dens.real Real.log data m' = .ret l' m'' ∧
      (∀ e : ℝ, (∀ c < m.gaussians, m.regPart c - m'.regPart c ≤ e) → l - (data.frames.length : ℝ) * (e / 2) ≤ l') ∧
      l - (data.frames.length : ℝ) * ((m.dim : ℝ) / 2) ≤ l' := by
  obtain ⟨m', m'', h1, h2, h3, h4⟩ := C94_iteration data m h
  have hg : m'.gaussians = m.gaussians := by
    obtain ⟨m1, k1, k2, -⟩ := emUpdate_inTraining Dens.real Real.log data m h.wf h.coeffs h.trains h.reg m.floored
      (UpToDate.density h.wf (fun g hg => (h.comp g hg).1) data.frames h.trains.frame) (fun x _ c _ => floored_pos m x c)
    rw [h1] at k1
    injection k1 with _ k1
    rw [k1, k2.same]
  have key : ∀ e : ℝ, (∀ c < m.gaussians, m.regPart c - m'.regPart c ≤ e) →
      m.logLikelihood data.frames - (data.frames.length : ℝ) * (e / 2) ≤ m'.logLikelihood data.frames := by
    intro e he
    have := loss_le h2 hg he
    have hl : (0 : ℝ) ≤ data.frames.length := Nat.cast_nonneg _
    rw [floorPart_zero hf] at h4
    have h5 := mul_le_mul_of_nonneg_left this (show (0 : ℝ) ≤ data.frames.length / 2 by positivity)
    linarith
  refine ⟨_, m', _, m'', h1, h3, key, key _ fun c hc => ?_⟩
  have := (regPart_bounds h hc).2
  have := (regPart_bounds h2 (hg ▸ hc)).1
  linarith

theorem trainSteps_succ {D : Dens ℝ} {log : ℝ → ℝ} {data : KData ℝ} {ok : Bool} {n : Nat} {m m' : Gmm ℝ} {ls : List ℝ}
    (h : trainSteps D log data ok (n + 1) m = .ret ls m') :
    ∃ ls1 t l, trainSteps D log data ok n m = .ret ls1 t ∧ trainStep D log data ok n t = .ret l m' ∧ ls = ls1 ++ [l] := by
  rw [trainSteps] at h
  obtain ⟨ls1, t, h1, h⟩ := bind_ret h
  obtain ⟨l, t', h2, h⟩ := bind_ret h
  injection h with e1 e2
  subst e2
  exact ⟨ls1, t, l, h1, h2, e1.symm⟩

theorem trainSteps_take {D : Dens ℝ} {log : ℝ → ℝ} {data : KData ℝ} {ok : Bool} {m : Gmm ℝ} : ∀ {n : Nat} {m' : Gmm ℝ} {ls : List ℝ},
    trainSteps D log data ok n m = .ret ls m' → ls.length = n ∧ ∀ k ≤ n, ∃ mk, trainSteps D log data ok k m = .ret (ls.take k) mk
  | 0, m', ls, h => by
    have e := h
    simp only [trainSteps, pure_def] at h
    injection h with h1 h2
    subst h1
    exact ⟨rfl, fun k hk => ⟨m', by rw [show k = 0 by omega]; exact e⟩⟩
  | n + 1, m', ls, h => by
    obtain ⟨ls1, t, l, h1, h2, rfl⟩ := trainSteps_succ h
    obtain ⟨i1, i2⟩ := trainSteps_take h1
    refine ⟨by simp [i1], fun k hk => ?_⟩
    by_cases hkn : k ≤ n
    · obtain ⟨mk, e⟩ := i2 k hkn
      exact ⟨mk, by rw [e, List.take_append_of_le_length (by omega)]⟩
    · rw [show k = n + 1 by omega]
      exact ⟨m', by rw [h, List.take_of_length_le (by simp [i1])]⟩

/-- the steps of a training all return -/
theorem trainSteps_inTraining (data : KData ℝ) (ok : Bool) (m0 m : Gmm ℝ) (hg : Going m0 data m) (h0 : ok = true → m.InTraining data) :
    ∀ n, ∃ ls m', trainSteps Dens.real Real.log data ok n m = .ret ls m' ∧ (ok = true ∨ 0 < n → m'.InTraining data) ∧ Going m0 data m'
  | 0 => ⟨[], m, rfl, fun h => h0 (by simpa using h), hg⟩
  | n + 1 => by
    obtain ⟨ls, t, h1, h2, h3⟩ := trainSteps_inTraining data ok m0 m hg h0 n
    have key : ∀ (D : Dens ℝ) (dens : List ℝ → Nat → ℝ), Densities D t data.frames dens → (∀ x ∈ data.frames, ∀ c < t.gaussians, 0 < dens x c) →
        ∃ l m', emUpdate D Real.log data t = .ret l m' ∧ m'.InTraining data ∧ Going m0 data m' := by
      intro D dens hd hp
      obtain ⟨m', k1, k2, k3⟩ := emUpdate_inTraining D Real.log data t h3.wf h3.coeffs h3.trains h3.reg dens hd hp
      refine ⟨_, m', k1, k3, ⟨?_, k3.wf, k3.coeffs, k3.trains, k3.reg⟩⟩
      rw [k2.same, h3.same]
    obtain ⟨l, m', k1, k2, k3⟩ : ∃ l m', trainStep Dens.real Real.log data ok n t = .ret l m' ∧ m'.InTraining data ∧ Going m0 data m' := by
      unfold trainStep
      by_cases h : (ok || 0 < n) = true
      · rw [if_pos h]
        have hi := h2 (by simpa using h)
        exact key Dens.real t.floored (UpToDate.density hi.wf (fun g hg => (hi.comp g hg).1) data.frames hi.trains.frame) (fun x _ c _ => floored_pos t x c)
      · rw [if_neg h]
        exact key Dens.floor _ (floor_densities t data.frames) (fun _ _ _ _ => by positivity)
    exact ⟨ls ++ [l], m', by rw [trainSteps, bind_of_ret h1, bind_of_ret k1, pure_def], fun _ => k2, k3⟩

/-- **C94**, in the training of a mixture, of `n` iterations with the log-likelihoods `ls`: for every iteration but the first (for all if some phrase has as many frames as there are
    components), the next one returns at least its log-likelihood, less half the dimension for each frame and the effect of the floor. -/
theorem C94_training (m : Gmm ℝ) (ha : m.Admissible) (sd : List ℝ) (data : KData ℝ) (hf : m.Fed sd data) (hreg : 1 / 10 ^ 9 ≤ m.absReg) (n : Nat) :
    ∃ ls s, trainRun Dens.real Real.log Real.sqrt sd data n m = .ret ls s ∧ ls.length = n ∧
      ∀ k, k + 1 < n → (m.LongPhrase data ∨ 0 < k) → ∃ sk, trainRun Dens.real Real.log Real.sqrt sd data k m = .ret (ls.take k) sk ∧
        ls.getD k 0 - (data.frames.length : ℝ) * ((m.dim : ℝ) / 2) - sk.floorPart data.frames ≤ ls.getD (k + 1) 0 := by
  obtain ⟨m1, ok, m2, e1, e2, e3, e4, e5, -⟩ := start_ret m ha sd data hf hreg
  have h0 : ok = true → m2.InTraining data := fun hok => by
    subst hok
    obtain ⟨g, g1, g2⟩ := Gmm.allocate_ret m ha.gaussians ha.dim ha.di
    rw [e1] at g1
    injection g1 with _ g1
    have hw : m1.WF := by rw [g1]; exact g2
    have hf1 : m1.Fed sd data := by rw [g1]; exact ⟨hf.dim, hf.frame, hf.some, hf.sd⟩
    exact init_inTraining m1 m2 hw sd data hf1 (by rw [g1]; exact e3.1 rfl) (by rw [g1]; exact hreg) e2
  have run : ∀ k ls s, trainSteps Dens.real Real.log data ok k m2 = .ret ls s → trainRun Dens.real Real.log Real.sqrt sd data k m = .ret ls s := by
    intro k ls s h
    rw [trainRun, bind_of_ret e1, bind_of_ret e2, h]
  obtain ⟨ls, s, h1, -, -⟩ := trainSteps_inTraining data ok m m2 e4 h0 n
  obtain ⟨h2, h3⟩ := trainSteps_take h1
  refine ⟨ls, s, run n ls s h1, h2, fun k hk hl => ?_⟩
  have hok : ok = true ∨ 0 < k := hl.imp e3.2 id
  have real : ∀ j, k ≤ j → trainStep Dens.real Real.log data ok j = emUpdate Dens.real Real.log data := fun j hj => by
    unfold trainStep
    rw [if_pos]
    rcases hok with h | h
    · simp [h]
    · have : 0 < j := by omega
      simp [this]
  obtain ⟨sk, a1⟩ := h3 k (by omega)
  obtain ⟨s1, a2⟩ := h3 (k + 1) (by omega)
  obtain ⟨s2, a3⟩ := h3 (k + 2) (by omega)
  obtain ⟨lsk, sk', b1, b2, b3⟩ := trainSteps_inTraining data ok m m2 e4 h0 k
  rw [a1] at b1
  injection b1 with _ b1
  subst b1
  have hin := b2 hok
  have hdim : sk.dim = m.dim := by rw [b3.same]
  obtain ⟨l1, t1, l, c1, c2, c3⟩ := trainSteps_succ a2
  rw [a1] at c1
  injection c1 with c1 c1'
  subst c1'
  obtain ⟨l2, t2, l', d1, d2, d3⟩ := trainSteps_succ a3
  rw [a2] at d1
  injection d1 with d1 d1'
  subst d1'
  rw [real k (le_refl k)] at c2
  rw [real (k + 1) (by omega)] at d2
  have el : ls.getD k 0 = l := by
    have hk' : k < ls.length := by omega
    rw [← c1, List.take_succ_eq_append_getElem hk'] at c3
    have := List.append_cancel_left c3
    rw [List.getD_eq_getElem?_getD, List.getElem?_eq_getElem hk', Option.getD_some]
    injection this
  have el' : ls.getD (k + 1) 0 = l' := by
    have hk' : k + 1 < ls.length := by omega
    rw [← d1, List.take_succ_eq_append_getElem hk'] at d3
    have := List.append_cancel_left d3
    rw [List.getD_eq_getElem?_getD, List.getElem?_eq_getElem hk', Option.getD_some]
    injection this
  refine ⟨sk, run k _ _ a1, ?_⟩
  obtain ⟨m', m'', q1, q2, q3, q4⟩ := C94_iteration data sk hin
  rw [c2] at q1
  injection q1 with q1 q1'
  subst q1'
  rw [d2] at q3
  injection q3 with q3 _
  rw [el, el', q1, q3]
  have hg : s1.gaussians = sk.gaussians := by
    obtain ⟨x1, k1, k2, -⟩ := emUpdate_inTraining Dens.real Real.log data sk hin.wf hin.coeffs hin.trains hin.reg sk.floored
      (UpToDate.density hin.wf (fun g hg => (hin.comp g hg).1) data.frames hin.trains.frame) (fun x _ c _ => floored_pos sk x c)
    rw [c2] at k1
    injection k1 with _ k1
    rw [k1, k2.same]
  have hl : (0 : ℝ) ≤ data.frames.length := Nat.cast_nonneg _
  have h5 := mul_le_mul_of_nonneg_left (loss_le (m := sk) (m' := s1) (e := m.dim) q2 hg fun c hc => by
    have := (regPart_bounds hin hc).2
    have := (regPart_bounds q2 (hg ▸ hc)).1
    rw [hdim] at *
    linarith) (show (0 : ℝ) ≤ data.frames.length / 2 by positivity)
  linarith

theorem log_normalPdf_one {n : Nat} (hn : n = 1) (S : Matrix (Fin n) (Fin n) ℝ) (v : Fin n → ℝ) (i : Fin n) (hs : 0 < S i i) :
    Real.log (normalPdf S v) = -(1 / 2) * (v i ^ 2 / S i i) - 1 / 2 * (Real.log (2 * Real.pi) + Real.log (S i i)) := by
  subst hn
  have hi : i = 0 := Subsingleton.elim _ _
  subst hi
  have hd : S.det = S 0 0 := Matrix.det_fin_one S
  rw [log_normalPdf (by rw [hd]; exact hs), hd]
  have : v ⬝ᵥ S⁻¹.mulVec v = v 0 ^ 2 / S 0 0 := by
    have hinv : S⁻¹ 0 0 = (S 0 0)⁻¹ := by
      rw [Matrix.inv_def, Matrix.adjugate_fin_one, hd]
      simp
    simp only [dotProduct, Matrix.mulVec, Finset.univ_unique, Fin.default_eq_zero, Fin.isValue, Finset.sum_singleton, hinv]
    field_simp
  rw [this]
  simp

/-- one component in one dimension, with the mean and the variance of the frames -1 and 1, and a regularisation of 1 -/
noncomputable def fitted : Gmm ℝ where
  gaussians := 1
  mode := .full
  absReg := 1
  relReg := 0
  bimodal := false
  dim := 1
  di := 0
  window := 1
  comps := [⟨false, 1, 1, 0, 0, .full, [0], [1], [1], 1, [], 1, []⟩]
  coeffs := [1]
  beta := [0]
  reg := [1]
  training := true
  buf := CBuf.construct 0 1 1
  instant := 0
  logLik := 0
  outVals := []
  outCov := []

noncomputable def fittedTo : KData ℝ := ⟨1, [[[-1], [1]]]⟩

theorem fitted_inTraining : fitted.InTraining fittedTo := by
  refine ⟨⟨by simp [fitted], rfl, rfl, rfl, ?_⟩, ⟨?_, by simp [fittedTo, KData.frames], rfl⟩, ⟨?_, ?_⟩, ?_, ?_, ?_⟩
  · intro g hg
    simp only [fitted, List.mem_cons, List.not_mem_nil, or_false] at hg
    subst hg
    exact ⟨⟨rfl, rfl, rfl, by simp, by simp⟩, rfl, rfl, rfl, rfl⟩
  · intro x hx
    simp [fittedTo, KData.frames] at hx
    rcases hx with rfl | rfl <;> rfl
  · simp [fitted]
  · simp [fitted]
  · simp [fitted]
  · intro i hi
    have : i = 0 := by simp only [fitted] at hi; omega
    subst this
    simp only [fitted, List.getD_cons_zero]
    norm_num
  · intro g hg
    simp only [fitted, List.mem_cons, List.not_mem_nil, or_false] at hg
    subst hg
    have hs : (Gauss.sigma (⟨false, 1, 1, 0, 0, .full, [0], [1], [1], 1, [], 1, []⟩ : Gauss ℝ)) = (1 : Matrix (Fin 1) (Fin 1) ℝ) := by
      ext i j
      fin_cases i; fin_cases j
      rfl
    refine ⟨⟨⟨rfl, rfl, rfl, by simp, by simp⟩, ?_, ?_, ?_⟩, ?_⟩
    · rw [hs]; exact Matrix.PosDef.one
    · rw [hs, mul_one]
      ext i j
      fin_cases i; fin_cases j
      rfl
    · rw [hs]; exact Matrix.det_one.symm
    · intro v
      simp [fitted, Gauss.covAt]
      nlinarith [sq_nonneg (v 0)]

/-- **C94**: the regularisation does make an iteration lower the log-likelihood. -/
theorem C94_not_monotone : ∃ (m : Gmm ℝ) (data : KData ℝ), m.InTraining data ∧ (∀ x ∈ data.frames, ∀ c < m.gaussians, likelihoodFloor ≤ m.pdf x c) ∧
    ∃ l m' l' m'', emUpdate Dens.real Real.log data m = .ret l m' ∧ emUpdate Dens.real Real.log data m' = .ret l' m'' ∧ l' < l := by
  have h := fitted_inTraining
  have hfr : fittedTo.frames = [[-1], [1]] := rfl
  have big : ∀ p : ℝ, 0 < p → -3 ≤ Real.log p → likelihoodFloor ≤ p := by
    intro p hp hl
    have h1 : Real.exp (-3) ≤ p := by rw [← Real.exp_log hp]; exact Real.exp_le_exp.2 hl
    have h2 : (1 : ℝ) / 10 ^ 180 ≤ Real.exp (-3) := by
      rw [Real.exp_neg, ← one_div]
      refine one_div_le_one_div_of_le (Real.exp_pos _) ?_
      have h3 : Real.exp 3 ≤ 3 ^ 3 := by
        rw [show (3 : ℝ) = (3 : ℕ) * 1 by norm_num, Real.exp_nat_mul]
        exact pow_le_pow_left₀ (Real.exp_pos _).le (by have := Real.exp_one_lt_d9; norm_num; linarith) 3
      refine h3.trans ?_
      norm_num
    exact h2.trans h1
  have hpi : Real.log (2 * Real.pi) ≤ 2 := by
    have h1 : 2 * Real.pi ≤ Real.exp 2 := by
      have := Real.pi_lt_d2
      have h3 : Real.exp 2 = Real.exp 1 ^ 2 := by rw [← Real.exp_nat_mul]; norm_num
      have h4 := Real.exp_one_gt_d9
      rw [h3]
      nlinarith
    exact (Real.log_le_log (by have := Real.pi_pos; positivity) h1).trans (Real.log_exp 2).le
  have hl2 := Real.log_two_gt_d9
  have hl2' := Real.log_two_lt_d9
  -- a component with its mean 0 and its variance `s`
  have one : ∀ (m : Gmm ℝ) (s : ℝ), m.InTraining fittedTo → m.gaussians = 1 → m.dim = 1 → 0 < s → Real.log s ≤ 1 → 1 ≤ s →
      (∀ g, m.comps[0]? = some g → g.mean.getD 0 0 = 0 ∧ g.covAt 0 0 = s) →
      (∀ x ∈ fittedTo.frames, ∀ c < m.gaussians, likelihoodFloor ≤ m.pdf x c) ∧
      m.logLikelihood fittedTo.frames = 2 * (-(1 / 2) * (1 / s) - 1 / 2 * (Real.log (2 * Real.pi) + Real.log s)) := by
    intro m s hm hk hdim hs hs1 hs2 hc
    have hlen : 0 < m.comps.length := by rw [hm.wf.comps, hk]; omega
    obtain ⟨g, hg⟩ : ∃ g, m.comps[0]? = some g := ⟨_, List.getElem?_eq_getElem hlen⟩
    obtain ⟨c1, c2⟩ := hc g hg
    have hgm := List.mem_of_getElem? hg
    have gd : g.dim = 1 := (hm.wf.comp g hgm).2.1.trans hdim
    have hp : ∀ x : ℝ, x ^ 2 = 1 → 0 < m.pdf [x] 0 ∧ Real.log (m.pdf [x] 0) = -(1 / 2) * (1 / s) - 1 / 2 * (Real.log (2 * Real.pi) + Real.log s) := by
      intro x hx
      have hsg : g.sigma ⟨0, by omega⟩ ⟨0, by omega⟩ = s := by rw [Xmm.sigma_covAt]; exact c2
      have e : m.pdf [x] 0 = normalPdf g.sigma (g.offset [x]) := by simp only [pdf, hg]
      rw [e]
      refine ⟨normalPdf_pos (hm.comp g hgm).1.pos.det_pos _, ?_⟩
      rw [log_normalPdf_one gd g.sigma (g.offset [x]) ⟨0, by omega⟩ (by rw [hsg]; exact hs), hsg]
      simp only [Gauss.offset, c1, List.getD_cons_zero, sub_zero, hx]
    have low : ∀ x : ℝ, x ^ 2 = 1 → likelihoodFloor ≤ m.pdf [x] 0 := by
      intro x hx
      obtain ⟨a, b⟩ := hp x hx
      refine big _ a ?_
      rw [b]
      have : 1 / s ≤ 1 := by rw [div_le_one hs]; exact hs2
      linarith
    have hw : m.coeffs.getD 0 0 = 1 := by
      have := hm.weight_sum
      rw [hk] at this
      simpa using this
    constructor
    · intro x hx c hc'
      have : c = 0 := by omega
      subst this
      rw [hfr] at hx
      simp only [List.mem_cons, List.not_mem_nil, or_false] at hx
      rcases hx with rfl | rfl
      · exact low (-1) (by norm_num)
      · exact low 1 (by norm_num)
    · have v : ∀ x : ℝ, x ^ 2 = 1 → Real.log (m.coeffs.getD 0 0 * m.floored [x] 0) = -(1 / 2) * (1 / s) - 1 / 2 * (Real.log (2 * Real.pi) + Real.log s) := by
        intro x hx
        rw [hw, one_mul, floored, max_eq_right (low x hx), (hp x hx).2]
      unfold logLikelihood
      rw [hfr, hk]
      simp only [List.map_cons, List.map_nil, List.sum_cons, List.sum_nil, Finset.sum_range_one]
      rw [v (-1) (by norm_num), v 1 (by norm_num)]
      ring
  obtain ⟨a1, a2⟩ := one fitted 1 h rfl rfl one_pos (by simp) (le_refl 1) (by
    intro g hg
    simp [fitted] at hg
    subst hg
    exact ⟨rfl, rfl⟩)
  obtain ⟨m', m'', q1, q2, q3, -⟩ := C94_iteration fittedTo fitted h
  obtain ⟨x1, k1, k2, -⟩ := emUpdate_inTraining Dens.real Real.log fittedTo fitted h.wf h.coeffs h.trains h.reg fitted.floored
    (UpToDate.density h.wf (fun g hg => (h.comp g hg).1) fittedTo.frames h.trains.frame) (fun x _ c _ => floored_pos fitted x c)
  rw [q1] at k1
  injection k1 with _ k1
  subst k1
  have hr : ∀ x, GmmSpec.resp fitted.gaussians (weights fitted) (fitted.floored x) 0 = 1 := by
    intro x
    rw [h.resp x (by simp [fitted])]
    have hp := floored_pos fitted x 0
    simp only [show fitted.gaussians = 1 from rfl, show fitted.coeffs.getD 0 0 = 1 from rfl, Finset.sum_range_one, one_mul]
    exact div_self hp.ne'
  have hmean : GmmSpec.wmean fitted.gaussians (weights fitted) fitted.floored fittedTo.frames 0 0 = 0 := by
    unfold GmmSpec.wmean GmmSpec.wavg GmmSpec.wsum
    simp only [hr, hfr]
    norm_num
  obtain ⟨-, b2⟩ := one m' 2 q2 (by rw [k2.same]; rfl) (by rw [k2.same]; rfl) (by norm_num) (by linarith) (by norm_num) (by
    intro g hg
    refine ⟨by rw [k2.mean 0 g hg 0 (by simp [fitted]), hmean], ?_⟩
    rw [k2.cov 0 g hg 0 (by simp [fitted]) 0 (by simp [fitted])]
    have : GmmSpec.wcov fitted.gaussians (weights fitted) fitted.floored fittedTo.frames 0 0 0 = 1 := by
      unfold GmmSpec.wcov GmmSpec.wavg GmmSpec.wsum
      simp only [hmean]
      simp only [hr, hfr]
      simp only [List.map_cons, List.map_nil, List.sum_cons, List.sum_nil, List.getD_cons_zero]
      norm_num
    rw [this]
    simp [fitted]
    norm_num)
  refine ⟨fitted, fittedTo, h, a1, _, m', _, m'', q1, q3, ?_⟩
  rw [a2, b2]
  simp only [Real.log_one]
  linarith

/-- Non-vacuity of C94: `fitted` for one iteration; for a training, both modes, one modality or two, and a phrase of four frames in two places. -/
example (b : Bool) (mode : CovMode) : ∃ (m : Gmm ℝ) (sd : List ℝ) (data : KData ℝ), m.mode = mode ∧ m.bimodal = b ∧ m.Admissible ∧ m.Fed sd data ∧
    m.LongPhrase data ∧ 1 / 10 ^ 9 ≤ m.absReg := by
  refine ⟨example2 b mode, [1, 1], ⟨2, [[[0, 0], [0, 1], [9, 9], [9, 8]]]⟩, rfl, rfl, ⟨?_, ?_, ?_⟩, ⟨rfl, ?_, ?_, rfl⟩, ?_, ?_⟩
  · exact Nat.le_succ 1
  · cases b <;> simp [example2]
  · cases b <;> simp [example2]
  · simp [KData.frames, example2]
  · simp [KData.frames]
  · exact ⟨_, List.mem_cons_self, by simp [example2]⟩
  · norm_num [example2]

end Gmm
end Xmm
