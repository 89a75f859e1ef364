import Verif.Spec.HmmMonotone
import Verif.Lemmas.PathGain
import Verif.Props.EmMonotone
import Verif.Props.BaumWelchTraining
set_option linter.unusedSimpArgs false
set_option linter.unusedSectionVars false
/- C95: the log-likelihood from one iteration of the Baum-Welch algorithm to the next. -/
namespace Xmm
open Prog (bind_def pure_def get_def set_def modify_def throw_def undef_def)
open GmmSpec HmmSpec RecSpec

namespace Gmm

/-- what a component of a mixture loses when it is fitted -/
theorem fitted_gain {ι : Type} (l : List ι) (w : ι → Nat → ℝ) (x : ι → List ℝ) {s s' : Gmm ℝ} (hw : s.WF) (hw' : s'.WF) (hu : ∀ g ∈ s.comps, g.UpToDate)
    (hu' : ∀ g ∈ s'.comps, g.UpToDate) (hf : Fitted l w x s s') {c : Nat} (hc : c < s.gaussians) (h0 : ∀ p ∈ l, 0 ≤ w p c) :
    -(WSpec.mass l w c / 2 * (s.regPart c - s'.regPart c)) ≤ (l.map fun p => w p c * (Real.log (s'.pdf (x p) c) - Real.log (s.pdf (x p) c))).sum := by
  have hs : ∀ f : ι → ℝ, (l.map f).sum = ∑ p : Fin l.length, f l[p.val] := fun f => (Fin.sum_univ_fun_getElem l f).symm
  set γ : Fin l.length → ℝ := fun p => w l[p.val] c with hγ
  have hγ0 : ∀ p, 0 ≤ γ p := fun p => h0 _ (List.getElem_mem p.isLt)
  have hM : WSpec.mass l w c = ∑ p, γ p := hs _
  rw [hs, hM]
  rcases (Finset.sum_nonneg fun p (_ : p ∈ Finset.univ) => hγ0 p).eq_or_lt with hN | hN
  · have hz : ∀ p, γ p = 0 := fun p => (Finset.sum_eq_zero_iff_of_nonneg fun p _ => hγ0 p).1 hN.symm p (Finset.mem_univ p)
    rw [← hN, zero_div, zero_mul, neg_zero]
    exact Finset.sum_nonneg fun p _ => by
      rw [show w l[p.val] c = 0 from hz p, zero_mul]
  have hdim : s'.dim = s.dim := by rw [hf.same]
  have hgs : s'.gaussians = s.gaussians := by rw [hf.same]
  have hreg : s'.reg = s.reg := by rw [hf.same]
  obtain ⟨g, hg, hgc⟩ := getElem_comp hw hc
  obtain ⟨g', hg', hgc'⟩ := getElem_comp hw' (hgs ▸ hc)
  obtain ⟨-, gd, -, gm, -⟩ := hw.comp g hg
  obtain ⟨-, gd', -⟩ := hw'.comp g' hg'
  obtain ⟨a1, a2, a3⟩ := covMatrix_eq g s.dim gd
  obtain ⟨b1, b2, b3⟩ := covMatrix_eq g' s.dim (gd'.trans hdim)
  have hsum : ∀ f : ι → ℝ, WSpec.avg l w c f = (∑ p, γ p * f l[p.val]) / ∑ p, γ p := by
    intro f
    unfold WSpec.avg
    rw [hM, if_pos hN, hs]
  have hmean : ∀ i < s.dim, (∑ p, γ p) * g'.mean.getD i 0 = ∑ p, γ p * (x l[p.val]).getD i 0 := fun i hi => by
    rw [hf.mean c g' hgc' i hi, WSpec.mean, hsum, mul_div_cancel₀ _ hN.ne']
  have key := fit_gain γ (fun p i => (x l[p.val]).getD i.val 0) hγ0
    (fun i => g.mean.getD i.val 0) (fun i => g'.mean.getD i.val 0) (covMatrix g' s.dim) (covMatrix g s.dim) (fun i => s.reg.getD i.val 0) (s.mode = .diagonal)
    (b1 (hu' g' hg')) (a1 (hu g hg)) (fun i => by
      simp only [mul_sub, Finset.sum_sub_distrib, ← Finset.sum_mul]
      rw [hmean i.val i.isLt, sub_self]) (fun i j => by
      simp only [covMatrix]
      rw [hf.cov c g' hgc' i.val i.isLt j.val j.isLt, WSpec.cov, hsum, mul_add]
      congr 1
      · by_cases hd : s.mode = .diagonal ∧ i ≠ j
        · have : s.mode = .diagonal ∧ i.val ≠ j.val := ⟨hd.1, fun e => hd.2 (Fin.ext e)⟩
          rw [if_pos hd, if_pos this, mul_zero]
        · have : ¬ (s.mode = .diagonal ∧ i.val ≠ j.val) := fun e => hd ⟨e.1, fun e' => e.2 (by rw [e'])⟩
          rw [if_neg hd, if_neg this, mul_div_cancel₀ _ hN.ne']
          refine Finset.sum_congr rfl fun p _ => ?_
          rw [← hf.mean c g' hgc' i.val i.isLt, ← hf.mean c g' hgc' j.val j.isLt]
      · by_cases hij : i = j
        · subst hij; simp
        · rw [if_neg hij, if_neg (fun e => hij (Fin.ext e)), mul_zero]) (fun hd i j hij => by
      simp only [covMatrix, Gauss.covAt, gm.trans hd]
      rw [if_neg (fun e => hij (Fin.ext e))])
  have e1 : s.regPart c = ∑ i : Fin s.dim, s.reg.getD i.val 0 * (covMatrix g s.dim)⁻¹ i i := by
    simp only [Gmm.regPart, hgc]; exact a3 s.reg
  have e2 : s'.regPart c = ∑ i : Fin s.dim, s.reg.getD i.val 0 * (covMatrix g' s.dim)⁻¹ i i := by
    simp only [Gmm.regPart, hgc', hreg]; exact b3 s.reg
  rw [← e1, ← e2] at key
  have e3 : ∀ p : Fin l.length, s.pdf (x l[p.val]) c = normalPdf (covMatrix g s.dim) fun i => (x l[p.val]).getD i.val 0 - g.mean.getD i.val 0 :=
    fun p => by simp only [pdf, hgc]; exact a2 _
  have e4 : ∀ p : Fin l.length, s'.pdf (x l[p.val]) c = normalPdf (covMatrix g' s.dim) fun i => (x l[p.val]).getD i.val 0 - g'.mean.getD i.val 0 :=
    fun p => by simp only [pdf, hgc']; exact b2 _
  simp only [e3, e4]
  exact key

theorem pdf_pos_of {s : Gmm ℝ} (hw : s.WF) (hu : ∀ g ∈ s.comps, g.UpToDate) (x : List ℝ) {c : Nat} (hc : c < s.gaussians) : 0 < s.pdf x c := by
  obtain ⟨g, hg, hgc⟩ := getElem_comp hw hc
  simp only [pdf, hgc]
  exact normalPdf_pos (hu g hg).pos.det_pos _

/-- a fitted mixture whose inverses have been computed -/
theorem Fitted.upToDate {ι : Type} {l : List ι} {w : ι → Nat → ℝ} {x : ι → List ℝ} {s s' : Gmm ℝ} (hf : Fitted l w x s s') (hw' : s'.WF) (hi : s'.Inverted)
    (h0 : ∀ p ∈ l, ∀ c < s.gaussians, 0 ≤ w p c) (hreg : ∀ i < s.dim, 1 / 10 ^ 9 ≤ s.reg.getD i 0) :
    ∀ g ∈ s'.comps, g.UpToDate ∧ g.AtLeast s'.reg := by
  intro g hg
  obtain ⟨c, hc, rfl⟩ := List.getElem_of_mem hg
  have hdim : s'.dim = s.dim := by rw [hf.same]
  have hgs : s'.gaussians = s.gaussians := by rw [hf.same]
  have hregs : s'.reg = s.reg := by rw [hf.same]
  obtain ⟨w1, gd, -⟩ := hw'.comp _ hg
  have hgd : (s'.comps[c]).dim = s.dim := gd.trans hdim
  obtain ⟨h1, h2⟩ := fitted_regular s l w x h0 c (by rw [← hgs, ← hw'.comps]; exact hc) (s'.comps[c]) (hf.cov c _ (List.getElem?_eq_getElem hc))
  have hr : (s'.comps[c]).Regular := ⟨by rw [hgd]; exact h1, fun v => by
      rw [hgd]
      refine le_trans ?_ (h2 v)
      rw [Finset.mul_sum]
      exact Finset.sum_le_sum fun i hi => mul_le_mul_of_nonneg_right (hreg i (Finset.mem_range.1 hi)) (sq_nonneg _)⟩
  refine ⟨⟨w1, hr.posDef, (hi _ hg).1, (hi _ hg).2.1⟩, fun v => ?_⟩
  rw [hgd, hregs]
  exact h2 v

end Gmm

namespace Hmm

theorem floored_ge (m : Hmm ℝ) (i : Nat) (x : List ℝ) (c : Nat) : 1 / 10 ^ 180 ≤ m.floored i x c := le_max_left _ _

theorem floored_pos (m : Hmm ℝ) (i : Nat) (x : List ℝ) (c : Nat) : 0 < m.floored i x c := lt_of_lt_of_le (by positivity) (floored_ge m i x c)

theorem Learning.observes {m : Hmm ℝ} {data : KData ℝ} (h : m.Learning data) : Observes Dens.real m data.frames m.floored := by
  intro i s hs
  have hm := List.mem_of_getElem? hs
  have e : m.floored i = s.floored := by
    funext x c
    simp only [floored, pdf, hs, Gmm.floored]
  rw [e]
  refine Gmm.UpToDate.density (h.training.ready s hm).wf (fun g hg => (h.comp s hm g hg).1) data.frames fun x hx => ?_
  rw [(h.training.wf.state s hm).2.2.2.1]
  exact h.trains.frame x hx

/-! ### Sums over the phrases -/

theorem map_sum_add {α : Type} (l : List α) (f g : α → ℝ) : (l.map fun a => f a + g a).sum = (l.map f).sum + (l.map g).sum := by
  induction l with
  | nil => simp
  | cons a l ih => simp only [List.map_cons, List.sum_cons, ih]; ring

theorem map_sum_sub {α : Type} (l : List α) (f g : α → ℝ) : (l.map fun a => f a - g a).sum = (l.map f).sum - (l.map g).sum := by
  induction l with
  | nil => simp
  | cons a l ih => simp only [List.map_cons, List.sum_cons, ih]; ring

theorem sum_positions (phrases : List (List (List ℝ))) (f : List (List ℝ) × Nat → ℝ) :
    ((positions phrases).map f).sum = (phrases.map fun fr => ∑ t ∈ Finset.range fr.length, f (fr, t)).sum := by
  unfold positions
  induction phrases with
  | nil => rfl
  | cons fr l ih =>
    rw [List.flatMap_cons, List.map_append, List.sum_append, ih, List.map_cons, List.sum_cons, List.map_map]
    exact congrArg (· + _) (sum_map_range _ _)

theorem sum_filled_phrases (phrases : List (List (List ℝ))) (f : List (List ℝ) → ℝ) (h0 : f [] = 0) :
    ((phrases.filter (fun fr => fr ≠ [])).map f).sum = (phrases.map f).sum := by
  induction phrases with
  | nil => rfl
  | cons fr l ih =>
    by_cases h : fr = []
    · rw [List.filter_cons_of_neg (by simpa using h), ih, List.map_cons, List.sum_cons, h, h0, zero_add]
    · rw [List.filter_cons_of_pos (by simpa using h), List.map_cons, List.sum_cons, ih, List.map_cons, List.sum_cons]

theorem Learning.getState {m : Hmm ℝ} (hw : m.WF) {i : Nat} (hi : i < m.n) : ∃ s ∈ m.sts, m.sts[i]? = some s := by
  have : i < m.sts.length := by rw [hw.sts]; exact hi
  exact ⟨m.sts[i], List.getElem_mem this, List.getElem?_eq_getElem this⟩

theorem gammaMix_nonneg {m : Hmm ℝ} (hm : m.InTraining) {phrases : List (List (List ℝ))} (hp : m.Posts m.floored phrases) {p : List (List ℝ) × Nat} (h : p ∈ positions phrases)
    {i c : Nat} (hi : i < m.n) (hc : c < m.gaussians) : 0 ≤ gammaMix m m.floored p.1 p.2 i c := by
  obtain ⟨p1, p2⟩ := mem_positions h
  obtain ⟨s, hs, e⟩ := Learning.getState hm.wf hi
  have hg := (hm.wf.state s hs).1
  have e1 : coeff m i = weights s := by
    funext c; simp [coeff, e]
  unfold gammaMix
  refine mul_nonneg (hp.gamma _ p1 _ p2 i hi) ?_
  rw [e1, ← hg]
  exact Gmm.share_nonneg (hm.ready s hs) (fun c _ => floored_pos m i _ c) (hg ▸ hc)

/-- what the observations of one state lose -/
theorem state_gain {m m' : Hmm ℝ} {data : KData ℝ} (h : m.Learning data) (hr : m.Reestimated data.phrases m.floored m') (hw' : m'.WF) (hready' : ∀ s ∈ m'.sts, s.Ready)
    (hu' : ∀ s ∈ m'.sts, ∀ g ∈ s.comps, g.UpToDate) {i : Nat} (hi : i < m.n) :
    -(1 / 2 * ∑ c ∈ Finset.range m.gaussians, m.observedIn data.phrases i c * (m.regPart i c - m'.regPart i c)) -
      ((positions data.phrases).map fun p => ∑ c ∈ Finset.range m.gaussians,
        gammaMix m m.floored p.1 p.2 i c * (Real.log (m.floored i (frameAt p) c) - Real.log (m.pdf i (frameAt p) c))).sum ≤
    ((positions data.phrases).map fun p => gammaOf m m.floored p.1 p.2 i *
      (Real.log (likAt m' m'.floored p.1 p.2 i) - Real.log (likAt m m.floored p.1 p.2 i))).sum := by
  have hm := h.training
  have hp := posts m hm data m.floored fun x _ i _ c _ => floored_ge m i x c
  have en : m'.n = m.n := by rw [hr.same]
  have eg : m'.gaussians = m.gaussians := by rw [hr.same]
  obtain ⟨s, hs, e⟩ := Learning.getState hm.wf hi
  obtain ⟨s', hs', e'⟩ := Learning.getState hw' (en ▸ hi)
  have hg := (hm.wf.state s hs).1
  have hg' : s'.gaussians = m.gaussians := (hw'.state s' hs').1.trans eg
  have hf := hr.state i s s' e e'
  have c1 : coeff m i = weights s := by funext c; simp [coeff, e]
  have c2 : coeff m' i = weights s' := by funext c; simp [coeff, e']
  have p1 : m.pdf i = s.pdf := by funext x c; simp [pdf, e]
  have p2 : m'.pdf i = s'.pdf := by funext x c; simp [pdf, e']
  have r1 : m.regPart i = s.regPart := by funext c; simp [regPart, e]
  have r2 : m'.regPart i = s'.regPart := by funext c; simp [regPart, e']
  set P := positions data.phrases with hP
  set w : List (List ℝ) × Nat → Nat → ℝ := fun p c => gammaMix m m.floored p.1 p.2 i c with hwd
  have hw0 : ∀ p ∈ P, ∀ c < m.gaussians, 0 ≤ w p c := fun p hp' c hc => gammaMix_nonneg hm hp hp' hi hc
  have hmass0 : ∀ c < m.gaussians, 0 ≤ WSpec.mass P w c := fun c hc => List.sum_nonneg fun x hx => by
    obtain ⟨p, hp', rfl⟩ := List.mem_map.1 hx
    exact hw0 p hp' c hc
  have hmassp : ∀ p ∈ P, ∀ c < m.gaussians, w p c ≤ WSpec.mass P w c := fun p hp' c hc =>
    List.single_le_sum (fun x hx => by
      obtain ⟨q, hq, rfl⟩ := List.mem_map.1 hx
      exact hw0 q hq c hc) _ (List.mem_map.2 ⟨p, hp', rfl⟩)
  set M := ∑ c ∈ Finset.range m.gaussians, WSpec.mass P w c with hM
  have hcoef : ∀ c < m.gaussians, 0 < WSpec.mass P w c → weights s' c = WSpec.mass P w c / M := fun c hc hpos => by
    have hMp : 0 < M := lt_of_lt_of_le hpos (Finset.single_le_sum (f := fun c => WSpec.mass P w c) (fun c hc => hmass0 c (Finset.mem_range.1 hc)) (Finset.mem_range.2 hc))
    have := hf.coeff c (by rw [hg]; exact hc)
    unfold weights
    rw [this, WSpec.coeff, hg, if_pos hMp]
  have hwpos : ∀ p ∈ P, ∀ c < m.gaussians, 0 < w p c → 0 < weights s c ∧ 0 < weights s' c := by
    intro p hp' c hc hpos
    constructor
    · refine lt_of_le_of_ne (Gmm.weights_nonneg (hm.ready s hs).coeffs c) fun h0 => hpos.ne' ?_
      simp only [hwd, gammaMix, share, c1, ← h0, zero_mul, zero_div, mul_zero]
    · have hmp := lt_of_lt_of_le hpos (hmassp p hp' c hc)
      rw [hcoef c hc hmp]
      exact div_pos hmp (lt_of_lt_of_le hmp (Finset.single_le_sum (f := fun c => WSpec.mass P w c) (fun c hc => hmass0 c (Finset.mem_range.1 hc)) (Finset.mem_range.2 hc)))
  have hpp : ∀ x, ∀ c < m.gaussians, 0 < s'.pdf x c := fun x c hc => Gmm.pdf_pos_of (hready' s' hs').wf (hu' s' hs') x (hg' ▸ hc)
  -- Jensen's inequality, frame by frame
  have hj : ∀ p ∈ P, ∑ c ∈ Finset.range m.gaussians, w p c * (Real.log (weights s' c) - Real.log (weights s c)) +
        ∑ c ∈ Finset.range m.gaussians, w p c * (Real.log (s'.pdf (frameAt p) c) - Real.log (s.pdf (frameAt p) c)) -
        ∑ c ∈ Finset.range m.gaussians, w p c * (Real.log (m.floored i (frameAt p) c) - Real.log (m.pdf i (frameAt p) c)) ≤
      gammaOf m m.floored p.1 p.2 i * (Real.log (likAt m' m'.floored p.1 p.2 i) - Real.log (likAt m m.floored p.1 p.2 i)) := by
    intro p hp'
    obtain ⟨q1, q2⟩ := mem_positions hp'
    rw [← Finset.sum_add_distrib, ← Finset.sum_sub_distrib]
    rcases (hp.gamma _ q1 _ q2 i hi).eq_or_lt with h0 | h0
    · rw [← h0, zero_mul]
      refine (Finset.sum_eq_zero fun c _ => ?_).le
      have : w p c = 0 := by simp only [hwd, gammaMix, ← h0, zero_mul]
      rw [this]; ring
    · have hmix : 0 < mixture m.gaussians (coeff m i) (m.floored i (frameAt p)) := by
        rw [c1, ← hg]
        exact Gmm.mixture_pos (hm.ready s hs) fun c _ => floored_pos m i _ c
      have hwe : ∀ c, w p c = gammaOf m m.floored p.1 p.2 i * (weights s c * m.floored i (frameAt p) c / mixture m.gaussians (coeff m i) (m.floored i (frameAt p))) := by
        intro c; simp only [hwd, gammaMix, share, c1, frameAt]
      have hnn := Gmm.weights_nonneg (hm.ready s hs).coeffs
      have hnn' := Gmm.weights_nonneg (hready' s' hs').coeffs
      have hsp : ∀ c ∈ Finset.range m.gaussians, 0 < weights s c * m.floored i (frameAt p) c → 0 < w p c := fun c _ hc => by
        rw [hwe c]; exact mul_pos h0 (div_pos hc hmix)
      have j := log_sum_ge_of (Finset.range m.gaussians) (fun c => weights s c * m.floored i (frameAt p) c) (fun c => weights s' c * m'.floored i (frameAt p) c)
        (fun c _ => mul_nonneg (hnn c) (floored_pos m i _ c).le) (fun c _ => mul_nonneg (hnn' c) (floored_pos m' i _ c).le)
        (fun c hc h1 => mul_pos (hwpos p hp' c (Finset.mem_range.1 hc) (hsp c hc h1)).2 (floored_pos m' i _ c)) (by
          have := hmix; rw [c1] at this; exact this)
      have l1 : likAt m m.floored p.1 p.2 i = ∑ c ∈ Finset.range m.gaussians, weights s c * m.floored i (frameAt p) c := by
        simp only [likAt, likOf, mixture, c1, frameAt]
      have l2 : likAt m' m'.floored p.1 p.2 i = ∑ c ∈ Finset.range m.gaussians, weights s' c * m'.floored i (frameAt p) c := by
        simp only [likAt, likOf, mixture, c2, frameAt, eg]
      rw [l1, l2]
      have hmx : mixture m.gaussians (coeff m i) (m.floored i (frameAt p)) = ∑ c ∈ Finset.range m.gaussians, weights s c * m.floored i (frameAt p) c := by
        rw [c1]; rfl
      refine le_trans ?_ (mul_le_mul_of_nonneg_left (le_sub_iff_add_le'.2 j) h0.le)
      rw [Finset.mul_sum]
      refine Finset.sum_le_sum fun c hc => ?_
      have hc' := Finset.mem_range.1 hc
      rw [← mul_assoc, ← hmx, ← hwe c]
      rcases (hw0 p hp' c hc').eq_or_lt with k | k
      · rw [← k]; simp
      · obtain ⟨k1, k2⟩ := hwpos p hp' c hc' k
        rw [Real.log_mul k1.ne' (floored_pos m i _ c).ne', Real.log_mul k2.ne' (floored_pos m' i _ c).ne']
        have hle : Real.log (s'.pdf (frameAt p) c) ≤ Real.log (m'.floored i (frameAt p) c) := by
          refine Real.log_le_log (hpp _ c hc') ?_
          rw [← p2]; exact le_max_right _ _
        have := mul_le_mul_of_nonneg_left hle k.le
        rw [p1]
        nlinarith
  have hsum := List.sum_le_sum hj
  simp only [map_sum_add, map_sum_sub] at hsum
  -- the coefficients
  have h1 : 0 ≤ (P.map fun p => ∑ c ∈ Finset.range m.gaussians, w p c * (Real.log (weights s' c) - Real.log (weights s c))).sum := by
    rw [← list_sum_swap]
    simp only [List.sum_map_mul_right]
    have hz := gibbs_of (Finset.range m.gaussians) (fun c => WSpec.mass P w c) (fun c => weights s c) (fun c hc => hmass0 c (Finset.mem_range.1 hc))
      (fun c _ => Gmm.weights_nonneg (hm.ready s hs).coeffs c) (fun c hc hpos => by
        by_contra hn
        have hz : weights s c = 0 := le_antisymm (not_lt.1 hn) (Gmm.weights_nonneg (hm.ready s hs).coeffs c)
        refine hpos.ne' (List.sum_eq_zero fun x hx => ?_)
        obtain ⟨p, hp', rfl⟩ := List.mem_map.1 hx
        simp only [hwd, gammaMix, share, c1, hz, zero_mul, zero_div, mul_zero])
    have hone : ∑ c ∈ Finset.range m.gaussians, weights s c = 1 := by
      rw [← hg]; exact Gmm.weights_sum (hm.ready s hs).wf (hm.ready s hs).coeffs
    rw [hone, Real.log_one, mul_zero, neg_zero] at hz
    refine le_trans hz (Finset.sum_le_sum fun c hc => ?_)
    show WSpec.mass P w c * _ ≤ WSpec.mass P w c * _
    rcases (hmass0 c (Finset.mem_range.1 hc)).eq_or_lt with k | k
    · rw [← k]; simp
    · rw [hcoef c (Finset.mem_range.1 hc) k]
  have h2 : -(1 / 2 * ∑ c ∈ Finset.range m.gaussians, m.observedIn data.phrases i c * (m.regPart i c - m'.regPart i c)) ≤
      (P.map fun p => ∑ c ∈ Finset.range m.gaussians, w p c * (Real.log (s'.pdf (frameAt p) c) - Real.log (s.pdf (frameAt p) c))).sum := by
    rw [← list_sum_swap, Finset.mul_sum, ← Finset.sum_neg_distrib]
    refine Finset.sum_le_sum fun c hc => ?_
    have hc' := Finset.mem_range.1 hc
    have := Gmm.fitted_gain P w frameAt (hm.ready s hs).wf (hready' s' hs').wf (fun g hg => (h.comp s hs g hg).1) (hu' s' hs') hf (c := c) (hg ▸ hc') (fun p hp' => hw0 p hp' c hc')
    refine le_trans (le_of_eq ?_) this
    rw [r1, r2]
    unfold observedIn
    ring
  linarith

/-- what the transitions out of one state lose -/
theorem row_gain {m m' : Hmm ℝ} {data : KData ℝ} (h : m.Learning data) (hr : m.Reestimated data.phrases m.floored m') {i : Nat} (hi : i < m.n) :
    -(m.leaving data.phrases i * (Real.log (∑ j ∈ Finset.range m.n, step m i j) -
      Real.log (m.leaving data.phrases i / (visits m m.floored data.phrases i + 2 / 10 ^ 5)))) ≤
    ∑ j ∈ Finset.range m.n, moves m m.floored data.phrases i j * (Real.log (step m' i j) - Real.log (step m i j)) ∧
    ∀ j < m.n, 0 < moves m m.floored data.phrases i j → 0 < step m' i j := by
  have hm := h.training
  have hp := posts m hm data m.floored fun x _ i _ c _ => floored_ge m i x c
  set V := visits m m.floored data.phrases i + 2 / 10 ^ 5 with hV
  have hVp : 0 < V := by have := visits_nonneg hp hi; positivity
  set a := fun j => moves m m.floored data.phrases i j with ha
  have ha0 : ∀ j ∈ Finset.range m.n, 0 ≤ a j := fun j hj => moves_nonneg hp hi (Finset.mem_range.1 hj)
  have hastep : ∀ j ∈ Finset.range m.n, 0 < a j → 0 < step m i j := by
    intro j hj hpos
    refine lt_of_le_of_ne (hm.step_nonneg i hi j (Finset.mem_range.1 hj)) fun h0 => hpos.ne' ?_
    refine List.sum_eq_zero fun x hx => ?_
    obtain ⟨fr, _, rfl⟩ := List.mem_map.1 hx
    exact Finset.sum_eq_zero fun t ht => postStep_zero _ _ _ _ (Finset.mem_range.1 ht) h0.symm
  have hnew : ∀ j ∈ Finset.range m.n, 0 < a j → a j / V ≤ step m' i j := by
    intro j hj hpos
    have hj' := Finset.mem_range.1 hj
    rw [hr.step i hi j hj']
    have hs := hastep j hj hpos
    have hfl : (0 : ℝ) ≤ filled data.phrases := Nat.cast_nonneg _
    rcases bool_cases m.ergodic with hE | hE
    · have hcase : j = i ∨ j = i + 1 := by
        by_contra hne
        have hne := not_or.1 hne
        simp only [step, hE, Bool.false_eq_true, if_false, if_neg hne.1, zero_add] at hs
        split_ifs at hs with hmod
        · by_cases hl : i + 1 < m.n
          · rw [Nat.mod_eq_of_lt hl] at hmod; exact hne.2 hmod
          · have : i * 2 + 1 = m.n * 2 - 1 := by omega
            rw [this, hm.last hE] at hs
            exact lt_irrefl _ hs
        · exact lt_irrefl _ hs
      rcases hcase with rfl | rfl
      · simp only [newStep, hE, Bool.false_eq_true, if_false, if_true]
        refine div_le_div_of_nonneg_right ?_ hVp.le
        split_ifs <;> · simp only [ha]; have : (0 : ℝ) ≤ filled data.phrases * (1 / 10 ^ 5) := by positivity
                        linarith
      · simp only [newStep, hE, Bool.false_eq_true, if_false, if_true, if_neg (show ¬ i + 1 = i by omega)]
        refine div_le_div_of_nonneg_right ?_ hVp.le
        have : (0 : ℝ) ≤ filled data.phrases * (1 / 10 ^ 5) := by positivity
        simp only [ha]; linarith
    · simp only [newStep, hE, if_true]
      exact le_refl _
  refine ⟨?_, fun j hj hpos => lt_of_lt_of_le (div_pos hpos hVp) (hnew j (Finset.mem_range.2 hj) hpos)⟩
  have hL : m.leaving data.phrases i = ∑ j ∈ Finset.range m.n, a j := rfl
  have g := gibbs_of (Finset.range m.n) a (fun j => step m i j) ha0 (fun j hj => hm.step_nonneg i hi j (Finset.mem_range.1 hj)) hastep
  rw [← hL] at g
  have hle : ∀ j ∈ Finset.range m.n, a j * (Real.log (a j / m.leaving data.phrases i) - Real.log (step m i j)) + a j * Real.log (m.leaving data.phrases i / V) ≤
      a j * (Real.log (step m' i j) - Real.log (step m i j)) := by
    intro j hj
    rcases (ha0 j hj).eq_or_lt with k | k
    · rw [← k]; simp
    · have hLp : 0 < m.leaving data.phrases i := by rw [hL]; exact lt_of_lt_of_le k (Finset.single_le_sum ha0 hj)
      have h1 : Real.log (a j / V) ≤ Real.log (step m' i j) := Real.log_le_log (div_pos k hVp) (hnew j hj k)
      have h2 : Real.log (a j / m.leaving data.phrases i) + Real.log (m.leaving data.phrases i / V) = Real.log (a j / V) := by
        rw [← Real.log_mul (div_pos k hLp).ne' (div_pos hLp hVp).ne', div_mul_div_cancel₀ hLp.ne']
      have := mul_le_mul_of_nonneg_left h1 k.le
      rw [← h2] at this
      nlinarith
  have := Finset.sum_le_sum hle
  rw [Finset.sum_add_distrib, ← Finset.sum_mul, ← hL] at this
  linarith

/-- what the start probabilities lose: nothing -/
theorem start_gain {m m' : Hmm ℝ} {data : KData ℝ} (h : m.Learning data) (hr : m.Reestimated data.phrases m.floored m') :
    (∀ i < m.n, 0 ≤ start m' i) ∧
    (∀ fr ∈ data.phrases, fr ≠ [] → ∀ i < m.n, 0 < gammaOf m m.floored fr 0 i → 0 < start m' i) ∧
    0 ≤ ((data.phrases.filter (fun fr => fr ≠ [])).map fun fr => ∑ i ∈ Finset.range m.n, gammaOf m m.floored fr 0 i * (Real.log (start m' i) - Real.log (start m i))).sum := by
  have hm := h.training
  have hp := posts m hm data m.floored fun x _ i _ c _ => floored_ge m i x c
  have ee : m'.ergodic = m.ergodic := by rw [hr.same]
  have hold : ∀ fr : List (List ℝ), ∀ i < m.n, 0 < gammaOf m m.floored fr 0 i → 0 < start m i := by
    intro fr i hi hpos
    refine lt_of_le_of_ne (hm.start_nonneg i hi) fun h0 => hpos.ne' ?_
    exact post_start_zero _ _ _ _ h0.symm
  rcases bool_cases m.ergodic with hE | hE
  · have hst : ∀ i, start m' i = start m i := fun i => by simp only [start, ee, hE, Bool.false_eq_true, if_false]
    refine ⟨fun i hi => by rw [hst]; exact hm.start_nonneg i hi, fun fr _ _ i hi hpos => by rw [hst]; exact hold fr i hi hpos, ?_⟩
    simp [hst]
  · have hfill : ∀ fr ∈ data.phrases, 0 < fr.length := fun fr h' => List.length_pos_iff.2 (h.trains.filled hE fr h')
    have hne : data.phrases ≠ [] := fun h' => h.trains.some (by simp [KData.frames, h'])
    have hlen : (0 : ℝ) < (data.phrases.length : ℝ) := by exact_mod_cast List.length_pos_iff.2 hne
    set a := fun i => (data.phrases.map fun fr => gammaOf m m.floored fr 0 i).sum with ha
    have hst : ∀ i < m.n, start m' i = a i / (data.phrases.length : ℝ) := by
      intro i hi
      simp only [start, ee, hE, if_true]
      exact hr.prior hE i hi
    have hnn : ∀ i < m.n, ∀ x ∈ data.phrases.map (fun fr => gammaOf m m.floored fr 0 i), 0 ≤ x := fun i hi x hx => by
      obtain ⟨fr, hf, rfl⟩ := List.mem_map.1 hx
      exact hp.gamma fr hf 0 (hfill fr hf) i hi
    have ha0 : ∀ i < m.n, 0 ≤ a i := fun i hi => List.sum_nonneg (hnn i hi)
    have hasum : ∑ i ∈ Finset.range m.n, a i = (data.phrases.length : ℝ) := by
      rw [ha, list_sum_swap, List.map_congr_left fun fr hf => hp.sum fr hf 0 (hfill fr hf)]
      simp
    refine ⟨fun i hi => by rw [hst i hi]; exact div_nonneg (ha0 i hi) hlen.le, fun fr hf _ i hi hpos => ?_, ?_⟩
    · rw [hst i hi]
      refine div_pos (lt_of_lt_of_le hpos ?_) hlen
      exact List.single_le_sum (hnn i hi) _ (List.mem_map.2 ⟨fr, hf, rfl⟩)
    · rw [List.filter_eq_self.2 fun fr hf => by simpa using h.trains.filled hE fr hf, ← list_sum_swap]
      simp only [List.sum_map_mul_right]
      have g := gibbs_of (Finset.range m.n) a (start m) (fun i hi => ha0 i (Finset.mem_range.1 hi)) (fun i hi => hm.start_nonneg i (Finset.mem_range.1 hi)) (fun i hi hpos => by
        refine lt_of_le_of_ne (hm.start_nonneg i (Finset.mem_range.1 hi)) fun h0 => hpos.ne' ?_
        refine List.sum_eq_zero fun x hx => ?_
        obtain ⟨fr, _, rfl⟩ := List.mem_map.1 hx
        exact post_start_zero _ _ _ _ h0.symm)
      rw [hm.start_sum, Real.log_one, mul_zero, neg_zero, hasum] at g
      refine le_trans g (le_of_eq (Finset.sum_congr rfl fun i hi => ?_))
      rw [hst i (Finset.mem_range.1 hi)]

/-- what the log-likelihood loses -/
theorem gain {m m' : Hmm ℝ} {data : KData ℝ} (h : m.Learning data) (hr : m.Reestimated data.phrases m.floored m') (hw' : m'.WF) (hready' : ∀ s ∈ m'.sts, s.Ready)
    (hu' : ∀ s ∈ m'.sts, ∀ g ∈ s.comps, g.UpToDate) :
    m.logLikelihood data.phrases - m.regLoss m' data.phrases - m.floorPart data.phrases - m.rowLoss data.phrases ≤ m'.logLikelihood data.phrases := by
  have hm := h.training
  have hp := posts m hm data m.floored fun x _ i _ c _ => floored_ge m i x c
  have en : m'.n = m.n := by rw [hr.same]
  obtain ⟨s1, s2, s3⟩ := start_gain h hr
  have hstep' : ∀ i < m.n, ∀ j < m.n, 0 ≤ step m' i j := fun i hi j hj => by rw [hr.step i hi j hj]; exact newStep_nonneg hp hi hj
  -- one phrase
  have hj : ∀ fr ∈ data.phrases.filter (fun fr => fr ≠ []),
      Real.log (total m.n (start m) (step m) (likAt m m.floored fr) (fr.length - 1)) +
        (∑ i ∈ Finset.range m.n, gammaOf m m.floored fr 0 i * (Real.log (start m' i) - Real.log (start m i)) +
        (∑ i ∈ Finset.range m.n, ∑ j ∈ Finset.range m.n, ∑ t ∈ Finset.range (fr.length - 1), xiOf m m.floored fr t i j * (Real.log (step m' i j) - Real.log (step m i j)) +
        ∑ i ∈ Finset.range m.n, ∑ t ∈ Finset.range fr.length, gammaOf m m.floored fr t i * (Real.log (likAt m' m'.floored fr t i) - Real.log (likAt m m.floored fr t i)))) ≤
      Real.log (total m'.n (start m') (step m') (likAt m' m'.floored fr) (fr.length - 1)) := by
    intro fr hfr
    obtain ⟨hf, hne⟩ := List.mem_filter.1 hfr
    have hne : fr ≠ [] := by simpa using hne
    have hl := List.length_pos_iff.2 hne
    have hge : ∀ x ∈ fr, ∀ i < m.n, ∀ c < m.gaussians, 1 / 10 ^ 180 ≤ m.floored i x c := fun x _ i _ c _ => floored_ge m i x c
    obtain ⟨t1, t2, -⟩ := totals_pos m hm fr m.floored hge
    have h180 : (0 : ℝ) < 1 / 10 ^ 180 := by positivity
    rw [en]
    refine le_trans (le_of_eq ?_) (path_gain (n := m.n) (start m) (start m') (step m) (step m') (likAt m m.floored fr) (likAt m' m'.floored fr) (fr.length - 1) hm.start_nonneg s1
      hm.step_nonneg hstep' (fun t ht i hi => lt_of_lt_of_le h180 (t1 t (by omega) i hi)) (fun t ht i hi => ?_) (t2 _ (by omega)) (fun i hi hpos => s2 fr hf hne i hi hpos)
      (fun t ht i hi j hj hpos => ?_))
    · rw [show fr.length - 1 + 1 = fr.length by omega, ← add_assoc (∑ i ∈ Finset.range m.n, _)]
      refine congrArg₂ (· + ·) rfl (congrArg₂ (· + ·) (congrArg₂ (· + ·) rfl ?_) ?_)
      · refine Eq.symm (Eq.trans Finset.sum_comm (Finset.sum_congr rfl fun i _ => ?_))
        exact Finset.sum_comm
      · exact Finset.sum_comm
    · exact lt_of_lt_of_le h180 (likOf_ge m' hw' hready' m'.floored _ i (en ▸ hi) fun c _ => floored_ge m' i _ c)
    · refine (row_gain h hr hi).2 j hj (lt_of_lt_of_le hpos ?_)
      have k1 : xiOf m m.floored fr t i j ≤ ∑ t ∈ Finset.range (fr.length - 1), xiOf m m.floored fr t i j :=
        Finset.single_le_sum (f := fun t => xiOf m m.floored fr t i j) (fun t ht => hp.xi fr hf t (by have := Finset.mem_range.1 ht; omega) i hi j hj) (Finset.mem_range.2 ht)
      refine le_trans k1 ?_
      exact List.single_le_sum (fun x hx => by
        obtain ⟨fr, hf, rfl⟩ := List.mem_map.1 hx
        exact Finset.sum_nonneg fun t ht => hp.xi fr hf t (by have := Finset.mem_range.1 ht; omega) i hi j hj) _ (List.mem_map.2 ⟨fr, hf, rfl⟩)
  have hsum := List.sum_le_sum hj
  simp only [map_sum_add] at hsum
  -- the transitions
  have k1 : ((data.phrases.filter (fun fr => fr ≠ [])).map fun fr => ∑ i ∈ Finset.range m.n, ∑ j ∈ Finset.range m.n, ∑ t ∈ Finset.range (fr.length - 1),
      xiOf m m.floored fr t i j * (Real.log (step m' i j) - Real.log (step m i j))).sum =
      ∑ i ∈ Finset.range m.n, ∑ j ∈ Finset.range m.n, moves m m.floored data.phrases i j * (Real.log (step m' i j) - Real.log (step m i j)) := by
    rw [sum_filled_phrases _ _ (by simp), ← list_sum_swap]
    refine Finset.sum_congr rfl fun i _ => ?_
    rw [← list_sum_swap]
    refine Finset.sum_congr rfl fun j _ => ?_
    simp only [← Finset.sum_mul, List.sum_map_mul_right]
    rfl
  have k2 : -m.rowLoss data.phrases ≤ ∑ i ∈ Finset.range m.n, ∑ j ∈ Finset.range m.n,
      moves m m.floored data.phrases i j * (Real.log (step m' i j) - Real.log (step m i j)) := by
    unfold rowLoss
    rw [← Finset.sum_neg_distrib]
    exact Finset.sum_le_sum fun i hi => (row_gain h hr (Finset.mem_range.1 hi)).1
  -- the observations
  have k3 : ((data.phrases.filter (fun fr => fr ≠ [])).map fun fr => ∑ i ∈ Finset.range m.n, ∑ t ∈ Finset.range fr.length,
      gammaOf m m.floored fr t i * (Real.log (likAt m' m'.floored fr t i) - Real.log (likAt m m.floored fr t i))).sum =
      ∑ i ∈ Finset.range m.n, ((positions data.phrases).map fun p => gammaOf m m.floored p.1 p.2 i *
      (Real.log (likAt m' m'.floored p.1 p.2 i) - Real.log (likAt m m.floored p.1 p.2 i))).sum := by
    rw [sum_filled_phrases _ _ (by simp), ← list_sum_swap]
    exact Finset.sum_congr rfl fun i _ => (sum_positions data.phrases fun p => gammaOf m m.floored p.1 p.2 i *
      (Real.log (likAt m' m'.floored p.1 p.2 i) - Real.log (likAt m m.floored p.1 p.2 i))).symm
  have k4 : -m.regLoss m' data.phrases - m.floorPart data.phrases ≤ ∑ i ∈ Finset.range m.n, ((positions data.phrases).map fun p => gammaOf m m.floored p.1 p.2 i *
      (Real.log (likAt m' m'.floored p.1 p.2 i) - Real.log (likAt m m.floored p.1 p.2 i))).sum := by
    refine le_trans (le_of_eq ?_) (Finset.sum_le_sum fun i hi => state_gain h hr hw' hready' hu' (Finset.mem_range.1 hi))
    unfold regLoss floorPart
    rw [Finset.sum_sub_distrib, Finset.sum_neg_distrib, ← Finset.mul_sum, list_sum_swap]
  rw [k1, k3] at hsum
  have e1 : m.logLikelihood data.phrases = ((data.phrases.filter (fun fr => fr ≠ [])).map fun fr =>
    Real.log (total m.n (start m) (step m) (likAt m m.floored fr) (fr.length - 1))).sum := rfl
  have e2 : m'.logLikelihood data.phrases = ((data.phrases.filter (fun fr => fr ≠ [])).map fun fr =>
    Real.log (total m'.n (start m') (step m') (likAt m' m'.floored fr) (fr.length - 1))).sum := rfl
  rw [← e1, ← e2] at hsum
  linarith

/-- after an iteration that starts with any likelihoods, the states are regularised and their inverses are up to date -/
theorem next_comp {m m' : Hmm ℝ} {data : KData ℝ} {d : Nat → List ℝ → Nat → ℝ} (hm : m.InTraining) (ht : m.Trains data)
    (hge : ∀ x ∈ data.frames, ∀ i < m.n, ∀ c < m.gaussians, 1 / 10 ^ 180 ≤ d i x c) (hr : m.Reestimated data.phrases d m') (hw' : m'.WF)
    (hready' : ∀ s ∈ m'.sts, s.Ready) (hinv : ∀ s ∈ m'.sts, s.Inverted) : ∀ s ∈ m'.sts, ∀ g ∈ s.comps, g.UpToDate ∧ g.AtLeast s.reg := by
  have hp := posts m hm data d hge
  have en : m'.n = m.n := by rw [hr.same]
  intro s' hs'
  obtain ⟨i, hi, rfl⟩ := List.getElem_of_mem hs'
  have hi2 : i < m.n := by rw [← en, ← hw'.sts]; exact hi
  obtain ⟨s, hs, e⟩ := Learning.getState hm.wf hi2
  have hg := (hm.wf.state s hs).1
  have hd := (hm.wf.state s hs).2.2.2.1
  have c1 : coeff m i = weights s := by funext c; simp [coeff, e]
  refine (hr.state i s _ e (List.getElem?_eq_getElem hi)).upToDate (hready' _ hs').wf (hinv _ hs') (fun p hp' c hc => ?_) (fun k hk => ht.reg s hs k (hd ▸ hk))
  obtain ⟨p1, p2⟩ := mem_positions hp'
  have hx : frameAt p ∈ data.frames := by
    unfold frameAt
    rw [List.getD_eq_getElem?_getD, List.getElem?_eq_getElem p2]
    exact List.mem_flatten.2 ⟨p.1, p1, List.getElem_mem p2⟩
  unfold gammaMix
  refine mul_nonneg (hp.gamma _ p1 _ p2 i hi2) ?_
  rw [c1, ← hg]
  exact Gmm.share_nonneg (hm.ready s hs) (fun c hc => lt_of_lt_of_le (by positivity) (hge _ hx i hi2 c (hg ▸ hc))) hc

theorem leaving_eq {m : Hmm ℝ} {phrases : List (List (List ℝ))} (hp : m.Posts m.floored phrases) {i : Nat} (hi : i < m.n) :
    m.leaving phrases i = (phrases.map fun fr => ∑ t ∈ Finset.range (fr.length - 1), gammaOf m m.floored fr t i).sum := sum_moves hp hi

theorem leaving_nonneg {m : Hmm ℝ} {phrases : List (List (List ℝ))} (hp : m.Posts m.floored phrases) {i : Nat} (hi : i < m.n) : 0 ≤ m.leaving phrases i :=
  Finset.sum_nonneg fun _ hj => moves_nonneg hp hi (Finset.mem_range.1 hj)

/-- the frames of a phrase in state `i`, and those of them that do not end the phrase -/
theorem visits_leaving {m : Hmm ℝ} {phrases : List (List (List ℝ))} (hp : m.Posts m.floored phrases) {i : Nat} (hi : i < m.n) :
    visits m m.floored phrases i = m.leaving phrases i + ((phrases.filter (fun fr => fr ≠ [])).map fun fr => gammaOf m m.floored fr (fr.length - 1) i).sum := by
  rw [leaving_eq hp hi, visits, sum_positions phrases fun p => gammaOf m m.floored p.1 p.2 i]
  have e1 := sum_filled_phrases phrases (fun fr => ∑ t ∈ Finset.range (fr.length - 1), gammaOf m m.floored fr t i) (by simp)
  have e2 := sum_filled_phrases phrases (fun fr => ∑ t ∈ Finset.range fr.length, gammaOf m m.floored fr t i) (by simp)
  rw [← e1, ← e2, ← map_sum_add]
  refine congrArg List.sum (List.map_congr_left fun fr hf => ?_)
  have hne : fr ≠ [] := by simpa using (List.mem_filter.1 hf).2
  have hl := List.length_pos_iff.2 hne
  rw [← Finset.sum_range_succ, show fr.length - 1 + 1 = fr.length by omega]

theorem last_nonneg {m : Hmm ℝ} {phrases : List (List (List ℝ))} (hp : m.Posts m.floored phrases) {i : Nat} (hi : i < m.n) :
    0 ≤ ((phrases.filter (fun fr => fr ≠ [])).map fun fr => gammaOf m m.floored fr (fr.length - 1) i).sum := by
  refine List.sum_nonneg fun x hx => ?_
  obtain ⟨fr, hf, rfl⟩ := List.mem_map.1 hx
  obtain ⟨h1, h2⟩ := List.mem_filter.1 hf
  have hl := List.length_pos_iff.2 (show fr ≠ [] by simpa using h2)
  exact hp.gamma fr h1 _ (by omega) i hi

theorem sum_last {m : Hmm ℝ} {phrases : List (List (List ℝ))} (hp : m.Posts m.floored phrases) :
    ∑ i ∈ Finset.range m.n, ((phrases.filter (fun fr => fr ≠ [])).map fun fr => gammaOf m m.floored fr (fr.length - 1) i).sum = (filled phrases : ℝ) := by
  rw [list_sum_swap, List.map_congr_left (g := fun _ => (1 : ℝ)) fun fr hf => ?_]
  · unfold filled
    rw [List.countP_eq_length_filter]
    simp
  · obtain ⟨h1, h2⟩ := List.mem_filter.1 hf
    have hl := List.length_pos_iff.2 (show fr ≠ [] by simpa using h2)
    exact hp.sum fr h1 _ (by omega)

/-- what the denominators of the transitions cost: at most 1 for each phrase, and 2e-5 for each state -/
theorem rowLoss_le {m : Hmm ℝ} {data : KData ℝ} (h : m.Learning data) (hrow : ∀ i < m.n, ∑ j ∈ Finset.range m.n, step m i j ≤ 1) :
    m.rowLoss data.phrases ≤ (filled data.phrases : ℝ) + (m.n : ℝ) * (2 / 10 ^ 5) := by
  have hm := h.training
  have hp := posts m hm data m.floored fun x _ i _ c _ => floored_ge m i x c
  rw [← sum_last hp, show (m.n : ℝ) * (2 / 10 ^ 5) = ∑ _i ∈ Finset.range m.n, (2 / 10 ^ 5 : ℝ) by simp, ← Finset.sum_add_distrib]
  unfold rowLoss
  refine Finset.sum_le_sum fun i hi => ?_
  have hi := Finset.mem_range.1 hi
  have hv := visits_leaving hp hi
  have hl := last_nonneg hp hi
  have hL := leaving_nonneg hp hi
  rw [hv]
  set L := m.leaving data.phrases i
  set E := ((data.phrases.filter (fun fr => fr ≠ [])).map fun fr => gammaOf m m.floored fr (fr.length - 1) i).sum
  rcases hL.eq_or_lt with k | k
  · rw [← k, zero_mul]; positivity
  · have hV : 0 < L + E + 2 / 10 ^ 5 := by positivity
    have h1 : Real.log (∑ j ∈ Finset.range m.n, step m i j) ≤ 0 :=
      Real.log_nonpos (Finset.sum_nonneg fun j hj => hm.step_nonneg i hi j (Finset.mem_range.1 hj)) (hrow i hi)
    have h2 := Real.log_le_sub_one_of_pos (div_pos hV k)
    rw [Real.log_div hV.ne' k.ne'] at h2
    rw [Real.log_div k.ne' hV.ne']
    have h3 := mul_le_mul_of_nonneg_left h2 k.le
    have h4 : L * ((L + E + 2 / 10 ^ 5) / L - 1) = E + 2 / 10 ^ 5 := by field_simp; ring
    rw [h4] at h3
    nlinarith

/-- what the regularisation costs: at most half the dimension for each frame -/
theorem regLoss_le {m m' : Hmm ℝ} {data : KData ℝ} (h : m.Learning data) {e : ℝ} (he : ∀ i < m.n, ∀ c < m.gaussians, m.regPart i c - m'.regPart i c ≤ e) :
    m.regLoss m' data.phrases ≤ (data.frames.length : ℝ) * (e / 2) := by
  have hm := h.training
  have hge : ∀ x ∈ data.frames, ∀ i < m.n, ∀ c < m.gaussians, 1 / 10 ^ 180 ≤ m.floored i x c := fun x _ i _ c _ => floored_ge m i x c
  have hp := posts m hm data m.floored hge
  have htot : ∑ i ∈ Finset.range m.n, ∑ c ∈ Finset.range m.gaussians, m.observedIn data.phrases i c = (data.frames.length : ℝ) := by
    have : ∀ i ∈ Finset.range m.n, ∑ c ∈ Finset.range m.gaussians, m.observedIn data.phrases i c =
        ((positions data.phrases).map fun p => gammaOf m m.floored p.1 p.2 i).sum := by
      intro i hi
      unfold observedIn WSpec.mass
      rw [list_sum_swap]
      refine congrArg List.sum (List.map_congr_left fun p hp' => ?_)
      obtain ⟨p1, p2⟩ := mem_positions hp'
      exact ((posteriors m hm p.1 m.floored fun x hx => hge x (List.mem_flatten.2 ⟨p.1, p1, hx⟩)).1 p.2 p2).2.2 i (Finset.mem_range.1 hi)
    rw [Finset.sum_congr rfl this, list_sum_swap, List.map_congr_left (g := fun _ => (1 : ℝ)) fun p hp' => ?_]
    · rw [show data.frames.length = (positions data.phrases).length from (positions_length _).symm]
      simp
    · obtain ⟨p1, p2⟩ := mem_positions hp'
      exact hp.sum _ p1 _ p2
  have key : ∑ i ∈ Finset.range m.n, ∑ c ∈ Finset.range m.gaussians, m.observedIn data.phrases i c * (m.regPart i c - m'.regPart i c) ≤ (data.frames.length : ℝ) * e := by
    rw [← htot, Finset.sum_mul]
    refine Finset.sum_le_sum fun i hi => ?_
    rw [Finset.sum_mul]
    refine Finset.sum_le_sum fun c hc => mul_le_mul_of_nonneg_left (he i (Finset.mem_range.1 hi) c (Finset.mem_range.1 hc)) ?_
    refine List.sum_nonneg fun x hx => ?_
    obtain ⟨p, hp', rfl⟩ := List.mem_map.1 hx
    exact gammaMix_nonneg hm hp hp' (Finset.mem_range.1 hi) (Finset.mem_range.1 hc)
  unfold regLoss
  linarith

theorem floorPart_zero {m : Hmm ℝ} {data : KData ℝ} (h : ∀ x ∈ data.frames, ∀ i < m.n, ∀ c < m.gaussians, likelihoodFloor ≤ m.pdf i x c) :
    m.floorPart data.phrases = 0 := by
  unfold floorPart
  refine List.sum_eq_zero fun y hy => ?_
  obtain ⟨p, hp', rfl⟩ := List.mem_map.1 hy
  obtain ⟨p1, p2⟩ := mem_positions hp'
  have hx : frameAt p ∈ data.frames := by
    unfold frameAt
    rw [List.getD_eq_getElem?_getD, List.getElem?_eq_getElem p2]
    exact List.mem_flatten.2 ⟨p.1, p1, List.getElem_mem p2⟩
  refine Finset.sum_eq_zero fun i hi => Finset.sum_eq_zero fun c hc => ?_
  rw [show m.floored i (frameAt p) c = m.pdf i (frameAt p) c from max_eq_right (h _ hx i (Finset.mem_range.1 hi) c (Finset.mem_range.1 hc)), sub_self, mul_zero]

theorem regPart_bounds {m : Hmm ℝ} (hw : m.WF) (hready : ∀ s ∈ m.sts, s.Ready) (hreg : ∀ s ∈ m.sts, ∀ i < m.dim, 1 / 10 ^ 9 ≤ s.reg.getD i 0)
    (hcomp : ∀ s ∈ m.sts, ∀ g ∈ s.comps, g.UpToDate ∧ g.AtLeast s.reg) {i c : Nat} (hi : i < m.n) (hc : c < m.gaussians) : 0 ≤ m.regPart i c ∧ m.regPart i c ≤ m.dim := by
  obtain ⟨s, hs, e⟩ := Learning.getState hw hi
  obtain ⟨a1, -, -, a4, -⟩ := hw.state s hs
  have := Gmm.regPart_bounds_of (hready s hs).wf (fun k hk => hreg s hs k (a4 ▸ hk)) (hcomp s hs) (c := c) (a1 ▸ hc)
  simp only [regPart, e]
  rw [a4] at this
  exact this

/-- the rows of a re-estimated model sum to at most 1 if it is Ergodic, or if there is only one phrase with frames -/
theorem newRow_le {m m' : Hmm ℝ} {data : KData ℝ} (h : m.Learning data) (hr : m.Reestimated data.phrases m.floored m') (h1 : m.ergodic = true ∨ filled data.phrases = 1) {i : Nat}
    (hi : i < m.n) : ∑ j ∈ Finset.range m.n, step m' i j ≤ 1 := by
  have hm := h.training
  have hp := posts m hm data m.floored fun x _ i _ c _ => floored_ge m i x c
  have hv := visits_leaving hp hi
  have hl := last_nonneg hp hi
  have hL := leaving_nonneg hp hi
  have hV : 0 < visits m m.floored data.phrases i + 2 / 10 ^ 5 := by rw [hv]; positivity
  rw [Finset.sum_congr rfl fun j hj => hr.step i hi j (Finset.mem_range.1 hj)]
  rcases bool_cases m.ergodic with hE | hE
  · have hf : (filled data.phrases : ℝ) = 1 := by
      rcases h1 with h1 | h1
      · rw [hE] at h1; cases h1
      · exact_mod_cast h1
    have hle : ∀ j ∈ Finset.range m.n, newStep m m.floored data.phrases i j ≤ (moves m m.floored data.phrases i j +
        ((if j = i then (if i + 1 < m.n then 1 / 10 ^ 5 else 2 / 10 ^ 5) else 0) + (if j = i + 1 then 1 / 10 ^ 5 else 0))) / (visits m m.floored data.phrases i + 2 / 10 ^ 5) := by
      intro j hj
      have hmv := moves_nonneg hp hi (Finset.mem_range.1 hj)
      simp only [newStep, hE, Bool.false_eq_true, if_false, hf, one_mul]
      by_cases hji : j = i
      · subst hji
        simp
      · by_cases hji' : j = i + 1
        · subst hji'
          simp
        · simp only [if_neg hji, if_neg hji', add_zero]
          positivity
    refine le_trans (Finset.sum_le_sum hle) ?_
    rw [← Finset.sum_div, div_le_one hV, Finset.sum_add_distrib, Finset.sum_add_distrib, Finset.sum_ite_eq', Finset.sum_ite_eq', if_pos (Finset.mem_range.2 hi)]
    rw [show (∑ j ∈ Finset.range m.n, moves m m.floored data.phrases i j) = m.leaving data.phrases i from rfl, hv]
    by_cases hl' : i + 1 < m.n
    · rw [if_pos hl', if_pos (Finset.mem_range.2 hl')]
      linarith
    · rw [if_neg hl', if_neg (fun h => hl' (Finset.mem_range.1 h))]
      linarith
  · have e : ∀ j ∈ Finset.range m.n, newStep m m.floored data.phrases i j = moves m m.floored data.phrases i j / (visits m m.floored data.phrases i + 2 / 10 ^ 5) :=
      fun j _ => by simp only [newStep, hE, if_true]
    rw [Finset.sum_congr rfl e, ← Finset.sum_div, div_le_one hV, show (∑ j ∈ Finset.range m.n, moves m m.floored data.phrases i j) = m.leaving data.phrases i from rfl, hv]
    have : (0 : ℝ) < 2 / 10 ^ 5 := by positivity
    linarith

/-- an iteration and what it guarantees -/
theorem iteration {m : Hmm ℝ} {data : KData ℝ} (h : m.Learning data) :
    ∃ m', emUpdate Dens.real Real.log data m = .ret (m.logLikelihood data.phrases) m' ∧ m.Reestimated data.phrases m.floored m' ∧ m'.WF ∧ (∀ s ∈ m'.sts, s.Ready) ∧
      (∀ s ∈ m'.sts, ∀ g ∈ s.comps, g.UpToDate ∧ g.AtLeast s.reg) ∧
      (data.frames.length ≤ 10 ^ 90 → (m.ergodic = true → ∀ i < m.n, 1 / 10 ^ 100 ≤ ∑ j ∈ Finset.range m.n, step m' i j) → m'.Learning data) := by
  have hm := h.training
  have hge : ∀ x ∈ data.frames, ∀ i < m.n, ∀ c < m.gaussians, 1 / 10 ^ 180 ≤ m.floored i x c := fun x _ i _ c _ => floored_ge m i x c
  obtain ⟨m', h3, h4, h5, h6, h7, h8, h9, h10⟩ := update_ret Dens.real Real.log (fun x y hx hy => Real.log_mul hx.ne' hy.ne') data m hm h.trains m.floored h.observes hge
  have hr' : ∀ s ∈ m'.sts, s.Ready := fun s hs => (h6 s hs).1
  have hc := next_comp hm h.trains hge h4 h5 hr' h10
  refine ⟨m', h3, h4, h5, hr', hc, fun hl hmass => ?_⟩
  obtain ⟨k1, k2, -, -⟩ := next_inTraining hm h.trains hge h4 h5 hr' h7 h8 h9 hl (by
    intro he i hi
    rw [← sum_newStep_ergodic (posts m hm data m.floored hge) he hi, ← Finset.sum_congr rfl fun j hj => h4.step i hi j (Finset.mem_range.1 hj)]
    exact hmass he i hi)
  exact ⟨k1, k2, hc⟩

/-- **C95**: an iteration of the Baum-Welch algorithm returns the log-likelihood of the training set, for the parameters that it starts from.  With the parameters that it leaves, the
    log-likelihood is at least that, less the effect of the regularisation of the covariances, of the floor of the likelihoods, and of the denominators of the transition probabilities.
    It is what the next iteration returns (the rows of an Ergodic model must keep some mass). -/
theorem C95_iteration (data : KData ℝ) (m : Hmm ℝ) (h : m.Learning data) :
    ∃ m', emUpdate Dens.real Real.log data m = .ret (m.logLikelihood data.phrases) m' ∧
      m.logLikelihood data.phrases - m.regLoss m' data.phrases - m.floorPart data.phrases - m.rowLoss data.phrases ≤ m'.logLikelihood data.phrases ∧
      (data.frames.length ≤ 10 ^ 90 → (m.ergodic = true → ∀ i < m.n, 1 / 10 ^ 100 ≤ ∑ j ∈ Finset.range m.n, step m' i j) →
        m'.Learning data ∧ ∃ m'', emUpdate Dens.real Real.log data m' = .ret (m'.logLikelihood data.phrases) m'') := by
  obtain ⟨m', h1, h2, h3, h4, h5, h6⟩ := iteration h
  refine ⟨m', h1, gain h h2 h3 h4 fun s hs g hg => (h5 s hs g hg).1, fun hl hmass => ?_⟩
  have hL := h6 hl hmass
  obtain ⟨m'', k, -⟩ := iteration hL
  exact ⟨hL, m'', k⟩

/-- **C95**, when no density is below the floor and the transition probabilities out of a state sum to at most 1: the log-likelihood loses at most half the dimension for each frame,
    1 for each phrase and 2e-5 for each state.  If the part of the regularisation in the covariances decreases by at most `e`, it loses at most `e / 2` for each frame instead. -/
theorem C95_bounded (data : KData ℝ) (m : Hmm ℝ) (h : m.Learning data) (hf : ∀ x ∈ data.frames, ∀ i < m.n, ∀ c < m.gaussians, likelihoodFloor ≤ m.pdf i x c)
    (hrow : ∀ i < m.n, ∑ j ∈ Finset.range m.n, step m i j ≤ 1) :
    ∃ m', emUpdate Dens.real Real.log data m = .ret (m.logLikelihood data.phrases) m' ∧
      (∀ e : ℝ, (∀ i < m.n, ∀ c < m.gaussians, m.regPart i c - m'.regPart i c ≤ e) →
        m.logLikelihood data.phrases - (data.frames.length : ℝ) * (e / 2) - ((filled data.phrases : ℝ) + (m.n : ℝ) * (2 / 10 ^ 5)) ≤ m'.logLikelihood data.phrases) ∧
      m.logLikelihood data.phrases - (data.frames.length : ℝ) * ((m.dim : ℝ) / 2) - ((filled data.phrases : ℝ) + (m.n : ℝ) * (2 / 10 ^ 5)) ≤ m'.logLikelihood data.phrases ∧
      (m.ergodic = true ∨ filled data.phrases = 1 → ∀ i < m.n, ∑ j ∈ Finset.range m.n, step m' i j ≤ 1) := by
  obtain ⟨m', h1, h2, h3, h4, h5, h6⟩ := iteration h
  have g := gain h h2 h3 h4 fun s hs g hg => (h5 s hs g hg).1
  rw [floorPart_zero hf] at g
  have r := rowLoss_le h hrow
  have key : ∀ e : ℝ, (∀ i < m.n, ∀ c < m.gaussians, m.regPart i c - m'.regPart i c ≤ e) →
      m.logLikelihood data.phrases - (data.frames.length : ℝ) * (e / 2) - ((filled data.phrases : ℝ) + (m.n : ℝ) * (2 / 10 ^ 5)) ≤ m'.logLikelihood data.phrases := by
    intro e he
    have := regLoss_le h he
    linarith
  have en : m'.n = m.n := by rw [h2.same]
  have eg : m'.gaussians = m.gaussians := by rw [h2.same]
  have ed : m'.dim = m.dim := by rw [h2.same]
  refine ⟨m', h1, key, key _ fun i hi c hc => ?_, fun ho i hi => newRow_le h h2 ho hi⟩
  have a := (regPart_bounds h.training.wf h.training.ready h.trains.reg h.comp hi hc).2
  have b := (regPart_bounds h3 h4 (fun s hs k hk => ?_) h5 (i := i) (c := c) (by rw [en]; exact hi) (by rw [eg]; exact hc)).1
  · linarith
  · obtain ⟨q, hq, rfl⟩ := List.getElem_of_mem hs
    have hq' : q < m.sts.length := by rw [h.training.wf.sts, ← en, ← h3.sts]; exact hq
    have := (h2.state q _ _ (List.getElem?_eq_getElem hq') (List.getElem?_eq_getElem hq)).same
    rw [this]
    exact h.trains.reg m.sts[q] (List.getElem_mem hq') k (by rw [← ed]; exact hk)

/-- **C95**, in the training of a LeftRight model, with any number `k` of iterations before: after the first one, every iteration is as in `C95_iteration`. -/
theorem C95_training (data : KData ℝ) (hl : data.frames.length ≤ 10 ^ 90) (m : Hmm ℝ) (hm : m.InTraining) (ht : m.Trains data) (he : m.ergodic = false) (k : Nat) :
    ∃ mk m' m'', iterate Dens.real Real.log data (k + 1) m = .ret () mk ∧ mk.Learning data ∧
      emUpdate Dens.real Real.log data mk = .ret (mk.logLikelihood data.phrases) m' ∧ emUpdate Dens.real Real.log data m' = .ret (m'.logLikelihood data.phrases) m'' ∧
      mk.logLikelihood data.phrases - mk.regLoss m' data.phrases - mk.floorPart data.phrases - mk.rowLoss data.phrases ≤ m'.logLikelihood data.phrases := by
  have hlog : ∀ x y : ℝ, 0 < x → 0 < y → Real.log (x * y) = Real.log x + Real.log y := fun x y hx hy => Real.log_mul hx.ne' hy.ne'
  obtain ⟨m1, h1, h2, h3, h4, h5⟩ := iterate_inTraining Dens.real Dens.real_sound Real.log hlog data hl m hm ht k (fun h => absurd h (by simp [he]))
  have he1 : m1.ergodic = false := h5.trans he
  obtain ⟨d, hd, hge⟩ := observes_exist Dens.real Dens.real_sound m1 h2.wf h2.ready data.frames h3.frame
  obtain ⟨mk, k3, k4, k5, k6, k7, k8, k9, k10⟩ := update_ret Dens.real Real.log hlog data m1 h2 h3 d hd hge
  have hr' : ∀ s ∈ mk.sts, s.Ready := fun s hs => (k6 s hs).1
  obtain ⟨q1, q2, -, q4⟩ := next_inTraining h2 h3 hge k4 k5 hr' k7 k8 k9 hl (fun h => absurd h (by simp [he1]))
  have hL : mk.Learning data := ⟨q1, q2, next_comp h2 h3 hge k4 k5 hr' k10⟩
  obtain ⟨m', r1, r2, r3⟩ := C95_iteration data mk hL
  obtain ⟨-, m'', r4⟩ := r3 hl (fun h => absurd h (by simp [q4, he1]))
  exact ⟨mk, m', m'', iterate_succ _ _ data k h1 k3, hL, r1, r4, r2⟩

/-- such models and training sets exist, with several states and phrases -/
example : ∃ (m : Hmm ℝ) (data : KData ℝ), m.Learning data ∧ m.n = 3 ∧ data.phrases.length = 3 ∧ data.frames.length = 6 := by
  obtain ⟨m, h1, h2, h3, h4, h5, h6, h7⟩ := trains_exists false
  obtain ⟨mk, m', m'', q1, q2, -⟩ := C95_training _ (by simp [KData.frames]) m h1 h6 h4 0
  obtain ⟨m1, a1, a2, -, a4, -⟩ := iterate_inTraining Dens.real Dens.real_sound Real.log h7 _ (by simp [KData.frames]) m h1 h6 1 (fun h => absurd h (by simp [h4]))
  rw [q1] at a1
  injection a1 with _ a1
  subst a1
  exact ⟨mk, _, q2, a4.trans h2, rfl, rfl⟩

/-- one component in one dimension that an iteration on the frames -1 and 1 does not change -/
noncomputable def settledState : Gmm ℝ := { Gmm.fitted with comps := [⟨false, 1, 1, 0, 0, .full, [0], [2], [1 / 2], 2, [], 1, []⟩] }

/-- a model with one state, that stays in it -/
noncomputable def settled : Hmm ℝ where
  n := 1
  gaussians := 1
  ergodic := false
  est := .full
  absReg := 1
  relReg := 0
  mode := .full
  bimodal := false
  dim := 1
  di := 0
  window := 1
  sts := [settledState]
  prior := []
  trans := [1, 0]
  alpha := [0]
  prevAlpha := [0]
  beta := [0]
  prevBeta := [0]
  alpha0 := []
  alpha1 := []
  alpha2 := []
  exitP := []
  hier := false
  started := false
  training := true
  winMin := 0
  winMax := 0
  winNorm := 0
  buf := CBuf.construct 0 1 1
  instant := 0
  logLik := 0
  progress := 0
  exitLik := 0
  exitRatio := 0
  likeliest := 0
  outVals := []
  outCov := []

theorem settled_learning : settled.Learning Gmm.fittedTo := by
  have hwf : settledState.WF := by
    refine ⟨by simp [settledState, Gmm.fitted], rfl, rfl, rfl, ?_⟩
    intro g hg
    simp only [settledState, List.mem_cons, List.not_mem_nil, or_false] at hg
    subst hg
    exact ⟨⟨rfl, rfl, rfl, by simp, by simp⟩, rfl, rfl, rfl, rfl⟩
  have hmem : ∀ s ∈ settled.sts, s = settledState := fun s hs => by simpa [settled] using hs
  refine ⟨⟨⟨by simp [settled], rfl, by simp [settled], rfl, ?_⟩, ?_, rfl, rfl, ?_, ?_, ?_, ?_, fun _ => rfl⟩, ⟨?_, by simp [Gmm.fittedTo, KData.frames], by simp [settled], ?_, ?_⟩, ?_⟩
  · intro s hs
    rw [hmem s hs]
    exact ⟨rfl, rfl, rfl, rfl, rfl⟩
  · intro s hs
    rw [hmem s hs]
    refine ⟨hwf, ⟨by simp [settledState, Gmm.fitted], by simp [settledState, Gmm.fitted]⟩, fun g hg => ?_⟩
    simp only [settledState, List.mem_cons, List.not_mem_nil, or_false] at hg
    subst hg
    exact ⟨by norm_num, by simp⟩
  · intro i hi
    have : i = 0 := by simp only [settled] at hi; omega
    subst this
    simp [start, settled]
  · simp [start, settled]
  · intro i hi j hj
    have : i = 0 := by simp only [settled] at hi; omega
    subst this
    have : j = 0 := by simp only [settled] at hj; omega
    subst this
    simp [step, settled]
  · intro i hi
    have : i = 0 := by simp only [settled] at hi; omega
    subst this
    norm_num [step, settled]
  · intro x hx
    simp [Gmm.fittedTo, KData.frames] at hx
    rcases hx with rfl | rfl <;> rfl
  · intro s hs
    rw [hmem s hs]; rfl
  · intro s hs i hi
    rw [hmem s hs]
    have : i = 0 := by simp only [settled] at hi; omega
    subst this
    norm_num [settledState, Gmm.fitted]
  · intro s hs g hg
    rw [hmem s hs] at hg ⊢
    simp only [settledState, List.mem_cons, List.not_mem_nil, or_false] at hg
    subst hg
    have hs : (Gauss.sigma (⟨false, 1, 1, 0, 0, .full, [0], [2], [1 / 2], 2, [], 1, []⟩ : Gauss ℝ)) = (2 : ℝ) • (1 : Matrix (Fin 1) (Fin 1) ℝ) := by
      ext i j
      fin_cases i; fin_cases j
      simp [Gauss.sigma, matOf]
    have hp : (Gauss.precision (⟨false, 1, 1, 0, 0, .full, [0], [2], [1 / 2], 2, [], 1, []⟩ : Gauss ℝ)) = (1 / 2 : ℝ) • (1 : Matrix (Fin 1) (Fin 1) ℝ) := by
      ext i j
      fin_cases i; fin_cases j
      simp [Gauss.precision, matOf]
    refine ⟨⟨⟨rfl, rfl, rfl, by simp, by simp⟩, ?_, ?_, ?_⟩, ?_⟩
    · rw [hs]; exact Matrix.PosDef.one.smul (by norm_num)
    · rw [hs, hp]
      ext i j
      fin_cases i; fin_cases j
      simp
    · rw [hs]
      show (2 : ℝ) = Matrix.det ((2 : ℝ) • (1 : Matrix (Fin 1) (Fin 1) ℝ))
      simp
    · intro v
      simp [settledState, Gmm.fitted, Gauss.covAt]
      nlinarith [sq_nonneg (v 0)]

theorem total_one (π : Nat → ℝ) (A b : Nat → Nat → ℝ) : total 1 π A b 1 = π 0 * A 0 0 * (b 0 0 * b 1 0) := by
  unfold total
  rw [Fintype.sum_unique]
  simp [pathWeight, Fin.prod_univ_two]

/-- **C95**: an iteration does lower the log-likelihood, though neither the regularisation nor the floor has an effect.  The model has one state, with the mean and the (regularised)
    covariance of the two frames, and stays in this state with probability 1.  The iteration divides the one transition by the two frames, and the probability is about 1/2 after it. -/
theorem C95_monotone_violated : ∃ (m : Hmm ℝ) (data : KData ℝ), m.Learning data ∧ (∀ i < m.n, ∑ j ∈ Finset.range m.n, step m i j = 1) ∧
    ∃ l m' l' m'', emUpdate Dens.real Real.log data m = .ret l m' ∧ emUpdate Dens.real Real.log data m' = .ret l' m'' ∧
      (∀ i < m.n, ∀ x c, m'.pdf i x c = m.pdf i x c) ∧ l' < l - 2 / 5 := by
  have h := settled_learning
  have hge : ∀ x ∈ Gmm.fittedTo.frames, ∀ i < settled.n, ∀ c < settled.gaussians, 1 / 10 ^ 180 ≤ settled.floored i x c := fun x _ i _ c _ => floored_ge settled i x c
  have hp := posts settled h.training Gmm.fittedTo settled.floored hge
  obtain ⟨m', h1, h2, h3, h4, h5, h6⟩ := iteration h
  obtain ⟨m'', k1, -⟩ := iteration (h6 (by simp [Gmm.fittedTo, KData.frames]) (by simp [settled]))
  set fr : List (List ℝ) := [[-1], [1]] with hfr
  have hphr : Gmm.fittedTo.phrases = [fr] := rfl
  have hpos : positions Gmm.fittedTo.phrases = [(fr, 0), (fr, 1)] := rfl
  have hmem : fr ∈ Gmm.fittedTo.phrases := by rw [hphr]; exact List.mem_singleton.2 rfl
  have hγ : ∀ t < 2, gammaOf settled settled.floored fr t 0 = 1 := fun t ht => by
    have := hp.sum fr hmem t ht
    rwa [show settled.n = 1 from rfl, Finset.sum_range_one] at this
  have hγm : ∀ t < 2, gammaMix settled settled.floored fr t 0 0 = 1 := fun t ht => by
    have := ((posteriors settled h.training fr settled.floored fun x hx => hge x (List.mem_flatten.2 ⟨fr, hmem, hx⟩)).1 t ht).2.2 0 (by simp [settled])
    rw [show settled.gaussians = 1 from rfl, Finset.sum_range_one, hγ t ht] at this
    exact this
  have hv : visits settled settled.floored Gmm.fittedTo.phrases 0 = 2 := by
    simp only [visits, hpos, List.map_cons, List.map_nil, List.sum_cons, List.sum_nil, hγ 0 (by omega), hγ 1 (by omega)]
    norm_num
  have hmv : moves settled settled.floored Gmm.fittedTo.phrases 0 0 = 1 := by
    have := hp.out fr hmem 0 (by simp [hfr]) 0 (by simp [settled])
    rw [show settled.n = 1 from rfl, Finset.sum_range_one, hγ 0 (by omega)] at this
    simp [moves, hphr, hfr]
    simpa [hfr] using this
  have hstep : step settled 0 0 = 1 := by simp [step, settled]
  have hstep' : step m' 0 0 = (1 + 2 / 10 ^ 5) / (2 + 2 / 10 ^ 5) := by
    rw [h2.step 0 (by simp [settled]) 0 (by simp [settled])]
    simp only [newStep, hv, hmv]
    simp [settled, filled, hphr, hfr]
  have en : m'.n = 1 := by rw [h2.same]; rfl
  have eg : m'.gaussians = 1 := by rw [h2.same]; rfl
  obtain ⟨s', hs', e'⟩ := Learning.getState h3 (i := 0) (by rw [en]; omega)
  have e : settled.sts[0]? = some settledState := rfl
  have hf := h2.state 0 settledState s' e e'
  have hg' : s'.gaussians = 1 := by rw [hf.same]; rfl
  have hmass : WSpec.mass (positions Gmm.fittedTo.phrases) (fun p => gammaMix settled settled.floored p.1 p.2 0) 0 = 2 := by
    simp only [WSpec.mass, hpos, List.map_cons, List.map_nil, List.sum_cons, List.sum_nil, hγm 0 (by omega), hγm 1 (by omega)]
    norm_num
  have havg : ∀ f : List (List ℝ) × Nat → ℝ, WSpec.avg (positions Gmm.fittedTo.phrases) (fun p => gammaMix settled settled.floored p.1 p.2 0) 0 f = (f (fr, 0) + f (fr, 1)) / 2 := by
    intro f
    unfold WSpec.avg
    rw [hmass, if_pos (by norm_num), hpos]
    simp only [List.map_cons, List.map_nil, List.sum_cons, List.sum_nil, hγm 0 (by omega), hγm 1 (by omega)]
    ring
  have hmean : WSpec.mean (positions Gmm.fittedTo.phrases) (fun p => gammaMix settled settled.floored p.1 p.2 0) frameAt 0 0 = 0 := by
    rw [WSpec.mean, havg]
    simp [frameAt, hfr]
  have hcov : WSpec.cov (positions Gmm.fittedTo.phrases) (fun p => gammaMix settled settled.floored p.1 p.2 0) frameAt 0 0 0 = 1 := by
    rw [WSpec.cov, havg, hmean]
    simp [frameAt, hfr]
  have hlen : 0 < s'.comps.length := by rw [(h4 s' hs').wf.comps, hg']; omega
  obtain ⟨g, hg⟩ : ∃ g, s'.comps[0]? = some g := ⟨_, List.getElem?_eq_getElem hlen⟩
  have gd : g.dim = 1 := ((h4 s' hs').wf.comp g (List.mem_of_getElem? hg)).2.1.trans (by rw [hf.same]; rfl)
  have gmean : g.mean.getD 0 0 = 0 := (hf.mean 0 g hg 0 (by simp [settledState, Gmm.fitted])).trans hmean
  have gcov : g.covAt 0 0 = 2 := by
    rw [hf.cov 0 g hg 0 (by simp [settledState, Gmm.fitted]) 0 (by simp [settledState, Gmm.fitted]), hcov]
    norm_num [settledState, Gmm.fitted]
  have hpdf0 : ∀ x, m'.pdf 0 x 0 = settled.pdf 0 x 0 := by
    intro x
    have a : m'.pdf 0 x 0 = normalPdf (Gmm.covMatrix g 1) fun i => x.getD i.val 0 - g.mean.getD i.val 0 := by
      simp only [pdf, e', Gmm.pdf, hg]
      exact (Gmm.covMatrix_eq g 1 gd).2.1 x
    have b : settled.pdf 0 x 0 = normalPdf (Gmm.covMatrix ⟨false, 1, 1, 0, 0, .full, [0], [2], [1 / 2], 2, [], 1, []⟩ 1) fun i => x.getD i.val 0 - ([0] : List ℝ).getD i.val 0 := by
      simp only [pdf, e, Gmm.pdf, settledState, List.getElem?_cons_zero]
      exact (Gmm.covMatrix_eq (⟨false, 1, 1, 0, 0, .full, [0], [2], [1 / 2], 2, [], 1, []⟩ : Gauss ℝ) 1 rfl).2.1 x
    rw [a, b]
    congr 1
    · ext i j
      fin_cases i; fin_cases j
      simp only [Gmm.covMatrix]
      exact gcov
    · funext i
      fin_cases i
      show x.getD 0 0 - g.mean.getD 0 0 = x.getD 0 0 - 0
      rw [gmean]
  have hpdf : ∀ x c, m'.pdf 0 x c = settled.pdf 0 x c := by
    intro x c
    rcases Nat.eq_zero_or_pos c with rfl | hc
    · exact hpdf0 x
    · have a : s'.comps[c]? = none := List.getElem?_eq_none (by rw [(h4 s' hs').wf.comps, hg']; omega)
      have b : settledState.comps[c]? = none := List.getElem?_eq_none (by simp [settledState]; omega)
      simp only [pdf, e', e, Gmm.pdf, a, b]
  have hw' : coeff m' 0 0 = 1 := by
    simp only [coeff, e', Option.map_some, Option.getD_some, weights]
    rw [hf.coeff 0 (by simp [settledState, Gmm.fitted]), WSpec.coeff, show settledState.gaussians = 1 from rfl, Finset.sum_range_one, hmass]
    norm_num
  have hw : coeff settled 0 0 = 1 := by simp [coeff, e, weights, settledState, Gmm.fitted]
  have hlik : ∀ t, likAt m' m'.floored fr t 0 = likAt settled settled.floored fr t 0 := by
    intro t
    simp only [likAt, likOf, mixture, eg, show settled.gaussians = 1 from rfl, Finset.sum_range_one, hw, hw', floored, hpdf]
  have hlp : ∀ t < 2, 0 < likAt settled settled.floored fr t 0 := fun t ht =>
    lt_of_lt_of_le (by positivity) ((totals_pos settled h.training fr settled.floored fun x hx => hge x (List.mem_flatten.2 ⟨fr, hmem, hx⟩)).1 t ht 0 (by simp [settled]))
  have hst : start settled 0 = 1 := by simp [start, settled]
  have hst' : start m' 0 = 1 := by
    have : m'.ergodic = false := by rw [h2.same]; rfl
    simp [start, this]
  have hl : settled.logLikelihood Gmm.fittedTo.phrases = Real.log (likAt settled settled.floored fr 0 0 * likAt settled settled.floored fr 1 0) := by
    have : settled.logLikelihood Gmm.fittedTo.phrases = Real.log (total 1 (start settled) (step settled) (likAt settled settled.floored fr) 1) := by
      simp [logLikelihood, logTotal, hphr, hfr, show settled.n = 1 from rfl]
    rw [this, total_one, hst, hstep]
    simp
  have hl' : m'.logLikelihood Gmm.fittedTo.phrases = Real.log (step m' 0 0) + Real.log (likAt settled settled.floored fr 0 0 * likAt settled settled.floored fr 1 0) := by
    have : m'.logLikelihood Gmm.fittedTo.phrases = Real.log (total 1 (start m') (step m') (likAt m' m'.floored fr) 1) := by
      simp [logLikelihood, logTotal, hphr, hfr, en]
    rw [this, total_one, hst', hlik, hlik, one_mul, Real.log_mul (by rw [hstep']; positivity) (mul_pos (hlp 0 (by omega)) (hlp 1 (by omega))).ne']
  refine ⟨settled, Gmm.fittedTo, h, ?_, _, m', _, m'', h1, k1, ?_, ?_⟩
  · intro i hi
    have : i = 0 := by simp only [settled] at hi; omega
    subst this
    rw [show settled.n = 1 from rfl, Finset.sum_range_one, hstep]
  · intro i hi x c
    have : i = 0 := by simp only [settled] at hi; omega
    subst this
    exact hpdf x c
  · rw [hl, hl', hstep']
    have := Real.log_le_sub_one_of_pos (show (0 : ℝ) < (1 + 2 / 10 ^ 5) / (2 + 2 / 10 ^ 5) by positivity)
    have h5 : ((1 : ℝ) + 2 / 10 ^ 5) / (2 + 2 / 10 ^ 5) - 1 < -(2 / 5) := by norm_num
    linarith

end Hmm
end Xmm
