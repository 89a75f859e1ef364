import Verif.Model.Ellipse
import Verif.Spec.Ellipse
import Verif.Spec.Gaussian
import Verif.Lemmas.Gaussian
import Verif.Lemmas.Sim
import Verif.Props.GaussianUpdate
import Verif.Props.GaussianRegular
/- C87: the ellipse of a distribution. -/
namespace Xmm
open Prog Real

theorem list_set_getD {α : Type} {l : List α} {i : Nat} (z : α) (h : i < l.length) : l.set i (l.getD i z) = l := by
  rw [List.getD_eq_getElem?_getD, List.getElem?_eq_getElem h, Option.getD_some, List.set_getElem_self]

namespace Gauss

/-! ### The eigenvalues -/
section
variable (a b c : ℝ)

theorem disc_eq : (a + c) * (a + c) - 4 * (a * c - b * b) = (a - c) ^ 2 + 4 * b ^ 2 := by ring

theorem eigen_facts : ∃ s : ℝ, 0 ≤ s ∧ s ^ 2 = (a - c) ^ 2 + 4 * b ^ 2 ∧ eigenVal 1 a b c = (a + c + s) / 2 ∧ eigenVal (-1) a b c = (a + c - s) / 2 := by
  refine ⟨√((a - c) ^ 2 + 4 * b ^ 2), sqrt_nonneg _, sq_sqrt (by positivity), ?_, ?_⟩ <;> unfold eigenVal <;> rw [disc_eq] <;> ring

theorem eigen_product : (eigenVal 1 a b c - a) * (eigenVal 1 a b c - c) = b ^ 2 := by
  obtain ⟨s, _, h2, h3, _⟩ := eigen_facts a b c
  rw [h3]; nlinarith [h2]

theorem eigen_ge : a ≤ eigenVal 1 a b c ∧ c ≤ eigenVal 1 a b c := by
  obtain ⟨s, h1, h2, h3, _⟩ := eigen_facts a b c
  have h := abs_le_of_sq_le_sq' (a := a - c) (b := s) (by nlinarith [sq_nonneg b]) h1
  rw [h3]; constructor <;> linarith [h.1, h.2]

theorem eigen_trace : eigenVal (-1) a b c = a + c - eigenVal 1 a b c := by
  obtain ⟨s, _, _, h3, h4⟩ := eigen_facts a b c
  rw [h3, h4]; ring

variable {a b c}

theorem eigen_nonneg (ha : 0 ≤ a) (hc : 0 ≤ c) (hd : b ^ 2 ≤ a * c) : 0 ≤ eigenVal (-1) a b c := by
  obtain ⟨s, h1, h2, _, h4⟩ := eigen_facts a b c
  have h := abs_le_of_sq_le_sq' (a := s) (b := a + c) (by nlinarith) (by linarith)
  rw [h4]; linarith [h.2]

theorem eigen_le : eigenVal (-1) a b c ≤ eigenVal 1 a b c := by
  obtain ⟨s, h1, _, h3, h4⟩ := eigen_facts a b c
  rw [h3, h4]; linarith

theorem eigen_lt (h : a ≠ c ∨ b ≠ 0) : eigenVal (-1) a b c < eigenVal 1 a b c := by
  obtain ⟨s, h1, h2, h3, h4⟩ := eigen_facts a b c
  have : s ≠ 0 := by
    rintro rfl
    rcases h with h | h
    · have := sq_nonneg b
      have h5 : 0 < (a - c) ^ 2 := by have : a - c ≠ 0 := sub_ne_zero.mpr h
                                      positivity
      nlinarith
    · have h5 : 0 < b ^ 2 := by positivity
      nlinarith [sq_nonneg (a - c)]
  have : 0 < s := lt_of_le_of_ne h1 this.symm
  rw [h3, h4]; linarith

end

/-! ### The direction -/

/-- squares and product of cosine and sine of an angle with a tangent -/
theorem cos_sin_of_tan {θ : ℝ} (h : cos θ ≠ 0) :
    cos θ ^ 2 * (tan θ ^ 2 + 1) = 1 ∧ cos θ * sin θ = tan θ * cos θ ^ 2 ∧ sin θ ^ 2 = tan θ ^ 2 * cos θ ^ 2 := by
  have h1 : tan θ * cos θ = sin θ := tan_mul_cos h
  have h2 := sin_sq_add_cos_sq θ
  refine ⟨?_, ?_, ?_⟩
  · rw [← h1] at h2; linarith [h2, mul_pow (tan θ) (cos θ) 2]
  · rw [← h1]; ring
  · rw [← h1]; ring

/-- the direction of the largest eigenvalue -/
theorem axes_of_tan {a b c θ : ℝ} (h : cos θ ≠ 0) (hk : eigenVal 1 a b c - c ≠ 0) (ht : tan θ = b / (eigenVal 1 a b c - c)) :
    Axes a b c (eigenVal 1 a b c) (eigenVal (-1) a b c) θ := by
  obtain ⟨h1, h2, h3⟩ := cos_sin_of_tan h
  have hp := eigen_product a b c
  rw [eigen_trace]
  generalize eigenVal 1 a b c = l at *
  have hb : b = tan θ * (l - c) := by rw [ht]; field_simp
  have hl : l - a = tan θ ^ 2 * (l - c) := by
    have : (l - a) * (l - c) = tan θ ^ 2 * (l - c) * (l - c) := by rw [hp, hb]; ring
    exact mul_right_cancel₀ hk this
  generalize hK : l - c = k at *
  have hc : c = l - k := by linarith
  have ha : a = l - tan θ ^ 2 * k := by linarith
  refine ⟨?_, ?_, ?_⟩
  · rw [h3]; subst hc; rw [ha]; linear_combination (l * (-1) + tan θ ^ 2 * k) * h1 - (tan θ ^ 2 * 0) * h1
  · rw [h2]; subst hc; rw [ha, hb]; linear_combination (-(tan θ * k)) * h1
  · rw [h3]; subst hc; rw [ha]; linear_combination (l * (-1) + k) * h1

theorem axes_upright {a c : ℝ} (h : a ≤ c) : Axes a 0 c (eigenVal 1 a 0 c) (eigenVal (-1) a 0 c) (π / 2) := by
  obtain ⟨s, h1, h2, h3, h4⟩ := eigen_facts a 0 c
  have : s = c - a := by
    have h5 : s ^ 2 = (c - a) ^ 2 := by rw [h2]; ring
    exact (sq_eq_sq₀ h1 (by linarith)).mp h5
  rw [h3, h4, this]
  constructor <;> rw [cos_pi_div_two, sin_pi_div_two] <;> ring

theorem axes_det {a b c l₁ l₂ θ : ℝ} (h : Axes a b c l₁ l₂ θ) : a * c - b ^ 2 = l₁ * l₂ := by
  have h2 := sin_sq_add_cos_sq θ
  have : (sin θ ^ 2 + cos θ ^ 2) ^ 2 = 1 := by rw [h2]; norm_num
  rw [h.xx, h.xy, h.yy]; linear_combination (l₁ * l₂) * this

/-- the ellipse with the semi-axes `√(q l₁)`, `√(q l₂)` is the contour at level `q` -/
theorem axes_contour {a b c w h q θ : ℝ} (hq : q ≠ 0) (H : Axes a b c (w ^ 2 / q) (h ^ 2 / q) θ) (t : ℝ) :
    OnContour a b c q (ellipsePoint w h θ t).1 (ellipsePoint w h θ t).2 := by
  unfold OnContour
  rw [axes_det H]
  have h2 := sin_sq_add_cos_sq θ
  have h3 := sin_sq_add_cos_sq t
  have e : ∀ l₁ l₂ u v : ℝ, (l₁ * sin θ ^ 2 + l₂ * cos θ ^ 2) * (u * cos θ - v * sin θ) ^ 2
      - 2 * ((l₁ - l₂) * (cos θ * sin θ)) * ((u * cos θ - v * sin θ) * (u * sin θ + v * cos θ))
      + (l₁ * cos θ ^ 2 + l₂ * sin θ ^ 2) * (u * sin θ + v * cos θ) ^ 2 = l₂ * u ^ 2 + l₁ * v ^ 2 := by
    intro l₁ l₂ u v
    have : (sin θ ^ 2 + cos θ ^ 2) ^ 2 = 1 := by rw [h2]; norm_num
    linear_combination (l₂ * u ^ 2 + l₁ * v ^ 2) * this
  have := e (w ^ 2 / q) (h ^ 2 / q) (w * cos t) (h * sin t)
  rw [← H.xx, ← H.xy, ← H.yy] at this
  simp only [ellipsePoint]
  rw [this]
  field_simp
  linear_combination (w ^ 2 * h ^ 2) * h3

/-! ### The programs -/

theorem covAt_full {g : Gauss ℝ} (hm : g.mode = .full) (i j : Nat) : g.covAt i j = g.cov.getD (i * g.dim + j) 0 := by unfold covAt; rw [hm]
theorem covAt_diagonal {g : Gauss ℝ} (hm : g.mode = .diagonal) {i j : Nat} : g.covAt i j = if i = j then g.cov.getD i 0 else 0 := by unfold covAt; rw [hm]

theorem cell_lt {n i j : Nat} (hi : i < n) (hj : j < n) : i * n + j < n * n := by
  calc i * n + j < i * n + n := by omega
    _ = (i + 1) * n := by ring
    _ ≤ n * n := Nat.mul_le_mul_right n hi

theorem ellipseCells_ret {σ : Type} {g : Gauss ℝ} (hw : g.WF) {d1 d2 : Nat} (h1 : d1 < g.dim) (h2 : d2 < g.dim) (hd : d1 ≠ d2) (s : σ) :
    ellipseCells g d1 d2 s = .ret (g.covAt d1 d1, g.covAt d1 d2, g.covAt d2 d2) s := by
  have hc := hw.cov
  unfold ellipseCells
  rcases mode_cases g with hm | hm
  · rw [hm] at hc ⊢
    simp only at hc ⊢
    rw [bind_of_ret (rd_lt (by rw [hc]; exact cell_lt h1 h1) 0 s), bind_of_ret (rd_lt (by rw [hc]; exact cell_lt h1 h2) 0 s),
      bind_of_ret (rd_lt (by rw [hc]; exact cell_lt h2 h2) 0 s), pure_def, covAt_full hm, covAt_full hm, covAt_full hm]
  · rw [hm] at hc ⊢
    simp only at hc ⊢
    rw [bind_of_ret (rd_lt (by rw [hc]; exact h1) 0 s), bind_of_ret (rd_lt (by rw [hc]; exact h2) 0 s), pure_def,
      covAt_diagonal hm, covAt_diagonal hm, covAt_diagonal hm, if_pos rfl, if_neg hd, if_pos rfl]

theorem toEllipse_ret (hp : ℝ) {g : Gauss ℝ} (hw : g.WF) {d1 d2 : Nat} (h1 : d1 < g.dim) (h2 : d2 < g.dim) (hd : d1 ≠ d2) :
    toEllipse hp d1 d2 g = .ret
      { x := g.mean.getD d1 0, y := g.mean.getD d2 0
        width := Fl.sqrt (.fin (ellipseLevel * eigenVal 1 (g.covAt d1 d1) (g.covAt d1 d2) (g.covAt d2 d2)))
        height := Fl.sqrt (.fin (ellipseLevel * eigenVal (-1) (g.covAt d1 d1) (g.covAt d1 d2) (g.covAt d2 d2)))
        angle := ellipseAngle hp (g.covAt d1 d1) (g.covAt d1 d2) (g.covAt d2 d2) } g := by
  unfold toEllipse
  rw [bind_of_ret (get_def g), if_neg (by omega), bind_of_ret (rd_lt (by rw [hw.mean]; exact h1) 0 g),
    bind_of_ret (rd_lt (by rw [hw.mean]; exact h2) 0 g), bind_of_ret (ellipseCells_ret hw h1 h2 hd g)]
  rfl

theorem ellipseAngle_slope {hp a b c : ℝ} (h : eigenVal 1 a b c - c ≠ 0) : ellipseAngle hp a b c = .fin (arctan (b / (eigenVal 1 a b c - c))) := by
  unfold ellipseAngle
  simp [Fl.div, Fl.atan, Fl.isnan, h]

theorem ellipseAngle_upright {hp a b c : ℝ} (h : eigenVal 1 a b c - c = 0) : b = 0 ∧ a ≤ c ∧ ellipseAngle hp a b c = .fin hp := by
  have hb : b = 0 := by
    have := eigen_product a b c
    rw [h, mul_zero] at this
    exact pow_eq_zero_iff (two_ne_zero) |>.mp this.symm
  refine ⟨hb, ?_, ?_⟩
  · have := (eigen_ge a b c).1; linarith
  · unfold ellipseAngle
    subst hb
    simp [Fl.div, Fl.atan, Fl.isnan, h]

theorem ellipseLevel_pos : 0 < ellipseLevel := by unfold ellipseLevel; norm_num

/-- the covariance of an ellipse that is neither horizontal nor vertical -/
theorem ellipseCov_ret {x y w h θ : ℝ} (hc : cos θ ≠ 0) (hs : sin θ ≠ 0) :
    ∃ a b c : ℝ, ellipseCov ⟨x, y, .fin w, .fin h, .fin θ⟩ = (.fin a, .fin b, .fin c) ∧
      Axes a b c (w ^ 2 / ellipseLevel) (h ^ 2 / ellipseLevel) θ := by
  have ht : tan θ ≠ 0 := by rw [tan_eq_sin_div_cos]; exact div_ne_zero hs hc
  have hp : tan θ * tan θ + 1 ≠ 0 := by have := mul_self_nonneg (tan θ); linarith
  have hl := ellipseLevel_pos.ne'
  obtain ⟨h1, h2, h3⟩ := cos_sin_of_tan hc
  refine ⟨h ^ 2 / ellipseLevel + (w ^ 2 / ellipseLevel - h ^ 2 / ellipseLevel) * tan θ / (tan θ * tan θ + 1) / tan θ,
    (w ^ 2 / ellipseLevel - h ^ 2 / ellipseLevel) * tan θ / (tan θ * tan θ + 1),
    w ^ 2 / ellipseLevel - (w ^ 2 / ellipseLevel - h ^ 2 / ellipseLevel) * tan θ / (tan θ * tan θ + 1) / tan θ, ?_, ?_⟩
  · simp only [ellipseCov, Fl.mul, Fl.div, Fl.sub, Fl.add, Fl.neg, Fl.tan, hl, hp, ht, if_false]
    simp only [← pow_two, ← sub_eq_add_neg]
  · have hk : cos θ ^ 2 = 1 / (tan θ * tan θ + 1) := by field_simp; linarith [h1]
    generalize w ^ 2 / ellipseLevel = l₁
    generalize h ^ 2 / ellipseLevel = l₂
    refine ⟨?_, ?_, ?_⟩
    · rw [h3, hk]; field_simp; ring
    · rw [h2, hk]; field_simp
    · rw [h3, hk]; field_simp; ring

/-- the covariance after the cells have been written -/
noncomputable def wroteCov (g : Gauss ℝ) (d1 d2 : Nat) (a b c : ℝ) : List ℝ :=
  match g.mode with
  | .full => (((g.cov.set (d1 * g.dim + d1) a).set (d1 * g.dim + d2) b).set (d2 * g.dim + d1) b).set (d2 * g.dim + d2) c
  | .diagonal => (g.cov.set d1 a).set d2 c

/-- the distribution after center and cells have been written -/
noncomputable def wrote (g : Gauss ℝ) (d1 d2 : Nat) (x y a b c : ℝ) : Gauss ℝ :=
  { g with mean := (g.mean.set d1 x).set d2 y, cov := wroteCov g d1 d2 a b c }

theorem fromEllipse_numbers {g : Gauss ℝ} (hw : g.WF) {d1 d2 : Nat} (h1 : d1 < g.dim) (h2 : d2 < g.dim) {E : Ellipse} {a b c : ℝ}
    (hE : ellipseCov E = (.fin a, .fin b, .fin c)) :
    fromEllipse E d1 d2 g = (do updateInverseCovariance; Pure.pure true) (wrote g d1 d2 E.x E.y a b c) := by
  have hc := hw.cov
  unfold fromEllipse
  rw [bind_of_ret (get_def g), if_neg (by omega), bind_of_ret (rd_lt (by rw [hw.mean]; exact h1) 0 g),
    bind_of_ret (rd_lt (by rw [hw.mean]; exact h2) 0 g), bind_of_ret (set_def _ g), hE]
  simp only
  refine bind_of_ret (a := ()) ?_
  unfold writeCells wrote wroteCov
  rw [bind_of_ret (get_def _)]
  rcases mode_cases g with hm | hm
  · rw [hm] at hc
    simp only [hm] at hc ⊢
    rw [bind_of_ret (rd_lt (by rw [hc]; exact cell_lt h1 h1) 0 _), bind_of_ret (rd_lt (by rw [hc]; exact cell_lt h1 h2) 0 _),
      bind_of_ret (rd_lt (by rw [hc]; exact cell_lt h2 h1) 0 _), bind_of_ret (rd_lt (by rw [hc]; exact cell_lt h2 h2) 0 _)]
    rfl
  · rw [hm] at hc
    simp only [hm] at hc ⊢
    rw [bind_of_ret (rd_lt (by rw [hc]; exact h1) 0 _), bind_of_ret (rd_lt (by rw [hc]; exact h2) 0 _)]
    rfl

theorem wrote_wf {g : Gauss ℝ} (hw : g.WF) (d1 d2 : Nat) (x y a b c : ℝ) : (wrote g d1 d2 x y a b c).WF := by
  refine ⟨by simp [wrote, hw.mean], ?_, hw.inv, hw.invIn, hw.le⟩
  have hc := hw.cov
  rcases mode_cases g with hm | hm <;> simp only [wrote, wroteCov, hm, List.length_set] at hc ⊢ <;> exact hc

/-- the covariance after the writing -/
theorem wrote_covAt {g : Gauss ℝ} (hw : g.WF) {d1 d2 : Nat} (h1 : d1 < g.dim) (h2 : d2 < g.dim) (hd : d1 ≠ d2) (x y a b c : ℝ) {i j : Nat}
    (hi : i < g.dim) (hj : j < g.dim) :
    (wrote g d1 d2 x y a b c).covAt i j =
      if i = d1 ∧ j = d1 then a else if i = d2 ∧ j = d2 then c
      else if (i = d1 ∧ j = d2) ∨ (i = d2 ∧ j = d1) then (if g.mode = .full then b else 0) else g.covAt i j := by
  have hc := hw.cov
  have hcell : ∀ k l, k < g.dim → l < g.dim → (i * g.dim + j = k * g.dim + l ↔ i = k ∧ j = l) := fun k l _ hl =>
    ⟨fun h => cell_inj hj hl h, fun h => by rw [h.1, h.2]⟩
  rcases mode_cases g with hm | hm
  · have hm' : (wrote g d1 d2 x y a b c).mode = .full := hm
    rw [covAt_full hm', covAt_full hm]
    simp only [hm] at hc
    simp only [wrote, wroteCov, hm, if_true]
    have c11 := cell_lt h1 h1
    have c12 := cell_lt h1 h2
    have c21 := cell_lt h2 h1
    have c22 := cell_lt h2 h2
    rw [getD_set _ _ _ _ _ (by simpa [hc] using c22), getD_set _ _ _ _ _ (by simpa [hc] using c21), getD_set _ _ _ _ _ (by simpa [hc] using c12),
      getD_set _ _ _ _ _ (by simpa [hc] using c11)]
    simp only [hcell _ _ h2 h2, hcell _ _ h2 h1, hcell _ _ h1 h2, hcell _ _ h1 h1]
    split_ifs <;> first | rfl | omega
  · have hm' : (wrote g d1 d2 x y a b c).mode = .diagonal := hm
    rw [covAt_diagonal hm', covAt_diagonal hm]
    simp only [hm] at hc
    simp only [wrote, wroteCov, hm]
    rw [getD_set _ _ _ _ _ (by simpa [hc] using h2), getD_set _ _ _ _ _ (by simpa [hc] using h1)]
    split_ifs <;> first | rfl | omega | simp_all

end Gauss

open Gauss

/-- **C87, range.** Axes that are not dimensions of the distribution are refused by both functions with `out_of_range`, and nothing changes. -/
theorem C87_out_of_range (hp : ℝ) (E : Ellipse) (g : Gauss ℝ) (d1 d2 : Nat) (h : g.dim ≤ d1 ∨ g.dim ≤ d2) :
    toEllipse hp d1 d2 g = .throw .outOfRange g ∧ fromEllipse E d1 d2 g = .throw .outOfRange g := by
  unfold toEllipse fromEllipse
  rw [bind_of_ret (get_def g), bind_of_ret (get_def g), if_pos h, if_pos h]
  exact ⟨rfl, rfl⟩

/-- **C87, the ellipse.** For two dimensions on which the covariance is positive semidefinite, `toEllipse` returns, changes nothing, and its result has the mean as
    its center; its angle is the direction of the largest eigenvalue of the covariance on these dimensions, and its points are those where the quadratic form of the inverse
    covariance is 5.991 (the width and the height being the distances from the center to the ends of the axes). -/
theorem C87_to_ellipse (g : Gauss ℝ) (hw : g.WF) (d1 d2 : Nat) (h1 : d1 < g.dim) (h2 : d2 < g.dim) (hd : d1 ≠ d2)
    (h11 : 0 ≤ g.covAt d1 d1) (h22 : 0 ≤ g.covAt d2 d2) (h12 : g.covAt d1 d2 ^ 2 ≤ g.covAt d1 d1 * g.covAt d2 d2) :
    ∃ w h θ : ℝ, toEllipse (π / 2) d1 d2 g = .ret ⟨g.mean.getD d1 0, g.mean.getD d2 0, .fin w, .fin h, .fin θ⟩ g ∧
      0 ≤ h ∧ h ≤ w ∧ -(π / 2) < θ ∧ θ ≤ π / 2 ∧
      Axes (g.covAt d1 d1) (g.covAt d1 d2) (g.covAt d2 d2) (w ^ 2 / (5991 / 1000)) (h ^ 2 / (5991 / 1000)) θ ∧
      ∀ t, OnContour (g.covAt d1 d1) (g.covAt d1 d2) (g.covAt d2 d2) (5991 / 1000) (ellipsePoint w h θ t).1 (ellipsePoint w h θ t).2 := by
  rw [toEllipse_ret (π / 2) hw h1 h2 hd]
  generalize g.covAt d1 d1 = a at *
  generalize g.covAt d1 d2 = b at *
  generalize g.covAt d2 d2 = c at *
  have hl := ellipseLevel_pos
  have e2 := eigen_nonneg h11 h22 h12
  have e1 : 0 ≤ eigenVal 1 a b c := e2.trans eigen_le
  have key : ∃ θ : ℝ, ellipseAngle (π / 2) a b c = .fin θ ∧ -(π / 2) < θ ∧ θ ≤ π / 2 ∧ Axes a b c (eigenVal 1 a b c) (eigenVal (-1) a b c) θ := by
    by_cases hk : eigenVal 1 a b c - c = 0
    · obtain ⟨hb, hac, ha⟩ := ellipseAngle_upright (hp := π / 2) hk
      subst hb
      exact ⟨_, ha, by linarith [pi_pos], le_rfl, axes_upright hac⟩
    · exact ⟨_, ellipseAngle_slope hk, neg_pi_div_two_lt_arctan _, (arctan_lt_pi_div_two _).le, axes_of_tan (cos_arctan_pos _).ne' hk (tan_arctan _)⟩
  obtain ⟨θ, hθ, hθ1, hθ2, hax⟩ := key
  have q1 : √(ellipseLevel * eigenVal 1 a b c) ^ 2 / (5991 / 1000) = eigenVal 1 a b c := by
    rw [sq_sqrt (mul_nonneg hl.le e1)]; unfold ellipseLevel; ring
  have q2 : √(ellipseLevel * eigenVal (-1) a b c) ^ 2 / (5991 / 1000) = eigenVal (-1) a b c := by
    rw [sq_sqrt (mul_nonneg hl.le e2)]; unfold ellipseLevel; ring
  have hax' : Axes a b c (√(ellipseLevel * eigenVal 1 a b c) ^ 2 / (5991 / 1000)) (√(ellipseLevel * eigenVal (-1) a b c) ^ 2 / (5991 / 1000)) θ := by
    rw [q1, q2]; exact hax
  refine ⟨√(ellipseLevel * eigenVal 1 a b c), √(ellipseLevel * eigenVal (-1) a b c), θ, ?_, sqrt_nonneg _,
    sqrt_le_sqrt (mul_le_mul_of_nonneg_left eigen_le hl.le), hθ1, hθ2, hax', axes_contour (by norm_num) hax'⟩
  simp only [Fl.sqrt, not_lt.mpr (mul_nonneg hl.le e1), not_lt.mpr (mul_nonneg hl.le e2), if_false, hθ]

/-- C87 (violated). The documentation (xmmGaussianDistribution.hpp:58-66) says that `width` is the length of the minor axis and `height` that of the major axis: it
    is the other way round whenever the axes differ. -/
theorem C87_axes_violated (hp : ℝ) (g : Gauss ℝ) (hw : g.WF) (d1 d2 : Nat) (h1 : d1 < g.dim) (h2 : d2 < g.dim) (hd : d1 ≠ d2)
    (h11 : 0 ≤ g.covAt d1 d1) (h22 : 0 ≤ g.covAt d2 d2) (h12 : g.covAt d1 d2 ^ 2 ≤ g.covAt d1 d1 * g.covAt d2 d2)
    (hne : g.covAt d1 d1 ≠ g.covAt d2 d2 ∨ g.covAt d1 d2 ≠ 0) :
    ∃ (w h : ℝ) (E : Ellipse), toEllipse hp d1 d2 g = .ret E g ∧ E.width = .fin w ∧ E.height = .fin h ∧ h < w := by
  have hl := ellipseLevel_pos
  have e2 := eigen_nonneg h11 h22 h12
  have e1 := e2.trans (eigen_le (a := g.covAt d1 d1) (b := g.covAt d1 d2) (c := g.covAt d2 d2))
  refine ⟨_, _, _, toEllipse_ret hp hw h1 h2 hd, by simp only [Fl.sqrt, not_lt.mpr (mul_nonneg hl.le e1), if_false]; rfl,
    by simp only [Fl.sqrt, not_lt.mpr (mul_nonneg hl.le e2), if_false]; rfl, ?_⟩
  exact sqrt_lt_sqrt (mul_nonneg hl.le e2) (mul_lt_mul_of_pos_left (eigen_lt hne) hl)

/-- **C87, setting from an ellipse.** For an ellipse whose axes are not parallel to those of the space: if `fromEllipse` returns, the center is the mean on the two
    dimensions, the covariance on them has the axes of the ellipse (in Diagonal mode, only the variances), all other means and covariances are what they were, and the
    inverse covariance is that of the new covariance. -/
theorem C87_from_ellipse (g : Gauss ℝ) (hw : g.WF) (d1 d2 : Nat) (h1 : d1 < g.dim) (h2 : d2 < g.dim) (hd : d1 ≠ d2) (x y w h θ : ℝ)
    (hc : cos θ ≠ 0) (hs : sin θ ≠ 0) (r : Bool) (g' : Gauss ℝ) (H : fromEllipse ⟨x, y, .fin w, .fin h, .fin θ⟩ d1 d2 g = .ret r g') :
    r = true ∧ g'.WF ∧ g'.dim = g.dim ∧ g'.mode = g.mode ∧
    (∀ i, g'.mean.getD i 0 = if i = d1 then x else if i = d2 then y else g.mean.getD i 0) ∧
    (∃ a b c, Axes a b c (w ^ 2 / (5991 / 1000)) (h ^ 2 / (5991 / 1000)) θ ∧ g'.covAt d1 d1 = a ∧ g'.covAt d2 d2 = c ∧
      (g.mode = .full → g'.covAt d1 d2 = b ∧ g'.covAt d2 d1 = b)) ∧
    (∀ i j, i < g.dim → j < g.dim → ¬((i = d1 ∨ i = d2) ∧ (j = d1 ∨ j = d2)) → g'.covAt i j = g.covAt i j) ∧
    g'.precision * g'.sigma = 1 := by
  obtain ⟨a, b, c, hE, hax⟩ := ellipseCov_ret (x := x) (y := y) (w := w) (h := h) hc hs
  rw [fromEllipse_numbers hw h1 h2 hE] at H
  cases hu : updateInverseCovariance (wrote g d1 d2 x y a b c) with
  | throw e s => rw [bind_def, hu] at H; cases H
  | ub => rw [bind_def, hu] at H; cases H
  | ret u g1 =>
    rw [bind_of_ret hu, pure_def] at H
    injection H with hr hg
    subst hg
    obtain ⟨hwf, hsp, hinv, _⟩ := C31_inverse _ _ (wrote_wf hw _ _ _ _ _ _ _) hu
    have hcov : ∀ i j, g1.covAt i j = (wrote g d1 d2 x y a b c).covAt i j := fun i j => by
      unfold covAt; rw [hsp.mode, hsp.cov, hsp.dim]
    refine ⟨hr.symm, hwf, hsp.dim, hsp.mode, fun i => ?_, ⟨a, b, c, hax, ?_, ?_, fun hm => ⟨?_, ?_⟩⟩, fun i j hi hj hn => ?_, hinv⟩
    · rw [hsp.mean]
      simp only [wrote]
      rw [getD_set _ _ _ _ _ (by simpa [hw.mean] using h2), getD_set _ _ _ _ _ (by simpa [hw.mean] using h1)]
      split_ifs <;> first | rfl | omega
    · rw [hcov, wrote_covAt hw h1 h2 hd _ _ _ _ _ h1 h1]; simp
    · rw [hcov, wrote_covAt hw h1 h2 hd _ _ _ _ _ h2 h2]; simp [hd.symm]
    · rw [hcov, wrote_covAt hw h1 h2 hd _ _ _ _ _ h1 h2]; simp [hd, hd.symm, hm]
    · rw [hcov, wrote_covAt hw h1 h2 hd _ _ _ _ _ h2 h1]; simp [hd, hd.symm, hm]
    · rw [hcov, wrote_covAt hw h1 h2 hd _ _ _ _ _ hi hj]
      split_ifs <;> first | rfl | (exfalso; omega)

/-- **C87, round trip.** If the covariance between the two dimensions is not 0 (so the mode is Full), giving the result of `toEllipse` to `fromEllipse` leaves a
    distribution whose inverse is up to date exactly as it was. -/
theorem C87_round_trip (hp : ℝ) (g₀ g : Gauss ℝ) (hw : g.WF) (hm₀ : g₀.mode = .full) (hu : updateInverseCovariance g₀ = .ret () g) (hm : g.mode = .full)
    (d1 d2 : Nat) (h1 : d1 < g.dim) (h2 : d2 < g.dim) (hd : d1 ≠ d2) (hsym : g.covAt d2 d1 = g.covAt d1 d2)
    (h11 : 0 ≤ g.covAt d1 d1) (h22 : 0 ≤ g.covAt d2 d2) (h12 : g.covAt d1 d2 ^ 2 ≤ g.covAt d1 d1 * g.covAt d2 d2) (hb : g.covAt d1 d2 ≠ 0) :
    ∃ E, toEllipse hp d1 d2 g = .ret E g ∧ fromEllipse E d1 d2 g = .ret true g := by
  have hl := ellipseLevel_pos
  have e2 := eigen_nonneg h11 h22 h12
  have e1 := e2.trans (eigen_le (a := g.covAt d1 d1) (b := g.covAt d1 d2) (c := g.covAt d2 d2))
  refine ⟨_, toEllipse_ret hp hw h1 h2 hd, ?_⟩
  have hk : eigenVal 1 (g.covAt d1 d1) (g.covAt d1 d2) (g.covAt d2 d2) - g.covAt d2 d2 ≠ 0 := fun h => hb (ellipseAngle_upright (hp := hp) h).1
  have hcos := (cos_arctan_pos (g.covAt d1 d2 / (eigenVal 1 (g.covAt d1 d1) (g.covAt d1 d2) (g.covAt d2 d2) - g.covAt d2 d2))).ne'
  have hax := axes_of_tan (a := g.covAt d1 d1) hcos hk (tan_arctan _)
  have hsin : sin (arctan (g.covAt d1 d2 / (eigenVal 1 (g.covAt d1 d1) (g.covAt d1 d2) (g.covAt d2 d2) - g.covAt d2 d2))) ≠ 0 := by
    intro h0
    apply hb
    rw [hax.xy, h0, mul_zero, mul_zero]
  obtain ⟨a, b, c, hE, hax'⟩ := ellipseCov_ret (x := g.mean.getD d1 0) (y := g.mean.getD d2 0)
    (w := √(ellipseLevel * eigenVal 1 (g.covAt d1 d1) (g.covAt d1 d2) (g.covAt d2 d2)))
    (h := √(ellipseLevel * eigenVal (-1) (g.covAt d1 d1) (g.covAt d1 d2) (g.covAt d2 d2))) hcos hsin
  rw [sq_sqrt (mul_nonneg hl.le e1), sq_sqrt (mul_nonneg hl.le e2), mul_div_cancel_left₀ _ hl.ne', mul_div_cancel_left₀ _ hl.ne'] at hax'
  have ea : a = g.covAt d1 d1 := hax'.xx.trans hax.xx.symm
  have eb : b = g.covAt d1 d2 := hax'.xy.trans hax.xy.symm
  have ec : c = g.covAt d2 d2 := hax'.yy.trans hax.yy.symm
  have hE' : ellipseCov ⟨g.mean.getD d1 0, g.mean.getD d2 0,
      Fl.sqrt (.fin (ellipseLevel * eigenVal 1 (g.covAt d1 d1) (g.covAt d1 d2) (g.covAt d2 d2))),
      Fl.sqrt (.fin (ellipseLevel * eigenVal (-1) (g.covAt d1 d1) (g.covAt d1 d2) (g.covAt d2 d2))),
      ellipseAngle hp (g.covAt d1 d1) (g.covAt d1 d2) (g.covAt d2 d2)⟩ = (.fin a, .fin b, .fin c) := by
    rw [← hE, ellipseAngle_slope hk]
    simp only [Fl.sqrt, not_lt.mpr (mul_nonneg hl.le e1), not_lt.mpr (mul_nonneg hl.le e2), if_false]
  rw [fromEllipse_numbers hw h1 h2 hE']
  have hsame : wrote g d1 d2 (g.mean.getD d1 0) (g.mean.getD d2 0) a b c = g := by
    have hc := hw.cov
    rw [hm] at hc
    simp only at hc
    unfold wrote wroteCov
    rw [hm]
    simp only
    rw [ea, eb, ec]
    have l1 : g.mean.set d1 (g.mean.getD d1 0) = g.mean := list_set_getD _ (by rw [hw.mean]; exact h1)
    have l2 : g.mean.set d2 (g.mean.getD d2 0) = g.mean := list_set_getD _ (by rw [hw.mean]; exact h2)
    rw [l1, l2, covAt_full hm, list_set_getD _ (by rw [hc]; exact cell_lt h1 h1), covAt_full hm d1 d2,
      list_set_getD _ (by rw [hc]; exact cell_lt h1 h2), ← covAt_full hm d1 d2, ← hsym, covAt_full hm d2 d1,
      list_set_getD _ (by rw [hc]; exact cell_lt h2 h1), covAt_full hm d2 d2, list_set_getD _ (by rw [hc]; exact cell_lt h2 h2)]
    cases g
    simp_all
  rw [hsame, bind_of_ret (update_again hm₀ hu)]
  rfl

/-- C87 (violated). If the covariance between the two dimensions is 0 and the first variance is the larger one — in particular for every such distribution in Diagonal
    mode — `fromEllipse` given the result of `toEllipse` replaces both variances by NaN. -/
theorem C87_axis_aligned_violated (hp : ℝ) (g : Gauss ℝ) (hw : g.WF) (d1 d2 : Nat) (h1 : d1 < g.dim) (h2 : d2 < g.dim) (hd : d1 ≠ d2)
    (h12 : g.covAt d1 d2 = 0) (h22 : 0 ≤ g.covAt d2 d2) (hlt : g.covAt d2 d2 < g.covAt d1 d1) :
    ∃ E, toEllipse hp d1 d2 g = .ret E g ∧ ellipseCov E = (.nan, .fin 0, .nan) ∧ ∃ g', fromEllipse E d1 d2 g = .ret false g' := by
  have hl := ellipseLevel_pos
  have hnz := hl.ne'
  refine ⟨_, toEllipse_ret hp hw h1 h2 hd, ?_⟩
  rw [h12]
  generalize g.covAt d1 d1 = a at *
  generalize g.covAt d2 d2 = c at *
  have hk : eigenVal 1 a 0 c - c ≠ 0 := by have := (eigen_ge a 0 c).1; intro h; linarith
  have e2 : 0 ≤ eigenVal (-1) a 0 c := eigen_nonneg (by linarith) h22 (by nlinarith)
  have e1 : 0 ≤ eigenVal 1 a 0 c := e2.trans eigen_le
  have hE : ellipseCov ⟨g.mean.getD d1 0, g.mean.getD d2 0, Fl.sqrt (.fin (ellipseLevel * eigenVal 1 a 0 c)),
      Fl.sqrt (.fin (ellipseLevel * eigenVal (-1) a 0 c)), ellipseAngle hp a 0 c⟩ = (.nan, .fin 0, .nan) := by
    rw [ellipseAngle_slope hk]
    simp [ellipseCov, Fl.sqrt, Fl.mul, Fl.div, Fl.sub, Fl.add, Fl.neg, Fl.tan, not_lt.mpr (mul_nonneg hl.le e1), not_lt.mpr (mul_nonneg hl.le e2), hnz]
  refine ⟨hE, { g with mean := (g.mean.set d1 (g.mean.getD d1 0)).set d2 (g.mean.getD d2 0) }, ?_⟩
  unfold fromEllipse
  rw [bind_of_ret (get_def g), if_neg (by omega), bind_of_ret (rd_lt (by rw [hw.mean]; exact h1) 0 g),
    bind_of_ret (rd_lt (by rw [hw.mean]; exact h2) 0 g), bind_of_ret (set_def _ g), hE]
  rfl

/-- C87 (violated). Every ellipse at angle 0, whatever its size, makes the variances NaN. -/
theorem C87_horizontal_violated (x y w h : ℝ) : ellipseCov ⟨x, y, .fin w, .fin h, .fin 0⟩ = (.nan, .fin 0, .nan) := by
  have hnz := ellipseLevel_pos.ne'
  simp [ellipseCov, Fl.mul, Fl.div, Fl.sub, Fl.add, Fl.neg, Fl.tan, hnz]

/-- C87 (violated). A flat ellipse (height 0) is refused for a distribution of two dimensions in Full mode, but mean and covariance have been replaced when the exception
    is thrown. -/
theorem C87_flat_violated (g : Gauss ℝ) (hw : g.WF) (hm : g.mode = .full) (hdim : g.dim = 2) (x y w θ : ℝ) (hc : cos θ ≠ 0) (hs : sin θ ≠ 0) :
    ∃ g', fromEllipse ⟨x, y, .fin w, .fin 0, .fin θ⟩ 0 1 g = .throw .runtimeError g' ∧ g'.mean = [x, y] ∧
      g'.covAt 0 0 = w ^ 2 / (5991 / 1000) * cos θ ^ 2 := by
  obtain ⟨a, b, c, hE, hax⟩ := ellipseCov_ret (x := x) (y := y) (w := w) (h := 0) hc hs
  rw [fromEllipse_numbers hw (by omega) (by omega) hE]
  have hw' := wrote_wf hw 0 1 x y a b c
  have hm' : (wrote g 0 1 x y a b c).mode = .full := hm
  have hcov : ∀ i j, i < g.dim → j < g.dim → _ := fun i j hi hj => wrote_covAt hw (d1 := 0) (d2 := 1) (by omega) (by omega) (by omega) x y a b c hi hj
  have hdet : (wrote g 0 1 x y a b c).sigma.det = 0 := by
    have h0 : a * c - b * b = 0 := by have := axes_det hax; simp at this; linarith [this]
    have hd' : (wrote g 0 1 x y a b c).dim = 2 := hdim
    have : ∀ (n : Nat) (hn : n = 2) (M : Matrix (Fin n) (Fin n) ℝ), M ⟨0, by omega⟩ ⟨0, by omega⟩ = a → M ⟨0, by omega⟩ ⟨1, by omega⟩ = b →
        M ⟨1, by omega⟩ ⟨0, by omega⟩ = b → M ⟨1, by omega⟩ ⟨1, by omega⟩ = c → M.det = 0 := by
      rintro n rfl M m1 m2 m3 m4
      rw [Matrix.det_fin_two]
      have m1 : M 0 0 = a := m1
      have m2 : M 0 1 = b := m2
      have m3 : M 1 0 = b := m3
      have m4 : M 1 1 = c := m4
      rw [m1, m2, m3, m4, h0]
    refine this _ hd' _ ?_ ?_ ?_ ?_ <;> rw [sigma_covAt, hcov _ _ (by omega) (by omega)] <;> simp [hm]
  have hthrow := C09_singular_throws _ _ (covMat_holds _ hm') hdet
  have hu : updateInverseCovariance (wrote g 0 1 x y a b c) = .throw .runtimeError (wrote g 0 1 x y a b c) := by
    rw [updateInverse_full _ hm', updateInverseFull_eq _ hw' hm', hthrow]
  refine ⟨_, by rw [bind_def, hu], ?_, ?_⟩
  · have hl := hw.mean
    rw [hdim] at hl
    match hg : g.mean, hl with
    | [_, _], _ => simp [wrote, hg]
  · rw [hcov 0 0 (by omega) (by omega)]
    simp only [and_self, if_true]
    have := hax.xx
    unfold ellipseLevel at this
    rw [this]; ring

/-- a correlated distribution of two dimensions -/
def Gauss.correlated : Gauss ℝ where
  bimodal := false
  dim := 2
  dimMin := 1
  di := 0
  diMax := 0
  mode := .full
  mean := [0, 0]
  cov := [2, 1, 1, 2]
  inv := [1, 0, 0, 1]
  det := 1
  invIn := []
  detIn := 1
  outCov := []

/-- Non-vacuity: a correlated distribution of two dimensions whose inverse is up to date. -/
example : ∃ g : Gauss ℝ, g.WF ∧ g.mode = .full ∧ g.dim = 2 ∧ g.covAt 0 1 = 1 ∧ g.covAt 1 0 = 1 ∧ 0 ≤ g.covAt 0 0 ∧ 0 ≤ g.covAt 1 1 ∧
    g.covAt 0 1 ^ 2 ≤ g.covAt 0 0 * g.covAt 1 1 ∧ updateInverseCovariance g = .ret () g := by
  have hw : Gauss.correlated.WF := ⟨rfl, rfl, rfl, (fun h => by cases h), (fun h => by cases h)⟩
  have hr : Gauss.correlated.Regular := by
    refine ⟨?_, ?_⟩
    · intro i hi j hj
      simp only [Gauss.correlated] at hi hj
      interval_cases i <;> interval_cases j <;> rfl
    · intro v
      simp only [Gauss.correlated, Finset.sum_range_succ, Finset.sum_range_zero, Gauss.covAt]
      simp only [List.getD_eq_getElem?_getD, Nat.zero_mul, Nat.one_mul, Nat.zero_add, Nat.reduceAdd, Nat.add_zero]
      simp
      nlinarith [sq_nonneg (v 0 + v 1), sq_nonneg (v 0), sq_nonneg (v 1)]
  obtain ⟨g', hu, _⟩ := C68_gaussian_inverts _ hw hr
  obtain ⟨hw', hsp, _⟩ := C31_inverse _ _ hw hu
  have hcov : ∀ i j, g'.covAt i j = ([2, 1, 1, 2] : List ℝ).getD (i * 2 + j) 0 := fun i j => by
    unfold covAt; rw [hsp.mode, hsp.cov, hsp.dim]; rfl
  refine ⟨g', hw', hsp.mode, hsp.dim, ?_, ?_, ?_, ?_, ?_, update_again rfl hu⟩ <;> simp only [hcov] <;> norm_num

example : ∃ g : Gauss ℝ, g.WF ∧ g.mode = .diagonal ∧ 1 < g.dim ∧ g.covAt 0 1 = 0 ∧ 0 ≤ g.covAt 1 1 ∧ g.covAt 1 1 < g.covAt 0 0 :=
  ⟨{ bimodal := false, dim := 2, dimMin := 1, di := 0, diMax := 0, mode := .diagonal, mean := [0, 0], cov := [2, 1],
     inv := [1 / 2, 1], det := 2, invIn := [], detIn := 0, outCov := [] },
   ⟨rfl, rfl, rfl, (fun h => by cases h), (fun h => by cases h)⟩, rfl, by norm_num, by simp [covAt], by simp [covAt], by simp [covAt]⟩

/-- an ellipse turned by one radian -/
example : cos 1 ≠ 0 ∧ sin 1 ≠ 0 := ⟨cos_one_pos.ne', (sin_pos_of_pos_of_lt_pi one_pos (by linarith [pi_gt_three])).ne'⟩

end Xmm
