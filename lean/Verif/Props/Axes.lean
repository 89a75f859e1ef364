import Verif.Spec.Axes
import Verif.Props.EmMonotone
import Verif.Props.GmmRecognition
import Mathlib.LinearAlgebra.Matrix.NonsingularInverse
set_option linter.unusedSimpArgs false
set_option linter.unusedSectionVars false
/- C98: training and recognition in other axes. -/
namespace Xmm
open Prog (bind_def pure_def get_def set_def modify_def throw_def undef_def)
open GmmSpec

theorem normalPdf_axes {d : Nat} (e : Fin d ≃ Fin d) (s : Fin d → ℝ) (hs : ∀ k, s k * s k = 1) (S S' : Matrix (Fin d) (Fin d) ℝ) (v v' : Fin d → ℝ)
    (hS : ∀ i j, S' i j = s i * s j * S (e i) (e j)) (hv : ∀ i, v' i = s i * v (e i)) : normalPdf S' v' = normalPdf S v := by
  have hD : Matrix.diagonal s * Matrix.diagonal s = 1 := by
    rw [Matrix.diagonal_mul_diagonal, ← Matrix.diagonal_one]
    congr 1
    exact funext hs
  have hDi : (Matrix.diagonal s)⁻¹ = Matrix.diagonal s := Matrix.inv_eq_right_inv hD
  have hS' : S' = Matrix.diagonal s * S.submatrix e e * Matrix.diagonal s := by
    ext i j
    rw [Matrix.mul_diagonal, Matrix.diagonal_mul, Matrix.submatrix_apply, hS]
    ring
  have hdet : S'.det = S.det := by
    have h1 : (Matrix.diagonal s).det * (Matrix.diagonal s).det = 1 := by rw [← Matrix.det_mul, hD, Matrix.det_one]
    rw [hS', Matrix.det_mul, Matrix.det_mul, Matrix.det_submatrix_equiv_self]
    linear_combination S.det * h1
  have hinv : S'⁻¹ = Matrix.diagonal s * S⁻¹.submatrix e e * Matrix.diagonal s := by
    rw [hS', Matrix.mul_inv_rev, Matrix.mul_inv_rev, hDi, Matrix.inv_submatrix_equiv, Matrix.mul_assoc]
  have hq : v' ⬝ᵥ S'⁻¹.mulVec v' = v ⬝ᵥ S⁻¹.mulVec v := by
    simp only [dotProduct, Matrix.mulVec]
    rw [← Equiv.sum_comp e fun i => v i * ∑ j, S⁻¹ i j * v j]
    refine Finset.sum_congr rfl fun i _ => ?_
    rw [← Equiv.sum_comp e fun j => S⁻¹ (e i) j * v j, hv, Finset.mul_sum, Finset.mul_sum]
    refine Finset.sum_congr rfl fun j _ => ?_
    rw [hinv, Matrix.mul_diagonal, Matrix.diagonal_mul, Matrix.submatrix_apply, hv]
    linear_combination v (e i) * S⁻¹ (e i) (e j) * v (e j) * (s j * s j * hs i + hs j)
  unfold normalPdf
  rw [hq, hdet]

namespace NewAxes
variable {d : Nat} (A : NewAxes d)

theorem sq (k : Fin d) : A.sign k * A.sign k = 1 := by
  rcases A.unit k with h | h <;> rw [h] <;> norm_num

theorem frame_length (x : List ℝ) : (A.frame x).length = d := by simp [frame]

theorem frame_at (x : List ℝ) (k : Fin d) : (A.frame x).getD k.val 0 = A.sign k * x.getD (A.axis k).val 0 + A.shift k := by
  have h : k.val < (A.frame x).length := by rw [frame_length]; exact k.isLt
  rw [List.getD_eq_getElem?_getD, List.getElem?_eq_getElem h, Option.getD_some]
  simp [frame]

theorem spread_at (sd : List ℝ) (k : Fin d) : (A.spread sd).getD k.val 0 = sd.getD (A.axis k).val 0 := by
  have h : k.val < (A.spread sd).length := by simp [spread]
  rw [List.getD_eq_getElem?_getD, List.getElem?_eq_getElem h, Option.getD_some]
  simp [spread]

theorem frames (s : KData ℝ) : (A.data s).frames = s.frames.map A.frame := by
  simp [KData.frames, data, List.map_flatten]

/-! ### Averages -/

theorem average_affine {l : List (List ℝ)} (hl : l ≠ []) (f : List ℝ → ℝ) (a b : ℝ) : average l (fun x => a * f x + b) = a * average l f + b := by
  have hn : (l.length : ℝ) ≠ 0 := by exact_mod_cast (List.length_pos_iff.2 hl).ne'
  have hs : ∀ l : List (List ℝ), (l.map fun x => a * f x + b).sum = a * (l.map f).sum + l.length * b := by
    intro l
    induction l with
    | nil => simp
    | cons x l ih =>
      simp only [List.map_cons, List.sum_cons, ih, List.length_cons]
      push_cast; ring
  unfold average
  rw [hs]
  field_simp

theorem average_map (l : List (List ℝ)) (f : List ℝ → ℝ) : average (l.map A.frame) f = average l fun x => f (A.frame x) := by
  simp [average, Function.comp_def]

theorem average_mul (l : List (List ℝ)) (f : List ℝ → ℝ) (a : ℝ) : average l (fun x => a * f x) = a * average l f := by
  unfold average
  rw [List.sum_map_mul_left, mul_div_assoc]

/-- the covariance of two moved columns -/
theorem covariance_moved (l : List (List ℝ)) (i j : Fin d) :
    covariance (l.map A.frame) i.val j.val = A.sign i * A.sign j * covariance l (A.axis i).val (A.axis j).val := by
  by_cases hl : l = []
  · subst hl; simp [covariance, average]
  · unfold covariance
    rw [average_map, average_map, average_map]
    simp only [frame_at]
    rw [average_affine hl, average_affine hl]
    refine Eq.trans ?_ (average_mul l _ (A.sign i * A.sign j))
    congr 1
    funext x
    ring

theorem deviations_moved (l : List (List ℝ)) : deviations d (l.map A.frame) = A.spread (deviations d l) := by
  apply List.ext_getElem
  · simp [deviations, spread]
  · intro k h1 h2
    have hk : k < d := by simpa [deviations] using h1
    have h3 : (A.axis ⟨k, hk⟩).val < (deviations d l).length := by simp [deviations]
    simp only [deviations, spread, List.getElem_ofFn, covariance_moved, sq, one_mul]
    rw [List.getD_eq_getElem?_getD, List.getElem?_eq_getElem (by simp), Option.getD_some]
    simp

/-! ### k-means -/

/-- the centers are moved as the frames are -/
def Centers (clusters : Nat) (c c' : List ℝ) : Prop :=
  ∀ k < clusters, ∀ i : Fin d, KMeans.center c' d k i.val = A.sign i * KMeans.center c d k (A.axis i).val + A.shift i

theorem sum_moved (u u' : Nat → ℝ) (v v' : Nat → ℝ) (hu : ∀ i : Fin d, u' i.val = A.sign i * u (A.axis i).val + A.shift i)
    (hv : ∀ i : Fin d, v' i.val = A.sign i * v (A.axis i).val + A.shift i) :
    ∑ i ∈ Finset.range d, (u' i - v' i) ^ 2 = ∑ i ∈ Finset.range d, (u i - v i) ^ 2 := by
  rw [Finset.sum_range, Finset.sum_range, ← Equiv.sum_comp A.axis fun i => (u i.val - v i.val) ^ 2]
  refine Finset.sum_congr rfl fun i _ => ?_
  rw [hu, hv]
  linear_combination (u (A.axis i).val - v (A.axis i).val) ^ 2 * A.sq i

variable {A}

theorem Centers.sqDist {clusters : Nat} {c c' : List ℝ} (h : A.Centers clusters c c') {k : Nat} (hk : k < clusters) (x : List ℝ) :
    KMeans.sqDist d (A.frame x) c' k = KMeans.sqDist d x c k :=
  A.sum_moved (fun i => x.getD i 0) (fun i => (A.frame x).getD i 0) _ _ (A.frame_at x) (h k hk)

theorem Centers.nearest {clusters : Nat} {c c' : List ℝ} (h : A.Centers clusters c c') (x : List ℝ) (k : Nat) :
    KMeans.Nearest clusters d c' (A.frame x) k ↔ KMeans.Nearest clusters d c x k := by
  unfold KMeans.Nearest
  constructor
  · rintro ⟨a, b, e⟩
    exact ⟨a, fun j hj => by rw [← h.sqDist a, ← h.sqDist hj]; exact b j hj, fun j hj => by rw [← h.sqDist a, ← h.sqDist (lt_trans hj a)]; exact e j hj⟩
  · rintro ⟨a, b, e⟩
    exact ⟨a, fun j hj => by rw [h.sqDist a, h.sqDist hj]; exact b j hj, fun j hj => by rw [h.sqDist a, h.sqDist (lt_trans hj a)]; exact e j hj⟩

theorem Centers.members {clusters : Nat} {c c' : List ℝ} (h : A.Centers clusters c c') (frames : List (List ℝ)) (k : Nat) :
    KMeans.members clusters d c' (frames.map A.frame) k = (KMeans.members clusters d c frames k).map A.frame := by
  unfold KMeans.members
  rw [List.filter_map]
  congr 1
  refine List.filter_congr fun x _ => ?_
  exact decide_eq_decide.2 (h.nearest x k)

theorem Centers.gap {clusters : Nat} {a a' b b' : List ℝ} (ha : A.Centers clusters a a') (hb : A.Centers clusters b b') {k l : Nat} (hk : k < clusters)
    (hl : l < clusters) : KMeans.gap d a' b' k l = KMeans.gap d a b k l := by
  unfold KMeans.gap
  rw [A.sum_moved _ _ _ _ (ha k hk) (hb l hl)]

theorem Centers.converged {clusters : Nat} {a a' b b' : List ℝ} (ha : A.Centers clusters a a') (hb : A.Centers clusters b b') (thr : ℝ) :
    KMeans.Converged thr clusters d a' b' ↔ KMeans.Converged thr clusters d a b := by
  have h1 : KMeans.spreadOf clusters d b' = KMeans.spreadOf clusters d b := by
    unfold KMeans.spreadOf
    refine Finset.sum_congr rfl fun k hk => Finset.sum_congr rfl fun l hl => ?_
    rw [hb.gap hb (Finset.mem_range.1 hk) (Finset.mem_range.1 hl)]
  have h2 : KMeans.maxMove clusters d a' b' = KMeans.maxMove clusters d a b := by
    unfold KMeans.maxMove
    refine Finset.fold_congr fun k hk => ?_
    rw [ha.gap hb (Finset.mem_range.1 hk) (Finset.mem_range.1 hk)]
  unfold KMeans.Converged
  rw [h1, h2]

theorem meanOf_eq (l : List (List ℝ)) (i : Nat) : KMeans.meanOf l i = average l fun x => x.getD i 0 := rfl

/-- one iteration of k-means -/
theorem Centers.update {clusters : Nat} {c c' n n' : List ℝ} {frames : List (List ℝ)} (h : A.Centers clusters c c')
    (hb : (∀ i, A.shift i = 0) ∨ ∀ k < clusters, KMeans.members clusters d c frames k ≠ [])
    (hn : ∀ k < clusters, ∀ i < d, KMeans.center n d k i =
      if KMeans.members clusters d c frames k = [] then 0 else KMeans.meanOf (KMeans.members clusters d c frames k) i)
    (hn' : ∀ k < clusters, ∀ i < d, KMeans.center n' d k i =
      if KMeans.members clusters d c' (frames.map A.frame) k = [] then 0 else KMeans.meanOf (KMeans.members clusters d c' (frames.map A.frame) k) i) :
    A.Centers clusters n n' := by
  intro k hk i
  rw [hn k hk _ (A.axis i).isLt, hn' k hk _ i.isLt, h.members frames k]
  by_cases he : KMeans.members clusters d c frames k = []
  · rw [he]
    rcases hb with hb | hb
    · simp [hb i]
    · exact absurd he (hb k hk)
  · rw [if_neg he, if_neg (by simpa using he), meanOf_eq, meanOf_eq, average_map]
    simp only [frame_at]
    exact average_affine he _ _ _

/-- the clusterings of the frames in the old and in the new axes -/
theorem clustering_moved {thr : ℝ} {clusters maxIter : Nat} {frames : List (List ℝ)} {init init' : Nat → Nat → ℝ} {c c' : List ℝ}
    (h : KMeans.IsClustering thr clusters maxIter d frames init c) (h' : KMeans.IsClustering thr clusters maxIter d (frames.map A.frame) init' c')
    (hi : ∀ k < clusters, ∀ i : Fin d, init' k i.val = A.sign i * init k (A.axis i).val + A.shift i)
    (hb : (∀ i, A.shift i = 0) ∨ KMeans.NoneIdle thr clusters maxIter d frames init) : A.Centers clusters c c' := by
  obtain ⟨n, cs, rfl, h1, h2, h3, h4, h5⟩ := h
  obtain ⟨n', cs', rfl, h1', h2', h3', h4', h5'⟩ := h'
  have hb' : ∀ i < n, (∀ i, A.shift i = 0) ∨ ∀ k < clusters, KMeans.members clusters d (cs i) frames k ≠ [] := fun i hin =>
    hb.imp id fun hb => hb n cs h1 h2 h3 h4 i hin
  have key : ∀ i, i ≤ n → i ≤ n' → A.Centers clusters (cs i) (cs' i) := by
    intro i
    induction i with
    | zero =>
      intro _ _ k hk i
      rw [h2' k hk _ i.isLt, h2 k hk _ (A.axis i).isLt]
      exact hi k hk i
    | succ i ih =>
      intro hin hin'
      exact (ih (by omega) (by omega)).update (hb' i (by omega)) (h3 i (by omega)) (h3' i (by omega))
  rcases lt_trichotomy n n' with hlt | rfl | hlt
  · obtain ⟨p, q⟩ := h5 (by omega)
    refine absurd ?_ (h4' (n - 1) (by omega))
    rw [Nat.sub_add_cancel p]
    exact ((key (n - 1) (by omega) (by omega)).converged (key n le_rfl (by omega)) thr).2 q
  · exact key n le_rfl le_rfl
  · obtain ⟨p, q⟩ := h5' (by omega)
    refine absurd ?_ (h4 (n' - 1) (by omega))
    rw [Nat.sub_add_cancel p]
    exact ((key (n' - 1) (by omega) (by omega)).converged (key n' (by omega) le_rfl) thr).1 q

theorem segmentMean_moved (p : List (List ℝ)) {q k : Nat} (hk : (k + 1) * q ≤ p.length) (hq : (∀ i, A.shift i = 0) ∨ q ≠ 0) (i : Fin d) :
    KMeans.segmentMean (p.map A.frame) q k i.val = A.sign i * KMeans.segmentMean p q k (A.axis i).val + A.shift i := by
  unfold KMeans.segmentMean
  have e : ∀ t ∈ Finset.range q, ((p.map A.frame).getD (k * q + t) []).getD i.val 0 / (q : ℝ) =
      A.sign i * ((p.getD (k * q + t) []).getD (A.axis i).val 0 / (q : ℝ)) + A.shift i / (q : ℝ) := by
    intro t ht
    have ht := Finset.mem_range.1 ht
    have hlt : k * q + t < p.length := by
      have : (k + 1) * q = k * q + q := by ring
      omega
    have e1 : (p.map A.frame).getD (k * q + t) [] = A.frame p[k * q + t] := by
      rw [List.getD_eq_getElem?_getD, List.getElem?_map, List.getElem?_eq_getElem hlt, Option.map_some, Option.getD_some]
    have e2 : p.getD (k * q + t) [] = p[k * q + t] := by
      rw [List.getD_eq_getElem?_getD, List.getElem?_eq_getElem hlt, Option.getD_some]
    rw [e1, e2, frame_at]
    ring
  rw [Finset.sum_congr rfl e, Finset.sum_add_distrib, ← Finset.mul_sum, Finset.sum_const, Finset.card_range, nsmul_eq_mul]
  congr 1
  by_cases h0 : q = 0
  · rcases hq with hq | hq
    · rw [hq i]; simp
    · exact absurd h0 hq
  · have : (q : ℝ) ≠ 0 := by exact_mod_cast h0
    field_simp

/-! ### One iteration of expectation-maximisation -/

section iteration
variable {n : Nat} {w : Nat → ℝ} {dens dens' : List ℝ → Nat → ℝ} {frames : List (List ℝ)}

theorem resp_moved (hd : ∀ x ∈ frames, ∀ c < n, dens' (A.frame x) c = dens x c) {x : List ℝ} (hx : x ∈ frames) {c : Nat} (hc : c < n) :
    resp n w (dens' (A.frame x)) c = resp n w (dens x) c := by
  unfold resp score
  rw [hd x hx c hc]
  congr 1
  refine Finset.sum_congr rfl fun j hj => ?_
  rw [hd x hx j (Finset.mem_range.1 hj)]

theorem wsum_moved (hd : ∀ x ∈ frames, ∀ c < n, dens' (A.frame x) c = dens x c) {c : Nat} (hc : c < n) (f : List ℝ → ℝ) :
    wsum n w dens' (frames.map A.frame) c f = wsum n w dens frames c fun x => f (A.frame x) := by
  unfold wsum
  rw [List.map_map]
  congr 1
  refine List.map_congr_left fun x hx => ?_
  simp only [Function.comp, resp_moved hd hx hc]

theorem wavg_moved (hd : ∀ x ∈ frames, ∀ c < n, dens' (A.frame x) c = dens x c) {c : Nat} (hc : c < n) (f : List ℝ → ℝ) :
    wavg n w dens' (frames.map A.frame) c f = wavg n w dens frames c fun x => f (A.frame x) := by
  unfold wavg
  rw [wsum_moved hd hc, wsum_moved hd hc]

theorem wsum_affine (frames : List (List ℝ)) (c : Nat) (f : List ℝ → ℝ) (a b : ℝ) :
    wsum n w dens frames c (fun x => a * f x + b) = a * wsum n w dens frames c f + b * wsum n w dens frames c fun _ => 1 := by
  unfold wsum
  induction frames with
  | nil => simp
  | cons x l ih =>
    simp only [List.map_cons, List.sum_cons, ih]
    ring

theorem wavg_affine {c : Nat} (h0 : wsum n w dens frames c (fun _ => 1) ≠ 0) (f : List ℝ → ℝ) (a b : ℝ) :
    wavg n w dens frames c (fun x => a * f x + b) = a * wavg n w dens frames c f + b := by
  unfold wavg
  rw [wsum_affine]
  field_simp

theorem wmean_moved (hd : ∀ x ∈ frames, ∀ c < n, dens' (A.frame x) c = dens x c) {c : Nat} (hc : c < n) (h0 : wsum n w dens frames c (fun _ => 1) ≠ 0) (k : Fin d) :
    wmean n w dens' (frames.map A.frame) c k.val = A.sign k * wmean n w dens frames c (A.axis k).val + A.shift k := by
  unfold wmean
  rw [wavg_moved hd hc]
  simp only [frame_at]
  exact wavg_affine h0 _ _ _

theorem wcov_moved (hd : ∀ x ∈ frames, ∀ c < n, dens' (A.frame x) c = dens x c) {c : Nat} (hc : c < n) (h0 : wsum n w dens frames c (fun _ => 1) ≠ 0) (i j : Fin d) :
    wcov n w dens' (frames.map A.frame) c i.val j.val = A.sign i * A.sign j * wcov n w dens frames c (A.axis i).val (A.axis j).val := by
  unfold wcov
  rw [wavg_moved hd hc, wmean_moved hd hc h0, wmean_moved hd hc h0]
  simp only [frame_at]
  have := wavg_affine h0 (fun x => (x.getD (A.axis i).val 0 - wmean n w dens frames c (A.axis i).val) * (x.getD (A.axis j).val 0 - wmean n w dens frames c (A.axis j).val))
    (A.sign i * A.sign j) 0
  rw [add_zero] at this
  rw [← this]
  congr 1
  funext x
  ring

end iteration

/-- what two mixtures must have in common before an iteration whose densities are the same -/
structure Aligned (A : NewAxes d) (m m' : Gmm ℝ) : Prop where
  dim : m.dim = d
  same : m' = { m with coeffs := m'.coeffs, beta := m'.beta, comps := m'.comps, reg := m'.reg }
  coeffs : m'.coeffs = m.coeffs
  reg : ∀ k : Fin d, m'.reg.getD k.val 0 = m.reg.getD (A.axis k).val 0

theorem Carries.aligned {m m' : Gmm ℝ} (h : A.Carries m m') : A.Aligned m m' := ⟨h.dim, h.same, h.coeffs, h.reg⟩

/-- the density of a component -/
theorem Carries.pdf {m m' : Gmm ℝ} (h : A.Carries m m') (hw : m.WF) (hw' : m'.WF) (x : List ℝ) (c : Nat) : m'.pdf (A.frame x) c = m.pdf x c := by
  have hdim : m'.dim = d := by rw [h.same]; exact h.dim
  unfold Gmm.pdf
  cases hg : m.comps[c]? with
  | none =>
    have : m'.comps[c]? = none := by
      rw [List.getElem?_eq_none_iff] at hg ⊢
      rw [h.size]; exact hg
    rw [this]
  | some g =>
    cases hg' : m'.comps[c]? with
    | none =>
      rw [List.getElem?_eq_none_iff, h.size] at hg'
      have := (List.getElem?_eq_some_iff.1 hg).1
      omega
    | some g' =>
      obtain ⟨-, gd, -⟩ := hw.comp g (List.mem_of_getElem? hg)
      obtain ⟨-, gd', -⟩ := hw'.comp g' (List.mem_of_getElem? hg')
      simp only
      rw [(Gmm.covMatrix_eq g d (gd.trans h.dim)).2.1, (Gmm.covMatrix_eq g' d (gd'.trans hdim)).2.1]
      refine normalPdf_axes A.axis A.sign A.sq _ _ _ _ (fun i j => h.cov c g g' hg hg' i j) fun i => ?_
      rw [frame_at, h.mean c g g' hg hg' i]
      ring

theorem Carries.floored {m m' : Gmm ℝ} (h : A.Carries m m') (hw : m.WF) (hw' : m'.WF) (x : List ℝ) (c : Nat) : m'.floored (A.frame x) c = m.floored x c := by
  unfold Gmm.floored
  rw [h.pdf hw hw']

/-- an iteration from the same densities -/
theorem update_moved {m m' t t' : Gmm ℝ} (h : A.Aligned m m') {frames : List (List ℝ)} (hne : frames ≠ []) {dens dens' : List ℝ → Nat → ℝ} (hw0 : ∀ c < m.gaussians, 0 ≤ weights m c)
    (hp : ∀ x ∈ frames, ∀ c < m.gaussians, 0 < dens x c) (hd : ∀ x ∈ frames, ∀ c < m.gaussians, dens' (A.frame x) c = dens x c)
    (hu : m.Updated frames dens t) (hu' : m'.Updated (frames.map A.frame) dens' t') : A.Carries t t' := by
  have hgs : m'.gaussians = m.gaussians := by rw [h.same]
  have hmode : m'.mode = m.mode := by rw [h.same]
  have hdim : m'.dim = d := by rw [h.same]; exact h.dim
  have hwt : weights m' = weights m := by unfold weights; rw [h.coeffs]
  have t1 : t.gaussians = m.gaussians := by rw [hu.same]
  have t1' : t'.gaussians = m.gaussians := by rw [hu'.same, ← hgs]
  have hs0 : ∀ c < m.gaussians, wsum m.gaussians (weights m) dens frames c (fun _ => 1) ≠ 0 := fun c hc => (Gmm.wsum_one_pos hw0 hp hc hne).ne'
  have hsize : t'.comps.length = t.comps.length := by rw [hu'.wf.comps, hu.wf.comps, t1, t1']
  have hcc : ∀ (c : Nat) (g : Gauss ℝ), t.comps[c]? = some g → c < m.gaussians := fun c g hg => by
    rw [← t1, ← hu.wf.comps]; exact (List.getElem?_eq_some_iff.1 hg).1
  refine ⟨by rw [hu.same]; exact h.dim, ?_, hsize, ?_, fun k => ?_, fun c g g' hg hg' k => ?_, fun c g g' hg hg' i j => ?_⟩
  · rw [hu'.same, h.same, hu.same]
  · refine List.ext_getElem (by rw [hu'.wf.coeffs, hu.wf.coeffs, t1, t1']) fun c hc' hc => ?_
    have hcm : c < m.gaussians := by rw [← t1, ← hu.wf.coeffs]; exact hc
    have a := hu.coeff c hcm
    have b := hu'.coeff c (hgs ▸ hcm)
    rw [hgs, hwt, wsum_moved hd hcm, List.length_map] at b
    rw [← a] at b
    rw [List.getD_eq_getElem?_getD, List.getD_eq_getElem?_getD, List.getElem?_eq_getElem hc, List.getElem?_eq_getElem hc', Option.getD_some, Option.getD_some] at b
    exact b
  · rw [hu'.same, hu.same]; exact h.reg k
  · have hcm := hcc c g hg
    rw [hu'.mean c g' hg' _ (by rw [hdim]; exact k.isLt), hu.mean c g hg _ (by rw [h.dim]; exact (A.axis k).isLt), hgs, hwt]
    exact wmean_moved hd hcm (hs0 c hcm) k
  · have hcm := hcc c g hg
    rw [hu'.cov c g' hg' _ (by rw [hdim]; exact i.isLt) _ (by rw [hdim]; exact j.isLt), hu.cov c g hg _ (by rw [h.dim]; exact (A.axis i).isLt) _ (by rw [h.dim]; exact (A.axis j).isLt),
      hgs, hwt, hmode, wcov_moved hd hcm (hs0 c hcm)]
    by_cases hij : i = j
    · subst hij
      simp only [ne_eq, not_true_eq_false, and_false, if_false, if_true, h.reg i]
      linear_combination (-(m.reg.getD (A.axis i).val 0)) * A.sq i
    · have h1 : i.val ≠ j.val := fun e => hij (Fin.ext e)
      have h2 : (A.axis i).val ≠ (A.axis j).val := fun e => hij (A.axis.injective (Fin.ext e))
      simp only [ne_eq, h1, h2, not_false_eq_true, and_true, if_false, add_zero]
      split_ifs <;> simp

/-! ### The whole training -/

theorem fed (A : NewAxes d) {m : Gmm ℝ} (hd : m.dim = d) {sd : List ℝ} {data : KData ℝ} (hf : m.Fed sd data) : m.Fed (A.spread sd) (A.data data) := by
  refine ⟨hf.dim, fun x hx => ?_, ?_, by simp [spread, hd]⟩
  · rw [A.frames] at hx
    obtain ⟨y, -, rfl⟩ := List.mem_map.1 hx
    rw [A.frame_length, hd]
  · rw [A.frames]; simpa using hf.some

theorem longPhrase (A : NewAxes d) (m : Gmm ℝ) (data : KData ℝ) : m.LongPhrase (A.data data) ↔ m.LongPhrase data := by
  unfold Gmm.LongPhrase
  simp [NewAxes.data]

theorem segmentOf_moved (A : NewAxes d) (data : KData ℝ) (parts c : Nat) : segmentOf (A.data data) parts c = (segmentOf data parts c).map A.frame := by
  unfold segmentOf NewAxes.data
  rw [List.flatMap_map, List.map_flatMap]
  congr 1
  funext p
  simp [List.map_take, List.map_drop]

theorem headD_moved (A : NewAxes d) (data : KData ℝ) : (A.data data).phrases.headD [] = (data.phrases.headD []).map A.frame := by
  unfold NewAxes.data
  cases data.phrases <;> simp

theorem reg_moved (A : NewAxes d) {m : Gmm ℝ} (hd : m.dim = d) {sd : List ℝ} {data : KData ℝ} (hf : m.Fed sd data) (k : Fin d) :
    (Gmm.regularization m (A.spread sd)).getD k.val 0 = (Gmm.regularization m sd).getD (A.axis k).val 0 := by
  rw [Gmm.reg_at (A.fed hd hf) k.val (by rw [hd]; exact k.isLt), Gmm.reg_at hf (A.axis k).val (by rw [hd]; exact (A.axis k).isLt), spread_at]

/-- the initialised mixtures -/
theorem initialised_moved (A : NewAxes d) {m m2 m2' : Gmm ℝ} (hd : m.dim = d) (h1 : 1 ≤ m.gaussians) {sd : List ℝ} {data : KData ℝ}
    (ho : (∀ i, A.shift i = 0) ∨ m.Steady data) (hl : m2.comps.length = m.gaussians) (hl' : m2'.comps.length = m.gaussians)
    (h : m.Initialised sd data m2) (h' : m.Initialised (A.spread sd) (A.data data) m2') : A.Carries m2 m2' := by
  subst hd
  obtain ⟨cs, i1, i2⟩ := h.mean
  obtain ⟨cs', i1', i2'⟩ := h'.mean
  have hcen : A.Centers m.gaussians cs cs' := by
    rw [A.frames] at i1'
    refine clustering_moved i1 i1' (fun k hk i => ?_) (ho.imp id fun h => h.busy)
    rw [A.headD_moved, List.length_map]
    refine segmentMean_moved _ ?_ (ho.imp id fun h => ?_) i
    · calc (k + 1) * ((data.phrases.headD []).length / m.gaussians) ≤ m.gaussians * ((data.phrases.headD []).length / m.gaussians) :=
          Nat.mul_le_mul_right _ hk
        _ ≤ _ := Nat.mul_div_le _ _
    · have := h.first
      exact (Nat.div_pos this h1).ne'
  have hmode : m2.dim = m.dim := by rw [h.same]
  refine ⟨hmode, ?_, by rw [hl, hl'], by rw [h.coeffs, h'.coeffs], fun k => ?_, fun c g g' hg hg' k => ?_, fun c g g' hg hg' i j => ?_⟩
  · rw [h'.same, h.same]
  · rw [h.reg _ (A.axis k).isLt, h'.reg _ k.isLt, spread_at]
  · have hc : c < m.gaussians := by rw [← hl]; exact (List.getElem?_eq_some_iff.1 hg).1
    rw [i2 c g hg _ (A.axis k).isLt, i2' c g' hg' _ k.isLt]
    exact hcen c hc k
  · rw [h.cov c g hg _ (A.axis i).isLt _ (A.axis j).isLt, h'.cov c g' hg' _ i.isLt _ j.isLt, A.segmentOf_moved, covariance_moved, spread_at]
    by_cases hij : i = j
    · subst hij
      simp only [ne_eq, not_true_eq_false, and_false, if_false, if_true]
      linear_combination (-(max m.absReg (m.relReg * sd.getD (A.axis i).val 0))) * A.sq i
    · have h1 : i.val ≠ j.val := fun e => hij (Fin.ext e)
      have h2 : (A.axis i).val ≠ (A.axis j).val := fun e => hij (A.axis.injective (Fin.ext e))
      simp only [ne_eq, h1, h2, not_false_eq_true, and_true, if_false, add_zero]
      split_ifs <;> simp

/-- one step of the training -/
theorem step_moved (A : NewAxes d) {m0 t t' : Gmm ℝ} {data : KData ℝ} (ok : Bool) (n : Nat) (e3 : Gmm.Going m0 data t) (e4 : Gmm.Going m0 (A.data data) t') (e5 : A.Aligned t t')
    (e6 : ok = true ∨ 0 < n → t.InTraining data ∧ t'.InTraining (A.data data) ∧ A.Carries t t') :
    ∃ l s s', Gmm.trainStep Dens.real Real.log data ok n t = .ret l s ∧ Gmm.trainStep Dens.real Real.log (A.data data) ok n t' = .ret l s' ∧ Gmm.Going m0 data s ∧
      Gmm.Going m0 (A.data data) s' ∧ s.InTraining data ∧ s'.InTraining (A.data data) ∧ A.Carries s s' := by
  have hgs : t'.gaussians = t.gaussians := by rw [e5.same]
  have hwt : weights t' = weights t := by unfold weights; rw [e5.coeffs]
  have key : ∀ (D : Dens ℝ) (dens dens' : List ℝ → Nat → ℝ), Densities D t data.frames dens → Densities D t' (A.data data).frames dens' →
      (∀ x ∈ data.frames, ∀ c < t.gaussians, 0 < dens x c) → (∀ x ∈ data.frames, ∀ c < t.gaussians, dens' (A.frame x) c = dens x c) →
      ∃ l s s', Gmm.emUpdate D Real.log data t = .ret l s ∧ Gmm.emUpdate D Real.log (A.data data) t' = .ret l s' ∧ Gmm.Going m0 data s ∧
        Gmm.Going m0 (A.data data) s' ∧ s.InTraining data ∧ s'.InTraining (A.data data) ∧ A.Carries s s' := by
    intro D dens dens' hd hd' hp heq
    have hp' : ∀ x ∈ (A.data data).frames, ∀ c < t'.gaussians, 0 < dens' x c := by
      intro x hx c hc
      rw [A.frames] at hx
      obtain ⟨y, hy, rfl⟩ := List.mem_map.1 hx
      rw [heq y hy c (hgs ▸ hc)]
      exact hp y hy c (hgs ▸ hc)
    obtain ⟨s, k1, k2, k3⟩ := Gmm.emUpdate_inTraining D Real.log data t e3.wf e3.coeffs e3.trains e3.reg dens hd hp
    obtain ⟨s', k1', k2', k3'⟩ := Gmm.emUpdate_inTraining D Real.log (A.data data) t' e4.wf e4.coeffs e4.trains e4.reg dens' hd' hp'
    refine ⟨_, s, s', k1, ?_, ⟨?_, k3.wf, k3.coeffs, k3.trains, k3.reg⟩, ⟨?_, k3'.wf, k3'.coeffs, k3'.trains, k3'.reg⟩, k3, k3', ?_⟩
    · rw [k1', A.frames, List.map_map, hgs, hwt]
      congr 2
      refine List.map_congr_left fun x hx => ?_
      simp only [Function.comp]
      congr 1
      refine Finset.sum_congr rfl fun c hc => ?_
      unfold score
      rw [heq x hx c (Finset.mem_range.1 hc)]
    · rw [k2.same, e3.same]
    · rw [k2'.same, e4.same]
    · rw [A.frames] at k2'
      exact update_moved e5 e3.trains.some (fun c _ => Gmm.weights_nonneg e3.coeffs c) hp heq k2 k2'
  unfold Gmm.trainStep
  by_cases h : (ok || 0 < n) = true
  · rw [if_pos h, if_pos h]
    obtain ⟨i1, i2, i3⟩ := e6 (by simpa using h)
    exact key Dens.real t.floored t'.floored (Gmm.UpToDate.density i1.wf (fun g hg => (i1.comp g hg).1) data.frames i1.trains.frame)
      (Gmm.UpToDate.density i2.wf (fun g hg => (i2.comp g hg).1) _ i2.trains.frame) (fun x _ c _ => Gmm.floored_pos t x c)
      (fun x _ c _ => i3.floored i1.wf i2.wf x c)
  · rw [if_neg h, if_neg h]
    exact key Dens.floor _ _ (Gmm.floor_densities t data.frames) (Gmm.floor_densities t' _) (fun _ _ _ _ => by positivity) (fun _ _ _ _ => rfl)

/-- the steps of the training -/
theorem steps_moved (A : NewAxes d) {m0 m m' : Gmm ℝ} {data : KData ℝ} (ok : Bool) (hg : Gmm.Going m0 data m) (hg' : Gmm.Going m0 (A.data data) m') (ha : A.Aligned m m')
    (h0 : ok = true → m.InTraining data ∧ m'.InTraining (A.data data) ∧ A.Carries m m') :
    ∀ n, ∃ ls t t', Gmm.trainSteps Dens.real Real.log data ok n m = .ret ls t ∧ Gmm.trainSteps Dens.real Real.log (A.data data) ok n m' = .ret ls t' ∧
      Gmm.Going m0 data t ∧ Gmm.Going m0 (A.data data) t' ∧ A.Aligned t t' ∧ (ok = true ∨ 0 < n → t.InTraining data ∧ t'.InTraining (A.data data) ∧ A.Carries t t')
  | 0 => ⟨[], m, m', rfl, rfl, hg, hg', ha, fun h => h0 (by simpa using h)⟩
  | n + 1 => by
    obtain ⟨ls, t, t', e1, e2, e3, e4, e5, e6⟩ := steps_moved A ok hg hg' ha h0 n
    obtain ⟨l, s, s', k1, k2, k3, k4, k5, k6, k7⟩ := step_moved A ok n e3 e4 e5 e6
    exact ⟨ls ++ [l], s, s', by rw [Gmm.trainSteps, bind_of_ret e1, bind_of_ret k1, pure_def], by rw [Gmm.trainSteps, bind_of_ret e2, bind_of_ret k2, pure_def],
      k3, k4, k7.aligned, fun _ => ⟨k5, k6, k7⟩⟩

end NewAxes

/-- the initialisation in the old and in the new axes -/
theorem Gmm.start_moved (m : Gmm ℝ) (ha : m.Admissible) (sd : List ℝ) (data : KData ℝ) (hf : m.Fed sd data) (hreg : 1 / 10 ^ 9 ≤ m.absReg) (A : NewAxes m.dim)
    (ho : (∀ i, A.shift i = 0) ∨ m.Steady data) :
    ∃ m1 ok m2 m2', allocate m = .ret () m1 ∧ emInit Real.sqrt sd data m1 = .ret ok m2 ∧ emInit Real.sqrt (A.spread sd) (A.data data) m1 = .ret ok m2' ∧
      Going m data m2 ∧ Going m (A.data data) m2' ∧ A.Aligned m2 m2' ∧ (ok = true → m2.InTraining data ∧ m2'.InTraining (A.data data) ∧ A.Carries m2 m2') := by
  have hf' := A.fed rfl hf
  obtain ⟨m1, ok, m2, e1, e2, e3, e4, -, -⟩ := start_ret m ha sd data hf hreg
  obtain ⟨m1', ok', m2', e1', e2', e3', e4', -, -⟩ := start_ret m ha (A.spread sd) (A.data data) hf' hreg
  rw [e1] at e1'
  injection e1' with _ e1'
  subst e1'
  have hok : ok' = ok := by
    rw [A.longPhrase] at e3'
    exact Bool.eq_iff_iff.2 (e3'.trans e3.symm)
  subst hok
  obtain ⟨g, g1, hw⟩ := Gmm.allocate_ret m ha.gaussians ha.dim ha.di
  rw [e1] at g1
  injection g1 with _ g1
  have hw1 : m1.WF := by rw [g1]; exact hw
  have hf1 : m1.Fed sd data := by rw [g1]; exact ⟨hf.dim, hf.frame, hf.some, hf.sd⟩
  have hf1' : m1.Fed (A.spread sd) (A.data data) := by rw [g1]; exact ⟨hf'.dim, hf'.frame, hf'.some, hf'.sd⟩
  have hd1 : m1.dim = m.dim := by rw [g1]
  have hgs : m1.gaussians = m.gaussians := by rw [g1]
  have hr1 : 1 / 10 ^ 9 ≤ m1.absReg := by rw [g1]; exact hreg
  have hlp : ∀ x, m1.LongPhrase x ↔ m.LongPhrase x := fun x => by rw [g1]; rfl
  have hstart : A.Aligned m2 m2' ∧ (ok' = true → m2.InTraining data ∧ m2'.InTraining (A.data data) ∧ A.Carries m2 m2') := by
    by_cases hl : m.LongPhrase data
    · have hl' := (A.longPhrase m data).2 hl
      obtain ⟨s, k1, k2, k3, k4⟩ := C82_initialised m1 hw1 sd data hf1 ((hlp _).2 hl) hr1
      obtain ⟨s', k1', k2', k3', k4'⟩ := C82_initialised m1 hw1 _ _ hf1' ((hlp _).2 hl') hr1
      rw [e2] at k1
      rw [e2'] at k1'
      injection k1 with a1 a2
      injection k1' with a1' a2'
      subst a1 a2 a2'
      have hc : A.Carries m2 m2' := A.initialised_moved hd1 hw1.pos (ho.imp id fun h => by
        obtain ⟨b1, b2⟩ := h
        rw [g1]; exact ⟨b1, b2⟩) (by rw [k3.wf.comps, k2.same]) (by rw [k3'.wf.comps, k2'.same]) k2 k2'
      exact ⟨hc.aligned, fun _ => ⟨init_inTraining m1 m2 hw1 sd data hf1 ((hlp _).2 hl) hr1 e2, init_inTraining m1 m2' hw1 _ _ hf1' ((hlp _).2 hl') hr1 e2', hc⟩⟩
    · have hl' : ¬ m.LongPhrase (A.data data) := fun h => hl ((A.longPhrase m data).1 h)
      obtain ⟨s, k1, k2, k3, k4, -⟩ := emInit_short m1 hw1 sd data hf1 (fun h => hl ((hlp _).1 h))
      obtain ⟨s', k1', k2', k3', k4', -⟩ := emInit_short m1 hw1 _ _ hf1' (fun h => hl' ((hlp _).1 h))
      rw [e2] at k1
      rw [e2'] at k1'
      injection k1 with a1 a2
      injection k1' with a1' a2'
      subst a1 a2 a2'
      refine ⟨⟨by rw [k2]; exact hd1, ?_, by rw [k4, k4'], fun k => ?_⟩, fun h => by cases h⟩
      · rw [k2', k2]
      · rw [k2', k2]
        exact A.reg_moved hd1 hf1 k
  exact ⟨m1, ok', m2, m2', e1, e2, e2', e4, e4', hstart.1, hstart.2⟩

/-- **C98**: a mixture is trained on some data, and on the same data in other axes (the columns in another order, some of them with the opposite sign, and another origin if k-means
    leaves no center without frames).  Every iteration returns the same log-likelihood, and the second mixture is the first in the new axes. -/
theorem Gmm.C98_training_partial (m : Gmm ℝ) (ha : m.Admissible) (sd : List ℝ) (data : KData ℝ) (hf : m.Fed sd data) (hreg : 1 / 10 ^ 9 ≤ m.absReg) (A : NewAxes m.dim)
    (ho : (∀ i, A.shift i = 0) ∨ m.Steady data) (n : Nat) (hn : 1 ≤ n) :
    ∃ ls s s', trainRun Dens.real Real.log Real.sqrt sd data n m = .ret ls s ∧ trainRun Dens.real Real.log Real.sqrt (A.spread sd) (A.data data) n m = .ret ls s' ∧
      ls.length = n ∧ A.Carries s s' ∧ s.InTraining data ∧ s'.InTraining (A.data data) := by
  obtain ⟨m1, ok', m2, m2', e1, e2, e2', e4, e4', hstart⟩ := start_moved m ha sd data hf hreg A ho
  obtain ⟨ls, s, s', h1, h2, h3, h4, h5, h6⟩ := A.steps_moved ok' e4 e4' hstart.1 hstart.2 n
  obtain ⟨i1, i2, i3⟩ := h6 (Or.inr hn)
  exact ⟨ls, s, s', by rw [trainRun, bind_of_ret e1, bind_of_ret e2, h1], by rw [trainRun, bind_of_ret e1, bind_of_ret e2', h2], (trainSteps_take h1).1, i3, i1, i2⟩

/-- the densities of a unimodal mixture for an observation -/
theorem Gmm.UpToDate.obs {m : Gmm ℝ} (hw : m.WF) (hc : ∀ g ∈ m.comps, g.UpToDate) (hb : m.bimodal = false) {x : List ℝ} (hx : m.dim ≤ x.length) :
    RecSpec.ObsDensities Dens.real m x (m.floored x) := by
  intro c g hg
  have hgm := List.mem_of_getElem? hg
  obtain ⟨gw, gd, -⟩ := hw.comp g hgm
  have hl := (hc g hgm).likelihood x (by rw [gd]; exact hx)
  have hval : m.floored x c = max likelihoodFloor (normalPdf g.sigma (g.offset x)) := by simp only [floored, pdf, hg]
  rw [hval, if_neg (by simp [hb])]
  simp only [Dens.real, Dens.onReals, hl]

open RecSpec in
/-- **C98** (recognition): a stream of observations in the old axes for the first mixture, and in the new axes for the second, gives the same likelihoods: instantaneous, and
    smoothed over the window; and the same posterior probabilities of the components. -/
theorem Gmm.C98_stream {d : Nat} (A : NewAxes d) (m m' : Gmm ℝ) (h : A.Carries m m') (hb : m.bimodal = false) (hm : m.CanFilter) (hm' : m'.CanFilter)
    (hu : ∀ g ∈ m.comps, g.UpToDate) (hu' : ∀ g ∈ m'.comps, g.UpToDate) (hbuf : BufOk m.buf) (hbuf' : BufOk m'.buf) (xs : List (List ℝ)) (hne : xs ≠ [])
    (hx : ∀ x ∈ xs, x.length = d) :
    ∃ ps t t', (do reset; filterAll Dens.real Real.log xs) m = .ret ps t ∧ (do reset; filterAll Dens.real Real.log (xs.map A.frame)) m' = .ret ps t' ∧
      t'.instant = t.instant ∧ t'.logLik = t.logLik ∧ t'.beta = t.beta := by
  have hdim : m'.dim = d := by rw [h.same]; exact h.dim
  have hgs : m'.gaussians = m.gaussians := by rw [h.same]
  have hwin : m'.window = m.window := by rw [h.same]
  have hb' : m'.bimodal = false := by rw [h.same]; exact hb
  have hwt : weights m' = weights m := by unfold weights; rw [h.coeffs]
  have hfit : ∀ {m : Gmm ℝ}, m.bimodal = false → ∀ x, m.Fits x → m.dim ≤ x.length := fun hb x hx => by
    unfold Fits at hx
    rw [if_neg (by simp [hb])] at hx
    exact hx
  have hfl : ∀ x c, m'.floored (A.frame x) c = m.floored x c := h.floored hm.ready.wf hm'.ready.wf
  obtain ⟨b, h1, h2⟩ := reset_ret m hm hbuf
  obtain ⟨b', h1', h2'⟩ := reset_ret m' hm' hbuf'
  obtain ⟨t, f1, -, -, -, f5⟩ := filterAll_ret Dens.real Real.log m m.floored (fun _ _ => []) (fun x hf => UpToDate.obs hm.ready.wf hu hb (hfit hb x hf))
    (fun x h => by rw [hb] at h; cases h) xs (fun x hx' => by unfold Fits; rw [if_neg (by simp [hb]), hx x hx', h.dim]) { m with buf := b } rfl
    (SameModel.canFilter (m := m) rfl hm hm.ready.wf.beta) [] h2
  obtain ⟨t', g1, -, -, -, g5⟩ := filterAll_ret Dens.real Real.log m' m'.floored (fun _ _ => []) (fun x hf => UpToDate.obs hm'.ready.wf hu' hb' (hfit hb' x hf))
    (fun x h => by rw [hb'] at h; cases h) (xs.map A.frame) (fun x hx' => by
      obtain ⟨y, -, rfl⟩ := List.mem_map.1 hx'
      unfold Fits; rw [if_neg (by simp [hb']), A.frame_length, hdim]) { m' with buf := b' } rfl
    (SameModel.canFilter (m := m') rfl hm' hm'.ready.wf.beta) [] h2'
  obtain ⟨pre, x, rfl⟩ : ∃ pre x, xs = pre ++ [x] := ⟨xs.dropLast, xs.getLast hne, (List.dropLast_append_getLast hne).symm⟩
  obtain ⟨mp, p1, p2⟩ := f5 pre x rfl
  obtain ⟨mq, q1, q2⟩ := g5 (pre.map A.frame) (A.frame x) (by simp)
  unfold SameModel at p1 q1
  have e1 : mp.gaussians = m.gaussians := by rw [p1]
  have e2 : weights mp = weights m := by rw [p1]; rfl
  have e3 : mp.window = m.window := by rw [p1]
  have e1' : mq.gaussians = m.gaussians := by rw [q1]; exact hgs
  have e2' : weights mq = weights m := by rw [← hwt, q1]; rfl
  have e3' : mq.window = m.window := by rw [q1]; exact hwin
  have hfl' : ∀ x, m'.floored (A.frame x) = m.floored x := fun x => funext (hfl x)
  refine ⟨_, t, t', by rw [bind_of_ret h1]; exact f1, ?_, ?_, ?_, ?_⟩
  · rw [bind_of_ret h1', g1, List.map_map, hgs, hwt]
    simp only [Function.comp_def, hfl']
  · rw [p2.instant, q2.instant, e1, e2, e1', e2', hfl']
  · rw [p2.logLik, q2.logLik, e1, e2, e3, e1', e2', e3', List.map_map, hgs, hwt]
    simp only [Function.comp_def, hfl']
  · rw [p2.beta, q2.beta, e1, e2, e1', e2', hfl']

/-- **C98** (training, then recognition), with the standard deviations of the data -/
theorem Gmm.C98_recognition_partial (m : Gmm ℝ) (ha : m.Admissible) (hb : m.bimodal = false) (hwin : 1 ≤ m.window) (hbuf : BufOk m.buf) (data : KData ℝ)
    (hf : m.Fed (deviations m.dim data.frames) data) (hreg : 1 / 10 ^ 9 ≤ m.absReg) (A : NewAxes m.dim) (ho : (∀ i, A.shift i = 0) ∨ m.Steady data) (n : Nat) (hn : 1 ≤ n)
    (xs : List (List ℝ)) (hne : xs ≠ []) (hx : ∀ x ∈ xs, x.length = m.dim) :
    ∃ ls s s' ps t t', trainRun Dens.real Real.log Real.sqrt (deviations m.dim data.frames) data n m = .ret ls s ∧
      trainRun Dens.real Real.log Real.sqrt (deviations m.dim (A.data data).frames) (A.data data) n m = .ret ls s' ∧
      (do reset; filterAll Dens.real Real.log xs) { s with training := false } = .ret ps t ∧
      (do reset; filterAll Dens.real Real.log (xs.map A.frame)) { s' with training := false } = .ret ps t' ∧
      ps.length = xs.length ∧ t'.instant = t.instant ∧ t'.logLik = t.logLik ∧ t'.beta = t.beta := by
  have hdev : deviations m.dim (A.data data).frames = A.spread (deviations m.dim data.frames) := by rw [A.frames, A.deviations_moved]
  rw [hdev]
  obtain ⟨ls, s, s', h1, h2, -, h4, h5, h6⟩ := C98_training_partial m ha _ data hf hreg A ho n hn
  obtain ⟨ls1, s1, k1, -, k2, k3⟩ := C81_trained_usable Dens.real Dens.real_sound Real.log m ha hwin _ data hf hreg n hn
  obtain ⟨ls1', s1', k1', -, k2', k3'⟩ := C81_trained_usable Dens.real Dens.real_sound Real.log m ha hwin _ (A.data data) (A.fed rfl hf) hreg n hn
  rw [h1] at k1
  rw [h2] at k1'
  injection k1 with _ k1
  injection k1' with _ k1'
  subst k1 k1'
  obtain ⟨c1, c2, c3, c4, c5, c6, c7⟩ := h4
  obtain ⟨ps, t, t', r1, r2, r3, r4, r5⟩ := C98_stream A { s with training := false } { s' with training := false }
    ⟨c1, by rw [c2], c3, c4, c5, c6, c7⟩ (by show s.bimodal = false; rw [k3]; exact hb) k2 k2' (fun g hg => (h5.comp g hg).1) (fun g hg => (h6.comp g hg).1)
    (by show BufOk s.buf; rw [k3]; exact hbuf) (by show BufOk s'.buf; rw [k3']; exact hbuf) xs hne hx
  refine ⟨ls, s, s', ps, t, t', h1, h2, r1, r2, ?_, r3, r4, r5⟩
  obtain ⟨ps', t'', q1, q2, -⟩ := C40_smoothed_likelihood Dens.real Dens.real_sound Real.log { s with training := false } k2 (by show BufOk s.buf; rw [k3]; exact hbuf) xs
    (fun x hx' => by
      unfold Fits
      have e1 : s.bimodal = false := by rw [k3]; exact hb
      have e2 : s.dim = m.dim := by rw [k3]
      simp only [e1, e2, Bool.false_eq_true, if_false, hx x hx', le_refl])
  rw [r1] at q1
  injection q1 with q1
  rw [q1, q2]

end Xmm
