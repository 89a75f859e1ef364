import Verif.Props.Axes
import Verif.Props.GaussianRegression
set_option linter.unusedSimpArgs false
set_option linter.unusedSectionVars false
/- C98: recognition and regression with two modalities, in other axes. -/
namespace Xmm
open Prog (bind_def pure_def get_def set_def modify_def throw_def undef_def)
open GmmSpec

/-- the inverses, determinants and output covariance of the distribution were computed from its covariance, which was regular -/
def Gauss.Derived (g : Gauss ℝ) : Prop := ∃ g0, g0.WF ∧ g0.Regular ∧ Gauss.updateInverseCovariance g0 = .ret () g

theorem Gauss.Derived.upToDate {g : Gauss ℝ} (h : g.Derived) : g.UpToDate := by
  obtain ⟨g0, w, r, e⟩ := h
  exact r.upToDate w e

/-- a bilinear form with the inverse of a matrix, in other axes -/
theorem bilinear_axes {n : Nat} (e : Fin n ≃ Fin n) (s : Fin n → ℝ) (hs : ∀ k, s k * s k = 1) (S S' : Matrix (Fin n) (Fin n) ℝ) (b b' v v' : Fin n → ℝ) (t u : ℝ)
    (hS : ∀ i j, S' i j = s i * s j * S (e i) (e j)) (hb : ∀ i, b' i = t * s i * b (e i)) (hv : ∀ i, v' i = u * s i * v (e i)) :
    b' ⬝ᵥ S'⁻¹.mulVec v' = t * u * (b ⬝ᵥ S⁻¹.mulVec v) := by
  have hD : Matrix.diagonal s * Matrix.diagonal s = 1 := by
    rw [Matrix.diagonal_mul_diagonal, ← Matrix.diagonal_one]
    congr 1
    exact funext hs
  have hDi : (Matrix.diagonal s)⁻¹ = Matrix.diagonal s := Matrix.inv_eq_right_inv hD
  have hS' : S' = Matrix.diagonal s * S.submatrix e e * Matrix.diagonal s := by
    ext i j
    rw [Matrix.mul_diagonal, Matrix.diagonal_mul, Matrix.submatrix_apply, hS]
    ring
  have hinv : S'⁻¹ = Matrix.diagonal s * S⁻¹.submatrix e e * Matrix.diagonal s := by
    rw [hS', Matrix.mul_inv_rev, Matrix.mul_inv_rev, hDi, Matrix.inv_submatrix_equiv, Matrix.mul_assoc]
  simp only [dotProduct, Matrix.mulVec]
  rw [← Equiv.sum_comp e fun i => b i * ∑ j, S⁻¹ i j * v j, Finset.mul_sum]
  refine Finset.sum_congr rfl fun i _ => ?_
  rw [← Equiv.sum_comp e fun j => S⁻¹ (e i) j * v j, hb, Finset.mul_sum, Finset.mul_sum, Finset.mul_sum]
  refine Finset.sum_congr rfl fun j _ => ?_
  rw [hinv, Matrix.mul_diagonal, Matrix.diagonal_mul, Matrix.submatrix_apply, hv]
  linear_combination t * u * b (e i) * S⁻¹ (e i) (e j) * v (e j) * (s j * s j * hs i + hs j)

/-! ### One distribution -/

namespace Gauss

/-- the prediction of the column `di + k` of the output -/
noncomputable def predicted (g : Gauss ℝ) (di : Nat) (x : List ℝ) (k : Nat) : ℝ :=
  g.mean.getD k 0 + (fun l : Fin di => g.covAt k l.val) ⬝ᵥ (Gmm.covMatrix g di)⁻¹.mulVec fun j => x.getD j.val 0 - g.mean.getD j.val 0

/-- the conditional covariance of two columns of the output -/
noncomputable def conditional (g : Gauss ℝ) (di : Nat) (i j : Nat) : ℝ :=
  g.covAt i j - (fun l : Fin di => g.covAt i l.val) ⬝ᵥ (Gmm.covMatrix g di)⁻¹.mulVec fun l => g.covAt l.val j

/-- the density of the input -/
noncomputable def inputPdf (g : Gauss ℝ) (di : Nat) (x : List ℝ) : ℝ :=
  normalPdf (Gmm.covMatrix g di) fun i => x.getD i.val 0 - g.mean.getD i.val 0

theorem covMatrix_in (g : Gauss ℝ) (hle : g.di ≤ g.dim) : g.sigmaIn hle = Gmm.covMatrix g g.di := by
  ext i j
  show g.sigma _ _ = _
  rw [sigma_covAt]; rfl

theorem Derived.input {g : Gauss ℝ} (h : g.Derived) (hb : g.bimodal = true) {di : Nat} (hdi : g.di = di) (x : List ℝ) (hx : di ≤ x.length) :
    Dens.real.input x g = .ret (max likelihoodFloor (g.inputPdf di x)) g := by
  subst hdi
  obtain ⟨g0, w, r, e⟩ := h
  obtain ⟨gw, s, -⟩ := Xmm.C31_inverse g0 g w e
  have hle := gw.le hb
  have hb0 : g0.bimodal = true := by rw [← s.bimodal]; exact hb
  obtain ⟨g1, e1, -, -, e4⟩ := C68_gaussian_inverts g0 w r
  rw [e] at e1
  injection e1 with _ e1
  subst e1
  obtain ⟨d1, d2⟩ := e4 hb0 hle
  have := C60_input_is_marginal_density g0 g w hb0 e hle (d1 ▸ d2) d2 x (by rw [← s.di]; exact hx)
  simp only [Dens.real, Dens.onReals, this]
  rw [covMatrix_in]
  rfl

theorem Derived.regression {g : Gauss ℝ} (h : g.Derived) (hb : g.bimodal = true) {di : Nat} (hdi : g.di = di) (x : List ℝ) (hx : di ≤ x.length) :
    Gauss.regression x g = .ret ((List.range (g.dim - di)).map fun i => g.predicted di x (di + i)) g := by
  subst hdi
  obtain ⟨g0, w, r, e⟩ := h
  obtain ⟨gw, s, -⟩ := Xmm.C31_inverse g0 g w e
  have hb0 : g0.bimodal = true := by rw [← s.bimodal]; exact hb
  obtain ⟨hle, y, h1, h2, h3⟩ := C32_conditional_mean g0 g w hb0 e x (by rw [← s.di]; exact hx)
  rw [h1]
  congr 1
  refine List.ext_getElem (by simp [h2]) fun i hi hi' => ?_
  have hi2 : i < g.dim - g.di := by rw [h2] at hi; exact hi
  have := congrFun h3 ⟨i, hi2⟩
  rw [List.getElem_map, List.getElem_range]
  simp only [vecOf, List.getD_eq_getElem?_getD, List.getElem?_eq_getElem hi, Option.getD_some] at this
  rw [this]
  unfold predicted
  simp only [Pi.add_apply, List.getD_eq_getElem?_getD, outIx]
  congr 1
  rw [covMatrix_in, ← Matrix.mulVec_mulVec]
  have hrow : (g.sigmaOutIn hle) ⟨i, hi2⟩ = fun l : Fin g.di => g.covAt (g.di + i) l.val := by
    funext l
    show g.sigma _ _ = _
    rw [sigma_covAt]; rfl
  show (g.sigmaOutIn hle) ⟨i, hi2⟩ ⬝ᵥ _ = _
  rw [hrow]
  rfl

theorem Derived.outCov {g : Gauss ℝ} (h : g.Derived) (hb : g.bimodal = true) {di o : Nat} (hdi : g.di = di) (ho : g.dim - g.di = o) :
    (g.mode = .full → ∀ i < o, ∀ j < o, g.outCov.getD (i * o + j) 0 = g.conditional di (di + i) (di + j)) ∧
    (g.mode = .diagonal → ∀ i < o, g.outCov.getD i 0 = g.conditional di (di + i) (di + i)) := by
  subst hdi ho
  obtain ⟨g0, w, r, e⟩ := h
  obtain ⟨gw, s, -⟩ := Xmm.C31_inverse g0 g w e
  have hb0 : g0.bimodal = true := by rw [← s.bimodal]; exact hb
  obtain ⟨hle, h1, -⟩ := C59_conditional_covariance g0 g w hb0 e
  have key : ∀ i j : Fin (g.dim - g.di), g.outCovariance i j = g.conditional g.di (g.di + i.val) (g.di + j.val) := by
    intro i j
    rw [h1, covMatrix_in, Matrix.sub_apply, Matrix.mul_assoc]
    unfold conditional
    congr 1
    · show g.sigma _ _ = _
      rw [sigma_covAt]; rfl
    · show (g.sigmaOutIn hle) i ⬝ᵥ (fun l => ((Gmm.covMatrix g g.di)⁻¹ * g.sigmaInOut hle) l j) = _
      have hrow : (g.sigmaOutIn hle) i = fun l : Fin g.di => g.covAt (g.di + i.val) l.val := by
        funext l
        show g.sigma _ _ = _
        rw [sigma_covAt]; rfl
      have hcol : (fun l : Fin g.di => g.covAt l.val (g.di + j.val)) = fun l => (g.sigmaInOut hle) l j := by
        funext l
        show _ = g.sigma _ _
        rw [sigma_covAt]; rfl
      rw [hrow, hcol]
      rfl
  constructor
  · intro hm i hi j hj
    have := key ⟨i, hi⟩ ⟨j, hj⟩
    rw [← this]
    simp only [outCovariance, hm, matOf]
  · intro hm i hi
    have := key ⟨i, hi⟩ ⟨i, hi⟩
    rw [← this]
    simp only [outCovariance, hm, vecOf, Matrix.diagonal_apply_eq]

end Gauss

/-! ### In other axes -/

namespace NewAxes
variable {d : Nat} {A : NewAxes d} {di : Nat}

theorem KeepsInput.output (h : A.KeepsInput di) {k : Fin d} (hk : di ≤ k.val) : di ≤ (A.axis k).val := by
  by_contra hc
  have := (h k).2 (by omega)
  omega

/-- the change of axes of the input modality -/
def inAxis (A : NewAxes d) (h : A.KeepsInput di) (hle : di ≤ d) : Fin di ≃ Fin di where
  toFun k := ⟨(A.axis (Fin.castLE hle k)).val, (h _).1 k.isLt⟩
  invFun k := ⟨(A.axis.symm (Fin.castLE hle k)).val, (h _).2 (by rw [Equiv.apply_symm_apply]; exact k.isLt)⟩
  left_inv k := by
    apply Fin.ext
    show (A.axis.symm (A.axis (Fin.castLE hle k))).val = k.val
    rw [Equiv.symm_apply_apply]; rfl
  right_inv k := by
    apply Fin.ext
    show (A.axis (A.axis.symm (Fin.castLE hle k))).val = k.val
    rw [Equiv.apply_symm_apply]; rfl

theorem input_at (A : NewAxes d) (hle : di ≤ d) (x : List ℝ) (k : Fin di) :
    (A.input di x).getD k.val 0 = A.sign (Fin.castLE hle k) * x.getD (A.axis (Fin.castLE hle k)).val 0 + A.shift (Fin.castLE hle k) := by
  rw [← A.frame_at]
  simp [input, List.getD_eq_getElem?_getD, List.getElem?_take, k.isLt]

/-- `g'` is the distribution `g` in the new axes -/
structure CarriesComp (A : NewAxes d) (g g' : Gauss ℝ) : Prop where
  mean : ∀ k : Fin d, g'.mean.getD k.val 0 = A.sign k * g.mean.getD (A.axis k).val 0 + A.shift k
  cov : ∀ i j : Fin d, g'.covAt i.val j.val = A.sign i * A.sign j * g.covAt (A.axis i).val (A.axis j).val

theorem CarriesComp.inputPdf {g g' : Gauss ℝ} (hg : A.CarriesComp g g') (h : A.KeepsInput di) (hle : di ≤ d) (x : List ℝ) :
    g'.inputPdf di (A.input di x) = g.inputPdf di x := by
  unfold Gauss.inputPdf
  refine normalPdf_axes (A.inAxis h hle) (fun k => A.sign (Fin.castLE hle k)) (fun k => A.sq _) _ _ _ _ (fun i j => ?_) fun i => ?_
  · exact hg.cov (Fin.castLE hle i) (Fin.castLE hle j)
  · have := hg.mean (Fin.castLE hle i)
    simp only [Fin.val_castLE] at this
    rw [A.input_at hle, this]
    simp only [inAxis, Equiv.coe_fn_mk]
    ring

theorem CarriesComp.predicted {g g' : Gauss ℝ} (hg : A.CarriesComp g g') (h : A.KeepsInput di) (hle : di ≤ d) (x : List ℝ) (k : Fin d) :
    g'.predicted di (A.input di x) k.val = A.sign k * g.predicted di x (A.axis k).val + A.shift k := by
  unfold Gauss.predicted
  rw [bilinear_axes (A.inAxis h hle) (fun k => A.sign (Fin.castLE hle k)) (fun k => A.sq _) (Gmm.covMatrix g di) (Gmm.covMatrix g' di) (fun l : Fin di => g.covAt (A.axis k).val l.val)
    (fun l : Fin di => g'.covAt k.val l.val) (fun j : Fin di => x.getD j.val 0 - g.mean.getD j.val 0) _ (A.sign k) 1 (fun i j => hg.cov (Fin.castLE hle i) (Fin.castLE hle j))
    (fun l => hg.cov k (Fin.castLE hle l)) fun i => ?_, hg.mean k]
  · ring
  · have := hg.mean (Fin.castLE hle i)
    simp only [Fin.val_castLE] at this
    rw [A.input_at hle, this]
    simp only [inAxis, Equiv.coe_fn_mk]
    ring

theorem CarriesComp.conditional {g g' : Gauss ℝ} (hg : A.CarriesComp g g') (h : A.KeepsInput di) (hle : di ≤ d) (i j : Fin d) :
    g'.conditional di i.val j.val = A.sign i * A.sign j * g.conditional di (A.axis i).val (A.axis j).val := by
  unfold Gauss.conditional
  rw [bilinear_axes (A.inAxis h hle) (fun k => A.sign (Fin.castLE hle k)) (fun k => A.sq _) (Gmm.covMatrix g di) (Gmm.covMatrix g' di) (fun l : Fin di => g.covAt (A.axis i).val l.val)
    (fun l : Fin di => g'.covAt i.val l.val) (fun l : Fin di => g.covAt l.val (A.axis j).val) _ (A.sign i) (A.sign j) (fun i j => hg.cov (Fin.castLE hle i) (Fin.castLE hle j))
    (fun l => hg.cov i (Fin.castLE hle l)) (fun l => ?_), hg.cov i j]
  · ring
  · have := hg.cov (Fin.castLE hle l) j
    simp only [Fin.val_castLE] at this
    rw [this, mul_comm (A.sign j)]
    rfl

end NewAxes

/-! ### The mixture -/

namespace Gmm

/-- the density of the input for component `c`, never less than 1e-180 -/
noncomputable def flooredIn (m : Gmm ℝ) (x : List ℝ) (c : Nat) : ℝ := max likelihoodFloor (match m.comps[c]? with | some g => g.inputPdf m.di x | none => 0)

/-- the prediction of component `c` -/
noncomputable def predictedBy (m : Gmm ℝ) (x : List ℝ) (c : Nat) : List ℝ :=
  match m.comps[c]? with
  | some g => (List.range (m.dim - m.di)).map fun i => g.predicted m.di x (m.di + i)
  | none => []

theorem flooredIn_pos (m : Gmm ℝ) (x : List ℝ) (c : Nat) : 0 < m.flooredIn x c :=
  lt_of_lt_of_le (by unfold likelihoodFloor; positivity) (le_max_left _ _)

theorem Derived.obs {m : Gmm ℝ} (hw : m.WF) (hc : ∀ g ∈ m.comps, g.Derived) (hb : m.bimodal = true) {x : List ℝ} (hx : m.di ≤ x.length) :
    RecSpec.ObsDensities Dens.real m x (m.flooredIn x) := by
  intro c g hg
  have hgm := List.mem_of_getElem? hg
  obtain ⟨gw, gd, gi, -, gb⟩ := hw.comp g hgm
  rw [if_pos hb, (hc g hgm).input (gb.trans hb) gi x hx]
  simp only [flooredIn, hg]

theorem Derived.predictions {m : Gmm ℝ} (hw : m.WF) (hc : ∀ g ∈ m.comps, g.Derived) (hb : m.bimodal = true) {x : List ℝ} (hx : m.di ≤ x.length) :
    RecSpec.Predictions m x (m.predictedBy x) := by
  intro c g hg
  have hgm := List.mem_of_getElem? hg
  obtain ⟨gw, gd, gi, -, gb⟩ := hw.comp g hgm
  rw [(hc g hgm).regression (gb.trans hb) gi x hx]
  simp only [predictedBy, hg, gd]

open RecSpec in
/-- a stream of observations of the input modality -/
theorem bimodal_stream {d : Nat} (A : NewAxes d) (m m' : Gmm ℝ) (h : A.Carries m m') (hb : m.bimodal = true) (hA : A.KeepsInput m.di) (hm : m.CanFilter) (hm' : m'.CanFilter)
    (hu : ∀ g ∈ m.comps, g.Derived) (hu' : ∀ g ∈ m'.comps, g.Derived) (hbuf : BufOk m.buf) (hbuf' : BufOk m'.buf) (xs : List (List ℝ)) (hne : xs ≠ [])
    (hx : ∀ x ∈ xs, x.length = m.di) :
    ∃ ps t t', (do reset; filterAll Dens.real Real.log xs) m = .ret ps t ∧ (do reset; filterAll Dens.real Real.log (xs.map (A.input m.di))) m' = .ret ps t' ∧
      t'.instant = t.instant ∧ t'.logLik = t.logLik ∧ t'.beta = t.beta ∧ A.CarriesOutput m.di t t' := by
  have hwf := hm.ready.wf
  have hwf' := hm'.ready.wf
  have hdim : m'.dim = d := by rw [h.same]; exact h.dim
  have hdi : m'.di = m.di := by rw [h.same]
  have hmode : m'.mode = m.mode := by rw [h.same]
  have hgs : m'.gaussians = m.gaussians := by rw [h.same]
  have hwin : m'.window = m.window := by rw [h.same]
  have hb' : m'.bimodal = true := by rw [h.same]; exact hb
  have hwt : weights m' = weights m := by unfold weights; rw [h.coeffs]
  have hle : m.di ≤ d := by
    obtain ⟨gw, gd, gi, -, gb⟩ := hwf.comp (m.comps[0]'(by rw [hwf.comps]; exact hwf.pos)) (List.getElem_mem _)
    have := gw.le (gb.trans hb)
    rw [gd, gi, h.dim] at this
    exact this
  have hfits : ∀ x, m.Fits x ↔ m.di ≤ x.length := fun x => by unfold Fits; rw [if_pos hb]
  have hfits' : ∀ x, m'.Fits x ↔ m.di ≤ x.length := fun x => by unfold Fits; rw [if_pos hb', hdi]
  -- component `c` of both
  have comp : ∀ c < m.gaussians, ∃ g g', m.comps[c]? = some g ∧ m'.comps[c]? = some g' ∧ g.Derived ∧ g'.Derived ∧ A.CarriesComp g g' ∧ g.mode = m.mode ∧ g'.mode = m.mode ∧
      g.di = m.di ∧ g'.di = m.di ∧ g.dim = d ∧ g'.dim = d ∧ g.bimodal = true ∧ g'.bimodal = true := by
    intro c hc
    have h1 : c < m.comps.length := by rw [hwf.comps]; exact hc
    have h2 : c < m'.comps.length := by rw [h.size]; exact h1
    have e1 := List.getElem?_eq_getElem h1
    have e2 := List.getElem?_eq_getElem h2
    obtain ⟨gw, gd, gi, gm, gb⟩ := hwf.comp _ (List.getElem_mem h1)
    obtain ⟨gw', gd', gi', gm', gb'⟩ := hwf'.comp _ (List.getElem_mem h2)
    exact ⟨_, _, e1, e2, hu _ (List.getElem_mem h1), hu' _ (List.getElem_mem h2), ⟨h.mean c _ _ e1 e2, h.cov c _ _ e1 e2⟩, gm, gm'.trans hmode, gi, gi'.trans hdi,
      gd.trans h.dim, gd'.trans hdim, gb.trans hb, gb'.trans hb'⟩
  have hfl : ∀ x, ∀ c < m.gaussians, m'.flooredIn (A.input m.di x) c = m.flooredIn x c := by
    intro x c hc
    obtain ⟨g, g', e1, e2, -, -, cc, -⟩ := comp c hc
    simp only [flooredIn, e1, e2, hdi, cc.inputPdf hA hle x]
  have hmix : ∀ x, mixture m.gaussians (weights m) (m'.flooredIn (A.input m.di x)) = mixture m.gaussians (weights m) (m.flooredIn x) := fun x => by
    unfold mixture
    exact Finset.sum_congr rfl fun c hc => by rw [hfl x c (Finset.mem_range.1 hc)]
  have hshare : ∀ x, ∀ c < m.gaussians, share m.gaussians (weights m) (m'.flooredIn (A.input m.di x)) c = share m.gaussians (weights m) (m.flooredIn x) c := fun x c hc => by
    unfold share
    rw [hmix, hfl x c hc]
  have hlen : ∀ x, m.di ≤ (A.input m.di x).length := fun x => by simp [NewAxes.input, A.frame_length, hle]
  obtain ⟨b, h1, h2⟩ := reset_ret m hm hbuf
  obtain ⟨b', h1', h2'⟩ := reset_ret m' hm' hbuf'
  obtain ⟨t, f1, f2, -, -, f5⟩ := filterAll_ret Dens.real Real.log m m.flooredIn m.predictedBy (fun x hf => Derived.obs hwf hu hb ((hfits x).1 hf))
    (fun x _ hf => Derived.predictions hwf hu hb ((hfits x).1 hf)) xs (fun x hx' => (hfits x).2 (hx x hx').ge) { m with buf := b } rfl
    (SameModel.canFilter (m := m) rfl hm hwf.beta) [] h2
  obtain ⟨t', g1, g2, -, -, g5⟩ := filterAll_ret Dens.real Real.log m' m'.flooredIn m'.predictedBy (fun x hf => Derived.obs hwf' hu' hb' (hdi ▸ (hfits' x).1 hf))
    (fun x _ hf => Derived.predictions hwf' hu' hb' (hdi ▸ (hfits' x).1 hf)) (xs.map (A.input m.di)) (fun x hx' => by
      obtain ⟨y, -, rfl⟩ := List.mem_map.1 hx'
      exact (hfits' _).2 (hlen y)) { m' with buf := b' } rfl
    (SameModel.canFilter (m := m') rfl hm' hwf'.beta) [] h2'
  obtain ⟨pre, x, rfl⟩ : ∃ pre x, xs = pre ++ [x] := ⟨xs.dropLast, xs.getLast hne, (List.dropLast_append_getLast hne).symm⟩
  obtain ⟨mp, p1, p2⟩ := f5 pre x rfl
  obtain ⟨mq, q1, q2⟩ := g5 (pre.map (A.input m.di)) (A.input m.di x) (by simp)
  unfold SameModel at p1 q1
  have e1 : mp.gaussians = m.gaussians := by rw [p1]
  have e2 : weights mp = weights m := by rw [p1]; rfl
  have e3 : mp.window = m.window := by rw [p1]
  have e4 : mp.bimodal = true := by rw [p1]; exact hb
  have e5 : mp.dim - mp.di = d - m.di := by rw [p1, ← h.dim]
  have e6 : mp.mode = m.mode := by rw [p1]
  have e7 : mp.comps = m.comps := by rw [p1]
  have e1' : mq.gaussians = m.gaussians := by rw [q1]; exact hgs
  have e2' : weights mq = weights m := by rw [← hwt, q1]; rfl
  have e3' : mq.window = m.window := by rw [q1]; exact hwin
  have e4' : mq.bimodal = true := by rw [q1]; exact hb'
  have e5' : mq.dim - mq.di = d - m.di := by
    have a : mq.dim = m'.dim := by rw [q1]
    have b : mq.di = m'.di := by rw [q1]
    rw [a, b, hdim, hdi]
  have e6' : mq.mode = m.mode := by rw [q1]; exact hmode
  have e7' : mq.comps = m'.comps := by rw [q1]
  have htm : t.mode = m.mode := by
    unfold SameModel at f2
    rw [f2]
  have hv := p2.outVals e4
  have hv' := q2.outVals e4'
  have hk := p2.outCov e4
  have hk' := q2.outCov e4'
  rw [e1, e2, e5] at hv
  rw [e1', e2', e5'] at hv'
  rw [e1, e2, e5, e6, e7] at hk
  rw [e1', e2', e5', e6', e7'] at hk'
  have at_range : ∀ (n : Nat) (f : Nat → ℝ) (k : Nat), k < n → ((List.range n).map f).getD k 0 = f k := fun n f k hk => by
    simp [List.getD_eq_getElem?_getD, List.getElem?_map, List.getElem?_range hk]
  have hcov : ∀ (k k' : Nat) (a : ℝ), k < outCells m.mode (d - m.di) → k' < outCells m.mode (d - m.di) →
      (∀ c < m.gaussians, ∀ g g' : Gauss ℝ, m.comps[c]? = some g → m'.comps[c]? = some g' → g'.outCov.getD k' 0 = a * g.outCov.getD k 0) →
      t'.outCov.getD k' 0 = a * t.outCov.getD k 0 := by
    intro k k' a hk1 hk2 hc
    rw [hk, hk', at_range _ _ _ hk1, at_range _ _ _ hk2, Finset.mul_sum]
    refine Finset.sum_congr rfl fun c hc' => ?_
    have hcm := Finset.mem_range.1 hc'
    obtain ⟨g, g', i1, i2, -⟩ := comp c hcm
    simp only [hshare x c hcm, i1, i2, Option.map_some, Option.getD_some, hc c hcm g g' i1 i2]
    ring
  refine ⟨_, t, t', by rw [bind_of_ret h1]; exact f1, ?_, ?_, ?_, ?_, ⟨⟨by rw [hv]; simp, by rw [hv']; simp, by rw [hk, hk']; simp⟩, ?_, ?_, ?_⟩⟩
  · rw [bind_of_ret h1', g1, List.map_map, hgs, hwt]
    simp only [Function.comp_def, hmix]
  · rw [p2.instant, q2.instant, e1, e2, e1', e2', hmix]
  · rw [p2.logLik, q2.logLik, e1, e2, e3, e1', e2', e3', List.map_map, hgs, hwt, hmix]
    simp only [Function.comp_def, hmix]
  · rw [p2.beta, q2.beta, e1, e2, e1', e2']
    exact List.map_congr_left fun c hc => hshare x c (List.mem_range.1 hc)
  · intro k hkd
    have hkd' := hA.output hkd
    have hlt : k.val - m.di < d - m.di := by have := k.isLt; omega
    have hlt' : (A.axis k).val - m.di < d - m.di := by have := (A.axis k).isLt; omega
    rw [hv, hv', at_range _ _ _ hlt, at_range _ _ _ hlt']
    have hsum := share_sum hm.ready (d := m.flooredIn x) fun c _ => flooredIn_pos m x c
    have : A.shift k = ∑ c ∈ Finset.range m.gaussians, share m.gaussians (weights m) (m.flooredIn x) c * A.shift k := by rw [← Finset.sum_mul, hsum, one_mul]
    rw [this, Finset.mul_sum, ← Finset.sum_add_distrib]
    refine Finset.sum_congr rfl fun c hc => ?_
    have hcm := Finset.mem_range.1 hc
    obtain ⟨g, g', i1, i2, -, -, cc, -⟩ := comp c hcm
    rw [hshare x c hcm]
    simp only [predictedBy, i1, i2, hdi, hdim, h.dim]
    rw [at_range _ _ _ hlt, at_range _ _ _ hlt', show m.di + (k.val - m.di) = k.val by omega, show m.di + ((A.axis k).val - m.di) = (A.axis k).val by omega, cc.predicted hA hle]
    ring
  · intro hfull
    rw [htm] at hfull
    refine ⟨by rw [hk, hfull]; simp [outCells], fun i j hi hj => ?_⟩
    have hi' := hA.output hi
    have hj' := hA.output hj
    have cell : ∀ a b : Fin d, m.di ≤ a.val → m.di ≤ b.val → (a.val - m.di) * (d - m.di) + (b.val - m.di) < outCells m.mode (d - m.di) := by
      intro a b ha hb
      rw [hfull]
      show _ < (d - m.di) * (d - m.di)
      have h1 : a.val - m.di < d - m.di := by have := a.isLt; omega
      have h2 : b.val - m.di < d - m.di := by have := b.isLt; omega
      calc (a.val - m.di) * (d - m.di) + (b.val - m.di) < (a.val - m.di) * (d - m.di) + (d - m.di) := by omega
        _ = (a.val - m.di + 1) * (d - m.di) := by ring
        _ ≤ _ := Nat.mul_le_mul_right _ h1
    refine hcov _ _ _ (cell _ _ hi' hj') (cell _ _ hi hj) fun c hc g g' i1 i2 => ?_
    obtain ⟨a, a', j1, j2, r1, r2, cc, m1, m2, d1, d2, n1, n2, b1, b2⟩ := comp c hc
    rw [i1] at j1
    rw [i2] at j2
    cases j1
    cases j2
    have lt : ∀ a : Fin d, m.di ≤ a.val → a.val - m.di < d - m.di := fun a ha => by have := a.isLt; omega
    rw [(r1.outCov b1 d1 (by rw [n1, d1])).1 (m1.trans hfull) _ (lt _ hi') _ (lt _ hj'), (r2.outCov b2 d2 (by rw [n2, d2])).1 (m2.trans hfull) _ (lt _ hi) _ (lt _ hj),
      show m.di + (i.val - m.di) = i.val by omega, show m.di + (j.val - m.di) = j.val by omega, show m.di + ((A.axis i).val - m.di) = (A.axis i).val by omega,
      show m.di + ((A.axis j).val - m.di) = (A.axis j).val by omega, cc.conditional hA hle]
  · intro hdiag
    rw [htm] at hdiag
    refine ⟨by rw [hk, hdiag]; simp [outCells], fun i hi => ?_⟩
    have hi' := hA.output hi
    have lt : ∀ a : Fin d, m.di ≤ a.val → a.val - m.di < d - m.di := fun a ha => by have := a.isLt; omega
    rw [← one_mul (t.outCov.getD _ 0)]
    refine hcov _ _ _ (by rw [hdiag]; exact lt _ hi') (by rw [hdiag]; exact lt _ hi) fun c hc g g' i1 i2 => ?_
    obtain ⟨a, a', j1, j2, r1, r2, cc, m1, m2, d1, d2, n1, n2, b1, b2⟩ := comp c hc
    rw [i1] at j1
    rw [i2] at j2
    cases j1
    cases j2
    rw [(r1.outCov b1 d1 (by rw [n1, d1])).2 (m1.trans hdiag) _ (lt _ hi'), (r2.outCov b2 d2 (by rw [n2, d2])).2 (m2.trans hdiag) _ (lt _ hi),
      show m.di + (i.val - m.di) = i.val by omega, show m.di + ((A.axis i).val - m.di) = (A.axis i).val by omega, cc.conditional hA hle, A.sq]

/-- after an iteration of expectation-maximisation, the inverses are computed from the covariances -/
theorem emUpdate_derived (D : Dens ℝ) (log : ℝ → ℝ) (data : KData ℝ) (m m' : Gmm ℝ) (hw : m.WF) (hc : IsDistribution m.coeffs) (ht : m.Trains data)
    (hreg : ∀ i < m.dim, 1 / 10 ^ 9 ≤ m.reg.getD i 0) (dens : List ℝ → Nat → ℝ) (hd : Densities D m data.frames dens)
    (hp : ∀ x ∈ data.frames, ∀ c < m.gaussians, 0 < dens x c) {l : ℝ} (h : emUpdate D log data m = .ret l m') : ∀ g ∈ m'.comps, g.Derived := by
  classical
  obtain ⟨m2, hu, run⟩ := emUpdate_run D log data m hw ht dens hd
  have hdim : m2.dim = m.dim := by rw [hu.same]
  have hR : ∀ g ∈ m2.comps, g.WF ∧ g.Regular := by
    intro g hg
    obtain ⟨w, d, _⟩ := hu.wf.comp g hg
    obtain ⟨h1, h2, _⟩ := updated_regularised hc ht hp hu g hg
    have hgd : g.dim = m.dim := d.trans hdim
    refine ⟨w, ⟨by rw [hgd]; exact h1, fun v => ?_⟩⟩
    rw [hgd]
    refine le_trans ?_ (h2 v)
    rw [Finset.mul_sum]
    exact Finset.sum_le_sum fun i hi => mul_le_mul_of_nonneg_right (hreg i (Finset.mem_range.1 hi)) (sq_nonneg _)
  have hinv : ∀ g ∈ m2.comps, ∃ g', Gauss.updateInverseCovariance g = .ret () g' := fun g hg => by
    obtain ⟨g', e, -⟩ := C68_gaussian_inverts g (hR g hg).1 (hR g hg).2
    exact ⟨g', e⟩
  have hret := eachComp_ret Gauss.updateInverseCovariance (fun g => if hg : g ∈ m2.comps then (hinv g hg).choose else g) m2 (by
      intro g hg
      rw [dif_pos hg]
      exact (hinv g hg).choose_spec)
  rw [run] at h
  simp only [bind_def, updateInverseCovariances, hret, pure_def] at h
  injection h with _ h
  intro g' hg'
  rw [← h] at hg'
  obtain ⟨g, hg, rfl⟩ := List.mem_map.1 hg'
  rw [dif_pos hg]
  exact ⟨g, (hR g hg).1, (hR g hg).2, (hinv g hg).choose_spec⟩

/-- after a training of one iteration or more, the inverses are computed from the covariances -/
theorem trainRun_derived (m : Gmm ℝ) (ha : m.Admissible) (sd : List ℝ) (data : KData ℝ) (hf : m.Fed sd data) (hreg : 1 / 10 ^ 9 ≤ m.absReg) (n : Nat) (hn : 1 ≤ n) {ls : List ℝ}
    {s : Gmm ℝ} (h : trainRun Dens.real Real.log Real.sqrt sd data n m = .ret ls s) : ∀ g ∈ s.comps, g.Derived := by
  obtain ⟨m1, ok, m2, e1, e2, e3, e4, -, -⟩ := start_ret m ha sd data hf hreg
  obtain ⟨g, g1, g2⟩ := Gmm.allocate_ret m ha.gaussians ha.dim ha.di
  rw [e1] at g1
  injection g1 with _ g1
  have hw1 : m1.WF := by rw [g1]; exact g2
  have hf1 : m1.Fed sd data := by rw [g1]; exact ⟨hf.dim, hf.frame, hf.some, hf.sd⟩
  have hr1 : 1 / 10 ^ 9 ≤ m1.absReg := by rw [g1]; exact hreg
  have hlp : m1.LongPhrase data ↔ m.LongPhrase data := by rw [g1]; rfl
  have h0 : ok = true → m2.InTraining data := fun hok => by
    subst hok
    exact init_inTraining m1 m2 hw1 sd data hf1 (hlp.2 (e3.1 rfl)) hr1 e2
  rw [trainRun, bind_of_ret e1, bind_of_ret e2] at h
  obtain ⟨k, rfl⟩ : ∃ k, n = k + 1 := ⟨n - 1, by omega⟩
  obtain ⟨ls1, t, i1, i2, i3⟩ := trainSteps_inTraining data ok m m2 e4 h0 k
  rw [trainSteps, bind_of_ret i1] at h
  have step : ∀ l s', trainStep Dens.real Real.log data ok k t = .ret l s' → ∀ g ∈ s'.comps, g.Derived := by
    intro l s' hs
    unfold trainStep at hs
    by_cases hk : (ok || 0 < k) = true
    · rw [if_pos hk] at hs
      have hi := i2 (by simpa using hk)
      exact emUpdate_derived Dens.real Real.log data t s' i3.wf i3.coeffs i3.trains i3.reg t.floored
        (UpToDate.density hi.wf (fun g hg => (hi.comp g hg).1) data.frames hi.trains.frame) (fun x _ c _ => floored_pos t x c) hs
    · rw [if_neg hk] at hs
      exact emUpdate_derived Dens.floor Real.log data t s' i3.wf i3.coeffs i3.trains i3.reg _ (floor_densities t data.frames) (fun _ _ _ _ => by positivity) hs
  rw [bind_def] at h
  cases hs : trainStep Dens.real Real.log data ok k t with
  | ret l s' =>
    rw [hs] at h
    simp only [pure_def] at h
    injection h with _ h
    subst h
    exact step l _ hs
  | throw e s' => rw [hs] at h; cases h
  | ub => rw [hs] at h; cases h

/-- **C98** (training, then recognition and regression, with two modalities), with the standard deviations of the data.  The change of axes keeps the columns of the input among themselves.
    A stream of inputs in the new axes gives the same likelihoods and the same posterior probabilities of the components; the predicted output and its covariance are those predicted in the
    old axes, in the new axes. -/
theorem C98_regression_partial (m : Gmm ℝ) (ha : m.Admissible) (hb : m.bimodal = true) (hwin : 1 ≤ m.window) (hbuf : BufOk m.buf) (data : KData ℝ)
    (hf : m.Fed (deviations m.dim data.frames) data) (hreg : 1 / 10 ^ 9 ≤ m.absReg) (A : NewAxes m.dim) (hA : A.KeepsInput m.di)
    (ho : (∀ i, A.shift i = 0) ∨ m.Steady data) (n : Nat) (hn : 1 ≤ n) (xs : List (List ℝ)) (hne : xs ≠ []) (hx : ∀ x ∈ xs, x.length = m.di) :
    ∃ ls s s' ps t t', trainRun Dens.real Real.log Real.sqrt (deviations m.dim data.frames) data n m = .ret ls s ∧
      trainRun Dens.real Real.log Real.sqrt (deviations m.dim (A.data data).frames) (A.data data) n m = .ret ls s' ∧
      (do reset; filterAll Dens.real Real.log xs) { s with training := false } = .ret ps t ∧
      (do reset; filterAll Dens.real Real.log (xs.map (A.input m.di))) { s' with training := false } = .ret ps t' ∧
      ps.length = xs.length ∧ t'.instant = t.instant ∧ t'.logLik = t.logLik ∧ t'.beta = t.beta ∧ A.CarriesOutput m.di t t' := by
  have hdev : deviations m.dim (A.data data).frames = A.spread (deviations m.dim data.frames) := by rw [A.frames, A.deviations_moved]
  rw [hdev]
  obtain ⟨ls, s, s', h1, h2, -, h4, h5, h6⟩ := C98_training_partial m ha _ data hf hreg A ho n hn
  obtain ⟨ls1, s1, k1, -, k2, k3⟩ := C81_trained_usable Dens.real Dens.real_sound Real.log m ha hwin _ data hf hreg n hn
  obtain ⟨ls1', s1', k1', -, k2', k3'⟩ := C81_trained_usable Dens.real Dens.real_sound Real.log m ha hwin _ (A.data data) (A.fed rfl hf) hreg n hn
  rw [h1] at k1
  rw [h2] at k1'
  injection k1 with _ k1
  injection k1' with _ k1'
  subst k1 k1'
  obtain ⟨c1, c2, c3, c4, c5, c6, c7⟩ := h4
  have hdi : s.di = m.di := by rw [k3]
  have u1 := trainRun_derived m ha _ data hf hreg n hn h1
  have u2 := trainRun_derived m ha _ _ (A.fed rfl hf) hreg n hn h2
  obtain ⟨ps, t, t', r1, r2, r3⟩ := bimodal_stream A { s with training := false } { s' with training := false }
    ⟨c1, by rw [c2], c3, c4, c5, c6, c7⟩ (by show s.bimodal = true; rw [k3]; exact hb) (by show A.KeepsInput s.di; rw [hdi]; exact hA) k2 k2'
    u1 u2
    (by show BufOk s.buf; rw [k3]; exact hbuf) (by show BufOk s'.buf; rw [k3']; exact hbuf) xs hne (fun x hx' => by rw [hx x hx']; exact hdi.symm)
  simp only [hdi] at r2 r3
  refine ⟨ls, s, s', ps, t, t', h1, h2, r1, r2, ?_, r3⟩
  obtain ⟨ps', t'', q1, q2, -⟩ := C40_smoothed_likelihood Dens.real Dens.real_sound Real.log { s with training := false } k2 (by show BufOk s.buf; rw [k3]; exact hbuf) xs
    (fun x hx' => by
      unfold Fits
      have e1 : s.bimodal = true := by rw [k3]; exact hb
      simp only [e1, hdi, if_true, hx x hx', le_refl])
  rw [r1] at q1
  injection q1 with q1
  rw [q1, q2]

/-- three columns, the first two are the input -/
noncomputable def follows : Gmm ℝ where
  gaussians := 2
  mode := .full
  absReg := 1
  relReg := 1
  bimodal := true
  dim := 3
  di := 2
  window := 4
  comps := []
  coeffs := []
  beta := []
  reg := []
  training := false
  buf := ⟨[], 0, 0, false⟩
  instant := 0
  logLik := 0
  outVals := []
  outCov := []

/-- the two columns of the input exchanged, the output with the opposite sign -/
def turned : NewAxes 3 where
  axis := Equiv.swap 0 1
  sign k := if k = 2 then -1 else 1
  shift _ := 0
  unit k := by
    by_cases h : k = 2
    · exact Or.inr (if_pos h)
    · exact Or.inl (if_neg h)

/-- Non-vacuity of C98 with two modalities: the two columns of the input exchanged, the output with the opposite sign. -/
example : ∃ (m : Gmm ℝ) (data : KData ℝ) (A : NewAxes m.dim), m.Admissible ∧ m.bimodal = true ∧ 1 ≤ m.window ∧ BufOk m.buf ∧ m.gaussians = 2 ∧
    m.Fed (deviations m.dim data.frames) data ∧ 1 / 10 ^ 9 ≤ m.absReg ∧ A.KeepsInput m.di ∧ (∀ i, A.shift i = 0) ∧ A.frame [10, 20, 30] = [20, 10, -30] ∧
    A.input m.di [10, 20] = [20, 10] := by
  have hf : ∀ x : List ℝ, turned.frame x = [x.getD 1 0, x.getD 0 0, -x.getD 2 0] := fun x => by
    have s0 : turned.axis 0 = 1 := Equiv.swap_apply_left _ _
    have s1 : turned.axis 1 = 0 := Equiv.swap_apply_right _ _
    have s2 : turned.axis 2 = 2 := by decide
    have g0 : turned.sign 0 = 1 := by show (if (0 : Fin 3) = 2 then (-1 : ℝ) else 1) = 1; rw [if_neg (by decide)]
    have g1 : turned.sign 1 = 1 := by show (if (1 : Fin 3) = 2 then (-1 : ℝ) else 1) = 1; rw [if_neg (by decide)]
    have g2 : turned.sign 2 = -1 := by show (if (2 : Fin 3) = 2 then (-1 : ℝ) else 1) = -1; rw [if_pos rfl]
    show [turned.sign 0 * x.getD (turned.axis 0).val 0 + 0, turned.sign 1 * x.getD (turned.axis 1).val 0 + 0, turned.sign 2 * x.getD (turned.axis 2).val 0 + 0] = _
    rw [s0, s1, s2, g0, g1, g2, one_mul, one_mul, add_zero, add_zero, add_zero, neg_one_mul]
    rfl
  refine ⟨follows, ⟨3, [[[0, 1, 2], [3, 5, 4], [6, 0, 1]]]⟩, turned, ⟨by decide, by decide, by decide⟩, rfl, by decide, rfl, rfl,
    ⟨rfl, by simp [KData.frames, follows], by simp [KData.frames], by simp [deviations]⟩, by show (1 : ℝ) / 10 ^ 9 ≤ 1; norm_num, ?_, fun _ => rfl, ?_, ?_⟩
  · show ∀ k : Fin 3, k.val < 2 ↔ (Equiv.swap (0 : Fin 3) 1 k).val < 2
    decide
  · exact (hf _).trans (by simp)
  · show (turned.frame [10, 20]).take 2 = _
    rw [hf]; simp

end Gmm
end Xmm
