import Verif.Lemmas.Gmm
set_option linter.unusedSimpArgs false
set_option linter.unusedSectionVars false
/- C36, C37, C67: one iteration of expectation-maximisation on a Gaussian mixture. -/
namespace Xmm.Gmm
open Phrase (loop)
open Gauss (rd resize copyInto rd_lt)
open Prog (bind_def pure_def get_def set_def modify_def throw_def undef_def)
open GmmSpec
variable {K : Type} [Field K] [LinearOrder K] [IsStrictOrderedRing K]

/-! ### E step -/

theorem getElem_comp {m : Gmm K} (hw : m.WF) {c : Nat} (hc : c < m.gaussians) : ∃ g ∈ m.comps, m.comps[c]? = some g := by
  have : c < m.comps.length := by rw [hw.comps]; exact hc
  exact ⟨m.comps[c], List.getElem_mem this, List.getElem?_eq_getElem this⟩

theorem rd_some {σ α : Type} {l : List α} {i : Nat} {a : α} (h : l[i]? = some a) (s : σ) : rd l i s = .ret a s := by
  simp [rd, h]

theorem frameProb_ret {σ : Type} (D : Dens K) (m : Gmm K) (hw : m.WF) (frames : List (List K)) (dens : List K → Nat → K)
    (hd : Densities D m frames dens) (x : List K) (hx : x ∈ frames) (c : Nat) (hc : c < m.gaussians) (s : σ) :
    frameProb D m x c s = .ret (weights m c * dens x c) s := by
  obtain ⟨g, _, hg⟩ := getElem_comp hw hc
  have hcl : c < m.coeffs.length := by rw [hw.coeffs]; exact hc
  have := hd x hx c g hg
  unfold frameProb
  rcases bool_cases m.bimodal with hb | hb
  · simp only [hb, Bool.false_eq_true, if_false] at this ⊢
    unfold obsProb
    rw [if_neg (by omega)]
    simp only [bind_def, rd_lt hcl 0, rd_some hg, call, this, pure_def, weights]
  · simp only [hb, if_true] at this ⊢
    unfold obsProbBimodal
    simp only [hb, Bool.not_true, Bool.false_eq_true, if_false]
    simp only [bind_def, rd_lt hcl 0, rd_some hg, call, this, pure_def, weights]

theorem posterior_ret {σ : Type} (D : Dens K) (m : Gmm K) (hw : m.WF) (frames : List (List K)) (dens : List K → Nat → K)
    (hd : Densities D m frames dens) (x : List K) (hx : x ∈ frames) (s : σ) :
    posterior D m x s = .ret ((List.range m.gaussians).map (resp m.gaussians (weights m) (dens x)),
      ∑ j ∈ Finset.range m.gaussians, score (weights m) (dens x) j) s := by
  have h1 := prog_mapM_ret (List.range m.gaussians) (emProb D m x) (score (weights m) (dens x)) s (by
    intro c hc
    simp only [emProb, bind_def, frameProb_ret D m hw frames dens hd x hx c (List.mem_range.1 hc) s, pure_def, score])
  simp only [posterior, bind_def, h1, pure_def]
  rw [sum_map_range]
  simp [resp, Function.comp_def]

section EStep
variable (D : Dens K) (m : Gmm K) (frames : List (List K)) (dens : List K → Nat → K)

/-- the responsibilities of the components for a frame -/
def row (x : List K) : List K := (List.range m.gaussians).map (resp m.gaussians (weights m) (dens x))

theorem row_length (x : List K) : (row m dens x).length = m.gaussians := by simp [row]

theorem row_getD (x : List K) (c : Nat) (hc : c < m.gaussians) :
    (row m dens x).getD c 0 = resp m.gaussians (weights m) (dens x) c := getD_map_range' _ _ _ hc

theorem totalOf_eq (c : Nat) (hc : c < m.gaussians) :
    totalOf (frames.map (row m dens)) c = wsum m.gaussians (weights m) dens frames c fun _ => 1 := by
  simp only [totalOf, wsum, List.map_map, mul_one]
  congr 1
  refine List.map_congr_left fun x _ => ?_
  exact row_getD m dens x c hc

theorem weighted_ret {σ : Type} (c : Nat) (hc : c < m.gaussians) (f : List K → Prog σ K) (v : List K → K) (s : σ)
    (h : ∀ x ∈ frames, f x s = .ret (v x) s) :
    weighted (frames.map (row m dens)) frames c f s = .ret (wsum m.gaussians (weights m) dens frames c v) s := by
  have hz : (frames.map (row m dens)).zip frames = frames.map fun x => (row m dens x, x) := by
    induction frames with
    | nil => rfl
    | cons x xs ih => simp [ih fun y hy => h y (List.mem_cons_of_mem _ hy)]
  unfold weighted
  rw [hz, prog_foldlM_ret _ _ _ (fun acc qx => acc + qx.1.getD c 0 * v qx.2)]
  · rw [foldl_add_sum (fun qx : List K × List K => qx.1.getD c 0 * v qx.2), zero_add]
    congr 1
    simp only [wsum, List.map_map]
    congr 1
    refine List.map_congr_left fun x _ => ?_
    simp only [Function.comp]
    rw [row_getD m dens x c hc]
  · intro a b hb
    obtain ⟨x, hx, rfl⟩ := List.mem_map.1 hb
    simp only [bind_def, pure_def]
    rw [rd_lt (by rw [row_length]; exact hc) 0]
    simp only [h x hx]

variable (hf : ∀ x ∈ frames, x.length = m.dim)
include hf

theorem newMean_ret {σ : Type} (c : Nat) (hc : c < m.gaussians) (s : σ) :
    newMean (frames.map (row m dens)) frames m.dim c (totalOf (frames.map (row m dens)) c) s =
      .ret ((List.range m.dim).map (wmean m.gaussians (weights m) dens frames c)) s := by
  unfold newMean
  refine prog_mapM_ret _ _ _ _ fun d hd => ?_
  simp only [bind_def, pure_def]
  rw [weighted_ret m frames dens c hc _ (fun x => x.getD d 0) s fun x hx =>
    rd_lt (by rw [hf x hx]; exact List.mem_range.1 hd) 0 s]
  simp only [totalOf_eq m frames dens c hc, wmean, wavg]

theorem newCov_ret {σ : Type} (mean : List K)
    (hmean : mean = (List.range m.dim).map (wmean m.gaussians (weights m) dens frames c)) (hc : c < m.gaussians) (i j : Nat)
    (hi : i < m.dim) (hj : j < m.dim) (s : σ) :
    newCov (frames.map (row m dens)) frames mean c (totalOf (frames.map (row m dens)) c) i j s =
      .ret (wcov m.gaussians (weights m) dens frames c i j) s := by
  have hl : mean.length = m.dim := by simp [hmean]
  unfold newCov
  simp only [bind_def, pure_def]
  rw [weighted_ret m frames dens c hc _ (fun x => (x.getD i 0 - mean.getD i 0) * (x.getD j 0 - mean.getD j 0)) s fun x hx => by
    have := hf x hx
    simp only [bind_def, pure_def]
    rw [rd_lt (by omega) 0]
    simp only
    rw [rd_lt (by omega) 0]
    simp only
    rw [rd_lt (by omega) 0]
    simp only
    rw [rd_lt (by omega) 0]]
  simp only [totalOf_eq m frames dens c hc, wcov, wavg, hmean, getD_map_range' _ _ _ hi, getD_map_range' _ _ _ hj]

omit hf in
theorem wcov_comm (c i j : Nat) : wcov m.gaussians (weights m) dens frames c i j =
    wcov m.gaussians (weights m) dens frames c j i := by
  simp only [wcov]
  congr 1
  funext x
  rw [mul_comm]

theorem newCovDiagonal_ret {σ : Type} (mean cov : List K)
    (hmean : mean = (List.range m.dim).map (wmean m.gaussians (weights m) dens frames c)) (hc : c < m.gaussians)
    (hcov : cov.length = m.dim) (s : σ) :
    ∃ cov', newCovDiagonal (frames.map (row m dens)) frames mean m.dim c (totalOf (frames.map (row m dens)) c) cov s =
      .ret cov' s ∧ cov'.length = m.dim ∧
      ∀ i < m.dim, cov'.getD i 0 = wcov m.gaussians (weights m) dens frames c i i := by
  unfold newCovDiagonal
  refine loop_inv m.dim cov _ s (fun t cov' => cov'.length = m.dim ∧
    ∀ i < t, cov'.getD i 0 = wcov m.gaussians (weights m) dens frames c i i) ⟨hcov, fun i hi => by omega⟩ ?_
  rintro t ht cov' ⟨i1, i2⟩
  simp only [bind_def, pure_def, newCov_ret m frames dens hf mean hmean hc t t ht ht]
  rw [rd_lt (by omega) 0]
  refine ⟨_, rfl, by simpa using i1, fun i hi => ?_⟩
  rw [getD_set _ _ _ _ _ (by omega)]
  by_cases h : i = t
  · rw [if_pos h, h]
  · rw [if_neg h]; exact i2 i (by omega)

theorem newCovFull_ret {σ : Type} (mean cov : List K)
    (hmean : mean = (List.range m.dim).map (wmean m.gaussians (weights m) dens frames c)) (hc : c < m.gaussians)
    (hcov : cov.length = m.dim * m.dim) (s : σ) :
    ∃ cov', newCovFull (frames.map (row m dens)) frames mean m.dim c (totalOf (frames.map (row m dens)) c) cov s =
      .ret cov' s ∧ cov'.length = m.dim * m.dim ∧
      ∀ i < m.dim, ∀ j < m.dim, cov'.getD (i * m.dim + j) 0 = wcov m.gaussians (weights m) dens frames c i j := by
  unfold newCovFull
  obtain ⟨cov', h1, h2, h3⟩ := loop_inv m.dim cov (fun cov i => loop (m.dim - i) cov (fun cov k => do
      let v ← newCov (frames.map (row m dens)) frames mean c (totalOf (frames.map (row m dens)) c) i (i + k)
      let _ ← rd cov (i * m.dim + (i + k))
      let cov := cov.set (i * m.dim + (i + k)) v
      if i ≠ i + k then do
        let _ ← rd cov ((i + k) * m.dim + i)
        pure (cov.set ((i + k) * m.dim + i) v)
      else pure cov)) s
    (fun t cov' => cov'.length = m.dim * m.dim ∧ ∀ i < m.dim, ∀ j < m.dim, (i < t ∨ j < t) →
      cov'.getD (i * m.dim + j) 0 = wcov m.gaussians (weights m) dens frames c i j)
    ⟨hcov, fun i hi j hj h => by omega⟩ (by
      rintro t ht cov0 ⟨o1, o2⟩
      obtain ⟨cov', h1, h2, h3⟩ := loop_inv (m.dim - t) cov0 (fun cov k => do
          let v ← newCov (frames.map (row m dens)) frames mean c (totalOf (frames.map (row m dens)) c) t (t + k)
          let _ ← rd cov (t * m.dim + (t + k))
          let cov := cov.set (t * m.dim + (t + k)) v
          if t ≠ t + k then do
            let _ ← rd cov ((t + k) * m.dim + t)
            pure (cov.set ((t + k) * m.dim + t) v)
          else pure cov) s
        (fun k cov' => cov'.length = m.dim * m.dim ∧ ∀ i < m.dim, ∀ j < m.dim,
          (i < t ∨ j < t ∨ (i = t ∧ j < t + k) ∨ (j = t ∧ i < t + k)) →
          cov'.getD (i * m.dim + j) 0 = wcov m.gaussians (weights m) dens frames c i j)
        ⟨o1, fun i hi j hj h => o2 i hi j hj (by omega)⟩ (by
          rintro k hk cov1 ⟨p1, p2⟩
          have hk' : t + k < m.dim := by omega
          have l1 : t * m.dim + (t + k) < m.dim * m.dim := flat_lt ht hk'
          have l2 : (t + k) * m.dim + t < m.dim * m.dim := flat_lt hk' ht
          simp only [bind_def, pure_def, newCov_ret m frames dens hf mean hmean hc t (t + k) ht hk']
          rw [rd_lt (by omega) 0]
          simp only
          by_cases h0 : t = t + k
          · rw [if_neg (by simpa using h0)]
            refine ⟨_, rfl, by simpa using p1, fun i hi j hj h => ?_⟩
            rw [getD_set _ _ _ _ _ (by omega)]
            by_cases he : i * m.dim + j = t * m.dim + (t + k)
            · rw [if_pos he]
              obtain ⟨rfl, rfl⟩ := cell_inj hj hk' he
              rfl
            · rw [if_neg he]
              refine p2 i hi j hj ?_
              have : ¬ (i = t ∧ j = t + k) := fun ⟨a, b⟩ => he (by rw [a, b])
              omega
          · rw [if_pos h0]
            simp only [bind_def, pure_def]
            rw [rd_lt (by simp only [List.length_set]; omega) 0]
            refine ⟨_, rfl, by simpa using p1, fun i hi j hj h => ?_⟩
            rw [getD_set _ _ _ _ _ (by simp only [List.length_set]; omega)]
            by_cases he2 : i * m.dim + j = (t + k) * m.dim + t
            · rw [if_pos he2]
              obtain ⟨rfl, rfl⟩ := cell_inj hj ht he2
              exact wcov_comm m frames dens c _ _
            · rw [if_neg he2, getD_set _ _ _ _ _ (by omega)]
              by_cases he : i * m.dim + j = t * m.dim + (t + k)
              · rw [if_pos he]
                obtain ⟨rfl, rfl⟩ := cell_inj hj hk' he
                rfl
              · rw [if_neg he]
                refine p2 i hi j hj ?_
                have a1 : ¬ (i = t ∧ j = t + k) := fun ⟨a, b⟩ => he (by rw [a, b])
                have a2 : ¬ (i = t + k ∧ j = t) := fun ⟨a, b⟩ => he2 (by rw [a, b])
                omega)
      exact ⟨cov', h1, h2, fun i hi j hj h => h3 i hi j hj (by omega)⟩)
  exact ⟨cov', h1, h2, fun i hi j hj => h3 i hi j hj (Or.inl hi)⟩

end EStep

/-! ### M step -/

/-- the coefficients after the M step -/
def newCoeffs (m : Gmm K) (frames : List (List K)) (dens : List K → Nat → K) : List K :=
  (List.range m.gaussians).map fun c => wsum m.gaussians (weights m) dens frames c (fun _ => 1) / (frames.length : K)

section MStep
variable (m : Gmm K) (hw : m.WF) (frames : List (List K)) (dens : List K → Nat → K) (hf : ∀ x ∈ frames, x.length = m.dim)
include hw

theorem updateCoeffs_ret :
    loop m.gaussians () (fun _ c => updateCoeff (frames.map (row m dens)) c) m =
      .ret () { m with coeffs := newCoeffs m frames dens } := by
  obtain ⟨_, m', h1, l, rfl, h2, h3⟩ := loop_state m.gaussians () (fun _ c => updateCoeff (frames.map (row m dens)) c) m
    (fun t _ m' => ∃ l, m' = { m with coeffs := l } ∧ l.length = m.gaussians ∧ ∀ c < t, l.getD c 0 =
      wsum m.gaussians (weights m) dens frames c (fun _ => 1) / (frames.length : K))
    ⟨m.coeffs, rfl, hw.coeffs, fun c hc => by omega⟩ (by
      rintro t ht _ m1 ⟨l, rfl, i1, i2⟩
      simp only [updateCoeff, bind_def, get_def, set_def]
      rw [rd_lt (by omega) 0]
      refine ⟨_, _, rfl, _, rfl, by simpa using i1, fun c hc => ?_⟩
      rw [getD_set _ _ _ _ _ (by omega)]
      by_cases h : c = t
      · rw [if_pos h, h, totalOf_eq m frames dens t ht, List.length_map]
      · rw [if_neg h]; exact i2 c (by omega))
  rw [h1]
  congr 2
  unfold newCoeffs
  refine List.ext_getElem (by simp [h2]) fun i a1 a2 => ?_
  have := h3 i (by omega)
  rw [List.getD_eq_getElem?_getD, List.getElem?_eq_getElem a1, Option.getD_some] at this
  rw [this, List.getElem_map, List.getElem_range]

include hf

theorem updateMeans_ret (w' : List K) :
    ∃ l, loop m.gaussians () (fun _ c => updateMean (frames.map (row m dens)) frames c) { m with coeffs := w' } =
        .ret () { m with coeffs := w', comps := l } ∧ l.length = m.gaussians ∧
      ∀ c < m.gaussians, ∀ g, m.comps[c]? = some g → l[c]? =
        some { g with mean := (List.range m.dim).map (wmean m.gaussians (weights m) dens frames c) } := by
  obtain ⟨l, h1, h2, h3⟩ := loop_comps (fun c => updateMean (frames.map (row m dens)) frames c)
    (fun c g g' => g' = { g with mean := (List.range m.dim).map (wmean m.gaussians (weights m) dens frames c) })
    { m with coeffs := w' } m.gaussians (le_of_eq hw.comps.symm) (by
      intro l c g hl hc hlc hg
      have hgw := hw.comp g (List.mem_of_getElem? hg)
      simp only [updateMean, bind_def, get_def, set_def, rd_some hlc, newMean_ret m frames dens hf c hc]
      rw [Gauss.copyInto_ret _ _ _ (by simp [hgw.1.mean, hgw.2.1])]
      exact ⟨_, rfl, rfl⟩)
  refine ⟨l, h1, by rw [h2]; exact hw.comps, fun c hc g hg => ?_⟩
  obtain ⟨g', e1, e2⟩ := h3 c hc g hg
  rw [e1, e2]

/-- the parameters of component `c` after the M step -/
structure Estimated (c : Nat) (g g' : Gauss K) : Prop where
  same : g' = { g with mean := g'.mean, cov := g'.cov }
  wf : g'.WF
  mean : g'.mean = (List.range m.dim).map (wmean m.gaussians (weights m) dens frames c)
  cov : ∀ i < m.dim, ∀ j < m.dim, g'.covAt i j =
    if m.mode = .diagonal ∧ i ≠ j then 0 else wcov m.gaussians (weights m) dens frames c i j

theorem mStep_ret :
    ∃ l, mStep (frames.map (row m dens)) frames m = .ret () { m with
        coeffs := newCoeffs m frames dens,
        comps := l } ∧ l.length = m.gaussians ∧
      ∀ c < m.gaussians, ∀ g, m.comps[c]? = some g → ∃ g', l[c]? = some g' ∧ Estimated m frames dens c g g' := by
  obtain ⟨l1, a1, a2, a3⟩ := updateMeans_ret m hw frames dens hf
    (newCoeffs m frames dens)
  obtain ⟨l, h1, h2, h3⟩ := loop_comps (fun c => updateCov (frames.map (row m dens)) frames c)
    (fun c g g' => ∀ g0, m.comps[c]? = some g0 → Estimated m frames dens c g0 g')
    { m with
      coeffs := newCoeffs m frames dens,
      comps := l1 } m.gaussians (le_of_eq a2.symm) (by
      intro l c g hl hc hlc hg
      obtain ⟨g0, hg0, hg0'⟩ := getElem_comp hw hc
      obtain ⟨w0, d0, i0, m0, b0⟩ := hw.comp g0 hg0
      have hgl := a3 c hc g0 hg0'
      simp only [hgl, Option.some.injEq] at hg
      have hcov : g.cov = g0.cov := by rw [← hg]
      have hmean : g.mean = (List.range m.dim).map (wmean m.gaussians (weights m) dens frames c) := by rw [← hg]
      simp only [updateCov, bind_def, get_def, set_def, rd_some hlc]
      have hlen := w0.cov
      rcases mode_cases g0 with hm | hm
      · rw [hm, d0] at hlen
        obtain ⟨cov', e1, e2, e3⟩ := newCovFull_ret m frames dens hf (c := c) g.mean g.cov hmean hc (by rw [hcov]; exact hlen)
          { m with
            coeffs := newCoeffs m frames dens,
            comps := l }
        have hmm : m.mode = .full := by rw [← m0, hm]
        simp only [newCovMode, hmm]
        rw [hmm] at e1
        simp only [e1]
        refine ⟨_, rfl, fun g1 hg1 => ?_⟩
        rw [hg0'] at hg1
        cases hg1
        subst hg
        refine ⟨rfl, ⟨by simp [d0], by simp only [hm, e2, d0], w0.inv, w0.invIn, w0.le⟩, rfl, fun i hi j hj => ?_⟩
        rw [if_neg (by simp [hmm])]
        simp only [Gauss.covAt, hm, d0]
        exact e3 i hi j hj
      · rw [hm, d0] at hlen
        obtain ⟨cov', e1, e2, e3⟩ := newCovDiagonal_ret m frames dens hf (c := c) g.mean g.cov hmean hc
          (by rw [hcov]; exact hlen)
          { m with
            coeffs := newCoeffs m frames dens,
            comps := l }
        have hmm : m.mode = .diagonal := by rw [← m0, hm]
        simp only [newCovMode, hmm]
        rw [hmm] at e1
        simp only [e1]
        refine ⟨_, rfl, fun g1 hg1 => ?_⟩
        rw [hg0'] at hg1
        cases hg1
        subst hg
        refine ⟨rfl, ⟨by simp [d0], by simp only [hm, e2, d0], w0.inv, w0.invIn, w0.le⟩, rfl, fun i hi j hj => ?_⟩
        simp only [Gauss.covAt, hm, hmm, true_and]
        by_cases hij : i = j
        · subst hij
          simp only [if_true, ne_eq, not_true_eq_false, if_false]
          exact e3 i hi
        · simp [hij])
  refine ⟨l, ?_, by rw [h2]; exact a2, fun c hc g hg => ?_⟩
  · simp only [mStep, bind_def, get_def, updateCoeffs_ret m hw frames dens]
    rw [a1]
    exact h1
  · obtain ⟨g', e1, e2⟩ := h3 c hc _ (a3 c hc g hg)
    exact ⟨g', e1, e2 g hg⟩

end MStep

/-! ### The update -/

theorem eachComp_regularize (m : Gmm K) (hw : m.WF) (hr : m.reg.length = m.dim) :
    ∃ l, addCovarianceOffset m = .ret () { m with comps := l } ∧ List.Forall₂ (fun g g' => g' = { g with cov := g'.cov } ∧
      g'.WF ∧ ∀ i < m.dim, ∀ j < m.dim, g'.covAt i j = g.covAt i j + if i = j then m.reg.getD i 0 else 0) m.comps l := by
  classical
  have h : ∀ g ∈ m.comps, ∃ g', Gauss.regularize m.reg g = .ret () g' ∧ g' = { g with cov := g'.cov } ∧
      g'.WF ∧ ∀ i < m.dim, ∀ j < m.dim, g'.covAt i j = g.covAt i j + if i = j then m.reg.getD i 0 else 0 := by
    intro g hg
    obtain ⟨w, d, _⟩ := hw.comp g hg
    obtain ⟨g', h1, h2, h3, h4⟩ := Gauss.C62_regularize m.reg g w (by omega)
    exact ⟨g', h1, h2, h3, d ▸ h4⟩
  refine ⟨m.comps.map fun g => if hg : g ∈ m.comps then (h g hg).choose else g, ?_, ?_⟩
  · simp only [addCovarianceOffset, bind_def, get_def]
    apply eachComp_ret
    intro g hg
    rw [dif_pos hg]
    exact (h g hg).choose_spec.1
  · rw [List.forall₂_map_right_iff, List.forall₂_same]
    intro g hg
    rw [dif_pos hg]
    exact (h g hg).choose_spec.2

theorem updateInverses (m : Gmm K) (hw : m.WF) :
    ∃ l, List.Forall₂ (fun g g' => g'.WF ∧ SameParams g g') m.comps l ∧
      ((updateInverseCovariances m = .ret () { m with comps := l } ∧
          ∀ g ∈ l, g.det ≠ 0 ∧ (g.bimodal = true → g.detIn ≠ 0)) ∨
       updateInverseCovariances m = .throw .runtimeError { m with comps := l }) := by
  obtain ⟨l, h1, h2⟩ := eachComp_throws Gauss.updateInverseCovariance (fun g g' => g.WF → g'.WF ∧ SameParams g g')
    (fun g w => ⟨w, ⟨rfl, rfl, rfl, rfl, rfl, rfl⟩⟩) m (by
      intro g hg
      have w := (hw.comp g hg).1
      cases hr : Gauss.updateInverseCovariance g with
      | ret a g' => exact ⟨g', fun _ => updateInverse_keeps g g' w (by rw [hr]; rfl), Or.inl rfl⟩
      | throw e g' => exact ⟨g', fun _ => updateInverse_keeps g g' w (by rw [hr]; rfl), Or.inr ⟨e, rfl⟩⟩
      | ub => exact absurd hr (C31_no_ub g w))
  have h3 : List.Forall₂ (fun g g' => g'.WF ∧ SameParams g g') m.comps l := by
    rw [List.forall₂_iff_get] at h1 ⊢
    exact ⟨h1.1, fun i a b => h1.2 i a b (hw.comp _ (List.getElem_mem a)).1⟩
  refine ⟨l, h3, ?_⟩
  rcases h2 with ⟨h2, h4⟩ | ⟨e, h2⟩
  · left
    refine ⟨by simp only [updateInverseCovariances, h2], fun g' hg' => ?_⟩
    rw [List.forall₂_iff_get] at h4 h3
    obtain ⟨i, hi, rfl⟩ := List.getElem_of_mem hg'
    have hi' : i < m.comps.length := by rw [h4.1]; exact hi
    have e := h4.2 i hi' hi
    simp only [List.get_eq_getElem] at e
    have w := (hw.comp _ (List.getElem_mem hi')).1
    have d := C31_determinant _ _ w e
    obtain ⟨w', s'⟩ := h3.2 i hi' hi
    simp only [List.get_eq_getElem] at w' s'
    have hb := s'.bimodal
    constructor
    · rcases mode_cases m.comps[i] with hm | hm
      · exact (d.2.1 hm).2
      · exact (d.1 hm).2.ne'
    · intro hbi
      rw [hb] at hbi
      have d2 := d.2.2 hbi (w'.le (by rw [hb]; exact hbi))
      rcases mode_cases m.comps[i] with hm | hm
      · exact (d2.2 hm).2
      · exact (d2.1 hm).2.ne'
  · right
    simp only [updateInverseCovariances, h2]

/-- the update up to the inversion of the covariances: of a component only mean and covariance change -/
theorem emUpdate_run_keeps (D : Dens K) (log : K → K) (data : KData K) (m : Gmm K) (hw : m.WF) (ht : m.Trains data)
    (dens : List K → Nat → K) (hd : Densities D m data.frames dens) :
    ∃ m2, m.Updated data.frames dens m2 ∧ (∀ (c : Nat) (g2 : Gauss K), m2.comps[c]? = some g2 →
        ∃ g : Gauss K, m.comps[c]? = some g ∧ g2 = { g with mean := g2.mean, cov := g2.cov }) ∧ emUpdate D log data m = (do
        updateInverseCovariances
        pure (data.frames.map fun x => log (∑ c ∈ Finset.range m.gaussians, score (weights m) (dens x) c)).sum) m2 := by
  have hE := prog_mapM_ret data.frames (posterior D m) (fun x => (row m dens x,
    ∑ j ∈ Finset.range m.gaussians, score (weights m) (dens x) j)) m
    (fun x hx => posterior_ret D m hw data.frames dens hd x hx m)
  obtain ⟨l1, a1, a2, a3⟩ := mStep_ret m hw data.frames dens ht.frame
  have k1 : ∀ c g1, l1[c]? = some g1 → ∃ g ∈ m.comps, m.comps[c]? = some g ∧ Estimated m data.frames dens c g g1 := by
    intro c g1 hg1
    have hc : c < m.gaussians := by rw [← a2]; exact (List.getElem?_eq_some_iff.1 hg1).1
    obtain ⟨g, hg, hg'⟩ := getElem_comp hw hc
    obtain ⟨g1', e1, e2⟩ := a3 c hc g hg'
    rw [hg1] at e1
    cases e1
    exact ⟨g, hg, hg', e2⟩
  have hw1 : Gmm.WF { m with coeffs := newCoeffs m data.frames dens, comps := l1 } := by
    refine ⟨hw.pos, a2, by simp [newCoeffs], hw.beta, fun g1 hg1 => ?_⟩
    obtain ⟨c, hc, rfl⟩ := List.getElem_of_mem hg1
    obtain ⟨g, hg, _, e⟩ := k1 c _ (List.getElem?_eq_getElem hc)
    obtain ⟨w, r1, r2, r3, r4⟩ := hw.comp g hg
    refine ⟨e.wf, ?_, ?_, ?_, ?_⟩
    · rw [e.same]; exact r1
    · rw [e.same]; exact r2
    · rw [e.same]; exact r3
    · rw [e.same]; exact r4
  obtain ⟨l2, b1, b2⟩ := eachComp_regularize _ hw1 ht.reg
  rw [List.forall₂_iff_get] at b2
  have k2 : ∀ (c : Nat) (g2 : Gauss K), l2[c]? = some g2 → ∃ g1 : Gauss K, l1[c]? = some g1 ∧ g2 = { g1 with cov := g2.cov } ∧
      g2.WF ∧ ∀ i < m.dim, ∀ j < m.dim, g2.covAt i j = g1.covAt i j + if i = j then m.reg.getD i 0 else 0 := by
    intro c g2 hg2
    obtain ⟨hc, rfl⟩ := List.getElem?_eq_some_iff.1 hg2
    have hc' : c < l1.length := by have := b2.1; simp only at this; omega
    exact ⟨l1[c], List.getElem?_eq_getElem hc', b2.2 c hc' hc⟩
  refine ⟨{ m with coeffs := newCoeffs m data.frames dens, comps := l2 }, ⟨⟨hw.pos, ?_, by simp [newCoeffs], hw.beta, ?_⟩,
    rfl, ?_, ?_, ?_⟩, ?_, ?_⟩
  · have := b2.1; simp only at this ⊢; omega
  · intro g2 hg2
    obtain ⟨c, hc, rfl⟩ := List.getElem_of_mem hg2
    obtain ⟨g1, hg1, e, w, _⟩ := k2 c _ (List.getElem?_eq_getElem hc)
    obtain ⟨_, r1, r2, r3, r4⟩ := hw1.comp g1 (List.mem_of_getElem? hg1)
    refine ⟨w, ?_, ?_, ?_, ?_⟩
    · rw [e]; exact r1
    · rw [e]; exact r2
    · rw [e]; exact r3
    · rw [e]; exact r4
  · intro c hc
    exact getD_map_range' _ _ _ hc
  · intro c g2 hg2 k hk
    obtain ⟨g1, hg1, e, _⟩ := k2 c g2 hg2
    obtain ⟨_, _, _, e1⟩ := k1 c g1 hg1
    rw [e]
    simp only
    rw [e1.mean, getD_map_range' _ _ _ hk]
  · intro c g2 hg2 i hi j hj
    obtain ⟨g1, hg1, e, _, h2⟩ := k2 c g2 hg2
    obtain ⟨_, _, _, e1⟩ := k1 c g1 hg1
    rw [h2 i hi j hj, e1.cov i hi j hj]
  · intro c g2 hg2
    obtain ⟨g1, hg1, e, _⟩ := k2 c g2 hg2
    obtain ⟨g, _, hg, e1⟩ := k1 c g1 hg1
    refine ⟨g, hg, ?_⟩
    rw [e, e1.same]
  · simp only [emUpdate, bind_def, get_def, hE, pure_def, List.map_map, Function.comp_def, a1]
    rw [b1]

/-- the update up to the inversion of the covariances -/
theorem emUpdate_run (D : Dens K) (log : K → K) (data : KData K) (m : Gmm K) (hw : m.WF) (ht : m.Trains data)
    (dens : List K → Nat → K) (hd : Densities D m data.frames dens) :
    ∃ m2, m.Updated data.frames dens m2 ∧ emUpdate D log data m = (do
        updateInverseCovariances
        pure (data.frames.map fun x => log (∑ c ∈ Finset.range m.gaussians, score (weights m) (dens x) c)).sum) m2 := by
  obtain ⟨m2, h1, _, h2⟩ := emUpdate_run_keeps D log data m hw ht dens hd
  exact ⟨m2, h1, h2⟩

/-- inverting the covariances keeps the parameters -/
theorem _root_.Xmm.Gmm.Updated.inverted {m m2 : Gmm K} {frames : List (List K)} {dens : List K → Nat → K}
    (h : m.Updated frames dens m2) {l : List (Gauss K)}
    (hl : List.Forall₂ (fun g g' => g'.WF ∧ SameParams g g') m2.comps l) : m.Updated frames dens { m2 with comps := l } := by
  rw [List.forall₂_iff_get] at hl
  have k3 : ∀ (c : Nat) (g3 : Gauss K), l[c]? = some g3 → ∃ g2 : Gauss K, m2.comps[c]? = some g2 ∧ g3.WF ∧
      SameParams g2 g3 := by
    intro c g3 hg3
    obtain ⟨hc, rfl⟩ := List.getElem?_eq_some_iff.1 hg3
    have hc' : c < m2.comps.length := by have := hl.1; omega
    exact ⟨_, List.getElem?_eq_getElem hc', hl.2 c hc' hc⟩
  refine ⟨⟨h.wf.pos, hl.1.symm.trans h.wf.comps, h.wf.coeffs, h.wf.beta, ?_⟩, ?_, h.coeff, ?_, ?_⟩
  · intro g3 hg3
    obtain ⟨c, hc, rfl⟩ := List.getElem_of_mem hg3
    obtain ⟨g2, hg2, w, s⟩ := k3 c _ (List.getElem?_eq_getElem hc)
    obtain ⟨_, r1, r2, r3, r4⟩ := h.wf.comp g2 (List.mem_of_getElem? hg2)
    exact ⟨w, s.dim.trans r1, s.di.trans r2, s.mode.trans r3, s.bimodal.trans r4⟩
  · rw [h.same]
  · intro c g3 hg3 k hk
    obtain ⟨g2, hg2, _, s⟩ := k3 c g3 hg3
    rw [s.mean, h.mean c g2 hg2 k hk]
  · intro c g3 hg3 i hi j hj
    obtain ⟨g2, hg2, _, s⟩ := k3 c g3 hg3
    have : g3.covAt i j = g2.covAt i j := by simp only [Gauss.covAt, s.mode, s.cov, s.dim]
    rw [this, h.cov c g2 hg2 i hi j hj]

/-- C67: on a mixture and frames of matching dimension, an iteration of expectation-maximisation never has undefined behaviour; it
    leaves exactly the prescribed coefficients, means and regularised covariances.  It returns the log-likelihood of
    the data for the previous parameters with all covariances inverted, or else throws `runtime_error` because of a covariance
    that cannot be inverted. -/
theorem C67_em_update_exact (D : Dens K) (log : K → K) (data : KData K) (m : Gmm K) (hw : m.WF) (ht : m.Trains data)
    (dens : List K → Nat → K) (hd : Densities D m data.frames dens) :
    ∃ m', m.Updated data.frames dens m' ∧
      ((emUpdate D log data m =
            .ret (data.frames.map fun x => log (∑ c ∈ Finset.range m.gaussians, score (weights m) (dens x) c)).sum m' ∧
          ∀ g ∈ m'.comps, g.det ≠ 0 ∧ (g.bimodal = true → g.detIn ≠ 0)) ∨
       emUpdate D log data m = .throw .runtimeError m') := by
  obtain ⟨m2, hu, run⟩ := emUpdate_run D log data m hw ht dens hd
  obtain ⟨l3, c1, c2⟩ := updateInverses _ hu.wf
  refine ⟨{ m2 with comps := l3 }, hu.inverted c1, ?_⟩
  rw [run]
  rcases c2 with ⟨c2, c3⟩ | c2
  · left
    refine ⟨?_, c3⟩
    simp only [bind_def, c2, pure_def]
  · right
    simp only [bind_def, c2]

end Xmm.Gmm
