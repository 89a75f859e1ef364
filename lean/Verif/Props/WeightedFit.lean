import Verif.Props.GmmLaws
import Verif.Props.GmmNormalize
import Verif.Props.GmmTrained
import Verif.Props.BaumWelchForward
set_option linter.unusedSimpArgs false
set_option linter.unusedSectionVars false
/- The M step of the Baum-Welch algorithm for one state, with arbitrary non-negative weights. -/
namespace Xmm.Gmm
open Phrase (loop)
open Gauss (rd rd_lt)
open Prog (bind_def pure_def get_def set_def modify_def throw_def undef_def)
variable {K : Type} [Field K] [LinearOrder K] [IsStrictOrderedRing K] {ι : Type}

/-- the weights of the components, case by case -/
def postOf (l : List ι) (w : ι → Nat → K) (n : Nat) : List (List K) := l.map fun p => (List.range n).map (w p)

section
variable (l : List ι) (w : ι → Nat → K) (x : ι → List K) (n dim : Nat)

theorem totalOf_post (c : Nat) (hc : c < n) : totalOf (postOf l w n) c = WSpec.mass l w c := by
  simp only [totalOf, postOf, List.map_map, WSpec.mass]
  congr 1
  exact List.map_congr_left fun p _ => getD_map_range' _ _ _ hc

theorem weighted_post {σ : Type} (c : Nat) (hc : c < n) (f : List K → Prog σ K) (v : List K → K) (s : σ)
    (h : ∀ p ∈ l, f (x p) s = .ret (v (x p)) s) :
    weighted (postOf l w n) (l.map x) c f s = .ret (l.map fun p => w p c * v (x p)).sum s := by
  have hz : (postOf l w n).zip (l.map x) = l.map fun p => ((List.range n).map (w p), x p) := by
    unfold postOf; rw [List.zip_map']
  unfold weighted
  rw [hz, prog_foldlM_ret _ _ _ (fun acc qx => acc + qx.1.getD c 0 * v qx.2)]
  · rw [foldl_add_sum (fun qx : List K × List K => qx.1.getD c 0 * v qx.2), zero_add, List.map_map]
    congr 2
    refine List.map_congr_left fun p _ => ?_
    simp only [Function.comp]
    rw [getD_map_range' _ _ _ hc]
  · intro a b hb
    obtain ⟨p, hp, rfl⟩ := List.mem_map.1 hb
    simp only [bind_def, pure_def]
    rw [rd_lt (by simpa using hc) 0]
    simp only [h p hp]

variable (hx : ∀ p ∈ l, (x p).length = dim)
include hx

theorem newMean_post {σ : Type} (c : Nat) (hc : c < n) (e : K) (s : σ) :
    newMean (postOf l w n) (l.map x) dim c e s =
      .ret ((List.range dim).map fun k => (l.map fun p => w p c * (x p).getD k 0).sum / e) s := by
  unfold newMean
  refine prog_mapM_ret _ _ _ _ fun d hd => ?_
  simp only [bind_def, pure_def]
  rw [weighted_post l w x n c hc _ (fun y => y.getD d 0) s fun p hp => rd_lt (by rw [hx p hp]; exact List.mem_range.1 hd) 0 s]

theorem newCov_post {σ : Type} (mean : List K) (hl : mean.length = dim) (c : Nat) (hc : c < n) (e : K) (i j : Nat) (hi : i < dim) (hj : j < dim)
    (s : σ) :
    newCov (postOf l w n) (l.map x) mean c e i j s =
      .ret ((l.map fun p => w p c * (((x p).getD i 0 - mean.getD i 0) * ((x p).getD j 0 - mean.getD j 0))).sum / e) s := by
  unfold newCov
  simp only [bind_def, pure_def]
  rw [weighted_post l w x n c hc _ (fun y => (y.getD i 0 - mean.getD i 0) * (y.getD j 0 - mean.getD j 0)) s fun p hp => by
    have := hx p hp
    simp only [bind_def, pure_def]
    rw [rd_lt (by omega) 0]
    simp only
    rw [rd_lt (by omega) 0]
    simp only
    rw [rd_lt (by omega) 0]
    simp only
    rw [rd_lt (by omega) 0]]

end

/-- the diagonal covariance, when its cells are `V` -/
theorem newCovDiagonal_cells {σ : Type} (post frames : List (List K)) (mean : List K) (dim c : Nat) (e : K) (cov : List K) (hcov : cov.length = dim)
    (s : σ) (V : Nat → Nat → K) (hV : ∀ i < dim, ∀ j < dim, newCov post frames mean c e i j s = .ret (V i j) s) :
    ∃ cov', newCovDiagonal post frames mean dim c e cov s = .ret cov' s ∧ cov'.length = dim ∧ ∀ i < dim, cov'.getD i 0 = V i i := by
  unfold newCovDiagonal
  refine loop_inv dim cov _ s (fun t cov' => cov'.length = dim ∧ ∀ i < t, cov'.getD i 0 = V i i) ⟨hcov, fun i hi => by omega⟩ ?_
  rintro t ht cov' ⟨i1, i2⟩
  simp only [bind_def, pure_def, hV t ht t ht]
  rw [rd_lt (by omega) 0]
  refine ⟨_, rfl, by simpa using i1, fun i hi => ?_⟩
  rw [getD_set _ _ _ _ _ (by omega)]
  by_cases h : i = t
  · rw [if_pos h, h]
  · rw [if_neg h]; exact i2 i (by omega)

/-- the full covariance, when its cells are `V` -/
theorem newCovFull_cells {σ : Type} (post frames : List (List K)) (mean : List K) (dim c : Nat) (e : K) (cov : List K)
    (hcov : cov.length = dim * dim) (s : σ) (V : Nat → Nat → K)
    (hV : ∀ i < dim, ∀ j < dim, newCov post frames mean c e i j s = .ret (V i j) s) (hsym : ∀ i j, V i j = V j i) :
    ∃ cov', newCovFull post frames mean dim c e cov s = .ret cov' s ∧ cov'.length = dim * dim ∧
      ∀ i < dim, ∀ j < dim, cov'.getD (i * dim + j) 0 = V i j := by
  unfold newCovFull
  obtain ⟨cov', h1, h2, h3⟩ := loop_inv dim cov (fun cov i => loop (dim - i) cov (fun cov k => do
      let v ← newCov post frames mean c e i (i + k)
      let _ ← rd cov (i * dim + (i + k))
      let cov := cov.set (i * dim + (i + k)) v
      if i ≠ i + k then do
        let _ ← rd cov ((i + k) * dim + i)
        pure (cov.set ((i + k) * dim + i) v)
      else pure cov)) s
    (fun t cov' => cov'.length = dim * dim ∧ ∀ i < dim, ∀ j < dim, (i < t ∨ j < t) → cov'.getD (i * dim + j) 0 = V i j)
    ⟨hcov, fun i hi j hj h => by omega⟩ (by
      rintro t ht cov0 ⟨o1, o2⟩
      obtain ⟨cov', h1, h2, h3⟩ := loop_inv (dim - t) cov0 (fun cov k => do
          let v ← newCov post frames mean c e t (t + k)
          let _ ← rd cov (t * dim + (t + k))
          let cov := cov.set (t * dim + (t + k)) v
          if t ≠ t + k then do
            let _ ← rd cov ((t + k) * dim + t)
            pure (cov.set ((t + k) * dim + t) v)
          else pure cov) s
        (fun k cov' => cov'.length = dim * dim ∧ ∀ i < dim, ∀ j < dim,
          (i < t ∨ j < t ∨ (i = t ∧ j < t + k) ∨ (j = t ∧ i < t + k)) → cov'.getD (i * dim + j) 0 = V i j)
        ⟨o1, fun i hi j hj h => o2 i hi j hj (by omega)⟩ (by
          rintro k hk cov1 ⟨p1, p2⟩
          have hk' : t + k < dim := by omega
          have l1 : t * dim + (t + k) < dim * dim := flat_lt ht hk'
          have l2 : (t + k) * dim + t < dim * dim := flat_lt hk' ht
          simp only [bind_def, pure_def, hV t ht (t + k) hk']
          rw [rd_lt (by omega) 0]
          simp only
          by_cases h0 : t = t + k
          · rw [if_neg (by simpa using h0)]
            refine ⟨_, rfl, by simpa using p1, fun i hi j hj h => ?_⟩
            rw [getD_set _ _ _ _ _ (by omega)]
            by_cases he : i * dim + j = t * dim + (t + k)
            · rw [if_pos he]
              obtain ⟨rfl, rfl⟩ := cell_inj hj hk' he
              rfl
            · rw [if_neg he]
              refine p2 i hi j hj ?_
              have : ¬ (i = t ∧ j = t + k) := fun ⟨a, b⟩ => he (by rw [a, b])
              omega
          · rw [if_pos h0]
            simp only [bind_def, pure_def]
            rw [rd_lt (by simp only [List.length_set]; omega) 0]
            refine ⟨_, rfl, by simpa using p1, fun i hi j hj h => ?_⟩
            rw [getD_set _ _ _ _ _ (by simp only [List.length_set]; omega)]
            by_cases he2 : i * dim + j = (t + k) * dim + t
            · rw [if_pos he2]
              obtain ⟨rfl, rfl⟩ := cell_inj hj ht he2
              exact hsym _ _
            · rw [if_neg he2, getD_set _ _ _ _ _ (by omega)]
              by_cases he : i * dim + j = t * dim + (t + k)
              · rw [if_pos he]
                obtain ⟨rfl, rfl⟩ := cell_inj hj hk' he
                rfl
              · rw [if_neg he]
                refine p2 i hi j hj ?_
                have a1 : ¬ (i = t ∧ j = t + k) := fun ⟨a, b⟩ => he (by rw [a, b])
                have a2 : ¬ (i = t + k ∧ j = t) := fun ⟨a, b⟩ => he2 (by rw [a, b])
                omega)
      exact ⟨cov', h1, h2, fun i hi j hj h => h3 i hi j hj (by omega)⟩)
  exact ⟨cov', h1, h2, fun i hi j hj => h3 i hi j hj (Or.inl hi)⟩

/-- when all sums are zero nothing is written but zeros -/
theorem upperCov_zero {σ : Type} (post frames : List (List K)) (mean : List K) (dim c : Nat) (s : σ)
    (hV : ∀ i < dim, ∀ j < dim, newCov post frames mean c 1 i j s = .ret 0 s) :
    upperCov post frames mean dim c (List.replicate (dim * dim) 0) s = .ret (List.replicate (dim * dim) 0) s := by
  have hset : ∀ k, (List.replicate (dim * dim) (0 : K)).set k 0 = List.replicate (dim * dim) 0 := fun k => by
    rw [List.set_replicate_self]
  unfold upperCov
  obtain ⟨a, h1, h2⟩ := loop_inv dim (List.replicate (dim * dim) (0 : K)) (fun cov i => loop (dim - i) cov (fun cov k => do
    let v ← newCov post frames mean c 1 i (i + k)
    let _ ← rd cov (i * dim + (i + k))
    pure (cov.set (i * dim + (i + k)) v))) s (fun _ cov => cov = List.replicate (dim * dim) 0) rfl (by
      rintro t ht cov rfl
      exact loop_inv (dim - t) (List.replicate (dim * dim) (0 : K)) _ s (fun _ cov => cov = List.replicate (dim * dim) 0) rfl (by
        rintro k hk cov rfl
        have l1 : t * dim + (t + k) < dim * dim := flat_lt ht (by omega)
        refine ⟨_, ?_, rfl⟩
        simp only [bind_def, pure_def, hV t ht (t + k) (by omega)]
        rw [rd_lt (by simpa using l1) 0]
        simp only [hset]))
  rw [h1, h2]

section Fit
variable (m : Gmm K) (hw : m.WF) (l : List ι) (w : ι → Nat → K) (x : ι → List K)
  (hx : ∀ p ∈ l, (x p).length = m.dim) (h0 : ∀ p ∈ l, ∀ c < m.gaussians, 0 ≤ w p c)
include hw h0

omit hw in
theorem mass_nonneg (c : Nat) (hc : c < m.gaussians) : 0 ≤ WSpec.mass l w c := by
  unfold WSpec.mass
  apply List.sum_nonneg
  intro y hy
  obtain ⟨p, hp, rfl⟩ := List.mem_map.1 hy
  exact h0 p hp c hc

omit hw in
theorem sum_eq_zero (c : Nat) (hc : c < m.gaussians) (hm : ¬ 0 < WSpec.mass l w c) (f : ι → K) : (l.map fun p => w p c * f p).sum = 0 := by
  have h1 := mass_nonneg m l w h0 c hc
  have h2 : WSpec.mass l w c = 0 := le_antisymm (not_lt.1 hm) h1
  clear hm h1
  induction l with
  | nil => simp
  | cons p ps ih =>
    simp only [WSpec.mass, List.map_cons, List.sum_cons] at h2 ⊢
    have a1 := h0 p (by simp) c hc
    have a2 := mass_nonneg m ps w (fun q hq => h0 q (by simp [hq])) c hc
    unfold WSpec.mass at a2
    have a3 : w p c = 0 := by linarith
    rw [a3, zero_mul, zero_add]
    exact ih (fun q hq => h0 q (by simp [hq])) (by unfold WSpec.mass; linarith)

omit hw in
theorem avg_eq (c : Nat) (hc : c < m.gaussians) (f : ι → K) :
    (l.map fun p => w p c * f p).sum / (if 0 < WSpec.mass l w c then WSpec.mass l w c else 1) = WSpec.avg l w c f := by
  unfold WSpec.avg
  by_cases h : 0 < WSpec.mass l w c
  · rw [if_pos h, if_pos h]
  · rw [if_neg h, if_neg h, sum_eq_zero m l w h0 c hc h f, zero_div]

/-- the coefficients of a state -/
theorem setCoeffs_ret : ∃ cs, setCoeffs (postOf l w m.gaussians) m = .ret () { m with coeffs := cs } ∧ IsDistribution cs ∧
    cs = (List.range m.gaussians).map (WSpec.coeff l w m.gaussians) := by
  have h1 : loop m.gaussians () (fun _ c => do
      let m' ← Prog.get
      let _ ← rd m'.coeffs c
      Prog.set { m' with coeffs := m'.coeffs.set c (totalOf (postOf l w m.gaussians) c) }) m =
      .ret () { m with coeffs := (List.range m.gaussians).map (WSpec.mass l w) } := by
    refine loop_fill (fun cs => ({ m with coeffs := cs } : Gmm K)) m.gaussians m.coeffs hw.coeffs (WSpec.mass l w) _ ?_
    intro t ht cs hl _ _
    simp only [bind_def, get_def]
    rw [rd_lt (show t < cs.length by omega) 0]
    simp only [set_def]
    rw [totalOf_post l w _ t ht]
  have hw1 : Gmm.WF { m with coeffs := (List.range m.gaussians).map (WSpec.mass l w) } :=
    ⟨hw.pos, hw.comps, by simp, hw.beta, hw.comp⟩
  have hn0 : ∀ y ∈ (List.range m.gaussians).map (WSpec.mass l w), 0 ≤ y := by
    intro y hy
    obtain ⟨c, hc, rfl⟩ := List.mem_map.1 hy
    exact mass_nonneg m l w h0 c (List.mem_range.1 hc)
  unfold setCoeffs
  rw [bind_of_ret (get_def m), bind_of_ret h1]
  simp only [normalizeMixtureCoeffs, bind_def, get_def]
  rw [sumCoeffs_ret _ _ _ hw1.coeffs.symm]
  simp only
  have hsum : ((List.range m.gaussians).map (WSpec.mass l w)).sum = ∑ j ∈ Finset.range m.gaussians, WSpec.mass l w j := sum_map_range _ _
  by_cases hs : 0 < ((List.range m.gaussians).map (WSpec.mass l w)).sum
  · rw [if_pos hs]
    have := coeffs_loop ({ m with coeffs := (List.range m.gaussians).map (WSpec.mass l w) } : Gmm K) m.gaussians (by simp)
      (· / ((List.range m.gaussians).map (WSpec.mass l w)).sum) (fun c => do
        let m' ← Prog.get
        let w' ← rd m'.coeffs c
        Prog.set { m' with coeffs := m'.coeffs.set c (w' / ((List.range m.gaussians).map (WSpec.mass l w)).sum) }) (by
      intro cs c hl hc
      simp only [bind_def, get_def]
      rw [rd_lt hc 0]
      simp only [set_def])
    refine ⟨_, this, div_distribution _ hn0 hs, ?_⟩
    simp only
    rw [List.map_map]
    refine List.map_congr_left fun c _ => ?_
    simp only [Function.comp, WSpec.coeff, ← hsum, if_pos hs]
  · rw [if_neg hs]
    have := coeffs_loop ({ m with coeffs := (List.range m.gaussians).map (WSpec.mass l w) } : Gmm K) m.gaussians (by simp)
      (fun _ => 1 / (m.gaussians : K)) (fun c => do
        let m' ← Prog.get
        let _ ← rd m'.coeffs c
        Prog.set { m' with coeffs := m'.coeffs.set c (1 / (m'.gaussians : K)) }) (by
      intro cs c hl hc
      simp only [bind_def, get_def]
      rw [rd_lt hc 0]
      simp only [set_def])
    have e : ((List.range m.gaussians).map (WSpec.mass l w)).map (fun _ => 1 / (m.gaussians : K)) =
        (List.range m.gaussians).map (WSpec.coeff l w m.gaussians) := by
      rw [List.map_map]
      refine List.map_congr_left fun c _ => ?_
      simp only [Function.comp, WSpec.coeff, ← hsum, if_neg hs]
    refine ⟨_, this, ?_, e⟩
    simp only
    rw [List.map_const', List.length_map, List.length_range]
    exact uniform_distribution _ hw.pos

include hx

/-- the means of a state -/
theorem setMeans_ret : ∃ cs, setMeans (postOf l w m.gaussians) (l.map x) m = .ret () { m with comps := cs } ∧ cs.length = m.gaussians ∧
    ∀ c < m.gaussians, ∀ g, m.comps[c]? = some g → cs[c]? = some { g with mean := (List.range m.dim).map (WSpec.mean l w x c) } := by
  obtain ⟨cs, h1, h2, h3⟩ := loop_comps (fun c => setMean (postOf l w m.gaussians) (l.map x) c)
    (fun c g g' => g' = { g with mean := (List.range m.dim).map (WSpec.mean l w x c) }) m m.gaussians (le_of_eq hw.comps.symm) (by
      intro cs c g hl hc hlc hg
      simp only [setMean, bind_def, get_def, set_def, rd_some hlc, totalOf_post l w _ c hc, newMean_post l w x m.gaussians m.dim hx c hc]
      refine ⟨{ g with mean := (List.range m.dim).map (WSpec.mean l w x c) }, ?_, rfl⟩
      have e : ((List.range m.dim).map fun k => (l.map fun p => w p c * (x p).getD k 0).sum /
          (if 0 < WSpec.mass l w c then WSpec.mass l w c else 1)) = (List.range m.dim).map (WSpec.mean l w x c) :=
        List.map_congr_left fun k _ => avg_eq m l w h0 c hc _
      rw [e])
  refine ⟨cs, ?_, by rw [h2]; exact hw.comps, fun c hc g hg => ?_⟩
  · unfold setMeans; rw [bind_of_ret (get_def m)]; exact h1
  · obtain ⟨g', e1, e2⟩ := h3 c hc g hg
    rw [e1, e2]

/-- the covariances of a state before regularisation -/
theorem setCovLoop_ret (hmean : ∀ c g, m.comps[c]? = some g → g.mean = (List.range m.dim).map (WSpec.mean l w x c)) :
    ∃ cs, loop m.gaussians () (fun _ c => setCov (postOf l w m.gaussians) (l.map x) c) m = .ret () { m with comps := cs } ∧
      cs.length = m.gaussians ∧ ∀ c < m.gaussians, ∀ g, m.comps[c]? = some g → ∃ g', cs[c]? = some g' ∧ g' = { g with cov := g'.cov } ∧ g'.WF ∧
        ∀ i < m.dim, ∀ j < m.dim, g'.covAt i j = if m.mode = .diagonal ∧ i ≠ j then 0 else WSpec.cov l w x c i j := by
  obtain ⟨cs, h1, h2, h3⟩ := loop_comps (fun c => setCov (postOf l w m.gaussians) (l.map x) c)
    (fun c g g' => g' = { g with cov := g'.cov } ∧ g'.WF ∧
        ∀ i < m.dim, ∀ j < m.dim, g'.covAt i j = if m.mode = .diagonal ∧ i ≠ j then 0 else WSpec.cov l w x c i j)
    m m.gaussians (le_of_eq hw.comps.symm) (by
      intro cs c g hl hc hlc hg
      obtain ⟨w0, d0, i0, m0, b0⟩ := hw.comp g (List.mem_of_getElem? hg)
      have hgm := hmean c g hg
      have hgl : g.mean.length = m.dim := by rw [hgm]; simp
      have hVal : ∀ e : K, ∀ i < m.dim, ∀ j < m.dim, newCov (postOf l w m.gaussians) (l.map x) g.mean c e i j ({ m with comps := cs } : Gmm K) =
          .ret ((l.map fun p => w p c * (((x p).getD i 0 - WSpec.mean l w x c i) * ((x p).getD j 0 - WSpec.mean l w x c j))).sum / e)
            { m with comps := cs } := by
        intro e i hi j hj
        rw [newCov_post l w x m.gaussians m.dim hx g.mean hgl c hc e i j hi hj, hgm, getD_map_range' _ _ _ hi, getD_map_range' _ _ _ hj]
      have hsym : ∀ e : K, ∀ i j, (l.map fun p => w p c * (((x p).getD i 0 - WSpec.mean l w x c i) * ((x p).getD j 0 - WSpec.mean l w x c j))).sum / e =
          (l.map fun p => w p c * (((x p).getD j 0 - WSpec.mean l w x c j) * ((x p).getD i 0 - WSpec.mean l w x c i))).sum / e := by
        intro e i j
        congr 2
        refine List.map_congr_left fun p _ => ?_
        ring
      have ht : totalOf (postOf l w m.gaussians) c = WSpec.mass l w c := totalOf_post l w _ c hc
      have key : ∀ (Q : Prog (Gmm K) (List K)) (cov' : List K),
          stateCov m.mode (postOf l w m.gaussians) (l.map x) g.mean m.dim c = Q →
          Q ({ m with comps := cs } : Gmm K) = .ret cov' { m with comps := cs } →
          setCov (postOf l w m.gaussians) (l.map x) c { m with comps := cs } =
            .ret () { m with comps := cs.set c { g with cov := cov' } } := by
        intro Q cov' hQ hr
        subst hQ
        unfold setCov
        rw [bind_of_ret (get_def _), bind_of_ret (rd_some hlc _)]
        exact (bind_of_ret hr).trans rfl
      by_cases hmass : 0 < WSpec.mass l w c
      · have hcv : ∀ i j, (l.map fun p => w p c * (((x p).getD i 0 - WSpec.mean l w x c i) * ((x p).getD j 0 - WSpec.mean l w x c j))).sum /
            WSpec.mass l w c = WSpec.cov l w x c i j := fun i j => by unfold WSpec.cov WSpec.avg; rw [if_pos hmass]
        rcases mode_cases g with hm | hm
        · have hmm : m.mode = .full := by rw [← m0, hm]
          obtain ⟨cov', e1, e2, e3⟩ := newCovFull_cells (postOf l w m.gaussians) (l.map x) g.mean m.dim c (WSpec.mass l w c)
            (List.replicate (m.dim * m.dim) 0) (by simp) ({ m with comps := cs } : Gmm K) _ (hVal _) (hsym _)
          refine ⟨_, key _ cov' (by unfold stateCov; rw [ht, hmm]; exact if_pos hmass) e1, rfl, ⟨w0.mean, by simp only [hm, e2, d0], w0.inv, w0.invIn, w0.le⟩, fun i hi j hj => ?_⟩
          rw [if_neg (by simp [hmm])]
          simp only [Gauss.covAt, hm, d0]
          rw [e3 i hi j hj, hcv]
        · have hmm : m.mode = .diagonal := by rw [← m0, hm]
          obtain ⟨cov', e1, e2, e3⟩ := newCovDiagonal_cells (postOf l w m.gaussians) (l.map x) g.mean m.dim c (WSpec.mass l w c)
            (List.replicate m.dim 0) (by simp) ({ m with comps := cs } : Gmm K) _ (hVal _)
          refine ⟨_, key _ cov' (by unfold stateCov; rw [ht, hmm]; exact if_pos hmass) e1, rfl, ⟨w0.mean, by simp only [hm, e2, d0], w0.inv, w0.invIn, w0.le⟩, fun i hi j hj => ?_⟩
          simp only [Gauss.covAt, hm, hmm, true_and]
          by_cases hij : i = j
          · subst hij
            simp only [if_true, ne_eq, not_true_eq_false, if_false]
            rw [e3 i hi, hcv]
          · simp [hij]
      · have hz : ∀ i j, (l.map fun p => w p c * (((x p).getD i 0 - WSpec.mean l w x c i) * ((x p).getD j 0 - WSpec.mean l w x c j))).sum / 1 = 0 :=
          fun i j => by rw [sum_eq_zero m l w h0 c hc hmass, zero_div]
        have hcv : ∀ i j, WSpec.cov l w x c i j = 0 := fun i j => by unfold WSpec.cov WSpec.avg; rw [if_neg hmass]
        rcases mode_cases g with hm | hm
        · have hmm : m.mode = .full := by rw [← m0, hm]
          have e1 := upperCov_zero (postOf l w m.gaussians) (l.map x) g.mean m.dim c ({ m with comps := cs } : Gmm K)
            (fun i hi j hj => by rw [hVal 1 i hi j hj, hz])
          refine ⟨_, key _ _ (by unfold stateCov; rw [ht, hmm]; exact if_neg hmass) e1, rfl, ⟨w0.mean, by simp [hm, d0], w0.inv, w0.invIn, w0.le⟩, fun i hi j hj => ?_⟩
          rw [if_neg (by simp [hmm])]
          simp only [Gauss.covAt, hm, d0]
          rw [getD_replicate, hcv]
        · have hmm : m.mode = .diagonal := by rw [← m0, hm]
          obtain ⟨cov', e1, e2, e3⟩ := newCovDiagonal_cells (postOf l w m.gaussians) (l.map x) g.mean m.dim c 1
            (List.replicate m.dim 0) (by simp) ({ m with comps := cs } : Gmm K) _ (hVal 1)
          refine ⟨_, key _ cov' (by unfold stateCov; rw [ht, hmm]; exact if_neg hmass) e1, rfl, ⟨w0.mean, by simp only [hm, e2, d0], w0.inv, w0.invIn, w0.le⟩, fun i hi j hj => ?_⟩
          simp only [Gauss.covAt, hm, hmm, true_and]
          by_cases hij : i = j
          · subst hij
            simp only [if_true, ne_eq, not_true_eq_false, if_false]
            rw [e3 i hi, hz, hcv]
          · simp [hij])
  exact ⟨cs, h1, by rw [h2]; exact hw.comps, h3⟩

omit hw hx in
theorem avg_nonneg (c : Nat) (hc : c < m.gaussians) (f : ι → K) (hf : ∀ p, 0 ≤ f p) : 0 ≤ WSpec.avg l w c f := by
  unfold WSpec.avg
  by_cases h : 0 < WSpec.mass l w c
  · rw [if_pos h]
    refine div_nonneg (List.sum_nonneg fun y hy => ?_) h.le
    obtain ⟨p, hp, rfl⟩ := List.mem_map.1 hy
    exact mul_nonneg (h0 p hp c hc) (hf p)
  · rw [if_neg h]

omit hw hx h0 in
theorem wspec_cov_comm (c i j : Nat) : WSpec.cov l w x c i j = WSpec.cov l w x c j i := by
  unfold WSpec.cov
  congr 1
  funext p
  ring

omit hw hx h0 in
theorem wspec_cov_quad (c dim : Nat) (v : Nat → K) :
    ∑ i ∈ Finset.range dim, ∑ j ∈ Finset.range dim, v i * WSpec.cov l w x c i j * v j =
      WSpec.avg l w c fun p => (∑ i ∈ Finset.range dim, v i * ((x p).getD i 0 - WSpec.mean l w x c i)) ^ 2 := by
  have key : ∀ (μ : Nat → K) (l : List ι), ∑ i ∈ Finset.range dim, ∑ j ∈ Finset.range dim,
      v i * (l.map fun p => w p c * (((x p).getD i 0 - μ i) * ((x p).getD j 0 - μ j))).sum * v j =
      (l.map fun p => w p c * (∑ i ∈ Finset.range dim, v i * ((x p).getD i 0 - μ i)) ^ 2).sum := by
    intro μ l
    induction l with
    | nil => simp
    | cons p ps ih =>
      simp only [List.map_cons, List.sum_cons]
      rw [← ih, pow_two, Finset.sum_mul_sum, Finset.mul_sum, ← Finset.sum_add_distrib]
      refine Finset.sum_congr rfl fun i _ => ?_
      rw [Finset.mul_sum, ← Finset.sum_add_distrib]
      refine Finset.sum_congr rfl fun j _ => ?_
      ring
  unfold WSpec.cov
  generalize WSpec.mean l w x c = μ
  unfold WSpec.avg
  by_cases h : 0 < WSpec.mass l w c
  · simp only [if_pos h]
    rw [← key μ l, Finset.sum_div]
    refine Finset.sum_congr rfl fun i _ => ?_
    rw [Finset.sum_div]
    refine Finset.sum_congr rfl fun j _ => ?_
    ring
  · simp only [if_neg h]
    simp

omit hw hx in
/-- a regularised weighted covariance -/
theorem fitted_regular (c : Nat) (hc : c < m.gaussians) (g : Gauss K) (hcov : ∀ i < m.dim, ∀ j < m.dim, g.covAt i j =
      (if m.mode = .diagonal ∧ i ≠ j then 0 else WSpec.cov l w x c i j) + (if i = j then m.reg.getD i 0 else 0)) :
    (∀ i < m.dim, ∀ j < m.dim, g.covAt i j = g.covAt j i) ∧
    (∀ v : Nat → K, ∑ i ∈ Finset.range m.dim, m.reg.getD i 0 * v i ^ 2 ≤
      ∑ i ∈ Finset.range m.dim, ∑ j ∈ Finset.range m.dim, v i * g.covAt i j * v j) := by
  have var : ∀ i, 0 ≤ WSpec.cov l w x c i i := fun i => avg_nonneg m l w h0 c hc _ fun p => mul_self_nonneg _
  have hvar : ∀ i < m.dim, m.reg.getD i 0 ≤ g.covAt i i := by
    intro i hi
    rw [hcov i hi i hi]
    simp only [ne_eq, not_true_eq_false, and_false, if_false, if_true]
    linarith [var i]
  have hdiag : m.mode = .diagonal → ∀ i < m.dim, ∀ j < m.dim, i ≠ j → g.covAt i j = 0 := by
    intro hm i hi j hj hij
    rw [hcov i hi j hj, if_pos ⟨hm, hij⟩, if_neg hij, add_zero]
  refine ⟨fun i hi j hj => ?_, fun v => ?_⟩
  · rw [hcov i hi j hj, hcov j hj i hi, wspec_cov_comm]
    by_cases hij : i = j
    · subst hij; rfl
    · rw [if_neg hij, if_neg (Ne.symm hij)]
      simp only [ne_eq, hij, Ne.symm hij, not_false_eq_true]
  · rcases mode_cases' m.mode with hm | hm
    · have e : ∑ i ∈ Finset.range m.dim, ∑ j ∈ Finset.range m.dim, v i * g.covAt i j * v j =
          (∑ i ∈ Finset.range m.dim, ∑ j ∈ Finset.range m.dim, v i * WSpec.cov l w x c i j * v j) +
          ∑ i ∈ Finset.range m.dim, m.reg.getD i 0 * v i ^ 2 := by
        rw [← Finset.sum_add_distrib]
        refine Finset.sum_congr rfl fun i hi => ?_
        have hi' := Finset.mem_range.1 hi
        have : ∑ j ∈ Finset.range m.dim, v i * g.covAt i j * v j =
            ∑ j ∈ Finset.range m.dim, (v i * WSpec.cov l w x c i j * v j + if i = j then m.reg.getD i 0 * v i ^ 2 else 0) := by
          refine Finset.sum_congr rfl fun j hj => ?_
          rw [hcov i hi' j (Finset.mem_range.1 hj), if_neg (by simp [hm])]
          by_cases hij : i = j
          · subst hij; simp only [if_true]; ring
          · simp only [hij, if_false]; ring
        rw [this, Finset.sum_add_distrib, Finset.sum_ite_eq, if_pos hi]
      rw [e, wspec_cov_quad]
      linarith [avg_nonneg m l w h0 c hc _ fun p => sq_nonneg (∑ i ∈ Finset.range m.dim, v i * ((x p).getD i 0 - WSpec.mean l w x c i))]
    · refine Finset.sum_le_sum fun i hi => ?_
      have hi' := Finset.mem_range.1 hi
      rw [Finset.sum_eq_single i]
      · have := mul_le_mul_of_nonneg_right (hvar i hi') (sq_nonneg (v i))
        calc _ ≤ _ := this
          _ = _ := by ring
      · intro j hj hji
        rw [hdiag hm i hi' j (Finset.mem_range.1 hj) (Ne.symm hji)]
        ring
      · intro h0'; exact absurd hi h0'

/-- the covariances of a state -/
theorem setCovs_ret (hmean : ∀ c g, m.comps[c]? = some g → g.mean = (List.range m.dim).map (WSpec.mean l w x c))
    (hrl : m.reg.length = m.dim) (hreg : ∀ i < m.dim, 1 / 10 ^ 9 ≤ m.reg.getD i 0) :
    ∃ cs, setCovs (postOf l w m.gaussians) (l.map x) m = .ret () { m with comps := cs } ∧ Gmm.WF { m with comps := cs } ∧
      ∀ c g', cs[c]? = some g' → g'.mean = (List.range m.dim).map (WSpec.mean l w x c) ∧
        (∀ i < m.dim, ∀ j < m.dim, g'.covAt i j =
          (if m.mode = .diagonal ∧ i ≠ j then 0 else WSpec.cov l w x c i j) + (if i = j then m.reg.getD i 0 else 0)) ∧
        g'.det ≠ 0 ∧ (g'.bimodal = true → g'.detIn ≠ 0) ∧ g'.det = g'.sigma.det ∧ 0 < g'.det ∧
        (m.bimodal = true → g'.outCov.length = outCells m.mode (m.dim - m.di)) ∧ g'.precision * g'.sigma = 1 ∧
        ∃ g0 : Gauss K, g0.WF ∧ Gauss.updateInverseCovariance g0 = .ret () g' := by
  classical
  obtain ⟨l1, a1, a2, a3⟩ := setCovLoop_ret m hw l w x hx h0 hmean
  have k1 : ∀ c g1, l1[c]? = some g1 → c < m.gaussians ∧ ∃ g, g ∈ m.comps ∧ m.comps[c]? = some g ∧ g1 = { g with cov := g1.cov } ∧ g1.WF ∧
      ∀ i < m.dim, ∀ j < m.dim, g1.covAt i j = if m.mode = .diagonal ∧ i ≠ j then 0 else WSpec.cov l w x c i j := by
    intro c g1 hg1
    have hc : c < m.gaussians := by rw [← a2]; exact (List.getElem?_eq_some_iff.1 hg1).1
    obtain ⟨g, hg, hg'⟩ := getElem_comp hw hc
    obtain ⟨g1', e1, e2⟩ := a3 c hc g hg'
    rw [hg1] at e1
    cases e1
    exact ⟨hc, g, hg, hg', e2⟩
  have hw1 : Gmm.WF { m with comps := l1 } := by
    refine ⟨hw.pos, a2, hw.coeffs, hw.beta, fun g1 hg1 => ?_⟩
    obtain ⟨c, hc, rfl⟩ := List.getElem_of_mem hg1
    obtain ⟨_, g, hg, _, e, w1, _⟩ := k1 c _ (List.getElem?_eq_getElem hc)
    obtain ⟨_, r1, r2, r3, r4⟩ := hw.comp g hg
    refine ⟨w1, ?_, ?_, ?_, ?_⟩
    · rw [e]; exact r1
    · rw [e]; exact r2
    · rw [e]; exact r3
    · rw [e]; exact r4
  obtain ⟨l2, b1, b2⟩ := eachComp_regularize _ hw1 hrl
  rw [List.forall₂_iff_get] at b2
  have k2 : ∀ c g2, l2[c]? = some g2 → c < m.gaussians ∧ ∃ g1, l1[c]? = some g1 ∧ g2 = { g1 with cov := g2.cov } ∧ g2.WF ∧
      g2.mean = (List.range m.dim).map (WSpec.mean l w x c) ∧
      ∀ i < m.dim, ∀ j < m.dim, g2.covAt i j =
        (if m.mode = .diagonal ∧ i ≠ j then 0 else WSpec.cov l w x c i j) + (if i = j then m.reg.getD i 0 else 0) := by
    intro c g2 hg2
    obtain ⟨hc, rfl⟩ := List.getElem?_eq_some_iff.1 hg2
    have hc' : c < l1.length := by have := b2.1; simp only at this; omega
    obtain ⟨e1, e2, e3⟩ := b2.2 c hc' hc
    simp only [List.get_eq_getElem] at e1 e2 e3
    obtain ⟨hcg, g, hg, hg', e4, _, e5⟩ := k1 c _ (List.getElem?_eq_getElem hc')
    refine ⟨hcg, _, List.getElem?_eq_getElem hc', e1, e2, ?_, fun i hi j hj => ?_⟩
    · rw [e1]; show (l1[c]).mean = _
      rw [e4]; exact hmean c g hg'
    · rw [e3 i hi j hj, e5 i hi j hj]
  have hl2 : l2.length = m.gaussians := by have := b2.1; simp only at this; omega
  have hw2 : Gmm.WF { m with comps := l2 } := by
    refine ⟨hw.pos, hl2, hw.coeffs, hw.beta, fun g2 hg2 => ?_⟩
    obtain ⟨c, hc, rfl⟩ := List.getElem_of_mem hg2
    obtain ⟨_, g1, hg1, e, w1, _⟩ := k2 c _ (List.getElem?_eq_getElem hc)
    obtain ⟨_, r1, r2, r3, r4⟩ := hw1.comp g1 (List.mem_of_getElem? hg1)
    refine ⟨w1, ?_, ?_, ?_, ?_⟩
    · rw [e]; exact r1
    · rw [e]; exact r2
    · rw [e]; exact r3
    · rw [e]; exact r4
  have hinv : ∀ g ∈ l2, ∃ g', Gauss.updateInverseCovariance g = .ret () g' ∧ g'.det = g'.sigma.det ∧ 0 < g'.det ∧ g'.precision * g'.sigma = 1 := by
    intro g hg
    obtain ⟨c, hc, rfl⟩ := List.getElem_of_mem hg
    obtain ⟨hcg, g1, hg1, e, w1, _, e2⟩ := k2 c _ (List.getElem?_eq_getElem hc)
    obtain ⟨_, hgd, _⟩ := hw2.comp _ hg
    obtain ⟨h1, h2⟩ := fitted_regular m l w x h0 c hcg _ e2
    have hgd : (l2[c]).dim = m.dim := hgd
    obtain ⟨g', e1, e2, e3, _⟩ := C68_gaussian_inverts l2[c] w1 ⟨by rw [hgd]; exact h1, fun v => by
      rw [hgd]
      refine le_trans ?_ (h2 v)
      rw [Finset.mul_sum]
      exact Finset.sum_le_sum fun i hi => mul_le_mul_of_nonneg_right (hreg i (Finset.mem_range.1 hi)) (sq_nonneg _)⟩
    exact ⟨g', e1, e2, e3, (Xmm.C31_inverse _ _ w1 e1).2.2.1⟩
  have hret := eachComp_ret Gauss.updateInverseCovariance
    (fun g => if hg : g ∈ l2 then (hinv g hg).choose else g) ({ m with comps := l2 } : Gmm K) (by
      intro g hg
      replace hg : g ∈ l2 := hg
      rw [dif_pos hg]
      exact (hinv g hg).choose_spec.1)
  obtain ⟨l3, c1, c2⟩ := updateInverses _ hw2
  have hl3 : updateInverseCovariances ({ m with comps := l2 } : Gmm K) = .ret () { m with comps := l3 } ∧
      (∀ g ∈ l3, g.det ≠ 0 ∧ (g.bimodal = true → g.detIn ≠ 0)) ∧ l3 = l2.map fun g => if hg : g ∈ l2 then (hinv g hg).choose else g := by
    rcases c2 with ⟨c2, c3⟩ | c2
    · have c4 := c2
      simp only [updateInverseCovariances] at c4 ⊢
      rw [hret] at c4
      simp only [Res.ret.injEq, true_and, Gmm.mk.injEq] at c4
      exact ⟨c2, c3, c4.1.symm⟩
    · simp only [updateInverseCovariances] at c2
      rw [hret] at c2
      cases c2
  obtain ⟨d1, d2, d3⟩ := hl3
  rw [List.forall₂_iff_get] at c1
  have hl3' : l3.length = m.gaussians := by rw [← c1.1]; exact hl2
  refine ⟨l3, ?_, ⟨hw.pos, hl3', hw.coeffs, hw.beta, fun g3 hg3 => ?_⟩, fun c g3 hg3 => ?_⟩
  · unfold setCovs
    rw [bind_of_ret (get_def m), bind_of_ret a1, bind_of_ret b1]
    exact d1
  · obtain ⟨c, hc, rfl⟩ := List.getElem_of_mem hg3
    have hc2 : c < l2.length := by rw [hl2, ← hl3']; exact hc
    obtain ⟨w3, s3⟩ := c1.2 c hc2 hc
    simp only [List.get_eq_getElem] at w3 s3
    obtain ⟨_, r1, r2, r3, r4⟩ := hw2.comp _ (List.getElem_mem hc2)
    exact ⟨w3, s3.dim.trans r1, s3.di.trans r2, s3.mode.trans r3, s3.bimodal.trans r4⟩
  · obtain ⟨hc, rfl⟩ := List.getElem?_eq_some_iff.1 hg3
    have hc2 : c < l2.length := by rw [hl2, ← hl3']; exact hc
    obtain ⟨w3, s3⟩ := c1.2 c hc2 hc
    simp only [List.get_eq_getElem] at w3 s3
    obtain ⟨hcg, g1, hg1, e, w1, e1, e2⟩ := k2 c _ (List.getElem?_eq_getElem hc2)
    refine ⟨s3.mean.trans e1, fun i hi j hj => ?_, (d2 _ (List.getElem_mem hc)).1, (d2 _ (List.getElem_mem hc)).2, ?_, ?_, fun hb => ?_, ?_⟩
    · rw [← e2 i hi j hj]
      unfold Gauss.covAt
      rw [s3.mode, s3.cov, s3.dim]
    · have : l3[c] = if hg : l2[c] ∈ l2 then (hinv _ hg).choose else l2[c] := by
        subst d3
        rw [List.getElem_map]
      rw [this, dif_pos (List.getElem_mem hc2)]
      exact (hinv _ (List.getElem_mem hc2)).choose_spec.2.1
    · have : l3[c] = if hg : l2[c] ∈ l2 then (hinv _ hg).choose else l2[c] := by
        subst d3
        rw [List.getElem_map]
      rw [this, dif_pos (List.getElem_mem hc2)]
      exact (hinv _ (List.getElem_mem hc2)).choose_spec.2.2.1
    · exact updateInverses_out _ _ hw2 d1 hb _ (List.getElem_mem hc)
    · have : l3[c] = if hg : l2[c] ∈ l2 then (hinv _ hg).choose else l2[c] := by
        subst d3
        rw [List.getElem_map]
      rw [this, dif_pos (List.getElem_mem hc2)]
      have h := (hinv _ (List.getElem_mem hc2)).choose_spec
      exact ⟨h.2.2.2, _, (hw2.comp _ (List.getElem_mem hc2)).1, h.1⟩

end Fit
end Xmm.Gmm
