import Verif.Spec.GmmInit
import Verif.Props.GmmNormalize
import Verif.Props.GmmTrained
import Verif.Props.KMeansTrain
set_option linter.unusedSimpArgs false
set_option linter.unusedSectionVars false
/- Lemmas on the initialisation of mixtures. -/
namespace Xmm.Gmm
open Phrase (loop)
open Gauss (rd resize copyInto rd_lt)
open Prog (bind_def pure_def get_def set_def modify_def throw_def undef_def)
open GmmSpec
variable {K : Type} [Field K] [LinearOrder K] [IsStrictOrderedRing K]

theorem take_sum (p : List (List K)) (a n : Nat) (h : a + n ≤ p.length) (F : List K → K) :
    (((p.drop a).take n).map F).sum = ∑ t ∈ Finset.range n, F (p.getD (a + t) []) := by
  rw [← sum_map_range]
  congr 1
  refine List.ext_getElem (by simp; omega) fun i h1 h2 => ?_
  have hi : i < n := by simpa using h2
  have : a + i < p.length := by omega
  simp [List.getD_eq_getElem?_getD, this]

theorem segment_le (len parts n : Nat) (h : n < parts) : n * (len / parts) + len / parts ≤ len := by
  have h1 : (n + 1) * (len / parts) ≤ parts * (len / parts) := Nat.mul_le_mul_right _ h
  have h2 := Nat.mul_div_le len parts
  rw [Nat.add_mul, Nat.one_mul] at h1
  omega

theorem segmentSum_ret {σ : Type} (data : KData K) (parts n : Nat) (hn : n < parts) (f : List K → Prog σ K) (F : List K → K) (s : σ)
    (h : ∀ x ∈ data.frames, f x s = .ret (F x) s) :
    segmentSum data parts n f s = .ret ((segmentOf data parts n).map F).sum s := by
  unfold segmentSum
  obtain ⟨a, h1, h2⟩ := foldlM_inv data.phrases (0 : K) (fun acc phrase => loop (phrase.length / parts) acc (fun acc t => do
      let x ← rd phrase (n * (phrase.length / parts) + t)
      let v ← f x
      pure (acc + v))) s
    (fun pre acc => acc = ((pre.flatMap fun p => (p.drop (n * (p.length / parts))).take (p.length / parts)).map F).sum) (by simp) (by
      rintro pre p hp acc rfl
      have hle := segment_le p.length parts n hn
      refine ⟨_, Gauss.loop_sum _ _ _ (fun t => F (p.getD (n * (p.length / parts) + t) [])) s (fun a t ht => ?_), ?_⟩
      · have hlt : n * (p.length / parts) + t < p.length := by omega
        have hx : p.getD (n * (p.length / parts) + t) [] ∈ data.frames := by
          rw [List.getD_eq_getElem?_getD, List.getElem?_eq_getElem hlt, Option.getD_some]
          exact List.mem_flatten.2 ⟨p, hp, List.getElem_mem _⟩
        rw [bind_of_ret (rd_lt hlt [] s), bind_of_ret (h _ hx), pure_def]
      · rw [List.flatMap_append, List.map_append, List.sum_append]
        simp only [List.flatMap_cons, List.flatMap_nil, List.append_nil]
        rw [take_sum p _ _ hle])
  rw [h1, h2]
  rfl

theorem segment_length (data : KData K) (parts n : Nat) (hn : n < parts) : (segmentOf data parts n).length = segmentFrames data parts := by
  unfold segmentOf segmentFrames
  rw [List.length_flatMap]
  congr 1
  refine List.map_congr_left fun p _ => ?_
  have := segment_le p.length parts n hn
  simp; omega

theorem segment_frames (data : KData K) (parts n : Nat) : ∀ x ∈ segmentOf data parts n, x ∈ data.frames := by
  intro x hx
  obtain ⟨p, hp, hx⟩ := List.mem_flatMap.1 hx
  exact List.mem_flatten.2 ⟨p, hp, List.mem_of_mem_drop (List.mem_of_mem_take hx)⟩

theorem sum_map_sub_mul (l : List (List K)) (F G : List K → K) (a b : K) :
    (l.map fun x => (F x - a) * (G x - b)).sum = (l.map fun x => F x * G x).sum - b * (l.map F).sum - a * (l.map G).sum + l.length * (a * b) := by
  induction l with
  | nil => simp
  | cons x xs ih =>
    simp only [List.map_cons, List.sum_cons, ih, List.length_cons]
    push_cast
    ring

theorem covariance_eq (l : List (List K)) (hl : l ≠ []) (i j : Nat) :
    (l.map fun x => x.getD i 0 * x.getD j 0).sum / (l.length : K) -
      (l.map fun x => x.getD i 0).sum / (l.length : K) * ((l.map fun x => x.getD j 0).sum / (l.length : K)) = covariance l i j := by
  have hz : (l.length : K) ≠ 0 := by
    have : (0 : K) < l.length := by exact_mod_cast List.length_pos_iff.2 hl
    exact this.ne'
  unfold covariance average
  rw [sum_map_sub_mul l (fun x => x.getD i 0) (fun x => x.getD j 0)]
  field_simp
  ring

theorem initCov_ret {σ : Type} (data : KData K) (parts n d1 d2 dim : Nat) (hn : n < parts) (h1 : d1 < dim) (h2 : d2 < dim)
    (hf : ∀ x ∈ data.frames, x.length = dim) (s : σ) :
    ∃ v, initCov data parts n d1 d2 s = .ret v s ∧ (segmentFrames data parts ≠ 0 → v = covariance (segmentOf data parts n) d1 d2) := by
  unfold initCov
  rw [bind_of_ret (segmentSum_ret data parts n hn _ (fun x => x.getD d1 0 * x.getD d2 0) s (fun x hx => by
    have := hf x hx
    simp only [bind_def, rd_lt (show d1 < x.length by omega) 0, rd_lt (show d2 < x.length by omega) 0, pure_def])),
    bind_of_ret (segmentSum_ret data parts n hn _ (fun x => x.getD d1 0) s (fun x hx => by
    have := hf x hx
    simp only [rd_lt (show d1 < x.length by omega) 0])),
    bind_of_ret (segmentSum_ret data parts n hn _ (fun x => x.getD d2 0) s (fun x hx => by
    have := hf x hx
    simp only [rd_lt (show d2 < x.length by omega) 0])), pure_def]
  refine ⟨_, rfl, fun hz => ?_⟩
  have hl := segment_length data parts n hn
  rw [← hl] at hz ⊢
  exact covariance_eq _ (fun h => hz (by rw [h]; rfl)) _ _

/-- the components `g` and `g'` differ by mean and covariance -/
theorem initCovComp_ret (data : KData K) (m : Gmm K) (n : Nat) (hn : n < m.gaussians) (g : Gauss K) (hg : m.comps[n]? = some g) (hw : g.WF)
    (hd : g.dim = m.dim) (hm : g.mode = m.mode) (hf : ∀ x ∈ data.frames, x.length = m.dim) :
    ∃ cov, initCovComp data n m = .ret () { m with comps := m.comps.set n { g with cov := cov } } ∧
      ({ g with cov := cov } : Gauss K).WF ∧ (segmentFrames data m.gaussians ≠ 0 → ∀ i < m.dim, ∀ j < m.dim,
        ({ g with cov := cov } : Gauss K).covAt i j =
          if m.mode = .diagonal ∧ i ≠ j then 0 else covariance (segmentOf data m.gaussians n) i j) := by
  classical
  unfold initCovComp
  rw [bind_of_ret (get_def _), bind_of_ret (rd_some hg m)]
  have cell : ∀ d1 d2, ∃ v, d1 < m.dim → d2 < m.dim → initCov data m.gaussians n d1 d2 m = .ret v m ∧
      (segmentFrames data m.gaussians ≠ 0 → v = covariance (segmentOf data m.gaussians n) d1 d2) := by
    intro d1 d2
    by_cases h : d1 < m.dim ∧ d2 < m.dim
    · obtain ⟨v, h1⟩ := initCov_ret data m.gaussians n d1 d2 m.dim hn h.1 h.2 hf m
      exact ⟨v, fun _ _ => h1⟩
    · exact ⟨0, fun h1 h2 => absurd ⟨h1, h2⟩ h⟩
  choose v hv using cell
  cases hmode : m.mode with
  | full =>
    unfold initCovMode
    have e := prog_mapM_ret (List.range (m.dim * m.dim)) (fun k => initCov data m.gaussians n (k / m.dim) (k % m.dim))
      (fun k => v (k / m.dim) (k % m.dim)) m (fun k hk => by
        have hk := List.mem_range.1 hk
        have hpos : 0 < m.dim := Nat.pos_of_ne_zero (by rintro h; rw [h] at hk; simp at hk)
        exact (hv _ _ (Nat.div_lt_of_lt_mul hk) (Nat.mod_lt _ hpos)).1)
    refine ⟨_, (bind_of_ret e).trans (set_def _ _), ⟨hw.mean, ?_, hw.inv, hw.invIn, hw.le⟩, fun hz i hi j hj => ?_⟩
    · show _ = (match g.mode with | .full => g.dim * g.dim | .diagonal => g.dim)
      rw [hm, hmode, hd]; simp
    · rw [if_neg (by simp)]
      have hlt : i * m.dim + j < m.dim * m.dim := flat_lt hi hj
      have hq : (i * m.dim + j) / m.dim = i := by
        rw [Nat.mul_comm, Nat.mul_add_div (by omega), Nat.div_eq_of_lt hj, Nat.add_zero]
      have hr : (i * m.dim + j) % m.dim = j := by
        rw [Nat.mul_comm, Nat.mul_add_mod, Nat.mod_eq_of_lt hj]
      simp only [Gauss.covAt, hm, hmode, hd]
      rw [getD_map_range' _ _ _ hlt, hq, hr]
      exact (hv i j hi hj).2 hz
  | diagonal =>
    unfold initCovMode
    have e := prog_mapM_ret (List.range m.dim) (fun d => initCov data m.gaussians n d d)
      (fun d => v d d) m (fun d hd => (hv _ _ (List.mem_range.1 hd) (List.mem_range.1 hd)).1)
    refine ⟨_, (bind_of_ret e).trans (set_def _ _), ⟨hw.mean, ?_, hw.inv, hw.invIn, hw.le⟩, fun hz i hi j hj => ?_⟩
    · show _ = (match g.mode with | .full => g.dim * g.dim | .diagonal => g.dim)
      rw [hm, hmode, hd]; simp
    · simp only [Gauss.covAt, hm, hmode, true_and]
      by_cases hij : i = j
      · subst hij
        rw [if_pos rfl, if_neg (by simp), getD_map_range' _ _ _ hi]
        exact (hv i i hi hi).2 hz
      · rw [if_neg hij, if_pos hij]

theorem meanFromCenters_ret (m : Gmm K) (c : Nat) (g : Gauss K) (hg : m.comps[c]? = some g) (hw : g.WF) (hd : g.dim = m.dim)
    (centers : List K) (hc : c < m.gaussians) (hl : centers.length = m.gaussians * m.dim) :
    ∃ mean, meanFromCenters centers c m = .ret () { m with comps := m.comps.set c { g with mean := mean } } ∧
      mean.length = m.dim ∧ ∀ d < m.dim, mean.getD d 0 = centers.getD (c * m.dim + d) 0 := by
  unfold meanFromCenters
  rw [bind_of_ret (get_def _), bind_of_ret (rd_some hg m)]
  have hml : g.mean.length = m.dim := hw.mean.trans hd
  obtain ⟨a, h1, h2, h3⟩ := loop_inv m.dim g.mean (fun mean d => do
      let x ← rd centers (c * m.dim + d)
      let _ ← rd mean d
      pure (mean.set d x)) m (fun t a => a.length = m.dim ∧ ∀ d < t, a.getD d 0 = centers.getD (c * m.dim + d) 0)
    ⟨hml, fun d hd => by omega⟩ (by
      rintro t ht a ⟨i1, i2⟩
      have hlt : c * m.dim + t < centers.length := by rw [hl]; exact flat_lt hc ht
      refine ⟨_, by rw [bind_of_ret (rd_lt hlt 0 m), bind_of_ret (rd_lt (show t < a.length by omega) 0 m), pure_def], by simpa using i1, fun d hd => ?_⟩
      rw [getD_set _ _ _ _ _ (by omega)]
      by_cases hdt : d = t
      · rw [if_pos hdt, hdt]
      · rw [if_neg hdt]; exact i2 d (by omega))
  exact ⟨a, (bind_of_ret h1).trans (set_def _ _), h2, h3⟩

/-- a covariance matrix plus a regularisation is at least the regularisation -/
theorem cov_atLeast (g : Gauss K) (l : List (List K)) (reg : Nat → K)
    (hcov : ∀ i < g.dim, ∀ j < g.dim, g.covAt i j = (if g.mode = .diagonal ∧ i ≠ j then 0 else covariance l i j) + if i = j then reg i else 0) :
    (∀ i < g.dim, ∀ j < g.dim, g.covAt i j = g.covAt j i) ∧ ∀ v : Nat → K, ∑ i ∈ Finset.range g.dim, reg i * v i ^ 2 ≤
      ∑ i ∈ Finset.range g.dim, ∑ j ∈ Finset.range g.dim, v i * g.covAt i j * v j := by
  have comm : ∀ i j, covariance l i j = covariance l j i := by
    intro i j
    unfold covariance
    congr 1
    funext x
    ring
  have quad : ∀ v : Nat → K, 0 ≤ ∑ i ∈ Finset.range g.dim, ∑ j ∈ Finset.range g.dim, v i * covariance l i j * v j := by
    intro v
    have key : ∀ (μ : Nat → K) (fr : List (List K)), ∑ i ∈ Finset.range g.dim, ∑ j ∈ Finset.range g.dim,
        v i * (fr.map fun x => (x.getD i 0 - μ i) * (x.getD j 0 - μ j)).sum * v j =
        (fr.map fun x => (∑ i ∈ Finset.range g.dim, v i * (x.getD i 0 - μ i)) ^ 2).sum := by
      intro μ fr
      induction fr with
      | nil => simp
      | cons x xs ih =>
        simp only [List.map_cons, List.sum_cons] at ih ⊢
        rw [← ih, pow_two, Finset.sum_mul_sum, ← Finset.sum_add_distrib]
        refine Finset.sum_congr rfl fun i _ => ?_
        rw [← Finset.sum_add_distrib]
        refine Finset.sum_congr rfl fun j _ => ?_
        ring
    have e : ∑ i ∈ Finset.range g.dim, ∑ j ∈ Finset.range g.dim, v i * covariance l i j * v j =
        (l.map fun x => (∑ i ∈ Finset.range g.dim, v i * (x.getD i 0 - average l fun y => y.getD i 0)) ^ 2).sum / l.length := by
      rw [← key, Finset.sum_div]
      refine Finset.sum_congr rfl fun i _ => ?_
      rw [Finset.sum_div]
      refine Finset.sum_congr rfl fun j _ => ?_
      unfold covariance
      conv_lhs => unfold average
      unfold average
      ring
    rw [e]
    refine div_nonneg (List.sum_nonneg fun y hy => ?_) (Nat.cast_nonneg _)
    obtain ⟨x, _, rfl⟩ := List.mem_map.1 hy
    exact sq_nonneg _
  have var : ∀ i, 0 ≤ covariance l i i := by
    intro i
    unfold covariance average
    refine div_nonneg (List.sum_nonneg fun y hy => ?_) (Nat.cast_nonneg _)
    obtain ⟨x, _, rfl⟩ := List.mem_map.1 hy
    exact mul_self_nonneg _
  refine ⟨fun i hi j hj => ?_, fun v => ?_⟩
  · rw [hcov i hi j hj, hcov j hj i hi, comm]
    by_cases hij : i = j
    · subst hij; rfl
    · rw [if_neg hij, if_neg (Ne.symm hij)]
      simp only [ne_eq, hij, Ne.symm hij, not_false_eq_true]
  · rcases mode_cases' g.mode with hm | hm
    · have e : ∑ i ∈ Finset.range g.dim, ∑ j ∈ Finset.range g.dim, v i * g.covAt i j * v j =
          (∑ i ∈ Finset.range g.dim, ∑ j ∈ Finset.range g.dim, v i * covariance l i j * v j) +
          ∑ i ∈ Finset.range g.dim, reg i * v i ^ 2 := by
        rw [← Finset.sum_add_distrib]
        refine Finset.sum_congr rfl fun i hi => ?_
        have hi' := Finset.mem_range.1 hi
        have : ∑ j ∈ Finset.range g.dim, v i * g.covAt i j * v j =
            ∑ j ∈ Finset.range g.dim, (v i * covariance l i j * v j + if i = j then reg i * v i ^ 2 else 0) := by
          refine Finset.sum_congr rfl fun j hj => ?_
          rw [hcov i hi' j (Finset.mem_range.1 hj), if_neg (by simp [hm])]
          by_cases hij : i = j
          · subst hij; simp only [if_true]; ring
          · simp only [hij, if_false]; ring
        rw [this, Finset.sum_add_distrib, Finset.sum_ite_eq, if_pos hi]
      rw [e]
      linarith [quad v]
    · refine Finset.sum_le_sum fun i hi => ?_
      have hi' := Finset.mem_range.1 hi
      rw [Finset.sum_eq_single i]
      · rw [hcov i hi' i hi', if_neg (by simp), if_pos rfl]
        nlinarith [var i, sq_nonneg (v i), mul_nonneg (var i) (sq_nonneg (v i))]
      · intro j hj hji
        rw [hcov i hi' j (Finset.mem_range.1 hj), if_pos ⟨hm, Ne.symm hji⟩, if_neg (Ne.symm hji)]
        ring
      · intro h0; exact absurd hi h0

/-- a covariance matrix plus a regularisation can be inverted -/
theorem regular_of_cov (g : Gauss K) (l : List (List K)) (reg : Nat → K) (hreg : ∀ i < g.dim, 1 / 10 ^ 9 ≤ reg i)
    (hcov : ∀ i < g.dim, ∀ j < g.dim, g.covAt i j = (if g.mode = .diagonal ∧ i ≠ j then 0 else covariance l i j) + if i = j then reg i else 0) :
    g.Regular := by
  obtain ⟨h1, h2⟩ := cov_atLeast g l reg hcov
  refine ⟨h1, fun v => le_trans ?_ (h2 v)⟩
  rw [Finset.mul_sum]
  exact Finset.sum_le_sum fun i hi => mul_le_mul_of_nonneg_right (hreg i (Finset.mem_range.1 hi)) (sq_nonneg (v i))

/-- inverting regular covariances does not fail -/
theorem updateInverses_regular (m : Gmm K) (hw : m.WF) (h : ∀ g ∈ m.comps, g.Regular) :
    ∃ F : Gauss K → Gauss K, updateInverseCovariances m = .ret () { m with comps := m.comps.map F } ∧
      List.Forall₂ (fun g g' => g'.WF ∧ SameParams g g') m.comps (m.comps.map F) ∧
      ∀ g ∈ m.comps.map F, g.det ≠ 0 ∧ (g.bimodal = true → g.detIn ≠ 0) := by
  classical
  have hinv : ∀ g ∈ m.comps, ∃ g' : Gauss K, Gauss.updateInverseCovariance g = .ret () g' := fun g hg => by
    obtain ⟨g', e, _⟩ := C68_gaussian_inverts g (hw.comp g hg).1 (h g hg)
    exact ⟨g', e⟩
  have hret := eachComp_ret Gauss.updateInverseCovariance (fun g => if hg : g ∈ m.comps then (hinv g hg).choose else g) m (by
      intro g hg
      rw [dif_pos hg]
      exact (hinv g hg).choose_spec)
  have hret' : updateInverseCovariances m = .ret () { m with
      comps := m.comps.map fun g => if hg : g ∈ m.comps then (hinv g hg).choose else g } := by
    simp only [updateInverseCovariances, hret]
  obtain ⟨l, h1, h2⟩ := updateInverses m hw
  rcases h2 with ⟨h2, h3⟩ | h2
  · rw [hret'] at h2
    injection h2 with _ h2
    have hl : _ = l := congrArg Gmm.comps h2
    subst hl
    exact ⟨_, hret', h1, h3⟩
  · rw [hret'] at h2
    cases h2

/-- the vectors of two components agree if the matrices agree -/
theorem cov_ext (g g' : Gauss K) (hw : g.WF) (hw' : g'.WF) (hm : g'.mode = g.mode) (hd : g'.dim = g.dim)
    (h : ∀ i < g.dim, ∀ j < g.dim, g'.covAt i j = g.covAt i j) : g'.cov = g.cov := by
  have hl : g'.cov.length = g.cov.length := by
    rw [hw.cov, hw'.cov, hm, hd]
  refine List.ext_getElem hl fun k h1 h2 => ?_
  have key : ∀ l : List K, ∀ hk : k < l.length, l[k] = l.getD k 0 := fun l hk => by
    rw [List.getD_eq_getElem?_getD, List.getElem?_eq_getElem hk, Option.getD_some]
  rw [key, key]
  have hc := hw.cov
  rcases mode_cases' g.mode with hmode | hmode
  · rw [hmode] at hc
    simp only at hc
    have hpos : 0 < g.dim := Nat.pos_of_ne_zero (by rintro h0; rw [h0] at hc; simp at hc; rw [hc] at h2; simp at h2)
    have := h (k / g.dim) (Nat.div_lt_of_lt_mul (by omega)) (k % g.dim) (Nat.mod_lt _ hpos)
    have hk : k / g.dim * g.dim + k % g.dim = k := by rw [Nat.mul_comm]; exact Nat.div_add_mod _ _
    simp only [Gauss.covAt, hm, hmode, hd, hk] at this
    exact this
  · rw [hmode] at hc
    simp only at hc
    have := h k (by omega) k (by omega)
    simpa only [Gauss.covAt, hm, hmode, if_true] using this

theorem mean_ext (g g' : Gauss K) (hw : g.WF) (hw' : g'.WF) (hd : g'.dim = g.dim)
    (h : ∀ k < g.dim, g'.mean.getD k 0 = g.mean.getD k 0) : g'.mean = g.mean := by
  refine List.ext_getElem (by rw [hw.mean, hw'.mean, hd]) fun k h1 h2 => ?_
  have := h k (by rw [← hw.mean]; exact h2)
  rwa [List.getD_eq_getElem?_getD, List.getD_eq_getElem?_getD, List.getElem?_eq_getElem h1, List.getElem?_eq_getElem h2, Option.getD_some,
    Option.getD_some] at this

/-- the size of the components of an updated mixture -/
theorem WF.of_comps {m : Gmm K} (hw : m.WF) {l : List (Gauss K)} (h1 : l.length = m.gaussians)
    (h2 : ∀ (c : Nat) (g' : Gauss K), l[c]? = some g' → ∃ g : Gauss K, m.comps[c]? = some g ∧ g'.WF ∧ g'.dim = g.dim ∧ g'.di = g.di ∧ g'.mode = g.mode ∧ g'.bimodal = g.bimodal) :
    ({ m with comps := l } : Gmm K).WF := by
  refine ⟨hw.pos, h1, hw.coeffs, hw.beta, fun g' hg' => ?_⟩
  obtain ⟨c, hc⟩ := List.getElem?_of_mem hg'
  obtain ⟨g, hg, r1, r2, r3, r4, r5⟩ := h2 c g' hc
  obtain ⟨_, w1, w2, w3, w4⟩ := hw.comp g (List.mem_of_getElem? hg)
  exact ⟨r1, r2.trans w1, r3.trans w2, r4.trans w3, r5.trans w4⟩

end Xmm.Gmm
