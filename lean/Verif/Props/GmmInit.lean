import Verif.Lemmas.GmmInit
import Verif.Props.HmmParams
set_option linter.unusedSimpArgs false
set_option linter.unusedSectionVars false
/- C81, C82: the initialisation of a mixture, and its training from the parameters to a class that recognises. -/
namespace Xmm.Gmm
open Phrase (loop)
open Gauss (rd resize copyInto rd_lt)
open Prog (bind_def pure_def get_def set_def modify_def throw_def undef_def)
open GmmSpec

/-! ### One step -/
section
variable {K : Type} [Field K] [LinearOrder K] [IsStrictOrderedRing K]

/-- components that differ at most by mean and covariance -/
def Alike (m : Gmm K) : Prop :=
  ∀ g ∈ m.comps, ∀ g' ∈ m.comps, ({ g with mean := [], cov := [] } : Gauss K) = { g' with mean := [], cov := [] }

theorem _root_.Xmm.Gauss.Regular.same {g g' : Gauss K} (h : g.Regular) (hs : SameParams g g') : g'.Regular := by
  have e : ∀ i j, g'.covAt i j = g.covAt i j := fun i j => by simp only [Gauss.covAt, hs.mode, hs.cov, hs.dim]
  refine ⟨fun i hi j hj => ?_, fun v => ?_⟩
  · rw [e, e]; exact h.symm i (hs.dim ▸ hi) j (hs.dim ▸ hj)
  · simp only [e, hs.dim]; exact h.quad v

theorem emUpdate_core (D : Dens K) (log : K → K) (data : KData K) (m : Gmm K) (hw : m.WF) (hc : IsDistribution m.coeffs)
    (ht : m.Trains data) (hreg : ∀ i < m.dim, 1 / 10 ^ 9 ≤ m.reg.getD i 0) (dens : List K → Nat → K)
    (hd : Densities D m data.frames dens) (hp : ∀ x ∈ data.frames, ∀ c < m.gaussians, 0 < dens x c) :
    ∃ ll m', emUpdate D log data m = .ret ll m' ∧ m.Updated data.frames dens m' ∧ m'.Ready ∧ m'.Trains data ∧
      ((m.bimodal = true → ∀ g ∈ m'.comps, g.outCov.length = outCells m.mode (m.dim - m.di)) ∧ ∀ g ∈ m'.comps, g.Regular) ∧
      (m.Alike → (∀ x ∈ data.frames, ∀ c < m.gaussians, ∀ c' < m.gaussians, dens x c = dens x c') →
        (∀ c < m.gaussians, ∀ c' < m.gaussians, weights m c = weights m c') →
        (∀ g ∈ m'.comps, ∀ g' ∈ m'.comps, g = g') ∧ ∀ c < m.gaussians, ∀ c' < m.gaussians, weights m' c = weights m' c') := by
  obtain ⟨m2, hu, hk, run⟩ := emUpdate_run_keeps D log data m hw ht dens hd
  have hdim : m2.dim = m.dim := by rw [hu.same]
  have hgs : m2.gaussians = m.gaussians := by rw [hu.same]
  have hR : ∀ g ∈ m2.comps, g.Regular := by
    intro g hg
    obtain ⟨w, d, _⟩ := hu.wf.comp g hg
    obtain ⟨h1, h2, _⟩ := updated_regularised hc ht hp hu g hg
    have hgd : g.dim = m.dim := d.trans hdim
    exact ⟨by rw [hgd]; exact h1, fun v => by
      rw [hgd]
      refine le_trans ?_ (h2 v)
      rw [Finset.mul_sum]
      exact Finset.sum_le_sum fun i hi => mul_le_mul_of_nonneg_right (hreg i (Finset.mem_range.1 hi)) (sq_nonneg _)⟩
  obtain ⟨F, e, f1, f2⟩ := updateInverses_regular m2 hu.wf hR
  have hu' := hu.inverted f1
  have hlen : (0 : K) < (data.frames.length : K) := by
    have := List.length_pos_iff.2 ht.some
    exact_mod_cast this
  have hw0 : ∀ c < m.gaussians, 0 ≤ weights m c := fun c _ => weights_nonneg hc c
  have hdist : IsDistribution m2.coeffs := by
    refine coeffs_distribution (hu.wf.coeffs.trans hgs) _ hu.coeff (fun c hc => ?_) ?_
    · exact div_nonneg (wsum_one_pos hw0 hp hc ht.some).le hlen.le
    · rw [← Finset.sum_div, wsum_total hw0 hp hw.pos]
      exact div_self hlen.ne'
  refine ⟨(data.frames.map fun x => log (∑ c ∈ Finset.range m.gaussians, score (weights m) (dens x) c)).sum, _, ?_, hu', ⟨hu'.wf, hdist, f2⟩, ⟨?_, ht.some, ?_⟩, ⟨fun hb => ?_, ?_⟩, fun ha hx hwt => ?_⟩
  · rw [run, bind_of_ret e, pure_def]
  · intro x hx; rw [ht.frame x hx]; exact hdim.symm
  · show m2.reg.length = m2.dim
    rw [hdim, ← ht.reg]; rw [hu.same]
  · have := updateInverses_out m2 _ hu.wf e (by rw [hu.same]; exact hb)
    rw [hdim] at this
    have hdi : m2.di = m.di := by rw [hu.same]
    have hmo : m2.mode = m.mode := by rw [hu.same]
    rw [hdi, hmo] at this
    exact this
  · rw [List.forall₂_iff_get] at f1
    intro g hg
    obtain ⟨c, hgc⟩ := List.getElem?_of_mem hg
    obtain ⟨hc, rfl⟩ := List.getElem?_eq_some_iff.1 hgc
    have hc' : c < m2.comps.length := by simpa using hc
    exact (hR _ (List.getElem_mem hc')).same (f1.2 c hc' hc).2
  · have hs : ∀ c < m.gaussians, ∀ c' < m.gaussians, ∀ x ∈ data.frames,
        resp m.gaussians (weights m) (dens x) c = resp m.gaussians (weights m) (dens x) c' := by
      intro c hc c' hc' x hxm
      simp only [resp, score, hx x hxm c hc c' hc', hwt c hc c' hc']
    have hsum : ∀ c < m.gaussians, ∀ c' < m.gaussians, ∀ f : List K → K,
        wsum m.gaussians (weights m) dens data.frames c f = wsum m.gaussians (weights m) dens data.frames c' f := by
      intro c hc c' hc' f
      unfold wsum
      congr 1
      exact List.map_congr_left fun x hxm => by rw [hs c hc c' hc' x hxm]
    have hmean : ∀ c < m.gaussians, ∀ c' < m.gaussians, ∀ k,
        wmean m.gaussians (weights m) dens data.frames c k = wmean m.gaussians (weights m) dens data.frames c' k := by
      intro c hc c' hc' k
      unfold wmean wavg
      rw [hsum c hc c' hc', hsum c hc c' hc']
    have hcov : ∀ c < m.gaussians, ∀ c' < m.gaussians, ∀ i j,
        wcov m.gaussians (weights m) dens data.frames c i j = wcov m.gaussians (weights m) dens data.frames c' i j := by
      intro c hc c' hc' i j
      unfold wcov wavg
      rw [hmean c hc c' hc' i, hmean c hc c' hc' j, hsum c hc c' hc', hsum c hc c' hc']
    have heq : ∀ g ∈ m2.comps, ∀ g' ∈ m2.comps, g = g' := by
      intro g hg g' hg'
      obtain ⟨c, hgc⟩ := List.getElem?_of_mem hg
      obtain ⟨c', hgc'⟩ := List.getElem?_of_mem hg'
      have hc1 : c < m.gaussians := by rw [← hgs, ← hu.wf.comps]; exact (List.getElem?_eq_some_iff.1 hgc).1
      have hc2 : c' < m.gaussians := by rw [← hgs, ← hu.wf.comps]; exact (List.getElem?_eq_some_iff.1 hgc').1
      obtain ⟨w, d, _, mo, _⟩ := hu.wf.comp g hg
      obtain ⟨w', d', _, mo', _⟩ := hu.wf.comp g' hg'
      have e1 : g.mean = g'.mean := mean_ext g' g w' w (d.trans d'.symm) (fun k hk' => by
        rw [d', hdim] at hk'
        rw [hu.mean c g hgc k hk', hu.mean c' g' hgc' k hk', hmean c hc1 c' hc2])
      have e2 : g.cov = g'.cov := cov_ext g' g w' w (mo.trans mo'.symm) (d.trans d'.symm) (fun i hi j hj => by
        rw [d', hdim] at hi hj
        rw [hu.cov c g hgc i hi j hj, hu.cov c' g' hgc' i hi j hj, hcov c hc1 c' hc2])
      obtain ⟨g0, h0, q⟩ := hk c g hgc
      obtain ⟨g0', h0', q'⟩ := hk c' g' hgc'
      have a := ha g0 (List.mem_of_getElem? h0) g0' (List.mem_of_getElem? h0')
      have : g = { ({ g0 with mean := [], cov := [] } : Gauss K) with mean := g.mean, cov := g.cov } := q
      rw [this, a, e1, e2]
      exact q'.symm
    refine ⟨fun g hg g' hg' => ?_, fun c hc c' hc' => ?_⟩
    swap
    · unfold weights
      rw [hu'.coeff c hc, hu'.coeff c' hc', hsum c hc c' hc']
    obtain ⟨g1, h1, rfl⟩ := List.mem_map.1 hg
    obtain ⟨g1', h1', rfl⟩ := List.mem_map.1 hg'
    rw [heq g1 h1 g1' h1']

end

/-! ### Initialisation -/

theorem fed_phrases {m : Gmm ℝ} {sd : List ℝ} {data : KData ℝ} (h : m.Fed sd data) : data.phrases ≠ [] := by
  intro h0
  exact h.some (by unfold KData.frames; rw [h0]; rfl)

theorem segmentFrames_pos {m : Gmm ℝ} {data : KData ℝ} (hg : 1 ≤ m.gaussians) : segmentFrames data m.gaussians ≠ 0 ↔ m.LongPhrase data := by
  unfold segmentFrames LongPhrase
  rw [Ne, List.sum_eq_zero_iff]
  simp only [List.mem_map, forall_exists_index, and_imp, forall_apply_eq_imp_iff₂, Nat.div_eq_zero_iff]
  constructor
  · intro h
    by_contra hc
    push_neg at hc
    exact h fun p hp => Or.inr (hc p hp)
  · rintro ⟨p, hp, hl⟩ h
    rcases h p hp with h | h <;> omega

/-- the initialisation up to the regularisation -/
theorem emInit_run (m : Gmm ℝ) (hw : m.WF) (sd : List ℝ) (data : KData ℝ) (hf : m.Fed sd data) :
    ∃ k l, KMeans.train Real.sqrt (fun _ _ => 0) sd data (initialKMeans m.gaussians) = .ret () k ∧
      let m1 : Gmm ℝ := { m with reg := regularization m sd, coeffs := List.replicate m.gaussians (1 / (m.gaussians : ℝ)), comps := l }
      emInit Real.sqrt sd data m = (if segmentFrames data m.gaussians ≠ 0 then (do
        addCovarianceOffset
        updateInverseCovariances
        pure true) else pure false : Prog (Gmm ℝ) Bool) m1 ∧
      m1.WF ∧ (∀ (c : Nat) (g' : Gauss ℝ), l[c]? = some g' → ∃ g : Gauss ℝ, m.comps[c]? = some g ∧ g' = { g with mean := g'.mean, cov := g'.cov } ∧
        (∀ d < m.dim, g'.mean.getD d 0 = KMeans.center k.centers m.dim c d) ∧
        (segmentFrames data m.gaussians ≠ 0 → ∀ i < m.dim, ∀ j < m.dim, g'.covAt i j =
          if m.mode = .diagonal ∧ i ≠ j then 0 else covariance (segmentOf data m.gaussians c) i j)) := by
  have hne := fed_phrases hf
  obtain ⟨l0, i1, i2, i3, i4⟩ := C36_default_parameters m hw sd hf.sd
  set m0 : Gmm ℝ := { m with reg := regularization m sd, coeffs := List.replicate m.gaussians (1 / (m.gaussians : ℝ)), comps := l0 } with hm0
  have k0 : ∀ (c : Nat) (g' : Gauss ℝ), l0[c]? = some g' → ∃ g : Gauss ℝ, m.comps[c]? = some g ∧ g' = { g with cov := g'.cov } ∧ g'.WF := by
    intro c g' hg'
    have hc : c < m.gaussians := by rw [← i2]; exact (List.getElem?_eq_some_iff.1 hg').1
    obtain ⟨g, hg, hgc⟩ := getElem_comp hw hc
    obtain ⟨g1, e1, e2, e3, _⟩ := i4 c g hgc
    rw [hg'] at e1
    cases e1
    exact ⟨g, hgc, e2, e3⟩
  have hw' : ({ m with reg := regularization m sd, coeffs := List.replicate m.gaussians (1 / (m.gaussians : ℝ)) } : Gmm ℝ).WF :=
    ⟨hw.pos, hw.comps, by simp, hw.beta, hw.comp⟩
  have hw0 : m0.WF := hw'.of_comps i2 (fun c g' hg' => by
    obtain ⟨g, e1, e2, e3⟩ := k0 c g' hg'
    refine ⟨g, e1, e3, ?_, ?_, ?_, ?_⟩ <;> rw [e2])
  obtain ⟨n, cs, -, hk, hcs, -⟩ := KMeans.C35_train_terminates (initialKMeans m.gaussians) (fun _ _ => 0) sd data
    ⟨by rw [hf.dim]; exact hf.frame, by rw [hf.dim, hf.sd]⟩ hne hw.pos
  have hcl : (cs n).length = m.gaussians * m.dim := by
    have := hcs n (le_refl _)
    rw [hf.dim] at this
    exact this
  -- means
  obtain ⟨l1, j1, j2, j3⟩ := loop_comps (fun c => meanFromCenters (cs n) c)
    (fun c g g' => g' = { g with mean := g'.mean } ∧ g'.WF ∧ ∀ d < m.dim, g'.mean.getD d 0 = KMeans.center (cs n) m.dim c d)
    m0 m.gaussians (le_of_eq i2.symm) (by
      intro l c g hl hc hlc hgc
      obtain ⟨gw, gd, _⟩ := hw0.comp g (List.mem_of_getElem? hgc)
      obtain ⟨mean, e1, e2, e3⟩ := meanFromCenters_ret { m0 with comps := l } c g hlc gw gd (cs n) hc hcl
      refine ⟨{ g with mean := mean }, e1, rfl, ⟨e2.trans gd.symm, gw.cov, gw.inv, gw.invIn, gw.le⟩, e3⟩)
  have k1 : ∀ (c : Nat) (g' : Gauss ℝ), l1[c]? = some g' → ∃ g : Gauss ℝ, l0[c]? = some g ∧ g' = { g with mean := g'.mean } ∧ g'.WF ∧
      ∀ d < m.dim, g'.mean.getD d 0 = KMeans.center (cs n) m.dim c d := by
    intro c g' hg'
    have hc : c < m.gaussians := by
      have := (List.getElem?_eq_some_iff.1 hg').1
      have h2 : l1.length = m.gaussians := j2.trans i2
      omega
    obtain ⟨g, hg, hgc⟩ := getElem_comp hw0 hc
    obtain ⟨g1, e1, e2, e3, e4⟩ := j3 c hc g hgc
    rw [hg'] at e1
    cases e1
    exact ⟨g, hgc, e2, e3, e4⟩
  have hw1 : ({ m0 with comps := l1 } : Gmm ℝ).WF := hw0.of_comps (j2.trans i2) (fun c g' hg' => by
    obtain ⟨g, e1, e2, e3, _⟩ := k1 c g' hg'
    refine ⟨g, e1, e3, ?_, ?_, ?_, ?_⟩ <;> rw [e2])
  -- covariances
  obtain ⟨l2, q1, q2, q3⟩ := loop_comps (fun c => initCovComp data c)
    (fun c g g' => g' = { g with cov := g'.cov } ∧ g'.WF ∧ (segmentFrames data m.gaussians ≠ 0 → ∀ i < m.dim, ∀ j < m.dim, g'.covAt i j =
          if m.mode = .diagonal ∧ i ≠ j then 0 else covariance (segmentOf data m.gaussians c) i j))
    { m0 with comps := l1 } m.gaussians (le_of_eq (j2.trans i2).symm) (by
      intro l c g hl hc hlc hgc
      obtain ⟨gw, gd, _, gm, _⟩ := hw1.comp g (List.mem_of_getElem? hgc)
      obtain ⟨cov, e1, e2, e3⟩ := initCovComp_ret data { m0 with comps := l } c hc g hlc gw gd gm hf.frame
      exact ⟨{ g with cov := cov }, e1, rfl, e2, e3⟩)
  have k2 : ∀ (c : Nat) (g' : Gauss ℝ), l2[c]? = some g' → ∃ g : Gauss ℝ, l1[c]? = some g ∧ g' = { g with cov := g'.cov } ∧ g'.WF ∧
      (segmentFrames data m.gaussians ≠ 0 → ∀ i < m.dim, ∀ j < m.dim, g'.covAt i j =
          if m.mode = .diagonal ∧ i ≠ j then 0 else covariance (segmentOf data m.gaussians c) i j) := by
    intro c g' hg'
    have hc : c < m.gaussians := by
      have := (List.getElem?_eq_some_iff.1 hg').1
      have h2 : l2.length = m.gaussians := q2.trans (j2.trans i2)
      omega
    obtain ⟨g, hg, hgc⟩ := getElem_comp hw1 hc
    obtain ⟨g1, e1, e2, e3, e4⟩ := q3 c hc g hgc
    rw [hg'] at e1
    cases e1
    exact ⟨g, hgc, e2, e3, e4⟩
  have hw2 : ({ m0 with comps := l2 } : Gmm ℝ).WF := hw1.of_comps (q2.trans (j2.trans i2)) (fun c g' hg' => by
    obtain ⟨g, e1, e2, e3, _⟩ := k2 c g' hg'
    refine ⟨g, e1, e3, ?_, ?_, ?_, ?_⟩ <;> rw [e2])
  have hemp : data.phrases.isEmpty = false := by
    cases h0 : data.phrases with
    | nil => exact absurd h0 hne
    | cons _ _ => rfl
  refine ⟨_, l2, hk, ?_, hw2, fun c g' hg' => ?_⟩
  · unfold emInit
    rw [bind_of_ret i1]
    have e1 : initMeansWithKMeans Real.sqrt sd data m0 = .ret () { m0 with comps := l1 } := by
      unfold initMeansWithKMeans
      rw [hemp, if_neg (by simp), bind_of_ret (get_def _)]
      have : kmeansCenters Real.sqrt sd data m0.gaussians m0 = .ret (cs n) m0 := by
        unfold kmeansCenters
        rw [show m0.gaussians = m.gaussians from rfl, hk]
      rw [bind_of_ret this]
      exact j1
    have e2 : initCovariances data { m0 with comps := l1 } =
        .ret (decide (segmentFrames data m.gaussians ≠ 0)) { m0 with comps := l2 } := by
      unfold initCovariances
      rw [hemp, if_neg (by simp), bind_of_ret (get_def _), bind_of_ret q1, pure_def]
    rw [bind_of_ret e1, bind_of_ret e2]
    by_cases hz : segmentFrames data m.gaussians ≠ 0
    · rw [if_pos hz, decide_eq_true hz, if_pos rfl]
    · rw [if_neg hz, decide_eq_false hz, if_neg (by simp)]
  · obtain ⟨g2, a1, a2, a3, a4⟩ := k2 c g' hg'
    obtain ⟨g1, b1, b2, b3, b4⟩ := k1 c g2 a1
    obtain ⟨g0, c1, c2, c3⟩ := k0 c g1 b1
    refine ⟨g0, c1, ?_, fun d hd => ?_, a4⟩
    · rw [a2, b2, c2]
    · rw [a2]; exact b4 d hd

theorem reg_length {m : Gmm ℝ} {sd : List ℝ} {data : KData ℝ} (hf : m.Fed sd data) : (regularization m sd).length = m.dim := by
  simp [regularization, hf.sd]

theorem reg_at {m : Gmm ℝ} {sd : List ℝ} {data : KData ℝ} (hf : m.Fed sd data) (i : Nat) (hi : i < m.dim) :
    (regularization m sd).getD i 0 = max m.absReg (m.relReg * sd.getD i 0) := by
  have : i < sd.length := by rw [hf.sd]; exact hi
  simp [regularization, List.getD_eq_getElem?_getD, this]

/-- C82: before the first iteration of expectation-maximisation, the components have the same weight, their means are the centers found by
    k-means, and component `c` has the covariance of the segments number `c` of the phrases, regularised.  This holds for every
    training set in which some phrase has as many frames as there are components.  The mixture is then ready for the iterations. -/
theorem C82_initialised (m : Gmm ℝ) (hw : m.WF) (sd : List ℝ) (data : KData ℝ) (hf : m.Fed sd data) (hl : m.LongPhrase data)
    (hreg : 1 / 10 ^ 9 ≤ m.absReg) :
    ∃ m', emInit Real.sqrt sd data m = .ret true m' ∧ m.Initialised sd data m' ∧ m'.Ready ∧ m'.Trains data := by
  obtain ⟨k, l, hk, hrun, hw1, h1⟩ := emInit_run m hw sd data hf
  have hz := (segmentFrames_pos (data := data) hw.pos).2 hl
  rw [if_pos hz] at hrun
  set m1 : Gmm ℝ := { m with reg := regularization m sd, coeffs := List.replicate m.gaussians (1 / (m.gaussians : ℝ)), comps := l } with hm1
  obtain ⟨l2, b1, b2⟩ := eachComp_regularize m1 hw1 (reg_length hf)
  rw [List.forall₂_iff_get] at b2
  have k2 : ∀ (c : Nat) (g2 : Gauss ℝ), l2[c]? = some g2 → ∃ g1 : Gauss ℝ, l[c]? = some g1 ∧ g2 = { g1 with cov := g2.cov } ∧
      g2.WF ∧ ∀ i < m.dim, ∀ j < m.dim, g2.covAt i j = g1.covAt i j + if i = j then (regularization m sd).getD i 0 else 0 := by
    intro c g2 hg2
    obtain ⟨hc, rfl⟩ := List.getElem?_eq_some_iff.1 hg2
    have hc' : c < l.length := by have := b2.1; simp only [hm1] at this; omega
    exact ⟨l[c], List.getElem?_eq_getElem hc', b2.2 c hc' hc⟩
  have hw2 : ({ m1 with comps := l2 } : Gmm ℝ).WF := hw1.of_comps (b2.1.symm.trans hw1.comps) (fun c g' hg' => by
    obtain ⟨g, e1, e2, e3, _⟩ := k2 c g' hg'
    refine ⟨g, e1, e3, ?_, ?_, ?_, ?_⟩ <;> rw [e2])
  have hcov : ∀ (c : Nat) (g2 : Gauss ℝ), l2[c]? = some g2 → ∀ i < m.dim, ∀ j < m.dim, g2.covAt i j =
      (if m.mode = .diagonal ∧ i ≠ j then 0 else covariance (segmentOf data m.gaussians c) i j) +
      (if i = j then max m.absReg (m.relReg * sd.getD i 0) else 0) := by
    intro c g2 hg2 i hi j hj
    obtain ⟨g1, e1, e2, e3, e4⟩ := k2 c g2 hg2
    obtain ⟨_, _, _, _, e5⟩ := h1 c g1 e1
    rw [e4 i hi j hj, e5 hz i hi j hj, reg_at hf i hi]
  obtain ⟨F, f1, f2, f3⟩ := updateInverses_regular { m1 with comps := l2 } hw2 (by
    intro g hg
    obtain ⟨c, hgc⟩ := List.getElem?_of_mem hg
    obtain ⟨_, gd, _, gm, _⟩ := hw2.comp g hg
    have gd' : g.dim = m.dim := gd
    have gm' : g.mode = m.mode := gm
    refine regular_of_cov g (segmentOf data m.gaussians c) (fun i => max m.absReg (m.relReg * sd.getD i 0))
      (fun i _ => le_trans hreg (le_max_left _ _)) (fun i hi j hj => ?_)
    rw [hcov c g hgc i (gd' ▸ hi) j (gd' ▸ hj), gm'])
  rw [List.forall₂_iff_get] at f2
  have k3 : ∀ (c : Nat) (g3 : Gauss ℝ), (l2.map F)[c]? = some g3 → ∃ g2 : Gauss ℝ, l2[c]? = some g2 ∧ g3.WF ∧ SameParams g2 g3 := by
    intro c g3 hg3
    obtain ⟨hc, rfl⟩ := List.getElem?_eq_some_iff.1 hg3
    have hc' : c < l2.length := by simpa using hc
    exact ⟨_, List.getElem?_eq_getElem hc', f2.2 c hc' hc⟩
  have hw3 : ({ m1 with comps := l2.map F } : Gmm ℝ).WF := hw2.of_comps (by simpa using hw2.comps) (fun c g' hg' => by
    obtain ⟨g, e1, e2, e3⟩ := k3 c g' hg'
    exact ⟨g, e1, e2, e3.dim, e3.di, e3.mode, e3.bimodal⟩)
  have hcl : KMeans.IsClustering (1 / 10 ^ 20) m.gaussians 50 m.dim data.frames
      (KMeans.segmentMean (data.phrases.headD []) ((data.phrases.headD []).length / m.gaussians)) k.centers := by
    obtain ⟨cs, q1, -, q3⟩ := KMeans.C35_clustering (initialKMeans m.gaussians) (fun _ _ => 0) sd data
      ⟨by rw [hf.dim]; exact hf.frame, by rw [hf.dim, hf.sd]⟩ (fed_phrases hf) hw.pos
    rw [hk] at q1
    injection q1 with _ q1
    rw [q1]
    rw [hf.dim] at q3
    exact q3
  refine ⟨{ m1 with comps := l2.map F }, ?_, ⟨rfl, fun i hi => reg_at hf i hi, rfl, ⟨k.centers, hcl, fun c g3 hg3 d hd => ?_⟩, fun c g3 hg3 i hi j hj => ?_⟩,
    ⟨hw3, uniform_distribution _ hw.pos, f3⟩, ⟨hf.frame, hf.some, reg_length hf⟩⟩
  · rw [hrun, bind_of_ret b1, bind_of_ret f1, pure_def]
  · obtain ⟨g2, e1, _, e3⟩ := k3 c g3 hg3
    obtain ⟨g1, d1, d2, _⟩ := k2 c g2 e1
    obtain ⟨_, _, _, c1, _⟩ := h1 c g1 d1
    rw [e3.mean, d2]
    exact c1 d hd
  · obtain ⟨g2, e1, _, e3⟩ := k3 c g3 hg3
    have : g3.covAt i j = g2.covAt i j := by simp only [Gauss.covAt, e3.mode, e3.cov, e3.dim]
    rw [this, hcov c g2 e1 i hi j hj]

/-- the initialisation when every phrase is shorter than the number of components -/
theorem emInit_short (m : Gmm ℝ) (hw : m.WF) (sd : List ℝ) (data : KData ℝ) (hf : m.Fed sd data) (hl : ¬ m.LongPhrase data) :
    ∃ m', emInit Real.sqrt sd data m = .ret false m' ∧ m' = { m with reg := regularization m sd, coeffs := m'.coeffs, comps := m'.comps } ∧ m'.WF ∧
      m'.coeffs = List.replicate m.gaussians (1 / (m.gaussians : ℝ)) ∧ (m.Alike → m'.Alike) := by
  obtain ⟨k, l, hk, hrun, hw1, h1⟩ := emInit_run m hw sd data hf
  have hz : ¬ segmentFrames data m.gaussians ≠ 0 := fun h => hl ((segmentFrames_pos hw.pos).1 h)
  rw [if_neg hz] at hrun
  refine ⟨_, hrun, rfl, hw1, rfl, fun ha g hg g' hg' => ?_⟩
  obtain ⟨c, hgc⟩ := List.getElem?_of_mem hg
  obtain ⟨c', hgc'⟩ := List.getElem?_of_mem hg'
  obtain ⟨g0, e0, e1, _⟩ := h1 c g hgc
  obtain ⟨g0', e0', e1', _⟩ := h1 c' g' hgc'
  have := ha g0 (List.mem_of_getElem? e0) g0' (List.mem_of_getElem? e0')
  rw [e1, e1']
  exact this

/-! ### All iterations -/

/-- what holds before and after every step -/
structure Going (m0 : Gmm ℝ) (data : KData ℝ) (m : Gmm ℝ) : Prop where
  same : m = { m0 with coeffs := m.coeffs, beta := m.beta, comps := m.comps, reg := m.reg }
  wf : m.WF
  coeffs : IsDistribution m.coeffs
  trains : m.Trains data
  reg : ∀ i < m.dim, 1 / 10 ^ 9 ≤ m.reg.getD i 0

theorem floor_densities (m : Gmm ℝ) (frames : List (List ℝ)) : Densities Dens.floor m frames (fun _ _ => 1 / 10 ^ 180) := by
  intro x _ c g _
  cases m.bimodal <;> rfl

theorem trainStep_ret (D : Dens ℝ) (hD : D.Sound) (log : ℝ → ℝ) (data : KData ℝ) (ok : Bool) (k : Nat) (m0 m : Gmm ℝ) (hg : Going m0 data m)
    (hr : ok = true ∨ 0 < k → m.Ready) :
    ∃ ll m', trainStep D log data ok k m = .ret ll m' ∧ Going m0 data m' ∧ m'.Ready ∧
      ((m0.bimodal = true → ∀ g ∈ m'.comps, g.outCov.length = outCells m0.mode (m0.dim - m0.di)) ∧ ∀ g ∈ m'.comps, g.Regular) ∧
      (m.Alike → (0 < k → ∀ g ∈ m.comps, ∀ g' ∈ m.comps, g = g') → ok = false →
        (∀ c < m0.gaussians, ∀ c' < m0.gaussians, weights m c = weights m c') →
        (∀ g ∈ m'.comps, ∀ g' ∈ m'.comps, g = g') ∧ ∀ c < m0.gaussians, ∀ c' < m0.gaussians, weights m' c = weights m' c') := by
  have e1 : m.gaussians = m0.gaussians := by rw [hg.same]
  have e2 : m.bimodal = m0.bimodal := by rw [hg.same]
  have e3 : m.mode = m0.mode := by rw [hg.same]
  have e4 : m.dim = m0.dim := by rw [hg.same]
  have e5 : m.di = m0.di := by rw [hg.same]
  have key : ∀ (D' : Dens ℝ) (dens : List ℝ → Nat → ℝ), Densities D' m data.frames dens →
      (∀ x ∈ data.frames, ∀ c < m.gaussians, 0 < dens x c) →
      ∃ ll m', emUpdate D' log data m = .ret ll m' ∧ Going m0 data m' ∧ m'.Ready ∧
      ((m0.bimodal = true → ∀ g ∈ m'.comps, g.outCov.length = outCells m0.mode (m0.dim - m0.di)) ∧ ∀ g ∈ m'.comps, g.Regular) ∧
      (m.Alike → (∀ x ∈ data.frames, ∀ c < m.gaussians, ∀ c' < m.gaussians, dens x c = dens x c') →
        (∀ c < m0.gaussians, ∀ c' < m0.gaussians, weights m c = weights m c') →
        (∀ g ∈ m'.comps, ∀ g' ∈ m'.comps, g = g') ∧ ∀ c < m0.gaussians, ∀ c' < m0.gaussians, weights m' c = weights m' c') := by
    intro D' dens hd hp
    obtain ⟨ll, m', h1, h2, h3, h4, h5, h6⟩ := emUpdate_core D' log data m hg.wf hg.coeffs hg.trains hg.reg dens hd hp
    have hs := h2.same
    refine ⟨ll, m', h1, ⟨?_, h3.wf, h3.coeffs, h4, ?_⟩, h3, ?_, ?_⟩
    · rw [hs, hg.same]
    · rw [hs]; exact hg.reg
    · rw [← e2, ← e3, ← e4, ← e5]; exact h5
    · rw [← e1]; exact h6
  unfold trainStep
  by_cases h : (ok || 0 < k) = true
  · rw [if_pos h]
    have h' : ok = true ∨ 0 < k := by simpa using h
    obtain ⟨dens, hd, hp⟩ := densities_exist D hD m (hr h') data.frames hg.trains.frame
    obtain ⟨ll, m', h1, h2, h3, h4, h5⟩ := key D dens hd hp
    refine ⟨ll, m', h1, h2, h3, h4, fun ha heq hok hwt => h5 ha (fun x hx c hc c' hc' => ?_) hwt⟩
    have hk : 0 < k := by
      rcases h' with h' | h'
      · rw [hok] at h'; cases h'
      · exact h'
    obtain ⟨g, hgm, hgc⟩ := getElem_comp hg.wf hc
    obtain ⟨g', hgm', hgc'⟩ := getElem_comp hg.wf hc'
    have hgg := heq hk g hgm g' hgm'
    subst hgg
    have a := hd x hx c g hgc
    rw [hd x hx c' g hgc'] at a
    injection a with a _
    exact a.symm
  · rw [if_neg h]
    obtain ⟨ll, m', h1, h2, h3, h4, h5⟩ := key Dens.floor (fun _ _ => 1 / 10 ^ 180) (floor_densities m data.frames)
      (fun _ _ _ _ => by positivity)
    exact ⟨ll, m', h1, h2, h3, h4, fun ha _ _ hwt => h5 ha (fun _ _ _ _ _ _ => rfl) hwt⟩

theorem trainSteps_ret (D : Dens ℝ) (hD : D.Sound) (log : ℝ → ℝ) (data : KData ℝ) (ok : Bool) (m0 m : Gmm ℝ) (hg : Going m0 data m)
    (hr : ok = true → m.Ready) (n : Nat) :
    ∃ ls m', trainSteps D log data ok n m = .ret ls m' ∧ ls.length = n ∧ Going m0 data m' ∧ (ok = true ∨ 0 < n → m'.Ready) ∧
      (0 < n → (m0.bimodal = true → ∀ g ∈ m'.comps, g.outCov.length = outCells m0.mode (m0.dim - m0.di)) ∧ ∀ g ∈ m'.comps, g.Regular) ∧
      (m.Alike → ok = false → (∀ c < m0.gaussians, ∀ c' < m0.gaussians, weights m c = weights m c') →
        m'.Alike ∧ (0 < n → ∀ g ∈ m'.comps, ∀ g' ∈ m'.comps, g = g') ∧
          ∀ c < m0.gaussians, ∀ c' < m0.gaussians, weights m' c = weights m' c') := by
  induction n with
  | zero =>
    exact ⟨[], m, rfl, rfl, hg, fun h => hr (by simpa using h), fun h => absurd h (lt_irrefl _), fun ha _ hwt =>
      ⟨ha, fun h => absurd h (lt_irrefl _), hwt⟩⟩
  | succ n ih =>
    obtain ⟨ls, m1, h1, h2, h3, h4, h5, h6⟩ := ih
    obtain ⟨l, m2, k1, k2, k3, k4, k5⟩ := trainStep_ret D hD log data ok n m0 m1 h3 h4
    refine ⟨ls ++ [l], m2, ?_, by simp [h2], k2, fun _ => k3, fun _ => k4, fun ha hok hwt => ?_⟩
    · unfold trainSteps
      rw [bind_of_ret h1, bind_of_ret k1, pure_def]
    · obtain ⟨a1, a2, a3⟩ := h6 ha hok hwt
      obtain ⟨b1, b2⟩ := k5 a1 a2 hok a3
      exact ⟨fun g hg g' hg' => by rw [b1 g hg g' hg'], fun _ => b1, b2⟩

/-- the mixture before the first step -/
theorem start_ret (m : Gmm ℝ) (ha : m.Admissible) (sd : List ℝ) (data : KData ℝ) (hf : m.Fed sd data) (hreg : 1 / 10 ^ 9 ≤ m.absReg) :
    ∃ m1 ok m2, allocate m = .ret () m1 ∧ emInit Real.sqrt sd data m1 = .ret ok m2 ∧ (ok = true ↔ m.LongPhrase data) ∧ Going m data m2 ∧
      (ok = true → m2.Ready) ∧
      (ok = false → m2.Alike ∧ ∀ c < m.gaussians, ∀ c' < m.gaussians, weights m2 c = weights m2 c') := by
  obtain ⟨g, g1, g2⟩ := Gmm.allocate_ret m ha.gaussians ha.dim ha.di
  set m1 : Gmm ℝ := { m with
    coeffs := resize m.gaussians m.coeffs, beta := resize m.gaussians m.beta, comps := List.replicate m.gaussians g } with hm1
  have hf1 : m1.Fed sd data := ⟨hf.dim, hf.frame, hf.some, hf.sd⟩
  have hfl : ∀ i < m.dim, 1 / 10 ^ 9 ≤ (regularization m sd).getD i 0 := fun i hi => by
    rw [reg_at hf i hi]; exact le_trans hreg (le_max_left _ _)
  by_cases hl : m.LongPhrase data
  · obtain ⟨m2, e1, e2, e3, e4⟩ := C82_initialised m1 g2 sd data hf1 hl hreg
    have hs := e2.same
    refine ⟨m1, true, m2, g1, e1, by simp [hl], ⟨?_, e3.wf, e3.coeffs, e4, fun i hi => ?_⟩, fun _ => e3, by simp⟩
    · rw [hs]
    · have hd : m2.dim = m1.dim := by rw [hs]
      rw [e2.reg i (hd ▸ hi)]
      exact le_trans hreg (le_max_left _ _)
  · obtain ⟨m2, e1, e2, e3, e4, e5⟩ := emInit_short m1 g2 sd data hf1 hl
    have hd : m2.dim = m.dim := by rw [e2]
    have hr : m2.reg = regularization m sd := by rw [e2]; rfl
    refine ⟨m1, false, m2, g1, e1, by simp [hl], ⟨?_, e3, ?_, ⟨?_, hf.some, ?_⟩, fun i hi => ?_⟩, by simp, fun _ => ⟨e5 ?_, fun c hc c' hc' => ?_⟩⟩
    · rw [e2]
    · rw [e4]; exact uniform_distribution _ ha.gaussians
    · rw [hd]; exact hf.frame
    · rw [hr, hd]; exact reg_length hf
    · rw [hr]; exact hfl i (hd ▸ hi)
    · intro g hg g' hg'
      have q1 := List.eq_of_mem_replicate hg
      have q2 := List.eq_of_mem_replicate hg'
      rw [q1, q2]
    · unfold weights
      rw [e4]
      have h1 : c < m1.gaussians := hc
      have h2 : c' < m1.gaussians := hc'
      simp [List.getD_eq_getElem?_getD, List.getElem?_replicate, h1, h2]

/-- C81: training a mixture always gives a class that can recognise.  For all admissible parameters, all data of the right dimension with
    at least one frame, an absolute regularisation of at least 1e-9 (the default is 1e-3) and every number of iterations from 1, the training
    returns a log-likelihood for each iteration; afterwards `filter` is defined for every observation (C38, C40), and the parameters are those of before.
    No hypothesis is made on the lengths of the phrases, on the values, or on the distance between the frames. -/
theorem C81_trained_usable (D : Dens ℝ) (hD : D.Sound) (log : ℝ → ℝ) (m : Gmm ℝ) (ha : m.Admissible) (hwin : 1 ≤ m.window) (sd : List ℝ)
    (data : KData ℝ) (hf : m.Fed sd data) (hreg : 1 / 10 ^ 9 ≤ m.absReg) (n : Nat) (hn : 1 ≤ n) :
    ∃ ls m', trainRun D log Real.sqrt sd data n m = .ret ls m' ∧ ls.length = n ∧
      ({ m' with training := false } : Gmm ℝ).CanFilter ∧
      m' = { m with coeffs := m'.coeffs, beta := m'.beta, comps := m'.comps, reg := m'.reg } := by
  obtain ⟨m1, ok, m2, h1, h2, -, h3, h4, -⟩ := start_ret m ha sd data hf hreg
  obtain ⟨ls, m', k1, k2, k3, k4, k5, -⟩ := trainSteps_ret D hD log data ok m m2 h3 h4 n
  have hr := k4 (Or.inr hn)
  have hs := k3.same
  refine ⟨ls, m', ?_, k2, ⟨⟨⟨hr.wf.pos, hr.wf.comps, hr.wf.coeffs, hr.wf.beta, hr.wf.comp⟩, hr.coeffs, hr.det⟩, rfl, ?_, fun hb => ?_⟩, hs⟩
  · unfold trainRun
    rw [bind_of_ret h1, bind_of_ret h2]
    exact k1
  · show 1 ≤ m'.window
    rw [hs]; exact hwin
  · have e2 : m'.bimodal = m.bimodal := by rw [hs]
    have e3 : m'.mode = m.mode := by rw [hs]
    have e4 : m'.dim = m.dim := by rw [hs]
    have e5 : m'.di = m.di := by rw [hs]
    show ∀ g ∈ m'.comps, g.outCov.length = outCells m'.mode (m'.dim - m'.di)
    rw [e3, e4, e5]
    exact (k5 hn).1 (e2.symm.trans hb)

/-- C82 violated: if every phrase has fewer frames than there are components (10 by default), the initial covariances are NaN and the
    first iteration makes all components equal; no later iteration separates them.  The mixture is one Gaussian, whatever the data are. -/
theorem C82_short_phrases_violated (D : Dens ℝ) (hD : D.Sound) (log : ℝ → ℝ) (m : Gmm ℝ) (ha : m.Admissible) (sd : List ℝ)
    (data : KData ℝ) (hf : m.Fed sd data) (hreg : 1 / 10 ^ 9 ≤ m.absReg) (hshort : ∀ p ∈ data.phrases, p.length < m.gaussians) (n : Nat) (hn : 1 ≤ n) :
    ∃ ls m', trainRun D log Real.sqrt sd data n m = .ret ls m' ∧ m'.comps.length = m.gaussians ∧
      (∀ g ∈ m'.comps, ∀ g' ∈ m'.comps, g = g') ∧ ∀ c < m.gaussians, m'.coeffs.getD c 0 = 1 / (m.gaussians : ℝ) := by
  obtain ⟨m1, ok, m2, h1, h2, hok, h3, h4, h5⟩ := start_ret m ha sd data hf hreg
  have hok' : ok = false := by
    cases ok with
    | false => rfl
    | true =>
      obtain ⟨p, hp, hl⟩ := hok.1 rfl
      exact absurd (hshort p hp) (by omega)
  obtain ⟨ls, m', k1, k2, k3, k4, k5, k6⟩ := trainSteps_ret D hD log data ok m m2 h3 h4 n
  obtain ⟨a1, a2⟩ := h5 hok'
  obtain ⟨-, b1, b2⟩ := k6 a1 hok' a2
  have hgs : m'.gaussians = m.gaussians := by rw [k3.same]
  refine ⟨ls, m', ?_, k3.wf.comps.trans hgs, b1 hn, fun c hc => ?_⟩
  · unfold trainRun
    rw [bind_of_ret h1, bind_of_ret h2]
    exact k1
  · have hsum := k3.coeffs.2
    have hall : ∀ i ∈ Finset.range m.gaussians, m'.coeffs.getD i 0 = m'.coeffs.getD c 0 := fun i hi => b2 i (Finset.mem_range.1 hi) c hc
    rw [list_sum_getD, k3.wf.coeffs, hgs, Finset.sum_congr rfl hall, Finset.sum_const, Finset.card_range, nsmul_eq_mul] at hsum
    have hpos : (m.gaussians : ℝ) ≠ 0 := by
      have := ha.gaussians
      positivity
    field_simp
    linarith

/-- the parameters of the examples: two components -/
noncomputable def example2 (b : Bool) (mode : CovMode) : Gmm ℝ :=
  { gaussians := 2, mode := mode, absReg := 1 / 100, relReg := 1 / 100, bimodal := b, dim := 2, di := if b then 1 else 0, window := 1, comps := [], coeffs := [],
    beta := [], reg := [], training := false, buf := ⟨[fun _ => 0], 1, 0, false⟩, instant := 0, logLik := 0, outVals := [], outCov := [] }

/-- Non-vacuity of C81 and C82: both modes, one modality or two; a phrase of four frames in two places. -/
example (b : Bool) (mode : CovMode) : ∃ (m : Gmm ℝ) (sd : List ℝ) (data : KData ℝ), m.mode = mode ∧ m.bimodal = b ∧ m.Admissible ∧ 1 ≤ m.window ∧ m.Fed sd data ∧
    m.LongPhrase data ∧ 1 / 10 ^ 9 ≤ m.absReg ∧ m.gaussians = 2 ∧ Dens.real.Sound := by
  refine ⟨example2 b mode, [1, 1], ⟨2, [[[0, 0], [0, 1], [9, 9], [9, 8]]]⟩, rfl, rfl, ⟨?_, ?_, ?_⟩, le_refl _, ⟨rfl, ?_, ?_, rfl⟩, ?_, ?_, rfl, Dens.real_sound⟩
  · exact Nat.le_succ 1
  · cases b <;> simp [example2]
  · cases b <;> simp [example2]
  · simp [KData.frames, example2]
  · simp [KData.frames]
  · exact ⟨_, List.mem_cons_self, by simp [example2]⟩
  · norm_num [example2]

/-- Non-vacuity of the violation: two phrases of one frame, far apart, and two components. -/
example (b : Bool) (mode : CovMode) : ∃ (m : Gmm ℝ) (sd : List ℝ) (data : KData ℝ), m.Admissible ∧ m.Fed sd data ∧ 1 / 10 ^ 9 ≤ m.absReg ∧
    (∀ p ∈ data.phrases, p.length < m.gaussians) ∧ m.gaussians = 2 ∧ data.frames = [[0, 0], [9, 9]] := by
  refine ⟨example2 b mode, [1, 1], ⟨2, [[[0, 0]], [[9, 9]]]⟩, ⟨?_, ?_, ?_⟩, ⟨rfl, ?_, ?_, rfl⟩, ?_, ?_, rfl, rfl⟩
  · exact Nat.le_succ 1
  · cases b <;> simp [example2]
  · cases b <;> simp [example2]
  · simp [KData.frames, example2]
  · simp [KData.frames]
  · norm_num [example2]
  · simp [example2]

end Xmm.Gmm
