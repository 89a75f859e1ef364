import Verif.Props.HmmInit
import Verif.Spec.OneGaussian
set_option linter.unusedSimpArgs false
/- Mixtures of one component. -/
namespace Xmm
open Gauss (rd resize rd_lt)
open Prog (bind_def pure_def get_def set_def modify_def throw_def undef_def)
open GmmSpec HmmSpec

namespace Gmm

theorem resp_one (w d : Nat → ℝ) : resp 1 w d 0 = 1 := by
  unfold resp
  rw [Finset.sum_range_one, div_self]
  unfold score
  split
  · positivity
  · assumption

theorem wsum_one (w : Nat → ℝ) (dens : List ℝ → Nat → ℝ) (frames : List (List ℝ)) (f : List ℝ → ℝ) : wsum 1 w dens frames 0 f = (frames.map f).sum := by
  unfold wsum
  congr 1
  refine List.map_congr_left fun x _ => ?_
  rw [resp_one, one_mul]

theorem wavg_one (w : Nat → ℝ) (dens : List ℝ → Nat → ℝ) (frames : List (List ℝ)) (f : List ℝ → ℝ) : wavg 1 w dens frames 0 f = average frames f := by
  unfold wavg average
  rw [wsum_one, wsum_one]
  simp

/-- one iteration, from any parameters, gives the normal distribution of the data -/
theorem updated_one {m m' : Gmm ℝ} {frames : List (List ℝ)} {dens : List ℝ → Nat → ℝ} (h1 : m.gaussians = 1) (hne : frames ≠ []) (h : m.Updated frames dens m') :
    m.Normal (fun i => m.reg.getD i 0) frames m' := by
  have hg : m'.gaussians = 1 := by rw [h.same]; exact h1
  obtain ⟨g, hgs⟩ := List.length_eq_one_iff.1 (h.wf.comps.trans hg)
  obtain ⟨c, hcs⟩ := List.length_eq_one_iff.1 (h.wf.coeffs.trans hg)
  have hg0 : m'.comps[0]? = some g := by rw [hgs]; rfl
  refine ⟨?_, g, hgs, fun k hk => ?_, fun i hi j hj => ?_⟩
  · have := h.coeff 0 (by omega)
    rw [h1, wsum_one, hcs] at this
    rw [hcs]
    have hl : (frames.length : ℝ) ≠ 0 := by
      exact_mod_cast (List.length_pos_iff.2 hne).ne'
    simp only [List.getD_cons_zero, List.map_const', List.sum_replicate, nsmul_eq_mul, mul_one, div_self hl] at this
    rw [this]
  · rw [h.mean 0 g hg0 k hk, h1]
    exact wavg_one _ _ _ _
  · rw [h.cov 0 g hg0 i hi j hj, h1]
    unfold wcov covariance
    rw [wavg_one]
    simp only [wmean, wavg_one]

/-- **C84**: training a mixture with one component gives the normal distribution of the training set, whatever the number of iterations, the bounds on it and the
    phrases in which the frames are arranged, unless it is cancelled: the mean is the average of all frames, the covariance is theirs plus the
    regularisation on the diagonal (`max(absolute, relative * standard deviation)`). -/
theorem C84_training (D : Dens ℝ) (hD : D.Sound) (log : ℝ → ℝ) (m : Gmm ℝ) (ha : m.Admissible) (h1 : m.gaussians = 1) (sd : List ℝ) (data : KData ℝ)
    (hf : m.Fed sd data) (hreg : 1 / 10 ^ 9 ≤ m.absReg) (lowest pct : ℝ) (P : EmParams) (hP : 1 ≤ P.minIter) (cancel : Nat → Bool) :
    ∃ t m', (trainee D log Real.sqrt sd data).train (Compare.exact lowest pct) P cancel m = .ret t m' ∧
      (t.status = .cancel → ∃ i, cancel i = true) ∧ (t.status ≠ .cancel → m.Normal (fun i => max m.absReg (m.relReg * sd.getD i 0)) data.frames m') := by
  obtain ⟨m1, ok, m2, e1, e2, e3, e4, e5, -⟩ := start_ret m ha sd data hf hreg
  have hok : ok = true := by
    refine e3.2 ?_
    obtain ⟨x, hx⟩ := List.exists_mem_of_ne_nil _ hf.some
    obtain ⟨p, hp, hxp⟩ := List.mem_flatten.1 hx
    exact ⟨p, hp, by rw [h1]; exact List.length_pos_of_mem hxp⟩
  subst hok
  have hr2 : ∀ i < m.dim, m2.reg.getD i 0 = max m.absReg (m.relReg * sd.getD i 0) := by
    obtain ⟨g, g1, g2⟩ := Gmm.allocate_ret m ha.gaussians ha.dim ha.di
    rw [e1] at g1
    injection g1 with _ g1
    have hw : m1.WF := by rw [g1]; exact g2
    have hf1 : m1.Fed sd data := by rw [g1]; exact ⟨hf.dim, hf.frame, hf.some, hf.sd⟩
    obtain ⟨m2', k1, k2, -, -⟩ := C82_initialised m1 hw sd data hf1 (by rw [g1]; exact e3.1 rfl) (by rw [g1]; exact hreg)
    rw [e2] at k1
    injection k1 with _ k1
    subst k1
    intro i hi
    have := k2.reg i (by rw [g1]; exact hi)
    rw [this, g1]
  rcases bool_cases (cancel 0) with hc | hc
  · obtain ⟨t, k, ls, s3, g1, g2, g3, g4, g5, g6⟩ := Trainee.train_steps (trainee D log Real.sqrt sd data) (Compare.exact lowest pct) P hP cancel hc
      m m1 m2 true e1 e2 (fun k m' => Going m data m' ∧ m'.Ready ∧ m'.reg = m2.reg ∧
        (0 < k → m.Normal (fun i => max m.absReg (m.relReg * sd.getD i 0)) data.frames m')) ⟨e4, e5 rfl, rfl, fun h => absurd h (lt_irrefl _)⟩ (by
        rintro k m' ⟨q1, q2, q3, _⟩
        obtain ⟨dens, hd, hp⟩ := densities_exist D hD m' q2 data.frames q1.trains.frame
        obtain ⟨ll, m'', h1', h2, h3, h4, h5, h6⟩ := emUpdate_core D log data m' q1.wf q1.coeffs q1.trains q1.reg dens hd hp
        have hs := h2.same
        have hn := updated_one (by rw [q1.same]; exact h1) hf.some h2
        refine ⟨ll, m'', h1', ⟨?_, h3.wf, h3.coeffs, h4, ?_⟩, h3, ?_, fun _ => ⟨hn.coeffs, ?_⟩⟩
        · rw [hs, q1.same]
        · rw [hs]; exact q1.reg
        · rw [hs]; exact q3
        · obtain ⟨g, a1, a2, a3⟩ := hn.comps
          have ed : m'.dim = m.dim := by rw [q1.same]
          have em : m'.mode = m.mode := by rw [q1.same]
          rw [ed] at a2 a3
          rw [em] at a3
          refine ⟨g, a1, a2, fun i hi j hj => ?_⟩
          rw [a3 i hi j hj, q3, hr2 i hi])
    have hfin : Trainee.finish (trainee D log Real.sqrt sd data) t s3 = .ret t { s3 with training := false } := by
      unfold Trainee.finish
      by_cases hd : t.status = .done
      · rw [if_pos hd]; rfl
      · rw [if_neg hd]; rfl
    refine ⟨t, _, g6.trans hfin, fun hs => ⟨_, g1.cancel.1 hs⟩, fun hs => ?_⟩
    have hn := g3.2.2.2 (g4 hs)
    exact ⟨hn.coeffs, hn.comps⟩
  · obtain ⟨t, k, g1, g2, -, g3⟩ := Trainee.train_cancelled (trainee D log Real.sqrt sd data) (Compare.exact lowest pct) P cancel m m1 e1 hP hc
    exact ⟨t, _, g1, fun _ => ⟨0, hc⟩, fun h => absurd g2 h⟩

/-- the hypotheses are met: two phrases of different lengths -/
example (cancel : Nat → Bool) : ∃ t m', (trainee Dens.real Real.log Real.sqrt [1] Hmm.initData).train (Compare.exact (-10) 1) ⟨10, 0⟩ cancel
    (Hmm.tmpGmm (Hmm.initExample 2 false true)) = .ret t m' ∧ (t.status ≠ .cancel → ∃ g : Gauss ℝ, m'.comps = [g] ∧ g.mean.getD 0 0 = 3) := by
  obtain ⟨t, m', k1, -, k2⟩ := C84_training Dens.real Dens.real_sound Real.log (Hmm.tmpGmm (Hmm.initExample 2 false true))
    ⟨le_rfl, by simp [Hmm.tmpGmm, Hmm.initExample], by simp [Hmm.tmpGmm, Hmm.initExample]⟩ rfl [1] Hmm.initData
    ⟨rfl, by simp [Hmm.tmpGmm, Hmm.initExample, Hmm.initData, KData.frames], by simp [Hmm.initData, KData.frames], rfl⟩
    (by simp [Hmm.tmpGmm, Hmm.initExample]; norm_num) (-10) 1 ⟨10, 0⟩ (by simp) cancel
  refine ⟨t, m', k1, fun h => ?_⟩
  obtain ⟨g, a1, a2, _⟩ := (k2 h).comps
  refine ⟨g, a1, ?_⟩
  rw [a2 0 (by simp [Hmm.tmpGmm, Hmm.initExample])]
  simp [average, Hmm.initData, KData.frames]
  norm_num

end Gmm

namespace Hmm

/-- **C84**: a hidden Markov model with one component per state starts its training from the normal distributions of the segments: those of state `n` are the
    frames number `n * len`, ..., `n * len + len - 1` of each phrase, where `len` is the largest number for which the phrase has as many segments as there are states. -/
theorem C84_initialised (D : Dens ℝ) (hD : D.Sound) (log : ℝ → ℝ) (lowest pct : ℝ) (P : EmParams) (hP : 1 ≤ P.minIter) (sdOf : KData ℝ → List ℝ)
    (hsd : ∀ d, (sdOf d).length = d.dim) (data : KData ℝ) (m : Hmm ℝ) (ha : m.Admissible) (h1 : m.gaussians = 1) (hf : m.Fed data) (hl : m.LongPhrase data)
    (hfill : m.ergodic = true → ∀ p ∈ data.phrases, p ≠ []) (hreg : 1 / 10 ^ 9 ≤ m.absReg) :
    ∃ (m1 m2 : Hmm ℝ), allocate m = .ret () m1 ∧ emInit D log Real.sqrt (Compare.exact lowest pct) P sdOf data m1 = .ret () m2 ∧ m2.sts.length = m.n ∧
      ∀ (n : Nat) (s : Gmm ℝ), m2.sts[n]? = some s →
        (tmpGmm m).Normal (fun i => max m.absReg (m.relReg * (sdOf (segments data m.n n)).getD i 0)) (segments data m.n n).frames s := by
  obtain ⟨g, m1, m2, k1, k2, k3, k4, k5⟩ := init_ret D hD log lowest pct P hP sdOf hsd data m ha hf hl hfill hreg
  obtain ⟨m1', a1, _, _, a3, _⟩ := allocate_fresh m ha
  rw [k1] at a1
  injection a1 with _ a1
  subst a1
  have en : m1.n = m.n := by rw [a3]
  have eg : m1.gaussians = m.gaussians := by rw [a3]
  refine ⟨m1, m2, k1, k2, by rw [k4.sizes.1, en], fun n s hs => ?_⟩
  have hn : n < m.n := by
    rw [← en, ← k4.sizes.1]; exact (List.getElem?_eq_some_iff.1 hs).1
  have hfed : (tmpGmm m).Fed (sdOf (segmentData data m.n n)) (segmentData data m.n n) :=
    ⟨hf.dim, fun x hx => hf.frame x (segment_mem hx), segment_some ha.n hl hn, by rw [hsd]; exact hf.dim⟩
  obtain ⟨t, ht⟩ := k3 n hn
  obtain ⟨t1, g1, b1, b2, b3, b4⟩ := Gmm.train_regular D hD log (tmpGmm m) ⟨ha.gaussians, ha.dim, ha.di⟩ (sdOf (segmentData data m.n n)) (segmentData data m.n n) hfed
    hreg lowest pct P hP
  obtain ⟨t2, g2, c1, c2, c3⟩ := Gmm.C84_training D hD log (tmpGmm m) ⟨ha.gaussians, ha.dim, ha.di⟩ h1 (sdOf (segmentData data m.n n)) (segmentData data m.n n) hfed
    hreg lowest pct P hP (fun _ => false)
  rw [ht] at b1 c1
  injection b1 with b0 b1
  injection c1 with c0 c1
  subst b0 b1 c0 c1
  obtain ⟨f1, e, f2, f3, f4⟩ := c3 (fun h => by obtain ⟨_, h⟩ := c2 h; cases h)
  have hmem := List.mem_of_getElem? hs
  have w := (k5.training.ready s hmem).wf
  obtain ⟨v1, v2, v3, v4, v5⟩ := k5.training.wf.state s hmem
  have gg : m2.gaussians = 1 := by rw [k4.same, eg]; exact h1
  have gd : m2.dim = m.dim := by rw [k4.same, a3]
  have gm : m2.mode = m.mode := by rw [k4.same, a3]
  obtain ⟨d, hd⟩ := List.length_eq_one_iff.1 ((k4.sizes.2.1 s hmem).trans (eg.trans h1))
  have hd0 : s.comps[0]? = some d := by rw [hd]; rfl
  have he0 : (g n).comps[0]? = some e := by rw [f2]; rfl
  obtain ⟨q1, q2⟩ := k4.comp n s hs 0 d e hd0 he0
  obtain ⟨_, r1, _, r2, _⟩ := w.comp d (List.mem_of_getElem? hd0)
  obtain ⟨_, u1, _, u2, _⟩ := b2.comp e (List.mem_of_getElem? he0)
  have xd : d.dim = e.dim := by rw [r1, v4, gd, u1, b4]; rfl
  have xm : d.mode = e.mode := by rw [r2, v2, gm, u2, b4]; rfl
  rw [← segmentData_eq data hn]
  refine ⟨?_, d, hd, fun k hk => ?_, fun i hi j hj => ?_⟩
  · rw [k4.coeffs s hmem, eg, h1]
    simp
  · rw [q1]; exact f3 k hk
  · rw [show d.covAt i j = e.covAt i j by simp only [Gauss.covAt, xd, xm, q2]]
    exact f4 i hi j hj

/-- the hypotheses are met: the second state starts from frames 2 and 3 of the first phrase -/
example (h : Bool) : ∃ m1 m2 s, allocate (initExample 2 false h) = .ret () m1 ∧
    emInit Dens.real Real.log Real.sqrt (Compare.exact (-10) 1) ⟨10, 0⟩ (fun d => List.replicate d.dim 1) initData m1 = .ret () m2 ∧
    m2.sts[1]? = some s ∧ ∃ g : Gauss ℝ, s.comps = [g] ∧ g.mean.getD 0 0 = 3 := by
  obtain ⟨h1, h2, h3, h4, h5, _⟩ := initExample_ok 2 (by omega) false h
  obtain ⟨m1, m2, k1, k2, k3, k4⟩ := C84_initialised Dens.real Dens.real_sound Real.log (-10) 1 ⟨10, 0⟩ (by simp) (fun d => List.replicate d.dim 1) (fun d => by simp)
    initData (initExample 2 false h) h1 rfl h2 ⟨_, .head _, by simp [initExample]⟩ (by simp [initExample]) h5
  have hlt : 1 < m2.sts.length := by rw [k3]; simp [initExample]
  refine ⟨m1, m2, m2.sts[1], k1, k2, List.getElem?_eq_getElem hlt, ?_⟩
  obtain ⟨g, a1, a2, _⟩ := (k4 1 _ (List.getElem?_eq_getElem hlt)).comps
  refine ⟨g, a1, ?_⟩
  rw [a2 0 (by simp [tmpGmm, initExample])]
  simp [average, segments, initData, initExample, KData.frames, List.range_succ]
  norm_num

end Hmm
end Xmm
