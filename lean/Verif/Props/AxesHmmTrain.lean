import Verif.Props.AxesHmm
import Verif.Props.AxesOrigin
import Verif.Props.AxesBimodal
set_option linter.unusedSimpArgs false
set_option linter.unusedSectionVars false
/- C98: training hidden Markov models in other axes, and recognition afterwards. -/
namespace Xmm
open Prog (bind_def pure_def get_def set_def modify_def throw_def undef_def)
open Phrase (loop)
open GmmSpec HmmSpec RecSpec

namespace Hmm

/-- the likelihoods of the frames, if the inverses are up to date -/
theorem observes_of {m : Hmm ℝ} {data : KData ℝ} (hm : m.InTraining) (ht : m.Trains data) (hu : ∀ s ∈ m.sts, ∀ g ∈ s.comps, g.UpToDate) :
    Observes Dens.real m data.frames m.floored := by
  intro i s hs
  have hm' := List.mem_of_getElem? hs
  have e : m.floored i = s.floored := by
    funext x c
    simp only [floored, pdf, hs, Gmm.floored]
  rw [e]
  refine Gmm.UpToDate.density (hm.ready s hm').wf (hu s hm') data.frames fun x hx => ?_
  rw [(hm.wf.state s hm').2.2.2.1]
  exact ht.frame x hx

/-- a regularised distribution whose inverses have been computed -/
theorem derived_of {g : Gauss ℝ} {reg : List ℝ} (h : g.UpToDate) (hr : g.AtLeast reg) (hreg : ∀ i < g.dim, 1 / 10 ^ 9 ≤ reg.getD i 0)
    (h0 : ∃ g0 : Gauss ℝ, g0.WF ∧ Gauss.updateInverseCovariance g0 = .ret () g) : g.Derived := by
  obtain ⟨g0, w, e⟩ := h0
  obtain ⟨-, s, -⟩ := Xmm.C31_inverse g0 g w e
  have hc : ∀ i j, g.covAt i j = g0.covAt i j := fun i j => by
    unfold Gauss.covAt
    rw [s.mode, s.cov, s.dim]
  refine ⟨g0, w, ⟨fun i hi j hj => ?_, fun v => ?_⟩, e⟩
  · rw [← s.dim] at hi hj
    have := h.pos.isHermitian.apply ⟨i, hi⟩ ⟨j, hj⟩
    rw [sigma_covAt, sigma_covAt] at this
    rw [← hc, ← hc]
    simpa using this.symm
  · have := hr v
    simp only [hc] at this
    rw [← s.dim]
    refine le_trans ?_ this
    rw [Finset.mul_sum]
    exact Finset.sum_le_sum fun i hi => mul_le_mul_of_nonneg_right (hreg i (Finset.mem_range.1 hi)) (sq_nonneg _)

/-- the invariant of the two trainings -/
structure Moving {d : Nat} (A : NewAxes d) (m1 : Hmm ℝ) (data : KData ℝ) (x y : Hmm ℝ) : Prop where
  run : m1.Running data x
  run' : m1.Running (A.data data) y
  up : ∀ s ∈ x.sts, ∀ g ∈ s.comps, g.Derived
  up' : ∀ s ∈ y.sts, ∀ g ∈ s.comps, g.Derived
  carries : A.CarriesHmm x y
  alive : (∀ i, A.shift i = 0) ∨ x.Alive

/-- one iteration -/
theorem one_update {m0 m : Hmm ℝ} {data : KData ℝ} (hE : m0.ergodic = false) (hlen : data.frames.length ≤ 10 ^ 90) (h : m0.Running data m) (hu : ∀ s ∈ m.sts, ∀ g ∈ s.comps, g.Derived) :
    ∃ m', emUpdate Dens.real Real.log data m = .ret (logTotal Real.log m m.floored data.phrases) m' ∧ m.Reestimated data.phrases m.floored m' ∧ m'.WF ∧ m0.Running data m' ∧
      ∀ s ∈ m'.sts, ∀ g ∈ s.comps, g.Derived := by
  have hlog : ∀ x y : ℝ, 0 < x → 0 < y → Real.log (x * y) = Real.log x + Real.log y := fun x y hx hy => Real.log_mul hx.ne' hy.ne'
  have hge : ∀ x ∈ data.frames, ∀ i < m.n, ∀ c < m.gaussians, 1 / 10 ^ 180 ≤ m.floored i x c := fun x _ i _ c _ => floored_ge m i x c
  obtain ⟨m', e1, e2, e3, e4, -, -, -, e8⟩ := update_ret Dens.real Real.log hlog data m h.training h.trains m.floored (observes_of h.training h.trains fun s hs g hg => (hu s hs g hg).upToDate) hge
  obtain ⟨l, m'', f1, f2⟩ := h.next Dens.real Dens.real_sound Real.log hlog hlen (fun he => absurd he (by simp [hE]))
  rw [e1] at f1
  injection f1 with _ f1
  subst f1
  refine ⟨m', e1, e2, e3, f2, fun s hs g hg => ?_⟩
  obtain ⟨k1, k2⟩ := next_comp h.training h.trains hge e2 e3 (fun s hs => (e4 s hs).1) e8 s hs g hg
  have hd := ((e4 s hs).1.wf.comp g hg).2.1
  exact derived_of k1 k2 (fun i hi => f2.trains.reg s hs i (by rw [← (e3.state s hs).2.2.2.1, ← hd]; exact hi)) (e8 s hs g hg).2.2

theorem Moving.next {d : Nat} {A : NewAxes d} {m1 x y : Hmm ℝ} {data : KData ℝ} (hE : m1.ergodic = false) (hlen : data.frames.length ≤ 10 ^ 90) (hl : m1.LongPhrase data)
    (h : Moving A m1 data x y) : ∃ v x' y', emUpdate Dens.real Real.log data x = .ret v x' ∧ emUpdate Dens.real Real.log (A.data data) y = .ret v y' ∧ Moving A m1 data x' y' := by
  have xn : x.n = m1.n := by rw [h.run.same]
  have xE : x.ergodic = false := by rw [h.run.same]; exact hE
  have yE : y.ergodic = false := by rw [h.run'.same]; exact hE
  have hlen' : (A.data data).frames.length ≤ 10 ^ 90 := by rw [A.frames, List.length_map]; exact hlen
  obtain ⟨x', a1, a2, a3, a4, a5⟩ := one_update hE hlen h.run h.up
  obtain ⟨y', b1, b2, b3, b4, b5⟩ := one_update hE hlen' h.run' h.up'
  have hc := h.carries
  have he : ∀ i z c, y.floored i (A.frame z) c = x.floored i z c := hc.floored (fun s hs => (h.run.training.ready s hs).wf) fun s hs => (h.run'.training.ready s hs).wf
  have hph : (A.data data).phrases = data.phrases.map fun p => p.map A.frame := rfl
  rw [hph] at b1 b2
  rw [NewAxes.logTotal_moved hc he] at b1
  have yn : y.n = x.n := by rw [hc.same]
  have n1 : x'.n = x.n := by rw [a2.same]
  have n2 : y'.n = x.n := by rw [b2.same, ← yn]
  have E1 : x'.ergodic = false := by rw [a2.same]; exact xE
  have E2 : y'.ergodic = false := by rw [b2.same]; exact yE
  have hl' : x.LongPhrase data := by obtain ⟨p, q1, q2⟩ := hl; exact ⟨p, q1, by rw [xn]; exact q2⟩
  have htr : y'.trans = x'.trans := by
    refine trans_of_step (n2.trans n1.symm) E1 E2 a3 b3 (a4.training.last E1) (n2.trans n1.symm ▸ b4.training.last E2) fun i hi j hj => ?_
    rw [n1] at hi hj
    rw [a2.step i hi j hj, b2.step i (yn ▸ hi) j (yn ▸ hj)]
    exact NewAxes.newStep_moved hc he data.phrases i j
  refine ⟨_, x', y', a1, b1, a4, b4, a5, b5, ⟨?_, ?_, ?_, ?_, fun i s s' hs hs' => ?_⟩, h.alive.imp_right fun ha => ha.next_alive h.run.training h.run.trains xE hl' a2 a3⟩
  · rw [a2.same]; exact hc.dim
  · have e1 := b2.same
    rw [hc.same] at e1
    have e2 := a2.same
    rw [e1]
    rw [htr]
    rw [e2]
  · funext i
    unfold HmmSpec.start
    simp only [E1, E2]
    rfl
  · rw [a3.sts, b3.sts, n1, n2]
  · have hi : i < x.n := by rw [← n1, ← a3.sts]; exact (List.getElem?_eq_some_iff.1 hs).1
    obtain ⟨t, ht, et⟩ := Learning.getState h.run.training.wf hi
    obtain ⟨t', ht', et'⟩ := Learning.getState h.run'.training.wf (yn ▸ hi : i < y.n)
    have hf := a2.state i t s et hs
    have hf' := b2.state i t' s' et' hs'
    rw [NewAxes.positions_moved] at hf'
    have tg := (h.run.training.wf.state t ht).1
    have hw : ∀ p ∈ positions data.phrases, ∀ c, (fun p : List (List ℝ) × Nat => gammaMix y y.floored p.1 p.2 i) (p.1.map A.frame, p.2) c =
        (fun p : List (List ℝ) × Nat => gammaMix x x.floored p.1 p.2 i) p c := fun p hp c => NewAxes.gammaMix_moved hc he p.1 (NewAxes.mem_pos hp).2 i c
    have hx : ∀ p ∈ positions data.phrases, HmmSpec.frameAt (p.1.map A.frame, p.2) = A.frame (HmmSpec.frameAt p) := fun p hp => NewAxes.getD_moved p.1 (NewAxes.mem_pos hp).2
    exact NewAxes.fitted_moved hw hx (hc.state i t t' et et') hf hf'
      (a4.training.ready s (List.mem_of_getElem? hs)).wf (b4.training.ready s' (List.mem_of_getElem? hs')).wf
      (h.alive.imp_right fun ha c hcc => ha.mass_pos h.run.training xE hl' hi (tg ▸ hcc))

/-! ### The initialisation -/

/-- the standard deviations of a training set -/
noncomputable def sdOf (s : KData ℝ) : List ℝ := deviations s.dim s.frames

theorem sdOf_length (s : KData ℝ) : (sdOf s).length = s.dim := by simp [sdOf, deviations]

theorem segments_moved {d : Nat} (A : NewAxes d) (data : KData ℝ) {N n : Nat} (hn : n < N) : segmentData (A.data data) N n = A.data (segmentData data N n) := by
  rw [segmentData_eq _ hn, segmentData_eq _ hn]
  unfold segments NewAxes.data
  simp only [KData.mk.injEq, true_and]
  rw [List.filter_map, List.map_map, List.map_map]
  have e1 : ((fun p : List (List ℝ) => decide (N ≤ p.length)) ∘ fun p : List (List ℝ) => p.map A.frame) = fun p => decide (N ≤ p.length) := by
    funext p; simp
  rw [e1]
  refine List.map_congr_left fun p _ => ?_
  simp only [Function.comp, List.length_map, List.map_map]
  refine List.map_congr_left fun k hk => ?_
  have hk := List.mem_range.1 hk
  refine NewAxes.getD_moved p ?_
  have h1 : N * (p.length / N) ≤ p.length := Nat.mul_div_le _ _
  have h2 : (n + 1) * (p.length / N) ≤ N * (p.length / N) := Nat.mul_le_mul_right _ hn
  rw [Nat.succ_mul] at h2
  omega

theorem longPhrase_moved {d : Nat} (A : NewAxes d) {m : Hmm ℝ} {data : KData ℝ} (h : m.LongPhrase data) : m.LongPhrase (A.data data) := by
  obtain ⟨p, h1, h2⟩ := h
  exact ⟨p.map A.frame, List.mem_map.2 ⟨p, h1, rfl⟩, by rw [List.length_map]; exact h2⟩

theorem fed_moved {m : Hmm ℝ} (A : NewAxes m.dim) {data : KData ℝ} (h : m.Fed data) : m.Fed (A.data data) := by
  refine ⟨h.dim, fun x hx => ?_, ?_⟩
  · rw [A.frames] at hx
    obtain ⟨y, -, rfl⟩ := List.mem_map.1 hx
    exact A.frame_length y
  · rw [A.frames]
    simpa using h.some

theorem sdOf_moved {m : Hmm ℝ} (A : NewAxes m.dim) {data : KData ℝ} (h : data.dim = m.dim) : sdOf (A.data data) = A.spread (sdOf data) := by
  unfold sdOf
  rw [A.frames, show (A.data data).dim = data.dim from rfl, h, A.deviations_moved]

theorem init_moved (m : Hmm ℝ) (ha : m.Admissible) (hE : m.ergodic = false) (data : KData ℝ) (hf : m.Fed data) (hl : m.LongPhrase data) (hreg : 1 / 10 ^ 9 ≤ m.absReg)
    (A : NewAxes m.dim) (ho : (∀ i, A.shift i = 0) ∨ m.Steady data) (lowest pct : ℝ) (P : EmParams) (hP : 1 ≤ P.minIter) :
    ∃ m1 m2 m2', allocate m = .ret () m1 ∧ emInit Dens.real Real.log Real.sqrt (Compare.exact lowest pct) P sdOf data m1 = .ret () m2 ∧
      emInit Dens.real Real.log Real.sqrt (Compare.exact lowest pct) P sdOf (A.data data) m1 = .ret () m2' ∧ Moving A m1 data m2 m2' := by
  have hf' := fed_moved A hf
  have hl' := longPhrase_moved A hl
  obtain ⟨g, m1, m2, h1, h2, h3, h4, h5, h6⟩ := init_full Dens.real Dens.real_sound Real.log lowest pct P hP sdOf sdOf_length data m ha hf hl (fun h => absurd h (by simp [hE])) hreg
  obtain ⟨g', m1', m2', h1', h2', h3', h4', h5', h6'⟩ :=
    init_full Dens.real Dens.real_sound Real.log lowest pct P hP sdOf sdOf_length (A.data data) m ha hf' hl' (fun h => absurd h (by simp [hE])) hreg
  rw [h1] at h1'
  injection h1' with _ h1'
  subst h1'
  obtain ⟨m1', k1, -, -, hs1, -⟩ := allocate_fresh m ha
  rw [h1] at k1
  injection k1 with _ k1
  subst k1
  have en : m1.n = m.n := by rw [hs1]
  have ed : m1.dim = m.dim := by rw [hs1]
  have ee : m1.ergodic = false := by rw [hs1]; exact hE
  have hgn : ∀ n < m.n, A.Carries (g n) (g' n) ∧ (g n).WF ∧ (g' n).WF ∧ (g n).mode = m.mode := by
    intro n hn
    obtain ⟨t, s, s', q1, q2, q3, q4, q5, -, -, q6⟩ := Gmm.C98_train (tmpGmm m) ⟨ha.gaussians, ha.dim, ha.di⟩ (sdOf (segmentData data m.n n)) (segmentData data m.n n)
      ⟨hf.dim, fun x hx => hf.frame x (segment_mem hx), segment_some ha.n hl hn, by rw [sdOf_length]; exact hf.dim⟩ hreg A
      (ho.imp_right fun h => segmentData_eq data hn ▸ h n hn) (Compare.exact lowest pct) P hP
    obtain ⟨t1, w1⟩ := h3 n hn
    obtain ⟨t2, w2⟩ := h3' n hn
    rw [q1] at w1
    have e : sdOf (A.data (segmentData data m.n n)) = NewAxes.spread A (sdOf (segmentData data m.n n)) := sdOf_moved A hf.dim
    rw [segments_moved A data hn, e] at w2
    have w2' := q2.symm.trans w2
    injection w1 with _ w1
    injection w2' with _ w2'
    rw [← w1, ← w2']
    exact ⟨q3, q4, q5, q6⟩
  have n2 : m2.n = m1.n := by rw [h5.same]
  have n2' : m2'.n = m1.n := by rw [h5'.same]
  have E2 : m2.ergodic = false := by rw [h5.same]; exact ee
  have E2' : m2'.ergodic = false := by rw [h5'.same]; exact ee
  have up : ∀ {dt : KData ℝ} {mm : Hmm ℝ} {gg : Nat → Gmm ℝ}, (∀ (i : Nat) (s : Gmm ℝ), mm.sts[i]? = some s → ∃ s0 s1, m1.sts[i]? = some s0 ∧
        Gmm.Default (fun i => max m.absReg (m.relReg * (sdOf dt).getD i 0)) s0 s1 ∧ Gmm.Copied (gg i) s1 s1.gaussians s) → ∀ s ∈ mm.sts, ∀ g ∈ s.comps, g.Derived := by
    intro dt mm gg h s hs c hc
    obtain ⟨i, hi⟩ := List.getElem?_of_mem hs
    obtain ⟨s0, s1, -, z2, z3⟩ := h i s hi
    obtain ⟨-, -, y3⟩ := z3.out z2.wf.pos
    obtain ⟨g0, w, e⟩ := (y3 c hc).2.2
    obtain ⟨-, s, -⟩ := Xmm.C31_inverse g0 c w e
    have hr := z3.regular c hc
    have hcv : ∀ i j, c.covAt i j = g0.covAt i j := fun i j => by
      unfold Gauss.covAt
      rw [s.mode, s.cov, s.dim]
    exact ⟨g0, w, ⟨fun i hi j hj => by rw [← hcv, ← hcv]; exact hr.symm i (by rw [s.dim]; exact hi) j (by rw [s.dim]; exact hj), fun v => by
      have := hr.quad v
      simp only [hcv, s.dim] at this
      exact this⟩, e⟩
  have htr : m2'.trans = m2.trans := by
    refine trans_of_step (n2'.trans n2.symm) E2 E2' h5.training.wf h5'.training.wf (h5.training.last E2) (n2'.trans n2.symm ▸ h5'.training.last E2') fun i hi j hj => ?_
    rw [n2] at hi hj
    rw [h4.leftRight ee i hi j hj, h4'.leftRight ee i hi j hj]
  have mode1 : m1.mode = m.mode := by rw [hs1]
  refine ⟨m1, m2, m2', h1, h2, h2', h5, h5', up h6, up h6', ⟨?_, ?_, ?_, ?_, fun i s s' hs hs' => ?_⟩, Or.inr ⟨fun i hi => ?_, fun i hi => ?_, fun s hs c hc => ?_⟩⟩
  · rw [h5.same]; exact ed
  · have e1 := h4'.same
    rw [htr] at e1
    rw [e1, h4.same]
  · funext i
    unfold HmmSpec.start
    simp only [E2, E2']
    rfl
  · rw [h4.sizes.1, h4'.sizes.1]
  · have hi : i < m.n := by rw [← en, ← h4.sizes.1]; exact (List.getElem?_eq_some_iff.1 hs).1
    obtain ⟨s0, s1, z1, z2, z3⟩ := h6 i s hs
    obtain ⟨s0', s1', z1', z2', z3'⟩ := h6' i s' hs'
    rw [z1] at z1'
    injection z1' with z1'
    subst z1'
    obtain ⟨c1, c2, c3, c4⟩ := hgn i hi
    have hsm := List.mem_of_getElem? hs
    have hsm' := List.mem_of_getElem? hs'
    obtain ⟨sg, sm, -, sd, -⟩ := h5.training.wf.state s hsm
    obtain ⟨sg', sm', -, sd', -⟩ := h5'.training.wf.state s' hsm'
    have dm : m2.dim = m.dim := by rw [h5.same]; exact ed
    have dm' : m2'.dim = m.dim := by rw [h5'.same]; exact ed
    have mm : m2.mode = m.mode := by rw [h5.same]; exact mode1
    have mm' : m2'.mode = m.mode := by rw [h5'.same]; exact mode1
    have s0d : s0.dim = m.dim := by
      have : s.dim = s0.dim := by rw [z3.same, z2.same]
      rw [← this, sd, dm]
    have hcomp : ∀ (c : Nat) (e : Gauss ℝ), s.comps[c]? = some e → ∃ f, (g i).comps[c]? = some f ∧ e.mean = f.mean ∧ ∀ a b, e.covAt a b = f.covAt a b := by
      intro c e hc
      have hlen : c < (g i).comps.length := by
        rw [h4.sizes.2.2 i (en ▸ hi), ← h4.sizes.2.1 s hsm]; exact (List.getElem?_eq_some_iff.1 hc).1
      refine ⟨_, List.getElem?_eq_getElem hlen, ?_⟩
      obtain ⟨v1, v2⟩ := h4.comp i s hs c e _ hc (List.getElem?_eq_getElem hlen)
      obtain ⟨-, u1, -, u2, -⟩ := z3.wf.comp e (List.mem_of_getElem? hc)
      obtain ⟨-, t1, -, t2, -⟩ := c2.comp _ (List.getElem_mem hlen)
      refine ⟨v1, fun a b => ?_⟩
      unfold Gauss.covAt
      rw [v2, u1, u2, t1, t2, sd, sm, dm, mm, c1.dim, c4]
    have hcomp' : ∀ (c : Nat) (e : Gauss ℝ), s'.comps[c]? = some e → ∃ f, (g' i).comps[c]? = some f ∧ e.mean = f.mean ∧ ∀ a b, e.covAt a b = f.covAt a b := by
      intro c e hc
      have hlen : c < (g' i).comps.length := by
        rw [h4'.sizes.2.2 i (en ▸ hi), ← h4'.sizes.2.1 s' hsm']; exact (List.getElem?_eq_some_iff.1 hc).1
      refine ⟨_, List.getElem?_eq_getElem hlen, ?_⟩
      obtain ⟨v1, v2⟩ := h4'.comp i s' hs' c e _ hc (List.getElem?_eq_getElem hlen)
      obtain ⟨-, u1, -, u2, -⟩ := z3'.wf.comp e (List.mem_of_getElem? hc)
      obtain ⟨-, t1, -, t2, -⟩ := c3.comp _ (List.getElem_mem hlen)
      have q1 : (g' i).dim = m.dim := by rw [c1.same]; exact c1.dim
      have q2 : (g' i).mode = m.mode := by rw [c1.same]; exact c4
      refine ⟨v1, fun a b => ?_⟩
      unfold Gauss.covAt
      rw [v2, u1, u2, t1, t2, sd', sm', dm', mm', q1, q2]
    refine ⟨sd.trans dm, ?_, ?_, ?_, fun k => ?_, fun c e e' he he' k => ?_, fun c e e' he he' a b => ?_⟩
    · rw [z3'.same, z2'.same, z3.same, z2.same]
    · rw [h4'.sizes.2.1 s' hsm', h4.sizes.2.1 s hsm]
    · rw [h4'.coeffs s' hsm', h4.coeffs s hsm]
    · have e1 : s.reg = s1.reg := by rw [z3.same]
      have e2 : s'.reg = s1'.reg := by rw [z3'.same]
      rw [e1, e2, z2.reg _ (by rw [s0d]; exact (A.axis k).isLt), z2'.reg _ (by rw [s0d]; exact k.isLt), sdOf_moved A hf.dim, A.spread_at]
    · obtain ⟨f, f1, f2, -⟩ := hcomp c e he
      obtain ⟨f', f1', f2', -⟩ := hcomp' c e' he'
      rw [f2, f2']
      exact c1.mean c f f' f1 f1' k
    · obtain ⟨f, f1, -, f2⟩ := hcomp c e he
      obtain ⟨f', f1', -, f2'⟩ := hcomp' c e' he'
      rw [f2, f2']
      exact c1.cov c f f' f1 f1' a b
  · rw [n2] at hi
    rw [h4.leftRight ee i hi i hi]
    by_cases h : i = m1.n - 1
    · rw [if_pos h, if_pos rfl]; norm_num
    · rw [if_neg h, if_pos (Or.inl rfl)]; norm_num
  · rw [n2] at hi
    rw [h4.leftRight ee i (by omega) _ hi, if_neg (by omega), if_pos (Or.inr rfl)]
    norm_num
  · rw [h4.coeffs s hs]
    have e : m2.gaussians = m1.gaussians := by rw [h5.same]
    rw [e] at hc
    rw [List.getD_eq_getElem?_getD, List.getElem?_replicate, if_pos hc, Option.getD_some]
    have : (0 : ℝ) < m1.gaussians := by exact_mod_cast (by omega : 0 < m1.gaussians)
    positivity

/-! ### The whole training -/

theorem normed_unique {d n : Nat} {l a b : List ℝ} (hl : l.length = n * d) (ha : Normed d n l a) (hb : Normed d n l b) : a = b := by
  refine List.ext_getElem (by rw [ha.len, hb.len]) fun k h1 h2 => ?_
  rw [ha.len, hl] at h1
  have hd : 0 < d := by
    rcases Nat.eq_zero_or_pos d with h | h
    · rw [h, Nat.mul_zero] at h1; omega
    · exact h
  have e := (ha.cell (k / d) (Nat.div_lt_of_lt_mul (by rw [Nat.mul_comm]; exact h1)) (k % d) (Nat.mod_lt _ hd)).trans
    (hb.cell (k / d) (Nat.div_lt_of_lt_mul (by rw [Nat.mul_comm]; exact h1)) (k % d) (Nat.mod_lt _ hd)).symm
  rw [Nat.div_add_mod'] at e
  have h1' : k < a.length := by rw [ha.len, hl]; exact h1
  simpa [List.getD_eq_getElem?_getD, List.getElem?_eq_getElem h1', List.getElem?_eq_getElem h2] using e

/-- **C98** (training of a hidden Markov model, LeftRight): the training takes the same decisions in the old and in the new axes, with the same number of iterations, and the second model
    is the first in the new axes: the same transition probabilities, and the mixture of each state in the new axes.  With another origin, for models whose initialisation does not
    depend on it (`Steady`). -/
theorem C98_training (m : Hmm ℝ) (ha : m.Admissible) (hE : m.ergodic = false) (hwin : 1 ≤ m.window) (data : KData ℝ) (hf : m.Fed data) (hl : m.LongPhrase data)
    (hlen : data.frames.length ≤ 10 ^ 90) (hreg : 1 / 10 ^ 9 ≤ m.absReg) (A : NewAxes m.dim) (ho : (∀ i, A.shift i = 0) ∨ m.Steady data) (lowest pct : ℝ) (P : EmParams)
    (hP : 1 ≤ P.minIter) (cancel : Nat → Bool) (hcan : cancel 0 = false) :
    ∃ t u u', (trainee Dens.real Real.log Real.sqrt (Compare.exact lowest pct) P (fun d => deviations d.dim d.frames) data).train (Compare.exact lowest pct) P cancel m = .ret t u ∧
      (trainee Dens.real Real.log Real.sqrt (Compare.exact lowest pct) P (fun d => deviations d.dim d.frames) (A.data data)).train (Compare.exact lowest pct) P cancel m = .ret t u' ∧
      A.CarriesHmm u u' ∧ (∀ s ∈ u.sts, ∀ g ∈ s.comps, g.Derived) ∧ (∀ s ∈ u'.sts, ∀ g ∈ s.comps, g.Derived) ∧
      (t.status = .done → m.hier = false → BufOk m.buf → u.Usable ∧ u'.Usable) := by
  have hlog : ∀ x y : ℝ, 0 < x → 0 < y → Real.log (x * y) = Real.log x + Real.log y := fun x y hx hy => Real.log_mul hx.ne' hy.ne'
  have hlen' : (A.data data).frames.length ≤ 10 ^ 90 := by rw [A.frames, List.length_map]; exact hlen
  show ∃ t u u', (trainee Dens.real Real.log Real.sqrt (Compare.exact lowest pct) P sdOf data).train (Compare.exact lowest pct) P cancel m = .ret t u ∧
      (trainee Dens.real Real.log Real.sqrt (Compare.exact lowest pct) P sdOf (A.data data)).train (Compare.exact lowest pct) P cancel m = .ret t u' ∧ _
  obtain ⟨m1, m2, m2', h1, h2, h2', h3⟩ := init_moved m ha hE data hf hl hreg A ho lowest pct P hP
  obtain ⟨m1', k1, -, -, hs1, -⟩ := allocate_fresh m ha
  rw [h1] at k1
  injection k1 with _ k1
  subst k1
  have en : m1.n = m.n := by rw [hs1]
  have ee : m1.ergodic = false := by rw [hs1]; exact hE
  have hinit : ∀ (dt : KData ℝ) (mm : Hmm ℝ), emInit Dens.real Real.log Real.sqrt (Compare.exact lowest pct) P sdOf dt m1 = .ret () mm →
      (trainee Dens.real Real.log Real.sqrt (Compare.exact lowest pct) P sdOf dt).init m1 = .ret true mm := by
    intro dt mm h
    show (emInit Dens.real Real.log Real.sqrt (Compare.exact lowest pct) P sdOf dt >>= fun _ => pure true) m1 = _
    rw [bind_of_ret h, pure_def]
  obtain ⟨t, a, a', q1, -, -, q4, q5⟩ := Trainee.train_together (trainee Dens.real Real.log Real.sqrt (Compare.exact lowest pct) P sdOf data)
    (trainee Dens.real Real.log Real.sqrt (Compare.exact lowest pct) P sdOf (A.data data)) (Compare.exact lowest pct) P hP cancel hcan h1 h1 (hinit _ _ h2) (hinit _ _ h2')
    (fun _ x y => Moving A m1 data x y) h3 (fun k x y h => h.next ee hlen (by obtain ⟨p, z1, z2⟩ := hl; exact ⟨p, z1, by rw [en]; exact z2⟩))
  obtain ⟨t1, u1, w1, -, -, -, -, -, -, -, -, w2, -⟩ := C83_training Dens.real Dens.real_sound Real.log hlog m ha hE hwin data hf hl hlen hreg sdOf sdOf_length lowest pct P hP cancel
  obtain ⟨t2, u2, x1, -, -, -, -, -, -, -, -, x2, -⟩ := C83_training Dens.real Dens.real_sound Real.log hlog m ha hE hwin (A.data data) (fed_moved A hf) (longPhrase_moved A hl) hlen' hreg
    sdOf sdOf_length lowest pct P hP cancel
  have hc := q1.carries
  have aE : a.ergodic = false := by rw [q1.run.same]; exact ee
  have aE' : a'.ergodic = false := by rw [q1.run'.same]; exact ee
  by_cases hd : t.status = .done
  · have tl : a.trans.length = a.n * 2 := by rw [q1.run.training.wf.trans, aE]; simp
    have tr : a'.trans = a.trans := by rw [hc.same]
    have nn : a'.n = a.n := by rw [hc.same]
    obtain ⟨l, r1, r2⟩ := normalizeTransitions_leftRight a aE tl
    obtain ⟨l', r1', r2'⟩ := normalizeTransitions_leftRight a' aE' (by rw [tr, nn]; exact tl)
    rw [tr, nn] at r2'
    have hll : l' = l := normed_unique tl r2' r2
    subst hll
    have fin : ∀ (dt : KData ℝ) (x : Hmm ℝ) (lx : List ℝ), normalizeTransitions x = .ret () { x with trans := lx } →
        Trainee.finish (trainee Dens.real Real.log Real.sqrt (Compare.exact lowest pct) P sdOf dt) t x = .ret t { x with trans := lx, training := false } := by
      intro dt x lx hx
      unfold Trainee.finish
      rw [if_pos hd, bind_of_ret (show (trainee Dens.real Real.log Real.sqrt (Compare.exact lowest pct) P sdOf dt).terminate x = .ret () { x with trans := lx } from hx)]
      rfl
    have e1 := q4.trans (fin _ _ _ r1)
    have e2 := q5.trans (fin _ _ _ r1')
    refine ⟨t, _, _, e1, e2, ⟨hc.dim, ?_, ?_, hc.size, hc.state⟩, q1.up, q1.up', fun _ hh hb => ?_⟩
    · show ({ a' with trans := l', training := false } : Hmm ℝ) = _
      rw [hc.same]
    · exact hc.start
    · rw [e1] at w1
      rw [e2] at x1
      injection w1 with z1 z2
      injection x1 with z3 z4
      rw [z2, z4]
      exact ⟨(w2 (z1 ▸ hd)).2.2.2.1 hh hb, (x2 (z3 ▸ hd)).2.2.2.1 hh hb⟩
  · have fin : ∀ (dt : KData ℝ) (x : Hmm ℝ),
        Trainee.finish (trainee Dens.real Real.log Real.sqrt (Compare.exact lowest pct) P sdOf dt) t x = .ret t { x with training := false } := by
      intro dt x
      unfold Trainee.finish
      rw [if_neg hd]; rfl
    refine ⟨t, _, _, q4.trans (fin _ _), q5.trans (fin _ _), ⟨hc.dim, ?_, ?_, hc.size, hc.state⟩, q1.up, q1.up', fun h => absurd h hd⟩
    · show ({ a' with training := false } : Hmm ℝ) = _
      rw [hc.same]
    · exact hc.start

/-! ### Recognition -/

/-- the model `m` with the states, the prior and the backward variables of `m0` -/
def onTo (m0 m : Hmm ℝ) : Hmm ℝ := { m with sts := m0.sts, prior := m0.prior, beta := m0.beta, prevBeta := m0.prevBeta }

theorem start_onTo {m0 m : Hmm ℝ} (h : start m = start m0) (he : m.ergodic = m0.ergodic) : start (onTo m0 m) = start m := by
  rw [h]
  funext i
  unfold start onTo
  rw [← he]

theorem weight_onTo {m0 m : Hmm ℝ} (h : start m = start m0) (he : m.ergodic = m0.ergodic) (b : Nat → ℝ) (j : Nat) : weight (onTo m0 m) b j = weight m b j := by
  unfold weight
  rw [start_onTo h he]
  rfl

theorem evidence_onTo {m0 m : Hmm ℝ} (h : start m = start m0) (he : m.ergodic = m0.ergodic) (b : Nat → ℝ) : evidence (onTo m0 m) b = evidence m b := by
  unfold evidence
  exact Finset.sum_congr rfl fun j _ => weight_onTo h he b j

section recognition
variable {d : Nat} {A : NewAxes d} {m0 m0' : Hmm ℝ}

/-- what is compared: the models are the same except for the states, and they start in the same way -/
structure Twins (m0 m0' : Hmm ℝ) : Prop where
  same : m0' = { m0 with sts := m0'.sts, prior := m0'.prior, alpha := m0'.alpha, prevAlpha := m0'.prevAlpha, beta := m0'.beta, prevBeta := m0'.prevBeta, buf := m0'.buf }
  start : start m0' = start m0

theorem Twins.step (h : Twins m0 m0') : step m0' = step m0 := by
  have e1 : m0'.trans = m0.trans := by rw [h.same]
  have e2 : m0'.n = m0.n := by rw [h.same]
  have e3 : m0'.ergodic = m0.ergodic := by rw [h.same]
  funext i j
  unfold HmmSpec.step
  rw [e1, e2, e3]

theorem Twins.sameModel (h : Twins m0 m0') (hm : m0.CanFilter) {m : Hmm ℝ} (hs : m0'.SameModel m) : m0.SameModel (onTo m0 m) := by
  refine ⟨?_, SameStates.refl _ hm.state⟩
  have e := hs.1
  rw [h.same] at e
  unfold onTo
  rw [e]

theorem Twins.heard (h : Twins m0 m0') (hm : m0.CanFilter) {m : Hmm ℝ} {log : ℝ → ℝ} {bs : List (Nat → ℝ)} {ps : List ℝ} (hh : Heard m0' log bs ps m) :
    Heard m0 log bs ps (onTo m0 m) := by
  have en : m0'.n = m0.n := by rw [h.same]
  have ew : m0'.window = m0.window := by rw [h.same]
  exact ⟨h.sameModel hm hh.same, hh.started, hh.len, fun q => en ▸ hh.alen q, ew ▸ hh.logs, fun q => en ▸ hh.nonneg q, fun q => en ▸ hh.sum q, hh.pos,
    fun T hT => by rw [hh.prod T hT, en, h.start, h.step], fun T hT j hj => by
      have := hh.alpha T hT j (en ▸ hj)
      rw [en, h.start, h.step] at this
      exact this⟩

theorem Twins.filtered (h : Twins m0 m0') (hm : m0.CanFilter) {m r : Hmm ℝ} {log : ℝ → ℝ} {bs : List (Nat → ℝ)} {ps : List ℝ} (hh : Heard m0' log bs ps m) {b : Nat → ℝ}
    {v c : Nat → List ℝ} (hf : m.Filtered log (ps.map log) b v c r) : (onTo m0 m).Filtered log (ps.map log) b v c (onTo m0 r) := by
  obtain ⟨_, f2, f3, f4, _⟩ := hh.same.facts
  have e0 : m0'.ergodic = m0.ergodic := by rw [h.same]
  have hst : HmmSpec.start m = HmmSpec.start m0 := f3.trans h.start
  have he : m.ergodic = m0.ergodic := f2.trans e0
  refine ⟨⟨?_, SameStates.refl _ hm.state⟩, hf.started, ?_, ?_, ?_, ⟨hf.windowed.likeliest, hf.windowed.lo, hf.windowed.hi, hf.windowed.norm⟩, hf.progress, hf.unimodal, hf.outVals, hf.outCov⟩
  · have e := hf.same.1
    unfold onTo
    rw [e]
  · show r.alpha = _
    rw [hf.alpha, evidence_onTo hst he]
    exact List.map_congr_left fun j _ => by rw [weight_onTo hst he]
  · show r.instant = _
    rw [hf.instant, evidence_onTo hst he]
  · show r.logLik = _
    rw [hf.logLik, evidence_onTo hst he]
    rfl

theorem twins_run (hT : Twins m0 m0') (hm : m0.CanFilter) (hm' : m0'.CanFilter) (hh : m0.hier = false) (hb0 : m0.bimodal = false) (f : List ℝ → List ℝ) (b b' : List ℝ → Nat → ℝ)
    (hb : ∀ x, m0.Fits x → Emits Dens.real m0 x (b x) ∧ ∀ i < m0.n, 1 / 10 ^ 180 ≤ b x i) (hb' : ∀ x, m0'.Fits x → Emits Dens.real m0' x (b' x) ∧ ∀ i < m0'.n, 1 / 10 ^ 180 ≤ b' x i)
    (hbb : ∀ x, b' (f x) = b x) (xs : List (List ℝ)) (hx : ∀ x ∈ xs, m0.Fits x ∧ m0'.Fits (f x)) (hne : xs ≠ []) :
    ∀ (m m' : Hmm ℝ) (bs : List (Nat → ℝ)) (ps : List ℝ), Heard m0 Real.log bs ps m → Heard m0' Real.log bs ps m' →
    ∃ qs r r', filterAll Dens.real Real.log xs m = .ret qs r ∧ filterAll Dens.real Real.log (xs.map f) m' = .ret qs r' ∧ SameResults r r' ∧ qs.length = xs.length := by
  have hh' : m0'.hier = false := by rw [hT.same]; exact hh
  have hb0' : m0'.bimodal = false := by rw [hT.same]; exact hb0
  induction xs with
  | nil => exact absurd rfl hne
  | cons x xs ih =>
    intro m m' bs ps h h'
    obtain ⟨hfx, hfx'⟩ := hx x List.mem_cons_self
    obtain ⟨r, a1, a2, a3⟩ := heard_step Dens.real Real.log hm hh h x hfx (b x) (hb x hfx).1 (hb x hfx).2 (fun _ => []) (fun _ => []) (fun h => absurd h (by simp [hb0]))
    obtain ⟨r', b1, b2, b3⟩ := heard_step Dens.real Real.log hm' hh' h' (f x) hfx' (b' (f x)) (hb' _ hfx').1 (hb' _ hfx').2 (fun _ => []) (fun _ => [])
      (fun h => absurd h (by simp [hb0']))
    rw [hbb] at b1 b2 b3
    have hk := hT.heard hm h'
    obtain ⟨_, f2, f3, f4, _⟩ := h'.same.facts
    have e0 : m0'.ergodic = m0.ergodic := by rw [hT.same]
    have hev : evidence m' (b x) = evidence m (b x) := by
      rw [← evidence_onTo (f3.trans hT.start) (f2.trans e0), ← (heard_det h hk (b x)).2]
    rw [hev] at b1 b3
    by_cases he : xs = []
    · subst he
      have hs := filtered_det h hk a2 (hT.filtered hm h' b2) hh
      refine ⟨[evidence m (b x)], r, r', ?_, ?_, ⟨hs.instant, hs.logLik, hs.progress, hs.likeliest, hs.alpha, hs.output⟩, rfl⟩
      · unfold filterAll filterAll; rw [bind_of_ret a1, bind_of_ret (pure_def _ _), pure_def]
      · rw [List.map_cons, List.map_nil]; unfold filterAll filterAll; rw [bind_of_ret b1, bind_of_ret (pure_def _ _), pure_def]
    · obtain ⟨qs, t, t', c1, c2, c3, c4⟩ := ih (fun y hy => hx y (List.mem_cons_of_mem _ hy)) he r r' _ _ a3 b3
      refine ⟨evidence m (b x) :: qs, t, t', ?_, ?_, c3, by simp [c4]⟩
      · unfold filterAll; rw [bind_of_ret a1, bind_of_ret c1, pure_def]
      · rw [List.map_cons]; unfold filterAll; rw [bind_of_ret b1, bind_of_ret c2, pure_def]

/-- the likelihoods of an observation in the states of a unimodal model -/
theorem emits_floored {m : Hmm ℝ} (hm : m.CanFilter) (hu : ∀ s ∈ m.sts, ∀ g ∈ s.comps, g.UpToDate) (hb : m.bimodal = false) (x : List ℝ) (hx : m.Fits x) :
    Emits Dens.real m x (likOf m m.floored x) ∧ ∀ i < m.n, 1 / 10 ^ 180 ≤ likOf m m.floored x i := by
  refine ⟨fun i s hs => ?_, fun i hi => likOf_ge m hm.wf (fun s hs => (hm.state s hs).1.ready) m.floored x i hi fun c _ => floored_ge m i x c⟩
  have hsm := List.mem_of_getElem? hs
  obtain ⟨sg, -, sb, sd, -⟩ := hm.wf.state s hsm
  refine ⟨s.floored x, Gmm.UpToDate.obs (hm.state s hsm).1.ready.wf (hu s hsm) (sb.trans hb) ?_, ?_⟩
  · unfold Fits at hx
    rw [if_neg (by simp [hb])] at hx
    rw [sd]; exact hx
  · unfold likOf coeff
    rw [sg]
    congr 1
    · funext c; simp [hs]
    · funext c; simp only [floored, pdf, hs, Gmm.floored]

/-- **C98** (recognition with a unimodal hidden Markov model): after `reset`, the model in the new axes returns, for the observations in the new axes, the likelihoods that the model
    returns for the observations; and the results are the same. -/
theorem C98_stream (A : NewAxes d) (m m' : Hmm ℝ) (h : A.CarriesHmm m m') (hb : m.bimodal = false) (hm : m.Usable) (hm' : m'.Usable)
    (hu : ∀ s ∈ m.sts, ∀ g ∈ s.comps, g.UpToDate) (hu' : ∀ s ∈ m'.sts, ∀ g ∈ s.comps, g.UpToDate) (xs : List (List ℝ)) (hne : xs ≠ []) (hx : ∀ x ∈ xs, x.length = d) :
    ∃ ps t t', (do reset; filterAll Dens.real Real.log xs) m = .ret ps t ∧ (do reset; filterAll Dens.real Real.log (xs.map A.frame)) m' = .ret ps t' ∧
      ps.length = xs.length ∧ SameResults t t' := by
  obtain ⟨bf, h1, h2⟩ := reset_ret m hm
  obtain ⟨bf', h1', h2'⟩ := reset_ret m' hm'
  have hc := cleared_can m hm.can bf
  have hc' := cleared_can m' hm'.can bf'
  have hb' : m'.bimodal = false := by rw [h.same]; exact hb
  have hT : Twins (cleared m bf) (cleared m' bf') := by
    refine ⟨?_, h.start⟩
    have e1 : m'.n = m.n := by rw [h.same]
    have e2 : m'.trans = m.trans := by rw [h.same]
    have e3 : m'.ergodic = m.ergodic := by rw [h.same]
    have e4 : cyclicCell m' = cyclicCell m := by unfold cyclicCell; rw [e1, e3]
    unfold cleared
    simp only [e1, e2, e4]
    rw [h.same]
  have hdim : m'.dim = d := by rw [h.same]; exact h.dim
  obtain ⟨qs, r, r', k1, k2, k3, k4⟩ := twins_run hT hc hc' hm.flat hb A.frame (fun x => likOf (cleared m bf) (cleared m bf).floored x)
    (fun x => likOf (cleared m' bf') (cleared m' bf').floored x) (emits_floored hc hu hb) (emits_floored hc' hu' hb') (fun x => by
      funext i
      have hg : m'.gaussians = m.gaussians := by rw [h.same]
      show mixture m'.gaussians (coeff m' i) (m'.floored i (A.frame x)) = mixture m.gaussians (coeff m i) (m.floored i x)
      rw [hg, h.coeff]
      congr 1
      funext c
      exact h.floored (fun s hs => (hm.can.state s hs).1.ready.wf) (fun s hs => (hm'.can.state s hs).1.ready.wf) i x c) xs (fun x hx' => by
      constructor
      · show (if m.bimodal then m.di ≤ x.length else m.dim ≤ x.length)
        rw [if_neg (by simp [hb]), h.dim, hx x hx']
      · show (if m'.bimodal then m'.di ≤ (A.frame x).length else m'.dim ≤ (A.frame x).length)
        rw [if_neg (by simp [hb']), hdim, A.frame_length]) hne _ _ [] [] (heard_nil Real.log _ hc rfl h2 hm.alpha) (heard_nil Real.log _ hc' rfl h2' hm'.alpha)
  exact ⟨qs, r, r', by rw [bind_of_ret h1, k1], by rw [bind_of_ret h1', k2], k4, k3⟩

end recognition

/-- **C98** (hidden Markov models, LeftRight and unimodal; from the training to the results): a model trained in other axes takes the same decisions during the training, and afterwards
    gives the same likelihoods and the same results for every stream of observations in these axes.  (Partial: `Steady` for another origin; Ergodic models are not covered.) -/
theorem C98_recognition_partial (m : Hmm ℝ) (ha : m.Admissible) (hE : m.ergodic = false) (hwin : 1 ≤ m.window) (hh : m.hier = false) (hb : m.bimodal = false) (hbuf : BufOk m.buf)
    (data : KData ℝ) (hf : m.Fed data) (hl : m.LongPhrase data) (hlen : data.frames.length ≤ 10 ^ 90) (hreg : 1 / 10 ^ 9 ≤ m.absReg) (A : NewAxes m.dim)
    (ho : (∀ i, A.shift i = 0) ∨ m.Steady data) (lowest pct : ℝ) (P : EmParams) (hP : 1 ≤ P.minIter) (cancel : Nat → Bool) (hcan : cancel 0 = false) :
    ∃ t u u', (trainee Dens.real Real.log Real.sqrt (Compare.exact lowest pct) P (fun d => deviations d.dim d.frames) data).train (Compare.exact lowest pct) P cancel m = .ret t u ∧
      (trainee Dens.real Real.log Real.sqrt (Compare.exact lowest pct) P (fun d => deviations d.dim d.frames) (A.data data)).train (Compare.exact lowest pct) P cancel m = .ret t u' ∧
      A.CarriesHmm u u' ∧ (t.status = .done → ∀ xs : List (List ℝ), xs ≠ [] → (∀ x ∈ xs, x.length = m.dim) → ∃ ps r r',
        (do reset; filterAll Dens.real Real.log xs) u = .ret ps r ∧ (do reset; filterAll Dens.real Real.log (xs.map A.frame)) u' = .ret ps r' ∧ ps.length = xs.length ∧
        SameResults r r') := by
  obtain ⟨t, u, u', h1, h2, h3, h4, h5, h6⟩ := C98_training m ha hE hwin data hf hl hlen hreg A ho lowest pct P hP cancel hcan
  refine ⟨t, u, u', h1, h2, h3, fun hd xs hne hx => ?_⟩
  obtain ⟨k1, k2⟩ := h6 hd hh hbuf
  have hub : u.bimodal = false := by
    obtain ⟨t1, u1, w1, -, -, -, -, -, w2, -⟩ := C83_training Dens.real Dens.real_sound Real.log (fun x y hx hy => Real.log_mul hx.ne' hy.ne') m ha hE hwin data hf hl hlen hreg
      (fun d => deviations d.dim d.frames) sdOf_length lowest pct P hP cancel
    rw [h1] at w1
    injection w1 with _ w1
    rw [w1, w2]; exact hb
  exact C98_stream A u u' h3 hub k1 k2 (fun s hs g hg => (h4 s hs g hg).upToDate) (fun s hs g hg => (h5 s hs g hg).upToDate) xs hne hx

/-- with one component in each state, the initialisation does not depend on the origin -/
theorem steady_one (m : Hmm ℝ) (h1 : m.gaussians = 1) (data : KData ℝ) (hl : m.LongPhrase data) : m.Steady data := by
  intro n hn
  refine Gmm.steady_one _ h1 _ ?_
  unfold segments
  obtain ⟨p, q1, q2⟩ := hl
  cases hc : data.phrases.filter fun p => decide (m.n ≤ p.length) with
  | nil =>
    have : p ∈ data.phrases.filter fun p => decide (m.n ≤ p.length) := List.mem_filter.2 ⟨q1, by simpa using q2⟩
    rw [hc] at this
    simp at this
  | cons r l =>
    have : r ∈ data.phrases.filter fun p => decide (m.n ≤ p.length) := by rw [hc]; exact List.mem_cons_self
    have hr : m.n ≤ r.length := by simpa using (List.mem_filter.1 this).2
    have hq : 0 < r.length / m.n := Nat.div_pos hr (by omega)
    intro he
    have := congrArg List.length he
    simp at this
    omega

/-- **C98** for hidden Markov models with one component in each state (as they are by default): all axes and all origins. -/
theorem C98_one_gaussian (m : Hmm ℝ) (ha : m.Admissible) (hE : m.ergodic = false) (h1 : m.gaussians = 1) (hwin : 1 ≤ m.window) (hh : m.hier = false) (hb : m.bimodal = false)
    (hbuf : BufOk m.buf) (data : KData ℝ) (hf : m.Fed data) (hl : m.LongPhrase data) (hlen : data.frames.length ≤ 10 ^ 90) (hreg : 1 / 10 ^ 9 ≤ m.absReg) (A : NewAxes m.dim)
    (lowest pct : ℝ) (P : EmParams) (hP : 1 ≤ P.minIter) (cancel : Nat → Bool) (hcan : cancel 0 = false) :
    ∃ t u u', (trainee Dens.real Real.log Real.sqrt (Compare.exact lowest pct) P (fun d => deviations d.dim d.frames) data).train (Compare.exact lowest pct) P cancel m = .ret t u ∧
      (trainee Dens.real Real.log Real.sqrt (Compare.exact lowest pct) P (fun d => deviations d.dim d.frames) (A.data data)).train (Compare.exact lowest pct) P cancel m = .ret t u' ∧
      A.CarriesHmm u u' ∧ (t.status = .done → ∀ xs : List (List ℝ), xs ≠ [] → (∀ x ∈ xs, x.length = m.dim) → ∃ ps r r',
        (do reset; filterAll Dens.real Real.log xs) u = .ret ps r ∧ (do reset; filterAll Dens.real Real.log (xs.map A.frame)) u' = .ret ps r' ∧ ps.length = xs.length ∧
        SameResults r r') :=
  C98_recognition_partial m ha hE hwin hh hb hbuf data hf hl hlen hreg A (Or.inr (steady_one m h1 data hl)) lowest pct P hP cancel hcan

/-- Non-vacuity: a model with two states, the axis reversed and the origin moved. -/
example (cancel : Nat → Bool) (hcan : cancel 0 = false) : ∃ (A : NewAxes (initExample 2 false false).dim) (t : Trainer ℝ) (u u' : Hmm ℝ), A.frame [10] = [-3] ∧
    (trainee Dens.real Real.log Real.sqrt (Compare.exact (-10) 1) ⟨10, 0⟩ (fun d => deviations d.dim d.frames) initData).train (Compare.exact (-10) 1) ⟨10, 0⟩ cancel
      (initExample 2 false false) = .ret t u ∧
    (trainee Dens.real Real.log Real.sqrt (Compare.exact (-10) 1) ⟨10, 0⟩ (fun d => deviations d.dim d.frames) (A.data initData)).train (Compare.exact (-10) 1) ⟨10, 0⟩ cancel
      (initExample 2 false false) = .ret t u' ∧ A.CarriesHmm u u' := by
  obtain ⟨h1, h2, h3, h4, h5, _⟩ := initExample_ok 2 (by omega) false false
  obtain ⟨t, u, u', k1, k2, k3, -⟩ := C98_one_gaussian (initExample 2 false false) h1 rfl rfl h3 rfl rfl rfl initData h2 ⟨_, .head _, by simp [initExample]⟩ h4 h5
    ⟨Equiv.refl _, fun _ => -1, fun _ => 7, fun _ => Or.inr rfl⟩ (-10) 1 ⟨10, 0⟩ (by simp) cancel hcan
  exact ⟨_, t, u, u', by simp [NewAxes.frame, initExample]; norm_num, k1, k2, k3⟩

end Hmm
end Xmm
