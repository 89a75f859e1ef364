import Verif.Props.AxesModel
import Verif.Props.AxesHmmTrain
import Verif.Props.HmmResults
set_option linter.unusedSectionVars false
/- C98 and C113: what the states of a hidden Markov model with two modalities predict, in other axes. -/
namespace Xmm
open Prog (bind_def get_def)
open GmmSpec RecSpec

/-- weighted sums of predictions in the new axes -/
theorem NewAxes.CarriesPrediction.combine {d : Nat} {A : NewAxes d} {di : Nat} {mode : CovMode} (hA : A.KeepsInput di) (n : Nat) (a b : Nat → ℝ) (v w v' w' : Nat → List ℝ)
    (h : ∀ i < n, A.CarriesPrediction di mode (v i, w i) (v' i, w' i)) (hs : (∀ k : Fin d, di ≤ k.val → A.shift k = 0) ∨ ∑ i ∈ Finset.range n, a i = 1) :
    A.CarriesPrediction di mode
      ((List.range (d - di)).map fun k => ∑ i ∈ Finset.range n, a i * (v i).getD k 0, (List.range (outCells mode (d - di))).map fun k => ∑ i ∈ Finset.range n, b i * (w i).getD k 0)
      ((List.range (d - di)).map fun k => ∑ i ∈ Finset.range n, a i * (v' i).getD k 0, (List.range (outCells mode (d - di))).map fun k => ∑ i ∈ Finset.range n, b i * (w' i).getD k 0) := by
  have lt : ∀ k : Fin d, di ≤ k.val → k.val - di < d - di := fun k hk => by have := k.isLt; omega
  have lt2 : ∀ a b : Nat, a < d - di → b < d - di → a * (d - di) + b < (d - di) * (d - di) := fun a b ha hb => by nlinarith
  refine ⟨⟨by simp, by simp, by simp, by simp⟩, fun k hk => ?_, fun hm i j hi hj => ?_, fun hm k hk => ?_⟩
  · simp only
    rw [getD_map_range' _ _ _ (lt k hk), getD_map_range' _ _ _ (lt _ (hA.output hk)), Finset.mul_sum]
    have e : A.shift k = ∑ i ∈ Finset.range n, a i * A.shift k := by
      rcases hs with hs | hs
      · rw [hs k hk]; simp
      · rw [← Finset.sum_mul, hs, one_mul]
    rw [e, ← Finset.sum_add_distrib]
    refine Finset.sum_congr rfl fun i hi => ?_
    have := (h i (Finset.mem_range.1 hi)).vals k hk
    simp only at this
    rw [this]
    ring
  · subst hm
    simp only [outCells]
    rw [getD_map_range' _ _ _ (lt2 _ _ (lt i hi) (lt j hj)), getD_map_range' _ _ _ (lt2 _ _ (lt _ (hA.output hi)) (lt _ (hA.output hj))), Finset.mul_sum]
    refine Finset.sum_congr rfl fun c hc => ?_
    have := (h c (Finset.mem_range.1 hc)).full rfl i j hi hj
    simp only at this
    rw [this]
    ring
  · subst hm
    simp only [outCells]
    rw [getD_map_range' _ _ _ (by exact lt k hk), getD_map_range' _ _ _ (by exact lt _ (hA.output hk))]
    refine Finset.sum_congr rfl fun c hc => ?_
    have := (h c (Finset.mem_range.1 hc)).diagonal rfl k hk
    simp only at this
    rw [this]

/-- the weights of the states in the output sum to 1, if the estimator is the likeliest state or a window of two states or more -/
theorem Hmm.outWeight_sum {r : Hmm ℝ} (h : HmmSpec.Windowed r) (he : r.est = .likeliest ∨ r.est = .windowed ∧ 2 ≤ r.n) (h0 : ∀ i < r.n, 0 ≤ HmmSpec.occ r i)
    (hs : 0 < ∑ i ∈ Finset.range r.n, HmmSpec.occ r i) : ∑ i ∈ Finset.range r.n, HmmSpec.outWeight r i = 1 := by
  rcases he with hE | ⟨hE, hn⟩
  · simp only [HmmSpec.outWeight, hE]
    rw [Finset.sum_ite_eq' (Finset.range r.n) r.likeliest]
    rw [if_pos (Finset.mem_range.2 h.likeliest.1)]
  · have hz := winNorm_pos h hn h0 hs
    have hhi : r.winMax ≤ r.n := by rw [h.hi]; exact min_le_right _ _
    simp only [HmmSpec.outWeight, hE, if_neg (not_le.2 hz)]
    rw [← window_sum r.n r.winMin r.winMax hhi fun i => HmmSpec.occ r i / r.winNorm, ← Finset.sum_div, ← Finset.sum_Ico_eq_sum_range, ← h.norm, div_self hz.ne']

namespace Gmm

/-- the output that a mixture predicts for the input `x` -/
noncomputable def outOf (s : Gmm ℝ) (x : List ℝ) : List ℝ := (List.range (s.dim - s.di)).map fun k =>
  ∑ j ∈ Finset.range s.gaussians, share s.gaussians (weights s) (s.flooredIn x) j * (s.predictedBy x j).getD k 0

/-- and its covariance -/
noncomputable def outCovOf (s : Gmm ℝ) (x : List ℝ) : List ℝ := (List.range (outCells s.mode (s.dim - s.di))).map fun k =>
  ∑ j ∈ Finset.range s.gaussians, share s.gaussians (weights s) (s.flooredIn x) j ^ 2 * ((s.comps[j]?.map fun g => g.outCov.getD k 0).getD 0)

/-- one observation, in both axes -/
theorem state_moved {d : Nat} (A : NewAxes d) (s s' : Gmm ℝ) (h : A.Carries s s') (hb : s.bimodal = true) (hA : A.KeepsInput s.di) (hm : s.CanFilter) (hm' : s'.CanFilter)
    (hu : ∀ g ∈ s.comps, g.Derived) (hu' : ∀ g ∈ s'.comps, g.Derived) (hbuf : BufOk s.buf) (hbuf' : BufOk s'.buf) (x : List ℝ) (hx : x.length = s.di) :
    mixture s'.gaussians (weights s') (s'.flooredIn (A.input s.di x)) = mixture s.gaussians (weights s) (s.flooredIn x) ∧
      A.CarriesPrediction s.di s.mode (s.outOf x, s.outCovOf x) (s'.outOf (A.input s.di x), s'.outCovOf (A.input s.di x)) := by
  obtain ⟨ps, t, t', a1, a2, a3, -, -, a4⟩ := bimodal_stream A s s' h hb hA hm hm' hu hu' hbuf hbuf' [x] (by simp) (by simpa using hx)
  have one : ∀ (m : Gmm ℝ), m.CanFilter → m.bimodal = true → (∀ g ∈ m.comps, g.Derived) → BufOk m.buf → ∀ y : List ℝ, m.di ≤ y.length → ∀ qs u,
      (do reset; filterAll Dens.real Real.log [y]) m = .ret qs u →
      u.instant = mixture m.gaussians (weights m) (m.flooredIn y) ∧ u.outVals = m.outOf y ∧ u.outCov = m.outCovOf y ∧ u.mode = m.mode := by
    intro m hm hb hu hbuf y hy qs u hr
    have hf : ∀ x, m.Fits x ↔ m.di ≤ x.length := fun x => by unfold Fits; rw [if_pos hb]
    obtain ⟨b, h1, h2⟩ := reset_ret m hm hbuf
    obtain ⟨u', f1, f2, -, -, f5⟩ := filterAll_ret Dens.real Real.log m m.flooredIn m.predictedBy (fun x hx => Derived.obs hm.ready.wf hu hb ((hf x).1 hx))
      (fun x _ hx => Derived.predictions hm.ready.wf hu hb ((hf x).1 hx)) [y] (by simpa using (hf y).2 hy) { m with buf := b } rfl (SameModel.canFilter (m := m) rfl hm hm.ready.wf.beta) [] h2
    rw [bind_of_ret h1] at hr
    have e := f1.symm.trans hr
    injection e with _ e
    subst e
    obtain ⟨mp, p1, p2⟩ := f5 [] y rfl
    unfold SameModel at p1 f2
    have e1 : mp.gaussians = m.gaussians := by rw [p1]
    have e2 : weights mp = weights m := by rw [p1]; rfl
    have e4 : mp.bimodal = true := by rw [p1]; exact hb
    have e5 : mp.dim - mp.di = m.dim - m.di := by rw [p1]
    have e6 : mp.mode = m.mode := by rw [p1]
    have e7 : mp.comps = m.comps := by rw [p1]
    refine ⟨by rw [p2.instant, e1, e2], ?_, ?_, by rw [f2]⟩
    · rw [p2.outVals e4, e1, e2, e5]; rfl
    · rw [p2.outCov e4, e1, e2, e5, e6, e7]; rfl
  have hdi : s'.di = s.di := by rw [h.same]
  have hle : s.di ≤ d := by
    obtain ⟨gw, gd, gi, -, gb⟩ := hm.ready.wf.comp (s.comps[0]'(by rw [hm.ready.wf.comps]; exact hm.ready.wf.pos)) (List.getElem_mem _)
    have := gw.le (gb.trans hb)
    rw [gd, gi, h.dim] at this
    exact this
  obtain ⟨b1, b2, b3, b4⟩ := one s hm hb hu hbuf x hx.ge ps t a1
  obtain ⟨c1, c2, c3, -⟩ := one s' hm' (by rw [h.same]; exact hb) hu' hbuf' (A.input s.di x) (by rw [hdi]; simp [NewAxes.input, A.frame_length, hle]) ps t' a2
  refine ⟨by rw [← b1, ← c1, a3], ?_⟩
  have := a4.prediction
  rw [b2, b3, b4, c2, c3] at this
  exact this

end Gmm

namespace Hmm

theorem _root_.Xmm.NewAxes.CarriesHmm.di_le {d : Nat} {A : NewAxes d} {m n : Hmm ℝ} (h : A.CarriesHmm m n) (hb : m.bimodal = true) (hm : m.CanFilter) : m.di ≤ d := by
  have h0 : 0 < m.sts.length := by rw [hm.wf.sts]; exact hm.wf.pos
  obtain ⟨-, -, q1, q2, q3⟩ := hm.wf.state _ (List.getElem_mem h0)
  have hr := (hm.state _ (List.getElem_mem h0)).1.ready.wf
  obtain ⟨gw, gd, gi, -, gb⟩ := hr.comp (m.sts[0].comps[0]'(by rw [hr.comps]; exact hr.pos)) (List.getElem_mem _)
  have := gw.le (gb.trans (q1.trans hb))
  rw [gd, gi, q2, q3, h.dim] at this
  exact this

/-- the likelihoods and the predictions of the states of two models, the second in the new axes, for an observation of the input modality -/
theorem bimodal_moved {d : Nat} (A : NewAxes d) (m n : Hmm ℝ) (h : A.CarriesHmm m n) (hb : m.bimodal = true) (hA : A.KeepsInput m.di) (hm : m.CanFilter) (hn : n.CanFilter)
    (hu : ∀ s ∈ m.sts, ∀ g ∈ s.comps, g.Derived) (hu' : ∀ s ∈ n.sts, ∀ g ∈ s.comps, g.Derived) (x : List ℝ) (hx : x.length = m.di) :
    ∃ (b : Nat → ℝ) (v w v' w' : Nat → List ℝ), Xmm.HmmSpec.Emits Dens.real m x b ∧ Xmm.HmmSpec.Emits Dens.real n (A.input m.di x) b ∧ (∀ k < m.n, 1 / 10 ^ 180 ≤ b k) ∧
      Xmm.HmmSpec.Predicts Dens.real m x v w ∧ Xmm.HmmSpec.Predicts Dens.real n (A.input m.di x) v' w' ∧ ∀ i < m.n, A.CarriesPrediction m.di m.mode (v i, w i) (v' i, w' i) := by
  have hnb : n.bimodal = m.bimodal := by rw [h.same]
  have hnd : n.dim = m.dim := by rw [h.same]
  have hni : n.di = m.di := by rw [h.same]
  have hnm : n.mode = m.mode := by rw [h.same]
  set y := A.input m.di x with hy
  have hle : m.di ≤ d := h.di_le hb hm
  have hyl : m.di ≤ y.length := by simp [hy, NewAxes.input, A.frame_length, hle]
  have obs : ∀ (p : Hmm ℝ), p.CanFilter → p.bimodal = true → (∀ s ∈ p.sts, ∀ g ∈ s.comps, g.Derived) → ∀ z : List ℝ, p.di ≤ z.length → ∀ s ∈ p.sts,
      ObsDensities Dens.real s z (s.flooredIn z) ∧ Predictions s z (s.predictedBy z) := by
    intro p hp hpb hpu z hz s hs
    obtain ⟨-, -, q1, q2, q3⟩ := hp.wf.state s hs
    have hr := (hp.state s hs).1.ready.wf
    exact ⟨Gmm.Derived.obs hr (hpu s hs) (q1.trans hpb) (by rw [q3]; exact hz), Gmm.Derived.predictions hr (hpu s hs) (q1.trans hpb) (by rw [q3]; exact hz)⟩
  have pair : ∀ (i : Nat) (s s' : Gmm ℝ), m.sts[i]? = some s → n.sts[i]? = some s' → mixture s'.gaussians (weights s') (s'.flooredIn y) = mixture s.gaussians (weights s) (s.flooredIn x) ∧
      A.CarriesPrediction m.di m.mode (s.outOf x, s.outCovOf x) (s'.outOf y, s'.outCovOf y) := by
    intro i s s' hs hs'
    have hsm := List.mem_of_getElem? hs
    have hsm' := List.mem_of_getElem? hs'
    obtain ⟨-, q0, q1, q2, q3⟩ := hm.wf.state s hsm
    obtain ⟨cs, w, hist, hl⟩ := hm.state s hsm
    obtain ⟨cs', w', hist', hl'⟩ := hn.state s' hsm'
    have := Gmm.state_moved A s s' (h.state i s s' hs hs') (q1.trans hb) (by rw [q3]; exact hA) cs cs' (hu s hsm) (hu' s' hsm') (Logs.ok hl) (Logs.ok hl') x (by rw [q3]; exact hx)
    rw [q3, q0] at this
    exact this
  have get : ∀ i < m.n, ∃ s s', m.sts[i]? = some s ∧ n.sts[i]? = some s' := fun i hi =>
    ⟨_, _, List.getElem?_eq_getElem (by rw [hm.wf.sts]; exact hi), List.getElem?_eq_getElem (by rw [h.size, hm.wf.sts]; exact hi)⟩
  refine ⟨fun i => ((m.sts[i]?).map fun s => mixture s.gaussians (weights s) (s.flooredIn x)).getD 0, fun i => ((m.sts[i]?).map fun s => s.outOf x).getD [],
    fun i => ((m.sts[i]?).map fun s => s.outCovOf x).getD [], fun i => ((n.sts[i]?).map fun s => s.outOf y).getD [], fun i => ((n.sts[i]?).map fun s => s.outCovOf y).getD [],
    fun i s hs => ?_, fun i s' hs' => ?_, fun i hi => ?_, fun i s hs => ?_, fun i s' hs' => ?_, fun i hi => ?_⟩
  · exact ⟨_, (obs m hm hb hu x hx.ge s (List.mem_of_getElem? hs)).1, by simp only [hs, Option.map_some, Option.getD_some]⟩
  · have hi : i < m.n := by rw [← hm.wf.sts, ← h.size]; exact (List.getElem?_eq_some_iff.1 hs').1
    obtain ⟨s, _, hs, -⟩ := get i hi
    refine ⟨_, (obs n hn (hnb.trans hb) hu' y (by rw [hni]; exact hyl) s' (List.mem_of_getElem? hs')).1, ?_⟩
    simp only [hs, Option.map_some, Option.getD_some, (pair i s s' hs hs').1]
  · obtain ⟨s, _, hs, -⟩ := get i hi
    simp only [hs, Option.map_some, Option.getD_some]
    exact mixture_ge (hm.state s (List.mem_of_getElem? hs)).1.ready fun c _ => le_max_left _ _
  · obtain ⟨o1, o2⟩ := obs m hm hb hu x hx.ge s (List.mem_of_getElem? hs)
    obtain ⟨-, q0, q1, q2, q3⟩ := hm.wf.state s (List.mem_of_getElem? hs)
    refine ⟨_, _, o1, o2, ?_, ?_⟩
    · simp only [hs, Option.map_some, Option.getD_some, Gmm.outOf, q2, q3]
    · simp only [hs, Option.map_some, Option.getD_some, Gmm.outCovOf, q0, q2, q3]
  · obtain ⟨o1, o2⟩ := obs n hn (hnb.trans hb) hu' y (by rw [hni]; exact hyl) s' (List.mem_of_getElem? hs')
    obtain ⟨-, q0, q1, q2, q3⟩ := hn.wf.state s' (List.mem_of_getElem? hs')
    refine ⟨_, _, o1, o2, ?_, ?_⟩
    · simp only [hs', Option.map_some, Option.getD_some, Gmm.outOf, q2, q3]
    · simp only [hs', Option.map_some, Option.getD_some, Gmm.outCovOf, q0, q2, q3]
  · obtain ⟨s, s', hs, hs'⟩ := get i hi
    simp only [hs, hs', Option.map_some, Option.getD_some]
    exact (pair i s s' hs hs').2

end Hmm
end Xmm
