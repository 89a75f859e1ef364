import Verif.Props.ClassTraining
import Verif.Props.BaumWelchTraining
set_option linter.unusedSimpArgs false
set_option linter.unusedSectionVars false
/- Lemmas on the initialisation of hidden Markov models. -/
namespace Xmm
open Phrase (loop)
open Gauss (rd resize rd_lt)
open Prog (bind_def pure_def get_def set_def modify_def throw_def undef_def)
open GmmSpec
variable {K : Type} [Field K] [LinearOrder K] [IsStrictOrderedRing K]

namespace Gmm

/-- the default covariance can be inverted -/
theorem default_regular (g : Gauss K) (a : K) (ha : 0 ≤ a) (reg : Nat → K) (hreg : ∀ i < g.dim, 1 / 10 ^ 9 ≤ reg i)
    (h : ∀ i < g.dim, ∀ j < g.dim, (g.mode = .full ∨ i = j) → g.covAt i j = (match g.mode with | .full => a | .diagonal => 0) + if i = j then reg i else 0) :
    g.Regular := by
  rcases mode_cases' g.mode with hm | hm
  · simp only [hm, true_or, true_implies] at h
    refine ⟨fun i hi j hj => ?_, fun v => ?_⟩
    · rw [h i hi j hj, h j hj i hi]
      by_cases hij : i = j
      · subst hij; rfl
      · rw [if_neg hij, if_neg (Ne.symm hij)]
    · have e : ∑ i ∈ Finset.range g.dim, ∑ j ∈ Finset.range g.dim, v i * g.covAt i j * v j =
          a * (∑ i ∈ Finset.range g.dim, v i) ^ 2 + ∑ i ∈ Finset.range g.dim, reg i * v i ^ 2 := by
        rw [pow_two, Finset.sum_mul_sum, Finset.mul_sum, ← Finset.sum_add_distrib]
        refine Finset.sum_congr rfl fun i hi => ?_
        have hi' := Finset.mem_range.1 hi
        have : ∑ j ∈ Finset.range g.dim, v i * g.covAt i j * v j =
            ∑ j ∈ Finset.range g.dim, (a * (v i * v j) + if i = j then reg i * v i ^ 2 else 0) := by
          refine Finset.sum_congr rfl fun j hj => ?_
          rw [h i hi' j (Finset.mem_range.1 hj)]
          by_cases hij : i = j
          · subst hij; simp only [if_true]; ring
          · simp only [hij, if_false]; ring
        rw [this, Finset.sum_add_distrib, Finset.sum_ite_eq, if_pos hi, Finset.mul_sum]
      rw [e, Finset.mul_sum]
      have := Finset.sum_le_sum fun i (hi : i ∈ Finset.range g.dim) =>
        mul_le_mul_of_nonneg_right (hreg i (Finset.mem_range.1 hi)) (sq_nonneg (v i))
      have h2 := mul_nonneg ha (sq_nonneg (∑ i ∈ Finset.range g.dim, v i))
      linarith
  · simp only [hm] at h
    have h0 : ∀ i j, i ≠ j → g.covAt i j = 0 := fun i j hij => by simp [Gauss.covAt, hm, hij]
    refine ⟨fun i hi j hj => ?_, fun v => ?_⟩
    · by_cases hij : i = j
      · subst hij; rfl
      · rw [h0 i j hij, h0 j i (Ne.symm hij)]
    · rw [Finset.mul_sum]
      refine Finset.sum_le_sum fun i hi => ?_
      have hi' := Finset.mem_range.1 hi
      rw [Finset.sum_eq_single i]
      · rw [h i hi' i hi' (Or.inr rfl), if_pos rfl]
        have := mul_le_mul_of_nonneg_right (hreg i hi') (sq_nonneg (v i))
        nlinarith
      · intro j hj hji
        rw [h0 i j (Ne.symm hji)]
        ring
      · intro h0; exact absurd hi h0

/-- a mixture after `initParametersToDefault` -/
structure Default (reg : Nat → K) (s s' : Gmm K) : Prop where
  same : s' = { s with reg := s'.reg, coeffs := s'.coeffs, comps := s'.comps }
  wf : s'.WF
  coeffs : s'.coeffs = List.replicate s.gaussians (1 / (s.gaussians : K))
  dist : IsDistribution s'.coeffs
  reg : ∀ i < s.dim, s'.reg.getD i 0 = reg i
  regLen : s'.reg.length = s.dim
  regular : ∀ g ∈ s'.comps, g.Regular
  comp : ∀ (c : Nat) (g' : Gauss K), s'.comps[c]? = some g' → ∃ g : Gauss K, s.comps[c]? = some g ∧ g' = { g with cov := g'.cov }

theorem default_ret (s : Gmm K) (hw : s.WF) (sd : List K) (hsd : sd.length = s.dim) (hreg : 1 / 10 ^ 9 ≤ s.absReg) :
    ∃ s', initParametersToDefault sd s = .ret () s' ∧ Default (fun i => max s.absReg (s.relReg * sd.getD i 0)) s s' := by
  obtain ⟨l, h1, h2, h3, h4⟩ := C36_default_parameters s hw sd hsd
  have hr : ∀ i < s.dim, (regularization s sd).getD i 0 = max s.absReg (s.relReg * sd.getD i 0) := by
    intro i hi
    have : i < sd.length := by rw [hsd]; exact hi
    simp [regularization, List.getD_eq_getElem?_getD, this]
  have k : ∀ (c : Nat) (g' : Gauss K), l[c]? = some g' → ∃ g : Gauss K, s.comps[c]? = some g ∧ g' = { g with cov := g'.cov } ∧ g'.WF ∧
        ∀ i < s.dim, ∀ j < s.dim, (s.mode = .full ∨ i = j) → g'.covAt i j = defaultCov s (regularization s sd) i j := by
    intro c g' hg'
    have hc : c < s.gaussians := by rw [← h2]; exact (List.getElem?_eq_some_iff.1 hg').1
    obtain ⟨g, hg, hgc⟩ := getElem_comp hw hc
    obtain ⟨g1, e1, e2⟩ := h4 c g hgc
    rw [hg'] at e1
    cases e1
    exact ⟨g, hgc, e2⟩
  have hw' : ({ s with reg := regularization s sd, coeffs := List.replicate s.gaussians (1 / (s.gaussians : K)) } : Gmm K).WF :=
    ⟨hw.pos, hw.comps, by simp, hw.beta, hw.comp⟩
  have hwl := hw'.of_comps h2 (fun c g' hg' => by
    obtain ⟨g, e1, e2, e3, _⟩ := k c g' hg'
    refine ⟨g, e1, e3, ?_, ?_, ?_, ?_⟩ <;> rw [e2])
  refine ⟨_, h1, ⟨rfl, hwl, rfl, h3, hr, by simp [regularization, hsd], fun g hg => ?_, fun c g' hg' => ?_⟩⟩
  · obtain ⟨c, hgc⟩ := List.getElem?_of_mem hg
    obtain ⟨g0, e1, e2, _, e4⟩ := k c g hgc
    obtain ⟨_, gd, _, gm, _⟩ := hwl.comp g hg
    have gd' : g.dim = s.dim := gd
    have gm' : g.mode = s.mode := gm
    have ha : 0 ≤ s.absReg / 2 := by
      have : (0 : K) < 1 / 10 ^ 9 := by positivity
      linarith
    refine default_regular g (s.absReg / 2) ha
      (fun i => max s.absReg (s.relReg * sd.getD i 0))
      (fun i _ => le_trans hreg (le_max_left _ _)) (fun i hi j hj hm => ?_)
    rw [e4 i (gd' ▸ hi) j (gd' ▸ hj) (gm' ▸ hm)]
    unfold defaultCov
    rw [gm', hr i (gd' ▸ hi)]
    rcases mode_cases' s.mode with q | q <;> rw [q]
  · obtain ⟨g, e1, e2, _⟩ := k c g' hg'
    exact ⟨g, e1, e2⟩

/-- the components `c < t` of `s'` have the means and covariances of those of `g` -/
structure Copied (g s : Gmm K) (t : Nat) (s' : Gmm K) : Prop where
  same : s' = { s with comps := s'.comps }
  wf : s'.WF
  regular : ∀ c ∈ s'.comps, c.Regular
  copied : ∀ c < t, ∀ d e, s'.comps[c]? = some d → g.comps[c]? = some e → d.mean = e.mean ∧ d.cov = e.cov
  out : 0 < t → (∀ d ∈ s'.comps, d.det ≠ 0 ∧ (d.bimodal = true → d.detIn ≠ 0)) ∧ s'.Outputs ∧ s'.Inverted

end Gmm

namespace Gmm

/-- `updateInverseCovariances` leaves the inverses and the determinants of regular covariances -/
theorem updateInverses_inverted (m m' : Gmm K) (hw : m.WF) (hr : ∀ g ∈ m.comps, g.Regular) (h : updateInverseCovariances m = .ret () m') : m'.Inverted := by
  obtain ⟨l, _, h2⟩ := eachComp_throws Gauss.updateInverseCovariance (fun _ _ => True) (fun _ => trivial) m (by
    intro g hg
    have w := (hw.comp g hg).1
    cases hr : Gauss.updateInverseCovariance g with
    | ret a g' => exact ⟨g', trivial, Or.inl rfl⟩
    | throw e g' => exact ⟨g', trivial, Or.inr ⟨e, rfl⟩⟩
    | ub => exact absurd hr (C31_no_ub g w))
  rcases h2 with ⟨h2, h4⟩ | ⟨e, h2⟩
  · simp only [updateInverseCovariances, h2] at h
    cases h
    intro g' hg'
    rw [List.forall₂_iff_get] at h4
    obtain ⟨i, hi, rfl⟩ := List.getElem_of_mem hg'
    have hi' : i < m.comps.length := by rw [h4.1]; exact hi
    have e := h4.2 i hi' hi
    simp only [List.get_eq_getElem] at e
    have w := (hw.comp _ (List.getElem_mem hi')).1
    obtain ⟨-, -, k1, -⟩ := C31_inverse _ _ w e
    obtain ⟨g1, e1, k2, -⟩ := C68_gaussian_inverts _ w (hr _ (List.getElem_mem hi'))
    rw [e] at e1
    injection e1 with _ e1
    subst e1
    exact ⟨k1, k2, _, w, e⟩
  · simp only [updateInverseCovariances, h2] at h
    cases h

end Gmm

namespace Hmm

theorem copyComp_ret (g s : Gmm K) (hg : g.WF) (hgr : ∀ d ∈ g.comps, d.Regular) (e1 : g.gaussians = s.gaussians) (e2 : g.dim = s.dim) (e3 : g.mode = s.mode)
    (t : Nat) (ht : t < s.gaussians) (s1 : Gmm K) (h : Gmm.Copied g s t s1) : ∃ s2, copyComp g t s1 = .ret () s2 ∧ Gmm.Copied g s (t + 1) s2 := by
  have b1 : s1.gaussians = s.gaussians := by rw [h.same]
  have b2 : s1.dim = s.dim := by rw [h.same]
  have b3 : s1.mode = s.mode := by rw [h.same]
  have b4 : s1.bimodal = s.bimodal := by rw [h.same]
  have b5 : s1.di = s.di := by rw [h.same]
  obtain ⟨src, hsrc, hsrcc⟩ := Gmm.getElem_comp hg (show t < g.gaussians by omega)
  obtain ⟨d, hd, hdc⟩ := Gmm.getElem_comp h.wf (show t < s1.gaussians by omega)
  obtain ⟨sw, sdim, _, smode, _⟩ := hg.comp src hsrc
  obtain ⟨dw, ddim, ddi, dmode, dbi⟩ := h.wf.comp d hd
  set d' : Gauss K := { d with mean := src.mean, cov := src.cov } with hd'
  have edim : src.dim = d.dim := by rw [sdim, ddim, b2, e2]
  have emode : src.mode = d.mode := by rw [smode, dmode, b3, e3]
  have hdw : d'.WF := by
    refine ⟨?_, ?_, dw.inv, dw.invIn, dw.le⟩
    · show src.mean.length = d.dim
      rw [sw.mean, edim]
    · have := sw.cov
      rw [emode, edim] at this
      exact this
  have hdr : d'.Regular := by
    have hc : ∀ i j, d'.covAt i j = src.covAt i j := fun i j => by
      simp only [Gauss.covAt, hd', emode, edim]
    refine ⟨fun i hi j hj => ?_, fun v => ?_⟩
    · rw [hc, hc]
      exact (hgr src hsrc).symm i (by rw [edim]; exact hi) j (by rw [edim]; exact hj)
    · have := (hgr src hsrc).quad v
      simp only [hc]
      rw [edim] at this
      exact this
  set m1 : Gmm K := { s1 with comps := s1.comps.set t d' } with hm1
  have hlt : t < s1.comps.length := (List.getElem?_eq_some_iff.1 hdc).1
  have hmem : ∀ x ∈ m1.comps, x = d' ∨ x ∈ s1.comps := fun x hx => by
    rcases List.mem_or_eq_of_mem_set hx with h | h
    · exact Or.inr h
    · exact Or.inl h
  have hw1 : m1.WF := by
    refine ⟨h.wf.pos, ?_, h.wf.coeffs, h.wf.beta, fun x hx => ?_⟩
    · simpa [hm1] using h.wf.comps
    · rcases hmem x hx with rfl | hx
      · exact ⟨hdw, ddim, ddi, dmode, dbi⟩
      · exact h.wf.comp x hx
  have hr1 : ∀ x ∈ m1.comps, x.Regular := fun x hx => by
    rcases hmem x hx with rfl | hx
    · exact hdr
    · exact h.regular x hx
  obtain ⟨F, f1, f2, f3⟩ := Gmm.updateInverses_regular m1 hw1 hr1
  rw [List.forall₂_iff_get] at f2
  have k : ∀ (c : Nat) (x : Gauss K), (m1.comps.map F)[c]? = some x → ∃ y, m1.comps[c]? = some y ∧ x.WF ∧ SameParams y x := by
    intro c x hx
    obtain ⟨hc, rfl⟩ := List.getElem?_eq_some_iff.1 hx
    have hc' : c < m1.comps.length := by simpa using hc
    exact ⟨_, List.getElem?_eq_getElem hc', f2.2 c hc' hc⟩
  have hrun : copyComp g t s1 = .ret () { m1 with comps := m1.comps.map F } := by
    unfold copyComp
    have q := rd_lt (l := g.comps) (i := t) (List.getElem?_eq_some_iff.1 hsrcc).1 src s1
    have q' : g.comps.getD t src = src := by rw [List.getD_eq_getElem?_getD, hsrcc, Option.getD_some]
    rw [q'] at q
    rw [bind_of_ret q, bind_of_ret (Gmm.onComp_ret hdc (modify_def _ _))]
    exact f1
  refine ⟨_, hrun, ⟨?_, ?_, ?_, ?_, fun _ => ⟨f3, fun hb => ?_, Gmm.updateInverses_inverted m1 _ hw1 hr1 f1⟩⟩⟩
  · simp only [hm1]
    rw [h.same]
  · exact hw1.of_comps (by simpa using hw1.comps) (fun c x hx => by
      obtain ⟨y, y1, y2, y3⟩ := k c x hx
      exact ⟨y, y1, y2, y3.dim, y3.di, y3.mode, y3.bimodal⟩)
  · intro x hx
    obtain ⟨c, hxc⟩ := List.getElem?_of_mem hx
    obtain ⟨y, y1, _, y3⟩ := k c x hxc
    exact (hr1 y (List.mem_of_getElem? y1)).same y3
  · intro c hc x e hx he
    obtain ⟨y, y1, _, y3⟩ := k c x hx
    rw [y3.mean, y3.cov]
    by_cases hct : c = t
    · subst hct
      rw [hsrcc] at he
      cases he
      have : m1.comps[c]? = some d' := List.getElem?_set_self hlt
      rw [this] at y1
      cases y1
      exact ⟨rfl, rfl⟩
    · have : m1.comps[c]? = s1.comps[c]? := List.getElem?_set_ne (Ne.symm hct)
      rw [this] at y1
      exact h.copied c (by omega) y e y1 he
  · exact Gmm.updateInverses_out m1 _ hw1 f1 hb

theorem copyState_ret (g s : Gmm K) (hs : s.WF) (hr : ∀ d ∈ s.comps, d.Regular) (hg : g.WF) (hgr : ∀ d ∈ g.comps, d.Regular) (e1 : g.gaussians = s.gaussians)
    (e2 : g.dim = s.dim) (e3 : g.mode = s.mode) (m : Hmm K) (n : Nat) (hn : m.sts[n]? = some s) :
    ∃ s', loop s.gaussians () (fun _ c => onState n (copyComp g c)) m = .ret () { m with sts := m.sts.set n s' } ∧ Gmm.Copied g s s.gaussians s' := by
  have hlt : n < m.sts.length := (List.getElem?_eq_some_iff.1 hn).1
  have hset : m.sts.set n s = m.sts := by
    obtain ⟨h, rfl⟩ := List.getElem?_eq_some_iff.1 hn
    exact List.set_getElem_self h
  obtain ⟨a, m', h1, s', rfl, h2⟩ := loop_state s.gaussians () (fun _ c => onState n (copyComp g c)) m
    (fun t _ m' => ∃ s', m' = { m with sts := m.sts.set n s' } ∧ Gmm.Copied g s t s')
    ⟨s, by rw [hset], rfl, hs, hr, fun c hc => by omega, fun h => absurd h (lt_irrefl _)⟩ (by
      rintro t ht a m1 ⟨s1, rfl, h⟩
      obtain ⟨s2, k1, k2⟩ := copyComp_ret g s hg hgr e1 e2 e3 t ht s1 h
      refine ⟨(), _, onState_ret (m := { m with sts := m.sts.set n s1 }) (List.getElem?_set_self hlt) k1, s2, ?_, k2⟩
      simp)
  exact ⟨s', h1, h2⟩

end Hmm
end Xmm
