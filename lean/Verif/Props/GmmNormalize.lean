import Verif.Props.GmmLaws
set_option linter.unusedSimpArgs false
set_option linter.unusedSectionVars false
/- C36: normalisation and default values of the mixture coefficients. -/
namespace Xmm.Gmm
open Phrase (loop)
open Gauss (rd resize copyInto rd_lt)
open Prog (bind_def pure_def get_def set_def modify_def throw_def undef_def)
open GmmSpec
variable {K : Type} [Field K] [LinearOrder K] [IsStrictOrderedRing K]

theorem list_sum_getD (l : List K) : l.sum = ∑ c ∈ Finset.range l.length, l.getD c 0 := by
  rw [← sum_map_range]
  congr 1
  refine List.ext_getElem (by simp) fun i a b => ?_
  simp [List.getD_eq_getElem?_getD, a]

theorem sumCoeffs_ret {σ : Type} (m : Gmm K) (s : σ) (n : Nat) (hn : n = m.coeffs.length) :
    sumCoeffs m n s = .ret m.coeffs.sum s := by
  subst hn
  unfold sumCoeffs
  rw [Gauss.loop_sum m.coeffs.length (0 : K) _ (fun c => m.coeffs.getD c 0) s (by
    intro acc c hc
    simp only [bind_def, rd_lt hc 0, pure_def]), zero_add, list_sum_getD]

/-- a loop that overwrites the coefficients one by one -/
theorem coeffs_loop (m : Gmm K) (n : Nat) (hn : n = m.coeffs.length) (f : K → K) (body : Nat → Prog (Gmm K) Unit)
    (h : ∀ (l : List K) (c : Nat), l.length = m.coeffs.length → c < l.length →
      body c { m with coeffs := l } = .ret () { m with coeffs := l.set c (f (l.getD c 0)) }) :
    loop n () (fun _ c => body c) m = .ret () { m with coeffs := m.coeffs.map f } := by
  subst hn
  obtain ⟨a, m', h1, l, rfl, h2, h3, h4⟩ := loop_state m.coeffs.length () (fun _ c => body c) m
    (fun t _ m' => ∃ l, m' = { m with coeffs := l } ∧ l.length = m.coeffs.length ∧
      (∀ i, t ≤ i → l.getD i 0 = m.coeffs.getD i 0) ∧ ∀ i < t, l.getD i 0 = f (m.coeffs.getD i 0))
    ⟨m.coeffs, rfl, rfl, fun _ _ => rfl, fun i hi => by omega⟩ (by
      rintro t ht a m1 ⟨l, rfl, i1, i2, i3⟩
      refine ⟨(), _, h l t i1 (by omega), _, rfl, by simpa using i1, fun i hi => ?_, fun i hi => ?_⟩
      · rw [getD_set _ _ _ _ _ (by omega), if_neg (by omega)]
        exact i2 i (by omega)
      · rw [getD_set _ _ _ _ _ (by omega)]
        by_cases hit : i = t
        · rw [if_pos hit, hit, i2 t (le_refl _)]
        · rw [if_neg hit]; exact i3 i (by omega))
  rw [h1]
  congr 2
  refine List.ext_getElem (by simp [h2]) fun i a b => ?_
  have := h4 i (by omega)
  rw [List.getD_eq_getElem?_getD, List.getElem?_eq_getElem a, Option.getD_some] at this
  rw [this]
  have hi : i < m.coeffs.length := by omega
  simp [List.getD_eq_getElem?_getD, hi]

theorem uniform_distribution (n : Nat) (hn : 1 ≤ n) : IsDistribution (List.replicate n (1 / (n : K))) := by
  have : (n : K) ≠ 0 := by
    have : (0 : K) < n := by exact_mod_cast hn
    exact this.ne'
  refine ⟨fun x hx => ?_, ?_⟩
  · rw [(List.mem_replicate.1 hx).2]; positivity
  · rw [List.sum_replicate, nsmul_eq_mul]; field_simp

theorem div_distribution (l : List K) (h0 : ∀ x ∈ l, 0 ≤ x) (hs : 0 < l.sum) : IsDistribution (l.map (· / l.sum)) := by
  refine ⟨fun x hx => ?_, ?_⟩
  · obtain ⟨y, hy, rfl⟩ := List.mem_map.1 hx
    exact div_nonneg (h0 y hy) hs.le
  · have : (l.map (· / l.sum)).sum = l.sum / l.sum := by
      have key : ∀ z : K, (l.map (· / z)).sum = l.sum / z := by
        intro z
        induction l with
        | nil => simp
        | cons a t ih =>
          have : ∀ t : List K, (t.map (· / z)).sum = t.sum / z := by
            intro t
            induction t with
            | nil => simp
            | cons b u ih2 => simp only [List.map_cons, List.sum_cons, ih2, add_div]
          exact this _
      exact key _
    rw [this, div_self hs.ne']

/-- C36: `normalizeMixtureCoeffs()` makes non-negative coefficients a probability distribution: it divides them by their sum, or
    makes them all equal if that is zero.  Nothing else changes. -/
theorem C36_normalize (m : Gmm K) (hw : m.WF) (h0 : ∀ x ∈ m.coeffs, 0 ≤ x) :
    ∃ l, normalizeMixtureCoeffs m = .ret () { m with coeffs := l } ∧ IsDistribution l ∧
      (0 < m.coeffs.sum → l = m.coeffs.map (· / m.coeffs.sum)) := by
  simp only [normalizeMixtureCoeffs, bind_def, get_def]
  rw [sumCoeffs_ret m m _ hw.coeffs.symm]
  simp only
  by_cases hs : 0 < m.coeffs.sum
  · rw [if_pos hs]
    refine ⟨m.coeffs.map (· / m.coeffs.sum), ?_, div_distribution _ h0 hs, fun _ => rfl⟩
    exact coeffs_loop m _ hw.coeffs.symm (· / m.coeffs.sum) (fun c => do
      let m' ← Prog.get
      let w ← rd m'.coeffs c
      Prog.set { m' with coeffs := m'.coeffs.set c (w / m.coeffs.sum) }) fun l c hl hc => by
        simp only [bind_def, get_def, set_def, rd_lt hc 0]
  · rw [if_neg hs]
    have hpos := hw.pos
    refine ⟨List.replicate m.gaussians (1 / (m.gaussians : K)), ?_, uniform_distribution _ hpos, fun h => absurd h hs⟩
    have := coeffs_loop m _ hw.coeffs.symm (fun _ => 1 / (m.gaussians : K)) (fun c => do
      let m ← Prog.get
      let _ ← rd m.coeffs c
      Prog.set { m with coeffs := m.coeffs.set c (1 / (m.gaussians : K)) }) fun l c hl hc => by
        simp only [bind_def, get_def, set_def, rd_lt hc 0]
    rw [List.map_const', hw.coeffs] at this
    exact this

/-- the default covariance of a component: in Full mode `absolute_regularization / 2` in every cell, in Diagonal mode zero, with the
    regularisation added to the variances -/
def defaultCov (m : Gmm K) (reg : List K) (i j : Nat) : K :=
  (match m.mode with | .full => m.absReg / 2 | .diagonal => 0) + if i = j then reg.getD i 0 else 0

/-- C36, C37: `initParametersToDefault(dataStddev)` gives every component the same coefficient, so that they are a probability
    distribution, and the default covariance. -/
theorem C36_default_parameters (m : Gmm K) (hw : m.WF) (sd : List K) (hs : sd.length = m.dim) :
    ∃ l, initParametersToDefault sd m = .ret () { m with
        reg := regularization m sd,
        coeffs := List.replicate m.gaussians (1 / (m.gaussians : K)),
        comps := l } ∧ l.length = m.gaussians ∧
      IsDistribution (List.replicate m.gaussians (1 / (m.gaussians : K))) ∧
      ∀ (c : Nat) (g : Gauss K), m.comps[c]? = some g → ∃ g' : Gauss K, l[c]? = some g' ∧ g' = { g with cov := g'.cov } ∧ g'.WF ∧
        ∀ i < m.dim, ∀ j < m.dim, (m.mode = .full ∨ i = j) → g'.covAt i j = defaultCov m (regularization m sd) i j := by
  have hpos := hw.pos
  have hreg : (regularization m sd).length = m.dim := by simp [regularization, hs]
  obtain ⟨a, m', h1, l, w, e, h2, h3, h4, h5, h6⟩ := loop_state m.gaussians () (fun _ c => initComp c)
    { m with reg := regularization m sd }
    (fun t _ m' => ∃ l w, m' = { m with reg := regularization m sd, coeffs := w, comps := l } ∧
      l.length = m.gaussians ∧ w.length = m.gaussians ∧ (∀ i, t ≤ i → l[i]? = m.comps[i]?) ∧
      (∀ i < t, w.getD i 0 = 1 / (m.gaussians : K)) ∧
      ∀ c < t, ∀ g : Gauss K, m.comps[c]? = some g → ∃ g' : Gauss K, l[c]? = some g' ∧ g' = { g with cov := g'.cov } ∧ g'.WF ∧
        ∀ i < m.dim, ∀ j < m.dim, (m.mode = .full ∨ i = j) → g'.covAt i j = defaultCov m (regularization m sd) i j)
    ⟨m.comps, m.coeffs, rfl, hw.comps, hw.coeffs, fun _ _ => rfl, fun i hi => by omega, fun c hc => by omega⟩ (by
      rintro t ht a m1 ⟨l, w, rfl, i1, i2, i3, i4, i5⟩
      obtain ⟨g, hg, hg'⟩ := getElem_comp hw ht
      obtain ⟨gw, gd, _, gm, _⟩ := hw.comp g hg
      have hlt : t < l.length := by omega
      have hl : l[t]? = some g := by rw [i3 t (le_refl _)]; exact hg'
      obtain ⟨g0, hg0⟩ : ∃ g0 : Gauss K, g0 = { g with cov := initialCov m } := ⟨_, rfl⟩
      have w0 : g0.WF := by
        subst hg0
        refine ⟨gw.mean, ?_, gw.inv, gw.invIn, gw.le⟩
        simp only [initialCov]
        rw [← gm, ← gd]
        cases g.mode <;> simp
      have d0 : g0.dim = m.dim := by rw [hg0]; exact gd
      obtain ⟨g', r1, r2, r3, r4⟩ := Gauss.C62_regularize (regularization m sd) g0 w0 (by omega)
      have hrun : initComp t { m with reg := regularization m sd, coeffs := w, comps := l } = .ret () { m with
          reg := regularization m sd, coeffs := w.set t (1 / (m.gaussians : K)), comps := (l.set t g0).set t g' } := by
        have e := onComp_ret (m := { m with reg := regularization m sd, coeffs := w, comps := l.set t g0 }) (c := t)
          (g := g0) (g' := g') (List.getElem?_set_self hlt) r1
        simp only [initComp, bind_def, get_def, set_def, rd_some hl]
        have e2 : initialCov { m with reg := regularization m sd, coeffs := w, comps := l } = initialCov m := rfl
        rw [e2, ← hg0, e]
        simp only
        rw [rd_lt (by omega) 0]
      refine ⟨(), _, hrun, _, _, rfl, by simpa using i1, by simpa using i2, fun i hi => ?_, fun i hi => ?_,
        fun c hc gc hgc => ?_⟩
      · rw [List.set_set, List.getElem?_set_ne (by omega)]; exact i3 i (by omega)
      · rw [getD_set _ _ _ _ _ (by omega)]
        by_cases hit : i = t
        · rw [if_pos hit]
        · rw [if_neg hit]; exact i4 i (by omega)
      · rw [List.set_set]
        by_cases hct : c = t
        · subst hct
          rw [hg'] at hgc
          cases hgc
          refine ⟨g', List.getElem?_set_self hlt, ?_, r3, fun i hi j hj hij => ?_⟩
          · rw [r2, hg0]
          · rw [r4 i (by omega) j (by omega), defaultCov]
            congr 1
            rw [hg0]
            simp only [Gauss.covAt, gm, gd, initialCov]
            rcases mode_cases' m.mode with hm | hm
            · simp only [hm]
              have : i * m.dim + j < m.dim * m.dim := flat_lt hi hj
              simp [List.getD_eq_getElem?_getD, this]
            · simp only [hm]
              rcases hij with hij | hij
              · rw [hm] at hij; cases hij
              · rw [if_pos hij]
                simp [List.getD_eq_getElem?_getD, hi]
        · rw [List.getElem?_set_ne (Ne.symm hct)]
          exact i5 c (by omega) gc hgc)
  have hwrep : w = List.replicate m.gaussians (1 / (m.gaussians : K)) := by
    refine List.ext_getElem (by simp [h3]) fun i a b => ?_
    have := h5 i (by omega)
    rw [List.getD_eq_getElem?_getD, List.getElem?_eq_getElem a, Option.getD_some] at this
    rw [this]; simp
  have hu := uniform_distribution (K := K) m.gaussians hpos
  refine ⟨l, ?_, h2, hu, fun c g hg => h6 c ?_ g hg⟩
  · have e1 : initParametersToDefault sd m = (do
        let m ← Prog.get
        let z ← sumCoeffs m m.gaussians
        divideCoeffs m.gaussians z : Prog (Gmm K) Unit) m' := by
      simp only [initParametersToDefault, bind_def, modify_def, get_def]
      rw [h1]
    rw [e1, e]
    simp only [bind_def, get_def]
    rw [sumCoeffs_ret _ _ _ (by simp [h3])]
    simp only [divideCoeffs]
    have hsum : w.sum = 1 := by rw [hwrep]; exact hu.2
    have := coeffs_loop { m with reg := regularization m sd, coeffs := w, comps := l } m.gaussians h3.symm (· / w.sum) (fun c => do
        let m ← Prog.get
        let v ← rd m.coeffs c
        Prog.set { m with coeffs := m.coeffs.set c (v / w.sum) }) fun l c hl hc => by
      simp only [bind_def, get_def, set_def, rd_lt hc 0]
    rw [hsum] at this ⊢
    simp only [div_one, List.map_id', h3] at this ⊢
    rw [this, hwrep]
  · rw [← hw.comps]; exact (List.getElem?_eq_some_iff.1 hg).1

end Xmm.Gmm
