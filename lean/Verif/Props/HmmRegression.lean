import Verif.Props.HmmWindow
set_option linter.unusedSimpArgs false
set_option linter.unusedSectionVars false
/- The output of a hidden Markov model. -/
namespace Xmm
open Phrase (loop)
open Gauss (rd rd_lt)
open Prog (bind_def pure_def get_def set_def modify_def throw_def undef_def)
namespace Hmm
variable {K : Type} [Field K] [LinearOrder K] [IsStrictOrderedRing K]
open HmmSpec GmmSpec RecSpec Gmm

/-- the output of one state -/
theorem stateOutput (D : Dens K) (log : K → K) (s : Gmm K) (hc : s.CanFilter) (hb : s.bimodal = true) (x : List K)
    (hx : s.di ≤ x.length) (d : Nat → K) (hd : ObsDensities D s x d) (y : Nat → List K) (hy : Predictions s x y)
    {w : Nat} {hist : List K} (hl : Logs s.buf w hist) :
    ∃ s1 s2 : Gmm K, Gmm.likelihood D log x [] s = .ret (mixture s.gaussians (weights s) d) s1 ∧
      Gmm.regression x s1 = .ret () s2 ∧ Gmm.SameModel s s2 ∧ s2.CanFilter ∧ (∃ w hist, Logs s2.buf w hist) ∧
      s2.outVals = ((List.range (s.dim - s.di)).map fun k =>
        ∑ j ∈ Finset.range s.gaussians, share s.gaussians (weights s) d j * (y j).getD k 0) ∧
      s2.outCov = ((List.range (outCells s.mode (s.dim - s.di))).map fun k => ∑ j ∈ Finset.range s.gaussians,
        share s.gaussians (weights s) d j ^ 2 * ((s.comps[j]?.map fun g => g.outCov.getD k 0).getD 0)) := by
  obtain ⟨b, h1, h2⟩ := likelihood_ret D log s hc.ready.wf hc.idle x d hd hist hl
  have hr := regression_ret ({ s with
      beta := (List.range s.gaussians).map (share s.gaussians (weights s) d)
      buf := b
      instant := mixture s.gaussians (weights s) d
      logLik := avgLast w (hist ++ [log (mixture s.gaussians (weights s) d)]) } : Gmm K)
    ⟨hc.ready.wf.pos, hc.ready.wf.comps, hc.ready.wf.coeffs, by simp, hc.ready.wf.comp⟩ hc.idle hb (hc.out hb) x hx y hy
  refine ⟨_, _, h1, hr, rfl, ?_, ⟨w, _, h2⟩, ?_, ?_⟩
  · exact ⟨⟨⟨hc.ready.wf.pos, hc.ready.wf.comps, hc.ready.wf.coeffs, by simp, hc.ready.wf.comp⟩, hc.ready.coeffs, hc.ready.det⟩,
      hc.idle, hc.window, hc.out⟩
  · refine List.map_congr_left fun k _ => Finset.sum_congr rfl fun j hj => ?_
    simp only
    rw [getD_map_range' _ _ _ (Finset.mem_range.1 hj)]
  · refine List.map_congr_left fun k _ => Finset.sum_congr rfl fun j hj => ?_
    simp only
    rw [getD_map_range' _ _ _ (Finset.mem_range.1 hj)]

theorem _root_.Xmm.SameStates.refl (l : List (Gmm K)) (h : ∀ s ∈ l, s.CanFilter ∧ ∃ w hist, Logs s.buf w hist) : SameStates l l :=
  ⟨rfl, fun i s s' h1 h2 => by
    rw [h1] at h2; cases h2
    exact ⟨rfl, h s (List.mem_of_getElem? h1)⟩⟩

theorem _root_.Xmm.SameStates.get {l l' : List (Gmm K)} (h : SameStates l l') {i : Nat} (hi : i < l.length) :
    ∃ s s', l[i]? = some s ∧ l'[i]? = some s' ∧ Gmm.SameModel s s' ∧ s'.CanFilter ∧ ∃ w hist, Logs s'.buf w hist := by
  have h1 := List.getElem?_eq_getElem hi
  have h2 := List.getElem?_eq_getElem (l := l') (i := i) (by rw [h.1]; exact hi)
  exact ⟨_, _, h1, h2, h.2 i _ _ h1 h2⟩

theorem _root_.Xmm.SameStates.set {l l' : List (Gmm K)} (h : SameStates l l') {i : Nat} {s s' : Gmm K} (hs : l[i]? = some s)
    (h1 : Gmm.SameModel s s') (h2 : s'.CanFilter) (h3 : ∃ w hist, Logs s'.buf w hist) : SameStates l (l'.set i s') := by
  refine ⟨by simpa using h.1, fun j t t' e1 e2 => ?_⟩
  by_cases hij : i = j
  · subst hij
    rw [hs] at e1; cases e1
    have hi : i < l'.length := by rw [h.1]; exact (List.getElem?_eq_some_iff.1 hs).1
    rw [List.getElem?_set_self hi] at e2; cases e2
    exact ⟨h1, h2, h3⟩
  · rw [List.getElem?_set_ne hij] at e2
    exact h.2 j t t' e1 e2

theorem _root_.Xmm.Gmm.SameModel.fields {s s' : Gmm K} (h : Gmm.SameModel s s') : s'.gaussians = s.gaussians ∧ s'.bimodal = s.bimodal ∧ s'.di = s.di ∧
    s'.dim = s.dim ∧ s'.mode = s.mode ∧ s'.comps = s.comps ∧ weights s' = weights s := by
  unfold Gmm.SameModel at h
  rw [h]
  exact ⟨rfl, rfl, rfl, rfl, rfl, rfl, rfl⟩

/-- the two calls on a state: it now holds its prediction -/
theorem predictState (D : Dens K) (log : K → K) (m : Hmm K) (hw : m.WF) (hb : m.bimodal = true) (x : List K) (hx : m.di ≤ x.length)
    (v c : Nat → List K) (hp : Predicts D m x v c) (l : List (Gmm K)) (hl : SameStates m.sts l) (i : Nat) (hi : i < m.n)
    (M : Hmm K) (hM : M.sts = l) :
    ∃ p s1 s2, onState i (Gmm.likelihood D log x []) M = .ret p { M with sts := M.sts.set i s1 } ∧
      onState i (Gmm.regression x) { M with sts := M.sts.set i s1 } = .ret () { M with sts := l.set i s2 } ∧
      SameStates m.sts (l.set i s2) ∧ (l.set i s2)[i]? = some s2 ∧ s2.outVals = v i ∧ s2.outCov = c i := by
  obtain ⟨s, s', h1, h2, h3, h4, w, hist, h5⟩ := hl.get (i := i) (by rw [hw.sts]; exact hi)
  obtain ⟨f1, f2, f3, f4, f5, f6, f7⟩ := Gmm.SameModel.fields h3
  obtain ⟨g1, g2, g3, g4, g5⟩ := hw.state s (List.mem_of_getElem? h1)
  obtain ⟨d, y, hd, hy, hv, hc⟩ := hp i s h1
  obtain ⟨s1, s2, e1, e2, e3, e4, e5, e6, e7⟩ := stateOutput D log s' h4 (by rw [f2, g3, hb]) x (by rw [f3, g5]; exact hx) d
    (by intro j g hg; rw [f6] at hg; rw [f2]; exact hd j g hg) y (by intro j g hg; rw [f6] at hg; exact hy j g hg) h5
  have hil : i < l.length := (List.getElem?_eq_some_iff.1 h2).1
  refine ⟨_, s1, s2, onState_ret (by rw [hM]; exact h2) e1, ?_, hl.set h1 (h3.trans e3) e4 e5, List.getElem?_set_self hil, ?_, ?_⟩
  · rw [onState_ret (s := s1) (by rw [hM]; exact List.getElem?_set_self hil) e2]
    simp [hM, List.set_set]
  · rw [e6, hv, f1, f3, f4, f7, g4, g5]
  · rw [e7, hc, f1, f3, f4, f5, f6, f7, g2, g4, g5]

/-- one state of the output -/
theorem addState_ret (D : Dens K) (log : K → K) (m : Hmm K) (hw : m.WF) (hb : m.bimodal = true) (hsz : m.Sized) (x : List K)
    (hx : m.di ≤ x.length) (v c : Nat → List K) (hp : Predicts D m x v c) (hvl : ∀ i < m.n, (v i).length = m.dim - m.di)
    (hcl : ∀ i < m.n, (c i).length = outCells m.mode (m.dim - m.di)) (l : List (Gmm K)) (hl : SameStates m.sts l)
    (vals cov : List K) (hvals : vals.length = m.dim - m.di) (hcov : cov.length = outCells m.mode (m.dim - m.di)) (z : K) (i : Nat)
    (hi : i < m.n) :
    ∃ l' vals' cov', addState D log x z i { m with sts := l, outVals := vals, outCov := cov } =
        .ret () { m with sts := l', outVals := vals', outCov := cov' } ∧ SameStates m.sts l' ∧ vals'.length = m.dim - m.di ∧
      cov'.length = outCells m.mode (m.dim - m.di) ∧
      (∀ k < m.dim - m.di, vals'.getD k 0 = vals.getD k 0 + occ m i / z * (v i).getD k 0) ∧
      ∀ k < outCells m.mode (m.dim - m.di), cov'.getD k 0 = cov.getD k 0 + occ m i * occ m i / z * (c i).getD k 0 := by
  obtain ⟨p, s1, s2, h1, h2, h3, h4, h5, h6⟩ := predictState D log m hw hb x hx v c hp l hl i hi
    ({ m with sts := l, outVals := vals, outCov := cov } : Hmm K) rfl
  unfold addState
  rw [bind_of_ret h1, bind_of_ret h2, bind_of_ret (get_def _)]
  have hr : rd (l.set i s2) i ({ m with sts := l.set i s2, outVals := vals, outCov := cov } : Hmm K) = .ret s2
      { m with sts := l.set i s2, outVals := vals, outCov := cov } := by simp [rd, h4, pure_def]
  obtain ⟨r1, a1, a2, a3⟩ := addScaled_ret (m.dim - m.di) (occ m i / z) s2.outVals vals
    ({ m with sts := l.set i s2, outVals := vals, outCov := cov } : Hmm K) (by rw [h5, hvl i hi]) (by omega)
  obtain ⟨r2, b1, b2, b3⟩ := addScaled_ret (outCells m.mode (m.dim - m.di)) (occ m i * occ m i / z) s2.outCov cov
    ({ m with sts := l.set i s2, outVals := vals, outCov := cov } : Hmm K) (by rw [h6, hcl i hi]) (by omega)
  have ho := occupancy_ret ({ m with sts := l.set i s2, outVals := vals, outCov := cov } : Hmm K) hsz i hi
    ({ m with sts := l.set i s2, outVals := vals, outCov := cov } : Hmm K)
  rw [bind_of_ret hr, bind_of_ret ho]
  rw [show occ ({ m with sts := l.set i s2, outVals := vals, outCov := cov } : Hmm K) i = occ m i from rfl]
  rw [bind_of_ret a1, bind_of_ret b1, set_def]
  refine ⟨l.set i s2, r1, r2, rfl, h3, by omega, by omega, fun k hk => ?_, fun k hk => ?_⟩
  · rw [a3, if_pos hk, h5]
  · rw [b3, if_pos hk, h6]

theorem window_sum (n lo hi : Nat) (h : hi ≤ n) (f : Nat → K) :
    ∑ i ∈ Finset.range (hi - lo), f (lo + i) = ∑ i ∈ Finset.range n, if lo ≤ i ∧ i < hi then f i else 0 := by
  rw [← Finset.sum_Ico_eq_sum_range, ← Finset.sum_filter]
  refine Finset.sum_congr ?_ fun _ _ => rfl
  ext i
  simp only [Finset.mem_Ico, Finset.mem_filter, Finset.mem_range]
  omega

theorem est_cases (e : RegEst) : e = .full ∨ e = .windowed ∨ e = .likeliest := by cases e <;> simp

/-- `regression` -/
theorem regression_ret (D : Dens K) (log : K → K) (m : Hmm K) (hm : m.CanFilter) (hb : m.bimodal = true) (hsz : m.Sized)
    (hwin : m.winMax ≤ m.n) (hlk : m.likeliest < m.n) (x : List K)
    (hx : m.di ≤ x.length) (v c : Nat → List K) (hp : Predicts D m x v c) :
    ∃ l, Hmm.regression D log x m = .ret () { m with
        sts := l
        outVals := (List.range (m.dim - m.di)).map fun k => ∑ i ∈ Finset.range m.n, outWeight m i * (v i).getD k 0
        outCov := (List.range (outCells m.mode (m.dim - m.di))).map fun k =>
          ∑ i ∈ Finset.range m.n, covWeight m i * (c i).getD k 0 } ∧ SameStates m.sts l := by
  have hw := hm.wf
  have hvl : ∀ i < m.n, (v i).length = m.dim - m.di := fun i hi => by
    obtain ⟨d, y, _, _, h, _⟩ := hp i _ (List.getElem?_eq_getElem (by rw [hw.sts]; exact hi)); simp [h]
  have hcl : ∀ i < m.n, (c i).length = outCells m.mode (m.dim - m.di) := fun i hi => by
    obtain ⟨d, y, _, _, _, h⟩ := hp i _ (List.getElem?_eq_getElem (by rw [hw.sts]; exact hi)); simp [h]
  unfold Hmm.regression
  rw [bind_of_ret (checkTraining_idle hm.idle), bind_of_ret (modify_def _ _), bind_of_ret (get_def _)]
  simp only
  have key : ∀ (lo cnt : Nat) (z : K), (∀ i < cnt, lo + i < m.n) → ∃ l vals cov,
      loop cnt () (fun _ k => addState D log x z (lo + k)) { m with
        outVals := List.replicate (m.dim - m.di) 0
        outCov := List.replicate (outCells m.mode (m.dim - m.di)) 0 } =
      .ret () { m with sts := l, outVals := vals, outCov := cov } ∧ SameStates m.sts l ∧ vals.length = m.dim - m.di ∧
      cov.length = outCells m.mode (m.dim - m.di) ∧
      (∀ k < m.dim - m.di, vals.getD k 0 = ∑ i ∈ Finset.range cnt, occ m (lo + i) / z * (v (lo + i)).getD k 0) ∧
      ∀ k < outCells m.mode (m.dim - m.di), cov.getD k 0 =
        ∑ i ∈ Finset.range cnt, occ m (lo + i) * occ m (lo + i) / z * (c (lo + i)).getD k 0 := by
    intro lo cnt z hle
    obtain ⟨u, s, e1, l, vals, cov, e2, e3⟩ := loop_state cnt () (fun _ k => addState D log x z (lo + k)) ({ m with
        outVals := List.replicate (m.dim - m.di) 0
        outCov := List.replicate (outCells m.mode (m.dim - m.di)) 0 } : Hmm K)
      (fun t _ s => ∃ l vals cov, s = { m with sts := l, outVals := vals, outCov := cov } ∧ SameStates m.sts l ∧
        vals.length = m.dim - m.di ∧ cov.length = outCells m.mode (m.dim - m.di) ∧
        (∀ k < m.dim - m.di, vals.getD k 0 = ∑ i ∈ Finset.range t, occ m (lo + i) / z * (v (lo + i)).getD k 0) ∧
        ∀ k < outCells m.mode (m.dim - m.di), cov.getD k 0 =
          ∑ i ∈ Finset.range t, occ m (lo + i) * occ m (lo + i) / z * (c (lo + i)).getD k 0)
      ⟨m.sts, _, _, rfl, SameStates.refl _ hm.state, by simp, by simp,
        fun k hk => by rw [getD_replicate]; simp, fun k hk => by rw [getD_replicate]; simp⟩ (by
        rintro t ht _ s ⟨l, vals, cov, rfl, i1, i2, i3, i4, i5⟩
        obtain ⟨l', vals', cov', h1, h2, h3, h4, h5, h6⟩ := addState_ret D log m hw hb hsz x hx v c hp hvl hcl l i1 vals cov i2 i3 z
          (lo + t) (hle t ht)
        refine ⟨(), _, h1, l', vals', cov', rfl, h2, h3, h4, fun k hk => ?_, fun k hk => ?_⟩
        · rw [h5 k hk, i4 k hk, Finset.sum_range_succ]
        · rw [h6 k hk, i5 k hk, Finset.sum_range_succ])
    exact ⟨l, vals, cov, by rw [e1, e2], e3⟩
  rcases est_cases m.est with hE | hE | hE
  · rw [if_neg (by simp [hE])]
    obtain ⟨l, vals, cov, h1, h2, h3, h4, h5, h6⟩ := key 0 m.n 1 (by omega)
    refine ⟨l, ?_, h2⟩
    have hr : (regRange ({ m with
        outVals := List.replicate (m.dim - m.di) 0
        outCov := List.replicate (outCells m.mode (m.dim - m.di)) 0 } : Hmm K)) = (0, m.n) := by simp [regRange, hE]
    have hz : (regNorm ({ m with
        outVals := List.replicate (m.dim - m.di) 0
        outCov := List.replicate (outCells m.mode (m.dim - m.di)) 0 } : Hmm K)) = 1 := by simp [regNorm, hE]
    rw [hr, hz]
    simp only
    rw [h1]
    congr 2
    · refine eq_map_range_of_getD _ _ _ h3 fun k hk => ?_
      rw [h5 k hk]
      refine Finset.sum_congr rfl fun i _ => ?_
      simp [outWeight, hE]
    · refine eq_map_range_of_getD _ _ _ h4 fun k hk => ?_
      rw [h6 k hk]
      refine Finset.sum_congr rfl fun i _ => ?_
      simp [covWeight, hE]
  · rw [if_neg (by simp [hE])]
    obtain ⟨l, vals, cov, h1, h2, h3, h4, h5, h6⟩ := key m.winMin (m.winMax - m.winMin) (if m.winNorm ≤ 0 then 1 else m.winNorm)
      (by omega)
    refine ⟨l, ?_, h2⟩
    have hr : (regRange ({ m with
        outVals := List.replicate (m.dim - m.di) 0
        outCov := List.replicate (outCells m.mode (m.dim - m.di)) 0 } : Hmm K)) = (m.winMin, m.winMax - m.winMin) := by
      simp [regRange, hE]
    have hz : (regNorm ({ m with
        outVals := List.replicate (m.dim - m.di) 0
        outCov := List.replicate (outCells m.mode (m.dim - m.di)) 0 } : Hmm K)) = (if m.winNorm ≤ 0 then 1 else m.winNorm) := by
      simp [regNorm, hE]
    rw [hr, hz]
    simp only
    rw [h1]
    congr 2
    · refine eq_map_range_of_getD _ _ _ h3 fun k hk => ?_
      rw [h5 k hk, window_sum m.n m.winMin m.winMax hwin fun i => occ m i / (if m.winNorm ≤ 0 then 1 else m.winNorm) * (v i).getD k 0]
      refine Finset.sum_congr rfl fun i _ => ?_
      simp only [outWeight, hE]
      rw [ite_mul, zero_mul]
    · refine eq_map_range_of_getD _ _ _ h4 fun k hk => ?_
      rw [h6 k hk, window_sum m.n m.winMin m.winMax hwin fun i =>
        occ m i * occ m i / (if m.winNorm ≤ 0 then 1 else m.winNorm) * (c i).getD k 0]
      refine Finset.sum_congr rfl fun i _ => ?_
      simp only [covWeight, hE]
      rw [ite_mul, zero_mul]
  · rw [if_pos hE]
    unfold likeliestState
    rw [bind_of_ret (get_def _)]
    obtain ⟨p, s1, s2, h1, h2, h3, h4, h5, h6⟩ := predictState D log m hw hb x hx v c hp m.sts (SameStates.refl _ hm.state) m.likeliest hlk
      ({ m with
        outVals := List.replicate (m.dim - m.di) 0
        outCov := List.replicate (outCells m.mode (m.dim - m.di)) 0 } : Hmm K) rfl
    refine ⟨m.sts.set m.likeliest s2, ?_, h3⟩
    rw [bind_of_ret h1, bind_of_ret h2, bind_of_ret (get_def _)]
    have hr : rd (m.sts.set m.likeliest s2) m.likeliest ({ m with
        sts := m.sts.set m.likeliest s2
        outVals := List.replicate (m.dim - m.di) 0
        outCov := List.replicate (outCells m.mode (m.dim - m.di)) 0 } : Hmm K) = .ret s2 ({ m with
        sts := m.sts.set m.likeliest s2
        outVals := List.replicate (m.dim - m.di) 0
        outCov := List.replicate (outCells m.mode (m.dim - m.di)) 0 } : Hmm K) := by simp only [rd, h4, pure_def]
    rw [bind_of_ret hr, set_def]
    congr 2
    · rw [h5]
      refine eq_map_range_of_getD _ _ _ (hvl _ hlk) fun k hk => ?_
      rw [Finset.sum_eq_single_of_mem m.likeliest (Finset.mem_range.2 hlk)]
      · simp [outWeight, hE]
      · intro i _ hi; simp [outWeight, hE, hi]
    · refine eq_map_range_of_getD _ _ _ (by simp) fun k hk => ?_
      rw [getD_replicate]
      simp [covWeight, hE]

end Hmm
end Xmm
