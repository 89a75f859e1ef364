import Verif.Props.ModelCopy
/- C56: recognition with copies of models, and parameters of copies. -/
namespace Xmm
open Copies Copies.World
open Prog (bind_def pure_def get_def set_def modify_def throw_def undef_def)
open RecSpec (avgLast mixture Predictions ObsDensities)
open GmmSpec (weights)
variable {K : Type} [Field K] [LinearOrder K] [IsStrictOrderedRing K]

/-! ### Mixtures -/

/-- the source and the copy, as their functions see them -/
theorem copy_views {M : Type} (F : Family M) (hF : ∀ v c m, F.attach v c (F.copy (F.attach v c m)) = F.copy (F.attach v c m)) {before : List (Op M)} {w w1 : World M}
    {i j : Nat} (hij : i ≠ j) {copy : Op M} (h0 : Copies.run F before World.empty = some w) (hcopy : copy.IsCopy i j) (h1 : Copies.step F copy w = .ret () w1) {m : M}
    (hm : w.view F i = some m) : w1.view F i = some m ∧ w1.view F j = some (F.copy m) := by
  refine ⟨(C56_source_unaffected F before [] w w1 w1 w1 i j hij copy (.params j id) h0 hcopy h1 (by simp) rfl rfl (by
      obtain ⟨o, ho, rfl⟩ := copy_effect _ hcopy hij h1
      have hj : (copied F w j o).obj j = some _ := if_pos rfl
      simp [Copies.step, params, bind_def, getObj_some hj, modify_def, Res.stateAfter])).1.trans hm, ?_⟩
  rw [copy_view F hF hij h0 hcopy h1, hm]; rfl


theorem gmmFamily_attach (z : K) (v : SharedView) (c : String → SharedView) (M : GmmModel K) :
    (gmmFamily z).attach v c ((gmmFamily z).copy ((gmmFamily z).attach v c M)) = (gmmFamily z).copy ((gmmFamily z).attach v c M) := by
  simp only [gmmFamily, List.map_map, GmmModel.mk.injEq, true_and, and_true]
  rfl

theorem Gmm.copy_same (z : K) {m : Gmm K} (hm : m.CanFilter) : Gmm.SameModel m (m.copy z) := by
  have hi := hm.idle
  cases m
  simp only at hi
  subst hi
  rfl

theorem Gmm.copy_can (z : K) {m : Gmm K} (hm : m.CanFilter) : (m.copy z).CanFilter :=
  (Gmm.copy_same z hm).canFilter hm (by simp [Gmm.copy, Gauss.resize])

/-- C56 for `GMM`, equality: a copy of a trained model (not null, each class ready) made by the copy constructor or by `operator=`: after `reset()`, on every stream, the results of the copy are those of
    the source after `reset()` (the output values and covariances are compared for bimodal models only, others do not write them).
    What is missing: the equality without `reset()`, see `C56_without_reset_violated`. -/
theorem C56_gmm_filters_partial (z : K) (D : Dens K) (hD : D.Sound) (log exp : K → K) (hexp : ∀ x, 0 < exp x)
    (before : List (Op (GmmModel K))) (w w1 : World (GmmModel K)) (i j : Nat) (hij : i ≠ j) (copy : Op (GmmModel K))
    (h0 : Copies.run (gmmFamily z) before World.empty = some w) (hcopy : copy.IsCopy i j) (h1 : Copies.step (gmmFamily z) copy w = .ret () w1)
    (M : GmmModel K) (hM : w.view (gmmFamily z) i = some M)
    (hnulls : M.nulls = []) (hidle : M.training = false) (hsort : SMap.Sorted M.models) (hne : M.models ≠ [])
    (hcls : ∀ lc ∈ M.models, lc.2.CanFilter ∧ lc.2.bimodal = M.bimodal ∧ lc.2.dim - lc.2.di = M.dout ∧ BufOk lc.2.buf)
    (hmode : M.bimodal = true → ∀ lc ∈ M.models, lc.2.mode = M.mode)
    (xs : List (List K)) (hxs : xs ≠ []) (hx : ∀ x ∈ xs, ∀ lc ∈ M.models, lc.2.Fits x) :
    ∃ wi wj Mi Mj, call (gmmFamily z) i (do GmmModel.reset; GmmModel.filterAll D log exp xs) w1 = .ret () wi ∧
      call (gmmFamily z) j (do GmmModel.reset; GmmModel.filterAll D log exp xs) w1 = .ret () wj ∧
      wi.view (gmmFamily z) i = some Mi ∧ wj.view (gmmFamily z) j = some Mj ∧
      Mj.results = { Mi.results with outVals := Mj.results.outVals, outCov := Mj.results.outCov } ∧
      (M.bimodal = true → Mj.results = Mi.results) := by
  obtain ⟨hi, hj⟩ := copy_views (gmmFamily z) (gmmFamily_attach z) hij h0 hcopy h1 hM
  obtain ⟨M', N', e1, e2, e3, e4⟩ := GmmModel.C51_model_forgets D hD log exp hexp M ((gmmFamily z).copy M) (by
      show ({ M with models := _, training := false } : GmmModel K) = _
      rw [← hidle]; rfl)
    (by
      show List.Forall₂ _ M.models (M.models.map fun lc => (lc.1, lc.2.copy z))
      rw [List.forall₂_map_right_iff, List.forall₂_same]
      intro lc hlc
      exact ⟨rfl, Gmm.copy_same z (hcls lc hlc).1, Gmm.copy_can z (hcls lc hlc).1, rfl⟩)
    hnulls hidle hsort hne hcls hmode xs hxs hx
  obtain ⟨oi, _, c1⟩ := call_ret (gmmFamily z) hi e1
  obtain ⟨oj, _, c2⟩ := call_ret (gmmFamily z) hj e2
  exact ⟨_, _, _, _, c1, c2, view_put _, view_put _, e3, e4⟩

/-- `filter` with a buffer of any length -/
theorem Gmm.filter_any (D : Dens K) (hD : D.Sound) (log : K → K) (m : Gmm K) (hm : m.CanFilter) (x : List K) (hx : m.Fits x) (d : Nat → K)
    (hd : ObsDensities D m x d) {w : Nat} (hist : List K) (hl : Logs m.buf w hist) :
    ∃ m', filter D log x m = .ret (mixture m.gaussians (weights m) d) m' ∧ SameModel m m' ∧ m'.CanFilter ∧
      Logs m'.buf w (hist ++ [log (mixture m.gaussians (weights m) d)]) ∧ m'.logLik = avgLast w (hist ++ [log (mixture m.gaussians (weights m) d)]) := by
  obtain ⟨b, h1, h2⟩ := likelihood_ret D log m hm.ready.wf hm.idle x d hd hist hl
  have hs : ∀ (v : List K) (c : List K), SameModel m { m with
      beta := (List.range m.gaussians).map (RecSpec.share m.gaussians (weights m) d)
      buf := b
      instant := mixture m.gaussians (weights m) d
      logLik := avgLast w (hist ++ [log (mixture m.gaussians (weights m) d)]), outVals := v, outCov := c } := fun _ _ => rfl
  unfold filter
  rw [bind_of_ret (checkTraining_idle hm.idle), bind_of_ret h1, bind_of_ret (get_def _)]
  rcases bool_cases m.bimodal with hb | hb
  · rw [if_neg (by simp [hb]), pure_def]
    exact ⟨_, rfl, hs _ _, (hs _ _).canFilter hm (by simp), h2, rfl⟩
  · rw [if_pos (show _ = true from hb)]
    obtain ⟨y, hy⟩ := predictions_exist m hm.ready.wf hb
    have hx' : m.di ≤ x.length := by unfold Fits at hx; rw [if_pos hb] at hx; exact hx
    have hr := regression_ret ({ m with
        beta := (List.range m.gaussians).map (RecSpec.share m.gaussians (weights m) d)
        buf := b
        instant := mixture m.gaussians (weights m) d
        logLik := avgLast w (hist ++ [log (mixture m.gaussians (weights m) d)]) } : Gmm K)
      ⟨hm.ready.wf.pos, hm.ready.wf.comps, hm.ready.wf.coeffs, by simp, hm.ready.wf.comp⟩ hm.idle hb (hm.out hb) x hx' (y x) (hy x hx).1
    refine ⟨_, (bind_of_ret hr).trans rfl, hs _ _, (hs _ _).canFilter hm (by simp), h2, rfl⟩

/-- C56 is violated without `reset()`: a class whose window holds at least two likelihoods, that has been reset, and its copy, as it is in a copy of the model.  They return the same likelihoods for two
    observations, but the smoothed log-likelihood of the original is the average of the two logarithms, and that of the copy is the last one: the buffer of a copy has
    length 1. -/
theorem C56_without_reset_violated (z : K) (D : Dens K) (hD : D.Sound) (log : K → K) (m : Gmm K) (hm : m.CanFilter) (hw : 2 ≤ m.window)
    (hl : Logs m.buf m.window []) (x y : List K) (hx : m.Fits x) (hy : m.Fits y) :
    ∃ p q a b, Gmm.filterAll D log [x, y] m = .ret [p, q] a ∧ Gmm.filterAll D log [x, y] (m.copy z) = .ret [p, q] b ∧
      a.logLik = (log p + log q) / 2 ∧ b.logLik = log q ∧ (log p ≠ log q → a.logLik ≠ b.logLik) := by
  obtain ⟨d, hd⟩ := Gmm.obsDensities_exist D hD m hm.ready
  have main : ∀ (c : Gmm K) (w : Nat), Gmm.SameModel m c → c.CanFilter → Logs c.buf w [] → ∃ b,
      Gmm.filterAll D log [x, y] c = .ret [mixture m.gaussians (weights m) (d x), mixture m.gaussians (weights m) (d y)] b ∧
      b.logLik = avgLast w [log (mixture m.gaussians (weights m) (d x)), log (mixture m.gaussians (weights m) (d y))] := by
    intro c w hs hc hlc
    have facts : ∀ c, Gmm.SameModel m c → c.gaussians = m.gaussians ∧ weights c = weights m ∧ (∀ x, m.Fits x → c.Fits x ∧ ObsDensities D c x (d x)) := by
      intro c hs
      have hf : ∀ x, m.Fits x → ObsDensities D m x (d x) := fun x hx => (hd x hx).1
      unfold Gmm.SameModel at hs
      rw [hs]
      exact ⟨rfl, rfl, fun x hx => ⟨hx, hf x hx⟩⟩
    obtain ⟨f1, f2, f3⟩ := facts c hs
    obtain ⟨c1, e1, e2, e3, e4, _⟩ := Gmm.filter_any D hD log c hc x (f3 x hx).1 (d x) (f3 x hx).2 [] hlc
    have hs1 := hs.trans e2
    obtain ⟨g1, g2, g3⟩ := facts c1 hs1
    obtain ⟨c2, k1, k2, k3, k4, k5⟩ := Gmm.filter_any D hD log c1 e3 y (g3 y hy).1 (d y) (g3 y hy).2 _ e4
    rw [f1, f2] at e1 k5
    rw [g1, g2] at k1 k5
    refine ⟨c2, ?_, k5⟩
    unfold Gmm.filterAll Gmm.filterAll Gmm.filterAll
    rw [bind_of_ret e1]
    simp only [bind_def, k1, pure_def]
  obtain ⟨a, a1, a2⟩ := main m m.window rfl hm hl
  obtain ⟨b, b1, b2⟩ := main (m.copy z) 1 (Gmm.copy_same z hm) (Gmm.copy_can z hm) (CBuf.Holds.init 0 1 (by omega))
  have t1 : ∀ s t : K, avgLast m.window [s, t] = (s + t) / 2 := fun s t => by
    simp [avgLast, CBufSpec.lastN, show 2 - m.window = 0 by omega]
  have t2 : ∀ s t : K, avgLast 1 [s, t] = t := fun s t => by simp [avgLast, CBufSpec.lastN]
  rw [t1] at a2
  rw [t2] at b2
  refine ⟨_, _, a, b, a1, b1, a2, b2, fun hne he => hne ?_⟩
  rw [a2, b2] at he
  linarith

/-! ### Hierarchical hidden Markov models -/

theorem hmmFamily_attach (z : K) (v : SharedView) (c : String → SharedView) (M : HierHmm K) :
    (hmmFamily z).attach v c ((hmmFamily z).copy ((hmmFamily z).attach v c M)) = (hmmFamily z).copy ((hmmFamily z).attach v c M) := by
  simp only [hmmFamily, List.map_map, HierHmm.mk.injEq, true_and, and_true]
  refine List.map_congr_left fun lc _ => ?_
  simp only [Function.comp_def, Hmm.attach, Hmm.copy, List.map_map, Prod.mk.injEq, Hmm.mk.injEq, true_and, and_true]
  rfl

theorem Hmm.copy_states (z : K) {m : Hmm K} (hm : m.CanFilter) : SameStates m.sts (m.copy z).sts := by
  refine ⟨by simp [Hmm.copy], fun i s s' h1 h2 => ?_⟩
  have e : (m.copy z).sts[i]? = some (s.copy z) := by simp [Hmm.copy, h1]
  rw [e] at h2
  cases h2
  have hs := (hm.state s (List.mem_of_getElem? h1)).1
  exact ⟨Gmm.copy_same z hs, Gmm.copy_can z hs, 1, [], CBuf.Holds.init 0 1 (by omega)⟩

theorem Hmm.copy_same (z : K) {m : Hmm K} (hm : m.CanFilter) : m.SameClass (m.copy z) := by
  refine ⟨?_, Hmm.copy_states z hm⟩
  have hi := hm.idle
  cases m
  simp only at hi
  subst hi
  rfl

theorem Hmm.copy_in (z : K) {m : Hmm K} (hm : m.InHierarchy) : (m.copy z).InHierarchy := by
  have hc := hm.can
  have hmem : ∀ s ∈ (m.copy z).sts, ∃ t ∈ m.sts, s = t.copy z := fun s hs => by
    obtain ⟨t, ht, rfl⟩ := List.mem_map.1 hs
    exact ⟨t, ht, rfl⟩
  refine ⟨⟨⟨hc.wf.pos, ?_, hc.wf.prior, hc.wf.trans, ?_⟩, ⟨hc.chain.start_nonneg, hc.chain.start_sum, hc.chain.step_nonneg, hc.chain.step_sum⟩, rfl, hc.window, ?_⟩,
    hm.hier, hm.exit, hm.exit_nonneg, hm.exit_lt, hm.trans, hm.last⟩
  · simp [Hmm.copy, hc.wf.sts]
  · intro s hs
    obtain ⟨t, ht, rfl⟩ := hmem s hs
    exact hc.wf.state t ht
  · intro s hs
    obtain ⟨t, ht, rfl⟩ := hmem s hs
    exact ⟨Gmm.copy_can z (hc.state t ht).1, 1, [], CBuf.Holds.init 0 1 (by omega)⟩

theorem HierHmm.copy_same (z : K) {M : HierHmm K} (hM : M.Trained) : HierHmm.SameClasses M ((hmmFamily z).copy M) := by
  refine ⟨by simp [hmmFamily], fun c lc hlc => ⟨lc.2.copy z, by simp [hmmFamily, hlc], ?_⟩⟩
  exact Hmm.copy_same z (hM.cls lc (List.mem_of_getElem? hlc)).1.can

theorem HierHmm.copy_trained (z : K) {M : HierHmm K} (hM : M.Trained) (herg : ∀ lc ∈ M.models, lc.2.ergodic = false) : ((hmmFamily z).copy M).Trained := by
  have hmem : ∀ lc ∈ ((hmmFamily z).copy M).models, ∃ a ∈ M.models, lc = (a.1, a.2.copy z) := fun lc hlc => by
    obtain ⟨a, ha, rfl⟩ := List.mem_map.1 hlc
    exact ⟨a, ha, rfl⟩
  have hlen : ((hmmFamily z).copy M).models.length = M.models.length := (HierHmm.copy_same z hM).1
  obtain ⟨t1, t2, t3, t4, t5, t6, t7, t8, t9, t10⟩ := hM.top
  refine ⟨rfl, ⟨t1.trans hlen.symm, t2.trans hlen.symm, t3.trans hlen.symm, fun r hr => (t4 r hr).trans hlen.symm, t5, fun h => t6 fun h' => h ?_, t7, t8, t9, t10⟩,
    hM.hier, hM.nulls, ?_, ?_, ?_, ?_⟩
  · exact List.eq_nil_of_length_eq_zero (by rw [hlen, h']; rfl)
  · have := hM.sorted
    unfold SMap.Sorted at this ⊢
    show (M.models.map fun lc => (lc.1, lc.2.copy z)).Pairwise _
    rw [List.pairwise_map]
    exact this
  · intro lc hlc
    obtain ⟨a, ha, rfl⟩ := hmem lc hlc
    obtain ⟨c1, c2, c3, c4⟩ := hM.cls a ha
    exact ⟨Hmm.copy_in z c1, c2, c3, rfl⟩
  · intro hb lc hlc
    obtain ⟨a, ha, rfl⟩ := hmem lc hlc
    exact hM.mode hb a ha
  · intro lc hlc he
    obtain ⟨a, ha, rfl⟩ := hmem lc hlc
    exact absurd ((herg a ha).symm.trans he) (by simp)

/-- a model and its copy after `reset()`, whatever the results and the frontier of the copy are before -/
theorem HierHmm.copy_filters_any (z : K) (D : Dens K) (hD : D.Sound) (log exp : K → K) (M : HierHmm K) (hM : M.Trained) (hne : M.models ≠ [])
    (herg : ∀ lc ∈ M.models, lc.2.ergodic = false) (r : MultiRes K) (f1 f2 : List K) (xs : List (List K)) (hxs : xs ≠ []) (hx : ∀ x ∈ xs, ∀ lc ∈ M.models, lc.2.Fits x) :
    ∃ rs A' B', (do HierHmm.reset; HierHmm.filterAll D log exp xs) M = .ret rs A' ∧
      (do HierHmm.reset; HierHmm.filterAll D log exp xs) ({ (hmmFamily z).copy M with results := r, front1 := f1, front2 := f2 } : HierHmm K) = .ret rs B' ∧ HierHmm.SameResults A' B' := by
  have hN : HierHmm.Trained ({ (hmmFamily z).copy M with results := r, front1 := f1, front2 := f2 } : HierHmm K) := by
    obtain ⟨t1, t2, t3, t4, t5, t6, t7, t8⟩ := HierHmm.copy_trained z hM herg
    exact ⟨t1, ⟨t2.prior, t2.exitTrans, t2.trans, t2.row, t2.prior_pos, t2.prior_sum, t2.row_nonneg, t2.row_sum, t2.exit_nonneg, t2.exit_le⟩, t3, t4, t5, t6, t7, t8⟩
  have hs : HierHmm.SameClasses M ({ (hmmFamily z).copy M with results := r, front1 := f1, front2 := f2 } : HierHmm K) := HierHmm.copy_same z hM
  have hneN := hs.ne hne
  obtain ⟨A0, _, _, a1, a2, a3, a4, a5, a6, _⟩ := HierHmm.run_ret D hD log exp M hM hne [] (by simp)
  obtain ⟨B0, _, _, b1, b2, b3, b4, b5, b6, _⟩ := HierHmm.run_ret D hD log exp ({ (hmmFamily z).copy M with results := r, front1 := f1, front2 := f2 } : HierHmm K) hN hneN [] (by simp)
  have hsame : HierHmm.SameClasses A0 B0 := by
    refine ⟨by rw [a4.1, b4.1, hs.1], fun c p hp => ?_⟩
    obtain ⟨a, ha⟩ := HierHmm.get_class (M := M) (c := c) (by rw [← a4.1]; exact HierHmm.lt_of_get hp)
    obtain ⟨m1, e1, e2⟩ := a4.2 c a ha
    obtain ⟨n1, f1, f2⟩ := hs.2 c a ha
    obtain ⟨n2, f3, f4⟩ := b4.2 c _ f1
    rw [hp] at e1
    cases e1
    have hc := (hM.cls a (List.mem_of_getElem? ha)).1.can
    exact ⟨n2, f3, (HierHmm.SameClass.symm e2 hc).trans (f2.trans f4)⟩
  have hkeep : B0 = { A0 with models := B0.models, results := B0.results, front1 := B0.front1, front2 := B0.front2 } := by
    have t1 := b6
    have t2 := a6
    have hi := hM.idle
    rw [t1, t2]
    simp only [hmmFamily]
    cases M
    simp only at hi
    subst hi
    rfl
  have halike : HierHmm.Alike A0 B0 := by
    refine ⟨hkeep, hsame, fun c p q hp hq => ?_, fun h => absurd (a3.symm.trans h) (by simp), fun _ c p q hp hq he => ?_⟩
    · obtain ⟨a, ha⟩ := HierHmm.get_class (M := M) (c := c) (by rw [← a4.1]; exact HierHmm.lt_of_get hp)
      obtain ⟨a', ha'⟩ := HierHmm.get_class (M := (hmmFamily z).copy M) (c := c) (by rw [← b4.1]; exact HierHmm.lt_of_get hq)
      exact ⟨[], (a5 c a p ha hp).1, (b5 c a' q ha' hq).1⟩
    · obtain ⟨a, ha⟩ := HierHmm.get_class (M := M) (c := c) (by rw [← a4.1]; exact HierHmm.lt_of_get hp)
      obtain ⟨m0, e1, e2⟩ := a4.2 c a ha
      rw [hp] at e1
      cases e1
      have := herg a (List.mem_of_getElem? ha)
      rw [← e2.facts.2.1, he] at this
      cases this
  obtain ⟨rs, A', B', r1, r2, r3⟩ := HierHmm.run_alike D hD log exp xs hxs A0 B0 a2 b2 halike (a4.ne hne) (fun x hx' => a4.fits (hx x hx'))
  exact ⟨rs, A', B', by rw [bind_of_ret a1]; exact r1, by rw [bind_of_ret b1]; exact r2, r3⟩

/-- a model and its copy after `reset()` -/
theorem HierHmm.copy_filters (z : K) (D : Dens K) (hD : D.Sound) (log exp : K → K) (M : HierHmm K) (hM : M.Trained) (hne : M.models ≠ [])
    (herg : ∀ lc ∈ M.models, lc.2.ergodic = false) (xs : List (List K)) (hxs : xs ≠ []) (hx : ∀ x ∈ xs, ∀ lc ∈ M.models, lc.2.Fits x) :
    ∃ rs A' B', (do HierHmm.reset; HierHmm.filterAll D log exp xs) M = .ret rs A' ∧
      (do HierHmm.reset; HierHmm.filterAll D log exp xs) ((hmmFamily z).copy M) = .ret rs B' ∧ HierHmm.SameResults A' B' :=
  HierHmm.copy_filters_any z D hD log exp M hM hne herg M.results M.front1 M.front2 xs hxs hx

/-- C56 for `HierarchicalHMM`, equality: a copy of a trained hierarchical model whose classes are left-right, made by the copy constructor or by `operator=`: after `reset()`, on every stream, the copy reports the likelihoods
    and results of the source after `reset()`.
    What is missing: ergodic classes, whose first likelihood depends on what the class has heard before (see `C71_ergodic_violated`) and is uninitialised in a copy. -/
theorem C56_hierarchical_filters_partial (z : K) (D : Dens K) (hD : D.Sound) (log exp : K → K)
    (before : List (Op (HierHmm K))) (w w1 : World (HierHmm K)) (i j : Nat) (hij : i ≠ j) (copy : Op (HierHmm K))
    (h0 : Copies.run (hmmFamily z) before World.empty = some w) (hcopy : copy.IsCopy i j) (h1 : Copies.step (hmmFamily z) copy w = .ret () w1)
    (M : HierHmm K) (hv : w.view (hmmFamily z) i = some M) (hM : M.Trained) (hne : M.models ≠ []) (herg : ∀ lc ∈ M.models, lc.2.ergodic = false)
    (xs : List (List K)) (hxs : xs ≠ []) (hx : ∀ x ∈ xs, ∀ lc ∈ M.models, lc.2.Fits x) :
    ∃ rs wi wj Mi Mj, call (hmmFamily z) i (do HierHmm.reset; HierHmm.filterAll D log exp xs) w1 = .ret rs wi ∧
      call (hmmFamily z) j (do HierHmm.reset; HierHmm.filterAll D log exp xs) w1 = .ret rs wj ∧
      (wi.obj i).map Obj.state = some Mi ∧ (wj.obj j).map Obj.state = some Mj ∧ HierHmm.SameResults Mi Mj := by
  obtain ⟨hi, hj⟩ := copy_views (hmmFamily z) (hmmFamily_attach z) hij h0 hcopy h1 hv
  obtain ⟨rs, A', B', e1, e2, e3⟩ := HierHmm.copy_filters z D hD log exp M hM hne herg xs hxs hx
  obtain ⟨oi, _, c1⟩ := call_ret (hmmFamily z) hi e1
  obtain ⟨oj, _, c2⟩ := call_ret (hmmFamily z) hj e2
  exact ⟨rs, _, _, A', B', c1, c2, by simp [obj_put], by simp [obj_put], e3⟩

/-! ### Parameters of copies -/

/-- the windows of the classes, as the functions of the model see them -/
def gmmWindows (z : K) (w : World (GmmModel K)) (i : Nat) : Option (List (String × Nat)) := (w.view (gmmFamily z) i).map fun M => M.models.map fun lc => (lc.1, lc.2.window)
@[inherit_doc gmmWindows]
def hmmWindows (z : K) (w : World (HierHmm K)) (i : Nat) : Option (List (String × Nat)) := (w.view (hmmFamily z) i).map fun M => M.models.map fun lc => (lc.1, lc.2.window)

theorem params_ret {M : Type} {w : World M} {i : Nat} {o : Obj M} (ho : w.obj i = some o) (g : SharedView → SharedView) :
    params i g w = .ret () { w with shared := fun a => if a = o.ptr then g (w.shared a) else w.shared a } := by
  simp [params, bind_def, getObj_some ho, modify_def]

/-- the classes of the copy do not read the shared parameters of the copy -/
theorem copy_params {M : Type} (F : Family M) {before : List (Op M)} {w w1 : World M} {i j : Nat} (hij : i ≠ j) {copy : Op M}
    (h0 : Copies.run F before World.empty = some w) (hcopy : copy.IsCopy i j) (h1 : Copies.step F copy w = .ret () w1) (g : SharedView → SharedView) :
    ∃ w2 v c m, Copies.step F (.params j g) w1 = .ret () w2 ∧ w1.view F j = some (F.attach v c m) ∧ w2.view F j = some (F.attach (g v) c m) := by
  obtain ⟨o, ho, rfl⟩ := copy_effect _ hcopy hij h1
  have hb := run_bounded F bounded_empty h0
  have hj : (copied F w j o).obj j = some ⟨w.next, o.classPtr, F.copy (w.attached F o)⟩ := if_pos rfl
  refine ⟨_, (copied F w j o).shared w.next, fun l => (copied F w j o).shared (o.classPtr l), F.copy (w.attached F o), params_ret hj g, ?_, ?_⟩
  · simp only [view, hj, Option.map_some, attached]
  · simp only [view, hj, Option.map_some, attached, if_pos]
    congr 2
    funext l
    rw [if_neg ((hb i o ho).2 l).ne]

/-- C56 is violated, for `GMM`: a change of the likelihood window of the copy does not take effect: whatever the value, what the functions of the copy see is unchanged. -/
theorem C56_gmm_params_ineffective_violated (z : K) (before : List (Op (GmmModel K))) (w w1 : World (GmmModel K)) (i j : Nat) (hij : i ≠ j) (copy : Op (GmmModel K))
    (h0 : Copies.run (gmmFamily z) before World.empty = some w) (hcopy : copy.IsCopy i j) (h1 : Copies.step (gmmFamily z) copy w = .ret () w1) (n : Nat) :
    ∃ w2, Copies.step (gmmFamily z) (.params j (setWindow n)) w1 = .ret () w2 ∧ w2.view (gmmFamily z) j = w1.view (gmmFamily z) j ∧
      gmmWindows z w2 j = gmmWindows z w1 j := by
  obtain ⟨w2, v, c, m, e1, e2, e3⟩ := copy_params (gmmFamily z) hij h0 hcopy h1 (setWindow n)
  have : w2.view (gmmFamily z) j = w1.view (gmmFamily z) j := by rw [e2, e3]; rfl
  exact ⟨w2, e1, this, by unfold gmmWindows; rw [this]⟩

/-- C56 is violated, for hidden Markov models: a change of the likelihood window of the copy does not take effect on its classes. -/
theorem C56_hierarchical_params_ineffective_violated (z : K) (before : List (Op (HierHmm K))) (w w1 : World (HierHmm K)) (i j : Nat) (hij : i ≠ j) (copy : Op (HierHmm K))
    (h0 : Copies.run (hmmFamily z) before World.empty = some w) (hcopy : copy.IsCopy i j) (h1 : Copies.step (hmmFamily z) copy w = .ret () w1) (n : Nat) :
    ∃ w2, Copies.step (hmmFamily z) (.params j (setWindow n)) w1 = .ret () w2 ∧ hmmWindows z w2 j = hmmWindows z w1 j := by
  obtain ⟨w2, v, c, m, e1, e2, e3⟩ := copy_params (hmmFamily z) hij h0 hcopy h1 (setWindow n)
  exact ⟨w2, e1, by unfold hmmWindows; rw [e2, e3]; rfl⟩

/-- the pointers after `train` -/
theorem train_ret {M : Type} {F : Family M} {w w1 : World M} {i : Nat} {s : M} (h : Copies.step F (.train i s) w = .ret () w1) :
    ∃ p, w1.obj i = some ⟨p, fun _ => p, s⟩ := by
  simp only [Copies.step, train, bind_def] at h
  cases ho : w.obj i with
  | none => rw [getObj_none ho] at h; cases h
  | some o =>
    rw [getObj_some ho] at h
    simp only [modify_def, Res.ret.injEq, true_and] at h
    exact ⟨o.ptr, by rw [← h]; exact if_pos rfl⟩

/-- After `train`, a change of the parameters takes effect: what the model and all of its classes see is the new value.  This holds of a copy as well, once it has been trained. -/
theorem params_after_train {M : Type} (F : Family M) {w w1 : World M} {i : Nat} {s : M} (h : Copies.step F (.train i s) w = .ret () w1) (g : SharedView → SharedView) :
    ∃ w2 v, Copies.step F (.params i g) w1 = .ret () w2 ∧ w1.view F i = some (F.attach v (fun _ => v) s) ∧ w2.view F i = some (F.attach (g v) (fun _ => g v) s) := by
  obtain ⟨p, hp⟩ := train_ret h
  refine ⟨_, w1.shared p, params_ret hp g, ?_, ?_⟩
  · simp only [view, hp, Option.map_some, attached]
  · simp only [view, hp, Option.map_some, attached, if_pos]

/-- C56 is violated: a change of the likelihood window of the source changes the copy.  The model `i` is trained and copied to `j`; the window of `i` is set to `n`: then the windows of all classes of
    the copy are `n`. -/
theorem C56_gmm_source_changes_copy_violated (z : K) (before : List (Op (GmmModel K))) (w w0 w1 : World (GmmModel K)) (i j : Nat) (hij : i ≠ j) (copy : Op (GmmModel K)) (s : GmmModel K)
    (h0 : Copies.run (gmmFamily z) before World.empty = some w) (ht : Copies.step (gmmFamily z) (.train i s) w = .ret () w0) (hcopy : copy.IsCopy i j)
    (h1 : Copies.step (gmmFamily z) copy w0 = .ret () w1) (n : Nat) :
    ∃ w2, Copies.step (gmmFamily z) (.params i (setWindow n)) w1 = .ret () w2 ∧ gmmWindows z w2 j = some (s.models.map fun lc => (lc.1, n)) := by
  obtain ⟨p, hp⟩ := train_ret ht
  obtain ⟨o, ho, rfl⟩ := copy_effect _ hcopy hij h1
  rw [hp] at ho
  cases ho
  have hb0 : Bounded w0 := by
    rcases step_effect (gmmFamily z) (show (Copies.step (gmmFamily z) (.train i s) w).stateAfter = some w0 by rw [ht]; rfl) with rfl | he
    · exact run_bounded _ bounded_empty h0
    · exact effect_bounded _ (run_bounded _ bounded_empty h0) he
  have hi : (copied (gmmFamily z) w0 j ⟨p, fun _ => p, s⟩).obj i = some ⟨p, fun _ => p, s⟩ := (if_neg hij).trans hp
  have hj : (copied (gmmFamily z) w0 j ⟨p, fun _ => p, s⟩).obj j = some ⟨w0.next, fun _ => p, (gmmFamily z).copy (w0.attached (gmmFamily z) ⟨p, fun _ => p, s⟩)⟩ := if_pos rfl
  refine ⟨_, params_ret hi _, ?_⟩
  simp only [gmmWindows, view, hj, Option.map_some, attached, if_pos]
  simp only [gmmFamily, List.map_map]
  rfl

/-- C56 is violated, for hidden Markov models, in the same way. -/
theorem C56_hierarchical_source_changes_copy_violated (z : K) (before : List (Op (HierHmm K))) (w w0 w1 : World (HierHmm K)) (i j : Nat) (hij : i ≠ j) (copy : Op (HierHmm K)) (s : HierHmm K)
    (h0 : Copies.run (hmmFamily z) before World.empty = some w) (ht : Copies.step (hmmFamily z) (.train i s) w = .ret () w0) (hcopy : copy.IsCopy i j)
    (h1 : Copies.step (hmmFamily z) copy w0 = .ret () w1) (n : Nat) :
    ∃ w2, Copies.step (hmmFamily z) (.params i (setWindow n)) w1 = .ret () w2 ∧ hmmWindows z w2 j = some (s.models.map fun lc => (lc.1, n)) := by
  obtain ⟨p, hp⟩ := train_ret ht
  obtain ⟨o, ho, rfl⟩ := copy_effect _ hcopy hij h1
  rw [hp] at ho
  cases ho
  have hi : (copied (hmmFamily z) w0 j ⟨p, fun _ => p, s⟩).obj i = some ⟨p, fun _ => p, s⟩ := (if_neg hij).trans hp
  have hj : (copied (hmmFamily z) w0 j ⟨p, fun _ => p, s⟩).obj j = some ⟨w0.next, fun _ => p, (hmmFamily z).copy (w0.attached (hmmFamily z) ⟨p, fun _ => p, s⟩)⟩ := if_pos rfl
  refine ⟨_, params_ret hi _, ?_⟩
  simp only [hmmWindows, view, hj, Option.map_some, attached, if_pos]
  simp only [hmmFamily, List.map_map]
  rfl

/-- C56, the copy once trained: a change of its likelihood window takes effect on all of its classes. -/
theorem C56_trained_copy_params (z : K) (w w1 : World (GmmModel K)) (v v1 : World (HierHmm K)) (j n : Nat) (s : GmmModel K) (t : HierHmm K)
    (h : Copies.step (gmmFamily z) (.train j s) w = .ret () w1) (h' : Copies.step (hmmFamily z) (.train j t) v = .ret () v1) :
    (∃ w2, Copies.step (gmmFamily z) (.params j (setWindow n)) w1 = .ret () w2 ∧ gmmWindows z w2 j = some (s.models.map fun lc => (lc.1, n))) ∧
    ∃ v2, Copies.step (hmmFamily z) (.params j (setWindow n)) v1 = .ret () v2 ∧ hmmWindows z v2 j = some (t.models.map fun lc => (lc.1, n)) := by
  obtain ⟨w2, u, e1, _, e3⟩ := params_after_train (gmmFamily z) h (setWindow n)
  obtain ⟨v2, u', f1, _, f3⟩ := params_after_train (hmmFamily z) h' (setWindow n)
  refine ⟨⟨w2, e1, ?_⟩, v2, f1, ?_⟩
  · simp only [gmmWindows, e3, Option.map_some]; simp only [gmmFamily, List.map_map]; rfl
  · simp only [hmmWindows, f3, Option.map_some]; simp only [hmmFamily, List.map_map]; rfl

/-! ### The hypotheses are met -/

/-- A history that meets the hypotheses: a bimodal `GMM` of two classes is created, trained, and copied by the copy constructor; what `train` leaves is ready for recognition. -/
example : ∃ (w w1 : World (GmmModel ℝ)) (M : GmmModel ℝ) (v : SharedView),
    Copies.run (gmmFamily 0) [.create 0 v { M with models := [] }, .train 0 M] World.empty = some w ∧ Copies.step (gmmFamily 0) (.copyConstruct 0 1) w = .ret () w1 ∧
    w.view (gmmFamily 0) 0 = some M ∧ M.nulls = [] ∧ M.training = false ∧ SMap.Sorted M.models ∧ M.models.length = 2 ∧ M.bimodal = true ∧
    (∀ lc ∈ M.models, lc.2.CanFilter ∧ lc.2.bimodal = M.bimodal ∧ lc.2.dim - lc.2.di = M.dout ∧ BufOk lc.2.buf) ∧
    (M.bimodal = true → ∀ lc ∈ M.models, lc.2.mode = M.mode) ∧ (∀ x ∈ [[1]], ∀ lc ∈ M.models, lc.2.Fits x) ∧ Dens.real.Sound := by
  obtain ⟨m, g1, g2, g3, g4, g5, g6, g7, g8, g9, g10, _⟩ := Gmm.usable_exists
  let M : GmmModel ℝ := {
    models := [("a", m), ("b", m)], nulls := [], bimodal := m.bimodal, dout := m.dim - m.di, mode := .full, est := .likeliest, training := false,
    results := { inst := [], instNorm := [], smoothed := [], smoothedNorm := [], smoothedLog := [], likeliest := "", outVals := [], outCov := [] } }
  have hM : ∀ lc ∈ M.models, lc.2 = m := by
    intro lc hlc
    simp only [M, List.mem_cons, List.not_mem_nil, or_false] at hlc
    rcases hlc with rfl | rfl <;> rfl
  refine ⟨_, _, M,
    ⟨m.bimodal, m.dim, m.di, m.window⟩, rfl, rfl, rfl, rfl, rfl, ?_, rfl, g2, ?_, ?_, ?_, g7⟩
  · have : ("a" : String) < "b" := by decide +kernel
    simpa [SMap.Sorted, SMap.keys, M] using this
  · intro lc hlc
    rw [hM lc hlc]
    exact ⟨g1, rfl, rfl, g4⟩
  · intro _ lc hlc
    rw [hM lc hlc]
    exact g8
  · intro x hx lc hlc
    rw [hM lc hlc, List.mem_singleton.1 hx]
    exact g6

/-- A history that meets the hypotheses: a hierarchical model of two left-right classes. -/
example : ∃ (w w1 : World (HierHmm ℝ)) (M : HierHmm ℝ) (v : SharedView),
    Copies.run (hmmFamily 0) [.create 0 v { M with models := [] }, .train 0 M] World.empty = some w ∧ Copies.step (hmmFamily 0) (.copyConstruct 0 1) w = .ret () w1 ∧
    w.view (hmmFamily 0) 0 = some M ∧ M.Trained ∧ M.models.length = 2 ∧ (∀ lc ∈ M.models, lc.2.ergodic = false) ∧ (∀ x ∈ [[1], [4]], ∀ lc ∈ M.models, lc.2.Fits x) := by
  obtain ⟨M, h1, h2, h3, h4, _, _, h7⟩ := HierHmm.trained_exists false .full
  let v : SharedView := ⟨M.bimodal, M.dim, M.di, M.window⟩
  have ha : (hmmFamily 0).attach v (fun _ => v) M = M := by
    have hm : (M.models.map fun lc => (lc.1, lc.2.attach v)) = M.models := by
      conv_rhs => rw [← List.map_id M.models]
      refine List.map_congr_left fun lc hlc => ?_
      obtain ⟨e1, e2, e3, e4⟩ := h7 lc hlc
      obtain ⟨c1, c2, _, _⟩ := h1.cls lc hlc
      have hs : lc.2.sts.map (Gmm.attach v) = lc.2.sts := by
        conv_rhs => rw [← List.map_id lc.2.sts]
        refine List.map_congr_left fun s hs => ?_
        obtain ⟨_, _, q3, q4, q5⟩ := c1.can.wf.state s hs
        have t1 : v.bimodal = s.bimodal := (q3.trans c2).symm
        have t2 : v.dim = s.dim := (q4.trans e1).symm
        have t3 : v.di = s.di := (q5.trans e2).symm
        have t4 : v.window = s.window := (e4 s hs).symm
        simp only [Gmm.attach, t1, t2, t3, t4, id]
      have t1 : v.bimodal = lc.2.bimodal := c2.symm
      have t2 : v.dim = lc.2.dim := e1.symm
      have t3 : v.di = lc.2.di := e2.symm
      have t4 : v.window = lc.2.window := e3.symm
      simp only [Hmm.attach, hs, t1, t2, t3, t4, id]
    simp only [hmmFamily, hm]
    rfl
  refine ⟨_, _, M, v, rfl, by
    simp only [Copies.step, copyConstruct, bind_def, get_def]
    rw [show (_ : World (HierHmm ℝ)).obj 1 = none from rfl]
    simp only [bind_def]
    rw [getObj_some (i := 0) rfl]
    simp only
    rw [if_neg (by show ¬ M.training = true; rw [h1.idle]; simp)]
    rfl, ?_, h1, h2, fun lc hlc => (h4 lc hlc).1, ?_⟩
  · show some ((hmmFamily 0).attach v (fun _ => v) M) = some M
    rw [ha]
  · intro x hx lc hlc
    obtain ⟨_, _, _, _, _, _, f1, f2, _⟩ := h4 lc hlc
    simp only [List.mem_cons, List.not_mem_nil, or_false] at hx
    rcases hx with rfl | rfl
    · exact f1
    · exact f2

end Xmm
