import Verif.Spec.LoadedTrain
import Verif.Props.LoadedFilter
import Verif.Props.Retrain
set_option linter.unusedSectionVars false
/- C114: training goes on with a model that has been loaded as with the original. -/
namespace Xmm
open TS
open Prog (bind_def)

theorem Gmm.free_can {m : Gmm ℝ} (h : m.CanFilter) : m.free.CanFilter where
  ready := by
    refine ⟨⟨h.ready.wf.pos, by simp [free, h.ready.wf.comps], h.ready.wf.coeffs, h.ready.wf.beta, fun g hg => ?_⟩, h.ready.coeffs, fun g hg => ?_⟩
    · obtain ⟨g0, h0, rfl⟩ := List.mem_map.1 hg
      obtain ⟨a1, a2⟩ := h.ready.wf.comp g0 h0
      exact ⟨⟨a1.mean, a1.cov, a1.inv, a1.invIn, a1.le⟩, a2⟩
    · obtain ⟨g0, h0, rfl⟩ := List.mem_map.1 hg
      exact h.ready.det g0 h0
  idle := h.idle
  window := h.window
  out := fun hb g hg => by
    obtain ⟨g0, h0, rfl⟩ := List.mem_map.1 hg
    exact h.out hb g0 h0

theorem Gmm.SameModel.free {m n : Gmm ℝ} (h : Gmm.SameModel m n) : Gmm.SameModel m.free n.free := by
  unfold Gmm.SameModel at h ⊢
  rw [h]
  rfl

theorem Gmm.free_free (m : Gmm ℝ) : m.free.free = m.free := by
  simp [Gmm.free, Gauss.unlimited, Function.comp_def]

/-- what is read of the configuration and the shared parameters gives the same settings -/
theorem GmmBody.settings_loaded {B B' : GmmBody ℝ} {s : ConfigSpec (GmmValues ℝ)} [JsonReal ℝ] {nar : ℝ → ℝ} {tiny realMax : ℝ} (hc : GmmConfig nar tiny realMax B.config s)
    (h1 : B'.shared.values = B.shared.values) (h2 : Configuration.Gives GmmAttrs.values Eq B.config B'.config s) : B'.settings = B.settings := by
  obtain ⟨me, slot, ops, hs, c0, e1, e2⟩ := hc.reached
  obtain ⟨c', k1, k2⟩ := Configuration.Means.history (GmmAttrs.laws tiny realMax) ops (me := me) (slot := slot) (Configuration.Means.fresh (GmmAttrs.laws tiny realMax))
  rw [e1] at k1
  cases k1
  have hl : ∀ l, (Configuration.paramsFor l B'.config).values = (Configuration.paramsFor l B.config).values := by
    intro l
    refine (h2.2.2.2 l).2.trans ?_
    rw [hs, e2]
    exact (k2.paramsFor (GmmAttrs.laws tiny realMax) l).2.symm
  unfold GmmBody.settings
  have w1 : B'.shared.window.value = B.shared.window.value := congrArg SharedValues.window h1
  have w2 : B'.shared.emMin.value = B.shared.emMin.value := congrArg SharedValues.emMin h1
  have w3 : B'.shared.emMax.value = B.shared.emMax.value := congrArg SharedValues.emMax h1
  rw [w1, w2, w3]
  congr 1
  · exact funext fun l => congrArg GmmValues.gaussians (hl l)
  · exact funext fun l => congrArg GmmValues.relReg (hl l)
  · exact funext fun l => congrArg GmmValues.absReg (hl l)
  · exact funext fun l => congrArg covModeOf (congrArg GmmValues.covMode (hl l))

/-- the loaded model can be trained if the original can -/
theorem GmmModel.Holds.loaded {M : GmmModel ℝ} {f : Format} {window : Nat} (h : M.Holds f window) (z : ℝ) (r : MultiRes ℝ) :
    (GmmModel.free { (gmmFamily z).copy M with results := r }).Holds f window := by
  have hmem : ∀ lc ∈ (GmmModel.free { (gmmFamily z).copy M with results := r }).models, ∃ lc0 ∈ M.models, lc = (lc0.1, (lc0.2.copy z).free) := by
    intro lc hlc
    simp only [GmmModel.free, gmmFamily, List.map_map, List.mem_map] at hlc
    obtain ⟨lc0, h0, rfl⟩ := hlc
    exact ⟨lc0, h0, rfl⟩
  refine ⟨rfl, h.nulls, ?_, h.bimodal, fun lc hlc => ?_, fun hb lc hlc => ?_, fun lc hlc => ?_⟩
  · have := h.sorted
    simp only [GmmModel.free, gmmFamily, List.map_map]
    unfold SMap.Sorted at this ⊢
    simpa [List.pairwise_map] using this
  · obtain ⟨lc0, h0, rfl⟩ := hmem lc hlc
    obtain ⟨a1, a2, a3, a4, a5⟩ := h.cls lc0 h0
    exact ⟨Gmm.free_can (Gmm.copy_can z a1), a2, a3, a4, a5⟩
  · obtain ⟨lc0, h0, rfl⟩ := hmem lc hlc
    exact h.mode hb lc0 h0
  · obtain ⟨lc0, h0, rfl⟩ := hmem lc hlc
    exact ⟨1, [], CBuf.Holds.init 0 1 (by omega)⟩

/-- two models with the same classes, up to the limits of the dimensions of the components, recognise alike -/
theorem GmmModel.same_classes (D : Dens ℝ) (hD : D.Sound) (hB : D.Blind) (log exp : ℝ → ℝ) (hexp : ∀ x, 0 < exp x) {M N : GmmModel ℝ} {f : Format} {window : Nat} (hM : M.Usable) (hN : N.Usable)
    (hMf : M.Holds f window) (hk : SMap.keys M.models = SMap.keys N.models) (hbi : N.bimodal = M.bimodal) (hdo : N.dout = M.dout) (hmo : N.mode = M.mode) (hes : N.est = M.est)
    (hs : ∀ l m n, (l, m) ∈ M.models → (l, n) ∈ N.models → Gmm.SameModel m.free n.free) (hne : M.models ≠ [])
    (xs : List (List ℝ)) (hxs : xs ≠ []) (hx : ∀ x ∈ xs, f.Sample x) :
    ∃ M' N', (do GmmModel.reset; GmmModel.filterAll D log exp xs) M = .ret () M' ∧ (do GmmModel.reset; GmmModel.filterAll D log exp xs) N = .ret () N' ∧
      N'.results = { M'.results with outVals := N'.results.outVals, outCov := N'.results.outCov } ∧ (f.bimodal = true → N'.results = M'.results) := by
  have hlen : M.models.length = N.models.length := by simpa [SMap.keys] using congrArg List.length hk
  have hbufs : ∀ lc ∈ M.models, BufOk lc.2.buf := fun lc hlc => by obtain ⟨_, _, hb⟩ := hMf.buf lc hlc; exact hb.ok
  have hbufN : ∀ lc ∈ N.models, BufOk lc.2.buf := fun lc hlc => by obtain ⟨_, hb⟩ := hN.buf lc hlc; exact hb.ok
  obtain ⟨M', N', e1, e2, e3, e4⟩ := GmmModel.C51_model_forgets D hD log exp hexp M.free N.free
    (by
      unfold GmmModel.free
      have h1 := hM.nulls; have h2 := hN.nulls; have h3 := hM.idle; have h4 := hN.idle
      cases M; cases N
      simp only at hbi hdo hmo hes h1 h2 h3 h4
      subst hbi hdo hmo hes h1 h2 h3 h4
      rfl)
    (by
      rw [List.forall₂_iff_get]
      refine ⟨by simp [GmmModel.free, hlen], fun n h1 h2 => ?_⟩
      simp only [GmmModel.free, List.length_map] at h1 h2
      have hkey : N.models[n].1 = M.models[n].1 := by
        have : (SMap.keys N.models)[n]? = (SMap.keys M.models)[n]? := by rw [hk]
        simpa [SMap.keys, h1, h2] using this
      have hin : N.models[n] ∈ N.models := List.getElem_mem h2
      have hlk : (M.models[n].1, N.models[n].2) ∈ N.models := by rw [← hkey]; exact hin
      simp only [GmmModel.free, List.get_eq_getElem, List.getElem_map]
      exact ⟨hkey, hs _ _ _ (List.getElem_mem h1) hlk, Gmm.free_can (hN.cls _ hin).1, hbufN _ hin⟩)
    hM.nulls hM.idle
    (by
      have := hM.sorted
      unfold SMap.Sorted at this ⊢
      simpa [GmmModel.free, List.pairwise_map] using this)
    (by simpa [GmmModel.free] using hne)
    (fun lc hlc => by
      obtain ⟨lc0, h0, rfl⟩ := List.mem_map.1 hlc
      obtain ⟨a1, a2, a3⟩ := hM.cls lc0 h0
      exact ⟨Gmm.free_can a1, a2, a3, hbufs lc0 h0⟩)
    (fun hb lc hlc => by
      obtain ⟨lc0, h0, rfl⟩ := List.mem_map.1 hlc
      exact hM.mode hb lc0 h0)
    xs hxs
    (fun x hx' lc hlc => by
      obtain ⟨lc0, h0, rfl⟩ := List.mem_map.1 hlc
      obtain ⟨-, a2, a3, a4, -⟩ := hMf.cls lc0 h0
      have := hx x hx'
      unfold Format.Sample at this
      show lc0.2.Fits x
      unfold Gmm.Fits
      rw [a2, a3, a4]
      exact this)
  have sim : ∀ X : GmmModel ℝ, ∀ Y, (do GmmModel.reset; GmmModel.filterAll D log exp xs) X.free = .ret () Y →
      ∃ X', (do GmmModel.reset; GmmModel.filterAll D log exp xs) X = .ret () X' ∧ X'.results = Y.results := by
    intro X Y hY
    have := SimAt.bind (GmmModel.sim_reset X) fun _ M _ => GmmModel.sim_filterAll hB log exp xs M
    unfold SimAt at this
    rw [hY] at this
    cases hX : (do GmmModel.reset; GmmModel.filterAll D log exp xs : Prog (GmmModel ℝ) Unit) X with
    | ret a s =>
      rw [hX] at this
      injection this with _ this
      exact ⟨s, rfl, by rw [this]; rfl⟩
    | throw e s => rw [hX] at this; cases this
    | ub => rw [hX] at this; cases this
  obtain ⟨X, x1, x2⟩ := sim M M' e1
  obtain ⟨Y, y1, y2⟩ := sim N N' e2
  exact ⟨X, Y, x1, y1, by rw [x2, y2]; exact e3, fun hb => by rw [x2, y2]; exact e4 (hMf.bimodal.trans hb)⟩

section session
variable [JsonReal ℝ] {alive : Nat → Bool} {nar : ℝ → ℝ} {tiny realMax : ℝ}

/-- **C114 (partial), GMM.**  A mixture model that can be saved (C57) and used, its classes having the format of the session: training one class, new or existing, of the model constructed from its
    JSON, even before `reset()` and whatever its results are, ends like training that class of the original, with the parameters that each of them has: both are defined and raise no exception,
    both models have the same classes afterwards, and they report the same results on every stream.
    Missing: models with Diagonal covariances, which cannot be loaded (`C57_gmm_diagonal_violated`); outputs of models that are not bimodal, which write none. -/
theorem C114_gmm_partial (ids : JsonIds) (z : ℝ) (h1 : Regularization tiny realMax (1 / 100)) (h2 : Regularization tiny realMax (1 / 1000))
    (B : GmmBody ℝ) (s : ConfigSpec (GmmValues ℝ)) (hs : SharedSavable alive nar realMax B.shared) (hc : GmmConfig nar tiny realMax B.config s)
    (hcls : ∀ lc ∈ B.models, lc.2.Savable nar tiny realMax ∧ lc.2.Loadable ∧
      lc.2.view = ⟨B.shared.bimodal.value, B.shared.dimension.value, B.shared.dimensionInput.value, B.shared.window.value⟩)
    (f : Format) (hv : f.Valid) (hM : (GmmBody.model B MultiRes.empty).Holds f B.settings.window) (hS : B.settings.Valid)
    (hmode : f.bimodal = true → ∀ l, B.settings.mode l = covModeOf B.config.base.covMode.value)
    (i : Nat) (w0 : World ℝ String) (h0 : w0.sets i = none) (ops : List (RecOp ℝ String)) (ha : Takes.Admissible f ops []) (hfill : Takes.Filled (Takes.run f ops []).1)
    (D : Dens ℝ) (hD : D.Sound) (hB : D.Blind) (log : ℝ → ℝ) (lowest : ℝ) (cancel : Nat → Bool) (label : String) (hl : ∃ e ∈ (Takes.run f ops []).1, e.2.1 = label) :
    ∃ root B', GmmBody.toJson B = .ret root B ∧ GmmBody.ofJson alive ids nar tiny realMax z root = .ret () B' ∧
      ∀ r r' : MultiRes ℝ, ∃ M M', B.recordAndTrainClass D log lowest cancel f i ops w0 label r = .ret () M ∧ B'.recordAndTrainClass D log lowest cancel f i ops w0 label r' = .ret () M' ∧
        M.Usable ∧ M'.Usable ∧ SMap.keys M'.models = SMap.keys M.models ∧ (∀ l ∈ SMap.keys B.models, l ≠ label → l ∈ SMap.keys M.models) ∧
        (M.models ≠ [] → ∀ exp : ℝ → ℝ, (∀ x, 0 < exp x) → ∀ xs, xs ≠ [] → (∀ x ∈ xs, f.Sample x) →
          ∃ N N', (do GmmModel.reset; GmmModel.filterAll D log exp xs) M = .ret () N ∧ (do GmmModel.reset; GmmModel.filterAll D log exp xs) M' = .ret () N' ∧
            N'.results = { N.results with outVals := N'.results.outVals, outCov := N'.results.outCov } ∧ (f.bimodal = true → N'.results = N.results)) := by
  obtain ⟨root, B', b1, b2, b3, b4, b5⟩ := gmm_loads ids z h1 h2 B s hs hc hM.sorted hcls
  refine ⟨root, B', b1, b2, fun r r' => ?_⟩
  have hset := GmmBody.settings_loaded hc b3 b4
  have hpct : B'.shared.percentChg.value = B.shared.percentChg.value := congrArg SharedValues.percentChg b3
  have hload := GmmBody.loaded (z := z) hc b3 b4 b5 r r'
  have hMr : (GmmBody.model B r).Holds f B.settings.window := ⟨hM.idle, hM.nulls, hM.sorted, hM.bimodal, hM.cls, hM.mode, hM.buf⟩
  have hMr' : (GmmBody.model B' r').Holds f B.settings.window := by rw [hload]; exact hMr.loaded z r'
  have hmodels' : (GmmBody.model B' r').models = B.models.map fun lc => (lc.1, (lc.2.copy z).free) := by
    rw [hload]; simp only [GmmModel.free, gmmFamily, List.map_map]; rfl
  have hmd : (GmmBody.model B' r').mode = (GmmBody.model B r).mode := by rw [hload]; rfl
  have hes : (GmmBody.model B' r').est = (GmmBody.model B r).est := by rw [hload]; rfl
  obtain ⟨w, t, s1, s2, s3, -⟩ := recordThen_sim f hv i w0 h0 ops ha
  obtain ⟨M, a1, a2, a3, a4, a5, a6⟩ := GmmModel.trainLabel_of_sim s1 s2 hv hfill B.settings hS D hD log lowest B.shared.percentChg.value cancel (GmmBody.model B r) hMr hmode label hl
  obtain ⟨M', c1, c2, c3, c4, c5, c6⟩ := GmmModel.trainLabel_of_sim s1 s2 hv hfill B.settings hS D hD log lowest B.shared.percentChg.value cancel (GmmBody.model B' r') hMr'
    (fun hb l => (hmode hb l).trans hmd.symm) label hl
  -- a label is in both models or in none
  obtain ⟨tr, m, p1, -, p2⟩ := a6.replaced
  obtain ⟨tr', m', q1, -, q2⟩ := c6.replaced
  rw [p1] at q1
  injection q1 with q1 q1'
  subst q1 q1'
  have hfwd : ∀ l m0, (l, m0) ∈ B.models → (l, (m0.copy z).free) ∈ (GmmBody.model B' r').models := fun l m0 h => by
    rw [hmodels']; exact List.mem_map.2 ⟨_, h, rfl⟩
  have hbwd : ∀ l n, (l, n) ∈ (GmmBody.model B' r').models → ∃ m0, (l, m0) ∈ B.models ∧ n = (m0.copy z).free := fun l n h => by
    rw [hmodels'] at h
    obtain ⟨lc, h3, h4⟩ := List.mem_map.1 h
    simp only [Prod.mk.injEq] at h4
    exact ⟨lc.2, by rw [← h4.1]; exact h3, h4.2.symm⟩
  have mem_keys : ∀ {X : GmmModel ℝ} {l : String}, l ∈ SMap.keys X.models ↔ ∃ x, (l, x) ∈ X.models := by
    intro X l
    constructor
    · intro h
      obtain ⟨lc, h3, rfl⟩ := List.mem_map.1 h
      exact ⟨lc.2, h3⟩
    · rintro ⟨x, h⟩
      exact List.mem_map.2 ⟨_, h, rfl⟩
  have hlabel : (tr.status = .done ∧ (∃ x, (label, x) ∈ M.models ∧ Gmm.SameModel m x) ∧ ∃ x, (label, x) ∈ M'.models ∧ Gmm.SameModel m x) ∨
      label ∉ SMap.keys M.models ∧ label ∉ SMap.keys M'.models := by
    rcases p2 with ⟨p2, p3⟩ | ⟨p2, p3⟩ <;> rcases q2 with ⟨q2, q3⟩ | ⟨q2, q3⟩
    · exact .inl ⟨p2, p3, q3⟩
    · rcases q3 with ⟨q3, -⟩ | ⟨q3, -⟩ <;> rw [p2] at q3 <;> cases q3
    · rcases p3 with ⟨p3, -⟩ | ⟨p3, -⟩ <;> rw [q2] at p3 <;> cases p3
    · exact .inr ⟨p2, q2⟩
  have hkeys : ∀ l, l ∈ SMap.keys M'.models ↔ l ∈ SMap.keys M.models := by
    intro l
    by_cases hll : l = label
    · subst hll
      rcases hlabel with ⟨-, ⟨x, hx, -⟩, y, hy, -⟩ | ⟨x, y⟩
      · exact ⟨fun _ => mem_keys.2 ⟨x, hx⟩, fun _ => mem_keys.2 ⟨y, hy⟩⟩
      · exact ⟨fun h => absurd h y, fun h => absurd h x⟩
    · constructor
      · intro h
        obtain ⟨n', hn'⟩ := mem_keys.1 h
        obtain ⟨n, hn, -⟩ := (c6.others l hll).1 n' hn'
        obtain ⟨m0, hm0, -⟩ := hbwd l n hn
        obtain ⟨x, hx, -⟩ := (a6.others l hll).2 m0 hm0
        exact mem_keys.2 ⟨x, hx⟩
      · intro h
        obtain ⟨n', hn'⟩ := mem_keys.1 h
        obtain ⟨n, hn, -⟩ := (a6.others l hll).1 n' hn'
        obtain ⟨x, hx, -⟩ := (c6.others l hll).2 _ (hfwd l n hn)
        exact mem_keys.2 ⟨x, hx⟩
  have huniq : ∀ {X : GmmModel ℝ}, SMap.Sorted X.models → ∀ {l x y}, (l, x) ∈ X.models → (l, y) ∈ X.models → x = y := by
    intro X hX l x y hx hy
    have e1 := (SMap.mem_iff_find? hX).1 hx
    have e2 := (SMap.mem_iff_find? hX).1 hy
    rw [e1] at e2
    exact Option.some.inj e2
  have hsame : ∀ l x y, (l, x) ∈ M.models → (l, y) ∈ M'.models → Gmm.SameModel x.free y.free := by
    intro l x y hx hy
    by_cases hll : l = label
    · subst hll
      rcases hlabel with ⟨-, ⟨x1, hx1, e1⟩, y1, hy1, e2⟩ | ⟨h, -⟩
      · cases huniq a2.sorted hx hx1
        cases huniq c2.sorted hy hy1
        have : Gmm.SameModel x y := by
          unfold Gmm.SameModel at e1 e2 ⊢
          rw [e2, e1]
        exact this.free
      · exact absurd (mem_keys.2 ⟨x, hx⟩) h
    · obtain ⟨x0, hx0, e1⟩ := (a6.others l hll).1 x hx
      obtain ⟨y0, hy0, e2⟩ := (c6.others l hll).1 y hy
      obtain ⟨m0, hm0, rfl⟩ := hbwd l y0 hy0
      cases huniq hMr.sorted hx0 hm0
      have e3 := Gmm.copy_same z (hMr.cls _ hx0).1
      have f1 := e1.free
      have f2 := e2.free
      have f3 := e3.free
      rw [Gmm.free_free] at f2
      simp only at f3
      unfold Gmm.SameModel at f1 f2 f3 ⊢
      rw [f2, f3, f1]
  have hk : SMap.keys M'.models = SMap.keys M.models := by
    have hp : (SMap.keys M'.models).Perm (SMap.keys M.models) := (List.perm_ext_iff_of_nodup (SMap.keys_nodup c2.sorted) (SMap.keys_nodup a2.sorted)).2 hkeys
    exact hp.eq_of_pairwise (fun a b _ _ h1 h2 => absurd h1 (lt_asymm h2)) (SMap.keys_sorted c2.sorted) (SMap.keys_sorted a2.sorted)
  refine ⟨M, M', ?_, ?_, a2, c2, hk, fun l hl' hne => ?_, fun hne exp hexp xs hxs hx => ?_⟩
  · unfold GmmBody.recordAndTrainClass recordAndTrainClass
    rw [s3]
    exact a1
  · unfold GmmBody.recordAndTrainClass recordAndTrainClass
    rw [s3, hset, hpct]
    exact c1
  · obtain ⟨lc, h3, rfl⟩ := List.mem_map.1 hl'
    obtain ⟨x, hx, -⟩ := (a6.others lc.1 hne).2 lc.2 h3
    exact mem_keys.2 ⟨x, hx⟩
  · have hdout : ∀ X : GmmModel ℝ, X.Usable → X.Holds f B.settings.window → X.models ≠ [] → X.dout = f.dim - f.di := by
      intro X u v hX
      obtain ⟨lc, ls, hX⟩ := List.exists_cons_of_ne_nil hX
      have hin : lc ∈ X.models := by rw [hX]; exact List.mem_cons_self
      obtain ⟨-, -, e1⟩ := u.cls lc hin
      obtain ⟨-, -, e2, e3, -⟩ := v.cls lc hin
      rw [← e1, e2, e3]
    have hne' : M'.models ≠ [] := by
      intro h
      rw [h] at hk
      exact hne (List.map_eq_nil_iff.1 hk.symm)
    exact GmmModel.same_classes D hD hB log exp hexp a2 c2 a3 hk.symm (c3.bimodal.trans a3.bimodal.symm) ((hdout M' c2 c3 hne').trans (hdout M a2 a3 hne).symm)
      (c4.trans (hmd.trans a4.symm)) (c5.trans (hes.trans a5.symm)) hsame hne xs hxs hx

end session
end Xmm
