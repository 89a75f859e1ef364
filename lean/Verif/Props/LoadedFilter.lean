import Verif.Model.LoadedModel
import Verif.Lemmas.Limits
import Verif.Props.ModelJsonFail
/- C90: a model constructed from the JSON of a trained model recognises like the original. -/
namespace Xmm
open Phrase (loop)
open Prog (bind_def pure_def get_def set_def modify_def throw_def undef_def)
set_option linter.unusedSectionVars false
variable {K : Type} [Field K] [LinearOrder K] [IsStrictOrderedRing K] [JsonReal K] {alive : Nat → Bool} {nar : K → K} {tiny realMax : K}

theorem bind_of_ub {σ α β : Type} {p : Prog σ α} {k : α → Prog σ β} {s : σ} (h : p s = .ub) : (p >>= k) s = .ub := by
  simp only [bind_def, h]

/-- a loop whose first step is undefined -/
theorem loop_ub {σ α : Type} (n : Nat) (a : α) (body : α → Nat → Prog σ α) (s : σ) (h : body a 0 s = .ub) : loop (n + 1) a body s = .ub := by
  induction n with
  | zero =>
    rw [loop_succ]
    exact h
  | succ n ih => rw [loop_succ, ih]

/-- what is read of a class is a copy of the class, without the limits -/
theorem Gmm.reread_copy (z : K) (m : Gmm K) : Gmm.copy z (m.reread z) = (m.copy z).free := rfl

theorem Gmm.assigned_copy (z : K) (m a : Gmm K) : Gmm.copy z ((m.reread z).assigned a) = (m.copy z).free := rfl

theorem Hmm.reread_copy (z : K) (a : Gmm K) (m : Hmm K) (h : m.hier = true) : Hmm.copy z (m.reread z a) = (m.copy z).free := by
  have e : (m.sts.map fun st => (st.reread z).assigned a).map (Gmm.copy z) = (m.sts.map (Gmm.copy z)).map Gmm.free := by
    rw [List.map_map, List.map_map]
    exact List.map_congr_left fun st _ => Gmm.assigned_copy z st a
  cases m
  simp only at h
  subst h
  simp only [Hmm.copy, Hmm.reread, Hmm.free] at e ⊢
  rw [e]

/-- the defaults of a configuration that has been edited are those of its meaning -/
theorem GmmConfig.base {c : Configuration (GmmAttrs K)} {s : ConfigSpec (GmmValues K)} (h : GmmConfig nar tiny realMax c s) : c.base.values = s.default := by
  obtain ⟨me, slot, ops, hs, c0, e1, e2⟩ := h.reached
  obtain ⟨c', k1, k2⟩ := Configuration.Means.history (GmmAttrs.laws tiny realMax) ops (me := me) (slot := slot) (Configuration.Means.fresh (GmmAttrs.laws tiny realMax))
  rw [e1] at k1
  cases k1
  rw [e2, hs]
  exact k2.base

theorem HmmConfig.means {c : Configuration (HmmAttrs K)} {s : ConfigSpec (HmmValues K)} (h : HmmConfig nar tiny realMax c s) :
    c.base.values = s.default ∧ ∀ l, (Configuration.paramsFor l c).values.Same (s.effective l) := by
  obtain ⟨me, slot, ops, hs, c0, e1, e2⟩ := h.reached
  obtain ⟨c', k1, k2⟩ := Configuration.Means.history (HmmAttrs.laws tiny realMax) ops (me := me) (slot := slot) (Configuration.Means.fresh (HmmAttrs.laws tiny realMax))
  rw [e1] at k1
  cases k1
  rw [e2, hs]
  exact ⟨k2.base, fun l => (k2.paramsFor (HmmAttrs.laws tiny realMax) l).2⟩

/-- the model that is loaded from the JSON of `B` is a copy of the model `B`, without the limits and with its own results -/
theorem GmmBody.loaded {z : K} {B B' : GmmBody K} {s : ConfigSpec (GmmValues K)} (hc : GmmConfig nar tiny realMax B.config s)
    (h1 : B'.shared.values = B.shared.values) (h2 : Configuration.Gives GmmAttrs.values Eq B.config B'.config s)
    (h3 : B'.models = B.models.map fun lc => (lc.1, Gmm.copy z (lc.2.reread z))) (r r' : MultiRes K) :
    GmmBody.model B' r' = GmmModel.free { (gmmFamily z).copy (GmmBody.model B r) with results := r' } := by
  have v1 : B'.shared.bimodal.value = B.shared.bimodal.value := congrArg SharedValues.bimodal h1
  have v2 : B'.shared.dimension.value = B.shared.dimension.value := congrArg SharedValues.dimension h1
  have v3 : B'.shared.dimensionInput.value = B.shared.dimensionInput.value := congrArg SharedValues.dimensionInput h1
  have v4 : B'.config.base.covMode.value = B.config.base.covMode.value := by
    have := h2.2.2.1.trans hc.base.symm
    exact congrArg GmmValues.covMode this
  simp only [GmmBody.model, GmmModel.free, gmmFamily, GmmModel.mk.injEq, and_true, true_and, List.map_map]
  refine ⟨?_, v1, by rw [v2, v3], by rw [v4], by rw [h2.2.1]⟩
  rw [h3]
  exact List.map_congr_left fun lc _ => Prod.ext rfl (Gmm.reread_copy z lc.2)

/-- **C90 (partial), GMM.**  A trained model that can be saved (C57) and can filter: the model constructed from its JSON, after `reset()` and whatever its results were before, reports on every stream of
    observations the results that the original reports after `reset()`: the likelihoods of the classes, the likeliest class, and the outputs of a bimodal model (others do not write them).
    Missing: models with Diagonal covariances, which cannot be loaded (`C57_gmm_diagonal_violated`); without `reset()` see `C90_gmm_without_reset_ub`. -/
theorem C90_gmm_partial (ids : JsonIds) (z : K) (h1 : Regularization tiny realMax (1 / 100)) (h2 : Regularization tiny realMax (1 / 1000))
    (B : GmmBody K) (s : ConfigSpec (GmmValues K)) (hs : SharedSavable alive nar realMax B.shared) (hc : GmmConfig nar tiny realMax B.config s)
    (hsort : SMap.Sorted B.models) (hcls : ∀ lc ∈ B.models, lc.2.Savable nar tiny realMax ∧ lc.2.Loadable ∧
      lc.2.view = ⟨B.shared.bimodal.value, B.shared.dimension.value, B.shared.dimensionInput.value, B.shared.window.value⟩)
    (hne : B.models ≠ []) (hcan : ∀ lc ∈ B.models, lc.2.CanFilter ∧ BufOk lc.2.buf)
    (hmode : B.shared.bimodal.value = true → ∀ lc ∈ B.models, Gauss.modeCode lc.2.mode = B.config.base.covMode.value)
    (D : Dens K) (hD : D.Sound) (hB : D.Blind) (log exp : K → K) (hexp : ∀ x, 0 < exp x)
    (xs : List (List K)) (hxs : xs ≠ []) (hx : ∀ x ∈ xs, ∀ lc ∈ B.models, lc.2.Fits x) (r : MultiRes K) :
    ∃ root B', GmmBody.toJson B = .ret root B ∧ GmmBody.ofJson alive ids nar tiny realMax z root = .ret () B' ∧
      ∀ r' : MultiRes K, ∃ M M', (do GmmModel.reset; GmmModel.filterAll D log exp xs) (GmmBody.model B r) = .ret () M ∧
        (do GmmModel.reset; GmmModel.filterAll D log exp xs) (GmmBody.model B' r') = .ret () M' ∧
        M'.results = { M.results with outVals := M'.results.outVals, outCov := M'.results.outCov } ∧
        (B.shared.bimodal.value = true → M'.results = M.results) := by
  obtain ⟨root, B', b1, b2, b3, b4, b5⟩ := gmm_loads ids z h1 h2 B s hs hc hsort hcls
  refine ⟨root, B', b1, b2, fun r' => ?_⟩
  have hview : ∀ lc ∈ B.models, lc.2.bimodal = B.shared.bimodal.value ∧ lc.2.dim - lc.2.di = B.shared.dimension.value - B.shared.dimensionInput.value := fun lc hlc => by
    have := (hcls lc hlc).2.2
    have e1 := congrArg SharedView.bimodal this
    have e2 := congrArg SharedView.dim this
    have e3 := congrArg SharedView.di this
    exact ⟨e1, congrArg₂ _ e2 e3⟩
  obtain ⟨M', N', e1, e2, e3, e4⟩ := GmmModel.C51_model_forgets D hD log exp hexp (GmmBody.model B r) { (gmmFamily z).copy (GmmBody.model B r) with results := r' } rfl
    (by
      show List.Forall₂ _ B.models (B.models.map fun lc => (lc.1, lc.2.copy z))
      rw [List.forall₂_map_right_iff, List.forall₂_same]
      intro lc hlc
      exact ⟨rfl, Gmm.copy_same z (hcan lc hlc).1, Gmm.copy_can z (hcan lc hlc).1, rfl⟩)
    rfl rfl hsort hne (fun lc hlc => ⟨(hcan lc hlc).1, (hview lc hlc).1, (hview lc hlc).2, (hcan lc hlc).2⟩)
    (fun hb lc hlc => by
      have := hmode hb lc hlc
      show lc.2.mode = covModeOf B.config.base.covMode.value
      rw [← this]
      cases lc.2.mode <;> rfl) xs hxs hx
  refine ⟨M', N'.free, e1, ?_, e3, e4⟩
  rw [GmmBody.loaded hc b3 b4 b5 r r']
  have := SimAt.bind (GmmModel.sim_reset { (gmmFamily z).copy (GmmBody.model B r) with results := r' }) fun _ M _ => GmmModel.sim_filterAll hB log exp xs M
  unfold SimAt at this
  rw [e2] at this
  exact this

/-- **C90 (undefined), GMM.**  `filter` on the model constructed from the JSON of a trained model, before `reset()`, writes the likelihood of the first class outside of the results. -/
theorem C90_gmm_without_reset_ub (ids : JsonIds) (z : K) (h1 : Regularization tiny realMax (1 / 100)) (h2 : Regularization tiny realMax (1 / 1000))
    (B : GmmBody K) (s : ConfigSpec (GmmValues K)) (hs : SharedSavable alive nar realMax B.shared) (hc : GmmConfig nar tiny realMax B.config s)
    (hsort : SMap.Sorted B.models) (hcls : ∀ lc ∈ B.models, lc.2.Savable nar tiny realMax ∧ lc.2.Loadable ∧
      lc.2.view = ⟨B.shared.bimodal.value, B.shared.dimension.value, B.shared.dimensionInput.value, B.shared.window.value⟩)
    (hne : B.models ≠ []) (hcan : ∀ lc ∈ B.models, lc.2.CanFilter) (D : Dens K) (hD : D.Sound) (hB : D.Blind) (log exp : K → K)
    (x : List K) (hx : ∀ lc ∈ B.models, lc.2.Fits x) :
    ∃ root B', GmmBody.toJson B = .ret root B ∧ GmmBody.ofJson alive ids nar tiny realMax z root = .ret () B' ∧
      GmmModel.filter D log exp x (GmmBody.model B' MultiRes.empty) = .ub := by
  obtain ⟨root, B', b1, b2, b3, b4, b5⟩ := gmm_loads ids z h1 h2 B s hs hc hsort hcls
  refine ⟨root, B', b1, b2, ?_⟩
  rw [GmmBody.loaded hc b3 b4 b5 MultiRes.empty MultiRes.empty]
  have hsim := GmmModel.sim_filter hB log exp x { (gmmFamily z).copy (GmmBody.model B MultiRes.empty) with results := MultiRes.empty }
  unfold SimAt at hsim
  rw [hsim]
  obtain ⟨lc, ls, hl⟩ := List.exists_cons_of_ne_nil hne
  have hlc : lc ∈ B.models := by rw [hl]; exact List.mem_cons_self
  have hcc := hcan lc hlc
  obtain ⟨d, hd⟩ := Gmm.obsDensities_exist D hD lc.2 hcc.ready
  have hsame := Gmm.copy_same z hcc
  have hfit : (lc.2.copy z).Fits x := hx lc hlc
  have hobs : RecSpec.ObsDensities D (lc.2.copy z) x (d x) := (hd x (hx lc hlc)).1
  obtain ⟨c1, e1, _⟩ := Gmm.filter_any D hD log (lc.2.copy z) (Gmm.copy_can z hcc) x hfit (d x) hobs [] (CBuf.Holds.init 0 1 (by omega))
  have : GmmModel.filter D log exp x { (gmmFamily z).copy (GmmBody.model B MultiRes.empty) with results := MultiRes.empty } = .ub := by
    unfold GmmModel.filter
    rw [bind_of_ret (a := ()) (GmmModel.checkTraining_idle rfl), bind_of_ret (get_def _), if_neg (by simp [gmmFamily, GmmBody.model])]
    refine bind_of_ub ?_
    simp only [gmmFamily, GmmBody.model, hl, List.map_cons, List.length_cons]
    refine loop_ub _ _ _ _ ?_
    unfold GmmModel.filterClass
    simp only [bind_def, GmmModel.onClass, List.getElem?_cons_zero, e1, get_def, MultiRes.wr, MultiRes.empty, List.length_nil, lt_irrefl, if_false, undef_def]
  rw [this]
  rfl

/-- the model that is loaded from the JSON of a hierarchical model is a copy of it, without the limits and with its own results and frontier -/
theorem HierBody.loaded {z : K} {B B' : HierBody K} {s : ConfigSpec (HmmValues K)} (hc : HmmConfig nar tiny realMax B.body.config s)
    (h1 : B'.body.shared.values = B.body.shared.values) (h2 : Configuration.Gives HmmAttrs.values HmmValues.Same B.body.config B'.body.config s)
    (h3 : ∃ a : String × Hmm K → Gmm K, B'.body.models = B.body.models.map fun lc => (lc.1, Hmm.copy z (lc.2.reread z (a lc))))
    (h4 : B'.prior = B.prior) (h5 : B'.trans = B.trans) (h6 : B'.exitTrans = B.exitTrans) (h7 : B'.training = false) (h8 : B'.body.config.base.hierarchical.value = true)
    (hh : ∀ lc ∈ B.body.models, lc.2.hier = true) (hflat : B.body.config.base.hierarchical.value = true) (r r' : MultiRes K) (f1 f2 f1' f2' : List K) (st : Bool) :
    HierBody.model B' r' f1' f2' false = HierHmm.free { (hmmFamily z).copy (HierBody.model B r f1 f2 st) with results := r', front1 := f1', front2 := f2' } := by
  have v1 : B'.body.shared.bimodal.value = B.body.shared.bimodal.value := congrArg SharedValues.bimodal h1
  have v2 : B'.body.shared.dimension.value = B.body.shared.dimension.value := congrArg SharedValues.dimension h1
  have v3 : B'.body.shared.dimensionInput.value = B.body.shared.dimensionInput.value := congrArg SharedValues.dimensionInput h1
  have v5 : B'.body.shared.window.value = B.body.shared.window.value := congrArg SharedValues.window h1
  obtain ⟨m1, m2⟩ := hc.means
  have v4 : B'.body.config.base.covMode.value = B.body.config.base.covMode.value :=
    (congrArg HmmValues.covMode h2.2.2.1).trans (congrArg HmmValues.covMode m1).symm
  have v6 : ∀ l, (Configuration.paramsFor l B'.body.config).params = (Configuration.paramsFor l B.body.config).params := fun l => by
    have k1 := (h2.2.2.2 l).2
    have k2 := m2 l
    simp only [HmmAttrs.params, HmmParams.mk.injEq]
    refine ⟨(congrArg HmmValues.states k1).trans (congrArg HmmValues.states k2).symm, (congrArg HmmValues.gaussians k1).trans (congrArg HmmValues.gaussians k2).symm,
      ?_, ?_, (congrArg HmmValues.absReg k1).trans (congrArg HmmValues.absReg k2).symm, (congrArg HmmValues.relReg k1).trans (congrArg HmmValues.relReg k2).symm, ?_⟩
    · rw [show (Configuration.paramsFor l B'.body.config).transMode.value = (Configuration.paramsFor l B.body.config).transMode.value from
        (congrArg HmmValues.transMode k1).trans (congrArg HmmValues.transMode k2).symm]
    · rw [show (Configuration.paramsFor l B'.body.config).regEstimator.value = (Configuration.paramsFor l B.body.config).regEstimator.value from
        (congrArg HmmValues.regEstimator k1).trans (congrArg HmmValues.regEstimator k2).symm]
    · rw [show (Configuration.paramsFor l B'.body.config).covMode.value = (Configuration.paramsFor l B.body.config).covMode.value from
        (congrArg HmmValues.covMode k1).trans (congrArg HmmValues.covMode k2).symm]
  obtain ⟨a, h3⟩ := h3
  simp only [HierBody.model, HierHmm.free, hmmFamily, HierHmm.mk.injEq, and_true, true_and, List.map_map]
  refine ⟨?_, h4, h6, h5, h7, funext v6, h8.trans hflat.symm, by rw [v4], by rw [h2.2.1], v1, v2, v3, v5⟩
  rw [h3]
  exact List.map_congr_left fun lc hlc => Prod.ext rfl (Hmm.reread_copy z _ lc.2 (hh lc hlc))

/-- **C90 (partial), hierarchical HMM.**  A trained hierarchical model that can be saved (C57), whose classes are left-right: the model constructed from its JSON, after `reset()`, reports on every stream of
    observations the likelihoods of the classes and the results that the original reports after `reset()`.
    Missing: Diagonal covariances (`C57_hmm_rejected_violated`), models that are not hierarchical, which become so (`C57_hmm_hierarchical_violated`), ergodic classes, whose first
    likelihood depends on what they have heard before (`C71_ergodic_violated`). -/
theorem C90_hierarchical_partial (ids : JsonIds) (z : K) (h1 : Regularization tiny realMax (1 / 100)) (h2 : Regularization tiny realMax (1 / 1000))
    (hb : Bool) (B : HierBody K) (s : ConfigSpec (HmmValues K)) (hs : SharedSavable alive nar realMax B.body.shared) (hc : HmmConfig nar tiny realMax B.body.config s)
    (hcls : ∀ lc ∈ B.body.models, lc.2.Savable nar tiny realMax ∧ lc.2.Loadable ∧
      lc.2.view = ⟨B.body.shared.bimodal.value, B.body.shared.dimension.value, B.body.shared.dimensionInput.value, B.body.shared.window.value⟩)
    (r : MultiRes K) (f1 f2 : List K) (st : Bool) (hM : (HierBody.model B r f1 f2 st).Trained) (hne : B.body.models ≠ [])
    (herg : ∀ lc ∈ B.body.models, lc.2.ergodic = false)
    (D : Dens K) (hD : D.Sound) (hB : D.Blind) (log exp : K → K)
    (xs : List (List K)) (hxs : xs ≠ []) (hx : ∀ x ∈ xs, ∀ lc ∈ B.body.models, lc.2.Fits x) :
    ∃ root B' B0, HierBody.toJson hb B = .ret root B ∧ HierBody.ofJson alive ids nar tiny realMax z root = .ret B' B0 ∧
      ∀ (r' : MultiRes K) (f1' f2' : List K), ∃ rs M M', (do HierHmm.reset; HierHmm.filterAll D log exp xs) (HierBody.model B r f1 f2 st) = .ret rs M ∧
        (do HierHmm.reset; HierHmm.filterAll D log exp xs) (HierBody.model B' r' f1' f2' false) = .ret rs M' ∧ HierHmm.SameResults M M' := by
  obtain ⟨root, B', B0, b1, b2, b3, b4, b5, b6, b7, b8, b9, b10⟩ := hmm_loads ids z h1 h2 hb B s hs hc hM.sorted hcls hM.idle hM.top.prior hM.top.trans hM.top.row hM.top.exitTrans
  refine ⟨root, B', B0, b1, b2, fun r' f1' f2' => ?_⟩
  obtain ⟨rs, M, N, e1, e2, e3⟩ := HierHmm.copy_filters_any z D hD log exp (HierBody.model B r f1 f2 st) hM hne herg r' f1' f2' xs hxs hx
  refine ⟨rs, M, N.free, e1, ?_, ?_⟩
  · rw [HierBody.loaded hc b3 b4 b5 b6 b7 b8 b9 b10 (fun lc hlc => (hM.cls lc hlc).1.hier) hM.hier r r' f1 f2 f1' f2' st]
    have := SimAt.bind (HierHmm.sim_reset { (hmmFamily z).copy (HierBody.model B r f1 f2 st) with results := r', front1 := f1', front2 := f2' })
      fun _ M _ => HierHmm.sim_filterAll hB log exp xs M
    unfold SimAt at this
    rw [e2] at this
    exact this
  · refine ⟨fun c lc lc' h3 h4 => ?_, e3.results, e3.out⟩
    have h5 : N.free.models[c]? = N.models[c]?.map fun lc => (lc.1, lc.2.free) := by simp [HierHmm.free]
    rw [h5] at h4
    cases h6 : N.models[c]? with
    | none => rw [h6] at h4; cases h4
    | some p =>
      rw [h6] at h4
      cases h4
      obtain ⟨k1, k2⟩ := e3.cls c lc p h3 h6
      exact ⟨k1, ⟨k2.instant, k2.logLik, k2.progress, k2.likeliest, k2.out⟩⟩

namespace HierHmm

/-- what returns has changed neither the results nor the number of classes -/
def KeepsResults {α : Type} (p : Prog (HierHmm K) α) : Prop := ∀ M a M', p M = .ret a M' → M'.results = M.results ∧ M'.models.length = M.models.length

theorem KeepsResults.pure {α : Type} (a : α) : KeepsResults (K := K) (Pure.pure a) := fun M b M' h => by
  rw [pure_def] at h
  injection h with _ h
  rw [← h]
  exact ⟨rfl, rfl⟩

theorem KeepsResults.get : KeepsResults (K := K) Prog.get := fun M b M' h => by
  rw [get_def] at h
  injection h with _ h
  rw [← h]
  exact ⟨rfl, rfl⟩

theorem KeepsResults.bind {α β : Type} {p : Prog (HierHmm K) α} {q : α → Prog (HierHmm K) β} (h : KeepsResults p) (h' : ∀ a, KeepsResults (q a)) : KeepsResults (p >>= q) :=
  fun M b M' e => by
    obtain ⟨a, M1, e1, e2⟩ := bind_inv e
    exact ⟨(h' a _ _ _ e2).1.trans (h _ _ _ e1).1, (h' a _ _ _ e2).2.trans (h _ _ _ e1).2⟩

theorem KeepsResults.loop {α : Type} (n : Nat) (a : α) (body : α → Nat → Prog (HierHmm K) α) (h : ∀ a i, KeepsResults (body a i)) : KeepsResults (Phrase.loop n a body) := by
  induction n with
  | zero => exact KeepsResults.pure a
  | succ n ih =>
    intro M b M' e
    rw [loop_succ] at e
    cases e1 : Phrase.loop n a body M with
    | ret c M1 =>
      rw [e1] at e
      exact ⟨(h c n _ _ _ e).1.trans (ih _ _ _ e1).1, (h c n _ _ _ e).2.trans (ih _ _ _ e1).2⟩
    | throw x M1 => rw [e1] at e; cases e
    | ub => rw [e1] at e; cases e

theorem KeepsResults.onClass {α : Type} (i : Nat) (f : Prog (Hmm K) α) : KeepsResults (HierHmm.onClass i f) := fun M a M' e => by
  unfold HierHmm.onClass at e
  cases h : M.models[i]? with
  | none => rw [h] at e; cases e
  | some lc =>
    rw [h] at e
    dsimp only at e
    cases h' : f lc.2 with
    | ret b c =>
      rw [h'] at e
      injection e with _ e
      rw [← e]
      exact ⟨rfl, by simp⟩
    | throw x c => rw [h'] at e; cases e
    | ub => rw [h'] at e; cases e

theorem KeepsResults.checkTraining : KeepsResults (K := K) HierHmm.checkTraining := fun M a M' e => by
  unfold HierHmm.checkTraining at e
  rw [bind_of_ret (get_def _)] at e
  split at e
  · rw [throw_def] at e; cases e
  · exact KeepsResults.pure _ _ _ _ e

theorem KeepsResults.forwardInit (D : Dens K) (x : List K) : KeepsResults (HierHmm.forwardInit D x) :=
  .bind .checkTraining fun _ => .bind .get fun M => .bind (.loop _ _ _ fun _ _ => .bind (.onClass _ _) fun _ => .pure _) fun _ => .bind (.loop _ _ _ fun _ _ => .onClass _ _) fun _ =>
    fun M a M' e => by
      rw [modify_def] at e
      injection e with _ e
      rw [← e]
      exact ⟨rfl, rfl⟩

/-- a hierarchical model that has classes but no room for their results: `filter` does not return -/
theorem filter_no_room (D : Dens K) (log exp : K → K) (x : List K) (M : HierHmm K) (hne : M.models ≠ []) (hh : M.hier = true) (hs : M.started = false) (hr : M.results.inst = [])
    (M' : HierHmm K) : HierHmm.filter D log exp x M ≠ .ret () M' := by
  intro e
  unfold HierHmm.filter at e
  obtain ⟨_, M0, e0, f0⟩ := bind_inv e
  have e0' : M0 = M := by
    unfold HierHmm.checkTraining at e0
    rw [bind_of_ret (get_def _)] at e0
    split at e0
    · rw [throw_def] at e0; cases e0
    · rw [pure_def] at e0; injection e0 with _ e0; exact e0.symm
  subst e0'
  rw [bind_of_ret (get_def _)] at f0
  split at f0
  · rw [undef_def] at f0; cases f0
  obtain ⟨_, M1, e1, f1⟩ := bind_inv f0
  have e1' : HierHmm.forwardInit D x M0 = .ret () M1 := by
    unfold HierHmm.forward at e1
    rw [if_pos hh, if_neg (by rw [hs]; decide)] at e1
    exact e1
  obtain ⟨r1, l1⟩ := KeepsResults.forwardInit D x _ _ _ e1'
  obtain ⟨_, M2, e2, f2⟩ := bind_inv f1
  obtain ⟨r2, l2⟩ := KeepsResults.loop _ _ _ (fun _ _ => KeepsResults.onClass _ _) _ _ _ e2
  rw [bind_of_ret (get_def _)] at f2
  obtain ⟨_, M3, e3, _⟩ := bind_inv f2
  have hl : M2.models.length ≠ 0 := by
    rw [l2, l1]
    exact fun h => hne (List.eq_nil_of_length_eq_zero h)
  obtain ⟨lc, ls, hm⟩ := List.exists_cons_of_ne_nil (fun h => hl (by rw [h]; rfl) : M2.models ≠ [])
  have hr2 : M2.results.inst = [] := by rw [r2, r1]; exact hr
  have : MultiRes.updateResults exp M2.classes M2.results = .ub := by
    unfold MultiRes.updateResults MultiRes.copyClasses HierHmm.classes
    refine bind_of_ub ?_
    rw [hm, List.map_cons, List.foldlM_cons]
    refine bind_of_ub (bind_of_ub ?_)
    unfold MultiRes.writeClass
    rw [bind_of_ret (get_def _)]
    refine bind_of_ub ?_
    unfold MultiRes.wr
    rw [hr2, if_neg (by simp), undef_def]
  unfold HierHmm.onResults at e3
  rw [this] at e3
  cases e3

end HierHmm

/-- **C90 (violated), hierarchical HMM.**  `filter` on the model constructed from the JSON of a hierarchical model, before `reset()`, does not return: its classes are there but there is no room for their
    likelihoods in the results, and the first of them is written outside. -/
theorem C90_hierarchical_without_reset_violated (ids : JsonIds) (z : K) (h1 : Regularization tiny realMax (1 / 100)) (h2 : Regularization tiny realMax (1 / 1000))
    (hb : Bool) (B : HierBody K) (s : ConfigSpec (HmmValues K)) (hs : SharedSavable alive nar realMax B.body.shared) (hc : HmmConfig nar tiny realMax B.body.config s)
    (hcls : ∀ lc ∈ B.body.models, lc.2.Savable nar tiny realMax ∧ lc.2.Loadable ∧
      lc.2.view = ⟨B.body.shared.bimodal.value, B.body.shared.dimension.value, B.body.shared.dimensionInput.value, B.body.shared.window.value⟩)
    (r : MultiRes K) (f1 f2 : List K) (st : Bool) (hM : (HierBody.model B r f1 f2 st).Trained) (hne : B.body.models ≠ []) (D : Dens K) (log exp : K → K) :
    ∃ root B' B0, HierBody.toJson hb B = .ret root B ∧ HierBody.ofJson alive ids nar tiny realMax z root = .ret B' B0 ∧
      ∀ x M', HierHmm.filter D log exp x (HierBody.model B' MultiRes.empty [] [] false) ≠ .ret () M' := by
  obtain ⟨root, B', B0, b1, b2, b3, b4, b5, b6, b7, b8, b9, b10⟩ := hmm_loads ids z h1 h2 hb B s hs hc hM.sorted hcls hM.idle hM.top.prior hM.top.trans hM.top.row hM.top.exitTrans
  refine ⟨root, B', B0, b1, b2, fun x M' => HierHmm.filter_no_room D log exp x _ ?_ b10 rfl rfl M'⟩
  obtain ⟨a, b5⟩ := b5
  show B'.body.models ≠ []
  rw [b5]
  simpa using hne

/-- C90, the modes: a configuration whose members have the public codes of an estimator and of the parameters of a class gives the estimator, and gives a class that is configured with it the
    number of states and of components, the transitions (ergodic or left-right), the regression estimator, the regularisation and the covariance mode of that class. -/
theorem C90_modes (e : Estimator) (h : Bool) (m : Hmm K) :
    estimatorOf e.code = e ∧ (m.attrs h).params = ⟨m.n, m.gaussians, m.ergodic, m.est, m.absReg, m.relReg, m.mode⟩ := by
  refine ⟨by cases e <;> rfl, ?_⟩
  have h1 : decide (Hmm.transCode m.ergodic = 0) = m.ergodic := by cases m.ergodic <;> rfl
  have h2 : covModeOf (Gauss.modeCode m.mode) = m.mode := by cases m.mode <;> rfl
  have h3 : Hmm.estOf (Hmm.estCode m.est) = m.est := Hmm.estOf_code m.est
  simp only [HmmAttrs.params, Hmm.attrs, Attr.holding, h2, h3]
  congr

end Xmm
