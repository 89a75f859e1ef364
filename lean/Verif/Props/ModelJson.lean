import Verif.Props.HmmJson
import Verif.Props.ConfigJson
set_option linter.unusedSectionVars false
/- C57: JSON of a model. -/
namespace Xmm
open Prog (bind_def pure_def get_def set_def modify_def throw_def undef_def)
open SharedParams (liftE_ok)
open Gauss (resize)

theorem SMap.insertNew_last {κ ν : Type} [LinearOrder κ] {k : κ} {v : ν} : ∀ {m : SMap κ ν}, (∀ x ∈ m, x.1 < k) → SMap.insertNew k v m = m ++ [(k, v)] := by
  have F : ∀ m : SMap κ ν, (∀ x ∈ m, x.1 < k) → SMap.find? k m = none ∧ SMap.assign k v m = m ++ [(k, v)] := by
    intro m
    induction m with
    | nil => exact fun _ => ⟨rfl, rfl⟩
    | cons a m ih =>
      intro h
      obtain ⟨i1, i2⟩ := ih fun x hx => h x (List.mem_cons_of_mem _ hx)
      have ha := h a List.mem_cons_self
      obtain ⟨k', v'⟩ := a
      have hlt : k' < k := ha
      refine ⟨?_, ?_⟩
      · rw [SMap.find?, if_neg (ne_of_gt hlt)]; exact i1
      · rw [SMap.assign, if_neg (not_lt.2 (le_of_lt hlt)), if_neg (ne_of_gt hlt), i2]; rfl
  intro m h
  rw [SMap.insertNew, (F m h).1, (F m h).2]

/-- writing the elements of a list in turn -/
theorem mapM_ok {σ α β : Type} (f : α → Prog σ β) (g : α → β) (s : σ) : ∀ l : List α, (∀ a ∈ l, f a s = .ret (g a) s) → l.mapM f s = .ret (l.map g) s :=
  fun l h => prog_mapM_ret l f g s h

namespace ModelBody
variable {K P C : Type} [JsonReal K]

/-- the classes are read in turn -/
theorem readModels_ok (readC : SharedView → Json K → Prog (ModelBody K P C) (String × C)) (copyC : C → C) (w : String × C → Json K) (r : String × C → C)
    (sh : SharedView) (cs : List (String × C)) : ∀ (M : ModelBody K P C), M.view = sh →
    (∀ lc ∈ cs, (w lc).getKey "label" = .ok (.str lc.1) ∧ ∀ M', readC sh (w lc) M' = .ret (lc.1, r lc) M') →
    (M.models ++ cs.map fun lc => (lc.1, copyC (r lc))).Pairwise (fun a b => a.1 < b.1) →
    readModels readC copyC (cs.map w) M = .ret () { M with models := M.models ++ cs.map fun lc => (lc.1, copyC (r lc)) } := by
  induction cs with
  | nil => intro M _ _ _; simp [readModels, pure_def]
  | cons lc cs ih =>
    intro M hv h hs
    obtain ⟨h1, h2⟩ := h lc List.mem_cons_self
    rw [List.map_cons, readModels, h1, bind_of_ret (liftE_ok _ _), show (Json.str lc.1 : Json K).asString = .ok lc.1 from rfl, bind_of_ret (liftE_ok _ _),
      bind_of_ret (get_def M), hv, bind_of_ret (h2 M), bind_of_ret (set_def _ _)]
    have hlast : SMap.insertNew lc.1 (copyC (r lc)) M.models = M.models ++ [(lc.1, copyC (r lc))] := by
      refine SMap.insertNew_last fun x hx => ?_
      rw [List.pairwise_append] at hs
      exact hs.2.2 x hx (lc.1, copyC (r lc)) (by simp)
    rw [hlast]
    refine (ih { M with models := M.models ++ [(lc.1, copyC (r lc))] } hv (fun lc' hlc => h lc' (List.mem_cons_of_mem _ hlc)) (by simpa using hs)).trans ?_
    simp

/-- the JSON of a model -/
def jsonOf (sh cfg : Json K) (cls : List (Json K)) : Json K := .obj [("shared_parameters", sh), ("configuration", cfg), ("models", .arr cls)]

theorem toJson_eq (writeP : P → Json K) (writeC : String → Prog C (Json K)) (M : ModelBody K P C) (sh : Json K) (w : String × C → Json K)
    (h1 : SharedParams.toJson M.shared = .ret sh M.shared) (h2 : ∀ lc ∈ M.models, writeC lc.1 lc.2 = .ret (w lc) lc.2) :
    toJson writeP writeC M = .ret (jsonOf sh (Configuration.toJson writeP M.config) (M.models.map w)) M := by
  rw [toJson, bind_of_ret (get_def M), bind_of_ret (apart_of_ret h1 M)]
  refine (bind_of_ret (mapM_ok _ w M M.models fun lc hlc => ?_)).trans rfl
  exact apart_of_ret (h2 lc hlc) M

/-- reading the JSON of a model back; `extra` are further members of the JSON object -/
theorem readJson_ok (readS : Json K → Prog (SharedParams K) Unit) (readP : Json K → Prog (Configuration P) Unit)
    (readC : SharedView → Json K → Prog (ModelBody K P C) (String × C)) (copyC : C → C) (w : String × C → Json K) (r : String × C → C)
    (M I : ModelBody K P C) (sh cfg root : Json K) (s' : SharedParams K) (c' : Configuration P)
    (k1 : root.getKey "shared_parameters" = .ok sh) (k2 : root.getKey "configuration" = .ok cfg) (k3 : root.getKey "models" = .ok (.arr (M.models.map w)))
    (h1 : readS sh I.shared = .ret () s') (hv : s'.values = M.shared.values) (h2 : readP cfg I.config = .ret () c') (hs : SMap.Sorted M.models)
    (h3 : ∀ lc ∈ M.models, (w lc).getKey "label" = .ok (.str lc.1) ∧ ∀ M', readC M.view (w lc) M' = .ret (lc.1, r lc) M') :
    readJson readS readP readC copyC root I = .ret () ⟨s', c', M.models.map fun lc => (lc.1, copyC (r lc))⟩ := by
  rw [readJson, k1, bind_of_ret (liftE_ok _ _), bind_of_ret (get_def I), bind_of_ret (build_of_ret h1 I), bind_of_ret (set_def _ _), k2,
    bind_of_ret (liftE_ok _ _), bind_of_ret (get_def _)]
  refine (bind_of_ret (build_of_ret h2 _)).trans ?_
  rw [bind_of_ret (set_def _ _), k3, bind_of_ret (liftE_ok _ _)]
  have hview : (⟨s', c', []⟩ : ModelBody K P C).view = M.view := by
    have e1 : s'.bimodal.value = M.shared.bimodal.value := congrArg SharedValues.bimodal hv
    have e2 : s'.dimension.value = M.shared.dimension.value := congrArg SharedValues.dimension hv
    have e3 : s'.dimensionInput.value = M.shared.dimensionInput.value := congrArg SharedValues.dimensionInput hv
    have e4 : s'.window.value = M.shared.window.value := congrArg SharedValues.window hv
    simp only [view, e1, e2, e3, e4]
  refine (readModels_ok readC copyC w r M.view M.models ⟨s', c', []⟩ hview h3 ?_).trans ?_
  · simp only [List.nil_append]
    exact List.pairwise_map.2 (hs.imp fun h => h)
  · rfl

end ModelBody

variable {K : Type} [Field K] [LinearOrder K] [JsonReal K] {nar : K → K} {tiny realMax : K} {alive : Nat → Bool}

theorem Gmm.copy_restored {m c : Gmm K} (h : m.Restored c) (z : K) : m.Restored (c.copy z) :=
  ⟨h.gaussians, h.mode, h.absReg, h.relReg, h.bimodal, h.dim, h.di, h.window, h.coeffs, h.comps, rfl⟩

theorem Hmm.copy_restored {m c : Hmm K} (h : m.Restored c) (z : K) : m.Restored (c.copy z) :=
  ⟨h.n, h.gaussians, h.ergodic, h.est, h.mode, h.absReg, h.relReg, h.bimodal, h.dim, h.di, h.window, h.prior, h.trans, h.exitP, by
    have := h.sts
    simp only [Hmm.copy]
    rw [List.forall₂_map_right_iff]
    exact this.imp fun a b hab => Gmm.copy_restored hab z, rfl⟩

/-- configurations of GMM parameters, written and read -/
abbrev GmmConfig (nar : K → K) (tiny realMax : K) : Configuration (GmmAttrs K) → ConfigSpec (GmmValues K) → Prop :=
  ConfigSavable (GmmAttrs.type tiny realMax) GmmEdit.run (GmmEdit.apply tiny realMax) gmmDefaults fun v => nar v.relReg = v.relReg ∧ nar v.absReg = v.absReg

/-- configurations of HMM parameters, written and read -/
abbrev HmmConfig (nar : K → K) (tiny realMax : K) : Configuration (HmmAttrs K) → ConfigSpec (HmmValues K) → Prop :=
  ConfigSavable (HmmAttrs.type tiny realMax) HmmEdit.run (HmmEdit.apply tiny realMax) hmmDefaults fun v => nar v.relReg = v.relReg ∧ nar v.absReg = v.absReg

/-- the configuration `c` has the modes of `c0` and the parameters that `s` says -/
def Configuration.Gives {P V : Type} (val : P → V) (same : V → V → Prop) (c0 c : Configuration P) (s : ConfigSpec V) : Prop :=
  c.multithreading = c0.multithreading ∧ c.estimator = c0.estimator ∧ same (val c.base) s.default ∧
    ∀ l, Configuration.includes l c = .ret (s.own l).isSome c ∧ same (val (Configuration.paramsFor l c)) (s.effective l)

theorem shared_ok {sp : SharedParams K} (h : SharedSavable alive nar realMax sp) (tmp me : Nat) :
    ∃ root t, SharedParams.toJson sp = .ret root sp ∧ SharedParams.fromJson alive nar tmp realMax root (SharedParams.fresh me realMax) = .ret () t ∧
      t.values = sp.values := by
  obtain ⟨me', hs⟩ := h.reached
  exact C27_shared_partial (tmp := tmp) hs h.admissible h.named h.float (SharedParams.fresh me realMax)

theorem config_gmm_ok (h1 : Regularization tiny realMax (1 / 100)) (h2 : Regularization tiny realMax (1 / 1000)) {c : Configuration (GmmAttrs K)}
    {s : ConfigSpec (GmmValues K)} (h : GmmConfig nar tiny realMax c s) (ids : JsonIds) :
    ∃ t, Configuration.fromJson (GmmAttrs.type tiny realMax) ids.config ids.slot (fun id => GmmAttrs.fromJson id nar (id + 1) tiny realMax) ids.configTmp ids.slotTmp
      (Configuration.toJson GmmAttrs.toJson c) (Configuration.fresh (GmmAttrs.type tiny realMax) ids.config) = .ret () t ∧
      Configuration.Gives GmmAttrs.values Eq c t s := by
  obtain ⟨me, slot, ops, hspec, c0, e1, e2⟩ := h.reached
  obtain ⟨c', c1, t', c2, c3, c4, c5, c6⟩ := C27_configuration_gmm_partial h1 h2 me ids.config ids.configTmp slot ids.slot ids.slotTmp ops s hspec h.float
    c.multithreading c.estimator h.threading h.estimator (Configuration.fresh (GmmAttrs.type tiny realMax) ids.config)
  rw [c1, Option.some.injEq] at e1
  rw [e1, ← e2] at c2
  exact ⟨t', c2, c3, c4, c5, c6⟩

/-- `hierarchical` is not read from JSON: a configuration that is read into a new one is hierarchical -/
theorem config_hierarchical {ids : JsonIds} {root : Json K} {t : Configuration (HmmAttrs K)}
    (h : Configuration.fromJson (HmmAttrs.type tiny realMax) ids.config ids.slot (fun id => HmmAttrs.fromJson id nar (id + 1) tiny realMax) ids.configTmp ids.slotTmp
      root (Configuration.fresh (HmmAttrs.type tiny realMax) ids.config) = .ret () t) : t.base.hierarchical.value = true := by
  unfold Configuration.fromJson at h
  split at h
  · injection h with _ h
    rw [← h]
    rfl
  · cases h
  · cases h

theorem config_hmm_ok (h1 : Regularization tiny realMax (1 / 100)) (h2 : Regularization tiny realMax (1 / 1000)) {c : Configuration (HmmAttrs K)}
    {s : ConfigSpec (HmmValues K)} (h : HmmConfig nar tiny realMax c s) (ids : JsonIds) :
    ∃ t, Configuration.fromJson (HmmAttrs.type tiny realMax) ids.config ids.slot (fun id => HmmAttrs.fromJson id nar (id + 1) tiny realMax) ids.configTmp ids.slotTmp
      (Configuration.toJson HmmAttrs.toJson c) (Configuration.fresh (HmmAttrs.type tiny realMax) ids.config) = .ret () t ∧
      Configuration.Gives HmmAttrs.values HmmValues.Same c t s := by
  obtain ⟨me, slot, ops, hspec, c0, e1, e2⟩ := h.reached
  obtain ⟨c', c1, t', c2, c3, c4, c5, c6⟩ := C27_configuration_hmm_partial h1 h2 me ids.config ids.configTmp slot ids.slot ids.slotTmp ops s hspec h.float
    c.multithreading c.estimator h.threading h.estimator (Configuration.fresh (HmmAttrs.type tiny realMax) ids.config)
  rw [c1, Option.some.injEq] at e1
  rw [e1, ← e2] at c2
  exact ⟨t', c2, c3, c4, c5, c6⟩

/-- what the JSON constructor of `GMM` makes of the JSON of a model -/
theorem gmm_loads (ids : JsonIds) (z : K) (h1 : Regularization tiny realMax (1 / 100)) (h2 : Regularization tiny realMax (1 / 1000))
    (M : GmmBody K) (s : ConfigSpec (GmmValues K)) (hs : SharedSavable alive nar realMax M.shared) (hc : GmmConfig nar tiny realMax M.config s)
    (hsort : SMap.Sorted M.models) (hcls : ∀ lc ∈ M.models, lc.2.Savable nar tiny realMax ∧ lc.2.Loadable ∧
      lc.2.view = ⟨M.shared.bimodal.value, M.shared.dimension.value, M.shared.dimensionInput.value, M.shared.window.value⟩) :
    ∃ root M', GmmBody.toJson M = .ret root M ∧ GmmBody.ofJson alive ids nar tiny realMax z root = .ret () M' ∧
      M'.shared.values = M.shared.values ∧ Configuration.Gives GmmAttrs.values Eq M.config M'.config s ∧
      M'.models = M.models.map fun lc => (lc.1, Gmm.copy z (lc.2.reread z)) := by
  obtain ⟨shj, t, s1, s2, s3⟩ := shared_ok hs ids.sharedTmp ids.shared
  obtain ⟨t', c2, c3⟩ := config_gmm_ok h1 h2 hc ids
  have W : ∀ lc : String × Gmm K, ∃ j, lc ∈ M.models → Gmm.toJson lc.1 lc.2 = .ret j lc.2 ∧ j.getKey "label" = .ok (.str lc.1) ∧
      ∀ M' : GmmBody K, Gmm.ofJson nar tiny realMax M.view z j M' = .ret (lc.1, lc.2.reread z) M' := by
    intro lc
    by_cases hm : lc ∈ M.models
    · obtain ⟨q1, q2, q3⟩ := hcls lc hm
      replace q3 : lc.2.view = M.view := q3
      obtain ⟨j, j1, j2, j3⟩ := Gmm.ofJson_ok (σ := GmmBody K) lc.2 q1 q2 lc.1 z
      exact ⟨j, fun _ => ⟨j1, j2, q3 ▸ j3⟩⟩
    · exact ⟨.null, fun h => absurd h hm⟩
  choose w hw using W
  refine ⟨_, _, ModelBody.toJson_eq GmmAttrs.toJson Gmm.toJson M shj w s1 fun lc hlc => (hw lc hlc).1,
    ModelBody.readJson_ok _ _ _ (Gmm.copy z) w (fun lc => lc.2.reread z) M _ shj _ _ t t' ?_ ?_ ?_ s2 s3 c2 hsort (fun lc hlc => (hw lc hlc).2), s3, c3, rfl⟩
  · simp [ModelBody.jsonOf, Json.getKey, Json.member, List.find?]
  · simp [ModelBody.jsonOf, Json.getKey, Json.member, List.find?]
  · simp [ModelBody.jsonOf, Json.getKey, Json.member, List.find?]

/-- **C57 (partial), GMM.**  A model whose shared parameters have been set by any history of calls, whose configuration has been edited in any way, and whose classes
    have been trained with Full covariances (or in dimension 1): `toJson` returns, and the model constructed from the result has the same shared parameters, the same
    configuration, the same labels in the same order, and every class has the same parameters, mixture coefficients and Gaussian components.
    Missing: Diagonal covariances (`C57_gmm_diagonal_violated`), parameters that are not `float`s. -/
theorem C57_gmm_partial (ids : JsonIds) (z : K) (h1 : Regularization tiny realMax (1 / 100)) (h2 : Regularization tiny realMax (1 / 1000))
    (M : GmmBody K) (s : ConfigSpec (GmmValues K)) (hs : SharedSavable alive nar realMax M.shared) (hc : GmmConfig nar tiny realMax M.config s)
    (hsort : SMap.Sorted M.models) (hcls : ∀ lc ∈ M.models, lc.2.Savable nar tiny realMax ∧ lc.2.Loadable ∧
      lc.2.view = ⟨M.shared.bimodal.value, M.shared.dimension.value, M.shared.dimensionInput.value, M.shared.window.value⟩) :
    ∃ root M', GmmBody.toJson M = .ret root M ∧ GmmBody.ofJson alive ids nar tiny realMax z root = .ret () M' ∧
      M'.shared.values = M.shared.values ∧ Configuration.Gives GmmAttrs.values Eq M.config M'.config s ∧
      List.Forall₂ (fun lc lc' => lc'.1 = lc.1 ∧ lc.2.Restored lc'.2) M.models M'.models := by
  obtain ⟨root, M', a1, a2, a3, a4, a5⟩ := gmm_loads ids z h1 h2 M s hs hc hsort hcls
  refine ⟨root, M', a1, a2, a3, a4, ?_⟩
  rw [a5, List.forall₂_map_right_iff]
  exact List.forall₂_same.2 fun lc _ => ⟨rfl, Gmm.copy_restored (lc.2.reread_restored z) z⟩

namespace HierBody

/-- the members that a hierarchical model adds to the JSON of its base class -/
def jsonOf (sh cfg : Json K) (cls : List (Json K)) (prior : List K) (trans : List (List K)) (exitTrans : List K) : Json K :=
  .obj [("shared_parameters", sh), ("configuration", cfg), ("models", .arr cls), ("prior", vector2json (realCodec K) prior),
    ("transition", .arr (trans.map (vector2json (realCodec K)))), ("exit_transition", vector2json (realCodec K) exitTrans)]

theorem toJson_eq (h : Bool) (M : HierBody K) (sh : Json K) (w : String × Hmm K → Json K) (ht : M.training = false)
    (h1 : SharedParams.toJson M.body.shared = .ret sh M.body.shared) (h2 : ∀ lc ∈ M.body.models, Hmm.toJson h lc.1 lc.2 = .ret (w lc) lc.2)
    (hn : M.trans.length = M.body.models.length) :
    toJson h M = .ret (jsonOf sh (Configuration.toJson HmmAttrs.toJson M.body.config) (M.body.models.map w) M.prior M.trans M.exitTrans) M := by
  rw [toJson, bind_of_ret (get_def M), if_neg (by simp [ht]), bind_of_ret (apart_of_ret (ModelBody.toJson_eq HmmAttrs.toJson (Hmm.toJson h) M.body sh w h1 h2) M)]
  refine (bind_of_ret (a := M.trans.map (vector2json (realCodec K))) (s' := M) ?_).trans rfl
  rw [← hn, ← List.length_map (f := vector2json (realCodec K))]
  refine mapM_range _ _ _ fun c j hc => ?_
  rw [List.getElem?_map] at hc
  cases hg : M.trans[c]? with
  | none => rw [hg] at hc; cases hc
  | some row =>
    rw [hg] at hc
    cases hc
    rw [bind_of_ret (Gmm.rd_some hg M)]; rfl

theorem readRows_ok {σ : Type} (rows : List (List K)) (n : Nat) (h1 : rows.length = n) (h2 : ∀ r ∈ rows, r.length = n) (s : σ) :
    readRows n (.arr (rows.map (vector2json (realCodec K)))) s = .ret rows s := by
  subst h1
  rw [readRows]
  refine mapM_range _ _ _ fun c row hc => ?_
  have : (Json.arr (rows.map (vector2json (realCodec K))) : Json K).getIndex c = .ok (vector2json (realCodec K) row) := by
    simp [Json.getIndex, hc]
  rw [this, bind_of_ret (liftE_ok _ _), Gauss.readVector_ok row _ _ (h2 row (List.mem_of_getElem? hc)).symm (Gauss.resize_length _ _)]

end HierBody

/-- what the JSON constructor of `HierarchicalHMM` makes of the JSON of a model -/
theorem hmm_loads [IsStrictOrderedRing K] (ids : JsonIds) (z : K) (h1 : Regularization tiny realMax (1 / 100)) (h2 : Regularization tiny realMax (1 / 1000))
    (hb : Bool) (M : HierBody K) (s : ConfigSpec (HmmValues K)) (hs : SharedSavable alive nar realMax M.body.shared) (hc : HmmConfig nar tiny realMax M.body.config s)
    (hsort : SMap.Sorted M.body.models) (hcls : ∀ lc ∈ M.body.models, lc.2.Savable nar tiny realMax ∧ lc.2.Loadable ∧
      lc.2.view = ⟨M.body.shared.bimodal.value, M.body.shared.dimension.value, M.body.shared.dimensionInput.value, M.body.shared.window.value⟩)
    (hi : M.training = false) (hp : M.prior.length = M.body.models.length) (ht : M.trans.length = M.body.models.length)
    (hr : ∀ row ∈ M.trans, row.length = M.body.models.length) (he : M.exitTrans.length = M.body.models.length) :
    ∃ root M' B, HierBody.toJson hb M = .ret root M ∧ HierBody.ofJson alive ids nar tiny realMax z root = .ret M' B ∧
      M'.body.shared.values = M.body.shared.values ∧ Configuration.Gives HmmAttrs.values HmmValues.Same M.body.config M'.body.config s ∧
      (∃ a : String × Hmm K → Gmm K, M'.body.models = M.body.models.map fun lc => (lc.1, Hmm.copy z (lc.2.reread z (a lc)))) ∧
      M'.prior = M.prior ∧ M'.trans = M.trans ∧ M'.exitTrans = M.exitTrans ∧ M'.training = false ∧ M'.body.config.base.hierarchical.value = true := by
  obtain ⟨shj, t, s1, s2, s3⟩ := shared_ok hs ids.sharedTmp ids.shared
  obtain ⟨t', c2, c3⟩ := config_hmm_ok h1 h2 hc ids
  have W : ∀ lc : String × Hmm K, ∃ j a, lc ∈ M.body.models → Hmm.toJson hb lc.1 lc.2 = .ret j lc.2 ∧ j.getKey "label" = .ok (.str lc.1) ∧
      ∀ M' : ModelBody K (HmmAttrs K) (Hmm K), Hmm.ofJson nar tiny realMax M.body.view z j M' = .ret (lc.1, lc.2.reread z a) M' := by
    intro lc
    by_cases hm : lc ∈ M.body.models
    · obtain ⟨q1, q2, q3⟩ := hcls lc hm
      replace q3 : lc.2.view = M.body.view := q3
      obtain ⟨j, a, j1, j2, j3⟩ := Hmm.ofJson_ok (σ := ModelBody K (HmmAttrs K) (Hmm K)) lc.2 q1 q2 hb lc.1 z
      exact ⟨j, a, fun _ => ⟨j1, j2, q3 ▸ j3⟩⟩
    · exact ⟨.null, ⟨0, .full, 0, 0, false, 0, 0, 0, [], [], [], [], false, CBuf.construct 0 1 1, 0, 0, [], []⟩, fun h => absurd h hm⟩
  choose w a hw using W
  refine ⟨_, ⟨⟨t, t', M.body.models.map fun lc => (lc.1, Hmm.copy z (lc.2.reread z (a lc)))⟩, M.prior, M.trans, M.exitTrans, false⟩,
    ⟨t, t', M.body.models.map fun lc => (lc.1, Hmm.copy z (lc.2.reread z (a lc)))⟩, HierBody.toJson_eq hb M shj w hi s1 (fun lc hlc => (hw lc hlc).1) ht, ?_, s3, c3, ⟨a, rfl⟩, rfl, rfl, rfl, rfl, config_hierarchical c2⟩
  set root := HierBody.jsonOf shj (Configuration.toJson HmmAttrs.toJson M.body.config) (M.body.models.map w) M.prior M.trans M.exitTrans with hroot
  rw [HierBody.ofJson, bind_of_ret (ModelBody.readJson_ok _ _ _ (Hmm.copy z) w (fun lc => lc.2.reread z (a lc)) M.body _ shj _ _ t t'
    (by simp [hroot, HierBody.jsonOf, Json.getKey, Json.member, List.find?]) (by simp [hroot, HierBody.jsonOf, Json.getKey, Json.member, List.find?])
    (by simp [hroot, HierBody.jsonOf, Json.getKey, Json.member, List.find?]) s2 s3 c2 hsort (fun lc hlc => (hw lc hlc).2)), bind_of_ret (get_def _)]
  have k1 : root.getKey "prior" = .ok (vector2json (realCodec K) M.prior) := by simp [hroot, HierBody.jsonOf, Json.getKey, Json.member, List.find?]
  have k2 : root.getKey "transition" = .ok (.arr (M.trans.map (vector2json (realCodec K)))) := by
    simp [hroot, HierBody.jsonOf, Json.getKey, Json.member, List.find?]
  have k3 : root.getKey "exit_transition" = .ok (vector2json (realCodec K) M.exitTrans) := by
    simp [hroot, HierBody.jsonOf, Json.getKey, Json.member, List.find?]
  simp only [List.length_map]
  rw [k1, bind_of_ret (liftE_ok _ _), bind_of_ret (Gauss.readVector_ok M.prior _ _ hp.symm (Gauss.resize_length _ _) _), k2, bind_of_ret (liftE_ok _ _),
    bind_of_ret (HierBody.readRows_ok M.trans _ ht hr _), k3, bind_of_ret (liftE_ok _ _),
    bind_of_ret (Gauss.readVector_ok M.exitTrans _ _ he.symm (Gauss.resize_length _ _) _)]
  rfl

/-- **C57 (partial), hierarchical HMM.**  As for GMMs: the shared parameters, the configuration (except `hierarchical`), the labels, the parameters, transition, prior and
    exit probabilities and the states of every class, and the prior, transition and exit probabilities between classes are restored.
    Missing: Diagonal covariances (`C57_hmm_diagonal_violated`), classes retrained in non-hierarchical mode with another number of states (`C57_hmm_flat_violated`),
    the parameter `hierarchical` (`C57_hmm_hierarchical_violated`), parameters that are not `float`s. -/
theorem C57_hmm_partial [IsStrictOrderedRing K] (ids : JsonIds) (z : K) (h1 : Regularization tiny realMax (1 / 100)) (h2 : Regularization tiny realMax (1 / 1000))
    (hb : Bool) (M : HierBody K) (s : ConfigSpec (HmmValues K)) (hs : SharedSavable alive nar realMax M.body.shared) (hc : HmmConfig nar tiny realMax M.body.config s)
    (hsort : SMap.Sorted M.body.models) (hcls : ∀ lc ∈ M.body.models, lc.2.Savable nar tiny realMax ∧ lc.2.Loadable ∧
      lc.2.view = ⟨M.body.shared.bimodal.value, M.body.shared.dimension.value, M.body.shared.dimensionInput.value, M.body.shared.window.value⟩)
    (hi : M.training = false) (hp : M.prior.length = M.body.models.length) (ht : M.trans.length = M.body.models.length)
    (hr : ∀ row ∈ M.trans, row.length = M.body.models.length) (he : M.exitTrans.length = M.body.models.length) :
    ∃ root M' B, HierBody.toJson hb M = .ret root M ∧ HierBody.ofJson alive ids nar tiny realMax z root = .ret M' B ∧
      M'.body.shared.values = M.body.shared.values ∧ Configuration.Gives HmmAttrs.values HmmValues.Same M.body.config M'.body.config s ∧
      List.Forall₂ (fun lc lc' => lc'.1 = lc.1 ∧ lc.2.Restored lc'.2) M.body.models M'.body.models ∧
      M'.prior = M.prior ∧ M'.trans = M.trans ∧ M'.exitTrans = M.exitTrans ∧ M'.training = false := by
  obtain ⟨root, M', B, a1, a2, a3, a4, ⟨a, a5⟩, a6, a7, a8, a9, _⟩ := hmm_loads ids z h1 h2 hb M s hs hc hsort hcls hi hp ht hr he
  refine ⟨root, M', B, a1, a2, a3, a4, ?_, a6, a7, a8, a9⟩
  rw [a5, List.forall₂_map_right_iff]
  exact List.forall₂_same.2 fun lc _ => ⟨rfl, Hmm.copy_restored (lc.2.reread_restored z _) z⟩

/-! ### Classes whose JSON is rejected -/

/-- **C57 (violated), GMM class.**  The JSON of a trained class with Diagonal covariances in dimension at least 2 is rejected. -/
theorem Gmm.ofJson_diagonal {σ : Type} (m : Gmm K) (h : m.Savable nar tiny realMax) (hm : m.mode = .diagonal) (hd : 2 ≤ m.dim) (label : String) (z : K) :
    ∃ root, toJson label m = .ret root m ∧ root.getKey "label" = .ok (.str label) ∧
      ∀ s : σ, ofJson nar tiny realMax m.view z root s = .throw .jsonValueError s := by
  refine ⟨_, toJson_eq m label h.idle h.comps, by simp [Json.getKey, Json.member, List.find?], fun s => ?_⟩
  set root := Json.obj [("label", .str label), ("mixture_coeffs", vector2json (realCodec K) m.coeffs), ("parameters", m.attrs.toJson),
       ("components", Json.arr (m.comps.map Gauss.toJson))] with hroot
  have k1 : root.getKey "label" = .ok (.str label) := by simp [hroot, Json.getKey, Json.member, List.find?]
  have k2 : root.getKey "mixture_coeffs" = .ok (vector2json (realCodec K) m.coeffs) := by simp [hroot, Json.getKey, Json.member, List.find?]
  have k3 : root.getKey "parameters" = .ok m.attrs.toJson := by simp [hroot, Json.getKey, Json.member, List.find?]
  have k4 : root.getKey "components" = .ok (.arr (m.comps.map Gauss.toJson)) := by simp [hroot, Json.getKey, Json.member, List.find?]
  obtain ⟨p, p1, p2⟩ := readAttrs_ok m h root k3 s
  rw [ofJson, k1, bind_of_ret (liftE_ok _ _), show (Json.str label : Json K).asString = .ok label from rfl, bind_of_ret (liftE_ok _ _), bind_of_ret p1, unread_eq m z p p2]
  have key : ∃ t', readBody root (m.blank z) = .throw .jsonValueError t' := ?_
  · obtain ⟨t', ht'⟩ := key
    exact bind_of_throw (build_of_throw ht' s)
  rw [readBody]
  obtain ⟨g, hg⟩ := allocate_eq (m.blank z) h.dims
  apply Exists.intro
  rw [bind_of_ret hg, k2, bind_of_ret (liftE_ok _ _)]
  refine (bind_of_ret (readCoeffs_ok m.coeffs _ ?_ ?_)).trans ?_
  · exact h.coeffs
  · exact Gauss.resize_length _ _
  rw [k4, bind_of_ret (liftE_ok _ _)]
  have hpos : 0 < m.comps.length := by rw [h.comps]; exact h.gaussians.1
  obtain ⟨g0, gs, hgs⟩ : ∃ g0 gs, m.comps = g0 :: gs := by
    cases hc : m.comps with
    | nil => rw [hc] at hpos; exact absurd hpos (lt_irrefl _)
    | cons g0 gs => exact ⟨g0, gs, rfl⟩
  obtain ⟨q1, q2, q3⟩ := h.settled g0 (by rw [hgs]; exact List.mem_cons_self)
  rw [hgs, show (Json.arr (List.map Gauss.toJson (g0 :: gs))).elements = g0.toJson :: gs.map Gauss.toJson from rfl]
  refine bind_of_throw (readComponents_bad g0 _ _ q1.plain (q3.trans hm) (q2 ▸ hd) ?_)
  simp only [List.length_replicate]
  exact h.gaussians.1

/-- the loop over the classes stops at the first one whose JSON is rejected -/
theorem ModelBody.readModels_throw {P C : Type} (readC : SharedView → Json K → Prog (ModelBody K P C) (String × C)) (copyC : C → C) (w : String × C → Json K)
    (sh : SharedView) (e : Exn) (cs : List (String × C)) : ∀ (M : ModelBody K P C), M.view = sh →
    (∀ lc ∈ cs, (w lc).getKey "label" = .ok (.str lc.1) ∧
      ((∃ r, ∀ M', readC sh (w lc) M' = .ret (lc.1, r) M') ∨ ∀ M', readC sh (w lc) M' = .throw e M')) →
    (∃ lc ∈ cs, ∀ M', readC sh (w lc) M' = .throw e M') →
    ∃ M', readModels readC copyC (cs.map w) M = .throw e M' := by
  induction cs with
  | nil => rintro M _ _ ⟨lc, h, -⟩; cases h
  | cons lc cs ih =>
    intro M hv h hbad
    obtain ⟨h1, h2⟩ := h lc List.mem_cons_self
    rw [List.map_cons, readModels, h1, bind_of_ret (liftE_ok _ _), show (Json.str lc.1 : Json K).asString = .ok lc.1 from rfl, bind_of_ret (liftE_ok _ _),
      bind_of_ret (get_def M), hv]
    rcases h2 with ⟨r, hr⟩ | hr
    · rw [bind_of_ret (hr M), bind_of_ret (set_def _ _)]
      refine ih _ hv (fun lc' hlc => h lc' (List.mem_cons_of_mem _ hlc)) ?_
      obtain ⟨lc', hm, hb⟩ := hbad
      rcases List.mem_cons.1 hm with rfl | hm
      · have := hr M
        rw [hb M] at this
        cases this
      · exact ⟨lc', hm, hb⟩
    · exact ⟨M, bind_of_throw (hr M)⟩

theorem ModelBody.readJson_throw {P C : Type} (readS : Json K → Prog (SharedParams K) Unit) (readP : Json K → Prog (Configuration P) Unit)
    (readC : SharedView → Json K → Prog (ModelBody K P C) (String × C)) (copyC : C → C) (w : String × C → Json K) (e : Exn)
    (M I : ModelBody K P C) (sh cfg root : Json K) (s' : SharedParams K) (c' : Configuration P)
    (k1 : root.getKey "shared_parameters" = .ok sh) (k2 : root.getKey "configuration" = .ok cfg) (k3 : root.getKey "models" = .ok (.arr (M.models.map w)))
    (h1 : readS sh I.shared = .ret () s') (hv : s'.values = M.shared.values) (h2 : readP cfg I.config = .ret () c')
    (h3 : ∀ lc ∈ M.models, (w lc).getKey "label" = .ok (.str lc.1) ∧
      ((∃ r, ∀ M', readC M.view (w lc) M' = .ret (lc.1, r) M') ∨ ∀ M', readC M.view (w lc) M' = .throw e M'))
    (h4 : ∃ lc ∈ M.models, ∀ M', readC M.view (w lc) M' = .throw e M') :
    ∃ M', readJson readS readP readC copyC root I = .throw e M' := by
  rw [readJson, k1, bind_of_ret (liftE_ok _ _), bind_of_ret (get_def I), bind_of_ret (build_of_ret h1 I), bind_of_ret (set_def _ _), k2,
    bind_of_ret (liftE_ok _ _), bind_of_ret (get_def _)]
  have hview : (⟨s', c', []⟩ : ModelBody K P C).view = M.view := by
    have e1 : s'.bimodal.value = M.shared.bimodal.value := congrArg SharedValues.bimodal hv
    have e2 : s'.dimension.value = M.shared.dimension.value := congrArg SharedValues.dimension hv
    have e3 : s'.dimensionInput.value = M.shared.dimensionInput.value := congrArg SharedValues.dimensionInput hv
    have e4 : s'.window.value = M.shared.window.value := congrArg SharedValues.window hv
    simp only [view, e1, e2, e3, e4]
  obtain ⟨M', hM'⟩ := readModels_throw readC copyC w M.view e M.models ⟨s', c', []⟩ hview h3 h4
  refine ⟨M', (bind_of_ret (build_of_ret h2 _)).trans ?_⟩
  rw [bind_of_ret (set_def _ _), k3, bind_of_ret (liftE_ok _ _)]
  exact hM'

end Xmm
