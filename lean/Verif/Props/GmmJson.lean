import Verif.Spec.ModelJson
import Verif.Lemmas.Sim
import Verif.Props.ClassParams
import Verif.Lemmas.Gmm
import Verif.Props.GmmEm
set_option linter.unusedSectionVars false
/- C57: JSON of a GMM class. -/
namespace Xmm
open Prog (bind_def pure_def get_def set_def modify_def throw_def undef_def)
open SharedParams (liftE_ok)

theorem build_of_ret {σ τ : Type} {f : Prog τ Unit} {t t' : τ} (h : f t = .ret () t') (s : σ) : Prog.build f t s = .ret t' s := by
  rw [Prog.build, h]

theorem build_of_throw {σ τ : Type} {f : Prog τ Unit} {t t' : τ} {e : Exn} (h : f t = .throw e t') (s : σ) : Prog.build f t s = .throw e s := by
  rw [Prog.build, h]

theorem apart_of_ret {σ τ α : Type} {f : Prog τ α} {t t' : τ} {a : α} (h : f t = .ret a t') (s : σ) : Prog.apart f t s = .ret a s := by
  rw [Prog.apart, h]

theorem covModeOf_code (m : CovMode) : covModeOf (Gauss.modeCode m) = m := by cases m <;> rfl

/-- reading the elements of a list in turn -/
theorem mapM_range {σ β : Type} (r : List β) (body : Nat → Prog σ β) (s : σ) (h : ∀ c b, r[c]? = some b → body c s = .ret b s) :
    (List.range r.length).mapM body s = .ret r s := by
  cases r with
  | nil => rfl
  | cons a l =>
    rw [prog_mapM_ret _ body (fun c => (a :: l).getD c a) s fun c hc => h c _ ?_]
    · congr 1
      refine List.ext_getElem? fun i => ?_
      rw [List.getElem?_map]
      by_cases hi : i < (a :: l).length
      · rw [List.getElem?_range hi, List.getElem?_eq_getElem hi]
        simp only [Option.map_some, List.getD_eq_getElem?_getD, List.getElem?_eq_getElem hi, Option.getD_some]
      · rw [List.getElem?_eq_none (by simpa using hi), List.getElem?_eq_none (by simpa using hi)]; rfl
    · have hc' := List.mem_range.1 hc
      rw [List.getElem?_eq_getElem hc', List.getD_eq_getElem?_getD, List.getElem?_eq_getElem hc', Option.getD_some]

namespace Gmm
variable {K : Type} [Field K] [LinearOrder K] [JsonReal K] {nar : K → K} {tiny realMax : K}

/-- what a class is after its JSON has been read -/
def reread (z : K) (m : Gmm K) : Gmm K :=
  { m with comps := m.comps.map Gauss.unlimited, beta := List.replicate m.gaussians 0, reg := [], training := false, buf := CBuf.construct 0 1 1,
           instant := z, logLik := z, outVals := [], outCov := [] }

theorem toJson_eq (m : Gmm K) (label : String) (h1 : m.training = false) (h2 : m.comps.length = m.gaussians) :
    toJson label m = .ret (.obj
      [("label", .str label), ("mixture_coeffs", vector2json (realCodec K) m.coeffs), ("parameters", m.attrs.toJson),
       ("components", .arr (m.comps.map Gauss.toJson))]) m := by
  rw [toJson, bind_of_ret (a := ()) (s' := m) (by simp [checkTraining, h1, bind_def, get_def, pure_def]), bind_of_ret (get_def m)]
  refine (bind_of_ret (a := m.comps.map Gauss.toJson) (s' := m) ?_).trans rfl
  rw [← h2, ← List.length_map (f := Gauss.toJson)]
  refine mapM_range _ _ _ fun c j hc => ?_
  rw [List.getElem?_map] at hc
  cases hg : m.comps[c]? with
  | none => rw [hg] at hc; cases hc
  | some g =>
    rw [hg] at hc
    cases hc
    rw [bind_of_ret (rd_some hg m)]; rfl

theorem readComponents_ok : ∀ (gs : List (Gauss K)) (k : Nat) (m : Gmm K), (∀ g ∈ gs, g.Plain ∧ (g.mode = .full ∨ g.dim = 1)) →
    k + gs.length = m.comps.length →
    readComponents (gs.map Gauss.toJson) k m = .ret () { m with comps := m.comps.take k ++ gs.map Gauss.reloaded }
  | [], k, m, _, hk => by
    have : m.comps.take k = m.comps := List.take_of_length_le (by simp at hk; omega)
    simp [readComponents, this, pure_def]
  | g :: gs, k, m, h, hk => by
    have hg := h g List.mem_cons_self
    simp only [List.length_cons] at hk
    simp only [List.map_cons, readComponents]
    rw [bind_of_ret (get_def m), if_pos (by omega), bind_of_ret (Gauss.ofJson_ok g hg.1 hg.2 m), bind_of_ret (set_def _ _)]
    rw [readComponents_ok gs (k + 1) _ (fun g' hg' => h g' (List.mem_cons_of_mem _ hg')) (by simp; omega)]
    have : (m.comps.set k g.reloaded).take (k + 1) = m.comps.take k ++ [g.reloaded] := by
      rw [List.take_set, List.take_succ_eq_append_getElem (by omega), List.set_append_right _ _ (by simp)]
      simp [Nat.min_eq_left (show k ≤ m.comps.length by omega)]
    simp [this]

theorem readComponents_bad (g : Gauss K) (js : List (Json K)) (m : Gmm K) (h : g.Plain) (hm : g.mode = .diagonal) (hd : 2 ≤ g.dim) (hk : 0 < m.comps.length) :
    readComponents (g.toJson :: js) 0 m = .throw .jsonValueError m := by
  rw [readComponents, bind_of_ret (get_def m), if_pos hk, bind_of_throw (Gauss.ofJson_diagonal g h hm hd m)]

/-- the parameters read from JSON -/
theorem readAttrs_ok {σ : Type} (m : Gmm K) (h : m.Savable nar tiny realMax) (root : Json K) (hj : root.getKey "parameters" = .ok m.attrs.toJson) (s : σ) :
    ∃ p, readAttrs nar tiny realMax root s = .ret p s ∧ p.values = m.attrs.values := by
  obtain ⟨t, h1, h2, -⟩ := C27_gmm_json_partial (me := 0) (tmp := 1) (nar := nar) (tiny := tiny) (realMax := realMax) (p := m.attrs)
    ⟨h.gaussians, h.relReg, h.absReg, by cases hm : m.mode <;> simp [attrs, GmmAttrs.values, Attr.holding, Gauss.modeCode, hm]⟩ h.relFloat h.absFloat
    (GmmAttrs.fresh 0 tiny realMax)
  exact ⟨t, by rw [readAttrs, hj, bind_of_ret (liftE_ok _ _)]; exact build_of_ret h1 s, h2⟩

/-- the view of the shared parameters that the class has -/
def view (m : Gmm K) : SharedView := ⟨m.bimodal, m.dim, m.di, m.window⟩

/-- a class with the parameters of `m` and nothing else -/
def blank (m : Gmm K) (z : K) : Gmm K :=
  { m with comps := [], coeffs := [], beta := [], reg := [], training := false, buf := CBuf.construct 0 1 1, instant := z, logLik := z, outVals := [], outCov := [] }

theorem unread_eq (m : Gmm K) (z : K) (p : GmmAttrs K) (hp : p.values = m.attrs.values) : unread m.view z p = m.blank z := by
  have e1 : p.gaussians.value = m.gaussians := congrArg GmmValues.gaussians hp
  have e2 : p.relReg.value = m.relReg := congrArg GmmValues.relReg hp
  have e3 : p.absReg.value = m.absReg := congrArg GmmValues.absReg hp
  have e4 : p.covMode.value = Gauss.modeCode m.mode := congrArg GmmValues.covMode hp
  rw [unread, e1, e2, e3, e4, covModeOf_code]; rfl

theorem allocate_eq (m : Gmm K) (h : GoodDims m.bimodal m.dim m.di) : ∃ g,
    allocate m = .ret () { m with coeffs := Gauss.resize m.gaussians m.coeffs, beta := Gauss.resize m.gaussians m.beta,
                                  comps := List.replicate m.gaussians g } := by
  have hc : ∃ g : Gauss K, Gauss.construct m.bimodal m.dim m.di m.mode = some g := by
    obtain ⟨h1, h2⟩ := h
    exact ⟨_, by rw [Gauss.construct, if_neg (by omega), if_neg (by omega)]⟩
  obtain ⟨g, hg⟩ := hc
  refine ⟨g, ?_⟩
  rw [allocate, bind_of_ret (modify_def _ _), bind_of_ret (get_def _)]
  simp only [hg, set_def]

theorem readCoeffs_ok (c : List K) (t : Gmm K) (h1 : c.length = t.gaussians) (h2 : t.coeffs.length = t.gaussians) :
    readCoeffs (vector2json (realCodec K) c) t = .ret () { t with coeffs := c } := by
  rw [readCoeffs, bind_of_ret (get_def _), bind_of_ret (Gauss.readVector_ok c t.coeffs _ h1.symm h2 _)]
  rfl

/-- reading the JSON of a class back -/
theorem ofJson_ok {σ : Type} (m : Gmm K) (h : m.Savable nar tiny realMax) (hl : m.Loadable) (label : String) (z : K) :
    ∃ root, toJson label m = .ret root m ∧ root.getKey "label" = .ok (.str label) ∧
      ∀ s : σ, ofJson nar tiny realMax m.view z root s = .ret (label, m.reread z) s := by
  refine ⟨_, toJson_eq m label h.idle h.comps, by simp [Json.getKey, Json.member, List.find?], fun s => ?_⟩
  set root := Json.obj [("label", .str label), ("mixture_coeffs", vector2json (realCodec K) m.coeffs), ("parameters", m.attrs.toJson),
       ("components", Json.arr (m.comps.map Gauss.toJson))] with hroot
  have k1 : root.getKey "label" = .ok (.str label) := by simp [hroot, Json.getKey, Json.member, List.find?]
  have k2 : root.getKey "mixture_coeffs" = .ok (vector2json (realCodec K) m.coeffs) := by simp [hroot, Json.getKey, Json.member, List.find?]
  have k3 : root.getKey "parameters" = .ok m.attrs.toJson := by simp [hroot, Json.getKey, Json.member, List.find?]
  have k4 : root.getKey "components" = .ok (.arr (m.comps.map Gauss.toJson)) := by simp [hroot, Json.getKey, Json.member, List.find?]
  obtain ⟨p, p1, p2⟩ := readAttrs_ok m h root k3 s
  rw [ofJson, k1, bind_of_ret (liftE_ok _ _), show (Json.str label : Json K).asString = .ok label from rfl, bind_of_ret (liftE_ok _ _), bind_of_ret p1, unread_eq m z p p2]
  refine (bind_of_ret (build_of_ret ?_ s)).trans rfl
  rw [readBody]
  obtain ⟨g, hg⟩ := allocate_eq (m.blank z) h.dims
  rw [bind_of_ret hg, k2, bind_of_ret (liftE_ok _ _)]
  refine (bind_of_ret (readCoeffs_ok m.coeffs _ ?_ ?_)).trans ?_
  · exact h.coeffs
  · exact Gauss.resize_length _ _
  rw [k4, bind_of_ret (liftE_ok _ _)]
  refine (bind_of_ret (readComponents_ok m.comps 0 _ (fun g hg => ⟨(h.settled g hg).1.plain, by
    obtain ⟨-, h2, h3⟩ := h.settled g hg
    rw [h2, h3]; exact hl⟩) ?_)).trans ?_
  · simp [h.comps, blank]
  have F : ∀ g ∈ m.comps, Gauss.updateInverseCovariance g.reloaded = .ret () g.unlimited := fun g hg =>
    Gauss.update_reloaded g (h.settled g hg).1.out (h.settled g hg).1.current
  rw [updateInverseCovariances, eachComp_ret _ (fun g => match Gauss.updateInverseCovariance g with | .ret _ g' => g' | _ => g)]
  · simp only [reread, blank, List.take_zero, List.nil_append, List.map_map, Gauss.resize, List.take_nil, List.length_nil, Nat.sub_zero]
    congr 2
    refine List.map_congr_left fun g hg => ?_
    simp [F g hg]
  · intro g' hg'
    simp only [List.take_zero, List.nil_append, List.mem_map] at hg'
    obtain ⟨g, hg, rfl⟩ := hg'
    rw [F g hg]

theorem reread_restored (z : K) (m : Gmm K) : m.Restored (m.reread z) where
  gaussians := rfl
  mode := rfl
  absReg := rfl
  relReg := rfl
  bimodal := rfl
  dim := rfl
  di := rfl
  window := rfl
  coeffs := rfl
  comps := by
    simp only [reread]
    rw [List.forall₂_map_right_iff]
    exact List.forall₂_same.2 fun g _ => ⟨⟨rfl, rfl, rfl, rfl, rfl, rfl, rfl, rfl, rfl, rfl⟩, rfl⟩
  idle := rfl

end Gmm
end Xmm
