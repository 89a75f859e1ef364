import Verif.Props.GmmJson
import Verif.Props.HmmParams
set_option linter.unusedSectionVars false
/- C57: JSON of a HMM class. -/
namespace Xmm
open Prog (bind_def pure_def get_def set_def modify_def throw_def undef_def)
open SharedParams (liftE_ok)
open Gauss (resize)

variable {K : Type} [Field K] [LinearOrder K] [JsonReal K] {nar : K → K} {tiny realMax : K}

/-- the class `a` after the class `st` has been assigned to it -/
def Gmm.assigned (st a : Gmm K) : Gmm K :=
  { a with gaussians := st.gaussians, mode := st.mode, absReg := st.absReg, relReg := st.relReg, bimodal := st.bimodal, dim := st.dim, di := st.di,
           window := st.window, comps := st.comps, coeffs := st.coeffs, beta := resize st.gaussians a.beta, training := false }

theorem Gmm.assigned_restored {m st : Gmm K} (h : m.Restored st) (a : Gmm K) : m.Restored (st.assigned a) :=
  ⟨h.gaussians, h.mode, h.absReg, h.relReg, h.bimodal, h.dim, h.di, h.window, h.coeffs, h.comps, rfl⟩

/-- reading the JSON of a class into a class that has the same shared parameters -/
theorem Gmm.fromJson_ok (m a : Gmm K) (h : m.Savable nar tiny realMax) (hl : m.Loadable) (label : String) (z : K) (ha : a.training = false)
    (hv : a.view = m.view) :
    ∃ root, toJson label m = .ret root m ∧ fromJson nar tiny realMax z root a = .ret label ((m.reread z).assigned a) := by
  obtain ⟨root, h1, -, h3⟩ := ofJson_ok (σ := Gmm K) m h hl label z
  refine ⟨root, h1, ?_⟩
  rw [fromJson, bind_of_ret (a := ()) (s' := a) (by simp [checkTraining, ha, bind_def, get_def, pure_def]), bind_of_ret (get_def a)]
  have : (⟨a.bimodal, a.dim, a.di, a.window⟩ : SharedView) = m.view := hv
  rw [this, bind_of_ret (h3 a)]
  refine (bind_of_ret (a := ()) (s' := (m.reread z).assigned a) ?_).trans rfl
  rw [assignFrom, bind_of_ret (get_def a), if_neg (by simp [ha, reread])]
  rfl

namespace Hmm

/-- what a class is after its JSON has been read; `a` is a state before it is read -/
def reread (z : K) (a : Gmm K) (m : Hmm K) : Hmm K :=
  { m with
    sts := m.sts.map fun st => (st.reread z).assigned a
    alpha := resize m.n [], prevAlpha := resize m.n [], beta := resize m.n [], prevBeta := resize m.n [], alpha0 := [], alpha1 := [], alpha2 := []
    hier := true, started := false, training := false, winMin := 0, winMax := 0, winNorm := z, buf := CBuf.construct 0 1 1
    instant := z, logLik := z, progress := z, exitLik := z, exitRatio := z, likeliest := 0, outVals := [], outCov := [] }

/-- the states are written -/
theorem statesJson (m : Hmm K) (hs : m.sts.length = m.n) (h : ∀ st ∈ m.sts, ∃ j, Gmm.toJson "" st = .ret j st) :
    ∃ js, (List.range m.n).mapM (stateJson m) m = .ret js m ∧ List.Forall₂ (fun st j => Gmm.toJson "" st = .ret j st) m.sts js := by
  have H : ∀ l : List (Gmm K), (∀ st ∈ l, ∃ j, Gmm.toJson "" st = .ret j st) → ∃ js, List.Forall₂ (fun st j => Gmm.toJson "" st = .ret j st) l js := by
    intro l
    induction l with
    | nil => exact fun _ => ⟨[], .nil⟩
    | cons a l ih =>
      intro h
      obtain ⟨j, hj⟩ := h a List.mem_cons_self
      obtain ⟨js, hjs⟩ := ih fun st hst => h st (List.mem_cons_of_mem _ hst)
      exact ⟨j :: js, .cons hj hjs⟩
  obtain ⟨js, hjs⟩ := H m.sts h
  refine ⟨js, ?_, hjs⟩
  rw [← hs, hjs.length_eq]
  refine mapM_range _ _ _ fun c j hc => ?_
  have hc' : c < js.length := (List.getElem?_eq_some_iff.1 hc).1
  have hc2 : c < m.sts.length := by rw [hjs.length_eq]; exact hc'
  have e := (List.forall₂_iff_get.1 hjs).2 c hc2 hc'
  simp only [List.get_eq_getElem] at e
  rw [(List.getElem?_eq_some_iff.1 hc).2] at e
  rw [stateJson, bind_of_ret (Gmm.rd_some (List.getElem?_eq_getElem hc2) m), apart_of_ret e]

/-- the JSON of a class -/
def jsonOf (h : Bool) (label : String) (m : Hmm K) (js : List (Json K)) : Json K :=
  .obj (
    [("label", .str label),
     ("parameters", (m.attrs h).toJson)] ++
    (if m.ergodic then [("prior", vector2json (realCodec K) m.prior)] else []) ++
    [("transition", vector2json (realCodec K) m.trans),
     ("exitProbabilities", vector2json (realCodec K) m.exitP),
     ("states", .arr js)])

theorem toJson_eq (m : Hmm K) (h : Bool) (label : String) (js : List (Json K)) (h1 : m.training = false)
    (hj : (List.range m.n).mapM (stateJson m) m = .ret js m) : toJson h label m = .ret (jsonOf h label m js) m := by
  rw [toJson, bind_of_ret (a := ()) (s' := m) (by simp [checkTraining, h1, bind_def, get_def, pure_def]), bind_of_ret (get_def m), bind_of_ret hj]
  rfl

theorem key_label (m : Hmm K) (h : Bool) (label : String) (js : List (Json K)) : (jsonOf h label m js).getKey "label" = .ok (.str label) := by
  simp [jsonOf, Json.getKey, Json.member, List.find?]
theorem key_parameters (m : Hmm K) (h : Bool) (label : String) (js : List (Json K)) :
    (jsonOf h label m js).getKey "parameters" = .ok (m.attrs h).toJson := by
  simp [jsonOf, Json.getKey, Json.member, List.find?]
theorem key_prior (m : Hmm K) (h : Bool) (label : String) (js : List (Json K)) (he : m.ergodic = true) :
    (jsonOf h label m js).getKey "prior" = .ok (vector2json (realCodec K) m.prior) := by
  simp [jsonOf, Json.getKey, Json.member, List.find?, he]
theorem key_transition (m : Hmm K) (h : Bool) (label : String) (js : List (Json K)) :
    (jsonOf h label m js).getKey "transition" = .ok (vector2json (realCodec K) m.trans) := by
  cases he : m.ergodic <;> simp [jsonOf, Json.getKey, Json.member, List.find?, he]
theorem key_exit (m : Hmm K) (h : Bool) (label : String) (js : List (Json K)) :
    (jsonOf h label m js).member "exitProbabilities" = .ok (some (vector2json (realCodec K) m.exitP)) := by
  cases he : m.ergodic <;> simp [jsonOf, Json.member, List.find?, he]
theorem key_states (m : Hmm K) (h : Bool) (label : String) (js : List (Json K)) : (jsonOf h label m js).getKey "states" = .ok (.arr js) := by
  cases he : m.ergodic <;> simp [jsonOf, Json.getKey, Json.member, List.find?, he]

theorem transCode_iff (b : Bool) : decide (transCode b = 0) = b := by cases b <;> rfl
theorem estOf_code (e : RegEst) : estOf (estCode e) = e := by cases e <;> rfl

/-- the parameters read from JSON -/
theorem readAttrs_ok {σ : Type} (m : Hmm K) (h : m.Savable nar tiny realMax) (hb : Bool) (root : Json K)
    (hj : root.getKey "parameters" = .ok (m.attrs hb).toJson) (s : σ) :
    ∃ p, readAttrs nar tiny realMax root s = .ret p s ∧ ∃ hb', p.values = (m.attrs hb').values := by
  obtain ⟨-, t, h1, h2, -⟩ := C27_hmm_json_partial (me := 0) (tmp := 1) (nar := nar) (tiny := tiny) (realMax := realMax) (p := m.attrs hb)
    ⟨h.n, h.gaussians, h.relReg, h.absReg, by cases hm : m.mode <;> simp [attrs, HmmAttrs.values, Attr.holding, Gauss.modeCode, hm],
     by cases hm : m.mode <;> simp [attrs, HmmAttrs.values, Attr.holding, Gauss.modeCode, hm],
     by cases hm : m.ergodic <;> simp [attrs, HmmAttrs.values, Attr.holding, transCode, hm],
     by cases hm : m.ergodic <;> simp [attrs, HmmAttrs.values, Attr.holding, transCode, hm],
     by cases hm : m.est <;> simp [attrs, HmmAttrs.values, Attr.holding, estCode, hm],
     by cases hm : m.est <;> simp [attrs, HmmAttrs.values, Attr.holding, estCode, hm]⟩ h.relFloat h.absFloat
    (HmmAttrs.fresh 0 tiny realMax)
  exact ⟨t, by rw [readAttrs, hj, bind_of_ret (liftE_ok _ _)]; exact build_of_ret h1 s, _, h2⟩

/-- the view of the shared parameters that the class has -/
def view (m : Hmm K) : SharedView := ⟨m.bimodal, m.dim, m.di, m.window⟩

/-- a class with the parameters of `m` and nothing else -/
def blank (m : Hmm K) (z : K) : Hmm K :=
  { m with
    sts := [], prior := [], trans := [], alpha := [], prevAlpha := [], beta := [], prevBeta := [], alpha0 := [], alpha1 := [], alpha2 := []
    exitP := [], hier := true, started := false, training := false, winMin := 0, winMax := 0, winNorm := z, buf := CBuf.construct 0 1 1
    instant := z, logLik := z, progress := z, exitLik := z, exitRatio := z, likeliest := 0, outVals := [], outCov := [] }

theorem unread_eq (m : Hmm K) (z : K) (p : HmmAttrs K) (hb : Bool) (hp : p.values = (m.attrs hb).values) : unread m.view z p = m.blank z := by
  have e0 : p.states.value = m.n := congrArg HmmValues.states hp
  have e1 : p.gaussians.value = m.gaussians := congrArg HmmValues.gaussians hp
  have e2 : p.relReg.value = m.relReg := congrArg HmmValues.relReg hp
  have e3 : p.absReg.value = m.absReg := congrArg HmmValues.absReg hp
  have e4 : p.covMode.value = Gauss.modeCode m.mode := congrArg HmmValues.covMode hp
  have e5 : p.transMode.value = transCode m.ergodic := congrArg HmmValues.transMode hp
  have e6 : p.regEstimator.value = estCode m.est := congrArg HmmValues.regEstimator hp
  rw [unread, e0, e1, e2, e3, e4, e5, e6, covModeOf_code, transCode_iff, estOf_code]; rfl

/-- the sizes of a class after `allocate()` of the JSON constructor -/
def ready (m : Hmm K) (z : K) (a : Gmm K) : Hmm K :=
  { m.blank z with
    prior := if m.ergodic then resize m.n [] else []
    trans := if m.ergodic then resize (m.n * m.n) [] else resize (m.n * 2) []
    alpha := resize m.n [], prevAlpha := resize m.n [], beta := resize m.n [], prevBeta := resize m.n []
    exitP := (resize m.n []).set (m.n - 1) (1 / 10)
    sts := List.replicate m.n a }

theorem allocate_eq [IsStrictOrderedRing K] (m : Hmm K) (h : m.Savable nar tiny realMax) (z : K) :
    ∃ a, allocate (m.blank z) = .ret () (m.ready z a) ∧ a.view = m.view ∧ a.training = false := by
  obtain ⟨g, g1, g2⟩ := Gmm.allocate_ret (newState (m.blank z)) h.gaussians.1 h.dims.1 h.dims.2
  set a : Gmm K := { newState (m.blank z) with
      coeffs := resize (newState (m.blank z)).gaussians (newState (m.blank z)).coeffs
      beta := resize (newState (m.blank z)).gaussians (newState (m.blank z)).beta
      comps := List.replicate (newState (m.blank z)).gaussians g }
  refine ⟨a, ?_, rfl, rfl⟩
  obtain ⟨l, h1, h2⟩ := eachState_ret (allocated (m.blank z)) Gmm.allocate (fun _ s' => s' = a) (fun s hs => by
    have : s = newState (m.blank z) := List.eq_of_mem_replicate hs
    subst this
    exact ⟨_, g1, rfl⟩)
  have hlen : (allocated (m.blank z)).sts.length = m.n := by simp [allocated, blank]
  have hl : l = List.replicate m.n a := by
    refine List.eq_replicate_iff.2 ⟨by rw [← h2.length_eq, hlen], fun b hb => ?_⟩
    obtain ⟨i, hi, rfl⟩ := List.getElem_of_mem hb
    have hi' : i < (allocated (m.blank z)).sts.length := by rw [h2.length_eq]; exact hi
    exact (List.forall₂_iff_get.1 h2).2 i hi' hi
  unfold allocate
  rw [bind_of_ret (modify_def _ _), bind_of_ret (get_def _), bind_of_ret h1, if_pos (by simp [allocated, blank]),
    updateExit_ret _ (by rfl) (by exact h.n.1), hl]
  rfl

theorem readTransitions_ok (t : Hmm K) (root : Json K) (prior trans : List K)
    (k1 : t.ergodic = true → root.getKey "prior" = .ok (vector2json (realCodec K) prior))
    (k2 : root.getKey "transition" = .ok (vector2json (realCodec K) trans))
    (hp : if t.ergodic then prior.length = t.n else prior = []) (ht : trans.length = if t.ergodic then t.n * t.n else 2 * t.n)
    (tp : if t.ergodic then t.prior.length = t.n else t.prior = []) (tt : t.trans.length = if t.ergodic then t.n * t.n else 2 * t.n) :
    readTransitions root t = .ret () { t with prior := prior, trans := trans } := by
  rw [readTransitions, bind_of_ret (get_def t)]
  by_cases hm : t.ergodic = true
  · rw [if_pos hm] at hp ht tp tt
    rw [if_pos hm, k1 hm, bind_of_ret (liftE_ok _ _), bind_of_ret (Gauss.readVector_ok prior t.prior t.n hp.symm tp _), k2, bind_of_ret (liftE_ok _ _),
        bind_of_ret (Gauss.readVector_ok trans t.trans _ ht.symm tt _), set_def]
  · rw [if_neg hm] at hp ht tp tt
    rw [if_neg hm, k2, bind_of_ret (liftE_ok _ _), bind_of_ret (Gauss.readVector_ok trans t.trans _ ht.symm tt _), set_def, hp, ← tp]

theorem readExit_ok (t : Hmm K) (root : Json K) (e : List K) (k : root.member "exitProbabilities" = .ok (some (vector2json (realCodec K) e)))
    (he : e.length = t.n) (te : t.exitP.length = t.n) : readExit root t = .ret () { t with exitP := e } := by
  rw [readExit, bind_of_ret (get_def t), k, bind_of_ret (liftE_ok _ _)]
  exact (bind_of_ret (Gauss.readVector_ok e t.exitP _ he.symm te t)).trans rfl

theorem readStates_ok [IsStrictOrderedRing K] (z : K) (a : Gmm K) (ha : a.training = false) (sts : List (Gmm K)) : ∀ (js : List (Json K)) (l : List (Gmm K)) (t : Hmm K),
    List.Forall₂ (fun st j => Gmm.toJson "" st = .ret j st) sts js →
    (∀ st ∈ sts, st.Savable nar tiny realMax ∧ st.Loadable ∧ a.view = st.view) →
    t.sts = l ++ List.replicate sts.length a →
    readStates nar tiny realMax z js l.length t = .ret () { t with sts := l ++ sts.map fun st => (st.reread z).assigned a } := by
  induction sts with
  | nil =>
    intro js l t h _ ht
    cases h
    simp only [List.length_nil, List.replicate_zero, List.append_nil, List.map_nil] at ht ⊢
    rw [readStates, pure_def, ← ht]
  | cons st sts ih =>
    intro js l t h12 h ht
    cases h12 with
    | cons h1 h2 =>
      obtain ⟨s1, s2, s3⟩ := h st List.mem_cons_self
      obtain ⟨root, r1, r2⟩ := Gmm.fromJson_ok st a s1 s2 "" z ha s3
      rw [h1] at r1
      injection r1 with r1
      rw [r1]
      have hi : t.sts[l.length]? = some a := by simp [ht, List.replicate_succ]
      rw [readStates, bind_of_ret (onState_ret hi r2)]
      have := ih _ (l ++ [(st.reread z).assigned a]) { t with sts := t.sts.set l.length ((st.reread z).assigned a) } h2
        (fun st' hst => h st' (List.mem_cons_of_mem _ hst)) (by simp [ht, List.replicate_succ])
      rw [List.length_append] at this
      refine this.trans ?_
      simp

/-- reading the JSON of a class back -/
theorem ofJson_ok [IsStrictOrderedRing K] {σ : Type} (m : Hmm K) (h : m.Savable nar tiny realMax) (hl : m.Loadable) (hb : Bool) (label : String) (z : K) :
    ∃ root a, toJson hb label m = .ret root m ∧ root.getKey "label" = .ok (.str label) ∧
      ∀ s : σ, ofJson nar tiny realMax m.view z root s = .ret (label, m.reread z a) s := by
  obtain ⟨js, j1, j2⟩ := statesJson m h.count fun st hst => ⟨_, Gmm.toJson_eq st "" (h.states st hst).1.idle (h.states st hst).1.comps⟩
  obtain ⟨a, a1, a2, a3⟩ := allocate_eq m h z
  refine ⟨_, a, toJson_eq m hb label js h.idle j1, key_label m hb label js, fun s => ?_⟩
  obtain ⟨p, p1, hb', p2⟩ := readAttrs_ok m h hb _ (key_parameters m hb label js) s
  rw [ofJson, key_label m hb label js, bind_of_ret (liftE_ok _ _), show (Json.str label : Json K).asString = .ok label from rfl, bind_of_ret (liftE_ok _ _),
    bind_of_ret p1, unread_eq m z p hb' p2]
  refine (bind_of_ret (build_of_ret ?_ s)).trans rfl
  rw [readBody, bind_of_ret a1]
  refine (bind_of_ret (readTransitions_ok (m.ready z a) _ m.prior m.trans (key_prior m hb label js) (key_transition m hb label js)
    h.prior h.trans ?_ ?_)).trans ?_
  · cases he : m.ergodic <;> simp [ready, blank, he, Gauss.resize_length]
  · cases he : m.ergodic <;> simp [ready, blank, he, Gauss.resize_length, Nat.mul_comm]
  refine (bind_of_ret (readExit_ok { m.ready z a with prior := m.prior, trans := m.trans } _ m.exitP (key_exit m hb label js) ?_ ?_)).trans ?_
  · exact h.exitP
  · simp [ready, blank, Gauss.resize_length]
  rw [key_states m hb label js, bind_of_ret (liftE_ok _ _)]
  have := readStates_ok (nar := nar) (tiny := tiny) (realMax := realMax) z a a3 m.sts js []
    { m.ready z a with prior := m.prior, trans := m.trans, exitP := m.exitP } j2 (fun st hst => by
      obtain ⟨s1, s2, s3, s4, s5, s6⟩ := h.states st hst
      refine ⟨s1, ?_, ?_⟩
      · rcases hl with hl | hl
        · exact Or.inl (s6.trans hl)
        · exact Or.inr (s3.trans hl)
      · rw [a2]; simp only [view, Gmm.view, s2, s3, s4, s5]) (by simp [ready, h.count])
  refine this.trans ?_
  rfl

theorem reread_restored (z : K) (a : Gmm K) (m : Hmm K) : m.Restored (m.reread z a) where
  n := rfl
  gaussians := rfl
  ergodic := rfl
  est := rfl
  mode := rfl
  absReg := rfl
  relReg := rfl
  bimodal := rfl
  dim := rfl
  di := rfl
  window := rfl
  prior := rfl
  trans := rfl
  exitP := rfl
  sts := by
    simp only [reread]
    rw [List.forall₂_map_right_iff]
    exact List.forall₂_same.2 fun st _ => Gmm.assigned_restored (st.reread_restored z) a
  idle := rfl

end Hmm
end Xmm
