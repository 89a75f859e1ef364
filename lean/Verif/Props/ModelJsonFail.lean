import Verif.Props.ModelJson
set_option linter.unusedSectionVars false
/- C57: models whose own JSON is rejected, or loses something. -/
namespace Xmm
open Prog (bind_def pure_def get_def set_def modify_def throw_def undef_def)
open SharedParams (liftE_ok)
open Gauss (resize)

variable {K : Type} [Field K] [LinearOrder K] [JsonReal K] {nar : K → K} {tiny realMax : K} {alive : Nat → Bool}

/-- **C57 (violated), GMM.**  If one of the trained classes has Diagonal covariances in dimension at least 2, `toJson` returns but no model can be constructed from its
    result: `JsonException`. -/
theorem C57_gmm_diagonal_violated (ids : JsonIds) (z : K) (h1 : Regularization tiny realMax (1 / 100)) (h2 : Regularization tiny realMax (1 / 1000))
    (M : GmmBody K) (s : ConfigSpec (GmmValues K)) (hs : SharedSavable alive nar realMax M.shared) (hc : GmmConfig nar tiny realMax M.config s)
    (hcls : ∀ lc ∈ M.models, lc.2.Savable nar tiny realMax ∧ lc.2.view = M.view)
    (hbad : ∃ lc ∈ M.models, lc.2.mode = .diagonal ∧ 2 ≤ lc.2.dim) :
    ∃ root M', GmmBody.toJson M = .ret root M ∧ GmmBody.ofJson alive ids nar tiny realMax z root = .throw .jsonValueError M' := by
  obtain ⟨shj, t, s1, s2, s3⟩ := shared_ok hs ids.sharedTmp ids.shared
  obtain ⟨t', c2, c3⟩ := config_gmm_ok h1 h2 hc ids
  have W : ∀ lc : String × Gmm K, ∃ j, lc ∈ M.models → Gmm.toJson lc.1 lc.2 = .ret j lc.2 ∧ j.getKey "label" = .ok (.str lc.1) ∧
      if lc.2.mode = .diagonal ∧ 2 ≤ lc.2.dim then ∀ M' : GmmBody K, Gmm.ofJson nar tiny realMax M.view z j M' = .throw .jsonValueError M'
      else ∃ r, ∀ M' : GmmBody K, Gmm.ofJson nar tiny realMax M.view z j M' = .ret (lc.1, r) M' := by
    intro lc
    by_cases hm : lc ∈ M.models
    · obtain ⟨q1, q3⟩ := hcls lc hm
      by_cases hd : lc.2.mode = .diagonal ∧ 2 ≤ lc.2.dim
      · obtain ⟨j, j1, j2, j3⟩ := Gmm.ofJson_diagonal (σ := GmmBody K) lc.2 q1 hd.1 hd.2 lc.1 z
        exact ⟨j, fun _ => ⟨j1, j2, by rw [if_pos hd]; exact q3 ▸ j3⟩⟩
      · have hl : lc.2.Loadable := by
          rcases not_and_or.1 hd with hd | hd
          · left
            cases hmode : lc.2.mode with
            | full => rfl
            | diagonal => exact absurd hmode hd
          · have := q1.dims.1
            right
            split at this <;> omega
        obtain ⟨j, j1, j2, j3⟩ := Gmm.ofJson_ok (σ := GmmBody K) lc.2 q1 hl lc.1 z
        exact ⟨j, fun _ => ⟨j1, j2, by rw [if_neg hd]; exact ⟨_, q3 ▸ j3⟩⟩⟩
    · exact ⟨.null, fun h => absurd h hm⟩
  choose w hw using W
  obtain ⟨M', hM'⟩ := ModelBody.readJson_throw (SharedParams.fromJson alive nar ids.sharedTmp realMax)
    (Configuration.fromJson (GmmAttrs.type tiny realMax) ids.config ids.slot (fun id => GmmAttrs.fromJson id nar (id + 1) tiny realMax) ids.configTmp ids.slotTmp)
    (fun sh => Gmm.ofJson nar tiny realMax sh z) (Gmm.copy z) w .jsonValueError M
    ⟨SharedParams.fresh ids.shared realMax, Configuration.fresh (GmmAttrs.type tiny realMax) ids.config, []⟩ shj
    (Configuration.toJson GmmAttrs.toJson M.config) (ModelBody.jsonOf shj (Configuration.toJson GmmAttrs.toJson M.config) (M.models.map w)) t t'
    (by simp [ModelBody.jsonOf, Json.getKey, Json.member, List.find?]) (by simp [ModelBody.jsonOf, Json.getKey, Json.member, List.find?])
    (by simp [ModelBody.jsonOf, Json.getKey, Json.member, List.find?]) s2 s3 c2 (fun lc hlc => ⟨(hw lc hlc).2.1, by
      have := (hw lc hlc).2.2
      split at this
      · exact Or.inr this
      · exact Or.inl this⟩) (by
      obtain ⟨lc, hlc, hd⟩ := hbad
      exact ⟨lc, hlc, by simpa only [if_pos hd] using (hw lc hlc).2.2⟩)
  exact ⟨_, M', ModelBody.toJson_eq GmmAttrs.toJson Gmm.toJson M shj w s1 fun lc hlc => (hw lc hlc).1, hM'⟩

/-! ### HMM classes -/
namespace Hmm

/-- A trained class that can be written: as `Savable`, but nothing is said of the number of exit probabilities. -/
structure Writable (nar : K → K) (tiny realMax : K) (m : Hmm K) : Prop where
  idle : m.training = false
  n : Count m.n
  gaussians : Count m.gaussians
  relReg : Regularization tiny realMax m.relReg
  absReg : Regularization tiny realMax m.absReg
  relFloat : nar m.relReg = m.relReg
  absFloat : nar m.absReg = m.absReg
  dims : GoodDims m.bimodal m.dim m.di
  prior : if m.ergodic then m.prior.length = m.n else m.prior = []
  trans : m.trans.length = if m.ergodic then m.n * m.n else 2 * m.n
  count : m.sts.length = m.n
  states : ∀ st ∈ m.sts, st.Savable nar tiny realMax ∧ st.bimodal = m.bimodal ∧ st.dim = m.dim ∧ st.di = m.di ∧ st.window = m.window ∧ st.mode = m.mode

/-- the class with `n` exit probabilities -/
def padded (m : Hmm K) : Hmm K := { m with exitP := resize m.n m.exitP }

theorem Writable.padded {m : Hmm K} (h : m.Writable nar tiny realMax) : m.padded.Savable nar tiny realMax :=
  ⟨h.idle, h.n, h.gaussians, h.relReg, h.absReg, h.relFloat, h.absFloat, h.dims, h.prior, h.trans, Gauss.resize_length _ _, h.count, h.states⟩

theorem Savable.writable {m : Hmm K} (h : m.Savable nar tiny realMax) : m.Writable nar tiny realMax :=
  ⟨h.idle, h.n, h.gaussians, h.relReg, h.absReg, h.relFloat, h.absFloat, h.dims, h.prior, h.trans, h.count, h.states⟩

/-- reading the JSON of a class up to its exit probabilities -/
theorem ofJson_begin [IsStrictOrderedRing K] {σ : Type} (m : Hmm K) (h : m.Writable nar tiny realMax) (hb : Bool) (label : String) (z : K) :
    ∃ js a, toJson hb label m = .ret (jsonOf hb label m js) m ∧ List.Forall₂ (fun st j => Gmm.toJson "" st = .ret j st) m.sts js ∧ a.view = m.view ∧ a.training = false ∧
      ∀ e t', (do readExit (jsonOf hb label m js); let j ← liftE ((jsonOf hb label m js).getKey "states"); readStates nar tiny realMax z j.elements 0)
          { m.ready z a with prior := m.prior, trans := m.trans } = .throw e t' →
        ∀ s : σ, ofJson nar tiny realMax m.view z (jsonOf hb label m js) s = .throw e s := by
  obtain ⟨js, j1, j2⟩ := statesJson m h.count fun st hst => ⟨_, Gmm.toJson_eq st "" (h.states st hst).1.idle (h.states st hst).1.comps⟩
  obtain ⟨a, a1, a2, a3⟩ := allocate_eq m.padded h.padded z
  refine ⟨js, a, toJson_eq m hb label js h.idle j1, j2, a2, a3, fun e t' he s => ?_⟩
  obtain ⟨p, p1, hb', p2⟩ := readAttrs_ok m.padded h.padded hb _ (key_parameters m hb label js) s
  rw [ofJson, key_label m hb label js, bind_of_ret (liftE_ok _ _), show (Json.str label : Json K).asString = .ok label from rfl, bind_of_ret (liftE_ok _ _),
    bind_of_ret p1, show unread m.view z p = m.padded.blank z from unread_eq m.padded z p hb' p2]
  refine bind_of_throw (build_of_throw (t' := t') ?_ s)
  rw [readBody, bind_of_ret a1]
  refine (bind_of_ret (readTransitions_ok (m.ready z a) _ m.prior m.trans (key_prior m hb label js) (key_transition m hb label js)
    h.prior h.trans ?_ ?_)).trans he
  · cases he : m.ergodic <;> simp [ready, blank, he, Gauss.resize_length]
  · cases he : m.ergodic <;> simp [ready, blank, he, Gauss.resize_length, Nat.mul_comm]

theorem readExit_bad (t : Hmm K) (root : Json K) (e : List K) (k : root.member "exitProbabilities" = .ok (some (vector2json (realCodec K) e)))
    (hn : t.n ≠ 0) (he : e.length ≠ t.n) : readExit root t = .throw .jsonValueError t := by
  rw [readExit, bind_of_ret (get_def t), k, bind_of_ret (liftE_ok _ _)]
  exact bind_of_throw (Gauss.readVector_bad e t.exitP t.n hn he t)

/-- a class with a wrong number of exit probabilities -/
theorem ofJson_exit [IsStrictOrderedRing K] {σ : Type} (m : Hmm K) (h : m.Writable nar tiny realMax) (he : m.exitP.length ≠ m.n) (hb : Bool) (label : String) (z : K) :
    ∃ root, toJson hb label m = .ret root m ∧ root.getKey "label" = .ok (.str label) ∧
      ∀ s : σ, ofJson nar tiny realMax m.view z root s = .throw .jsonValueError s := by
  obtain ⟨js, a, h1, -, -, -, h4⟩ := ofJson_begin (σ := σ) m h hb label z
  have hn : m.n ≠ 0 := by have := h.n.1; omega
  exact ⟨_, h1, key_label m hb label js, fun s => h4 _ _ (bind_of_throw (readExit_bad _ _ m.exitP (key_exit m hb label js) hn he)) s⟩

theorem readStates_bad (z : K) (t : Hmm K) (a st : Gmm K) (js : List (Json K)) (j : Json K) (h0 : t.sts[0]? = some a) (ha : a.training = false)
    (hj : Gmm.ofJson nar tiny realMax a.view z j a = .throw .jsonValueError a) :
    ∃ t', readStates nar tiny realMax z (j :: js) 0 t = .throw .jsonValueError t' := by
  have : Gmm.fromJson nar tiny realMax z j a = .throw .jsonValueError a := by
    rw [Gmm.fromJson, bind_of_ret (a := ()) (s' := a) (by simp [Gmm.checkTraining, ha, bind_def, get_def, pure_def]), bind_of_ret (get_def a)]
    exact bind_of_throw hj
  rw [readStates]
  exact ⟨{ t with sts := t.sts.set 0 a }, bind_of_throw (by simp [onState, h0, this])⟩

/-- a class with Diagonal covariances -/
theorem ofJson_diagonal [IsStrictOrderedRing K] {σ : Type} (m : Hmm K) (h : m.Savable nar tiny realMax) (hm : m.mode = .diagonal) (hd : 2 ≤ m.dim) (hb : Bool) (label : String) (z : K) :
    ∃ root, toJson hb label m = .ret root m ∧ root.getKey "label" = .ok (.str label) ∧
      ∀ s : σ, ofJson nar tiny realMax m.view z root s = .throw .jsonValueError s := by
  obtain ⟨js, a, h1, h2, h3, h3', h4⟩ := ofJson_begin (σ := σ) m h.writable hb label z
  have hpos : 0 < m.sts.length := by rw [h.count]; exact h.n.1
  have hread : ∃ t', (do readExit (jsonOf hb label m js); let j ← liftE ((jsonOf hb label m js).getKey "states"); readStates nar tiny realMax z j.elements 0)
      { m.ready z a with prior := m.prior, trans := m.trans } = .throw .jsonValueError t' := by
    cases hst : m.sts with
    | nil => rw [hst] at hpos; exact absurd hpos (lt_irrefl _)
    | cons st sts =>
      rw [hst] at h2
      cases h2 with
      | @cons _ j _ js' e1 e2 =>
        obtain ⟨q1, q2, q3, q4, q5, q6⟩ := h.states st (by rw [hst]; exact List.mem_cons_self)
        obtain ⟨root, r1, -, r3⟩ := Gmm.ofJson_diagonal (σ := Gmm K) st q1 (q6.trans hm) (q3 ▸ hd) "" z
        rw [e1] at r1
        injection r1 with r1
        subst r1
        have hv : a.view = st.view := by rw [h3]; simp only [view, Gmm.view, q2, q3, q4, q5]
        obtain ⟨t', ht'⟩ := readStates_bad (nar := nar) (tiny := tiny) (realMax := realMax) z { m.ready z a with prior := m.prior, trans := m.trans, exitP := m.exitP } a st js' j
          (by
            have : 0 < m.n := h.n.1
            simp [ready, List.getElem?_replicate, this]) h3' (by rw [hv]; exact r3 a)
        refine ⟨t', (bind_of_ret (readExit_ok { m.ready z a with prior := m.prior, trans := m.trans } _ m.exitP (key_exit m hb label _) ?_ ?_)).trans ?_⟩
        · exact h.exitP
        · simp [ready, blank, Gauss.resize_length]
        · rw [key_states, bind_of_ret (liftE_ok _ _)]
          exact ht'
  obtain ⟨t', ht'⟩ := hread
  exact ⟨_, h1, key_label m hb label js, fun s => h4 _ _ ht' s⟩

end Hmm

/-- **C57 (violated), hierarchical HMM.**  If one of the trained classes has Diagonal covariances in dimension at least 2, or has a number of exit probabilities that is not
    its number of states, `toJson` returns but no model can be constructed from its result: `JsonException`. -/
theorem C57_hmm_rejected_violated [IsStrictOrderedRing K] (ids : JsonIds) (z : K) (h1 : Regularization tiny realMax (1 / 100))
    (h2 : Regularization tiny realMax (1 / 1000)) (hb : Bool) (M : HierBody K) (s : ConfigSpec (HmmValues K)) (hs : SharedSavable alive nar realMax M.body.shared)
    (hc : HmmConfig nar tiny realMax M.body.config s) (hcls : ∀ lc ∈ M.body.models, lc.2.Writable nar tiny realMax ∧ lc.2.view = M.body.view)
    (hi : M.training = false) (ht : M.trans.length = M.body.models.length)
    (hbad : ∃ lc ∈ M.body.models, lc.2.mode = .diagonal ∧ 2 ≤ lc.2.dim ∨ lc.2.exitP.length ≠ lc.2.n) :
    ∃ root B, HierBody.toJson hb M = .ret root M ∧ HierBody.ofJson alive ids nar tiny realMax z root = .throw .jsonValueError B := by
  obtain ⟨shj, t, s1, s2, s3⟩ := shared_ok hs ids.sharedTmp ids.shared
  obtain ⟨t', c2, c3⟩ := config_hmm_ok h1 h2 hc ids
  have W : ∀ lc : String × Hmm K, ∃ j, lc ∈ M.body.models → Hmm.toJson hb lc.1 lc.2 = .ret j lc.2 ∧ j.getKey "label" = .ok (.str lc.1) ∧
      if lc.2.mode = .diagonal ∧ 2 ≤ lc.2.dim ∨ lc.2.exitP.length ≠ lc.2.n then
        ∀ M' : ModelBody K (HmmAttrs K) (Hmm K), Hmm.ofJson nar tiny realMax M.body.view z j M' = .throw .jsonValueError M'
      else ∃ r, ∀ M' : ModelBody K (HmmAttrs K) (Hmm K), Hmm.ofJson nar tiny realMax M.body.view z j M' = .ret (lc.1, r) M' := by
    intro lc
    by_cases hm : lc ∈ M.body.models
    · obtain ⟨q1, q3⟩ := hcls lc hm
      by_cases he : lc.2.exitP.length = lc.2.n
      · have q1' : lc.2.Savable nar tiny realMax :=
          ⟨q1.idle, q1.n, q1.gaussians, q1.relReg, q1.absReg, q1.relFloat, q1.absFloat, q1.dims, q1.prior, q1.trans, he, q1.count, q1.states⟩
        by_cases hd : lc.2.mode = .diagonal ∧ 2 ≤ lc.2.dim
        · obtain ⟨j, j1, j2, j3⟩ := Hmm.ofJson_diagonal (σ := ModelBody K (HmmAttrs K) (Hmm K)) lc.2 q1' hd.1 hd.2 hb lc.1 z
          exact ⟨j, fun _ => ⟨j1, j2, by rw [if_pos (Or.inl hd)]; exact q3 ▸ j3⟩⟩
        · have hl : lc.2.Loadable := by
            rcases not_and_or.1 hd with hd | hd
            · left
              cases hmode : lc.2.mode with
              | full => rfl
              | diagonal => exact absurd hmode hd
            · have := q1.dims.1
              right
              split at this <;> omega
          obtain ⟨j, a, j1, j2, j3⟩ := Hmm.ofJson_ok (σ := ModelBody K (HmmAttrs K) (Hmm K)) lc.2 q1' hl hb lc.1 z
          exact ⟨j, fun _ => ⟨j1, j2, by rw [if_neg (not_or.2 ⟨hd, not_not.2 he⟩)]; exact ⟨_, q3 ▸ j3⟩⟩⟩
      · obtain ⟨j, j1, j2, j3⟩ := Hmm.ofJson_exit (σ := ModelBody K (HmmAttrs K) (Hmm K)) lc.2 q1 he hb lc.1 z
        exact ⟨j, fun _ => ⟨j1, j2, by rw [if_pos (Or.inr he)]; exact q3 ▸ j3⟩⟩
    · exact ⟨.null, fun h => absurd h hm⟩
  choose w hw using W
  set root := HierBody.jsonOf shj (Configuration.toJson HmmAttrs.toJson M.body.config) (M.body.models.map w) M.prior M.trans M.exitTrans with hroot
  obtain ⟨M', hM'⟩ := ModelBody.readJson_throw (SharedParams.fromJson alive nar ids.sharedTmp realMax)
    (Configuration.fromJson (HmmAttrs.type tiny realMax) ids.config ids.slot (fun id => HmmAttrs.fromJson id nar (id + 1) tiny realMax) ids.configTmp ids.slotTmp)
    (fun sh => Hmm.ofJson nar tiny realMax sh z) (Hmm.copy z) w .jsonValueError M.body
    ⟨SharedParams.fresh ids.shared realMax, Configuration.fresh (HmmAttrs.type tiny realMax) ids.config, []⟩ shj
    (Configuration.toJson HmmAttrs.toJson M.body.config) root t t'
    (by simp [hroot, HierBody.jsonOf, Json.getKey, Json.member, List.find?]) (by simp [hroot, HierBody.jsonOf, Json.getKey, Json.member, List.find?])
    (by simp [hroot, HierBody.jsonOf, Json.getKey, Json.member, List.find?]) s2 s3 c2 (fun lc hlc => ⟨(hw lc hlc).2.1, by
      have := (hw lc hlc).2.2
      split at this
      · exact Or.inr this
      · exact Or.inl this⟩) (by
      obtain ⟨lc, hlc, hd⟩ := hbad
      exact ⟨lc, hlc, by simpa only [if_pos hd] using (hw lc hlc).2.2⟩)
  exact ⟨root, M', HierBody.toJson_eq hb M shj w hi s1 (fun lc hlc => (hw lc hlc).1) ht, bind_of_throw hM'⟩

theorem bind_inv {σ α β : Type} {p : Prog σ α} {q : α → Prog σ β} {s s'' : σ} {b : β} (h : (p >>= q) s = .ret b s'') :
    ∃ a s', p s = .ret a s' ∧ q a s' = .ret b s'' := by
  rw [bind_def] at h
  cases hp : p s with
  | ret a s' => rw [hp] at h; exact ⟨a, s', rfl, h⟩
  | throw e s' => rw [hp] at h; cases h
  | ub => rw [hp] at h; cases h

/-- reading JSON values leaves the object alone -/
theorem liftE_inv {σ α : Type} {x : Except Exn α} {s s' : σ} {a : α} (h : liftE x s = .ret a s') : s' = s := by
  cases x with
  | ok b => cases h; rfl
  | error e => cases h

theorem build_inv {σ τ : Type} {f : Prog τ Unit} {t t' : τ} {s s' : σ} (h : Prog.build f t s = .ret t' s') : s' = s ∧ f t = .ret () t' := by
  rw [Prog.build] at h
  cases hf : f t with
  | ret a t'' => rw [hf] at h; cases h; exact ⟨rfl, rfl⟩
  | throw e t'' => rw [hf] at h; cases h
  | ub => rw [hf] at h; cases h

theorem ModelBody.readModels_inv {P C : Type} (readC : SharedView → Json K → Prog (ModelBody K P C) (String × C)) (copyC : C → C)
    (hC : ∀ sh j M a M', readC sh j M = .ret a M' → M' = M) :
    ∀ (js : List (Json K)) (M M' : ModelBody K P C), readModels readC copyC js M = .ret () M' → M'.config = M.config
  | [], M, M', h => by cases h; rfl
  | j :: js, M, M', h => by
    rw [readModels] at h
    obtain ⟨_, _, h1, h⟩ := bind_inv h
    rw [liftE_inv h1] at h
    obtain ⟨_, _, h1, h⟩ := bind_inv h
    rw [liftE_inv h1] at h
    rw [bind_of_ret (get_def M)] at h
    obtain ⟨_, _, h1, h⟩ := bind_inv h
    rw [hC _ _ _ _ _ h1, bind_of_ret (set_def _ _)] at h
    rw [ModelBody.readModels_inv readC copyC hC js _ _ h]

theorem Hmm.ofJson_inv {σ : Type} {sh : SharedView} {z : K} {root : Json K} {s s' : σ} {a : String × Hmm K}
    (h : Hmm.ofJson nar tiny realMax sh z root s = .ret a s') : s' = s := by
  rw [Hmm.ofJson] at h
  obtain ⟨_, _, h1, h⟩ := bind_inv h
  rw [liftE_inv h1] at h
  obtain ⟨_, _, h1, h⟩ := bind_inv h
  rw [liftE_inv h1] at h
  obtain ⟨_, _, h1, h⟩ := bind_inv h
  rw [Hmm.readAttrs] at h1
  obtain ⟨_, _, h2, h1⟩ := bind_inv h1
  rw [liftE_inv h2] at h1
  rw [(build_inv h1).1] at h
  obtain ⟨_, _, h1, h⟩ := bind_inv h
  rw [(build_inv h1).1] at h
  cases h
  rfl

/-- **C57 (violated), hierarchical HMM.**  Whatever is read, the model is hierarchical: the parameter `hierarchical` of a model saved in non-hierarchical mode is lost. -/
theorem C57_hmm_hierarchical_violated (ids : JsonIds) (z : K) (root : Json K) (M' : HierBody K) (B : ModelBody K (HmmAttrs K) (Hmm K))
    (h : HierBody.ofJson alive ids nar tiny realMax z root = .ret M' B) :
    M'.body.config.base.values.hierarchical = true := by
  rw [HierBody.ofJson] at h
  obtain ⟨_, M1, h1, h⟩ := bind_inv h
  have hbody : M'.body = M1 := by
    rw [bind_of_ret (get_def M1)] at h
    obtain ⟨_, _, -, h⟩ := bind_inv h
    obtain ⟨_, _, -, h⟩ := bind_inv h
    obtain ⟨_, _, -, h⟩ := bind_inv h
    obtain ⟨_, _, -, h⟩ := bind_inv h
    obtain ⟨_, _, -, h⟩ := bind_inv h
    obtain ⟨_, _, -, h⟩ := bind_inv h
    cases h
    rfl
  rw [hbody]
  rw [ModelBody.readJson] at h1
  obtain ⟨_, _, h2, h1⟩ := bind_inv h1
  rw [liftE_inv h2, bind_of_ret (get_def _)] at h1
  obtain ⟨_, _, h2, h1⟩ := bind_inv h1
  rw [(build_inv h2).1, bind_of_ret (set_def _ _)] at h1
  obtain ⟨_, _, h2, h1⟩ := bind_inv h1
  rw [liftE_inv h2, bind_of_ret (get_def _)] at h1
  obtain ⟨c, _, h2, h1⟩ := bind_inv h1
  obtain ⟨h2, h3⟩ := build_inv h2
  rw [h2, bind_of_ret (set_def _ _)] at h1
  obtain ⟨_, _, h2, h1⟩ := bind_inv h1
  rw [liftE_inv h2] at h1
  rw [ModelBody.readModels_inv _ _ (fun sh j M a M' => Hmm.ofJson_inv) _ _ _ h1]
  simp only [Configuration.fromJson] at h3
  split at h3
  · cases h3; rfl
  · cases h3
  · cases h3

/-- How a class gets a wrong number of exit probabilities: `train(set, label)` in non-hierarchical mode after a change of the number of states allocates the class
    anew, but leaves the exit probabilities as they are. -/
theorem C57_hmm_flat_reachable [IsStrictOrderedRing K] (m : Hmm K) (n : Nat) (hf : m.hier = false) (hn : 1 ≤ n) (hg : 1 ≤ m.gaussians) (hd : GoodDims m.bimodal m.dim m.di)
    (he : m.exitP.length = m.n) (hne : n ≠ m.n) :
    ∃ m', Hmm.allocate { m with n := n } = .ret () m' ∧ m'.n = n ∧ m'.exitP.length ≠ m'.n := by
  obtain ⟨m', h1, -, h3, -⟩ := Hmm.allocate_ret { m with n := n } ⟨hn, hg, hd.1, hd.2⟩ hf
  refine ⟨m', h1, ?_, ?_⟩
  · rw [h3]; rfl
  · rw [h3]
    show m.exitP.length ≠ n
    rw [he]; exact fun h => hne h.symm

end Xmm
