import Verif.Props.ConfigHistory
/-
C27 for a whole configuration: JSON round trip.
-/
namespace Xmm
open SharedParams (liftE_ok)
namespace Configuration
variable {P V K : Type} {T : ParamType P} {val : P → V} {sim : V → V → Prop} {Good : Nat → P → Prop} {me : Nat} {slot : String → Nat}
  {write : P → Json K} {read : Nat → Json K → Prog P Unit}

/-- as `Means`, with default parameters known up to `sim` only -/
structure Loaded (val : P → V) (sim : V → V → Prop) (Good : Nat → P → Prop) (me : Nat) (slot : String → Nat) (c : Configuration P) (s : ConfigSpec V) : Prop where
  sorted : c.classParams.Sorted
  goodBase : Good me c.base
  base : sim (val c.base) s.default
  none : ∀ l, SMap.find? l c.classParams = .none → s.own l = .none
  some : ∀ l p, SMap.find? l c.classParams = .some p → Good (slot l) p ∧ ∃ v, s.own l = .some v ∧ sim (val p) v

theorem member_obj (m : SMap String P) (l : String) :
    (Json.obj (m.map fun lp => (lp.1, write lp.2)) : Json K).getKey l = .ok (match SMap.find? l m with | .some p => write p | .none => .null) := by
  have : ∀ m : SMap String P, ((m.map fun lp => (lp.1, write lp.2)).find? fun e => decide (e.1 = l)).map Prod.snd = (SMap.find? l m).map write := by
    intro m
    induction m with
    | nil => rfl
    | cons a m ih =>
      obtain ⟨k, p⟩ := a
      by_cases h : k = l
      · subst h; simp [SMap.find?]
      · have h' : ¬ l = k := fun e => h e.symm
        simp only [List.map_cons, List.find?_cons, h, decide_false, SMap.find?, h', if_false]
        exact ih
  simp only [Json.getKey, Json.member]
  rw [this m]
  cases SMap.find? l m <;> rfl

/-- the loop over the members of "class_parameters" -/
theorem readClasses_ok [Field K] [JsonReal K] {node : Json K} {src : String → Option P}
    (hnode : ∀ l p, src l = .some p → node.getKey l = .ok (write p))
    (hread : ∀ l p q, src l = .some p → ∃ q', read (slot l) (write p) q = .ret () q' ∧ Good (slot l) q' ∧ sim (val q') (val p)) :
    ∀ (ls : List String) (c : Configuration P), (∀ l ∈ ls, ∃ p, src l = .some p) → c.classParams.Sorted →
      ∃ c', readClasses T slot read node ls c = .ret () c' ∧ c'.base = c.base ∧ c'.multithreading = c.multithreading ∧ c'.estimator = c.estimator ∧
        c'.classParams.Sorted ∧
        (∀ l ∈ ls, ∀ p, src l = .some p → ∃ q, SMap.find? l c'.classParams = .some q ∧ Good (slot l) q ∧ sim (val q) (val p)) ∧
        ∀ l, l ∉ ls → SMap.find? l c'.classParams = SMap.find? l c.classParams
  | [], c, _, hs => ⟨c, rfl, rfl, rfl, rfl, hs, fun l hl => by simp at hl, fun _ _ => rfl⟩
  | l :: ls, c, h, hs => by
    obtain ⟨p, hp⟩ := h l (by simp)
    obtain ⟨q', r1, r2, r3⟩ := hread l p (element T slot l c) hp
    obtain ⟨c', g1, g2, g3, g4, g5, g6, g7⟩ := readClasses_ok hnode hread ls { c with classParams := SMap.assign l q' c.classParams }
      (fun l' hl' => h l' (List.mem_cons_of_mem _ hl')) hs.assign
    refine ⟨c', ?_, g2, g3, g4, g5, fun l' hl' p' hp' => ?_, fun l' hl' => ?_⟩
    · rw [readClasses, bind_of_ret (by rw [hnode l p hp, liftE_ok]), bind_of_ret (by exact Prog.get_def c)]
      refine (bind_of_ret (a := ()) ?_).trans g1
      rw [within, r1]
    · by_cases hm : l' ∈ ls
      · exact g6 l' hm p' hp'
      · obtain rfl : l' = l := (List.mem_cons.1 hl').resolve_right hm
        rw [g7 l' hm]
        rw [hp] at hp'
        cases hp'
        exact ⟨q', by simp [SMap.find?_assign], r2, r3⟩
    · rw [List.mem_cons, not_or] at hl'
      rw [g7 l' hl'.2]
      simp [SMap.find?_assign, hl'.1]

/-- writing a configuration and reading it back -/
theorem fromJson_ok {E : Type} {run : Nat → E → Prog P Unit} {apply : E → V → V} [Field K] [JsonReal K] (L : ParamLaws T val run apply sim Good)
    {c : Configuration P} {s : ConfigSpec V} (h : Means val sim Good me slot c s)
    (hread : ∀ id p q, (p = c.base ∨ ∃ l, SMap.find? l c.classParams = some p) → ∃ q', read id (write p) q = .ret () q' ∧ Good id q' ∧ sim (val q') (val p))
    (hm : 0 ≤ c.multithreading ∧ c.multithreading ≤ 2) (he : 0 ≤ c.estimator ∧ c.estimator ≤ 1)
    (me' tmp : Nat) (slot' tslot : String → Nat) (dst : Configuration P) :
    ∃ t, fromJson T me' slot' read tmp tslot (toJson write c) dst = .ret () t ∧ t.multithreading = c.multithreading ∧ t.estimator = c.estimator ∧
      Loaded val sim Good me' slot' t s := by
  have g1 : (toJson write c).getKey "default_parameters" = .ok (write c.base) := by simp [toJson, Json.getKey, Json.member, List.find?]
  have g2 : (toJson write c).getOr "multithreading" (.int 0) = .ok (.int c.multithreading) := by simp [toJson, Json.getOr, Json.member, List.find?]
  have g3 : (toJson write c).getOr "multiClass_regression_estimator" (.int 0) = .ok (.int c.estimator) := by simp [toJson, Json.getOr, Json.member, List.find?]
  have g4 : ∃ node : Json K, (toJson write c).getKey "class_parameters" = .ok node ∧ memberNames node = .ok (c.classParams.map Prod.fst) ∧
      ∀ l p, SMap.find? l c.classParams = some p → node.getKey l = .ok (write p) := by
    cases hc : c.classParams with
    | nil => exact ⟨.null, by simp [toJson, hc, Json.getKey, Json.member, List.find?], rfl, fun l p hl => by simp [SMap.find?] at hl⟩
    | cons a m =>
      refine ⟨.obj ((a :: m).map fun lp => (lp.1, write lp.2)), by simp [toJson, hc, Json.getKey, Json.member, List.find?], by simp [memberNames], fun l p hl => ?_⟩
      rw [member_obj, hl]
  obtain ⟨node, n1, n2, n3⟩ := g4
  obtain ⟨b, b1, b2, b3⟩ := hread tmp c.base (T.fresh tmp) (Or.inl rfl)
  obtain ⟨c', r1, r2, r3, r4, r5, r6, r7⟩ := readClasses_ok (T := T) (val := val) (sim := sim) (Good := Good) (slot := tslot) (read := read) (src := fun l => SMap.find? l c.classParams) n3
    (fun l p q hp => hread (tslot l) p q (Or.inr ⟨l, hp⟩)) (c.classParams.map Prod.fst) ⟨b, c.multithreading, c.estimator, []⟩
    (fun l hl => SMap.mem_keys_iff.1 hl) SMap.sorted_nil
  have hr : readJson T tmp tslot read (toJson write c) (fresh T tmp) = .ret () c' := by
    unfold readJson
    rw [bind_of_ret (by rw [g1, liftE_ok]), bind_of_ret (s' := { fresh T tmp with base := b }) (a := ()) (by rw [editDefault]; simp only [fresh] at *; rw [b1]),
      bind_of_ret (by rw [g2, liftE_ok]), bind_of_ret (by rw [Json.asInt, if_pos (by omega), liftE_ok]), bind_of_ret (by rw [Prog.modify_def]),
      bind_of_ret (by rw [g3, liftE_ok]), bind_of_ret (by rw [Json.asInt, if_pos (by omega), liftE_ok]), bind_of_ret (by rw [Prog.modify_def]),
      bind_of_ret (by rw [n1, liftE_ok]), bind_of_ret (by rw [n2, liftE_ok])]
    exact r1
  refine ⟨assignFrom T me' slot' c' dst, by rw [fromJson, hr], r3, r4, sorted_copyMap r5, ?_, ?_, fun l hl => ?_, fun l p hl => ?_⟩
  · exact (L.assign (id := me') dst.base (by rw [r2]; exact b2)).1
  · refine L.trans (L.assign (id := me') (a := tmp) dst.base (by rw [r2]; exact b2)).2 ?_
    rw [r2, ← h.base]
    exact b3
  · rw [Configuration.assignFrom, find?_copyMap, Option.map_eq_none_iff] at hl
    cases hf : SMap.find? l c.classParams with
    | none => exact h.none l hf
    | some p =>
      obtain ⟨q, hq, -⟩ := r6 l (SMap.mem_keys_iff.2 ⟨p, hf⟩) p hf
      rw [hl] at hq
      cases hq
  · rw [Configuration.assignFrom, find?_copyMap, Option.map_eq_some_iff] at hl
    obtain ⟨q, hq, rfl⟩ := hl
    by_cases hm : l ∈ c.classParams.map Prod.fst
    · obtain ⟨p, hf⟩ := SMap.mem_keys_iff.1 hm
      obtain ⟨q', hq', k1, k2⟩ := r6 l hm p hf
      rw [hq] at hq'
      cases hq'
      obtain ⟨-, v, h2, h3⟩ := h.some l p hf
      exact ⟨(L.copy k1).1, v, h2, by rw [(L.copy k1).2]; exact L.trans k2 h3⟩
    · rw [r7 l hm] at hq
      simp [SMap.find?] at hq

end Configuration

open Configuration
variable {K : Type} [Field K] [LinearOrder K] [JsonReal K] {nar : K → K} {tiny realMax : K}

theorem after_admissible {V E : Type} {apply : E → V → V} {ok : V → Prop} (hok : ∀ e v, ok v → ok (apply e v)) {v0 : V} (h0 : ok v0) (ops : List (ConfigOp E)) :
    ∀ v, (ConfigSpec.after apply v0 ops).Has v → ok v := by
  have key : ∀ (ops : List (ConfigOp E)) (s : ConfigSpec V), (∀ v, s.Has v → ok v) → ∀ v, (ops.foldl (ConfigSpec.step apply) s).Has v → ok v := by
    intro ops
    induction ops with
    | nil => intro s hs; exact hs
    | cons op ops ih =>
      intro s hs
      apply ih
      have heff : ∀ l, ok (s.effective l) := by
        intro l
        unfold ConfigSpec.effective
        cases ho : s.own l with
        | none => exact hs _ (Or.inl rfl)
        | some w => exact hs w (Or.inr ⟨l, ho⟩)
      rintro v (rfl | ⟨l, hl⟩)
      · cases op with
        | default e => exact hok e _ (hs _ (Or.inl rfl))
        | label l e => exact hs _ (Or.inl rfl)
        | access l => exact hs _ (Or.inl rfl)
        | reset => exact hs _ (Or.inl rfl)
        | resetLabel l => exact hs _ (Or.inl rfl)
      · cases op with
        | default e => exact hs _ (Or.inr ⟨l, hl⟩)
        | label l' e =>
          simp only [ConfigSpec.step, ConfigSpec.give] at hl
          by_cases h : l = l'
          · rw [if_pos h, Option.some.injEq] at hl
            rw [← hl]
            exact hok e _ (heff _)
          · rw [if_neg h] at hl
            exact hs _ (Or.inr ⟨l, hl⟩)
        | access l' =>
          simp only [ConfigSpec.step, ConfigSpec.give] at hl
          by_cases h : l = l'
          · rw [if_pos h, Option.some.injEq] at hl
            rw [← hl]
            exact heff _
          · rw [if_neg h] at hl
            exact hs _ (Or.inr ⟨l, hl⟩)
        | reset => simp [ConfigSpec.step] at hl
        | resetLabel l' =>
          simp only [ConfigSpec.step] at hl
          by_cases h : l = l'
          · simp [h] at hl
          · rw [if_neg h] at hl
            exact hs _ (Or.inr ⟨l, hl⟩)
  apply key
  rintro v (rfl | ⟨l, hl⟩)
  · exact h0
  · cases hl

/-- an edit keeps parameters admissible -/
theorem GmmEdit.apply_admissible (e : GmmEdit K) (v : GmmValues K) (h : v.Admissible tiny realMax) : (e.apply tiny realMax v).Admissible tiny realMax := by
  obtain ⟨h1, h2, h3, h4, h5⟩ := h
  cases e <;> simp only [GmmEdit.apply] <;> split <;> rename_i hc
  · exact ⟨hc, h2, h3, h4, h5⟩
  · exact ⟨h1, h2, h3, h4, h5⟩
  · exact ⟨h1, hc, h3, h4, h5⟩
  · exact ⟨h1, h2, h3, h4, h5⟩
  · exact ⟨h1, h2, hc, h4, h5⟩
  · exact ⟨h1, h2, h3, h4, h5⟩
  · exact ⟨h1, h2, h3, hc.1, hc.2⟩
  · exact ⟨h1, h2, h3, h4, h5⟩

theorem HmmEdit.apply_admissible (e : HmmEdit K) (v : HmmValues K) (h : v.Admissible tiny realMax) : (e.apply tiny realMax v).Admissible tiny realMax := by
  obtain ⟨h0, h1, h2, h3, h4, h5, h6, h7, h8, h9⟩ := h
  cases e with
  | hierarchical b => exact ⟨h0, h1, h2, h3, h4, h5, h6, h7, h8, h9⟩
  | states n =>
    simp only [HmmEdit.apply]; split <;> rename_i hc
    · exact ⟨hc, h1, h2, h3, h4, h5, h6, h7, h8, h9⟩
    · exact ⟨h0, h1, h2, h3, h4, h5, h6, h7, h8, h9⟩
  | gaussians n =>
    simp only [HmmEdit.apply]; split <;> rename_i hc
    · exact ⟨h0, hc, h2, h3, h4, h5, h6, h7, h8, h9⟩
    · exact ⟨h0, h1, h2, h3, h4, h5, h6, h7, h8, h9⟩
  | relReg x =>
    simp only [HmmEdit.apply]; split <;> rename_i hc
    · exact ⟨h0, h1, hc, h3, h4, h5, h6, h7, h8, h9⟩
    · exact ⟨h0, h1, h2, h3, h4, h5, h6, h7, h8, h9⟩
  | absReg x =>
    simp only [HmmEdit.apply]; split <;> rename_i hc
    · exact ⟨h0, h1, h2, hc, h4, h5, h6, h7, h8, h9⟩
    · exact ⟨h0, h1, h2, h3, h4, h5, h6, h7, h8, h9⟩
  | covMode m =>
    simp only [HmmEdit.apply]; split <;> rename_i hc
    · exact ⟨h0, h1, h2, h3, hc.1, hc.2, h6, h7, h8, h9⟩
    · exact ⟨h0, h1, h2, h3, h4, h5, h6, h7, h8, h9⟩
  | transMode m =>
    simp only [HmmEdit.apply]; split <;> rename_i hc
    · exact ⟨h0, h1, h2, h3, h4, h5, hc.1, hc.2, h8, h9⟩
    · exact ⟨h0, h1, h2, h3, h4, h5, h6, h7, h8, h9⟩
  | regEstimator m =>
    simp only [HmmEdit.apply]; split <;> rename_i hc
    · exact ⟨h0, h1, h2, h3, h4, h5, h6, h7, hc.1, hc.2⟩
    · exact ⟨h0, h1, h2, h3, h4, h5, h6, h7, h8, h9⟩

/-- **C27 (partial), configuration of a GMM, JSON.**  After every history of edits, whatever the training mode and the regression estimator, if the regularizations are `float`s: what
    was written is read back into any configuration; it has the same defaults, the same labels with parameters of their own, the same parameters for every label, and the same
    modes.  Missing: regularizations that are not `float`s (`C27_gmm_float_violated`). -/
theorem C27_configuration_gmm_partial (h1 : Regularization tiny realMax (1 / 100)) (h2 : Regularization tiny realMax (1 / 1000)) (me me' tmp : Nat) (slot slot' tslot : String → Nat)
    (ops : List (ConfigOp (GmmEdit K))) (s : ConfigSpec (GmmValues K)) (hs : s = ConfigSpec.after (GmmEdit.apply tiny realMax) gmmDefaults ops)
    (hf : ∀ v, s.Has v → nar v.relReg = v.relReg ∧ nar v.absReg = v.absReg) (threading estimator : Int) (ht : 0 ≤ threading ∧ threading ≤ 2) (he : 0 ≤ estimator ∧ estimator ≤ 1)
    (dst : Configuration (GmmAttrs K)) :
    ∃ c, history (GmmAttrs.type tiny realMax) me slot GmmEdit.run ops (fresh (GmmAttrs.type tiny realMax) me) = some c ∧
      ∃ t, fromJson (GmmAttrs.type tiny realMax) me' slot' (fun id => GmmAttrs.fromJson id nar (id + 1) tiny realMax) tmp tslot
          (toJson GmmAttrs.toJson { c with multithreading := threading, estimator := estimator }) dst = .ret () t ∧
        t.multithreading = threading ∧ t.estimator = estimator ∧ t.base.values = s.default ∧
        ∀ l, includes l t = .ret (s.own l).isSome t ∧ (paramsFor l t).values = s.effective l := by
  have L := GmmAttrs.laws tiny realMax
  obtain ⟨c, c1, c2⟩ := Means.history L ops (me := me) (slot := slot) (Means.fresh L)
  have c2' : Means GmmAttrs.values Eq (GmmAttrs.Good tiny realMax) me slot c s := by rw [hs]; exact c2
  have hadm : ∀ v, s.Has v → v.Admissible tiny realMax := by
    rw [hs]
    exact after_admissible GmmEdit.apply_admissible (by simp [GmmValues.Admissible, gmmDefaults, Count, uintMax] at h1 h2 ⊢; exact ⟨h1, h2⟩) ops
  have c3 : Means GmmAttrs.values Eq (GmmAttrs.Good tiny realMax) me slot { c with multithreading := threading, estimator := estimator } s :=
    ⟨c2'.sorted, c2'.goodBase, c2'.base, c2'.none, c2'.some⟩
  obtain ⟨t, t1, t2, t3, t4⟩ := fromJson_ok (write := GmmAttrs.toJson) (read := fun id => GmmAttrs.fromJson id nar (id + 1) tiny realMax) L c3 (fun id p q hp => by
    have hv : s.Has p.values := by
      rcases hp with rfl | ⟨l, hl⟩
      · exact Or.inl c2'.base
      · obtain ⟨-, v, hv, rfl⟩ := c2'.some l p hl
        exact Or.inr ⟨l, hv⟩
    obtain ⟨q', q1, q2, q3, q4⟩ := C27_gmm_json_partial (me := id) (tmp := id + 1) (hadm _ hv) (hf _ hv).1 (hf _ hv).2 q
    exact ⟨q', q1, ⟨q3, q4⟩, q2⟩) ht he me' tmp slot' tslot dst
  have t5 : Means GmmAttrs.values Eq (GmmAttrs.Good tiny realMax) me' slot' t s := ⟨t4.sorted, t4.goodBase, t4.base, t4.none, t4.some⟩
  exact ⟨c, c1, t, t1, t2, t3, t5.base, fun l => ⟨t5.includes l, (t5.paramsFor L l).2⟩⟩

/-- **C27 (partial), configuration of a HMM, JSON.**  The same, except for the parameter `hierarchical`: that of the target is kept.  Missing: `hierarchical`
    (`C27_hmm_hierarchical_violated`) and regularizations that are not `float`s. -/
theorem C27_configuration_hmm_partial (h1 : Regularization tiny realMax (1 / 100)) (h2 : Regularization tiny realMax (1 / 1000)) (me me' tmp : Nat) (slot slot' tslot : String → Nat)
    (ops : List (ConfigOp (HmmEdit K))) (s : ConfigSpec (HmmValues K)) (hs : s = ConfigSpec.after (HmmEdit.apply tiny realMax) hmmDefaults ops)
    (hf : ∀ v, s.Has v → nar v.relReg = v.relReg ∧ nar v.absReg = v.absReg) (threading estimator : Int) (ht : 0 ≤ threading ∧ threading ≤ 2) (he : 0 ≤ estimator ∧ estimator ≤ 1)
    (dst : Configuration (HmmAttrs K)) :
    ∃ c, history (HmmAttrs.type tiny realMax) me slot HmmEdit.run ops (fresh (HmmAttrs.type tiny realMax) me) = some c ∧
      ∃ t, fromJson (HmmAttrs.type tiny realMax) me' slot' (fun id => HmmAttrs.fromJson id nar (id + 1) tiny realMax) tmp tslot
          (toJson HmmAttrs.toJson { c with multithreading := threading, estimator := estimator }) dst = .ret () t ∧
        t.multithreading = threading ∧ t.estimator = estimator ∧ t.base.values.Same s.default ∧
        ∀ l, includes l t = .ret (s.own l).isSome t ∧ (paramsFor l t).values.Same (s.effective l) := by
  have L := HmmAttrs.laws tiny realMax
  obtain ⟨c, c1, c2⟩ := Means.history L ops (me := me) (slot := slot) (Means.fresh L)
  have c2' : Means HmmAttrs.values HmmValues.Same (HmmAttrs.Good tiny realMax) me slot c s := by rw [hs]; exact c2
  have hadm : ∀ v, s.Has v → v.Admissible tiny realMax := by
    rw [hs]
    exact after_admissible HmmEdit.apply_admissible (by simp [HmmValues.Admissible, hmmDefaults, Count, uintMax] at h1 h2 ⊢; exact ⟨h1, h2⟩) ops
  have c3 : Means HmmAttrs.values HmmValues.Same (HmmAttrs.Good tiny realMax) me slot { c with multithreading := threading, estimator := estimator } s :=
    ⟨c2'.sorted, c2'.goodBase, c2'.base, c2'.none, c2'.some⟩
  have hsame : ∀ v w : HmmValues K, v.Same w → s.Has w → v.Admissible tiny realMax ∧ nar v.relReg = v.relReg ∧ nar v.absReg = v.absReg := by
    intro v w hvw hw
    rw [hvw]
    exact ⟨hadm w hw, hf w hw⟩
  obtain ⟨t, t1, t2, t3, t4⟩ := fromJson_ok (write := HmmAttrs.toJson) (read := fun id => HmmAttrs.fromJson id nar (id + 1) tiny realMax) L c3 (fun id p q hp => by
    have hv : p.values.Admissible tiny realMax ∧ nar p.values.relReg = p.values.relReg ∧ nar p.values.absReg = p.values.absReg := by
      rcases hp with rfl | ⟨l, hl⟩
      · exact hsame _ _ (L.refl _) (Or.inl c2'.base)
      · obtain ⟨-, v, hv, hsim⟩ := c2'.some l p hl
        exact hsame _ _ hsim (Or.inr ⟨l, hv⟩)
    obtain ⟨q', q1, q2, q3, q4⟩ := (C27_hmm_json_partial (me := id) (tmp := id + 1) hv.1 hv.2.1 hv.2.2 q).2
    exact ⟨q', q1, ⟨q3, q4⟩, by rw [q2]; rfl⟩) ht he me' tmp slot' tslot dst
  refine ⟨c, c1, t, t1, t2, t3, t4.base, fun l => ?_⟩
  unfold includes paramsFor ConfigSpec.effective
  cases hf : SMap.find? l t.classParams with
  | none =>
    rw [t4.none l hf]
    exact ⟨rfl, t4.base⟩
  | some p =>
    obtain ⟨-, v, h2, h3⟩ := t4.some l p hf
    rw [h2]
    exact ⟨rfl, h3⟩

/-- the defaults and `float`s of the theorems above exist: with exact conversions, and the limits 0 and 100 -/
example : Regularization (0 : ℚ) 100 (1 / 100) ∧ Regularization (0 : ℚ) 100 (1 / 1000) ∧
    ∀ v, (ConfigSpec.after (GmmEdit.apply (0 : ℚ) 100) gmmDefaults someEdits).Has v → id v.relReg = v.relReg ∧ id v.absReg = v.absReg :=
  ⟨by unfold Regularization; decide +kernel, by unfold Regularization; decide +kernel, fun _ _ => ⟨rfl, rfl⟩⟩

end Xmm
