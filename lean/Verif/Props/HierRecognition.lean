import Verif.Props.HierStream
set_option linter.unusedSimpArgs false
set_option linter.unusedSectionVars false
/- C48: `reset` and streams of observations in a hierarchical model. -/
namespace Xmm
open Phrase (loop)
open Gauss (rd rd_lt resize)
open Prog (bind_def pure_def get_def set_def modify_def throw_def undef_def)

namespace Hmm
variable {K : Type} [Field K] [LinearOrder K] [IsStrictOrderedRing K]

/-- what `reset()` writes in a class of a hierarchy -/
def Restarted (m m' : Hmm K) : Prop :=
  m' = { m with buf := m'.buf, started := false, alpha0 := m'.alpha0, alpha1 := m'.alpha1, alpha2 := m'.alpha2, alpha := m'.alpha,
                prevAlpha := m'.prevAlpha, beta := m'.beta, prevBeta := m'.prevBeta } ∧ Logs m'.buf m'.window []

theorem reset_hier (m : Hmm K) (hm : m.InHierarchy) (hb : BufOk m.buf) : ∃ m', reset m = .ret () m' ∧ m.Restarted m' := by
  obtain ⟨b, h1, h2⟩ := resetBuffer_ret hb m.window hm.can.window
  refine ⟨{ m with buf := b, started := false, alpha0 := resize m.n m.alpha0, alpha1 := resize m.n m.alpha1, alpha2 := resize m.n m.alpha2,
                   alpha := [], prevAlpha := [], beta := [], prevBeta := [] }, ?_, rfl, h2⟩
  unfold reset
  rw [bind_of_ret (checkTraining_idle hm.can.idle), bind_of_ret (get_def m), bind_of_ret (onBuf_ret h1), bind_of_ret (modify_def _ _),
    if_pos hm.hier]
  rfl

theorem Logs.bufOk {b : CBuf K 1} {w : Nat} {hist : List K} (h : Logs b w hist) : BufOk b := by
  unfold BufOk; rw [Logs] at h; rw [h.dlen, h.len]

theorem Restarted.sameClass {m m' : Hmm K} (h : m.Restarted m') (hm : m.CanFilter) : m.SameClass m' := by
  have e := h.1
  refine ⟨by rw [e], ?_⟩
  have : m'.sts = m.sts := by rw [e]
  rw [this]; exact SameStates.refl _ hm.state

theorem Restarted.instant {m m' : Hmm K} (h : m.Restarted m') : m'.instant = m.instant := by rw [h.1]

theorem resetClass_hier (m : Hmm K) (hm : m.InHierarchy) (hb : BufOk m.buf) :
    ∃ m', HierHmm.resetClass true m = .ret () m' ∧ m.Restarted m' := by
  unfold HierHmm.resetClass
  rw [bind_of_ret (modify_def _ _)]
  have : ({ m with hier := true } : Hmm K) = m := by rw [← hm.hier]
  rw [this]
  exact reset_hier m hm hb

end Hmm

namespace HierHmm
variable {K : Type} [Field K] [LinearOrder K] [IsStrictOrderedRing K]
open HierSpec Hmm

theorem Usable.trained {M : HierHmm K} (hu : M.Usable) : M.Trained :=
  ⟨hu.ready.idle, hu.ready.top, hu.hier, hu.nulls, hu.sorted,
    fun lc hlc => ⟨(hu.ready.cls lc hlc).1, (hu.ready.cls lc hlc).2, hu.dims lc hlc, (hu.buf lc hlc).elim fun _ h => Logs.bufOk h⟩,
    hu.mode, hu.instant⟩

/-- the classes of `M'` are those of `M`, in the same order and with the same parameters -/
def SameClasses (M M' : HierHmm K) : Prop :=
  M'.models.length = M.models.length ∧
  ∀ (c : Nat) (lc : String × Hmm K), M.models[c]? = some lc → ∃ m', M'.models[c]? = some (lc.1, m') ∧ lc.2.SameClass m'

theorem SameClasses.keys {M M' : HierHmm K} (h : SameClasses M M') : M'.models.map Prod.fst = M.models.map Prod.fst := by
  refine List.ext_getElem? fun i => ?_
  rw [List.getElem?_map, List.getElem?_map]
  by_cases hi : i < M.models.length
  · obtain ⟨a, ha⟩ := get_class hi
    obtain ⟨m', h1, _⟩ := h.2 i a ha
    rw [ha, h1]; rfl
  · rw [List.getElem?_eq_none (by rw [h.1]; omega), List.getElem?_eq_none (by omega)]

theorem SameClasses.back {M M' : HierHmm K} (h : SameClasses M M') {lc : String × Hmm K} (hlc : lc ∈ M'.models) :
    ∃ (c : Nat) (a : String × Hmm K), M.models[c]? = some a ∧ M'.models[c]? = some lc ∧ lc.1 = a.1 ∧ a.2.SameClass lc.2 := by
  obtain ⟨i, hi, rfl⟩ := List.getElem_of_mem hlc
  obtain ⟨a, ha⟩ := get_class (M := M) (c := i) (by rw [← h.1]; exact hi)
  obtain ⟨m', h1, h2⟩ := h.2 i a ha
  rw [List.getElem?_eq_getElem hi] at h1
  have e := Option.some.inj h1
  exact ⟨i, a, ha, List.getElem?_eq_getElem hi, by rw [e], by rw [e]; exact h2⟩

theorem SameClasses.sorted {M M' : HierHmm K} (h : SameClasses M M') (hs : SMap.Sorted M.models) : SMap.Sorted M'.models := by
  unfold SMap.Sorted at hs ⊢
  have : (M.models.map Prod.fst).Pairwise (· < ·) := by rw [List.pairwise_map]; exact hs
  rw [← h.keys, List.pairwise_map] at this
  exact this

/-- `reset()` on a trained model: the hierarchy and the parameters of the classes are as they were, every class has forgotten its likelihoods, but
    not its last instantaneous likelihood. -/
theorem reset_ret (M : HierHmm K) (hM : M.Trained) :
    ∃ M', reset M = .ret () M' ∧ M'.Usable ∧ M'.started = false ∧
      M' = { M with models := M'.models, results := M'.results, front1 := M'.front1, front2 := M'.front2, started := false } ∧
      M'.models.length = M.models.length ∧
      ∀ (c : Nat) (lc : String × Hmm K), M.models[c]? = some lc → ∃ m', M'.models[c]? = some (lc.1, m') ∧ lc.2.SameClass m' ∧
        Logs m'.buf m'.window [] ∧ m'.instant = lc.2.instant := by
  obtain ⟨l1, p1, p2, p3⟩ := eachClass_rel M (fun _ => Hmm.reset) (fun _ lc m' => lc.2.Restarted m') (fun i lc hlc => by
    obtain ⟨h1, _, _, h4⟩ := hM.cls lc (mem_of_get hlc)
    exact reset_hier lc.2 h1 h4)
  generalize hM1 : ({ M with
      models := l1
      results := MultiRes.resetResults (l1.length + M.nulls.length) M.bimodal (M.dim - M.di) M.mode M.results
      front1 := resize (l1.length + M.nulls.length) M.front1
      front2 := resize (l1.length + M.nulls.length) M.front2
      started := false } : HierHmm K) = M1
  have e1 : M1.models = l1 := by rw [← hM1]
  have e2 : M1.hier = M.hier := by rw [← hM1]
  obtain ⟨l2, k1, k2, k3⟩ := eachClass_rel M1 (fun _ => resetClass M.hier) (fun _ lc m' => lc.2.Restarted m') (fun i lc hlc => by
    rw [e1] at hlc
    obtain ⟨a, ha⟩ := get_class (M := M) (c := i) (by rw [← p2]; exact (List.getElem?_eq_some_iff.1 hlc).1)
    obtain ⟨m', h1, h2⟩ := p3 i a ha
    rw [hlc] at h1
    cases h1
    obtain ⟨g1, _, _, _⟩ := hM.cls a (mem_of_get ha)
    rw [hM.hier]
    exact resetClass_hier _ ((h2.sameClass g1.can).inHierarchy g1) (Logs.bufOk h2.2))
  rw [e1, p2] at k1 k2
  have hl : l2.length = M.models.length := k2
  have hcls : ∀ (c : Nat) (lc : String × Hmm K), M.models[c]? = some lc → ∃ m', l2[c]? = some (lc.1, m') ∧ lc.2.SameClass m' ∧
        Logs m'.buf m'.window [] ∧ m'.instant = lc.2.instant := by
    intro c a ha
    obtain ⟨m', h1, h2⟩ := p3 c a ha
    obtain ⟨m'', g1, g2⟩ := k3 c (a.1, m') (by rw [e1]; exact h1)
    have hc := (hM.cls a (mem_of_get ha)).1.can
    have hs := h2.sameClass hc
    exact ⟨m'', g1, hs.trans (g2.sameClass (hs.canFilter hc)), g2.2, g2.instant.trans h2.instant⟩
  have hsame : SameClasses M { M1 with models := l2 } := ⟨hl, fun c lc hlc => by
    obtain ⟨m', h1, h2, _⟩ := hcls c lc hlc
    exact ⟨m', h1, h2⟩⟩
  have hbk : ∀ lc ∈ l2, ∃ a ∈ M.models, lc.1 = a.1 ∧ a.2.SameClass lc.2 ∧ Logs lc.2.buf lc.2.window [] ∧ lc.2.instant = a.2.instant := by
    intro lc hlc
    obtain ⟨i, hi, rfl⟩ := List.getElem_of_mem hlc
    obtain ⟨a, ha⟩ := get_class (M := M) (c := i) (by rw [← hl]; exact hi)
    obtain ⟨m', h1, h2⟩ := hcls i a ha
    rw [List.getElem?_eq_getElem hi] at h1
    have e := Option.some.inj h1
    rw [e]
    exact ⟨a, mem_of_get ha, rfl, h2⟩
  have hz : l1.length + M.nulls.length = M.models.length := by rw [hM.nulls, p2]; rfl
  have htop := hM.top
  have hne : ({ M1 with models := l2 } : HierHmm K).models ≠ [] → M.models ≠ [] := fun h h0 => h (List.eq_nil_of_length_eq_zero (by
    show l2.length = 0; rw [hl, h0]; rfl))
  refine ⟨{ M1 with models := l2 }, ?_, ⟨⟨?_, ?_, ?_, ?_, ?_⟩, ?_, ?_, hsame.sorted hM.sorted, ?_, ?_, ?_, ?_, ?_, ?_⟩, ?_, ?_, hl, hcls⟩
  · unfold reset
    rw [bind_of_ret (checkTraining_idle hM.idle), bind_of_ret (get_def M), if_neg (by simp [hM.nulls]), bind_of_ret p1,
      bind_of_ret (modify_def _ _)]
    subst hM1
    exact k1
  · subst hM1; exact hM.idle
  · subst hM1
    exact ⟨htop.prior.trans hl.symm, htop.exitTrans.trans hl.symm, htop.trans.trans hl.symm, fun r hr => (htop.row r hr).trans hl.symm, htop.prior_pos,
      fun h => htop.prior_sum (hne h), htop.row_nonneg, htop.row_sum, htop.exit_nonneg, htop.exit_le⟩
  · intro lc hlc
    obtain ⟨a, ha, _, h2, _⟩ := hbk lc hlc
    obtain ⟨g1, g2, _⟩ := hM.cls a ha
    refine ⟨h2.inHierarchy g1, ?_⟩
    rw [h2.facts.2.2.2.2.2.2.1, g2]; subst hM1; rfl
  · subst hM1; show (resize _ M.front1).length = l2.length; rw [length_resize, hl, hz]
  · subst hM1; show (resize _ M.front2).length = l2.length; rw [length_resize, hl, hz]
  · subst hM1; exact hM.hier
  · subst hM1; exact hM.nulls
  · subst hM1
    show (MultiRes.resetResults _ _ _ _ M.results).Sized l2.length
    rw [hl, hz]
    constructor <;> simp [MultiRes.resetResults, resize] <;> omega
  · intro lc hlc
    obtain ⟨a, ha, _, h2, _⟩ := hbk lc hlc
    obtain ⟨_, _, g3, _⟩ := hM.cls a ha
    obtain ⟨_, _, _, _, _, _, _, _, f1, f2, _⟩ := h2.facts
    rw [f1, f2, g3]; subst hM1; rfl
  · intro hb lc hlc
    have hb' : M.bimodal = true := by subst hM1; exact hb
    obtain ⟨a, ha, _, h2, _⟩ := hbk lc hlc
    rw [h2.facts.2.2.2.2.2.2.2.2.2.2.1, hM.mode hb' a ha]; subst hM1; rfl
  · intro lc hlc
    obtain ⟨_, _, _, _, h3, _⟩ := hbk lc hlc
    exact ⟨_, h3⟩
  · intro h; subst hM1; cases h
  · intro lc hlc he
    obtain ⟨a, ha, _, h2, _, h3⟩ := hbk lc hlc
    rw [h3]
    exact hM.instant a ha (h2.facts.2.1 ▸ he)
  · subst hM1; rfl
  · subst hM1; rfl

/-! ### Streams -/

theorem emits_model (D : Dens K) (hD : D.Sound) {M : HierHmm K} (hM : M.Ready) (x : List K) (hx : ∀ lc ∈ M.models, lc.2.Fits x) :
    ∃ b : Nat → Nat → K, HierSpec.Emits D M x b ∧ ∀ c k, c < M.models.length → k < states M c → 0 < b c k := by
  have key : ∀ c : Nat, ∃ b : Nat → K, ∀ lc : String × Hmm K, M.models[c]? = some lc → HmmSpec.Emits D lc.2 x b ∧ ∀ k < lc.2.n, 0 < b k := by
    intro c
    by_cases hc : c < M.models.length
    · obtain ⟨lc, hlc⟩ := get_class hc
      obtain ⟨b, hb⟩ := emits_exist D hD lc.2 (hM.cls lc (mem_of_get hlc)).1.can
      obtain ⟨h1, h2⟩ := hb x (hx lc (mem_of_get hlc))
      refine ⟨b x, fun lc' h => ?_⟩
      rw [hlc] at h
      cases h
      exact ⟨h1, fun k hk => lt_of_lt_of_le (by positivity) (h2 k hk)⟩
    · exact ⟨fun _ => 0, fun lc h => absurd (lt_of_get h) hc⟩
  choose b hb using key
  refine ⟨b, fun c lc h => (hb c lc h).1, fun c k hc hk => ?_⟩
  obtain ⟨lc, hlc⟩ := get_class hc
  rw [states_of hlc] at hk
  exact (hb c lc hlc).2 k hk

theorem predicts_model (D : Dens K) (hD : D.Sound) {M : HierHmm K} (hM : M.Ready) (x : List K) (hx : ∀ lc ∈ M.models, lc.2.Fits x) :
    ∃ v w : Nat → Nat → List K, HierSpec.Predicts D M x v w := by
  rcases bool_cases M.bimodal with hm | hm
  · exact ⟨fun _ _ => [], fun _ _ => [], fun h => absurd (hm.symm.trans h) (by simp)⟩
  have key : ∀ c : Nat, ∃ vw : (Nat → List K) × (Nat → List K), ∀ lc : String × Hmm K, M.models[c]? = some lc →
      HmmSpec.Predicts D lc.2 x vw.1 vw.2 := by
    intro c
    by_cases hc : c < M.models.length
    · obtain ⟨lc, hlc⟩ := get_class hc
      obtain ⟨h1, h2⟩ := hM.cls lc (mem_of_get hlc)
      obtain ⟨v, w, hv⟩ := predicts_exist D hD lc.2 h1.can (h2.trans hm)
      refine ⟨(v x, w x), fun lc' h => ?_⟩
      rw [hlc] at h
      cases h
      exact hv x (hx lc (mem_of_get hlc))
    · exact ⟨(fun _ => [], fun _ => []), fun lc h => absurd (lt_of_get h) hc⟩
  choose vw hvw using key
  exact ⟨fun c => (vw c).1, fun c => (vw c).2, fun _ c lc h => hvw c lc h⟩

theorem Stepped.sameClasses {log exp : K → K} {M M' : HierHmm K} {b : Nat → Nat → K} {v w : Nat → Nat → List K} (h : Stepped log exp M b v w M')
    (hu : M.Usable) : SameClasses M M' :=
  ⟨h.len, fun c lc hlc => by
    obtain ⟨m', h1, h2, _⟩ := h.cls c lc hlc
    exact ⟨m', h1, h2.sameClass (hu.ready.cls lc (mem_of_get hlc)).1.can (hu.buf lc (mem_of_get hlc))⟩⟩

theorem Stepped.fits {log exp : K → K} {M M' : HierHmm K} {b : Nat → Nat → K} {v w : Nat → Nat → List K} (h : Stepped log exp M b v w M')
    (hu : M.Usable) {x : List K} (hx : ∀ lc ∈ M.models, lc.2.Fits x) : ∀ lc ∈ M'.models, lc.2.Fits x := by
  intro lc hlc
  obtain ⟨c, a, h1, _, _, h2⟩ := (h.sameClasses hu).back hlc
  exact h2.fits (hx a (mem_of_get h1))

theorem Stepped.started {log exp : K → K} {M M' : HierHmm K} {b : Nat → Nat → K} {v w : Nat → Nat → List K} (h : Stepped log exp M b v w M') :
    M'.started = true := by rw [h.keep]

theorem Stepped.ne {log exp : K → K} {M M' : HierHmm K} {b : Nat → Nat → K} {v w : Nat → Nat → List K} (h : Stepped log exp M b v w M')
    (hne : M.models ≠ []) : M'.models ≠ [] := fun h0 => hne (List.eq_nil_of_length_eq_zero (by rw [← h.len, h0]; rfl))

theorem Stepped.states {log exp : K → K} {M M' : HierHmm K} {b : Nat → Nat → K} {v w : Nat → Nat → List K} (h : Stepped log exp M b v w M')
    (hu : M.Usable) (c : Nat) : HierSpec.states M' c = HierSpec.states M c := by
  by_cases hc : c < M.models.length
  · obtain ⟨a, ha⟩ := get_class hc
    obtain ⟨m', h1, h2⟩ := (h.sameClasses hu).2 c a ha
    rw [states_of ha, states_of h1]; exact h2.facts.1
  · unfold HierSpec.states
    rw [List.getElem?_eq_none (by rw [h.len]; omega), List.getElem?_eq_none (by omega)]

theorem heard_states {M : HierHmm K} (hu : M.Usable) (b : Nat → Nat → K) (c : Nat) : HierSpec.states (heard M b) c = HierSpec.states M c := by
  by_cases hc : c < M.models.length
  · obtain ⟨a, ha⟩ := get_class hc
    rw [states_of ha, states_of (heard_get ha)]
    exact (heardClass_same M b c a.2 (hu.ready.cls a (mem_of_get ha)).1.can).facts.1
  · unfold HierSpec.states
    rw [List.getElem?_eq_none (by simp [heard]; omega), List.getElem?_eq_none (by omega)]

theorem Stepped.mass {log exp : K → K} {M M' : HierHmm K} {b : Nat → Nat → K} {v w : Nat → Nat → List K} (h : Stepped log exp M b v w M')
    (hu : M.Usable) : HierSpec.mass M' = HierSpec.mass (heard M b) := by
  unfold HierSpec.mass
  rw [h.len, show (heard M b).models.length = M.models.length by simp [heard]]
  refine Finset.sum_congr rfl fun c _ => ?_
  rw [h.states hu c, heard_states hu b c]
  exact Finset.sum_congr rfl fun k _ => Finset.sum_congr rfl fun e _ => h.alpha e c k

theorem Stepped.distribution {log exp : K → K} {M M' : HierHmm K} {b : Nat → Nat → K} {v w : Nat → Nat → List K} (h : Stepped log exp M b v w M')
    (hu : M.Usable) (hne : M.models ≠ []) (hb : ∀ c k, c < M.models.length → k < HierSpec.states M c → 0 < b c k)
    (hs : M.started = true ∨ stale M = 0) : Distribution M' := by
  refine ⟨fun e c k => by rw [h.alpha]; exact (heard_alive hu hne hb).1 e c k, ?_⟩
  rw [h.mass hu]
  rcases bool_cases M.started with h0 | h0
  · rw [(first_distribution hu h0 hne hb).2, hs.resolve_left (by simp [h0]), add_zero, div_self (evidence0_pos hu hne hb).ne']
  · exact (next_distribution hu h0 hne hb).sum

/-- `M'` is what remains of `M` after a stream of observations; `rs` are the likelihoods that were reported -/
structure Streamed (log exp : K → K) (M : HierHmm K) (rs : List (List K)) (M' : HierHmm K) : Prop where
  keep : M' = { M with models := M'.models, results := M'.results, front1 := M'.front1, front2 := M'.front2, started := M'.started }
  same : SameClasses M M'
  usable : M'.Usable
  logs : ∀ (c : Nat) (lc : String × Hmm K), M.models[c]? = some lc → ∀ hist, Logs lc.2.buf lc.2.window hist → ∃ m', M'.models[c]? = some (lc.1, m') ∧
    Logs m'.buf m'.window (hist ++ rs.map fun r => log (r.getD c 0)) ∧
    (rs ≠ [] → m'.logLik = RecSpec.avgLast lc.2.window (hist ++ rs.map fun r => log (r.getD c 0)))
  summary : rs ≠ [] → M'.results.Summary exp M'.classes ∧ (M.bimodal = true → M'.OutputsOf) ∧ (∀ lc ∈ M'.models, 0 < lc.2.instant) ∧
    M'.started = true
  distribution : rs ≠ [] → (2 ≤ rs.length ∨ M.started = true ∨ stale M = 0) → Distribution M'

theorem stream_ret (D : Dens K) (hD : D.Sound) (log exp : K → K) (xs : List (List K)) : ∀ M : HierHmm K, M.Usable → M.models ≠ [] →
    (∀ x ∈ xs, ∀ lc ∈ M.models, lc.2.Fits x) →
    ∃ rs M', filterAll D log exp xs M = .ret rs M' ∧ rs.length = xs.length ∧ Streamed log exp M rs M' := by
  induction xs with
  | nil =>
    intro M hu hne _
    refine ⟨[], M, rfl, rfl, ⟨rfl, ⟨rfl, fun c lc hlc => ⟨lc.2, hlc, SameClass.refl (hu.ready.cls lc (mem_of_get hlc)).1.can⟩⟩, hu,
      fun c lc hlc hist hl => ⟨lc.2, hlc, by simpa using hl, fun h => absurd rfl h⟩, fun h => absurd rfl h, fun h => absurd rfl h⟩⟩
  | cons x xs ih =>
    intro M hu hne hx
    have hfx := hx x List.mem_cons_self
    obtain ⟨b, hb, hpos⟩ := emits_model D hD hu.ready x hfx
    obtain ⟨v, w, hv⟩ := predicts_model D hD hu.ready x hfx
    obtain ⟨M1, h1, h2⟩ := filter_ret D log exp M hu hne x hfx b hb v w hv hpos
    obtain ⟨rs, M2, g1, g2, g3⟩ := ih M1 h2.usable (h2.ne hne) (fun y hy => h2.fits hu (hx y (List.mem_cons_of_mem _ hy)))
    have hb1 : M1.bimodal = M.bimodal := by rw [h2.keep]
    have hcol : ∀ (c : Nat) (m' : Hmm K) (l : String), M1.models[c]? = some (l, m') → M1.results.inst.getD c 0 = m'.instant := by
      intro c m' l h
      rw [h2.summary.inst]
      simp [classes, List.getD_eq_getElem?_getD, h, Hmm.results]
    have hM2 : xs = [] → rs = [] ∧ M2 = M1 := by
      intro h
      subst h
      simp only [filterAll, pure_def] at g1
      cases g1
      exact ⟨rfl, rfl⟩
    refine ⟨M1.results.inst :: rs, M2, ?_, by simp [g2], ⟨?_, ?_, g3.usable, ?_, fun _ => ?_, fun _ hd => ?_⟩⟩
    · unfold filterAll
      rw [bind_of_ret h1, bind_of_ret (get_def M1), bind_of_ret g1, pure_def]
    · rw [g3.keep, h2.keep]
    · refine ⟨g3.same.1.trans h2.len, fun c lc hlc => ?_⟩
      obtain ⟨m1, a1, a2⟩ := (h2.sameClasses hu).2 c lc hlc
      obtain ⟨m2, b1, b2⟩ := g3.same.2 c _ a1
      exact ⟨m2, b1, a2.trans b2⟩
    · intro c lc hlc hist hl
      obtain ⟨m1, a1, a2, _⟩ := h2.cls c lc hlc
      have hf := a2.reportedFields (hu.buf lc (mem_of_get hlc)) 0 0
      have hsm := (a2.sameClass (hu.ready.cls lc (mem_of_get hlc)).1.can (hu.buf lc (mem_of_get hlc))).facts
      obtain ⟨r1, r2⟩ := a2 hist hl
      rw [← hf.2.1] at r2
      obtain ⟨m2, b1, b2, b3⟩ := g3.logs c _ a1 _ r2
      rw [List.append_assoc] at b2 b3
      have e : hist ++ List.map (fun r => log (r.getD c 0)) (M1.results.inst :: rs) =
          hist ++ ([log m1.instant] ++ List.map (fun r => log (r.getD c 0)) rs) := by
        simp only [List.map_cons, List.singleton_append]; rw [hcol c m1 lc.1 a1]
      rw [e]
      refine ⟨m2, b1, b2, fun _ => ?_⟩
      by_cases hrs : rs = []
      · obtain ⟨hr, hM⟩ := hM2 (List.eq_nil_of_length_eq_zero (by rw [← g2, hrs]; rfl))
        subst hM
        rw [a1] at b1
        cases b1
        rw [r1.logLik, hr, ← hf.2.1]
        simp [(heardClass_buf M b c lc.2).2]
      · rw [b3 hrs]; rw [show m1.window = lc.2.window from hsm.2.2.2.2.1]
    · by_cases hrs : rs = []
      · obtain ⟨hr, hM⟩ := hM2 (List.eq_nil_of_length_eq_zero (by rw [← g2, hrs]; rfl))
        subst hM
        refine ⟨h2.summary, h2.outputs, fun lc hlc => ?_, h2.started⟩
        obtain ⟨c, a, e1, e2, _⟩ := (h2.sameClasses hu).back hlc
        obtain ⟨m', k1, _, k3⟩ := h2.cls c a e1
        rw [e2] at k1
        cases k1
        exact k3
      · have := g3.summary hrs
        rw [hb1] at this
        exact this
    · by_cases hrs : rs = []
      · obtain ⟨hr, hM⟩ := hM2 (List.eq_nil_of_length_eq_zero (by rw [← g2, hrs]; rfl))
        subst hM
        exact h2.distribution hu hne hpos (hd.resolve_left (by simp [hrs]))
      · exact g3.distribution hrs (Or.inr (Or.inl h2.started))

end HierHmm
end Xmm
