import Verif.Props.Renaming
import Verif.Props.HierModel
set_option linter.unusedSectionVars false
/- C112: recognition with a hierarchical model does not depend on the names of the classes. -/
namespace Xmm
open Prog (bind_def get_def)
namespace HierHmm
open HierSpec Hmm

/-- two models with the same classes in another order: class number `c` of `M` is class number `σ c` of `N`, and both have heard the same observations since `reset()` -/
structure Shuffled (σ : Equiv.Perm Nat) (ρ : String → String) (M N : HierHmm ℝ) : Prop where
  len : N.models.length = M.models.length
  idx : ∀ c, σ c < M.models.length ↔ c < M.models.length
  bimodal : N.bimodal = M.bimodal
  mode : N.mode = M.mode
  est : N.est = M.est
  started : N.started = M.started
  prior : ∀ c < M.models.length, N.prior.getD (σ c) 0 = M.prior.getD c 0
  trans : ∀ s < M.models.length, ∀ c < M.models.length, (N.trans.getD (σ s) []).getD (σ c) 0 = (M.trans.getD s []).getD c 0
  exits : ∀ c < M.models.length, N.exitTrans.getD (σ c) 0 = M.exitTrans.getD c 0
  cls : ∀ (c : Nat) (lc : String × Hmm ℝ), M.models[c]? = some lc → ∃ n, N.models[σ c]? = some (ρ lc.1, n) ∧ SameClass lc.2 n ∧
    (∃ hist, Logs lc.2.buf lc.2.window hist ∧ Logs n.buf n.window hist) ∧
    (M.started = true → ∀ e k, (n.alphaOf e).getD k 0 = (lc.2.alphaOf e).getD k 0) ∧
    (M.started = false → lc.2.ergodic = true → n.instant = lc.2.instant)

namespace Shuffled
variable {σ : Equiv.Perm Nat} {ρ : String → String} {M N : HierHmm ℝ}

theorem sum (h : Shuffled σ ρ M N) (F G : Nat → ℝ) (hFG : ∀ c < M.models.length, G (σ c) = F c) :
    ∑ c ∈ Finset.range N.models.length, G c = ∑ c ∈ Finset.range M.models.length, F c := by
  rw [h.len]
  refine (Finset.sum_equiv σ (fun c => ?_) fun c hc => ?_).symm
  · simp only [Finset.mem_range]; exact (h.idx c).symm
  · exact (hFG c (Finset.mem_range.1 hc)).symm

theorem back (h : Shuffled σ ρ M N) {d : Nat} (hd : d < N.models.length) : ∃ c, c < M.models.length ∧ σ c = d := by
  refine ⟨σ.symm d, ?_, σ.apply_symm_apply d⟩
  rw [← h.idx, σ.apply_symm_apply, ← h.len]
  exact hd

theorem states (h : Shuffled σ ρ M N) {c : Nat} (hc : c < M.models.length) : HierSpec.states N (σ c) = HierSpec.states M c := by
  obtain ⟨a, ha⟩ := get_class hc
  obtain ⟨n, h1, h2, -⟩ := h.cls c a ha
  rw [states_of ha, states_of h1]; exact h2.facts.1

theorem leaving (h : Shuffled σ ρ M N) (hs : M.started = true) (e : Nat) {c : Nat} (hc : c < M.models.length) : HierSpec.leaving N e (σ c) = HierSpec.leaving M e c := by
  unfold HierSpec.leaving
  rw [h.states hc]
  obtain ⟨a, ha⟩ := get_class hc
  obtain ⟨n, h1, h2, -, h3, -⟩ := h.cls c a ha
  exact Finset.sum_congr rfl fun k _ => by rw [alpha_of ha, alpha_of h1]; exact h3 hs e k

theorem entering (h : Shuffled σ ρ M N) (hs : M.started = true) {c : Nat} (hc : c < M.models.length) : HierSpec.entering N (σ c) = HierSpec.entering M c := by
  unfold HierSpec.entering
  refine h.sum _ _ fun s hs' => ?_
  rw [h.leaving hs 1 hs', h.leaving hs 2 hs', h.trans s hs' c hc, h.prior c hc]

theorem predicted (h : Shuffled σ ρ M N) (hs : M.started = true) {c : Nat} {lc : String × Hmm ℝ} (hc : M.models[c]? = some lc) {n : Hmm ℝ}
    (hn : N.models[σ c]? = some (ρ lc.1, n)) (k : Nat) :
    HierSpec.predicted n (HierSpec.entering N (σ c)) k = HierSpec.predicted lc.2 (HierSpec.entering M c) k := by
  obtain ⟨n', h1, h2, -, h3, -⟩ := h.cls c lc hc
  rw [hn] at h1
  cases h1
  unfold HierSpec.predicted
  rw [h.entering hs (lt_of_get hc), SameClass.within h2, h2.facts.1, h2.facts.2.2.1]
  congr 1
  refine Finset.sum_congr rfl fun j _ => ?_
  rw [show n.alpha0.getD j 0 = lc.2.alpha0.getD j 0 from h3 hs 0 j]

theorem evidence (h : Shuffled σ ρ M N) (hs : M.started = true) (b : Nat → Nat → ℝ) :
    HierSpec.evidence N (fun d => b (σ.symm d)) = HierSpec.evidence M b := by
  unfold HierSpec.evidence
  refine h.sum _ _ fun c hc => ?_
  rw [h.states hc]
  refine Finset.sum_congr rfl fun k _ => ?_
  obtain ⟨a, ha⟩ := get_class hc
  obtain ⟨n, h1, _⟩ := h.cls c a ha
  unfold joint
  rw [ha, h1]
  simp only [Option.map_some, Option.getD_some, Equiv.symm_apply_apply]
  exact congrArg (b c k * ·) (h.predicted hs ha h1 k)

theorem initNorm (h : Shuffled σ ρ M N) (hs : M.started = false) (b : Nat → Nat → ℝ) : initNorm N (fun d => b (σ.symm d)) = initNorm M b := by
  rw [initNorm_eq, initNorm_eq]
  congr 1
  · unfold evidence0
    refine h.sum _ _ fun c hc => ?_
    rw [h.states hc]
    refine Finset.sum_congr rfl fun k _ => ?_
    obtain ⟨a, ha⟩ := get_class hc
    obtain ⟨n, h1, h2, -⟩ := h.cls c a ha
    unfold joint0
    rw [ha, h1, h.prior c hc]
    simp only [Option.map_some, Option.getD_some, Equiv.symm_apply_apply]
    exact congrArg (b c k * ·) (SameClass.first h2 _ k)
  · unfold stale
    refine h.sum _ _ fun c hc => ?_
    obtain ⟨a, ha⟩ := get_class hc
    obtain ⟨n, h1, h2, -, -, h3⟩ := h.cls c a ha
    rw [ha, h1]
    show (if n.ergodic = true then n.instant else 0) = if a.2.ergodic = true then a.2.instant else 0
    rw [h2.facts.2.1]
    split
    · exact h3 hs (by assumption)
    · rfl

/-- the forward algorithm does the same to both classes -/
theorem heardClass (h : Shuffled σ ρ M N) (b : Nat → Nat → ℝ) {c : Nat} {lc : String × Hmm ℝ} (hc : M.models[c]? = some lc) {n : Hmm ℝ}
    (hc' : N.models[σ c]? = some (ρ lc.1, n)) :
    (∀ e k, ((heardClass N (fun d => b (σ.symm d)) (σ c) n).alphaOf e).getD k 0 = ((heardClass M b c lc.2).alphaOf e).getD k 0) ∧
    (heardClass N (fun d => b (σ.symm d)) (σ c) n).instant = (heardClass M b c lc.2).instant := by
  obtain ⟨n', h1, h2, -, h3, h4⟩ := h.cls c lc hc
  rw [hc'] at h1
  cases h1
  have hn := h2.facts.1
  have hx := h2.facts.2.2.2.2.2.2.2.2.2.2.2.2.1
  have hlt := lt_of_get hc
  unfold HierHmm.heardClass
  rw [h.started]
  rcases bool_cases M.started with hs | hs
  · rw [if_neg (by simp [hs]), if_neg (by simp [hs]), h.initNorm hs, h.prior c hlt]
    have hf := SameClass.first h2 (M.prior.getD c 0)
    refine ⟨fun e k => ?_, ?_⟩
    · match e with
      | 0 => simp only [alphaOf, divided, begun, hn, hf, Equiv.symm_apply_apply]
      | 1 => simp only [alphaOf, divided, begun, hn]
      | _ + 2 => simp only [alphaOf, divided, begun, hn]
    · simp only [divided, begun, hn, hf, h2.facts.2.1, Equiv.symm_apply_apply]
      congr 1
      split
      · exact h4 hs (by assumption)
      · rfl
  · rw [if_pos hs, if_pos hs, h.evidence hs, h.exits c hlt]
    have hp : (fun k => b (σ.symm (σ c)) k * HierSpec.predicted n (HierSpec.entering N (σ c)) k) =
        fun k => b c k * HierSpec.predicted lc.2 (HierSpec.entering M c) k := by
      funext k; rw [h.predicted hs hc hc' k, Equiv.symm_apply_apply]
    rw [hp]
    refine ⟨fun e k => ?_, ?_⟩
    · match e with
      | 0 => simp only [alphaOf, divided, updated, hn, hx]
      | 1 => simp only [alphaOf, divided, updated, hn, hx]
      | _ + 2 => simp only [alphaOf, divided, updated, hn, hx]
    · simp only [divided, updated, hn, hx]

/-- the classes report the same -/
def Reports (σ : Equiv.Perm Nat) (ρ : String → String) (M N : HierHmm ℝ) : Prop :=
  ∀ (c : Nat) (lc : String × Hmm ℝ), M.models[c]? = some lc → ∃ n, N.models[σ c]? = some (ρ lc.1, n) ∧ SameReport lc.2 n

theorem step (h : Shuffled σ ρ M N) {log exp : ℝ → ℝ} {M' N' : HierHmm ℝ} (hu : M.Usable) (hu' : N.Usable) {b : Nat → Nat → ℝ} {v w : Nat → Nat → List ℝ}
    (hs : Stepped log exp M b v w M') (hs' : Stepped log exp N (fun d => b (σ.symm d)) (fun d => v (σ.symm d)) (fun d => w (σ.symm d)) N') :
    Shuffled σ ρ M' N' ∧ Reports σ ρ M' N' := by
  have hpair : ∀ (c : Nat) (p : String × Hmm ℝ), M'.models[c]? = some p → ∃ n, N'.models[σ c]? = some (ρ p.1, n) ∧ SameClass p.2 n ∧ SameReport p.2 n ∧
      (∃ hist, Logs p.2.buf p.2.window hist ∧ Logs n.buf n.window hist) ∧ ∀ e k, (n.alphaOf e).getD k 0 = (p.2.alphaOf e).getD k 0 := by
    intro c p hp
    obtain ⟨a, ha⟩ := get_class (M := M) (c := c) (by rw [← hs.len]; exact lt_of_get hp)
    obtain ⟨m1, k1, k2, _⟩ := hs.cls c a ha
    obtain ⟨n, l1, l2, ⟨hist, hl, hl'⟩, -⟩ := h.cls c a ha
    obtain ⟨n1, g1, g2, _⟩ := hs'.cls (σ c) _ l1
    rw [hp] at k1
    cases k1
    obtain ⟨r1, r2⟩ := k2 hist hl
    obtain ⟨r1', r2'⟩ := g2 hist hl'
    simp only [Equiv.symm_apply_apply] at r1'
    obtain ⟨f1, f2⟩ := h.heardClass b ha l1
    have hI := (hu.ready.cls a (mem_of_get ha)).1
    have hIn := (hu'.ready.cls _ (mem_of_get l1)).1
    have hsm := heardClass_same M b c a.2 hI.can
    have hsame := k2.sameClass hI.can (hu.buf a (mem_of_get ha))
    have hsame' := g2.sameClass hIn.can (hu'.buf _ (mem_of_get l1))
    refine ⟨n1, g1, (SameClass.symm hsame hI.can).trans (l2.trans hsame'),
      reported_det ((SameClass.symm hsm hI.can).trans (l2.trans (heardClass_same N _ (σ c) n hIn.can))) f1 f2 (hsm.inHierarchy hI).hier r1 r1',
      ⟨_, r2, by rw [← f2]; exact r2'⟩, fun e k => ?_⟩
    rw [(k2.reportedFields (hu.buf a (mem_of_get ha)) e k).1, (g2.reportedFields (hu'.buf _ (mem_of_get l1)) e k).1]
    exact f1 e k
  have e1 := hs.keep
  have e2 := hs'.keep
  refine ⟨⟨by rw [hs.len, hs'.len, h.len], by rw [hs.len]; exact h.idx, ?_, ?_, ?_, ?_, ?_, ?_, ?_, fun c p hp => ?_⟩, fun c p hp => ?_⟩
  · rw [e1, e2]; exact h.bimodal
  · rw [e1, e2]; exact h.mode
  · rw [e1, e2]; exact h.est
  · rw [e1, e2]
  · rw [hs.len, e1, e2]; exact h.prior
  · rw [hs.len, e1, e2]; exact h.trans
  · rw [hs.len, e1, e2]; exact h.exits
  · obtain ⟨n, q1, q2, q3, q4, q5⟩ := hpair c p hp
    exact ⟨n, q1, q2, q4, fun _ => q5, fun h0 => absurd (hs.started.symm.trans h0) (by simp)⟩
  · obtain ⟨n, q1, q2, q3, q4, q5⟩ := hpair c p hp
    exact ⟨n, q1, q3⟩

theorem ne (h : Shuffled σ ρ M N) (hne : M.models ≠ []) : N.models ≠ [] := by
  intro h0
  have := h.len
  rw [h0] at this
  exact hne (List.eq_nil_of_length_eq_zero this.symm)

theorem fits (h : Shuffled σ ρ M N) {x : List ℝ} (hx : ∀ lc ∈ M.models, lc.2.Fits x) : ∀ lc ∈ N.models, lc.2.Fits x := by
  intro lc hlc
  obtain ⟨d, hd⟩ := List.getElem?_of_mem hlc
  obtain ⟨c, hc, rfl⟩ := h.back (lt_of_get hd)
  obtain ⟨a, ha⟩ := get_class hc
  obtain ⟨n, h1, h2, -⟩ := h.cls c a ha
  rw [hd] at h1
  cases h1
  exact h2.fits (hx a (mem_of_get ha))

theorem emits (h : Shuffled σ ρ M N) {D : Dens ℝ} {x : List ℝ} {b : Nat → Nat → ℝ} (hb : HierSpec.Emits D M x b) : HierSpec.Emits D N x fun d => b (σ.symm d) := by
  intro d lc hd
  obtain ⟨c, hc, rfl⟩ := h.back (lt_of_get hd)
  obtain ⟨a, ha⟩ := get_class hc
  obtain ⟨n, h1, h2, -⟩ := h.cls c a ha
  rw [hd] at h1
  cases h1
  simp only [Equiv.symm_apply_apply]
  exact h2.emits (hb c a ha)

theorem predicts (h : Shuffled σ ρ M N) {D : Dens ℝ} {x : List ℝ} {v w : Nat → Nat → List ℝ} (hv : HierSpec.Predicts D M x v w) :
    HierSpec.Predicts D N x (fun d => v (σ.symm d)) fun d => w (σ.symm d) := by
  intro hb d lc hd
  obtain ⟨c, hc, rfl⟩ := h.back (lt_of_get hd)
  obtain ⟨a, ha⟩ := get_class hc
  obtain ⟨n, h1, h2, -⟩ := h.cls c a ha
  rw [hd] at h1
  cases h1
  simp only [Equiv.symm_apply_apply]
  exact h2.predicts (hv (h.bimodal.symm.trans hb) c a ha)

theorem stream (D : Dens ℝ) (hD : D.Sound) (log exp : ℝ → ℝ) (xs : List (List ℝ)) (hxs : xs ≠ []) : ∀ M N : HierHmm ℝ, M.Usable → N.Usable →
    Shuffled σ ρ M N → M.models ≠ [] → (∀ x ∈ xs, ∀ lc ∈ M.models, lc.2.Fits x) →
    ∃ rs ss M' N', filterAll D log exp xs M = .ret rs M' ∧ filterAll D log exp xs N = .ret ss N' ∧ Shuffled σ ρ M' N' ∧ Reports σ ρ M' N' ∧ M'.Usable ∧ N'.Usable ∧
      M'.models ≠ [] ∧ M'.bimodal = M.bimodal ∧ M'.est = M.est ∧ M'.results.Summary exp M'.classes ∧ N'.results.Summary exp N'.classes ∧ (M.bimodal = true → M'.OutputsOf ∧ N'.OutputsOf) := by
  induction xs with
  | nil => exact absurd rfl hxs
  | cons x xs ih =>
    intro M N hu hu' h hne hx
    have hfx := hx x List.mem_cons_self
    obtain ⟨b, hb, hpos⟩ := emits_model D hD hu.ready x hfx
    obtain ⟨v, w, hv⟩ := predicts_model D hD hu.ready x hfx
    obtain ⟨M1, h1, h2⟩ := filter_ret D log exp M hu hne x hfx b hb v w hv hpos
    obtain ⟨N1, g1, g2⟩ := filter_ret D log exp N hu' (h.ne hne) x (h.fits hfx) _ (h.emits hb) _ _ (h.predicts hv) (fun d k hd hk => by
      obtain ⟨c, hc, rfl⟩ := h.back hd
      rw [h.states hc] at hk
      rw [Equiv.symm_apply_apply]
      exact hpos c k hc hk)
    obtain ⟨s1, s2⟩ := h.step hu hu' h2 g2
    have hb1 : M1.bimodal = M.bimodal := by rw [h2.keep]
    have he1 : M1.est = M.est := by rw [h2.keep]
    cases xs with
    | nil =>
      refine ⟨[M1.results.inst], [N1.results.inst], M1, N1, ?_, ?_, s1, s2, h2.usable, g2.usable, h2.ne hne, hb1, he1, h2.summary, g2.summary,
        fun hb => ⟨h2.outputs hb, g2.outputs (h.bimodal.trans hb)⟩⟩
      · simp only [filterAll]
        rw [bind_of_ret h1, bind_of_ret (get_def M1)]; rfl
      · simp only [filterAll]
        rw [bind_of_ret g1, bind_of_ret (get_def N1)]; rfl
    | cons y ys =>
      obtain ⟨rs, ss, M', N', k1, k2, k3, k4, k5, k6, k7, k8, k9, k10, k11, k12⟩ := ih (by simp) M1 N1 h2.usable g2.usable s1 (h2.ne hne)
        fun z hz => h2.fits hu (hx z (List.mem_cons_of_mem _ hz))
      refine ⟨M1.results.inst :: rs, N1.results.inst :: ss, M', N', ?_, ?_, k3, k4, k5, k6, k7, k8.trans hb1, k9.trans he1, k10, k11, fun hb => k12 (hb1.trans hb)⟩
      · rw [filterAll, bind_of_ret h1, bind_of_ret (get_def M1), bind_of_ret k1]; rfl
      · rw [filterAll, bind_of_ret g1, bind_of_ret (get_def N1), bind_of_ret k2]; rfl

end Shuffled

theorem report_eq {exp : ℝ → ℝ} {M : HierHmm ℝ} (h : M.results.Summary exp M.classes) : M.report = M.classes.map fun c =>
    (⟨c.1, c.2.instant, c.2.instant / (M.classes.map fun c => c.2.instant).sum, c.2.logLik, exp c.2.logLik / (M.classes.map fun c => exp c.2.logLik).sum⟩ : ClassReport) := by
  have hlen : M.models.length = M.classes.length := by simp [classes]
  have hk : SMap.keys M.models = M.classes.map Prod.fst := by simp [classes, SMap.keys, Function.comp_def]
  unfold report
  rw [h.inst, h.instNorm, h.smoothedLog, h.smoothedNorm, hk, hlen]
  generalize (M.classes.map fun c => c.2.instant).sum = s
  generalize (M.classes.map fun c => exp c.2.logLik).sum = s'
  refine List.ext_getElem (by simp) fun i h1 h2 => ?_
  have hi : i < M.classes.length := by simpa using h2
  simp [List.getD_eq_getElem?_getD, List.getElem?_eq_getElem hi]

theorem mixed {exp : ℝ → ℝ} {M : HierHmm ℝ} (h : M.results.Summary exp M.classes) (g : ClassRes ℝ → ℝ) :
    ∑ i ∈ Finset.range M.models.length, M.results.smoothedNorm.getD i 0 * (M.classes[i]?.map fun c => g c.2).getD 0 =
      (M.classes.map fun c => exp c.2.logLik / (M.classes.map fun c => exp c.2.logLik).sum * g c.2).sum := by
  have hl : M.classes.length = M.models.length := by simp [classes]
  rw [← hl, ← GmmModel.rangeSum]
  refine Finset.sum_congr rfl fun i hi => ?_
  have hi' := Finset.mem_range.1 hi
  rw [h.smoothedNorm]
  simp [List.getD_eq_getElem?_getD, hi']

theorem getD_get {α : Type} {l : List α} {c : Nat} (hc : c < l.length) (d : α) : l.getD c d = l[c] := by
  simp [List.getD_eq_getElem?_getD, hc]

/-- the numbers of the classes correspond -/
theorem RenamedAs.perm {ρ : String → String} (hρ : Function.Injective ρ) {M N : HierHmm ℝ} (hM : SMap.Sorted M.models) (hN : SMap.Sorted N.models) (h : RenamedAs ρ M N) :
    ∃ σ : Equiv.Perm Nat, N.models.length = M.models.length ∧ (∀ c, σ c < M.models.length ↔ c < M.models.length) ∧
      ∀ c < M.models.length, σ c = (SMap.keys N.models).idxOf (ρ ((SMap.keys M.models).getD c "")) := by
  have nM : (SMap.keys M.models).Nodup := SMap.keys_nodup hM
  have nN : (SMap.keys N.models).Nodup := SMap.keys_nodup hN
  have hp : (SMap.keys N.models).Perm ((SMap.keys M.models).map ρ) := by
    refine (List.perm_ext_iff_of_nodup nN (nM.map hρ)).2 fun k => ?_
    constructor
    · intro hk
      obtain ⟨lc, hlc, rfl⟩ := List.mem_map.1 hk
      obtain ⟨l, m, h1, h2⟩ := h.bwd lc hlc
      exact List.mem_map.2 ⟨l, List.mem_map.2 ⟨_, h1, rfl⟩, h2⟩
    · intro hk
      obtain ⟨l, hl, rfl⟩ := List.mem_map.1 hk
      obtain ⟨lc, hlc, rfl⟩ := List.mem_map.1 hl
      obtain ⟨n, h1, -⟩ := h.fwd lc hlc
      exact List.mem_map.2 ⟨_, h1, rfl⟩
  have hl : N.models.length = M.models.length := by simpa [SMap.keys] using hp.length_eq
  have lM : (SMap.keys M.models).length = M.models.length := by simp [SMap.keys]
  have lN : (SMap.keys N.models).length = M.models.length := by simp [SMap.keys, hl]
  set f : Nat → Nat := fun c => if c < M.models.length then (SMap.keys N.models).idxOf (ρ ((SMap.keys M.models).getD c "")) else c with hf
  have hkey : ∀ c < M.models.length, (SMap.keys M.models).getD c "" ∈ SMap.keys M.models := fun c hc => by
    rw [getD_get (show c < (SMap.keys M.models).length by rw [lM]; exact hc)]; exact List.getElem_mem _
  have hin : ∀ c < M.models.length, ρ ((SMap.keys M.models).getD c "") ∈ SMap.keys N.models := fun c hc =>
    hp.mem_iff.2 (List.mem_map.2 ⟨_, hkey c hc, rfl⟩)
  have hlt : ∀ c, f c < M.models.length ↔ c < M.models.length := by
    intro c
    simp only [hf]
    by_cases hc : c < M.models.length
    · rw [if_pos hc]
      refine ⟨fun _ => hc, fun _ => ?_⟩
      rw [← lN]; exact List.idxOf_lt_length_of_mem (hin c hc)
    · rw [if_neg hc]
  have hinj : Function.Injective f := by
    intro c d hcd
    by_cases hc : c < M.models.length
    · have hd : d < M.models.length := by rw [← hlt, ← hcd, hlt]; exact hc
      simp only [hf, if_pos hc, if_pos hd] at hcd
      have e := (List.idxOf_inj (hin c hc)).1 hcd
      have e' := hρ e
      rw [getD_get (show c < (SMap.keys M.models).length by rw [lM]; exact hc), getD_get (show d < (SMap.keys M.models).length by rw [lM]; exact hd)] at e'
      exact (List.Nodup.getElem_inj_iff nM).1 e'
    · have hd : ¬ d < M.models.length := by rw [← hlt, ← hcd, hlt]; exact hc
      simpa only [hf, if_neg hc, if_neg hd] using hcd
  have hsurj : Function.Surjective f := by
    intro d
    by_cases hd : d < M.models.length
    · have hk : (SMap.keys N.models)[d]'(by rw [lN]; exact hd) ∈ (SMap.keys M.models).map ρ := hp.mem_iff.1 (List.getElem_mem _)
      obtain ⟨l, h1, h2⟩ := List.mem_map.1 hk
      obtain ⟨c, hc, rfl⟩ := List.getElem_of_mem h1
      have hc' : c < M.models.length := by rw [← lM]; exact hc
      refine ⟨c, ?_⟩
      simp only [hf, if_pos hc']
      rw [getD_get hc, h2]
      exact nN.idxOf_getElem d _
    · exact ⟨d, by simp only [hf, if_neg hd]⟩
  exact ⟨Equiv.ofBijective f ⟨hinj, hsurj⟩, hl, hlt, fun c hc => by simp [Equiv.ofBijective, hf, if_pos hc]⟩

theorem RenamedAs.shuffled {ρ : String → String} (hρ : Function.Injective ρ) {M N : HierHmm ℝ} (hM : M.Usable) (hN : N.Usable) (h : RenamedAs ρ M N) :
    ∃ σ M' N', reset M = .ret () M' ∧ reset N = .ret () N' ∧ M'.Usable ∧ N'.Usable ∧ Shuffled σ ρ M' N' ∧ M'.models.length = M.models.length ∧ M'.bimodal = M.bimodal ∧
      M'.est = M.est ∧ ∀ x, (∀ lc ∈ M.models, lc.2.Fits x) → ∀ lc ∈ M'.models, lc.2.Fits x := by
  obtain ⟨σ, hl, hidx, hσ⟩ := h.perm hρ hM.sorted hN.sorted
  obtain ⟨M', a1, a2, a3, a4, a5, a6⟩ := reset_ret M hM.trained
  obtain ⟨N', b1, b2, b3, b4, b5, b6⟩ := reset_ret N hN.trained
  have lM : (SMap.keys M.models).length = M.models.length := by simp [SMap.keys]
  have nM : (SMap.keys M.models).Nodup := SMap.keys_nodup hM.sorted
  have hix : ∀ c < M.models.length, (SMap.keys M.models).idxOf ((SMap.keys M.models).getD c "") = c := fun c hc => by
    rw [getD_get (show c < (SMap.keys M.models).length by rw [lM]; exact hc)]
    exact nM.idxOf_getElem c _
  have hkey : ∀ c < M.models.length, (SMap.keys M.models).getD c "" ∈ SMap.keys M.models := fun c hc => by
    rw [getD_get (show c < (SMap.keys M.models).length by rw [lM]; exact hc)]; exact List.getElem_mem _
  refine ⟨σ, M', N', a1, b1, a2, b2, ⟨by rw [a5, b5, hl], by rw [a5]; exact hidx, ?_, ?_, ?_, by rw [a3, b3], ?_, ?_, ?_, ?_⟩, a5, by rw [a4], by rw [a4], ?_⟩
  · rw [a4, b4]; exact h.bimodal
  · rw [a4, b4]; exact h.mode
  · rw [a4, b4]; exact h.est
  · intro c hc
    rw [a5] at hc
    have e := h.prior _ (hkey c hc)
    unfold priorOf at e
    rw [← hσ c hc, hix c hc] at e
    rw [a4, b4]; exact e
  · intro s hs c hc
    rw [a5] at hc hs
    have e := h.trans _ (hkey s hs) _ (hkey c hc)
    unfold transOf at e
    rw [← hσ c hc, ← hσ s hs, hix c hc, hix s hs] at e
    rw [a4, b4]; exact e
  · intro c hc
    rw [a5] at hc
    have e := h.exits _ (hkey c hc)
    unfold exitOf at e
    rw [← hσ c hc, hix c hc] at e
    rw [a4, b4]; exact e
  · intro c p hp
    obtain ⟨a, ha⟩ := get_class (M := M) (c := c) (by rw [← a5]; exact lt_of_get hp)
    obtain ⟨m1, k1, k2, k3, k4⟩ := a6 c a ha
    rw [hp] at k1
    cases k1
    obtain ⟨n, h1, h2, h3⟩ := h.fwd a (mem_of_get ha)
    have hc := lt_of_get ha
    have hd : N.models[σ c]? = some (ρ a.1, n) := by
      have e1 : (SMap.keys M.models).getD c "" = a.1 := by simp [SMap.keys, List.getD_eq_getElem?_getD, ha]
      rw [hσ c hc, e1]
      obtain ⟨d, hd⟩ := List.getElem?_of_mem h1
      have hd' : d < (SMap.keys N.models).length := by simpa [SMap.keys] using lt_of_get hd
      have e2 : (SMap.keys N.models)[d] = ρ a.1 := by
        have : (SMap.keys N.models)[d]? = some (ρ a.1) := by simp [SMap.keys, hd]
        rw [List.getElem?_eq_getElem hd'] at this
        exact Option.some.inj this
      rw [← e2, (SMap.keys_nodup hN.sorted).idxOf_getElem d hd', hd, e2]
    obtain ⟨n1, g1, g2, g3, g4⟩ := b6 (σ c) _ hd
    refine ⟨n1, g1, ?_, ⟨[], k3, g3⟩, fun h0 => absurd (a3.symm.trans h0) (by simp), fun _ he => ?_⟩
    · exact (SameClass.symm k2 (hM.ready.cls a (mem_of_get ha)).1.can).trans (h2.trans g2)
    · rw [g4, k4]
      exact h3 (k2.facts.2.1.symm.trans he)
  · intro x hx lc hlc
    obtain ⟨c, hc⟩ := List.getElem?_of_mem hlc
    obtain ⟨a, ha⟩ := get_class (M := M) (c := c) (by rw [← a5]; exact lt_of_get hc)
    obtain ⟨m1, k1, k2, k3, k4⟩ := a6 c a ha
    rw [hc] at k1
    cases k1
    exact k2.fits (hx a (mem_of_get ha))

/-- C112 (recognition with hidden Markov models): two usable hierarchical models that have the same hierarchy and the same classes under other names.  After `reset()`, on every
    stream, the reports of the classes are the same, up to their names and their order, and so are the progress and the likeliest state of each class; the likeliest class is the
    same one unless there is a tie; the mixed output is the same, and that of the likeliest class is the same unless there is a tie. -/
theorem C112_hmm_recognition (ρ : String → String) (hρ : Function.Injective ρ) (D : Dens ℝ) (hD : D.Sound) (log exp : ℝ → ℝ) (M N : HierHmm ℝ)
    (hM : M.Usable) (hN : N.Usable) (hne : M.models ≠ []) (hr : RenamedAs ρ M N) (xs : List (List ℝ)) (hxs : xs ≠ []) (hx : ∀ x ∈ xs, ∀ lc ∈ M.models, lc.2.Fits x) :
    ∃ rs ss M' N', (do reset; filterAll D log exp xs) M = .ret rs M' ∧ (do reset; filterAll D log exp xs) N = .ret ss N' ∧
      N'.report.Perm (M'.report.map (ClassReport.rename ρ)) ∧
      (∀ l m, (l, m) ∈ M'.models → ∃ n, (ρ l, n) ∈ N'.models ∧ n.progress = m.progress ∧ n.likeliest = m.likeliest) ∧
      (NoTie M'.report → N'.results.likeliest = ρ M'.results.likeliest) ∧
      (M.bimodal = true → M.est = .mixture ∨ NoTie M'.report → N'.results.outVals = M'.results.outVals ∧ N'.results.outCov = M'.results.outCov) := by
  obtain ⟨σ, M1, N1, a1, b1, a2, b2, h1, a5, a6, a7, a8⟩ := hr.shuffled hρ hM hN
  have hne1 : M1.models ≠ [] := by
    intro h0
    rw [h0] at a5
    exact hne (List.eq_nil_of_length_eq_zero a5.symm)
  obtain ⟨rs, ss, M', N', k1, k2, k3, k4, k5, k6, k7, k8, k9, a9, b9, o9⟩ := Shuffled.stream D hD log exp xs hxs M1 N1 a2 b2 h1 hne1 fun x hx' => a8 x (hx x hx')
  have hto : ∀ l m', (l, m') ∈ M'.models → ∃ n', (ρ l, n') ∈ N'.models ∧ SameReport m' n' := by
    intro l m' h
    obtain ⟨c, hc⟩ := List.getElem?_of_mem h
    obtain ⟨n, q1, q2⟩ := k4 c _ hc
    exact ⟨n, mem_of_get q1, q2⟩
  have hof : ∀ k n', (k, n') ∈ N'.models → ∃ l m', k = ρ l ∧ (l, m') ∈ M'.models ∧ SameReport m' n' := by
    intro k n' h
    obtain ⟨d, hd⟩ := List.getElem?_of_mem h
    obtain ⟨c, hc, rfl⟩ := k3.back (lt_of_get hd)
    obtain ⟨a, ha⟩ := get_class hc
    obtain ⟨n, q1, q2⟩ := k4 c a ha
    rw [hd] at q1
    cases q1
    exact ⟨a.1, a.2, rfl, mem_of_get ha, q2⟩
  have huniq : ∀ {A : HierHmm ℝ}, A.Usable → ∀ {l : String} {u v : Hmm ℝ}, (l, u) ∈ A.models → (l, v) ∈ A.models → u = v := fun hA _ _ _ h1 h2 =>
    GmmModel.find?_unique hA.sorted h1 h2
  have hnodup : ∀ {A : HierHmm ℝ}, A.Usable → (A.classes.map Prod.fst).Nodup := by
    intro A hA
    have := SMap.keys_nodup hA.sorted
    simpa [classes, SMap.keys, Function.comp_def] using this
  have hgen : ∀ (γ : Type) (core : ClassRes ℝ → γ), (∀ m' n' : Hmm ℝ, (∃ l, (l, m') ∈ M'.models) → SameReport m' n' → core n'.results = core m'.results) →
      (N'.classes.map fun c => (c.1, core c.2)).Perm (M'.classes.map fun c => (ρ c.1, core c.2)) := by
    intro γ core hcore
    refine (List.perm_ext_iff_of_nodup ?_ ?_).2 fun x => ?_
    · exact List.Nodup.of_map Prod.fst (by simpa [Function.comp_def] using hnodup k6)
    · refine List.Nodup.of_map Prod.fst ?_
      have := (hnodup k5).map hρ
      simpa [Function.comp_def] using this
    · simp only [classes, List.map_map, List.mem_map, Function.comp]
      constructor
      · rintro ⟨⟨k, n'⟩, h1, rfl⟩
        obtain ⟨l, m', rfl, e1, e2⟩ := hof k n' h1
        exact ⟨(l, m'), e1, by rw [hcore m' n' ⟨l, e1⟩ e2]⟩
      · rintro ⟨⟨l, m'⟩, h1, rfl⟩
        obtain ⟨n', e1, e2⟩ := hto l m' h1
        exact ⟨(ρ l, n'), e1, by rw [hcore m' n' ⟨l, h1⟩ e2]⟩
  have hcore := hgen _ (fun c : ClassRes ℝ => (c.instant, c.logLik)) fun m' n' _ h => by simp [Hmm.results, h.instant, h.logLik]
  have hs1 : (N'.classes.map fun c => c.2.instant).sum = (M'.classes.map fun c => c.2.instant).sum := by
    have := (hcore.map fun e => e.2.1).sum_eq
    simpa [Function.comp_def] using this
  have hs2 : (N'.classes.map fun c => exp c.2.logLik).sum = (M'.classes.map fun c => exp c.2.logLik).sum := by
    have := (hcore.map fun e => exp e.2.2).sum_eq
    simpa [Function.comp_def] using this
  have hrep : N'.report.Perm (M'.report.map (ClassReport.rename ρ)) := by
    rw [report_eq a9, report_eq b9, hs1, hs2]
    have := hcore.map fun e : String × ℝ × ℝ => (⟨e.1, e.2.1, e.2.1 / (M'.classes.map fun c => c.2.instant).sum, e.2.2,
      exp e.2.2 / (M'.classes.map fun c => exp c.2.logLik).sum⟩ : ClassReport)
    simpa [Function.comp_def, ClassReport.rename] using this
  -- the likeliest class
  have hlik : ∀ {A : HierHmm ℝ}, A.results.Summary exp A.classes → A.models ≠ [] → ∃ e ∈ A.report, e.label = A.results.likeliest ∧ ∀ e' ∈ A.report, e'.smoothedLog ≤ e.smoothedLog := by
    intro A hA hA'
    obtain ⟨before, c, after, e1, e2, e3, e4⟩ := hA.likeliest (by simpa [classes] using hA')
    rw [report_eq hA]
    refine ⟨_, List.mem_map.2 ⟨c, by rw [e1]; simp, rfl⟩, e2.symm, fun e' he' => ?_⟩
    obtain ⟨c', hc', rfl⟩ := List.mem_map.1 he'
    simp only
    rw [e1] at hc'
    simp only [List.mem_append, List.mem_cons] at hc'
    rcases hc' with h | rfl | h
    · exact (e3 _ h).le
    · exact le_rfl
    · exact e4 _ h
  have hbest : NoTie M'.report → N'.results.likeliest = ρ M'.results.likeliest := by
    rintro ⟨e, he, hmax⟩
    obtain ⟨u, u1, u2, u3⟩ := hlik a9 k7
    obtain ⟨v, v1, v2, v3⟩ := hlik b9 (k3.ne k7)
    have hu : u = e := by
      rcases hmax u u1 with h | h
      · exact h
      · exact absurd (u3 e he) (not_le.2 h)
    obtain ⟨v', w1, rfl⟩ := List.mem_map.1 ((hrep.mem_iff).1 v1)
    have hv : v' = e := by
      rcases hmax v' w1 with h | h
      · exact h
      · have := v3 (ClassReport.rename ρ e) (hrep.mem_iff.2 (List.mem_map.2 ⟨e, he, rfl⟩))
        exact absurd this (not_le.2 h)
    rw [← v2, ← u2, hu, hv]; rfl
  refine ⟨rs, ss, M', N', by rw [bind_of_ret a1]; exact k1, by rw [bind_of_ret b1]; exact k2, hrep, fun l m h => ?_, hbest, fun hb hest => ?_⟩
  · obtain ⟨n, q1, q2⟩ := hto l m h
    exact ⟨n, q1, q2.progress, q2.likeliest⟩
  obtain ⟨oM, oN⟩ := o9 (a6.trans hb)
  have hbM : M'.bimodal = true := k8.trans (a6.trans hb)
  have d1 : N'.dim - N'.di = M'.dim - M'.di := by
    obtain ⟨a, ha⟩ := get_class (M := M') (c := 0) (List.length_pos_iff.2 k7)
    obtain ⟨n, q1, q2, -⟩ := k3.cls 0 a ha
    rw [← k6.dims _ (mem_of_get q1), ← k5.dims _ (mem_of_get ha)]
    show n.dim - n.di = a.2.dim - a.2.di
    rw [q2.1]
  have d2 : N'.mode = M'.mode := k3.mode
  have d3 : N'.est = M'.est := k3.est
  have d4 : M'.est = M.est := k9.trans a7
  have hall := hgen _ id fun m' n' hm h => by
    obtain ⟨l, hl⟩ := hm
    obtain ⟨e1, e2⟩ := h.out ((k5.ready.cls _ hl).2.trans hbM)
    simp [Hmm.results, h.instant, h.logLik, e1, e2]
  cases he : M.est with
  | likeliest =>
    have ht : NoTie M'.report := by
      rcases hest with h | h
      · rw [he] at h; cases h
      · exact h
    unfold OutputsOf at oM oN
    rw [d3, d4, he] at oN
    rw [d4, he] at oM
    simp only at oM oN
    obtain ⟨c, c1, c2, c3⟩ := oM
    obtain ⟨c', c1', c2', c3'⟩ := oN
    rw [hbest ht] at c1'
    obtain ⟨n', e1, e2⟩ := hto _ _ c1
    obtain rfl := huniq k6 c1' e1
    rw [c2, c3, c2', c3']
    exact e2.out ((k5.ready.cls _ c1).2.trans hbM)
  | mixture =>
    unfold OutputsOf at oM oN
    rw [d3, d4, he, d1, d2] at oN
    rw [d4, he] at oM
    simp only at oM oN
    have hmix : ∀ g : ClassRes ℝ → ℝ, (N'.classes.map fun c => exp c.2.logLik / (N'.classes.map fun c => exp c.2.logLik).sum * g c.2).sum =
        (M'.classes.map fun c => exp c.2.logLik / (M'.classes.map fun c => exp c.2.logLik).sum * g c.2).sum := by
      intro g
      rw [hs2]
      have := (hall.map fun e => exp e.2.logLik / (M'.classes.map fun c => exp c.2.logLik).sum * g e.2).sum_eq
      simpa [Function.comp_def] using this
    rw [oM.1, oM.2, oN.1, oN.2]
    constructor
    · refine List.map_congr_left fun k _ => ?_
      have h1 := mixed b9 fun c => c.outVals.getD k 0
      have h2 := mixed a9 fun c => c.outVals.getD k 0
      unfold RecSpec.outVal
      rw [h1, h2, hmix fun c => c.outVals.getD k 0]
    · refine List.map_congr_left fun k _ => ?_
      have h1 := mixed b9 fun c => c.outCov.getD k 0
      have h2 := mixed a9 fun c => c.outCov.getD k 0
      unfold RecSpec.outVar
      rw [h1, h2, hmix fun c => c.outCov.getD k 0]

end HierHmm
end Xmm
