import Verif.Spec.FlatTrain
import Verif.Props.HmmTrain
import Verif.Props.HierFlat
set_option linter.unusedSimpArgs false
set_option linter.unusedSectionVars false
/- C106: training and recognition without hierarchy, from the recordings on. -/
namespace Xmm
open TS
open Prog (bind_def pure_def get_def set_def modify_def throw_def undef_def)
open Gauss (resize)

namespace HierHmm
open HierSpec HmmSpec Hmm RecSpec

section joined
variable {z : ℝ} {D : Dens ℝ} {log : ℝ → ℝ} {C : Compare ℝ} {P : EmParams} {cancel : String → Nat → Bool} {f : Format} {τ : Takes ℝ String} {M : HierHmm ℝ}
    {ls : List String} {M3 : HierHmm ℝ}

/-- the model before the last steps can be used without hierarchy -/
theorem Joined.flat (h : Joined z D log C P cancel f τ M ls M3) (hh : M.hier = false) (hbi : M.bimodal = f.bimodal)
    (hmode : M.bimodal = true → ∀ l, (M.conf l).mode = M.mode) : M3.FlatTrained := by
  refine ⟨h.idle, h.hier.trans hh, h.nulls, h.sorted, fun lc hlc => ?_, fun hb lc hlc => ?_⟩
  · obtain ⟨k1, k2, k3, k4, k5, -, k7, -, -⟩ := h.classes lc hlc
    refine ⟨⟨⟨⟨k1.can.wf.pos, k1.can.wf.sts, k1.can.wf.prior, k1.can.wf.trans, k1.can.wf.state⟩,
      ⟨k1.can.chain.start_nonneg, k1.can.chain.start_sum, k1.can.chain.step_nonneg, k1.can.chain.step_sum⟩, k1.can.idle, k1.can.window, k1.can.state⟩, rfl, k2,
      fun he => absurd (k7.symm.trans he) (by simp)⟩, k3.trans h.bimodal.symm, by rw [k4, k5, h.dim, h.di], fun he => absurd (k7.symm.trans he) (by simp)⟩
  · exact (h.classes lc hlc).2.2.2.2.2.1.trans ((hmode (hbi.trans (h.bimodal.symm.trans hb)) lc.1).trans h.mode.symm)

theorem Joined.flats (h : Joined z D log C P cancel f τ M ls M3) : ∀ lc ∈ M3.models, Flat lc.2 := by
  intro lc hlc
  obtain ⟨k1, k2, -⟩ := h.classes lc hlc
  exact ⟨k1.can.idle, k2, k1.can.wf.pos, k1.can.window, k1.can.wf.trans⟩

/-- the classes are those whose training alone is done -/
theorem Joined.mem_iff (h : Joined z D log C P cancel f τ M ls M3) (l : String) (hl : ∃ e ∈ τ, e.2.1 = l) (m : Hmm ℝ) :
    Done z D log C P cancel f τ M.conf M.window l m ↔ (l, m) ∈ M3.models := by
  constructor
  · rintro ⟨tr, e1, e2⟩
    obtain ⟨c, ⟨tr', q1, q2, -⟩, h1, -⟩ := h.each l hl
    rw [e1] at q1
    injection q1 with q1 q3
    subst q1 q3
    exact h1 (q2.trans e2)
  · intro hm
    obtain ⟨tr, q1, q2, -⟩ := h.cls _ hm
    exact ⟨tr, q1, q2.symm⟩

end joined

/-- a class is missing: the size changes -/
theorem size_lt {ls ks : List String} (hs : ks.Sublist ls) {l : String} (h1 : l ∈ ls) (h2 : l ∉ ks) : ks.length < ls.length := by
  rcases Nat.lt_or_ge ks.length ls.length with h | h
  · exact h
  · rw [hs.eq_of_length_le h] at h2
    exact absurd h1 h2

/-- C106: training on a recording session without hierarchy (LeftRight classes, each one with a take long enough for its states) raises no exception and is defined if the training of
    every class is done.  The classes of the model are then those of the takes.  For every non-empty stream of observations of the right size, recognition is defined; the
    likelihoods that it reports for a class, the probabilities of its states, its progress and its output are those of the class trained alone on its own takes, then used alone. -/
theorem C106_train (f : Format) (hv : f.Valid) (i : Nat) (w0 : World ℝ String) (h0 : w0.sets i = none) (ops : List (RecOp ℝ String)) (ha : Takes.Admissible f ops [])
    (hne : (Takes.run f ops []).1 ≠ []) (M : HierHmm ℝ) (hidle : M.training = false) (P : EmParams) (hS : M.Settings P) (hh : M.hier = false)
    (hlong : Takes.LongEnough (Takes.run f ops []).1 fun l => (M.conf l).n) (hbi : M.bimodal = f.bimodal) (hdi : M.bimodal = false → M.di = 0)
    (hmode : M.bimodal = true → ∀ l, (M.conf l).mode = M.mode) (z : ℝ) (D : Dens ℝ) (hD : D.Sound) (log exp : ℝ → ℝ)
    (hlog : ∀ x y, 0 < x → 0 < y → log (x * y) = log x + log y) (hexp : ∀ x, 0 < exp x) (lowest pct : ℝ) (cancel : String → Nat → Bool)
    (hdone : ∀ e ∈ (Takes.run f ops []).1, ∃ m, Done z D log (Compare.exact lowest pct) P cancel f (Takes.run f ops []).1 M.conf M.window e.2.1 m) :
    ∃ M', recordAndTrainHmm z D log (Compare.exact lowest pct) P cancel f i ops w0 M = .ret () M' ∧
      (∀ l, l ∈ SMap.keys M'.models ↔ ∃ e ∈ (Takes.run f ops []).1, e.2.1 = l) ∧
      ∀ xs : List (List ℝ), xs ≠ [] → (∀ x ∈ xs, f.Sample x) → ∃ rs M'', filterAll D log exp xs M' = .ret rs M'' ∧
        (∀ c lc, M'.models[c]? = some lc → ∃ m m0 ps m1 m2, Done z D log (Compare.exact lowest pct) P cancel f (Takes.run f ops []).1 M.conf M.window lc.1 m ∧
          Hmm.reset { m with hier := false } = .ret () m0 ∧ Hmm.filterAll D log xs m0 = .ret ps m1 ∧ (rs.map fun r => r.getD c 0) = ps ∧
          M''.models[c]? = some (lc.1, m2) ∧ SameFrame m1 m2 ∧ m2.logLik = avgLast M.window (twice (ps.map log))) ∧
        (∃ e ∈ (Takes.run f ops []).1, M''.results.likeliest = e.2.1) ∧ M''.results.Summary exp M''.classes ∧ IsDistribution M''.results.instNorm ∧
        IsDistribution M''.results.smoothedNorm ∧ (f.bimodal = true → M''.OutputsOf) := by
  obtain ⟨w, t, h1, h2, h3⟩ := recordAndTrainHmm_sim f hv i w0 h0 ops ha
  obtain ⟨ls, M3, a1, a2⟩ := trainSet_core h1 h2 hv hne M hidle P hS hlong hbi hdi z D hD log hlog lowest pct cancel
  generalize hτ : (Takes.run f ops []).1 = τ at *
  have hF := a2.flat hh hbi hmode
  have hkeys : ∀ l, l ∈ SMap.keys M3.models ↔ ∃ e ∈ τ, e.2.1 = l := by
    intro l
    constructor
    · intro h
      exact (a2.labels l).1 (a2.sub.subset h)
    · rintro ⟨e, he, rfl⟩
      obtain ⟨m, hm⟩ := hdone e he
      exact List.mem_map.2 ⟨_, (a2.mem_iff _ ⟨e, he, rfl⟩ m).1 hm, rfl⟩
  have hlen : M3.models.length = ls.length := by
    have : ls.Subperm (M3.models.map Prod.fst) := List.subperm_of_subset a2.nodup fun l hl => (hkeys l).2 ((a2.labels l).1 hl)
    have h1 := this.length_le
    have h2 := a2.sub.length_le
    simp only [List.length_map] at h1 h2
    omega
  have hne3 : M3.models ≠ [] := by
    obtain ⟨e, he⟩ := List.exists_mem_of_ne_nil _ hne
    intro h0
    have := (hkeys e.2.1).2 ⟨e, he, rfl⟩
    rw [h0] at this
    simp [SMap.keys] at this
  obtain ⟨M', r1, r2, r3, r4, r5, r6⟩ := reset_flat hF.flat hF.nulls a2.flats hF.idle
  have hsame : SMap.keys M'.models = SMap.keys M3.models := r5
  have hl' : M'.models.length = M3.models.length := by
    have := congrArg List.length r5
    simpa using this
  have hup : updateTransitionParameters M' = .ret () M' := by
    unfold updateTransitionParameters
    rw [bind_of_ret (get_def _), if_pos (by rw [r6, a2.top.prior, ← hlen, ← hl']; simp [size, r3]), pure_def]
  refine ⟨M', by rw [h3, a1, bind_of_ret r1, hup], fun l => by rw [hsame]; exact hkeys l, fun xs hxs hx => ?_⟩
  obtain ⟨M0, rs, M'', b1, b2, b3, b4, b5, b6, b7, b8⟩ := C85_flat D hD log exp hexp M3 hF hne3 xs hxs (fun x hx' lc hlc => by
    obtain ⟨-, -, k3, k4, k5, -⟩ := a2.classes lc hlc
    have := hx x hx'
    unfold Hmm.Fits
    rw [k3, k4, k5]
    exact this)
  rw [r1] at b1
  injection b1 with _ b1
  subst b1
  refine ⟨rs, M'', b2, fun c lc hlc => ?_, ?_, b5, b6, b7, fun hb => b8 (a2.bimodal.trans hb)⟩
  · have hc : c < M3.models.length := by rw [← hl']; exact lt_of_get hlc
    obtain ⟨lm, hlm⟩ := get_class hc
    obtain ⟨m0, ps, m1, m2, g1, g2, g3, g4, g5, g6⟩ := b3 c lm hlm
    have hlab : lm.1 = lc.1 := by
      have e1 : (M'.models.map Prod.fst)[c]? = some lc.1 := by rw [List.getElem?_map, hlc]; rfl
      rw [r5, List.getElem?_map, hlm] at e1
      exact Option.some.inj e1
    have hmem := mem_of_get hlm
    obtain ⟨-, -, -, -, -, -, -, -, k9⟩ := a2.classes lm hmem
    rw [k9] at g6
    refine ⟨lm.2, m0, ps, m1, m2, ?_, g1, g2, g4, hlab ▸ g3, g5, g6⟩
    rw [← hlab]
    exact (a2.mem_iff lm.1 ((hkeys lm.1).1 (List.mem_map.2 ⟨_, hmem, rfl⟩)) lm.2).2 hmem
  · have hc : M''.classes ≠ [] := by
      intro h
      have h5 := congrArg List.length h
      simp only [classes, List.length_map, List.length_nil] at h5
      have := List.length_pos_of_ne_nil hne3
      omega
    obtain ⟨before, c, after, e1, e2, -⟩ := b5.likeliest hc
    have hm : c ∈ M''.classes := by rw [e1]; simp
    simp only [classes, List.mem_map] at hm
    obtain ⟨lc, hlc, rfl⟩ := hm
    obtain ⟨k, hk, rfl⟩ := List.getElem_of_mem hlc
    obtain ⟨lm, hlm⟩ := get_class (M := M3) (c := k) (by omega)
    obtain ⟨-, -, -, m2, -, -, g3, -⟩ := b3 k lm hlm
    rw [List.getElem?_eq_getElem hk] at g3
    have g3 := Option.some.inj g3
    obtain ⟨e, he, hel⟩ := (hkeys lm.1).1 (List.mem_map.2 ⟨_, mem_of_get hlm, rfl⟩)
    refine ⟨e, he, ?_⟩
    rw [e2, hel, g3]

/-- C106 (violated): without hierarchy, if the training of one class is cancelled or fails while that of another class is done, `train` ends with a runtime error.  (The classes whose
    training failed are erased and the others are kept, but the default exit probabilities cannot be set in classes outside a hierarchy.) -/
theorem C106_partial_failure_violated (f : Format) (hv : f.Valid) (i : Nat) (w0 : World ℝ String) (h0 : w0.sets i = none) (ops : List (RecOp ℝ String))
    (ha : Takes.Admissible f ops []) (M : HierHmm ℝ) (hidle : M.training = false) (P : EmParams) (hS : M.Settings P) (hh : M.hier = false)
    (hlong : Takes.LongEnough (Takes.run f ops []).1 fun l => (M.conf l).n) (hbi : M.bimodal = f.bimodal) (hdi : M.bimodal = false → M.di = 0)
    (z : ℝ) (D : Dens ℝ) (hD : D.Sound) (log : ℝ → ℝ) (hlog : ∀ x y, 0 < x → 0 < y → log (x * y) = log x + log y) (lowest pct : ℝ) (cancel : String → Nat → Bool)
    (hdone : ∃ e ∈ (Takes.run f ops []).1, ∃ m, Done z D log (Compare.exact lowest pct) P cancel f (Takes.run f ops []).1 M.conf M.window e.2.1 m)
    (hfail : ∃ e ∈ (Takes.run f ops []).1, ¬ ∃ m, Done z D log (Compare.exact lowest pct) P cancel f (Takes.run f ops []).1 M.conf M.window e.2.1 m) :
    ∃ M', recordAndTrainHmm z D log (Compare.exact lowest pct) P cancel f i ops w0 M = .throw .runtimeError M' ∧ M'.training = false ∧
      ∀ l, l ∈ SMap.keys M'.models ↔ (∃ e ∈ (Takes.run f ops []).1, e.2.1 = l) ∧
        ∃ m, Done z D log (Compare.exact lowest pct) P cancel f (Takes.run f ops []).1 M.conf M.window l m := by
  obtain ⟨w, t, h1, h2, h3⟩ := recordAndTrainHmm_sim f hv i w0 h0 ops ha
  have hne : (Takes.run f ops []).1 ≠ [] := by
    obtain ⟨e, he, -⟩ := hdone
    exact List.ne_nil_of_mem he
  obtain ⟨ls, M3, a1, a2⟩ := trainSet_core h1 h2 hv hne M hidle P hS hlong hbi hdi z D hD log hlog lowest pct cancel
  generalize hτ : (Takes.run f ops []).1 = τ at *
  obtain ⟨ed, hed, md, hmd⟩ := hdone
  obtain ⟨ef, hef, hmf⟩ := hfail
  have hfl : M3.hier = false := a2.hier.trans hh
  obtain ⟨M', r1, r2, r3, r4, r5, r6⟩ := reset_flat hfl a2.nulls a2.flats a2.idle
  have hlt : M3.models.length < ls.length := by
    have := size_lt a2.sub (l := ef.2.1) ((a2.labels _).2 ⟨ef, hef, rfl⟩) (fun hin => by
      obtain ⟨lm, hlm, hl⟩ := List.mem_map.1 hin
      exact hmf ⟨lm.2, (a2.mem_iff _ ⟨ef, hef, rfl⟩ lm.2).2 (by rw [← hl]; exact hlm)⟩)
    simpa using this
  have hl' : M'.models.length = M3.models.length := by
    have := congrArg List.length r5
    simpa using this
  have hin : M3.models ≠ [] := List.ne_nil_of_mem ((a2.mem_iff _ ⟨ed, hed, rfl⟩ md).1 hmd)
  have hne' : M'.models ≠ [] := by
    intro h
    have := List.length_pos_of_ne_nil hin
    rw [h] at hl'
    simp at hl'
    omega
  obtain ⟨c, hc⟩ := List.exists_mem_of_ne_nil _ hne'
  obtain ⟨ms, e1, e2⟩ := exits_throw (updateTransition (updatePrior M')) r3 (fun lc hlc => (r2 lc hlc).1.n) ⟨c, hc, (r2 c hc).2⟩
  refine ⟨{ (updateTransition (updatePrior M')) with models := ms }, ?_, r4, fun l => ?_⟩
  · rw [h3, a1, bind_of_ret r1]
    unfold updateTransitionParameters
    rw [bind_of_ret (get_def _), if_neg (by rw [r6, a2.top.prior]; simp [size, r3]; omega), bind_of_ret (modify_def _ _), bind_of_ret (modify_def _ _), e1]
  · have : SMap.keys ms = SMap.keys M3.models := e2.trans r5
    show l ∈ SMap.keys ms ↔ _
    rw [this]
    constructor
    · intro h
      have hl := (a2.labels l).1 (a2.sub.subset h)
      obtain ⟨lm, hlm, rfl⟩ := List.mem_map.1 h
      exact ⟨hl, lm.2, (a2.mem_iff _ hl lm.2).2 hlm⟩
    · rintro ⟨hl, m, hm⟩
      exact List.mem_map.2 ⟨_, (a2.mem_iff _ hl m).1 hm, rfl⟩

/-- C106: if the training of no class is done, `train` returns and the model has no class. -/
theorem C106_no_class (f : Format) (hv : f.Valid) (i : Nat) (w0 : World ℝ String) (h0 : w0.sets i = none) (ops : List (RecOp ℝ String)) (ha : Takes.Admissible f ops [])
    (hne : (Takes.run f ops []).1 ≠ []) (M : HierHmm ℝ) (hidle : M.training = false) (P : EmParams) (hS : M.Settings P) (hh : M.hier = false)
    (hlong : Takes.LongEnough (Takes.run f ops []).1 fun l => (M.conf l).n) (hbi : M.bimodal = f.bimodal) (hdi : M.bimodal = false → M.di = 0)
    (z : ℝ) (D : Dens ℝ) (hD : D.Sound) (log : ℝ → ℝ) (hlog : ∀ x y, 0 < x → 0 < y → log (x * y) = log x + log y) (lowest pct : ℝ) (cancel : String → Nat → Bool)
    (hfail : ∀ e ∈ (Takes.run f ops []).1, ¬ ∃ m, Done z D log (Compare.exact lowest pct) P cancel f (Takes.run f ops []).1 M.conf M.window e.2.1 m) :
    ∃ M', recordAndTrainHmm z D log (Compare.exact lowest pct) P cancel f i ops w0 M = .ret () M' ∧ M'.models = [] ∧ M'.training = false ∧ M'.prior = [] := by
  obtain ⟨w, t, h1, h2, h3⟩ := recordAndTrainHmm_sim f hv i w0 h0 ops ha
  obtain ⟨ls, M3, a1, a2⟩ := trainSet_core h1 h2 hv hne M hidle P hS hlong hbi hdi z D hD log hlog lowest pct cancel
  generalize hτ : (Takes.run f ops []).1 = τ at *
  have hnil : M3.models = [] := by
    by_contra hn
    obtain ⟨lm, hlm⟩ := List.exists_mem_of_ne_nil _ hn
    obtain ⟨e, he, hl⟩ := (a2.labels lm.1).1 (a2.sub.subset (List.mem_map.2 ⟨_, hlm, rfl⟩))
    refine hfail e he ⟨lm.2, ?_⟩
    rw [hl]
    exact (a2.mem_iff _ ⟨e, he, hl⟩ lm.2).2 hlm
  have hfl : M3.hier = false := a2.hier.trans hh
  obtain ⟨M', r1, r2, r3, r4, r5, r6⟩ := reset_flat hfl a2.nulls a2.flats a2.idle
  have hnil' : M'.models = [] := by
    rw [hnil] at r5
    exact List.map_eq_nil_iff.1 r5
  have hls : 0 < ls.length := by
    obtain ⟨e, he⟩ := List.exists_mem_of_ne_nil _ hne
    exact List.length_pos_of_mem ((a2.labels _).2 ⟨e, he, rfl⟩)
  refine ⟨updateTransition (updatePrior M'), ?_, hnil', r4, by simp [updateTransition, updatePrior, size, hnil', r3]⟩
  rw [h3, a1, bind_of_ret r1]
  unfold updateTransitionParameters
  rw [bind_of_ret (get_def _), if_neg (by rw [r6, a2.top.prior]; simp [size, r3, hnil']; omega), bind_of_ret (modify_def _ _), bind_of_ret (modify_def _ _)]
  unfold updateExitProbabilities
  have e0 : (updateTransition (updatePrior M')).models = [] := hnil'
  have e1 : (updateTransition (updatePrior M')).nulls = [] := r3
  rw [bind_of_ret (get_def _), if_neg (by simp [e1]), e0]
  rfl

/-! ### The hypotheses are met -/

/-- a likelihood function that always answers 1/2 -/
noncomputable def halfDens : Dens ℝ := ⟨fun _ => pure (1 / 2), fun _ => pure (1 / 2), fun _ _ => pure (1 / 2)⟩

theorem halfDens_sound : halfDens.Sound := by
  have h : (1 : ℝ) / 10 ^ 180 ≤ 1 / 2 := by
    rw [div_le_div_iff₀ (by positivity) (by positivity)]
    norm_num
  exact ⟨fun g _ _ _ _ => ⟨_, rfl, h⟩, fun g _ _ _ _ _ => ⟨_, rfl, h⟩, fun g _ _ _ _ _ _ _ => ⟨_, rfl, h⟩⟩

/-- if all phrases are single frames, the log-likelihood of every iteration is negative -/
theorem half_update (data : KData ℝ) (hs : ∀ p ∈ data.phrases, p.length ≤ 1) (m m' : Hmm ℝ) (hm : m.InTraining) (ht : m.Trains data) (l : ℝ)
    (hu : emUpdate halfDens Real.log data m = .ret l m') : l < 0 := by
  obtain ⟨d, m2, hO, hge, h6, -⟩ := C73_update halfDens halfDens_sound Real.log (fun x y hx hy => Real.log_mul hx.ne' hy.ne') data m hm ht
  rw [hu] at h6
  injection h6 with h6 _
  rw [h6]
  have hd : ∀ x ∈ data.frames, ∀ i < m.n, likOf m d x i = 1 / 2 := by
    intro x hx i hi
    obtain ⟨s, hs'⟩ : ∃ s, m.sts[i]? = some s := ⟨_, List.getElem?_eq_getElem (by rw [hm.wf.sts]; exact hi)⟩
    have hmem := List.mem_of_getElem? hs'
    have hr := hm.ready s hmem
    have hg := (hm.wf.state s hmem).1
    have hdc : ∀ c ∈ Finset.range m.gaussians, coeff m i c * d i x c = s.coeffs.getD c 0 * (1 / 2) := by
      intro c hc
      have hc' : c < s.comps.length := by rw [hr.wf.comps, hg]; exact Finset.mem_range.1 hc
      have := hO i s hs' x hx c _ (List.getElem?_eq_getElem hc')
      have h2 : (if s.bimodal then halfDens.bimodal (x.take s.di) (x.drop s.di) else halfDens.joint x) s.comps[c] = .ret (1 / 2) s.comps[c] := by
        split <;> rfl
      rw [h2] at this
      injection this with this _
      rw [← this]
      unfold HmmSpec.coeff GmmSpec.weights
      rw [hs']
      simp
    unfold likOf mixture
    rw [Finset.sum_congr rfl hdc, ← Finset.sum_mul]
    have hsum : ∑ c ∈ Finset.range m.gaussians, s.coeffs.getD c 0 = 1 := by
      rw [← hg, ← hr.wf.coeffs, ← hr.coeffs.2]
      simpa using sum_range_getD (0 : ℝ) id s.coeffs
    rw [hsum, one_mul]
  unfold logTotal
  have hval : ∀ fr ∈ data.phrases.filter (fun fr => fr ≠ []), Real.log (total m.n (start m) (step m) (likAt m d fr) (fr.length - 1)) = Real.log (1 / 2) := by
    intro fr hfr
    rw [List.mem_filter] at hfr
    have hne : fr ≠ [] := by simpa using hfr.2
    have h1 := hs fr hfr.1
    obtain ⟨x, rfl⟩ : ∃ x, fr = [x] := by
      cases fr with
      | nil => exact absurd rfl hne
      | cons x t =>
        simp only [List.length_cons] at h1
        exact ⟨x, by rw [List.eq_nil_of_length_eq_zero (l := t) (by omega)]⟩
    have hx : x ∈ data.frames := List.mem_flatten.2 ⟨_, hfr.1, by simp⟩
    congr 1
    rw [total_eq_sum]
    show ∑ j ∈ Finset.range m.n, endingIn m.n (start m) (step m) (likAt m d [x]) 0 j = 1 / 2
    have : ∀ j ∈ Finset.range m.n, endingIn m.n (start m) (step m) (likAt m d [x]) 0 j = start m j * (1 / 2) := by
      intro j hj
      rw [endingIn_zero _ _ _ _ _ (Finset.mem_range.1 hj)]
      congr 1
      exact hd x hx j (Finset.mem_range.1 hj)
    rw [Finset.sum_congr rfl this, ← Finset.sum_mul, hm.start_sum, one_mul]
  rw [List.map_congr_left hval]
  have hlen : 0 < (data.phrases.filter (fun fr => fr ≠ [])).length := by
    obtain ⟨x, hx⟩ := List.exists_mem_of_ne_nil _ ht.some
    obtain ⟨fr, h1, h2⟩ := List.mem_flatten.1 hx
    exact List.length_pos_of_mem (List.mem_filter.2 ⟨h1, by simpa using List.ne_nil_of_mem h2⟩)
  rw [List.map_const', List.sum_replicate, nsmul_eq_mul]
  have h1 : (0 : ℝ) < ((data.phrases.filter (fun fr => fr ≠ [])).length : ℝ) := by exact_mod_cast hlen
  exact mul_neg_of_pos_of_neg h1 (Real.log_neg (by norm_num) (by norm_num))

theorem half_run (data : KData ℝ) (hs : ∀ p ∈ data.phrases, p.length ≤ 1) (hl : data.frames.length ≤ 10 ^ 90) {m0 m : Hmm ℝ} (he : m0.ergodic = false) (h : Running m0 data m) :
    ∀ k ls m', emRun halfDens Real.log data k m = .ret ls m' → Running m0 data m' ∧ ∀ v ∈ ls, v < 0
  | 0, ls, m', hr => by
    unfold emRun at hr
    rw [pure_def] at hr
    injection hr with h1 h2
    subst h1 h2
    exact ⟨h, by simp⟩
  | k + 1, ls, m', hr => by
    unfold emRun at hr
    rw [bind_def] at hr
    split at hr
    · rename_i a b hk
      obtain ⟨r1, r2⟩ := half_run data hs hl he h k a b hk
      obtain ⟨v, m'', q1, q2⟩ := r1.next halfDens halfDens_sound Real.log (fun x y hx hy => Real.log_mul hx.ne' hy.ne') hl (fun h' => absurd (he.symm.trans h') (by simp))
      rw [bind_of_ret q1, pure_def] at hr
      injection hr with h1 h2
      subst h1 h2
      refine ⟨q2, fun u hu => ?_⟩
      rcases List.mem_append.1 hu with hu | hu
      · exact r2 u hu
      · rw [List.mem_singleton.1 hu]
        exact half_update data hs b m'' r1.training r1.trains v q1
    · cases hr
    · cases hr

/-- with that likelihood function, the training of a class with single frames is done if it is not cancelled -/
theorem half_done (f : Format) (hv : f.Valid) (i : Nat) (w0 : World ℝ String) (h0 : w0.sets i = none) (ops : List (RecOp ℝ String)) (ha : Takes.Admissible f ops [])
    (M : HierHmm ℝ) (P : EmParams) (hS : M.Settings P) (hlong : Takes.LongEnough (Takes.run f ops []).1 fun l => (M.conf l).n) (z lowest pct : ℝ)
    (cancel : String → Nat → Bool) (l : String) (hl : ∃ e ∈ (Takes.run f ops []).1, e.2.1 = l) (hc : ∀ k, cancel l k = false)
    (hs : ∀ p ∈ (Takes.data f (Takes.run f ops []).1 l).phrases, p.length ≤ 1) :
    ∃ m, Done z halfDens Real.log (Compare.exact lowest pct) P cancel f (Takes.run f ops []).1 M.conf M.window l m := by
  obtain ⟨w, t, h1, h2, h3⟩ := recordAndTrainHmm_sim f hv i w0 h0 ops ha
  have hlog : ∀ x y : ℝ, 0 < x → 0 < y → Real.log (x * y) = Real.log x + Real.log y := fun x y hx hy => Real.log_mul hx.ne' hy.ne'
  obtain ⟨c, tr, q1, q2, q3, q4, q5, q6, q7⟩ := class_trained h1 hv hS hlong z halfDens halfDens_sound Real.log hlog lowest pct cancel l hl
  refine ⟨c.1, tr, q1, ?_⟩
  rcases q3 with q3 | q3 | q3
  · exact q3
  · exfalso
    obtain ⟨pre, m'', e⟩ := q7 q3
    obtain ⟨e0, he0, rfl⟩ := hl
    obtain ⟨⟨e', he', k1, k2⟩, k3⟩ := hlong e0 he0
    have hn := hS.states e0.2.1
    have hmem : e'.2.2.frames ∈ (Takes.data f (Takes.run f ops []).1 e0.2.1).phrases := by
      simp only [Takes.data, Takes.frames, List.mem_map]
      exact ⟨e', by simp [Takes.ofClass, he', k1], rfl⟩
    have hne : (Takes.data f (Takes.run f ops []).1 e0.2.1).frames ≠ [] := by
      intro h0
      simp only [KData.frames, List.flatten_eq_nil_iff] at h0
      have := h0 _ hmem
      rw [this] at k2
      simp only [List.length_nil] at k2
      omega
    obtain ⟨g, m1, m2, a1, a2, -, -, a3⟩ := init_ret halfDens halfDens_sound Real.log lowest pct P hS.minIter KData.deviation (fun d => by simp [KData.deviation]) _
      (fresh f M.window (M.conf e0.2.1) z) (fresh_admissible hv hn (hS.gaussians _) z) ⟨rfl, h1.frame_length hv _, hne⟩ ⟨_, hmem, k2⟩
      (fun he => absurd ((hS.leftRight e0.2.1).symm.trans he) (by simp)) (hS.absReg _)
    obtain ⟨m1', b1, -, -, b2, -⟩ := allocate_fresh (fresh f M.window (M.conf e0.2.1) z) (fresh_admissible hv hn (hS.gaussians _) z)
    rw [a1] at b1
    injection b1 with _ b1
    subst b1
    unfold iterations at e
    rw [bind_of_ret a1, bind_of_ret a2] at e
    obtain ⟨-, hneg⟩ := half_run _ hs k3 (by rw [b2]; exact hS.leftRight _) a3 _ _ _ e
    have := hneg 0 (by simp)
    exact lt_irrefl _ this
  · exfalso
    obtain ⟨k, hk⟩ := q5 q3
    rw [hc k] at hk
    cases hk

/-- a model without hierarchy, for two modalities, with one state for each class -/
noncomputable def flatModel : HierHmm ℝ := { sessionModel with conf := fun _ => ⟨1, 1, false, .full, 1 / 1000, 1 / 100, .full⟩, hier := false }

/-- two classes, with single frames -/
def frameSession : List (RecOp ℝ String) := manyTakes [(1, "a", [[0, 0]]), (2, "b", [[5, 5]]), (4, "a", [[2, 3]])]

theorem frame_classes : (Takes.run sessionFormat frameSession []).1.map (fun e => (e.1, e.2.1, e.2.2.frames)) = [(1, "a", [[0, 0]]), (2, "b", [[5, 5]]), (4, "a", [[2, 3]])] := by
  unfold frameSession
  rw [(C102_any_takes sessionFormat _ (by simp [sessionFormat])).2]
  simp [SMap.assign]

/-- the hypotheses of `C106_train`, `C106_partial_failure_violated` and `C106_no_class` are met by a bimodal session with two classes: no training is cancelled, that of one class is
    cancelled, both are cancelled -/
theorem flat_session_example : flatModel.training = false ∧ flatModel.hier = false ∧ flatModel.Settings ⟨5, 10⟩ ∧ sessionFormat.Valid ∧
    Takes.Admissible sessionFormat frameSession [] ∧ (Takes.LongEnough (Takes.run sessionFormat frameSession []).1 fun l => (flatModel.conf l).n) ∧
    flatModel.bimodal = sessionFormat.bimodal ∧ (flatModel.bimodal = true → ∀ l, (flatModel.conf l).mode = flatModel.mode) ∧ halfDens.Sound ∧
    (∀ z lowest pct, ∀ e ∈ (Takes.run sessionFormat frameSession []).1, ∃ m,
      Done z halfDens Real.log (Compare.exact lowest pct) ⟨5, 10⟩ (fun _ _ => false) sessionFormat (Takes.run sessionFormat frameSession []).1 flatModel.conf flatModel.window e.2.1 m) ∧
    (∀ z lowest pct, ∃ e ∈ (Takes.run sessionFormat frameSession []).1, ∃ m,
      Done z halfDens Real.log (Compare.exact lowest pct) ⟨5, 10⟩ (fun l _ => l == "b") sessionFormat (Takes.run sessionFormat frameSession []).1 flatModel.conf flatModel.window e.2.1 m) ∧
    (∀ z lowest pct, ∃ e ∈ (Takes.run sessionFormat frameSession []).1, ¬ ∃ m,
      Done z halfDens Real.log (Compare.exact lowest pct) ⟨5, 10⟩ (fun l _ => l == "b") sessionFormat (Takes.run sessionFormat frameSession []).1 flatModel.conf flatModel.window e.2.1 m) ∧
    (∀ z lowest pct, ∀ e ∈ (Takes.run sessionFormat frameSession []).1, ¬ ∃ m,
      Done z halfDens Real.log (Compare.exact lowest pct) ⟨5, 10⟩ (fun _ _ => true) sessionFormat (Takes.run sessionFormat frameSession []).1 flatModel.conf flatModel.window e.2.1 m) := by
  obtain ⟨-, -, -, hv, -⟩ := session_example
  obtain ⟨had, -⟩ := filled_of_takes sessionFormat [(1, "a", [[0, 0]]), (2, "b", [[5, 5]]), (4, "a", [[2, 3]])] (by simp [sessionFormat]) (by simp)
  have hS : flatModel.Settings ⟨5, 10⟩ :=
    ⟨by norm_num [flatModel, sessionModel], by norm_num, fun l => le_rfl, fun l => le_rfl, fun l => by norm_num [flatModel], fun l => rfl⟩
  have hc := frame_classes
  have hlong : Takes.LongEnough (Takes.run sessionFormat frameSession []).1 fun l => (flatModel.conf l).n := by
    refine long_of_classes _ _ ?_
    rw [hc]
    simp [flatModel]
  have hshort : ∀ l, ∀ p ∈ (Takes.data sessionFormat (Takes.run sessionFormat frameSession []).1 l).phrases, p.length ≤ 1 := by
    intro l p hp
    simp only [Takes.data, ofClass_frames, hc] at hp
    simp only [List.mem_map, List.mem_filter] at hp
    obtain ⟨e, ⟨he, -⟩, rfl⟩ := hp
    simp only [List.mem_cons, List.not_mem_nil, or_false] at he
    rcases he with rfl | rfl | rfl <;> simp
  have hin : ∀ l, l = "a" ∨ l = "b" → ∃ e ∈ (Takes.run sessionFormat frameSession []).1, e.2.1 = l := by
    intro l hl
    have : ∃ x ∈ (Takes.run sessionFormat frameSession []).1.map (fun e => (e.1, e.2.1, e.2.2.frames)), x.2.1 = l := by
      rw [hc]
      rcases hl with rfl | rfl
      · exact ⟨(1, "a", [[0, 0]]), by simp, rfl⟩
      · exact ⟨(2, "b", [[5, 5]]), by simp, rfl⟩
    obtain ⟨x, hx, h⟩ := this
    obtain ⟨e, he, rfl⟩ := List.mem_map.1 hx
    exact ⟨e, he, h⟩
  have hdone : ∀ (cancel : String → Nat → Bool) (z lowest pct : ℝ) (l : String), (∃ e ∈ (Takes.run sessionFormat frameSession []).1, e.2.1 = l) → (∀ k, cancel l k = false) →
      ∃ m, Done z halfDens Real.log (Compare.exact lowest pct) ⟨5, 10⟩ cancel sessionFormat (Takes.run sessionFormat frameSession []).1 flatModel.conf flatModel.window l m :=
    fun cancel z lowest pct l hl hk => half_done sessionFormat hv 0 emptyWorld rfl frameSession had flatModel _ hS hlong z lowest pct cancel l hl hk (hshort l)
  have hnot : ∀ (cancel : String → Nat → Bool) (z lowest pct : ℝ) (l : String), cancel l 0 = true →
      ¬ ∃ m, Done z halfDens Real.log (Compare.exact lowest pct) ⟨5, 10⟩ cancel sessionFormat (Takes.run sessionFormat frameSession []).1 flatModel.conf flatModel.window l m := by
    rintro cancel z lowest pct l hk ⟨m, tr, e1, e2⟩
    obtain ⟨m1, b1, -⟩ := allocate_fresh (fresh sessionFormat flatModel.window (flatModel.conf l) z) (fresh_admissible hv (hS.states l) (hS.gaussians l) z)
    obtain ⟨t, k, g1, g2, -⟩ := Trainee.train_cancelled (trainee halfDens Real.log Real.sqrt (Compare.exact lowest pct) ⟨5, 10⟩ KData.deviation
      (Takes.data sessionFormat (Takes.run sessionFormat frameSession []).1 l)) (Compare.exact lowest pct) ⟨5, 10⟩ (cancel l) _ m1 b1 (by norm_num) hk
    unfold Hmm.trainedAlone at e1
    rw [g1] at e1
    injection e1 with e1 _
    subst e1
    rw [g2] at e2
    cases e2
  refine ⟨rfl, rfl, hS, hv, had, hlong, rfl, fun _ _ => rfl, halfDens_sound, fun z lowest pct e he => hdone _ z lowest pct _ ⟨e, he, rfl⟩ fun _ => rfl, fun z lowest pct => ?_,
    fun z lowest pct => ?_, fun z lowest pct e _ => hnot _ z lowest pct _ rfl⟩
  · obtain ⟨e, he, hl⟩ := hin "a" (.inl rfl)
    exact ⟨e, he, hdone _ z lowest pct _ ⟨e, he, rfl⟩ fun _ => by rw [hl]; rfl⟩
  · obtain ⟨e, he, hl⟩ := hin "b" (.inr rfl)
    exact ⟨e, he, hnot _ z lowest pct _ (by rw [hl]; rfl)⟩

end HierHmm
end Xmm
