import Verif.Props.LoadedTrainHmm
set_option linter.unusedSectionVars false
/- C115: what training gives depends on the training set and on the parameters only, not on the past of the model nor on memory that is not initialised. -/
namespace Xmm
open TS
open Hmm HierHmm

namespace HierHmm

theorem mem_keys_models {X : HierHmm ℝ} {l : String} : l ∈ SMap.keys X.models ↔ ∃ x, (l, x) ∈ X.models := by
  constructor
  · intro h
    obtain ⟨lc, h3, rfl⟩ := List.mem_map.1 h
    exact ⟨lc.2, h3⟩
  · rintro ⟨x, h⟩
    exact List.mem_map.2 ⟨_, h, rfl⟩

theorem class_unique {X : HierHmm ℝ} (hX : SMap.Sorted X.models) {l : String} {x y : Hmm ℝ} (hx : (l, x) ∈ X.models) (hy : (l, y) ∈ X.models) : x = y := by
  have e1 := (SMap.mem_iff_find? hX).1 hx
  have e2 := (SMap.mem_iff_find? hX).1 hy
  rw [e1] at e2
  exact Option.some.inj e2

theorem keys_same {X Y : HierHmm ℝ} (hX : SMap.Sorted X.models) (hY : SMap.Sorted Y.models) (h : ∀ l, l ∈ SMap.keys X.models ↔ l ∈ SMap.keys Y.models) :
    SMap.keys X.models = SMap.keys Y.models := by
  have hp : (SMap.keys X.models).Perm (SMap.keys Y.models) := (List.perm_ext_iff_of_nodup (SMap.keys_nodup hX) (SMap.keys_nodup hY)).2 h
  exact hp.eq_of_pairwise (fun a b _ _ h1 h2 => absurd h1 (lt_asymm h2)) (SMap.keys_sorted hX) (SMap.keys_sorted hY)

/-- the same labels, and for each label the same parameters -/
theorem classes_same {X Y : HierHmm ℝ} (hk : SMap.keys X.models = SMap.keys Y.models) (hs : ∀ l x y, (l, x) ∈ X.models → (l, y) ∈ Y.models → Hmm.SameClass x y) : SameClasses X Y := by
  have hlen : X.models.length = Y.models.length := by simpa [SMap.keys] using congrArg List.length hk
  refine ⟨hlen.symm, fun c a ha => ?_⟩
  have hc : c < Y.models.length := by rw [← hlen]; exact HierHmm.lt_of_get ha
  have hkey : Y.models[c].1 = a.1 := by
    have : (SMap.keys Y.models)[c]? = (SMap.keys X.models)[c]? := by rw [hk]
    simpa [SMap.keys, hc, ha] using this
  refine ⟨Y.models[c].2, ?_, hs a.1 a.2 _ (List.mem_of_getElem? ha) ?_⟩
  · rw [List.getElem?_eq_getElem hc, ← hkey]
  · rw [← hkey]
    exact List.getElem_mem hc

end HierHmm

section session
variable (f : Format) (hv : f.Valid) (ops : List (RecOp ℝ String)) (ha : Takes.Admissible f ops [])
include hv ha

/-- **C115 (partial), a new training.**  What `train` gives depends on the takes that are recorded and on the parameters of the model only.  For every recording session that leaves at least one take and in
    which every class has a take with at least as many complete frames as the class has states: if two hierarchical models have the same parameters, then whatever classes they have
    learnt before and whatever they have recognised, whatever other training sets exist, and whatever the memory holds that new classes do not initialise (`z`, `z'`), after the
    session and `train` both have the same classes, and they report the same likelihoods and results on every stream of observations.
    Missing: Ergodic classes, and the mode Background (mode Sequential: `C115_sequential_partial`). -/
theorem C115_train_partial (i j : Nat) (v0 w0 : World ℝ String) (hv0 : v0.sets i = none) (hw0 : w0.sets j = none) (hne : (Takes.run f ops []).1 ≠ [])
    (M N : HierHmm ℝ) (hiM : M.training = false) (hiN : N.training = false) (P : EmParams) (hS : M.Settings P) (hhM : M.hier = true) (hhN : N.hier = true)
    (hlong : Takes.LongEnough (Takes.run f ops []).1 fun l => (M.conf l).n) (hbM : M.bimodal = f.bimodal) (hbN : N.bimodal = f.bimodal)
    (hdM : M.bimodal = false → M.di = 0) (hdN : N.bimodal = false → N.di = 0) (hm : M.bimodal = true → ∀ l, (M.conf l).mode = M.mode)
    (hconf : N.conf = M.conf) (hwin : N.window = M.window) (hmode : N.mode = M.mode) (hest : N.est = M.est)
    (z z' : ℝ) (D : Dens ℝ) (hD : D.Sound) (log : ℝ → ℝ) (hlog : ∀ x y, 0 < x → 0 < y → log (x * y) = log x + log y) (lowest pct : ℝ) (cancel : String → Nat → Bool) :
    ∃ M' N', recordAndTrainHmm z D log (Compare.exact lowest pct) P cancel f i ops v0 M = .ret () M' ∧
      recordAndTrainHmm z' D log (Compare.exact lowest pct) P cancel f j ops w0 N = .ret () N' ∧ M'.Usable ∧ N'.Usable ∧ SMap.keys N'.models = SMap.keys M'.models ∧
      (M'.models ≠ [] → ∀ exp : ℝ → ℝ, ∀ xs, xs ≠ [] → (∀ x ∈ xs, f.Sample x) →
        ∃ rs A B, (do HierHmm.reset; HierHmm.filterAll D log exp xs) M' = .ret rs A ∧ (do HierHmm.reset; HierHmm.filterAll D log exp xs) N' = .ret rs B ∧ HierHmm.SameResults A B) := by
  obtain ⟨w, t, s1, s2, s3⟩ := recordAndTrainHmm_sim f hv i v0 hv0 ops ha
  obtain ⟨w', t', s1', s2', s3'⟩ := recordAndTrainHmm_sim f hv j w0 hw0 ops ha
  have hSN : N.Settings P := ⟨by rw [hwin]; exact hS.window, hS.minIter, by rw [hconf]; exact hS.states, by rw [hconf]; exact hS.gaussians, by rw [hconf]; exact hS.absReg,
    by rw [hconf]; exact hS.leftRight⟩
  obtain ⟨M', a1, a2, a3, a4, a5, a6, a7, a8, a9, a10, a11, a12, a13⟩ := C105_of_sim s1 s2 hv hne M hiM P hS hhM hlong hbM hdM hm z D hD log hlog lowest pct cancel
  obtain ⟨N', b1, b2, b3, b4, b5, b6, b7, b8, b9, b10, b11, b12, b13⟩ := C105_of_sim s1' s2' hv hne N hiN P hSN hhN (by rw [hconf]; exact hlong) hbN hdN
    (fun h l => by rw [hconf, hmode]; exact hm (hbM.trans (hbN.symm.trans h)) l) z' D hD log hlog lowest pct cancel
  rw [hconf, hwin] at b4
  have hcls : ∀ l, (l ∈ SMap.keys N'.models ↔ l ∈ SMap.keys M'.models) ∧ ∀ x y, (l, x) ∈ M'.models → (l, y) ∈ N'.models → Hmm.SameClass x y := by
    intro l
    by_cases hl : ∃ e ∈ (Takes.run f ops []).1, e.2.1 = l
    · obtain ⟨tr, m, p1, -, p2⟩ := a4.each l hl
      obtain ⟨tr', m', q1, -, q2⟩ := b4.each l hl
      obtain ⟨k1, k2⟩ := alone_uninit s1 hv hS hlong z z' D hD log hlog lowest pct (cancel l) l hl p1 q1
      rcases p2 with ⟨p2, x0, p3, p4⟩ | ⟨p2, p3⟩ <;> rcases q2 with ⟨q2, y0, q3, q4⟩ | ⟨q2, q3⟩
      · refine ⟨⟨fun _ => mem_keys_models.2 ⟨_, p3⟩, fun _ => mem_keys_models.2 ⟨_, q3⟩⟩, fun x y hx hy => ?_⟩
        cases class_unique a2.sorted hx p3
        cases class_unique b2.sorted hy q3
        obtain ⟨k3, k4⟩ := k2 p2
        exact (HierHmm.SameClass.symm p4 k4).trans (k3.trans q4)
      · rw [p2] at k1
        rcases q3 with ⟨q3, -⟩ | ⟨q3, -⟩ <;> rw [k1] at q3 <;> cases q3
      · rw [q2] at k1
        rcases p3 with ⟨p3, -⟩ | ⟨p3, -⟩ <;> rw [← k1] at p3 <;> cases p3
      · exact ⟨⟨fun h => absurd h q2, fun h => absurd h p2⟩, fun x y hx => absurd (mem_keys_models.2 ⟨x, hx⟩) p2⟩
    · exact ⟨⟨fun h => absurd (b4.known l h) hl, fun h => absurd (a4.known l h) hl⟩, fun x y hx => absurd (a4.known l (mem_keys_models.2 ⟨x, hx⟩)) hl⟩
  have hk : SMap.keys N'.models = SMap.keys M'.models := keys_same b2.sorted a2.sorted fun l => (hcls l).1
  refine ⟨M', N', by rw [s3]; exact a1, by rw [s3']; exact b1, a2, b2, hk, fun hne exp xs hxs hx => ?_⟩
  refine same_filters D hD log exp M' N' a2.trained b2.trained hne (fun lc hlc => (a8 lc hlc).2.2.2.1) (classes_same hk.symm fun l x y => (hcls l).2 x y) ?_ xs hxs
    (fun x hx' lc hlc => ?_)
  · have hlen : N'.models.length = M'.models.length := by simpa [SMap.keys] using congrArg List.length hk
    rw [hlen] at b9
    have k1 := b2.nulls.trans a2.nulls.symm
    have k2 := b2.ready.idle.trans a2.ready.idle.symm
    have k3 := b12.trans (hconf.trans a12.symm)
    have k4 := b2.hier.trans a2.hier.symm
    have k5 := b6.trans (hmode.trans a6.symm)
    have k6 := b7.trans (hest.trans a7.symm)
    have k7 := b5.trans a5.symm
    have k8 := b10.trans a10.symm
    have k9 := b11.trans a11.symm
    have k10 := b13.trans (hwin.trans a13.symm)
    have k11 := b9.prior.trans a9.prior.symm
    have k12 := b9.trans.trans a9.trans.symm
    have k13 := b9.exitTrans.trans a9.exitTrans.symm
    clear * - k1 k2 k3 k4 k5 k6 k7 k8 k9 k10 k11 k12 k13
    cases M'; cases N'
    simp only at *
    simp only [k1, k2, k3, k4, k5, k6, k7, k8, k9, k10, k11, k12, k13]
  · obtain ⟨k1, k2, k3, -⟩ := a8 lc hlc
    have := hx x hx'
    unfold Format.Sample at this
    unfold Hmm.Fits
    rw [k1, k2, k3]
    exact this

/-- the theorem below, if the class has no more states than before or its training is not done -/
theorem class_same (i j : Nat) (v0 w0 : World ℝ String) (hv0 : v0.sets i = none) (hw0 : w0.sets j = none)
    (M N : HierHmm ℝ) (hM : M.Holds f) (hN : N.Holds f) (hsame : HierHmm.SameClasses M N)
    (hrest : N = { M with models := N.models, results := N.results, front1 := N.front1, front2 := N.front2, started := N.started })
    (P : EmParams) (hS : M.Settings P) (hlong : Takes.LongEnough (Takes.run f ops []).1 fun l => (M.conf l).n) (hm : f.bimodal = true → ∀ l, (M.conf l).mode = M.mode)
    (z z' : ℝ) (D : Dens ℝ) (hD : D.Sound) (log : ℝ → ℝ) (hlog : ∀ x y, 0 < x → 0 < y → log (x * y) = log x + log y) (lowest pct : ℝ) (cancel : Nat → Bool)
    (label : String) (hl : ∃ e ∈ (Takes.run f ops []).1, e.2.1 = label)
    (hfew : ∀ c, (label, c) ∈ M.models →
      (∃ tr m, Hmm.trainedAlone D log (Compare.exact lowest pct) P cancel (Hmm.fresh f M.window (M.conf label) z) (Takes.data f (Takes.run f ops []).1 label) = .ret tr m ∧ tr.status = .done) →
        (M.conf label).n ≤ c.n) :
    ∃ M' N', recordAndTrainHmmClass z D log (Compare.exact lowest pct) P cancel f i ops v0 label M = .ret () M' ∧
      recordAndTrainHmmClass z' D log (Compare.exact lowest pct) P cancel f j ops w0 label N = .ret () N' ∧ M'.Usable ∧ N'.Usable ∧ SMap.keys N'.models = SMap.keys M'.models ∧
      (M'.models ≠ [] → ∀ exp : ℝ → ℝ, ∀ xs, xs ≠ [] → (∀ x ∈ xs, f.Sample x) →
        ∃ rs A B, (do HierHmm.reset; HierHmm.filterAll D log exp xs) M' = .ret rs A ∧ (do HierHmm.reset; HierHmm.filterAll D log exp xs) N' = .ret rs B ∧ HierHmm.SameResults A B) := by
  obtain ⟨w, t, s1, s2, s3, -⟩ := recordThen_sim f hv i v0 hv0 ops ha
  obtain ⟨w', t', s1', s2', s3', -⟩ := recordThen_sim f hv j w0 hw0 ops ha
  have hconf : N.conf = M.conf := by rw [hrest]
  have hwin : N.window = M.window := by rw [hrest]
  have hmode : N.mode = M.mode := by rw [hrest]
  have hest : N.est = M.est := by rw [hrest]
  have hpr : N.prior = M.prior ∧ N.trans = M.trans ∧ N.exitTrans = M.exitTrans := by rw [hrest]; exact ⟨rfl, rfl, rfl⟩
  have hSN : N.Settings P := ⟨by rw [hwin]; exact hS.window, hS.minIter, by rw [hconf]; exact hS.states, by rw [hconf]; exact hS.gaussians, by rw [hconf]; exact hS.absReg,
    by rw [hconf]; exact hS.leftRight⟩
  have hfwd : ∀ l m, (l, m) ∈ M.models → ∃ n, (l, n) ∈ N.models ∧ Hmm.SameClass m n := by
    intro l m h
    obtain ⟨k, hk, ek⟩ := List.getElem_of_mem h
    obtain ⟨n, e1, e2⟩ := hsame.2 k (l, m) (by rw [← ek]; exact List.getElem?_eq_getElem hk)
    exact ⟨n, List.mem_of_getElem? e1, e2⟩
  have hbwd : ∀ l n, (l, n) ∈ N.models → ∃ m, (l, m) ∈ M.models ∧ Hmm.SameClass m n := by
    intro l n h
    obtain ⟨c, a, e1, -, e2, e3⟩ := hsame.back h
    simp only at e2 e3
    exact ⟨a.2, by rw [e2]; exact List.mem_of_getElem? e1, e3⟩
  obtain ⟨M', a1, a2, a3, a4, a5, a6, a7, a8, a9, a10, -, a11, a12, a13⟩ := HierHmm.trainLabel_of_sim' s1 s2 hv M hM P hS hlong hm z D hD log hlog lowest pct cancel label hl hfew
  obtain ⟨N', c1, c2, c3, c4, c5, c6, c7, c8, c9, c10, -, c11, c12, c13⟩ := HierHmm.trainLabel_of_sim' s1' s2' hv N hN P hSN (by rw [hconf]; exact hlong)
    (fun hb l => by rw [hconf, hmode]; exact hm hb l) z' D hD log hlog lowest pct cancel label hl (fun c hc' hd' => by
      obtain ⟨m0, e1, e2⟩ := hbwd _ _ hc'
      rw [hconf, e2.facts.1]
      refine hfew m0 e1 ?_
      obtain ⟨tr, m, p1, -⟩ := a9.replaced
      obtain ⟨tr', m', q1, q2⟩ := hd'
      rw [hconf, hwin] at q1
      exact ⟨tr, m, p1, (alone_uninit s1 hv hS hlong z z' D hD log hlog lowest pct cancel label hl p1 q1).1.symm.trans q2⟩)
  obtain ⟨tr, m, p1, -, p2⟩ := a9.replaced
  obtain ⟨tr', m', q1, -, q2⟩ := c9.replaced
  rw [hconf, hwin] at q1
  obtain ⟨k1, k2⟩ := alone_uninit s1 hv hS hlong z z' D hD log hlog lowest pct cancel label hl p1 q1
  have hcls : ∀ l, (l ∈ SMap.keys N'.models ↔ l ∈ SMap.keys M'.models) ∧ ∀ x y, (l, x) ∈ M'.models → (l, y) ∈ N'.models → Hmm.SameClass x y := by
    intro l
    by_cases hll : l = label
    · subst hll
      rcases p2 with ⟨p2, x0, p3, p4⟩ | ⟨p2, p3⟩ <;> rcases q2 with ⟨q2, y0, q3, q4⟩ | ⟨q2, q3⟩
      · refine ⟨⟨fun _ => mem_keys_models.2 ⟨_, p3⟩, fun _ => mem_keys_models.2 ⟨_, q3⟩⟩, fun x y hx hy => ?_⟩
        cases class_unique a2.sorted hx p3
        cases class_unique c2.sorted hy q3
        obtain ⟨k3, k4⟩ := k2 p2
        exact (HierHmm.SameClass.symm p4 k4).trans (k3.trans q4)
      · rw [p2] at k1
        rcases q3 with ⟨q3, -⟩ | ⟨q3, -⟩ <;> rw [k1] at q3 <;> cases q3
      · rw [q2] at k1
        rcases p3 with ⟨p3, -⟩ | ⟨p3, -⟩ <;> rw [← k1] at p3 <;> cases p3
      · exact ⟨⟨fun h => absurd h q2, fun h => absurd h p2⟩, fun x y hx => absurd (mem_keys_models.2 ⟨x, hx⟩) p2⟩
    · refine ⟨⟨fun h => ?_, fun h => ?_⟩, fun x y hx hy => ?_⟩
      · obtain ⟨n', hn'⟩ := mem_keys_models.1 h
        obtain ⟨n, hn, -⟩ := (c9.others l hll).1 n' hn'
        obtain ⟨m0, hm0, -⟩ := hbwd l n hn
        obtain ⟨x, hx, -⟩ := (a9.others l hll).2 m0 hm0
        exact mem_keys_models.2 ⟨x, hx⟩
      · obtain ⟨n', hn'⟩ := mem_keys_models.1 h
        obtain ⟨n, hn, -⟩ := (a9.others l hll).1 n' hn'
        obtain ⟨m0, hm0, -⟩ := hfwd l n hn
        obtain ⟨x, hx, -⟩ := (c9.others l hll).2 m0 hm0
        exact mem_keys_models.2 ⟨x, hx⟩
      · obtain ⟨x0, hx0, e1⟩ := (a9.others l hll).1 x hx
        obtain ⟨y0, hy0, e2⟩ := (c9.others l hll).1 y hy
        obtain ⟨m0, hm0, e3⟩ := hbwd l y0 hy0
        cases class_unique hM.sorted hx0 hm0
        exact (HierHmm.SameClass.symm e1 (hM.cls _ hx0).1.can).trans (e3.trans e2)
  have hk : SMap.keys N'.models = SMap.keys M'.models := keys_same c2.sorted a2.sorted fun l => (hcls l).1
  have hlen : N'.models.length = M'.models.length := by simpa [SMap.keys] using congrArg List.length hk
  have hkeys0 : ∀ l, l ∈ SMap.keys N.models ↔ l ∈ SMap.keys M.models := fun l => by rw [show SMap.keys N.models = SMap.keys M.models from hsame.keys]
  have htop : N'.prior = M'.prior ∧ N'.trans = M'.trans ∧ N'.exitTrans = M'.exitTrans := by
    by_cases hin : label ∈ SMap.keys M.models ∧ label ∈ SMap.keys M'.models
    · obtain ⟨u1, u2, u3⟩ := a10 hin.1 hin.2
      obtain ⟨v1, v2, v3⟩ := c10 ((hkeys0 _).2 hin.1) ((hcls _).1.2 hin.2)
      exact ⟨v1.trans (hpr.1.trans u1.symm), v2.trans (hpr.2.1.trans u2.symm), v3.trans (hpr.2.2.trans u3.symm)⟩
    · have hor := not_and_or.1 hin
      obtain ⟨u1, u2, u3⟩ := a11 hor
      obtain ⟨v1, v2, v3⟩ := c11 (hor.imp (fun h h' => h ((hkeys0 _).1 h')) fun h h' => h ((hcls _).1.1 h'))
      rw [hlen] at v1 v2 v3
      exact ⟨v1.trans u1.symm, v2.trans u2.symm, v3.trans u3.symm⟩
  refine ⟨M', N', ?_, ?_, a2, c2, hk, fun hne exp xs hxs hx => ?_⟩
  · unfold recordAndTrainHmmClass
    rw [s3]
    exact a1
  · unfold recordAndTrainHmmClass
    rw [s3']
    exact c1
  · refine same_filters D hD log exp M' N' a2.trained c2.trained hne (fun lc hlc => (a3.cls lc hlc).2.2.2.2.2) (classes_same hk.symm fun l x y => (hcls l).2 x y) ?_ xs hxs
      (fun x hx' lc hlc => ?_)
    · have k1 := c2.nulls.trans a2.nulls.symm
      have k2 := c3.idle.trans a3.idle.symm
      have k3 := c7.trans (hconf.trans a7.symm)
      have k4 := c3.hier.trans a3.hier.symm
      have k5 := c5.trans (hmode.trans a5.symm)
      have k6 := c6.trans (hest.trans a6.symm)
      have k7 := c3.bimodal.trans a3.bimodal.symm
      have k8 := c12.trans a12.symm
      have k9 := c13.trans a13.symm
      have k10 := c8.trans (hwin.trans a8.symm)
      obtain ⟨k11, k12, k13⟩ := htop
      clear * - k1 k2 k3 k4 k5 k6 k7 k8 k9 k10 k11 k12 k13
      cases M'; cases N'
      simp only at *
      simp only [k1, k2, k3, k4, k5, k6, k7, k8, k9, k10, k11, k12, k13]
    · obtain ⟨-, k1, k2, k3, -⟩ := a3.cls lc hlc
      have := hx x hx'
      unfold Format.Sample at this
      unfold Hmm.Fits
      rw [k1, k2, k3]
      exact this

/-- **C115 (partial), one class.**  What `train` on one class gives depends on the takes of the class and on the parameters of the model and of its classes only: for two hierarchical models with the
    same parameters and the same classes, whatever they have recognised and whatever the memory holds that is not initialised, after the session and `train` on the class, new or with
    no more states than before, both have the same classes, and they report the same likelihoods and results on every stream of observations.
    Missing: Ergodic classes and the mode Background (mode Sequential: `C115_class_sequential_partial`; a class that gets more states: `C115_any_class_partial`). -/
theorem C115_class_partial (i j : Nat) (v0 w0 : World ℝ String) (hv0 : v0.sets i = none) (hw0 : w0.sets j = none)
    (M N : HierHmm ℝ) (hM : M.Holds f) (hN : N.Holds f) (hsame : HierHmm.SameClasses M N)
    (hrest : N = { M with models := N.models, results := N.results, front1 := N.front1, front2 := N.front2, started := N.started })
    (P : EmParams) (hS : M.Settings P) (hlong : Takes.LongEnough (Takes.run f ops []).1 fun l => (M.conf l).n) (hm : f.bimodal = true → ∀ l, (M.conf l).mode = M.mode)
    (z z' : ℝ) (D : Dens ℝ) (hD : D.Sound) (log : ℝ → ℝ) (hlog : ∀ x y, 0 < x → 0 < y → log (x * y) = log x + log y) (lowest pct : ℝ) (cancel : Nat → Bool)
    (label : String) (hl : ∃ e ∈ (Takes.run f ops []).1, e.2.1 = label) (hfew : ∀ c, (label, c) ∈ M.models → (M.conf label).n ≤ c.n) :
    ∃ M' N', recordAndTrainHmmClass z D log (Compare.exact lowest pct) P cancel f i ops v0 label M = .ret () M' ∧
      recordAndTrainHmmClass z' D log (Compare.exact lowest pct) P cancel f j ops w0 label N = .ret () N' ∧ M'.Usable ∧ N'.Usable ∧ SMap.keys N'.models = SMap.keys M'.models ∧
      (M'.models ≠ [] → ∀ exp : ℝ → ℝ, ∀ xs, xs ≠ [] → (∀ x ∈ xs, f.Sample x) →
        ∃ rs A B, (do HierHmm.reset; HierHmm.filterAll D log exp xs) M' = .ret rs A ∧ (do HierHmm.reset; HierHmm.filterAll D log exp xs) N' = .ret rs B ∧ HierHmm.SameResults A B) :=
  class_same f hv ops ha i j v0 w0 hv0 hw0 M N hM hN hsame hrest P hS hlong hm z z' D hD log hlog lowest pct cancel label hl fun c hc _ => hfew c hc

/-- **C115 (partial), mixture models.**  For every recording session in which every class has a complete frame: if two mixture models have the same parameters, then whatever classes they have learnt
    before and whatever they have recognised, whatever other training sets exist, after the session and `train` both have the same classes, and they report the same likelihoods and
    results on every stream of observations.
    Missing: the mode Background (mode Sequential: `C115_gmm_sequential_partial`). -/
theorem C115_gmm_partial (i j : Nat) (v0 w0 : World ℝ String) (hv0 : v0.sets i = none) (hw0 : w0.sets j = none) (hne : (Takes.run f ops []).1 ≠ [])
    (hfill : Takes.Filled (Takes.run f ops []).1) (S : GmmSettings ℝ) (hS : S.Valid) (M N : GmmModel ℝ) (hbM : M.bimodal = f.bimodal) (hbN : N.bimodal = f.bimodal)
    (hm : f.bimodal = true → ∀ l, S.mode l = M.mode) (hmode : N.mode = M.mode) (hest : N.est = M.est)
    (D : Dens ℝ) (hD : D.Sound) (log : ℝ → ℝ) (lowest pct : ℝ) (cancel : String → Nat → Bool) :
    ∃ M' N', recordAndTrain S D log Real.sqrt (Compare.exact lowest pct) cancel f i ops v0 M = .ret () M' ∧
      recordAndTrain S D log Real.sqrt (Compare.exact lowest pct) cancel f j ops w0 N = .ret () N' ∧ M'.Usable ∧ N'.Usable ∧ SMap.keys N'.models = SMap.keys M'.models ∧
      (M'.models ≠ [] → ∀ exp : ℝ → ℝ, (∀ x, 0 < exp x) → ∀ xs, xs ≠ [] → (∀ x ∈ xs, f.Sample x) →
        ∃ A B, (do GmmModel.reset; GmmModel.filterAll D log exp xs) M' = .ret () A ∧ (do GmmModel.reset; GmmModel.filterAll D log exp xs) N' = .ret () B ∧
          B.results = { A.results with outVals := B.results.outVals, outCov := B.results.outCov } ∧ (f.bimodal = true → B.results = A.results)) := by
  obtain ⟨w, t, s1, s2, s3⟩ := recordAndTrain_sim f hv i v0 hv0 ops ha
  obtain ⟨w', t', s1', s2', s3'⟩ := recordAndTrain_sim f hv j w0 hw0 ops ha
  obtain ⟨M', a1, a2, a3, a4, a5, a6, a7⟩ := C103_of_sim s1 s2 hv hne hfill S hS D hD log lowest pct cancel M hbM hm
  obtain ⟨N', b1, b2, b3, b4, b5, b6, b7⟩ := C103_of_sim s1' s2' hv hne hfill S hS D hD log lowest pct cancel N hbN (fun h l => (hm h l).trans hmode.symm)
  have mem_keys : ∀ {X : GmmModel ℝ} {l : String}, l ∈ SMap.keys X.models ↔ ∃ x, (l, x) ∈ X.models := by
    intro X l
    constructor
    · intro h
      obtain ⟨lc, h3, rfl⟩ := List.mem_map.1 h
      exact ⟨lc.2, h3⟩
    · rintro ⟨x, h⟩
      exact List.mem_map.2 ⟨_, h, rfl⟩
  have huniq : ∀ {X : GmmModel ℝ}, SMap.Sorted X.models → ∀ {l x y}, (l, x) ∈ X.models → (l, y) ∈ X.models → x = y := by
    intro X hX l x y hx hy
    have e1 := (SMap.mem_iff_find? hX).1 hx
    have e2 := (SMap.mem_iff_find? hX).1 hy
    rw [e1] at e2
    exact Option.some.inj e2
  have hcls : ∀ l, (l ∈ SMap.keys N'.models ↔ l ∈ SMap.keys M'.models) ∧ ∀ x y, (l, x) ∈ M'.models → (l, y) ∈ N'.models → Gmm.SameModel x y := by
    intro l
    by_cases hl : ∃ e ∈ (Takes.run f ops []).1, e.2.1 = l
    · obtain ⟨tr, m, p1, -, p2⟩ := a3.each l hl
      obtain ⟨tr', m', q1, -, q2⟩ := b3.each l hl
      rw [p1] at q1
      injection q1 with q1 q1'
      subst q1 q1'
      rcases p2 with ⟨p2, x0, p3, p4⟩ | ⟨p2, p3⟩ <;> rcases q2 with ⟨q2, y0, q3, q4⟩ | ⟨q2, q3⟩
      · refine ⟨⟨fun _ => mem_keys.2 ⟨_, p3⟩, fun _ => mem_keys.2 ⟨_, q3⟩⟩, fun x y hx hy => ?_⟩
        cases huniq a2.sorted hx p3
        cases huniq b2.sorted hy q3
        unfold Gmm.SameModel at p4 q4 ⊢
        clear * - p4 q4
        cases x0; cases y0; cases m
        simp only [Gmm.mk.injEq] at p4 q4 ⊢
        simp [p4, q4]
      · rcases q3 with ⟨q3, -⟩ | ⟨q3, -⟩ <;> rw [p2] at q3 <;> cases q3
      · rcases p3 with ⟨p3, -⟩ | ⟨p3, -⟩ <;> rw [q2] at p3 <;> cases p3
      · exact ⟨⟨fun h => absurd h q2, fun h => absurd h p2⟩, fun x y hx => absurd (mem_keys.2 ⟨x, hx⟩) p2⟩
    · exact ⟨⟨fun h => absurd (b3.known l h) hl, fun h => absurd (a3.known l h) hl⟩, fun x y hx => absurd (a3.known l (mem_keys.2 ⟨x, hx⟩)) hl⟩
  have hk : SMap.keys N'.models = SMap.keys M'.models := by
    have hp : (SMap.keys N'.models).Perm (SMap.keys M'.models) := (List.perm_ext_iff_of_nodup (SMap.keys_nodup b2.sorted) (SMap.keys_nodup a2.sorted)).2 fun l => (hcls l).1
    exact hp.eq_of_pairwise (fun a b _ _ h1 h2 => absurd h1 (lt_asymm h2)) (SMap.keys_sorted b2.sorted) (SMap.keys_sorted a2.sorted)
  have hlen : N'.models.length = M'.models.length := by simpa [SMap.keys] using congrArg List.length hk
  refine ⟨M', N', by rw [s3]; exact a1, by rw [s3']; exact b1, a2, b2, hk, fun hne exp hexp xs hxs hx => ?_⟩
  have hdo : N'.dout = M'.dout := by
    obtain ⟨lc, hlc⟩ := List.exists_mem_of_ne_nil _ hne
    obtain ⟨lc', hlc'⟩ := List.exists_mem_of_ne_nil N'.models fun h => hne (List.eq_nil_of_length_eq_zero (by rw [← hlen, h]; rfl))
    rw [← (a2.cls lc hlc).2.2, ← (b2.cls lc' hlc').2.2, (a7 lc hlc).1, (a7 lc hlc).2.1, (b7 lc' hlc').1, (b7 lc' hlc').2.1]
  obtain ⟨A, B, e1, e2, e3, e4⟩ := GmmModel.C51_model_forgets D hD log exp hexp M' N'
    (by
      have h1 := a2.nulls; have h2 := b2.nulls; have h3 := a2.idle; have h4 := b2.idle
      have h5 := b4.trans a4.symm; have h6 := b5.trans (hmode.trans a5.symm); have h7 := b6.trans (hest.trans a6.symm)
      clear * - h1 h2 h3 h4 h5 h6 h7 hdo
      cases M'; cases N'
      simp only at *
      subst h1 h2 h3 h4 h5 h6 h7 hdo
      rfl)
    (by
      rw [List.forall₂_iff_get]
      refine ⟨hlen.symm, fun n h1 h2 => ?_⟩
      have hkey : N'.models[n].1 = M'.models[n].1 := by
        have : (SMap.keys N'.models)[n]? = (SMap.keys M'.models)[n]? := by rw [hk]
        simpa [SMap.keys, h1, h2] using this
      have hin : N'.models[n] ∈ N'.models := List.getElem_mem h2
      have hlk : (M'.models[n].1, N'.models[n].2) ∈ N'.models := by rw [← hkey]; exact hin
      obtain ⟨_, hb⟩ := b2.buf _ hin
      exact ⟨hkey, (hcls _).2 _ _ (List.getElem_mem h1) hlk, (b2.cls _ hin).1, hb.ok⟩)
    a2.nulls a2.idle a2.sorted hne
    (fun lc hlc => by
      obtain ⟨_, hb⟩ := a2.buf _ hlc
      exact ⟨(a2.cls lc hlc).1, (a2.cls lc hlc).2.1, (a2.cls lc hlc).2.2, hb.ok⟩)
    a2.mode xs hxs
    (fun x hx' lc hlc => by
      obtain ⟨k1, k2, k3⟩ := a7 lc hlc
      have := hx x hx'
      unfold Format.Sample at this
      unfold Gmm.Fits
      rw [k1, k2, k3]
      exact this)
  exact ⟨A, B, e1, e2, e3, fun hb => e4 (a4.trans hb)⟩

end session

/-- **C115 (partial), the class of a mixture model.**  The members of a new class that are not initialised (the model of the code gives them the value 0) do not influence its training: with other
    contents the training has the same outcome, and unless it is cancelled the class has the same parameters. -/
theorem C115_gmm_class_partial (f : Format) (hv : f.Valid) (S : GmmSettings ℝ) (hS : S.Valid) (l : String) (D : Dens ℝ) (log : ℝ → ℝ) (C : Compare ℝ) (cancel : Nat → Bool)
    (data : KData ℝ) (hdim : data.dim = f.dim) (hlen : ∀ x ∈ data.frames, x.length = f.dim) (hne : data.frames ≠ []) (z z' : ℝ) {t : Trainer ℝ} {m : Gmm ℝ}
    (ht : trainedAlone S D log C cancel f l data = .ret t m) :
    ∃ t' m', (Gmm.trainee D log Real.sqrt data.deviation data).train C S.em cancel { GmmModel.newClass S f.bimodal f.dim f.di l with instant := z, logLik := z' } = .ret t' m' ∧
      t'.status = t.status ∧ (t.status ≠ .cancel → t' = t ∧ Gmm.SameModel m m') :=
  Gmm.retrain D log (GmmModel.newClass S f.bimodal f.dim f.di l) { GmmModel.newClass S f.bimodal f.dim f.di l with instant := z, logLik := z' } rfl (newClass_admissible S hS f hv l) _ data ⟨hdim, hlen, hne, by simp [KData.deviation, hdim, GmmModel.newClass]⟩ S.em hS.minIter C cancel t m ht

/-! ### The hypotheses are met -/

/-- the hypotheses of `C115_train_partial` are met by a new model and by one that has learnt a class before, those of `C115_class_partial` by two models with a class, one of which has
    started to recognise; a class is trained -/
theorem uninitialised_example :
    sessionFormat.Valid ∧ Takes.Admissible sessionFormat sessionA [] ∧ (Takes.run sessionFormat sessionA []).1 ≠ [] ∧ HierHmm.sessionModel.Settings ⟨5, 10⟩ ∧ HierHmm.sessionModel.training = false ∧
    HierHmm.sessionModel.hier = true ∧ (Takes.LongEnough (Takes.run sessionFormat sessionA []).1 fun l => (HierHmm.sessionModel.conf l).n) ∧ HierHmm.sessionModel.bimodal = sessionFormat.bimodal ∧
    (∀ l, (HierHmm.sessionModel.conf l).mode = HierHmm.sessionModel.mode) ∧ HierHmm.sessionModel.models = [] ∧
    (∃ N : HierHmm ℝ, N.training = false ∧ N.hier = true ∧ N.bimodal = sessionFormat.bimodal ∧ (N.bimodal = false → N.di = 0) ∧ N.conf = HierHmm.sessionModel.conf ∧
      N.window = HierHmm.sessionModel.window ∧ N.mode = HierHmm.sessionModel.mode ∧ N.est = HierHmm.sessionModel.est ∧ N.models ≠ []) ∧
    (∃ M N : HierHmm ℝ, M.Holds sessionFormat ∧ N.Holds sessionFormat ∧ HierHmm.SameClasses M N ∧
      N = { M with models := N.models, results := N.results, front1 := N.front1, front2 := N.front2, started := N.started } ∧ M.started ≠ N.started ∧ M.Settings ⟨5, 10⟩ ∧
      M.conf = HierHmm.sessionModel.conf ∧ M.mode = HierHmm.sessionModel.mode ∧ M.window = 3 ∧ "a" ∈ SMap.keys M.models ∧ ∀ lc ∈ M.models, (M.conf lc.1).n ≤ lc.2.n) ∧
    (∃ e ∈ (Takes.run sessionFormat sessionA []).1, e.2.1 = "a") ∧ bigDens.Sound ∧
    (∀ z lowest pct, ∃ tr m, Hmm.trainedAlone bigDens Real.log (Compare.exact lowest pct) ⟨5, 10⟩ (fun _ => false) (fresh sessionFormat 3 (HierHmm.sessionModel.conf "a") z)
      (Takes.data sessionFormat (Takes.run sessionFormat sessionA []).1 "a") = .ret tr m ∧ tr.status = .done) := by
  obtain ⟨h1, h2, hS, hv, ha, -, hlong, -, hl, -, -, h3, h4, -⟩ := HierHmm.session_example
  obtain ⟨-, -, -, -, -, -, hD, -, -, ⟨M, m1, m2, m3, m4, m5, m6⟩, -, hd, -⟩ := HierHmm.retrain_example
  have hne : M.models ≠ [] := fun h0 => by rw [h0] at m5; simp [SMap.keys] at m5
  have ht : HierHmm.Top { M with started := !M.started } := by
    obtain ⟨t1, t2, t3, t4, t5, t6, t7, t8, t9, t10⟩ := m1.top
    exact ⟨t1, t2, t3, t4, t5, t6, t7, t8, t9, t10⟩
  have hSM : M.Settings ⟨5, 10⟩ := ⟨by rw [m4]; norm_num, by norm_num, by rw [m2]; exact hS.states, by rw [m2]; exact hS.gaussians, by rw [m2]; exact hS.absReg,
    by rw [m2]; exact hS.leftRight⟩
  refine ⟨hv, ha, by obtain ⟨e, he, _⟩ := hl; exact List.ne_nil_of_mem he, hS, h1, h2, hlong, h3, h4 rfl, rfl,
    ⟨{ M with est := HierHmm.sessionModel.est }, m1.idle, m1.hier, m1.bimodal, fun h => absurd (m1.bimodal.symm.trans h) (by simp [sessionFormat]), m2, m4, m3, rfl, hne⟩,
    ⟨M, { M with started := !M.started }, m1, ⟨m1.idle, m1.hier, m1.nulls, m1.sorted, ht, m1.bimodal, m1.di, m1.cls, m1.exits, m1.mode, m1.buf⟩,
      ⟨rfl, fun c lc hlc => ⟨lc.2, hlc, rfl, SameStates.refl _ (m1.cls lc (List.mem_of_getElem? hlc)).1.can.state⟩⟩, rfl, by cases M.started <;> simp, hSM, m2, m3, m4, m5, fun lc hlc => (m6 lc hlc).2⟩,
    hl, hD, hd⟩

/-- the hypotheses of `C115_gmm_partial` are met by a new model and one with a class; those of `C115_gmm_class_partial` by the takes of the class "b" -/
theorem uninitialised_gmm_example :
    sessionFormat.Valid ∧ Takes.Admissible sessionFormat sessionA [] ∧ (Takes.run sessionFormat sessionA []).1 ≠ [] ∧ Takes.Filled (Takes.run sessionFormat sessionA []).1 ∧
    sessionSettings.Valid ∧ GmmModel.sessionModel.bimodal = sessionFormat.bimodal ∧ (∀ l, sessionSettings.mode l = GmmModel.sessionModel.mode) ∧ GmmModel.sessionModel.models = [] ∧
    (∃ N : GmmModel ℝ, N.bimodal = sessionFormat.bimodal ∧ N.mode = GmmModel.sessionModel.mode ∧ N.est = GmmModel.sessionModel.est ∧ N.models ≠ []) ∧
    (∃ data : KData ℝ, data.dim = sessionFormat.dim ∧ (∀ x ∈ data.frames, x.length = sessionFormat.dim) ∧ data.frames ≠ []) := by
  obtain ⟨hv, ha, hfill, hS, hmode, hlab, -, ⟨N, n1, n2, -, n3, -⟩, -⟩ := GmmModel.retrain_example
  obtain ⟨e, he, -⟩ := (hlab "a").1 (by simp)
  exact ⟨hv, ha, List.ne_nil_of_mem he, hfill, hS, rfl, hmode, rfl,
    ⟨{ N with est := GmmModel.sessionModel.est }, n1.bimodal, (n2 "a").symm.trans (hmode "a"), rfl, n3⟩,
    ⟨⟨2, [[[0, 1], [2, 3]]]⟩, rfl, by simp [KData.frames, sessionFormat], by simp [KData.frames]⟩⟩

end Xmm
