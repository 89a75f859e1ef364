import Verif.Spec.LoadedTrainHmm
import Verif.Props.LoadedTrain
import Verif.Props.HmmRetrain
set_option linter.unusedSectionVars false
/- C114: training goes on with a hierarchical hidden Markov model that has been loaded as with the original. -/
namespace Xmm
open TS
open Prog (bind_def)

theorem SameStates.free {l l' : List (Gmm ℝ)} (h : SameStates l l') : SameStates (l.map Gmm.free) (l'.map Gmm.free) := by
  refine ⟨by simp [h.1], fun i s s' h1 h2 => ?_⟩
  simp only [List.getElem?_map, Option.map_eq_some_iff] at h1 h2
  obtain ⟨a, ha, rfl⟩ := h1
  obtain ⟨b, hb, rfl⟩ := h2
  obtain ⟨e1, e2, e3⟩ := h.2 i a b ha hb
  exact ⟨e1.free, Gmm.free_can e2, e3⟩

theorem Hmm.SameClass.free {m n : Hmm ℝ} (h : m.SameClass n) : m.free.SameClass n.free := by
  refine ⟨?_, h.2.free⟩
  have e := h.1
  simp only [Hmm.free]
  cases m; cases n
  simp only [Hmm.mk.injEq] at e ⊢
  simpa using e

theorem Hmm.free_free (m : Hmm ℝ) : m.free.free = m.free := by
  simp [Hmm.free, Function.comp_def, Gmm.free_free]

theorem Hmm.free_in {m : Hmm ℝ} (hm : m.InHierarchy) : m.free.InHierarchy := by
  have hc := hm.can
  have hmem : ∀ s ∈ m.free.sts, ∃ t ∈ m.sts, s = t.free := fun s hs => by
    obtain ⟨t, ht, rfl⟩ := List.mem_map.1 hs
    exact ⟨t, ht, rfl⟩
  refine ⟨⟨⟨hc.wf.pos, ?_, hc.wf.prior, hc.wf.trans, ?_⟩, ⟨hc.chain.start_nonneg, hc.chain.start_sum, hc.chain.step_nonneg, hc.chain.step_sum⟩, hc.idle, hc.window, ?_⟩,
    hm.hier, hm.exit, hm.exit_nonneg, hm.exit_lt, hm.trans, hm.last⟩
  · simp [Hmm.free, hc.wf.sts]
  · intro s hs
    obtain ⟨t, ht, rfl⟩ := hmem s hs
    exact hc.wf.state t ht
  · intro s hs
    obtain ⟨t, ht, rfl⟩ := hmem s hs
    obtain ⟨a1, a2⟩ := hc.state t ht
    exact ⟨Gmm.free_can a1, a2⟩

namespace HierHmm

/-- the loaded model can be trained if the original can -/
theorem Holds.loaded {M : HierHmm ℝ} {f : Format} (h : M.Holds f) (z : ℝ) (r : MultiRes ℝ) (f1 f2 : List ℝ) :
    (HierHmm.free { (hmmFamily z).copy M with results := r, front1 := f1, front2 := f2 }).Holds f := by
  have hmem : ∀ lc ∈ (HierHmm.free { (hmmFamily z).copy M with results := r, front1 := f1, front2 := f2 }).models, ∃ lc0 ∈ M.models, lc = (lc0.1, (lc0.2.copy z).free) := by
    intro lc hlc
    simp only [HierHmm.free, hmmFamily, List.map_map, List.mem_map] at hlc
    obtain ⟨lc0, h0, rfl⟩ := hlc
    exact ⟨lc0, h0, rfl⟩
  have hlen : (HierHmm.free { (hmmFamily z).copy M with results := r, front1 := f1, front2 := f2 }).models.length = M.models.length := by
    simp [HierHmm.free, hmmFamily]
  obtain ⟨t1, t2, t3, t4, t5, t6, t7, t8, t9, t10⟩ := h.top
  refine ⟨rfl, h.hier, h.nulls, ?_, ⟨t1.trans hlen.symm, t2.trans hlen.symm, t3.trans hlen.symm, fun r hr => (t4 r hr).trans hlen.symm, t5, fun h => t6 fun h' => h ?_, t7, t8, t9, t10⟩,
    h.bimodal, h.di, fun lc hlc => ?_, fun lc hlc => ?_, fun hb lc hlc => ?_, fun lc hlc => ?_⟩
  · have := h.sorted
    simp only [HierHmm.free, hmmFamily, List.map_map]
    unfold SMap.Sorted at this ⊢
    simpa [List.pairwise_map] using this
  · exact List.eq_nil_of_length_eq_zero (by rw [hlen, h']; rfl)
  · obtain ⟨lc0, h0, rfl⟩ := hmem lc hlc
    obtain ⟨a1, a2⟩ := h.cls lc0 h0
    exact ⟨Hmm.free_in (Hmm.copy_in z a1), a2⟩
  · obtain ⟨lc0, h0, rfl⟩ := hmem lc hlc
    exact h.exits lc0 h0
  · obtain ⟨lc0, h0, rfl⟩ := hmem lc hlc
    exact h.mode hb lc0 h0
  · obtain ⟨lc0, h0, rfl⟩ := hmem lc hlc
    exact ⟨1, [], CBuf.Holds.init 0 1 (by omega)⟩

/-- two models with the same classes and parameters, after `reset()` -/
theorem same_filters (D : Dens ℝ) (hD : D.Sound) (log exp : ℝ → ℝ) (M N : HierHmm ℝ) (hM : M.Trained) (hN : N.Trained) (hne : M.models ≠ [])
    (herg : ∀ lc ∈ M.models, lc.2.ergodic = false) (hs : SameClasses M N) (hk : N = { M with models := N.models, results := N.results, front1 := N.front1, front2 := N.front2, started := N.started })
    (xs : List (List ℝ)) (hxs : xs ≠ []) (hx : ∀ x ∈ xs, ∀ lc ∈ M.models, lc.2.Fits x) :
    ∃ rs A' B', (do HierHmm.reset; HierHmm.filterAll D log exp xs) M = .ret rs A' ∧ (do HierHmm.reset; HierHmm.filterAll D log exp xs) N = .ret rs B' ∧ SameResults A' B' := by
  have hneN := hs.ne hne
  obtain ⟨A0, _, _, a1, a2, a3, a4, a5, a6, _⟩ := HierHmm.run_ret D hD log exp M hM hne [] (by simp)
  obtain ⟨B0, _, _, b1, b2, b3, b4, b5, b6, _⟩ := HierHmm.run_ret D hD log exp N hN hneN [] (by simp)
  have hsame : HierHmm.SameClasses A0 B0 := by
    refine ⟨by rw [a4.1, b4.1, hs.1], fun c p hp => ?_⟩
    obtain ⟨a, ha⟩ := HierHmm.get_class (M := M) (c := c) (by rw [← a4.1]; exact HierHmm.lt_of_get hp)
    obtain ⟨m1, e1, e2⟩ := a4.2 c a ha
    obtain ⟨n1, f1, f2⟩ := hs.2 c a ha
    obtain ⟨n2, f3, f4⟩ := b4.2 c _ f1
    rw [hp] at e1
    cases e1
    have hc := (hM.cls a (List.mem_of_getElem? ha)).1.can
    exact ⟨n2, f3, (HierHmm.SameClass.symm e2 hc).trans (f2.trans f4)⟩
  have hkeep : B0 = { A0 with models := B0.models, results := B0.results, front1 := B0.front1, front2 := B0.front2 } := by
    have t1 := b6
    have t2 := a6
    rw [t1, t2, hk]
  have halike : HierHmm.Alike A0 B0 := by
    refine ⟨hkeep, hsame, fun c p q hp hq => ?_, fun h => absurd (a3.symm.trans h) (by simp), fun _ c p q hp hq he => ?_⟩
    · obtain ⟨a, ha⟩ := HierHmm.get_class (M := M) (c := c) (by rw [← a4.1]; exact HierHmm.lt_of_get hp)
      obtain ⟨a', ha'⟩ := HierHmm.get_class (M := N) (c := c) (by rw [← b4.1]; exact HierHmm.lt_of_get hq)
      exact ⟨[], (a5 c a p ha hp).1, (b5 c a' q ha' hq).1⟩
    · obtain ⟨a, ha⟩ := HierHmm.get_class (M := M) (c := c) (by rw [← a4.1]; exact HierHmm.lt_of_get hp)
      obtain ⟨m0, e1, e2⟩ := a4.2 c a ha
      rw [hp] at e1
      cases e1
      have := herg a (List.mem_of_getElem? ha)
      rw [← e2.facts.2.1, he] at this
      cases this
  obtain ⟨rs, A', B', r1, r2, r3⟩ := HierHmm.run_alike D hD log exp xs hxs A0 B0 a2 b2 halike (a4.ne hne) (fun x hx' => a4.fits (hx x hx'))
  exact ⟨rs, A', B', by rw [bind_of_ret a1]; exact r1, by rw [bind_of_ret b1]; exact r2, r3⟩

/-- a model whose classes have no limits -/
theorem free_trained {M : HierHmm ℝ} (u : M.Usable) : M.free.Trained := by
  have h := u.trained
  have hmem : ∀ lc ∈ M.free.models, ∃ lc0 ∈ M.models, lc = (lc0.1, lc0.2.free) := by
    intro lc hlc
    obtain ⟨lc0, h0, rfl⟩ := List.mem_map.1 hlc
    exact ⟨lc0, h0, rfl⟩
  have hlen : M.free.models.length = M.models.length := by simp [HierHmm.free]
  obtain ⟨t1, t2, t3, t4, t5, t6, t7, t8, t9, t10⟩ := h.top
  refine ⟨h.idle, ⟨t1.trans hlen.symm, t2.trans hlen.symm, t3.trans hlen.symm, fun r hr => (t4 r hr).trans hlen.symm, t5, fun h => t6 fun h' => h ?_, t7, t8, t9, t10⟩, h.hier, h.nulls, ?_,
    fun lc hlc => ?_, fun hb lc hlc => ?_, fun lc hlc he => ?_⟩
  · exact List.eq_nil_of_length_eq_zero (by rw [hlen, h']; rfl)
  · have := h.sorted
    simp only [HierHmm.free]
    unfold SMap.Sorted at this ⊢
    simpa [List.pairwise_map] using this
  · obtain ⟨lc0, h0, rfl⟩ := hmem lc hlc
    obtain ⟨a1, a2, -, a4⟩ := h.cls lc0 h0
    exact ⟨Hmm.free_in a1, a2, u.dims lc0 h0, a4⟩
  · obtain ⟨lc0, h0, rfl⟩ := hmem lc hlc
    exact u.mode hb lc0 h0
  · obtain ⟨lc0, h0, rfl⟩ := hmem lc hlc
    exact h.instant lc0 h0 he

/-- two models with the same classes, up to the limits of the dimensions of the components, recognise alike -/
theorem same_classes (D : Dens ℝ) (hD : D.Sound) (hB : D.Blind) (log exp : ℝ → ℝ) {M N : HierHmm ℝ} {f : Format} (hM : M.Usable) (hN : N.Usable)
    (hMf : ∀ lc ∈ M.models, lc.2.bimodal = f.bimodal ∧ lc.2.dim = f.dim ∧ lc.2.di = f.di ∧ lc.2.ergodic = false)
    (hkeys : SMap.keys M.models = SMap.keys N.models) (hk : N = { M with models := N.models, results := N.results, front1 := N.front1, front2 := N.front2, started := N.started })
    (hs : ∀ l m n, (l, m) ∈ M.models → (l, n) ∈ N.models → Hmm.SameClass m.free n.free) (hne : M.models ≠ [])
    (xs : List (List ℝ)) (hxs : xs ≠ []) (hx : ∀ x ∈ xs, f.Sample x) :
    ∃ rs M' N', (do HierHmm.reset; HierHmm.filterAll D log exp xs) M = .ret rs M' ∧ (do HierHmm.reset; HierHmm.filterAll D log exp xs) N = .ret rs N' ∧ SameResults M' N' := by
  have hlen : M.models.length = N.models.length := by simpa [SMap.keys] using congrArg List.length hkeys
  have hsc : SameClasses M.free N.free := by
    refine ⟨by simp [HierHmm.free, hlen], fun c lc hlc => ?_⟩
    simp only [HierHmm.free, List.getElem?_map, Option.map_eq_some_iff] at hlc ⊢
    obtain ⟨a, ha, rfl⟩ := hlc
    have hc : c < N.models.length := by rw [← hlen]; exact HierHmm.lt_of_get ha
    have hkey : N.models[c].1 = a.1 := by
      have : (SMap.keys N.models)[c]? = (SMap.keys M.models)[c]? := by rw [hkeys]
      simpa [SMap.keys, hc, ha] using this
    refine ⟨N.models[c].2.free, ⟨N.models[c], List.getElem?_eq_getElem hc, by rw [hkey]⟩, hs a.1 a.2 _ (List.mem_of_getElem? ha) ?_⟩
    rw [← hkey]
    exact List.getElem_mem hc
  obtain ⟨rs, A, B, e1, e2, e3⟩ := same_filters D hD log exp M.free N.free (free_trained hM) (free_trained hN) (by simpa [HierHmm.free] using hne)
    (fun lc hlc => by
      obtain ⟨lc0, h0, rfl⟩ := List.mem_map.1 hlc
      exact (hMf lc0 h0).2.2.2) hsc (by
      unfold HierHmm.free
      rw [hk]) xs hxs (fun x hx' lc hlc => by
      obtain ⟨lc0, h0, rfl⟩ := List.mem_map.1 hlc
      obtain ⟨a2, a3, a4, -⟩ := hMf lc0 h0
      have := hx x hx'
      unfold Format.Sample at this
      show lc0.2.Fits x
      unfold Hmm.Fits
      rw [a2, a3, a4]
      exact this)
  have sim : ∀ X : HierHmm ℝ, ∀ Y rs, (do HierHmm.reset; HierHmm.filterAll D log exp xs) X.free = .ret rs Y →
      ∃ X', (do HierHmm.reset; HierHmm.filterAll D log exp xs) X = .ret rs X' ∧ Y = X'.free := by
    intro X Y rs hY
    have := SimAt.bind (HierHmm.sim_reset X) fun _ M _ => HierHmm.sim_filterAll hB log exp xs M
    unfold SimAt at this
    rw [hY] at this
    cases hX : (do HierHmm.reset; HierHmm.filterAll D log exp xs : Prog (HierHmm ℝ) (List (List ℝ))) X with
    | ret a s =>
      rw [hX] at this
      injection this with h1 h2
      exact ⟨s, by rw [h1], h2⟩
    | throw e s => rw [hX] at this; cases this
    | ub => rw [hX] at this; cases this
  obtain ⟨X, x1, rfl⟩ := sim M A rs e1
  obtain ⟨Y, y1, rfl⟩ := sim N B rs e2
  refine ⟨rs, X, Y, x1, y1, fun c lc lc' h3 h4 => ?_, e3.results, e3.out⟩
  obtain ⟨k1, k2⟩ := e3.cls c (lc.1, lc.2.free) (lc'.1, lc'.2.free) (by simp [HierHmm.free, h3]) (by simp [HierHmm.free, h4])
  exact ⟨k1, ⟨k2.instant, k2.logLik, k2.progress, k2.likeliest, k2.out⟩⟩

/-- a new class is trained in the same way whatever its members that are not initialised hold -/
theorem alone_uninit {f : Format} {i : Nat} {w : World ℝ String} {t : TSet String} {τ : Takes ℝ String} (h : Sim f i w t τ) (hv : f.Valid)
    {M : HierHmm ℝ} {P : EmParams} (hS : M.Settings P) (hlong : Takes.LongEnough τ fun l => (M.conf l).n) (z z' : ℝ) (D : Dens ℝ) (hD : D.Sound) (log : ℝ → ℝ)
    (hlog : ∀ x y, 0 < x → 0 < y → log (x * y) = log x + log y) (lowest pct : ℝ) (cancel : Nat → Bool) (l : String) (hl : ∃ e ∈ τ, e.2.1 = l) {tr tr' : Trainer ℝ} {m m' : Hmm ℝ}
    (h1 : Hmm.trainedAlone D log (Compare.exact lowest pct) P cancel (Hmm.fresh f M.window (M.conf l) z) (Takes.data f τ l) = .ret tr m)
    (h2 : Hmm.trainedAlone D log (Compare.exact lowest pct) P cancel (Hmm.fresh f M.window (M.conf l) z') (Takes.data f τ l) = .ret tr' m') :
    tr'.status = tr.status ∧ (tr.status = .done → m.SameClass m' ∧ m.CanFilter) := by
  obtain ⟨c, tr1, a1, -, -, -, -, a2, -⟩ := class_trained h hv hS hlong z D hD log hlog lowest pct (fun _ => cancel) l hl
  obtain ⟨c', tr1', b1, -, -, -, -, b2, -⟩ := class_trained h hv hS hlong z' D hD log hlog lowest pct (fun _ => cancel) l hl
  rw [h1] at a1
  injection a1 with a1 a1'
  rw [h2] at b1
  injection b1 with b1 b1'
  subst a1 a1' b1 b1'
  obtain ⟨e, he, rfl⟩ := hl
  obtain ⟨⟨e', he', k1, k2⟩, k3⟩ := hlong e he
  set l := e.2.1 with hle
  have hmem : e'.2.2.frames ∈ (Takes.data f τ l).phrases := by
    simp only [Takes.data, Takes.frames, List.mem_map]
    exact ⟨e', by simp [Takes.ofClass, he', k1], rfl⟩
  have hn := hS.states l
  have hne : (Takes.data f τ l).frames ≠ [] := by
    intro h0
    simp only [KData.frames, List.flatten_eq_nil_iff] at h0
    have := h0 _ hmem
    rw [this] at k2
    simp only [List.length_nil] at k2
    omega
  obtain ⟨t', c1, d1, d2, d3⟩ := Hmm.retrain D hD log hlog (Hmm.fresh f M.window (M.conf l) z) (Hmm.fresh_admissible hv hn (hS.gaussians l) z)
    (hS.leftRight l) rfl _ ⟨rfl, h.frame_length hv l, hne⟩ ⟨_, hmem, k2⟩ k3 (hS.absReg l) KData.deviation (fun d => by simp [KData.deviation]) lowest pct P hS.minIter cancel
    (Hmm.Past.of (Hmm.fresh f M.window (M.conf l) z')) [] [] [] h1
  have e1 := h2.symm.trans d1
  injection e1 with e1 e2
  subst e1 e2
  refine ⟨d2, fun hd => ?_⟩
  obtain ⟨-, q, hq⟩ := d3 (by rw [hd]; simp)
  obtain ⟨p1, -, -, -, -, -, -, p2, -⟩ := a2 hd
  obtain ⟨-, -, -, -, -, -, -, p3, -⟩ := b2 (d2.trans hd)
  refine ⟨?_, p1.can⟩
  rw [hq] at p3 ⊢
  exact Hmm.withPast_same q p1.can (p3.trans p2.symm)

end HierHmm

section session
variable [JsonReal ℝ] {alive : Nat → Bool} {nar : ℝ → ℝ} {tiny realMax : ℝ}

/-- the theorem below, if the class has no more states than before or its training is not done -/
theorem loaded_class (ids : JsonIds) (z z1 z2 : ℝ) (h1 : Regularization tiny realMax (1 / 100)) (h2 : Regularization tiny realMax (1 / 1000))
    (hb : Bool) (B : HierBody ℝ) (s : ConfigSpec (HmmValues ℝ)) (hs : SharedSavable alive nar realMax B.body.shared) (hc : HmmConfig nar tiny realMax B.body.config s)
    (hcls : ∀ lc ∈ B.body.models, lc.2.Savable nar tiny realMax ∧ lc.2.Loadable ∧
      lc.2.view = ⟨B.body.shared.bimodal.value, B.body.shared.dimension.value, B.body.shared.dimensionInput.value, B.body.shared.window.value⟩)
    (r : MultiRes ℝ) (f1 f2 : List ℝ) (st : Bool) (f : Format) (hv : f.Valid) (hM : (HierBody.model B r f1 f2 st).Holds f) (hS : (HierBody.model B r f1 f2 st).Settings B.em)
    (hmode : f.bimodal = true → ∀ l, ((HierBody.model B r f1 f2 st).conf l).mode = (HierBody.model B r f1 f2 st).mode)
    (i : Nat) (w0 : World ℝ String) (h0 : w0.sets i = none) (ops : List (RecOp ℝ String)) (ha : Takes.Admissible f ops [])
    (hlong : Takes.LongEnough (Takes.run f ops []).1 fun l => ((HierBody.model B r f1 f2 st).conf l).n)
    (D : Dens ℝ) (hD : D.Sound) (hB : D.Blind) (log : ℝ → ℝ) (hlog : ∀ x y, 0 < x → 0 < y → log (x * y) = log x + log y) (lowest : ℝ) (cancel : Nat → Bool)
    (label : String) (hl : ∃ e ∈ (Takes.run f ops []).1, e.2.1 = label)
    (hfew : ∀ c, (label, c) ∈ B.body.models →
      (∃ tr m, Hmm.trainedAlone D log (Compare.exact lowest B.body.shared.percentChg.value) B.em cancel
          (Hmm.fresh f (HierBody.model B r f1 f2 st).window ((HierBody.model B r f1 f2 st).conf label) z1) (Takes.data f (Takes.run f ops []).1 label) = .ret tr m ∧ tr.status = .done) →
        ((HierBody.model B r f1 f2 st).conf label).n ≤ c.n) :
    ∃ root B' B0, HierBody.toJson hb B = .ret root B ∧ HierBody.ofJson alive ids nar tiny realMax z root = .ret B' B0 ∧
      ∀ (r' : MultiRes ℝ) (f1' f2' : List ℝ), ∃ M M', B.recordAndTrainClass z1 D log lowest cancel f i ops w0 label r f1 f2 st = .ret () M ∧
        B'.recordAndTrainClass z2 D log lowest cancel f i ops w0 label r' f1' f2' false = .ret () M' ∧
        M.Usable ∧ M'.Usable ∧ SMap.keys M'.models = SMap.keys M.models ∧ (∀ l ∈ SMap.keys B.body.models, l ≠ label → l ∈ SMap.keys M.models) ∧
        (M.models ≠ [] → ∀ exp : ℝ → ℝ, ∀ xs, xs ≠ [] → (∀ x ∈ xs, f.Sample x) →
          ∃ rs N N', (do HierHmm.reset; HierHmm.filterAll D log exp xs) M = .ret rs N ∧ (do HierHmm.reset; HierHmm.filterAll D log exp xs) M' = .ret rs N' ∧ HierHmm.SameResults N N') := by
  obtain ⟨root, B', B0, b1, b2, b3, b4, b5, b6, b7, b8, b9, b10⟩ := hmm_loads ids z h1 h2 hb B s hs hc hM.sorted hcls hM.idle hM.top.prior hM.top.trans hM.top.row hM.top.exitTrans
  refine ⟨root, B', B0, b1, b2, fun r' f1' f2' => ?_⟩
  have hpct : B'.body.shared.percentChg.value = B.body.shared.percentChg.value := congrArg SharedValues.percentChg b3
  have hem : B'.em = B.em := by
    unfold HierBody.em
    rw [show B'.body.shared.emMin.value = B.body.shared.emMin.value from congrArg SharedValues.emMin b3,
      show B'.body.shared.emMax.value = B.body.shared.emMax.value from congrArg SharedValues.emMax b3]
  have hload := HierBody.loaded hc b3 b4 b5 b6 b7 b8 b9 b10 (fun lc hlc => (hM.cls lc hlc).1.hier) hM.hier r r' f1 f2 f1' f2' st
  set X := HierBody.model B r f1 f2 st with hX
  set Y := HierBody.model B' r' f1' f2' false with hY
  have hMr' : Y.Holds f := by rw [hload]; exact hM.loaded z r' f1' f2'
  have hXm : X.models = B.body.models := rfl
  have hmodels' : Y.models = X.models.map fun lc => (lc.1, (lc.2.copy z).free) := by
    rw [hload]; simp only [HierHmm.free, hmmFamily, List.map_map]; rfl
  have hmd : Y.mode = X.mode := by rw [hload]; rfl
  have hes : Y.est = X.est := by rw [hload]; rfl
  have hcf : Y.conf = X.conf := by rw [hload]; rfl
  have hwi : Y.window = X.window := by rw [hload]; rfl
  have hpr : Y.prior = X.prior ∧ Y.trans = X.trans ∧ Y.exitTrans = X.exitTrans := by rw [hload]; exact ⟨rfl, rfl, rfl⟩
  have hSY : Y.Settings B.em := ⟨by rw [hwi]; exact hS.window, hS.minIter, by rw [hcf]; exact hS.states, by rw [hcf]; exact hS.gaussians, by rw [hcf]; exact hS.absReg,
    by rw [hcf]; exact hS.leftRight⟩
  have hfwd : ∀ l m0, (l, m0) ∈ X.models → (l, (m0.copy z).free) ∈ Y.models := fun l m0 h => by
    rw [hmodels']; exact List.mem_map.2 ⟨_, h, rfl⟩
  have hbwd : ∀ l n, (l, n) ∈ Y.models → ∃ m0, (l, m0) ∈ X.models ∧ n = (m0.copy z).free := fun l n h => by
    rw [hmodels'] at h
    obtain ⟨lc, h3, h4⟩ := List.mem_map.1 h
    simp only [Prod.mk.injEq] at h4
    exact ⟨lc.2, by rw [← h4.1]; exact h3, h4.2.symm⟩
  obtain ⟨w, t, s1, s2, s3, -⟩ := recordThen_sim f hv i w0 h0 ops ha
  obtain ⟨M, a1, a2, a3, a4, a5, a6, a7, a8, a9, a10, -, a11, a12, a13⟩ := HierHmm.trainLabel_of_sim' s1 s2 hv X hM B.em hS hlong hmode z1 D hD log hlog lowest B.body.shared.percentChg.value
    cancel label hl hfew
  obtain ⟨M', c1, c2, c3, c4, c5, c6, c7, c8, c9, c10, -, c11, c12, c13⟩ := HierHmm.trainLabel_of_sim' s1 s2 hv Y hMr' B.em hSY (by rw [hcf]; exact hlong)
    (fun hb l => by rw [hcf, hmd]; exact hmode hb l) z2 D hD log hlog lowest B.body.shared.percentChg.value cancel label hl (fun c hc' hd' => by
      obtain ⟨m0, e1, rfl⟩ := hbwd _ _ hc'
      rw [hcf]
      refine hfew m0 e1 ?_
      obtain ⟨tr, m, p1, -⟩ := a9.replaced
      obtain ⟨tr', m', q1, q2⟩ := hd'
      rw [hcf, hwi] at q1
      exact ⟨tr, m, p1, (HierHmm.alone_uninit s1 hv hS hlong z1 z2 D hD log hlog lowest B.body.shared.percentChg.value cancel label hl p1 q1).1.symm.trans q2⟩)
  obtain ⟨tr, m, p1, -, p2⟩ := a9.replaced
  obtain ⟨tr', m', q1, -, q2⟩ := c9.replaced
  rw [hcf, hwi] at q1
  obtain ⟨hst, hmm⟩ := HierHmm.alone_uninit s1 hv hS hlong z1 z2 D hD log hlog lowest B.body.shared.percentChg.value cancel label hl p1 q1
  have mem_keys : ∀ {X : HierHmm ℝ} {l : String}, l ∈ SMap.keys X.models ↔ ∃ x, (l, x) ∈ X.models := by
    intro X l
    constructor
    · intro h
      obtain ⟨lc, h3, rfl⟩ := List.mem_map.1 h
      exact ⟨lc.2, h3⟩
    · rintro ⟨x, h⟩
      exact List.mem_map.2 ⟨_, h, rfl⟩
  have hlabel : (tr.status = .done ∧ (∃ x, (label, x) ∈ M.models ∧ Hmm.SameClass m x) ∧ ∃ x, (label, x) ∈ M'.models ∧ Hmm.SameClass m' x) ∨
      label ∉ SMap.keys M.models ∧ label ∉ SMap.keys M'.models := by
    rcases p2 with ⟨p2, p3⟩ | ⟨p2, p3⟩ <;> rcases q2 with ⟨q2, q3⟩ | ⟨q2, q3⟩
    · exact .inl ⟨p2, p3, q3⟩
    · rcases q3 with ⟨q3, -⟩ | ⟨q3, -⟩ <;> rw [hst, p2] at q3 <;> cases q3
    · rcases p3 with ⟨p3, -⟩ | ⟨p3, -⟩ <;> rw [← hst, q2] at p3 <;> cases p3
    · exact .inr ⟨p2, q2⟩
  have hkeys0 : ∀ l, l ∈ SMap.keys Y.models ↔ l ∈ SMap.keys X.models := by
    intro l
    constructor
    · intro h
      obtain ⟨n, hn⟩ := mem_keys.1 h
      obtain ⟨m0, hm0, -⟩ := hbwd l n hn
      exact mem_keys.2 ⟨m0, hm0⟩
    · intro h
      obtain ⟨n, hn⟩ := mem_keys.1 h
      exact mem_keys.2 ⟨_, hfwd l n hn⟩
  have hkeys : ∀ l, l ∈ SMap.keys M'.models ↔ l ∈ SMap.keys M.models := by
    intro l
    by_cases hll : l = label
    · subst hll
      rcases hlabel with ⟨-, ⟨x, hx, -⟩, y, hy, -⟩ | ⟨x, y⟩
      · exact ⟨fun _ => mem_keys.2 ⟨x, hx⟩, fun _ => mem_keys.2 ⟨y, hy⟩⟩
      · exact ⟨fun h => absurd h y, fun h => absurd h x⟩
    · constructor
      · intro h
        obtain ⟨n', hn'⟩ := mem_keys.1 h
        obtain ⟨n, hn, -⟩ := (c9.others l hll).1 n' hn'
        obtain ⟨m0, hm0, -⟩ := hbwd l n hn
        obtain ⟨x, hx, -⟩ := (a9.others l hll).2 m0 hm0
        exact mem_keys.2 ⟨x, hx⟩
      · intro h
        obtain ⟨n', hn'⟩ := mem_keys.1 h
        obtain ⟨n, hn, -⟩ := (a9.others l hll).1 n' hn'
        obtain ⟨x, hx, -⟩ := (c9.others l hll).2 _ (hfwd l n hn)
        exact mem_keys.2 ⟨x, hx⟩
  have huniq : ∀ {X : HierHmm ℝ}, SMap.Sorted X.models → ∀ {l x y}, (l, x) ∈ X.models → (l, y) ∈ X.models → x = y := by
    intro X hX l x y hx hy
    have e1 := (SMap.mem_iff_find? hX).1 hx
    have e2 := (SMap.mem_iff_find? hX).1 hy
    rw [e1] at e2
    exact Option.some.inj e2
  have hsame : ∀ l x y, (l, x) ∈ M.models → (l, y) ∈ M'.models → Hmm.SameClass x.free y.free := by
    intro l x y hx hy
    by_cases hll : l = label
    · subst hll
      rcases hlabel with ⟨hd, ⟨x1, hx1, e1⟩, y1, hy1, e2⟩ | ⟨h, -⟩
      · cases huniq a2.sorted hx hx1
        cases huniq c2.sorted hy hy1
        exact ((HierHmm.SameClass.symm e1 (hmm hd).2).trans ((hmm hd).1.trans e2)).free
      · exact absurd (mem_keys.2 ⟨x, hx⟩) h
    · obtain ⟨x0, hx0, e1⟩ := (a9.others l hll).1 x hx
      obtain ⟨y0, hy0, e2⟩ := (c9.others l hll).1 y hy
      obtain ⟨m0, hm0, rfl⟩ := hbwd l y0 hy0
      cases huniq hM.sorted hx0 hm0
      have hcan := (hM.cls _ hx0).1
      have e3 := Hmm.copy_same z hcan.can
      have f1 := HierHmm.SameClass.symm e1.free (Hmm.free_in hcan).can
      have f2 := e2.free
      rw [Hmm.free_free] at f2
      exact f1.trans (e3.free.trans f2)
  have hk : SMap.keys M'.models = SMap.keys M.models := by
    have hp : (SMap.keys M'.models).Perm (SMap.keys M.models) := (List.perm_ext_iff_of_nodup (SMap.keys_nodup c2.sorted) (SMap.keys_nodup a2.sorted)).2 hkeys
    exact hp.eq_of_pairwise (fun a b _ _ h1 h2 => absurd h1 (lt_asymm h2)) (SMap.keys_sorted c2.sorted) (SMap.keys_sorted a2.sorted)
  have hlen : M'.models.length = M.models.length := by simpa [SMap.keys] using congrArg List.length hk
  have htop : M'.prior = M.prior ∧ M'.trans = M.trans ∧ M'.exitTrans = M.exitTrans := by
    by_cases hin : label ∈ SMap.keys X.models ∧ label ∈ SMap.keys M.models
    · obtain ⟨u1, u2, u3⟩ := a10 hin.1 hin.2
      obtain ⟨v1, v2, v3⟩ := c10 ((hkeys0 _).2 hin.1) ((hkeys _).2 hin.2)
      exact ⟨v1.trans (hpr.1.trans u1.symm), v2.trans (hpr.2.1.trans u2.symm), v3.trans (hpr.2.2.trans u3.symm)⟩
    · have hor := not_and_or.1 hin
      obtain ⟨u1, u2, u3⟩ := a11 hor
      obtain ⟨v1, v2, v3⟩ := c11 (hor.imp (fun h h' => h ((hkeys0 _).1 h')) fun h h' => h ((hkeys _).1 h'))
      rw [hlen] at v1 v2 v3
      exact ⟨v1.trans u1.symm, v2.trans u2.symm, v3.trans u3.symm⟩
  refine ⟨M, M', ?_, ?_, a2, c2, hk, fun l hl' hne => ?_, fun hne exp xs hxs hx => ?_⟩
  · unfold HierBody.recordAndTrainClass recordAndTrainHmmClass
    rw [s3]
    exact a1
  · unfold HierBody.recordAndTrainClass recordAndTrainHmmClass
    rw [s3, hem, hpct]
    exact c1
  · obtain ⟨lc, h3, rfl⟩ := List.mem_map.1 hl'
    obtain ⟨x, hx, -⟩ := (a9.others lc.1 hne).2 lc.2 h3
    exact mem_keys.2 ⟨x, hx⟩
  · refine HierHmm.same_classes D hD hB log exp a2 c2 (fun lc hlc => by obtain ⟨-, g1, g2, g3, -, g4⟩ := a3.cls lc hlc; exact ⟨g1, g2, g3, g4⟩) hk.symm ?_ hsame hne xs hxs hx
    have k1 := c2.nulls.trans a2.nulls.symm
    have k2 := c3.idle.trans a3.idle.symm
    have k3 := c7.trans (hcf.trans a7.symm)
    have k4 := c3.hier.trans a3.hier.symm
    have k5 := c5.trans (hmd.trans a5.symm)
    have k6 := c6.trans (hes.trans a6.symm)
    have k7 := c3.bimodal.trans a3.bimodal.symm
    have k8 := c12.trans a12.symm
    have k9 := c13.trans a13.symm
    have k10 := c8.trans (hwi.trans a8.symm)
    obtain ⟨k11, k12, k13⟩ := htop
    clear_value X Y
    clear * - k1 k2 k3 k4 k5 k6 k7 k8 k9 k10 k11 k12 k13
    cases M; cases M'
    simp only at *
    simp only [k1, k2, k3, k4, k5, k6, k7, k8, k9, k10, k11, k12, k13]

/-- **C114 (partial), hierarchical HMM.**  A hierarchical model that can be saved (C57) and used, with LeftRight classes that are left from their last state only and have the format of the session:
    whatever the memory holds that is not initialised (`z`, `z1`, `z2`), training one class of the model constructed from its JSON, a new one or one that has no more states than before, even before `reset()` and whatever its other members are, ends like
    training that class of the original, with the parameters that each of them has: both are defined and raise no exception, both models have the same classes afterwards, and they report the
    same likelihoods and results on every stream.
    Missing: models with Diagonal covariances or that are not hierarchical, which are not loaded as they are (`C57_hmm_rejected_violated`, `C57_hmm_hierarchical_violated`), ergodic classes. -/
theorem C114_hierarchical_partial (ids : JsonIds) (z z1 z2 : ℝ) (h1 : Regularization tiny realMax (1 / 100)) (h2 : Regularization tiny realMax (1 / 1000))
    (hb : Bool) (B : HierBody ℝ) (s : ConfigSpec (HmmValues ℝ)) (hs : SharedSavable alive nar realMax B.body.shared) (hc : HmmConfig nar tiny realMax B.body.config s)
    (hcls : ∀ lc ∈ B.body.models, lc.2.Savable nar tiny realMax ∧ lc.2.Loadable ∧
      lc.2.view = ⟨B.body.shared.bimodal.value, B.body.shared.dimension.value, B.body.shared.dimensionInput.value, B.body.shared.window.value⟩)
    (r : MultiRes ℝ) (f1 f2 : List ℝ) (st : Bool) (f : Format) (hv : f.Valid) (hM : (HierBody.model B r f1 f2 st).Holds f) (hS : (HierBody.model B r f1 f2 st).Settings B.em)
    (hmode : f.bimodal = true → ∀ l, ((HierBody.model B r f1 f2 st).conf l).mode = (HierBody.model B r f1 f2 st).mode)
    (i : Nat) (w0 : World ℝ String) (h0 : w0.sets i = none) (ops : List (RecOp ℝ String)) (ha : Takes.Admissible f ops [])
    (hlong : Takes.LongEnough (Takes.run f ops []).1 fun l => ((HierBody.model B r f1 f2 st).conf l).n)
    (D : Dens ℝ) (hD : D.Sound) (hB : D.Blind) (log : ℝ → ℝ) (hlog : ∀ x y, 0 < x → 0 < y → log (x * y) = log x + log y) (lowest : ℝ) (cancel : Nat → Bool)
    (label : String) (hl : ∃ e ∈ (Takes.run f ops []).1, e.2.1 = label) (hfew : ∀ c, (label, c) ∈ B.body.models → ((HierBody.model B r f1 f2 st).conf label).n ≤ c.n) :
    ∃ root B' B0, HierBody.toJson hb B = .ret root B ∧ HierBody.ofJson alive ids nar tiny realMax z root = .ret B' B0 ∧
      ∀ (r' : MultiRes ℝ) (f1' f2' : List ℝ), ∃ M M', B.recordAndTrainClass z1 D log lowest cancel f i ops w0 label r f1 f2 st = .ret () M ∧
        B'.recordAndTrainClass z2 D log lowest cancel f i ops w0 label r' f1' f2' false = .ret () M' ∧
        M.Usable ∧ M'.Usable ∧ SMap.keys M'.models = SMap.keys M.models ∧ (∀ l ∈ SMap.keys B.body.models, l ≠ label → l ∈ SMap.keys M.models) ∧
        (M.models ≠ [] → ∀ exp : ℝ → ℝ, ∀ xs, xs ≠ [] → (∀ x ∈ xs, f.Sample x) →
          ∃ rs N N', (do HierHmm.reset; HierHmm.filterAll D log exp xs) M = .ret rs N ∧ (do HierHmm.reset; HierHmm.filterAll D log exp xs) M' = .ret rs N' ∧ HierHmm.SameResults N N') :=
  loaded_class ids z z1 z2 h1 h2 hb B s hs hc hcls r f1 f2 st f hv hM hS hmode i w0 h0 ops ha hlong D hD hB log hlog lowest cancel label hl fun c hc' _ => hfew c hc'

end session
end Xmm
