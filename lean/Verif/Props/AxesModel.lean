import Verif.Spec.AxesModel
import Verif.Props.AxesTrain
import Verif.Props.AxesBimodal
import Verif.Props.AxesOrigin
import Verif.Props.Renaming
import Mathlib.Data.List.Sort
set_option linter.unusedSectionVars false
/- C113: from the recordings to the answers of a mixture model, in other axes. -/
namespace Xmm
open TS PhraseSpec

/-! ### One class -/

theorem deviation_eq (data : KData ℝ) : data.deviation = deviations data.dim data.frames := by
  unfold KData.deviation deviations
  apply List.ext_getElem <;> simp

theorem NewAxes.deviation {d : Nat} (A : NewAxes d) (data : KData ℝ) (hd : data.dim = d) : (A.data data).deviation = A.spread data.deviation := by
  subst hd
  rw [deviation_eq, deviation_eq, A.frames, show (A.data data).dim = data.dim from rfl, A.deviations_moved]

theorem NewAxes.CarriesOutput.prediction {d : Nat} {A : NewAxes d} {di : Nat} {m m' : Gmm ℝ} (h : A.CarriesOutput di m m') :
    A.CarriesPrediction di m.mode (m.outVals, m.outCov) (m'.outVals, m'.outCov) := by
  have hl : m.outCov.length = outCells m.mode (d - di) := by
    cases hm : m.mode with
    | full => exact (h.full hm).1
    | diagonal => exact (h.diagonal hm).1
  exact ⟨⟨h.sizes.1, h.sizes.2.1, hl, h.sizes.2.2.trans hl⟩, h.vals, fun hm => (h.full hm).2, fun hm => (h.diagonal hm).2⟩

/-- what two classes, of which the second is in the new axes, answer to a stream -/
def NewAxes.Agree (f : Format) (A : NewAxes f.dim) (mode : CovMode) (m n : Gmm ℝ) : Prop :=
  ∀ xs : List (List ℝ), xs ≠ [] → (∀ x ∈ xs, x.length = if f.bimodal then f.di else f.dim) →
    ∃ ps m' n', (do Gmm.reset; Gmm.filterAll Dens.real Real.log xs) m = .ret ps m' ∧ (do Gmm.reset; Gmm.filterAll Dens.real Real.log (xs.map (A.observation f))) n = .ret ps n' ∧
      n'.instant = m'.instant ∧ n'.logLik = m'.logLik ∧ (f.bimodal = true → A.CarriesPrediction f.di mode (m'.outVals, m'.outCov) (n'.outVals, n'.outCov))

theorem NewAxes.observation_length {f : Format} (hv : f.Valid) (A : NewAxes f.dim) {x : List ℝ} : (A.observation f x).length = if f.bimodal then f.di else f.dim := by
  unfold NewAxes.observation
  cases hb : f.bimodal with
  | false => simp [A.frame_length]
  | true =>
    simp only [Format.Valid, hb, if_true] at hv
    simp only [if_true, NewAxes.input, List.length_take, A.frame_length]
    omega

theorem stream_mode (m : Gmm ℝ) (hm : m.CanFilter) (hb : BufOk m.buf) (xs : List (List ℝ)) (hx : ∀ x ∈ xs, m.Fits x) {ps : List ℝ} {t : Gmm ℝ}
    (h : (do Gmm.reset; Gmm.filterAll Dens.real Real.log xs) m = .ret ps t) : t.mode = m.mode := by
  obtain ⟨d, hd⟩ := Gmm.obsDensities_exist Dens.real Dens.real_sound m hm.ready
  have hy : ∃ y : List ℝ → Nat → List ℝ, ∀ x, m.bimodal = true → m.Fits x → RecSpec.Predictions m x (y x) := by
    cases hbi : m.bimodal with
    | false => exact ⟨fun _ _ => [], fun x h' => by cases h'⟩
    | true =>
      obtain ⟨y, hy⟩ := Gmm.predictions_exist m hm.ready.wf hbi
      exact ⟨y, fun x _ hf => (hy x hf).1⟩
  obtain ⟨y, hy⟩ := hy
  obtain ⟨b, h1, h2⟩ := Gmm.reset_ret m hm hb
  obtain ⟨m', f1, f2, -⟩ := Gmm.filterAll_ret Dens.real Real.log m d y (fun x hf => (hd x hf).1) hy xs hx { m with buf := b } rfl
    (Gmm.SameModel.canFilter (m := m) rfl hm hm.ready.wf.beta) [] h2
  rw [bind_of_ret h1, f1] at h
  injection h with _ h
  rw [← h, f2]

/-- a class trained alone, in both axes -/
theorem trainedAlone_moved (f : Format) (hv : f.Valid) (A : NewAxes f.dim) (hA : f.bimodal = true → A.KeepsInput f.di) (S : GmmSettings ℝ) (hS : S.Valid) (lowest pct : ℝ) (l : String)
    (data : KData ℝ) (hd : data.dim = f.dim) (hfr : ∀ x ∈ data.frames, x.length = f.dim) (hne : data.frames ≠ [])
    (ho : (∀ i, A.shift i = 0) ∨ (GmmModel.newClass S f.bimodal f.dim f.di l).Steady data) (cancel : Nat → Bool) :
    ∃ tr tr' m n, trainedAlone S Dens.real Real.log (Compare.exact lowest pct) cancel f l data = .ret tr m ∧
      trainedAlone S Dens.real Real.log (Compare.exact lowest pct) cancel f l (A.data data) = .ret tr' n ∧ tr'.status = tr.status ∧ (tr.status ≠ .cancel →
      m.CanFilter ∧ n.CanFilter ∧ BufOk m.buf ∧ BufOk n.buf ∧ m.bimodal = f.bimodal ∧ n.bimodal = f.bimodal ∧ m.dim = f.dim ∧ n.dim = f.dim ∧ m.di = f.di ∧ n.di = f.di ∧
      m.mode = S.mode l ∧ A.Carries m n ∧ NewAxes.Agree f A (S.mode l) m n) := by
  set c := GmmModel.newClass S f.bimodal f.dim f.di l with hc
  have hadm : c.Admissible := newClass_admissible S hS f hv l
  have hfed : c.Fed data.deviation data := ⟨hd, hfr, hne, by simp [KData.deviation, hd, hc, GmmModel.newClass]⟩
  have hdi : c.di = f.di := by
    rw [hc]
    cases hb : f.bimodal <;> simp [Format.Valid, hb, GmmModel.newClass] at hv ⊢
    exact hv.1.symm
  have hfed' : c.Fed (A.spread data.deviation) (A.data data) := A.fed (m := c) rfl hfed
  obtain ⟨tr, tr', m, n, e1, e2, est, -, e0⟩ := Gmm.C98_train_cancel c hadm data.deviation data hfed (hS.absReg l) A ho (Compare.exact lowest pct) S.em hS.minIter cancel
  have hdev := A.deviation data hd
  refine ⟨tr, tr', m, n, e1, ?_, est, fun hnc => ?_⟩
  · unfold trainedAlone
    rw [hdev]
    exact e2
  obtain ⟨ett, e3, -, -, e4, e5, -⟩ := e0 hnc
  have ett := ett.symm
  subst ett
  obtain ⟨t1, m1, a1, -, -, -, -, -, a2, a3⟩ := Gmm.C81_training Dens.real Dens.real_sound Real.log c hadm hS.window _ _ hfed (hS.absReg l) lowest pct S.em hS.minIter cancel
  obtain ⟨t2, n1, b1, -, -, -, -, -, b2, b3⟩ := Gmm.C81_training Dens.real Dens.real_sound Real.log c hadm hS.window _ _ hfed' (hS.absReg l) lowest pct S.em hS.minIter cancel
  have a1 := e1.symm.trans a1
  have b1 := e2.symm.trans b1
  injection a1 with q1 q2
  injection b1 with q3 q4
  subst q1 q2 q3 q4
  obtain ⟨cf, ls, m2, i1, i2, i3, -⟩ := a3 hnc
  obtain ⟨cf', ls', n2, j1, j2, -, -⟩ := b3 hnc
  obtain ⟨_, _, k1, -, -, k2⟩ := Gmm.C81_trained_usable Dens.real Dens.real_sound Real.log c hadm hS.window _ _ hfed (hS.absReg l) tr.updates i3
  obtain ⟨_, _, k1', -, -, k2'⟩ := Gmm.C81_trained_usable Dens.real Dens.real_sound Real.log c hadm hS.window _ _ hfed' (hS.absReg l) tr.updates i3
  have k1 := i1.symm.trans k1
  have k1' := j1.symm.trans k1'
  injection k1 with _ k1
  injection k1' with _ k1'
  subst k1 k1'
  have d1 := Gmm.trainRun_derived c hadm _ data hfed (hS.absReg l) tr.updates i3 i1
  have d2 := Gmm.trainRun_derived c hadm _ (A.data data) hfed' (hS.absReg l) tr.updates i3 j1
  have hbuf : BufOk m.buf := by rw [i2]; show BufOk m2.buf; rw [k2]; rfl
  have hbuf' : BufOk n.buf := by rw [j2]; show BufOk n2.buf; rw [k2']; rfl
  have p1 : m.bimodal = f.bimodal ∧ m.dim = f.dim ∧ m.di = f.di ∧ m.mode = S.mode l := by
    rw [i2]; show m2.bimodal = _ ∧ m2.dim = _ ∧ m2.di = _ ∧ m2.mode = _; rw [k2]; exact ⟨rfl, rfl, hdi, rfl⟩
  have p2 : n.bimodal = f.bimodal ∧ n.dim = f.dim ∧ n.di = f.di := by
    rw [j2]; show n2.bimodal = _ ∧ n2.dim = _ ∧ n2.di = _; rw [k2']; exact ⟨rfl, rfl, hdi⟩
  refine ⟨cf, cf', hbuf, hbuf', p1.1, p2.1, p1.2.1, p2.2.1, p1.2.2.1, p2.2.2, p1.2.2.2, e3, fun xs hxs hx => ?_⟩
  · cases hb : f.bimodal with
    | false =>
      obtain ⟨ps, t, t', r1, r2, r3, r4, -⟩ := Gmm.C98_stream A m n e3 (p1.1.trans hb) cf cf' e4 e5 hbuf hbuf' xs hxs (fun x hx' => by have := hx x hx'; rw [hb] at this; exact this)
      refine ⟨ps, t, t', r1, ?_, r3, r4, fun h => by cases h⟩
      have : A.observation f = A.frame := by funext x; simp [NewAxes.observation, hb]
      rw [this]
      exact r2
    | true =>
      obtain ⟨ps, t, t', r1, r2, r3, r4, -, r5⟩ := Gmm.bimodal_stream A m n e3 (p1.1.trans hb) (by rw [p1.2.2.1]; exact hA hb) cf cf'
        (by rw [i2]; exact d1) (by rw [j2]; exact d2) hbuf hbuf' xs hxs (fun x hx' => by have := hx x hx'; rw [hb] at this; rw [p1.2.2.1]; exact this)
      have hmode : t.mode = m.mode := stream_mode m cf hbuf xs (fun x hx' => by
        have := hx x hx'
        rw [hb] at this
        unfold Gmm.Fits
        rw [p1.1, hb, p1.2.2.1]
        exact this.ge) r1
      rw [p1.2.2.1] at r2 r5
      refine ⟨ps, t, t', r1, ?_, r3, r4, fun _ => ?_⟩
      · have : A.observation f = A.input f.di := by funext x; simp [NewAxes.observation, hb]
        rw [this]
        exact r2
      · have := r5.prediction
        rw [hmode, p1.2.2.2] at this
        exact this

/-- the answers are those of any classes with the same parameters -/
theorem NewAxes.Agree.same {f : Format} {A : NewAxes f.dim} (hv : f.Valid) {mode : CovMode} {m n m' n' : Gmm ℝ} (h : NewAxes.Agree f A mode m n) (hm : Gmm.SameModel m m') (hn : Gmm.SameModel n n')
    (c1 : m.CanFilter) (c2 : n.CanFilter) (c3 : m'.CanFilter) (c4 : n'.CanFilter) (b1 : BufOk m.buf) (b2 : BufOk n.buf) (b3 : BufOk m'.buf) (b4 : BufOk n'.buf)
    (f1 : m.bimodal = f.bimodal ∧ m.dim = f.dim ∧ m.di = f.di) (f2 : n.bimodal = f.bimodal ∧ n.dim = f.dim ∧ n.di = f.di) : NewAxes.Agree f A mode m' n' := by
  intro xs hxs hx
  obtain ⟨ps, a, b, h1, h2, h3, h4, h5⟩ := h xs hxs hx
  have fit : ∀ (c : Gmm ℝ) (x : List ℝ), c.bimodal = f.bimodal ∧ c.dim = f.dim ∧ c.di = f.di → (x.length = if f.bimodal then f.di else f.dim) → c.Fits x := by
    intro c x hc hl
    unfold Gmm.Fits
    rw [hc.1, hc.2.1, hc.2.2]
    cases hb : f.bimodal <;> simp [hb] at hl ⊢ <;> exact hl.ge
  obtain ⟨qs, a1, a2, i1, i2, i3, i4, -, i5⟩ := Gmm.C51_filter_forgets Dens.real Dens.real_sound Real.log m m' hm c1 c3 b1 b3 xs hxs fun x hx' => fit m x f1 (hx x hx')
  obtain ⟨qs', n1, n2, j1, j2, j3, j4, -, j5⟩ := Gmm.C51_filter_forgets Dens.real Dens.real_sound Real.log n n' hn c2 c4 b2 b4 (xs.map (A.observation f)) (by simpa using hxs) fun x hx' => by
    obtain ⟨y, -, rfl⟩ := List.mem_map.1 hx'
    exact fit n _ f2 (A.observation_length hv)
  have e1 := h1.symm.trans i1
  have e2 := h2.symm.trans j1
  injection e1 with e1 e1'
  injection e2 with e2 e2'
  subst e1 e1' e2 e2'
  refine ⟨ps, a2, n2, i2, j2, by rw [← i3, ← j3, h3], by rw [← i4, ← j4, h4], fun hb => ?_⟩
  have r1 := i5 (f1.1.trans hb)
  have r2 := j5 (f2.1.trans hb)
  simp only [Gmm.results, ClassRes.mk.injEq] at r1 r2
  rw [← r1.2.2.1, ← r1.2.2.2, ← r2.2.2.1, ← r2.2.2.2]
  exact h5 hb

/-! ### The answers of the model -/

theorem first_greatest {α : Type} (key : α → ℝ) (l : List α) {b a b' a' : List α} {c c' : α} (h : l = b ++ c :: a) (h' : l = b' ++ c' :: a')
    (h1 : ∀ x ∈ b, key x < key c) (h2 : ∀ x ∈ a, key x ≤ key c) (h1' : ∀ x ∈ b', key x < key c') (h2' : ∀ x ∈ a', key x ≤ key c') : c = c' := by
  induction b generalizing l b' with
  | nil =>
    cases b' with
    | nil => rw [h] at h'; simpa using (List.cons.inj h').1
    | cons y b' =>
      rw [h] at h'
      obtain ⟨rfl, e⟩ := List.cons.inj h'
      have := h2 c' (by rw [e]; simp)
      exact absurd (h1' c (by simp)) (not_lt.2 this)
  | cons y b ih =>
    cases b' with
    | nil =>
      rw [h] at h'
      obtain ⟨rfl, e⟩ := List.cons.inj h'
      have := h2' c (by rw [← e]; simp)
      exact absurd (h1 y (by simp)) (not_lt.2 this)
    | cons y' b' =>
      rw [h] at h'
      obtain ⟨rfl, e⟩ := List.cons.inj h'
      exact ih _ rfl e (fun x hx => h1 x (by simp [hx])) (fun x hx => h1' x (by simp [hx]))

/-- the likelihoods and the likeliest class depend only on the labels and the likelihoods of the classes -/
theorem MultiRes.same_of_classes {exp : ℝ → ℝ} {cls cls' : List (String × ClassRes ℝ)} {r r' : MultiRes ℝ} (h : r.Summary exp cls) (h' : r'.Summary exp cls') (hne : cls ≠ [])
    (hc : cls'.map (fun c => (c.1, c.2.instant, c.2.logLik)) = cls.map fun c => (c.1, c.2.instant, c.2.logLik)) : r.SameLikelihoods r' := by
  have e1 : cls'.map (fun c => c.2.instant) = cls.map fun c => c.2.instant := by
    have := congrArg (List.map fun e : String × ℝ × ℝ => e.2.1) hc
    simpa [Function.comp_def] using this
  have e2 : ∀ g : ℝ → ℝ, cls'.map (fun c => g c.2.logLik) = cls.map fun c => g c.2.logLik := fun g => by
    have := congrArg (List.map fun e : String × ℝ × ℝ => g e.2.2) hc
    simpa [Function.comp_def] using this
  have e3 : ∀ s : ℝ, cls'.map (fun c => c.2.instant / s) = cls.map fun c => c.2.instant / s := fun s => by
    have := congrArg (List.map fun e : ℝ => e / s) e1
    simpa [Function.comp_def] using this
  refine ⟨by rw [h.inst, h'.inst, e1], by rw [h.instNorm, h'.instNorm, e1, e3], by rw [h.smoothed, h'.smoothed, e2], by rw [h.smoothedNorm, h'.smoothedNorm, e2, e2 fun x => exp x / _],
    by rw [h.smoothedLog, h'.smoothedLog, e2 fun x => x], ?_⟩
  have hne' : cls' ≠ [] := by rintro rfl; exact hne (by simpa using hc.symm)
  obtain ⟨b, c, a, i1, i2, i3, i4⟩ := h.likeliest hne
  obtain ⟨b', c', a', j1, j2, j3, j4⟩ := h'.likeliest hne'
  have key := first_greatest (fun e : String × ℝ × ℝ => e.2.2) (cls.map fun c => (c.1, c.2.instant, c.2.logLik))
    (b := b.map fun c => (c.1, c.2.instant, c.2.logLik)) (c := (c.1, c.2.instant, c.2.logLik)) (a := a.map fun c => (c.1, c.2.instant, c.2.logLik))
    (b' := b'.map fun c => (c.1, c.2.instant, c.2.logLik)) (c' := (c'.1, c'.2.instant, c'.2.logLik)) (a' := a'.map fun c => (c.1, c.2.instant, c.2.logLik))
    (by rw [i1]; simp) (by rw [← hc, j1]; simp)
    (by intro e he; obtain ⟨x, hx, rfl⟩ := List.mem_map.1 he; exact i3 x hx)
    (by intro e he; obtain ⟨x, hx, rfl⟩ := List.mem_map.1 he; exact i4 x hx)
    (by intro e he; obtain ⟨x, hx, rfl⟩ := List.mem_map.1 he; exact j3 x hx)
    (by intro e he; obtain ⟨x, hx, rfl⟩ := List.mem_map.1 he; exact j4 x hx)
  rw [i2, j2]
  exact (congrArg Prod.fst key).symm

theorem GmmModel.one_class {M : GmmModel ℝ} (hs : SMap.Sorted M.models) {l : String} {u v : Gmm ℝ} (hu : (l, u) ∈ M.models) (hv : (l, v) ∈ M.models) : u = v := by
  have e1 := (SMap.mem_iff_find? hs).1 hu
  rw [(SMap.mem_iff_find? hs).1 hv] at e1
  exact (Option.some.inj e1).symm

/-- two models whose classes agree -/
theorem models_agree {f : Format} (hv : f.Valid) (A : NewAxes f.dim) (hA : f.bimodal = true → A.KeepsInput f.di) (exp : ℝ → ℝ) (hexp : ∀ x, 0 < exp x) (M N : GmmModel ℝ)
    (hM : M.Usable) (hN : N.Usable) (hne : M.models ≠ []) (hbM : M.bimodal = f.bimodal) (hbN : N.bimodal = f.bimodal) (hmode : f.bimodal = true → N.mode = M.mode) (hest : N.est = M.est)
    (hdM : ∀ lc ∈ M.models, lc.2.dim = f.dim ∧ lc.2.di = f.di) (hdN : ∀ lc ∈ N.models, lc.2.dim = f.dim ∧ lc.2.di = f.di)
    (hp : List.Forall₂ (fun a b : String × Gmm ℝ => b.1 = a.1 ∧ NewAxes.Agree f A M.mode a.2 b.2) M.models N.models)
    (xs : List (List ℝ)) (hxs : xs ≠ []) (hx : ∀ x ∈ xs, x.length = if f.bimodal then f.di else f.dim) :
    ∃ M' N', (do GmmModel.reset; GmmModel.filterAll Dens.real Real.log exp xs) M = .ret () M' ∧
      (do GmmModel.reset; GmmModel.filterAll Dens.real Real.log exp (xs.map (A.observation f))) N = .ret () N' ∧ M'.results.SameLikelihoods N'.results ∧
      (f.bimodal = true → A.CarriesPrediction f.di M.mode (M'.results.outVals, M'.results.outCov) (N'.results.outVals, N'.results.outCov)) := by
  have fit : ∀ (P : GmmModel ℝ), P.Usable → P.bimodal = f.bimodal → (∀ lc ∈ P.models, lc.2.dim = f.dim ∧ lc.2.di = f.di) → ∀ x : List ℝ, (x.length = if f.bimodal then f.di else f.dim) →
      ∀ lc ∈ P.models, lc.2.Fits x := by
    intro P hP hb hd x hl lc hlc
    unfold Gmm.Fits
    rw [(hP.cls lc hlc).2.1, hb, (hd lc hlc).1, (hd lc hlc).2]
    cases hb : f.bimodal <;> simp [hb] at hl ⊢ <;> exact hl.ge
  have hneN : N.models ≠ [] := by intro h; rw [h] at hp; exact hne (List.forall₂_nil_right_iff.1 hp)
  obtain ⟨M', a1, a2, a3, a4, a5, a6⟩ := GmmModel.reset_filterAll Dens.real Dens.real_sound Real.log exp hexp M hM hne xs hxs fun x hx' => fit M hM hbM hdM x (hx x hx')
  obtain ⟨N', b1, b2, b3, b4, b5, b6⟩ := GmmModel.reset_filterAll Dens.real Dens.real_sound Real.log exp hexp N hN hneN (xs.map (A.observation f)) (by simpa using hxs) fun x hx' => by
    obtain ⟨y, -, rfl⟩ := List.mem_map.1 hx'
    exact fit N hN hbN hdN _ (A.observation_length hv)
  rw [List.forall₂_iff_get] at hp a4 b4
  have hlen : N'.models.length = M'.models.length := by rw [← b4.1, ← a4.1, hp.1]
  have hcl : ∀ (i : Nat) (h1 : i < M'.models.length) (h2 : i < N'.models.length), N'.models[i].1 = M'.models[i].1 ∧ N'.models[i].2.instant = M'.models[i].2.instant ∧
      N'.models[i].2.logLik = M'.models[i].2.logLik ∧
      (f.bimodal = true → A.CarriesPrediction f.di M.mode (M'.models[i].2.outVals, M'.models[i].2.outCov) (N'.models[i].2.outVals, N'.models[i].2.outCov)) := by
    intro i h1 h2
    have l1 : i < M.models.length := by rw [a4.1]; exact h1
    have l2 : i < N.models.length := by rw [b4.1]; exact h2
    obtain ⟨c1, ps, c2⟩ := a4.2 i l1 h1
    obtain ⟨d1, qs, d2⟩ := b4.2 i l2 h2
    obtain ⟨e1, e2⟩ := hp.2 i l1 l2
    simp only [List.get_eq_getElem] at c1 c2 d1 d2 e1 e2
    obtain ⟨rs, m', n', g1, g2, g3, g4, g5⟩ := e2 xs hxs hx
    have k1 := g1.symm.trans c2
    have k2 := g2.symm.trans d2
    injection k1 with _ k1
    injection k2 with _ k2
    subst k1 k2
    exact ⟨by rw [d1, e1, c1], g3, g4, g5⟩
  have hcm : M'.classes ≠ [] := by
    simp only [GmmModel.classes, ne_eq, List.map_eq_nil_iff]
    intro h
    rw [h] at a4
    exact hne (List.eq_nil_of_length_eq_zero a4.1)
  have hsame := MultiRes.same_of_classes a5 b5 hcm (by
    refine List.ext_getElem (by simp [GmmModel.classes, hlen]) fun i h1 h2 => ?_
    have l2 : i < M'.models.length := by simpa [GmmModel.classes] using h2
    obtain ⟨e1, e2, e3, -⟩ := hcl i l2 (by rw [hlen]; exact l2)
    simp [GmmModel.classes, Gmm.results, e1, e2, e3])
  refine ⟨M', N', a1, b1, hsame, fun hb => ?_⟩
  have oM := a6 (hbM.trans hb)
  have oN := b6 (hbN.trans hb)
  have m1 : M'.mode = M.mode := by rw [a3]
  have m2 : N'.mode = M.mode := by rw [b3]; exact hmode hb
  have s1 : M'.est = M.est := by rw [a3]
  have s2 : N'.est = M.est := by rw [b3]; exact hest
  have d1 : M'.dout = f.dim - f.di := by
    rw [a3]
    obtain ⟨lc, hlc⟩ := List.exists_mem_of_ne_nil _ hne
    show M.dout = _
    rw [← (hM.cls _ hlc).2.2, (hdM _ hlc).1, (hdM _ hlc).2]
  have d2 : N'.dout = f.dim - f.di := by
    rw [b3]
    obtain ⟨lc, hlc⟩ := List.exists_mem_of_ne_nil _ hneN
    show N.dout = _
    rw [← (hN.cls _ hlc).2.2, (hdN _ hlc).1, (hdN _ hlc).2]
  cases he : M.est with
  | likeliest =>
    unfold GmmModel.OutputsOf at oM oN
    rw [s1, he] at oM
    rw [s2, he] at oN
    simp only at oM oN
    obtain ⟨c, c1, c2, c3⟩ := oM
    obtain ⟨c', c1', c2', c3'⟩ := oN
    obtain ⟨i, hi, hci⟩ := List.getElem_of_mem c1
    have hi' : i < N'.models.length := by rw [hlen]; exact hi
    obtain ⟨e1, -, -, e2⟩ := hcl i hi hi'
    have hc' : N'.models[i].2 = c' := by
      refine GmmModel.one_class b2.sorted (l := N'.results.likeliest) ?_ c1'
      rw [hsame.likeliest]
      have : N'.models[i].1 = M'.results.likeliest := by rw [e1, hci]
      rw [← this]
      exact List.getElem_mem hi'
    have := e2 hb
    rw [hc', hci] at this
    rw [c2, c3, c2', c3']
    exact this
  | mixture =>
    unfold GmmModel.OutputsOf at oM oN
    rw [s1, he, d1, m1] at oM
    rw [s2, he, d2, m2, hlen] at oN
    simp only at oM oN
    have hw : ∑ i ∈ Finset.range M'.models.length, M'.results.smoothedNorm.getD i 0 = 1 := by
      have hl : M'.models.length = M'.classes.length := by simp [GmmModel.classes]
      have hpos : 0 < (M'.classes.map fun c => exp c.2.logLik).sum := by
        refine List.sum_pos _ (fun x hx' => by obtain ⟨c, -, rfl⟩ := List.mem_map.1 hx'; exact hexp _) (by simpa using hcm)
      rw [a5.smoothedNorm, hl]
      have := GmmModel.rangeSum (fun c : String × ClassRes ℝ => exp c.2.logLik / (M'.classes.map fun c => exp c.2.logLik).sum) M'.classes
      rw [show (M'.classes.map fun c => exp c.2.logLik / (M'.classes.map fun c => exp c.2.logLik).sum).sum = 1 by
        simp only [div_eq_mul_inv]
        rw [List.sum_map_mul_right, mul_inv_cancel₀ hpos.ne']] at this
      rw [← this]
      exact Finset.sum_congr rfl fun i _ => by simp [List.getD_eq_getElem?_getD]
    have hout : ∀ i (h1 : i < M'.models.length) (h2 : i < N'.models.length) k, RecSpec.outVal M'.classes i k = M'.models[i].2.outVals.getD k 0 ∧
        RecSpec.outVal N'.classes i k = N'.models[i].2.outVals.getD k 0 ∧ RecSpec.outVar M'.classes i k = M'.models[i].2.outCov.getD k 0 ∧
        RecSpec.outVar N'.classes i k = N'.models[i].2.outCov.getD k 0 := by
      intro i h1 h2 k
      simp [RecSpec.outVal, RecSpec.outVar, GmmModel.classes, Gmm.results, List.getElem?_eq_getElem h1, List.getElem?_eq_getElem h2]
    have hav : ∀ k < f.dim - f.di, M'.results.outVals.getD k 0 = ∑ i ∈ Finset.range M'.models.length, M'.results.smoothedNorm.getD i 0 * RecSpec.outVal M'.classes i k := fun k hk => by
      rw [oM.1, getD_map_range' _ _ _ hk]
    have hbv : ∀ k < f.dim - f.di, N'.results.outVals.getD k 0 = ∑ i ∈ Finset.range M'.models.length, M'.results.smoothedNorm.getD i 0 * RecSpec.outVal N'.classes i k := fun k hk => by
      rw [oN.1, getD_map_range' _ _ _ hk, hsame.smoothedNorm]
    have hac : ∀ k < outCells M.mode (f.dim - f.di), M'.results.outCov.getD k 0 = ∑ i ∈ Finset.range M'.models.length, M'.results.smoothedNorm.getD i 0 * RecSpec.outVar M'.classes i k := fun k hk => by
      rw [oM.2, getD_map_range' _ _ _ hk]
    have hbc : ∀ k < outCells M.mode (f.dim - f.di), N'.results.outCov.getD k 0 = ∑ i ∈ Finset.range M'.models.length, M'.results.smoothedNorm.getD i 0 * RecSpec.outVar N'.classes i k := fun k hk => by
      rw [oN.2, getD_map_range' _ _ _ hk, hsame.smoothedNorm]
    have lt : ∀ k : Fin f.dim, f.di ≤ k.val → k.val - f.di < f.dim - f.di := fun k hk => by have := k.isLt; omega
    have lt2 : ∀ a b : Nat, a < f.dim - f.di → b < f.dim - f.di → a * (f.dim - f.di) + b < (f.dim - f.di) * (f.dim - f.di) := fun a b ha hb => by nlinarith
    have hax : ∀ k : Fin f.dim, f.di ≤ k.val → f.di ≤ (A.axis k).val := fun k hk => by
      have := (hA hb) k
      omega
    refine ⟨⟨by simp [oM.1], by simp [oN.1], by simp [oM.2], by simp [oN.2]⟩, fun k hk => ?_, fun hm i j hi hj => ?_, fun hm k hk => ?_⟩
    · simp only
      rw [hav _ (lt _ (hax k hk)), hbv _ (lt k hk)]
      rw [Finset.mul_sum, ← mul_one (A.shift k), ← hw, Finset.mul_sum, ← Finset.sum_add_distrib]
      refine Finset.sum_congr rfl fun i hi => ?_
      have h1 := Finset.mem_range.1 hi
      have h2 : i < N'.models.length := by rw [hlen]; exact h1
      have := ((hcl i h1 h2).2.2.2 hb).vals k hk
      simp only at this
      rw [(hout i h1 h2 _).2.1, (hout i h1 h2 _).1, this]
      ring
    · simp only
      rw [hac _ (by rw [hm]; exact lt2 _ _ (lt _ (hax i hi)) (lt _ (hax j hj))), hbc _ (by rw [hm]; exact lt2 _ _ (lt i hi) (lt j hj)), Finset.mul_sum]
      refine Finset.sum_congr rfl fun a ha => ?_
      have h1 := Finset.mem_range.1 ha
      have h2 : a < N'.models.length := by rw [hlen]; exact h1
      have := ((hcl a h1 h2).2.2.2 hb).full hm i j hi hj
      simp only at this
      rw [(hout a h1 h2 _).2.2.2, (hout a h1 h2 _).2.2.1, this]
      ring
    · simp only
      rw [hac _ (by rw [hm]; exact lt _ (hax k hk)), hbc _ (by rw [hm]; exact lt k hk)]
      refine Finset.sum_congr rfl fun a ha => ?_
      have h1 := Finset.mem_range.1 ha
      have h2 : a < N'.models.length := by rw [hlen]; exact h1
      have := ((hcl a h1 h2).2.2.2 hb).diagonal hm k hk
      simp only at this
      rw [(hout a h1 h2 _).2.2.2, (hout a h1 h2 _).2.2.1, this]

/-! ### From the recordings on -/

/-- C113: the axes do not matter, from the recordings to the answers.  Two recording sessions: in the second one the takes of every class hold the same frames, in other axes (the columns in
    another order, some with the opposite sign, and another origin; with two modalities the columns of the input stay in the input).  Both models are trained with the same settings;
    the training of any class may be cancelled, at the same moments in both.  Then they have the same classes.  After `reset()`, on every stream, given to the second model in the new axes, all likelihoods and the likeliest class are the same; and the output predicted
    by the second model is the one predicted by the first, in the new axes.  (Another origin: only if, for every class, no component starts without frames and k-means leaves no center without frames, C98.) -/
theorem C113_axes_partial (f : Format) (hv : f.Valid) (A : NewAxes f.dim) (hA : f.bimodal = true → A.KeepsInput f.di) (i j : Nat) (v0 w0 : World ℝ String) (hv0 : v0.sets i = none) (hw0 : w0.sets j = none)
    (as bs : List (RecOp ℝ String)) (ha : Takes.Admissible f as []) (hb : Takes.Admissible f bs []) (hne : (Takes.run f as []).1 ≠ []) (hfill : Takes.Filled (Takes.run f as []).1)
    (hτ : A.CarriesTakes (Takes.run f as []).1 (Takes.run f bs []).1) (S : GmmSettings ℝ) (hS : S.Valid)
    (ho : (∀ k, A.shift k = 0) ∨ ∀ e ∈ (Takes.run f as []).1, (GmmModel.newClass S f.bimodal f.dim f.di e.2.1).Steady (Takes.data f (Takes.run f as []).1 e.2.1))
    (lowest pct : ℝ) (cancel : String → Nat → Bool) (M N : GmmModel ℝ) (hbM : M.bimodal = f.bimodal) (hbN : N.bimodal = f.bimodal)
    (hmM : f.bimodal = true → ∀ l, S.mode l = M.mode) (hmN : f.bimodal = true → ∀ l, S.mode l = N.mode) (he : N.est = M.est) :
    ∃ M' N', recordAndTrain S Dens.real Real.log Real.sqrt (Compare.exact lowest pct) cancel f i as v0 M = .ret () M' ∧
      recordAndTrain S Dens.real Real.log Real.sqrt (Compare.exact lowest pct) cancel f j bs w0 N = .ret () N' ∧
      SMap.keys N'.models = SMap.keys M'.models ∧
      ∀ (exp : ℝ → ℝ), (∀ x, 0 < exp x) → M'.models ≠ [] → ∀ xs : List (List ℝ), xs ≠ [] → (∀ x ∈ xs, x.length = if f.bimodal then f.di else f.dim) →
        ∃ M'' N'', (do GmmModel.reset; GmmModel.filterAll Dens.real Real.log exp xs) M' = .ret () M'' ∧
          (do GmmModel.reset; GmmModel.filterAll Dens.real Real.log exp (xs.map (A.observation f))) N' = .ret () N'' ∧ M''.results.SameLikelihoods N''.results ∧
          (f.bimodal = true → A.CarriesPrediction f.di M.mode (M''.results.outVals, M''.results.outCov) (N''.results.outVals, N''.results.outCov)) := by
  set τ := (Takes.run f as []).1 with hτ0
  set τ' := (Takes.run f bs []).1 with hτ1
  obtain ⟨w, t, s1, s2, s3⟩ := recordAndTrain_sim f hv i v0 hv0 as ha
  obtain ⟨w', t', s1', s2', s3'⟩ := recordAndTrain_sim f hv j w0 hw0 bs hb
  have hne' : τ' ≠ [] := by
    obtain ⟨e, h1⟩ := List.exists_mem_of_ne_nil _ hne
    obtain ⟨e', h2, -⟩ := (hτ.labels e.2.1).2 ⟨e, h1, rfl⟩
    exact List.ne_nil_of_mem h2
  have hmemf : ∀ (σ : Takes ℝ String) (l : String) (p : List (List ℝ)), p ∈ (σ.ofClass l).frames ↔ ∃ e ∈ σ, e.2.1 = l ∧ e.2.2.frames = p := by
    intro σ l p
    simp only [Takes.frames, Takes.ofClass, List.mem_map, List.mem_filter, decide_eq_true_eq, and_assoc]
  have hfill' : Takes.Filled τ' := by
    intro e h1
    obtain ⟨e0, h2, h3⟩ := (hτ.labels e.2.1).1 ⟨e, h1, rfl⟩
    obtain ⟨e1, h4, h5, h6⟩ := hfill e0 h2
    have h7 : e1.2.2.frames.map A.frame ∈ (τ'.ofClass e.2.1).frames := by
      rw [hτ.frames]
      exact List.mem_map.2 ⟨_, (hmemf τ e.2.1 _).2 ⟨e1, h4, h5.trans h3, rfl⟩, rfl⟩
    obtain ⟨e2, k1, k2, k3⟩ := (hmemf τ' _ _).1 h7
    exact ⟨e2, k1, k2, by rw [k3]; simpa using h6⟩
  obtain ⟨M', a1, a2, a3, a4, a5, a6, a7⟩ := C103_of_sim s1 s2 hv hne hfill S hS Dens.real Dens.real_sound Real.log lowest pct cancel M hbM hmM
  obtain ⟨N', b1, b2, b3, b4, b5, b6, b7⟩ := C103_of_sim s1' s2' hv hne' hfill' S hS Dens.real Dens.real_sound Real.log lowest pct cancel N hbN hmN
  have hdata : ∀ l, Takes.data f τ' l = A.data (Takes.data f τ l) := fun l => by
    simp only [Takes.data, NewAxes.data, hτ.frames]
  -- each class
  have hclass : ∀ l, (∃ e ∈ τ, e.2.1 = l) → (l ∈ SMap.keys M'.models ↔ l ∈ SMap.keys N'.models) ∧
      ∀ m n, (l, m) ∈ M'.models → (l, n) ∈ N'.models → NewAxes.Agree f A (S.mode l) m n := by
    intro l hl
    have hfr : (Takes.data f τ l).frames ≠ [] := by
      obtain ⟨e, he, rfl⟩ := hl
      obtain ⟨e', he', h1, h2⟩ := hfill e he
      intro h0
      simp only [Takes.data, KData.frames, Takes.frames, List.flatten_eq_nil_iff, List.mem_map] at h0
      exact h2 (h0 _ ⟨e', by simp [Takes.ofClass, he', h1], rfl⟩)
    obtain ⟨tr0, tr1, m0, n0, g1, g2, gs, g0⟩ := trainedAlone_moved f hv A hA S hS lowest pct l (Takes.data f τ l) rfl (s1.frame_length hv l) hfr (by
      obtain ⟨e, he, rfl⟩ := hl
      exact ho.imp id fun h => h e he) (cancel l)
    obtain ⟨tr, m1, p1, -, p2⟩ := a3.each l hl
    obtain ⟨tr', n1, q1, -, q2⟩ := b3.each l ((hτ.labels l).2 hl)
    rw [hdata] at q1
    have x1 := g1.symm.trans p1
    have x2 := g2.symm.trans q1
    injection x1 with x1 x1'
    injection x2 with x2 x2'
    subst x1 x1' x2 x2'
    constructor
    · rcases p2 with ⟨k1, m', k2, -⟩ | ⟨k1, k2⟩ <;> rcases q2 with ⟨r1, n', r2, -⟩ | ⟨r1, r2⟩
      · exact ⟨fun _ => List.mem_map.2 ⟨_, r2, rfl⟩, fun _ => List.mem_map.2 ⟨_, k2, rfl⟩⟩
      · rcases r2 with r2 | r2 <;> rw [← gs, r2.1] at k1 <;> cases k1
      · rcases k2 with k2 | k2 <;> rw [gs, k2.1] at r1 <;> cases r1
      · exact ⟨fun h => absurd h k1, fun h => absurd h r1⟩
    · intro m n km kn
      rcases p2 with ⟨k1, m', k2, k3⟩ | ⟨k1, -⟩
      · rcases q2 with ⟨r1, n', r2, r3⟩ | ⟨r1, -⟩
        · obtain rfl := GmmModel.one_class a2.sorted km k2
          obtain rfl := GmmModel.one_class b2.sorted kn r2
          obtain ⟨h1, hm'⟩ := a2.buf _ km
          obtain ⟨h2, hn'⟩ := b2.buf _ kn
          obtain ⟨c1, c2, u1, u2, f1, f2, f3, f4, f5, f6, -, -, g3⟩ := g0 (by rw [k1]; decide)
          exact g3.same hv k3 r3 c1 c2 (a2.cls _ km).1 (b2.cls _ kn).1 u1 u2 hm'.ok hn'.ok ⟨f1, f3, f5⟩ ⟨f2, f4, f6⟩
        · exact absurd (List.mem_map.2 ⟨_, kn, rfl⟩) r1
      · exact absurd (List.mem_map.2 ⟨_, km, rfl⟩) k1
  have hkeys : SMap.keys N'.models = SMap.keys M'.models := by
    have hs : ∀ P : GmmModel ℝ, SMap.Sorted P.models → (SMap.keys P.models).Pairwise (· < ·) := fun P hP => by unfold SMap.keys; rw [List.pairwise_map]; exact hP
    refine (hs _ b2.sorted).eq_of_mem_iff (hs _ a2.sorted) fun l => ⟨fun h => ?_, fun h => ?_⟩
    · exact (hclass l ((hτ.labels l).1 (b3.known l h))).1.2 h
    · exact (hclass l (a3.known l h)).1.1 h
  refine ⟨M', N', by rw [s3]; exact a1, by rw [s3']; exact b1, hkeys, fun exp hexp hm0 xs hxs hx => ?_⟩
  have hl : N'.models.length = M'.models.length := by simpa [SMap.keys] using congrArg List.length hkeys
  obtain ⟨M'', N'', k1, k2, k3, k4⟩ := models_agree hv A hA exp hexp M' N' a2 b2 hm0 a4 b4 (fun hb => by rw [a5, b5, ← hmM hb "", ← hmN hb ""]) (by rw [a6, b6, he])
    (fun lc hlc => ⟨(a7 lc hlc).1, (a7 lc hlc).2.1⟩) (fun lc hlc => ⟨(b7 lc hlc).1, (b7 lc hlc).2.1⟩) (by
      rw [List.forall₂_iff_get]
      refine ⟨hl.symm, fun n h1 h2 => ?_⟩
      have e1 : N'.models[n].1 = M'.models[n].1 := by
        have := congrArg (fun l => l[n]?) hkeys
        simpa [SMap.keys, List.getElem?_eq_getElem h1, List.getElem?_eq_getElem h2] using this
      refine ⟨e1, fun ys hys hy => ?_⟩
      have hmem := List.getElem_mem h1
      obtain ⟨ps, m', n', r1, r2, r3, r4, r5⟩ := (hclass M'.models[n].1 (a3.known _ (List.mem_map.2 ⟨_, hmem, rfl⟩))).2 M'.models[n].2 N'.models[n].2 hmem
        (by rw [← e1]; exact List.getElem_mem h2) ys hys hy
      refine ⟨ps, m', n', r1, r2, r3, r4, fun hb => ?_⟩
      rw [a5, ← hmM hb M'.models[n].1]
      exact r5 hb) xs hxs hx
  refine ⟨M'', N'', k1, k2, k3, fun hb => ?_⟩
  rw [← a5]
  exact k4 hb

/-! ### Takes recorded in other axes -/

/-- the takes in other axes -/
def NewAxes.takes {d : Nat} (A : NewAxes d) (xs : List (Int × String × List (List ℝ))) : List (Int × String × List (List ℝ)) := xs.map fun x => (x.1, x.2.1, x.2.2.map A.frame)

theorem NewAxes.takes_assign {d : Nat} (A : NewAxes d) (xs : List (Int × String × List (List ℝ))) : ∀ m : SMap Int (String × List (List ℝ)),
    (A.takes xs).foldl (fun m x => SMap.assign x.1 x.2 m) (m.map fun x => (x.1, x.2.1, x.2.2.map A.frame)) =
      (xs.foldl (fun m x => SMap.assign x.1 x.2 m) m).map fun x => (x.1, x.2.1, x.2.2.map A.frame) := by
  have hmap : ∀ (k : Int) (e : String × List (List ℝ)) (m : SMap Int (String × List (List ℝ))), SMap.assign k (e.1, e.2.map A.frame) (m.map fun x => (x.1, x.2.1, x.2.2.map A.frame)) =
      (SMap.assign k e m).map fun x => (x.1, x.2.1, x.2.2.map A.frame) := by
    intro k e m
    induction m with
    | nil => rfl
    | cons x m ih =>
      obtain ⟨k', v⟩ := x
      simp only [SMap.assign, List.map_cons]
      split_ifs
      · rfl
      · rfl
      · rw [List.map_cons, ← ih]
  induction xs with
  | nil => intro m; rfl
  | cons x xs ih =>
    intro m
    simp only [NewAxes.takes, List.map_cons, List.foldl_cons]
    rw [hmap x.1 x.2 m]
    exact ih _

/-- the takes recorded in the new axes are those recorded in the old ones, in the new axes -/
theorem NewAxes.recorded (f : Format) (A : NewAxes f.dim) (xs : List (Int × String × List (List ℝ))) (hf : ∀ x ∈ xs, ∀ y ∈ x.2.2, y.length = f.dim) :
    A.CarriesTakes (Takes.run f (manyTakes xs) []).1 (Takes.run f (manyTakes (A.takes xs)) []).1 := by
  have h1 := (C102_any_takes f xs hf).2
  have h2 := (C102_any_takes f (A.takes xs) (by
    intro x hx y hy
    obtain ⟨x0, -, rfl⟩ := List.mem_map.1 hx
    obtain ⟨y0, -, rfl⟩ := List.mem_map.1 hy
    exact A.frame_length _)).2
  rw [show ([] : SMap Int (String × List (List ℝ))) = ([] : SMap Int (String × List (List ℝ))).map fun x => (x.1, x.2.1, x.2.2.map A.frame) from rfl, A.takes_assign, ← h1] at h2
  have hlab : ∀ (σ : Takes ℝ String) (l : String), (∃ e ∈ σ, e.2.1 = l) ↔ ∃ e ∈ σ.map (fun e => (e.1, e.2.1, e.2.2.frames)), e.2.1 = l := by
    intro σ l
    simp
  refine ⟨fun l => ?_, fun l => ?_⟩
  · rw [hlab, hlab, h2]
    simp
  · rw [ofClass_frames, ofClass_frames, h2, List.filter_map, List.map_map, List.map_map, List.filter_map, List.map_map, List.filter_map, List.map_map]
    rfl

/-- C113 (one component per class): takes that are not empty, in any order, with any labels, recorded in the two axes; every class has one component.  Then the change of axes is arbitrary: the two
    models have the same classes, and give the same likelihoods, the same likeliest class and the same predictions (in the new axes) on every stream. -/
theorem C113_one_gaussian (f : Format) (hv : f.Valid) (A : NewAxes f.dim) (hA : f.bimodal = true → A.KeepsInput f.di) (xs : List (Int × String × List (List ℝ))) (hx0 : xs ≠ [])
    (hf : ∀ x ∈ xs, ∀ y ∈ x.2.2, y.length = f.dim) (hfull : ∀ x ∈ xs, x.2.2 ≠ []) (S : GmmSettings ℝ) (hS : S.Valid) (h1 : ∀ l, S.gaussians l = 1)
    (lowest pct : ℝ) (cancel : String → Nat → Bool) (M : GmmModel ℝ) (hbM : M.bimodal = f.bimodal) (hmM : f.bimodal = true → ∀ l, S.mode l = M.mode) :
    ∃ M' N', recordAndTrain S Dens.real Real.log Real.sqrt (Compare.exact lowest pct) cancel f 0 (manyTakes xs) emptyWorld M = .ret () M' ∧
      recordAndTrain S Dens.real Real.log Real.sqrt (Compare.exact lowest pct) cancel f 0 (manyTakes (A.takes xs)) emptyWorld M = .ret () N' ∧
      SMap.keys N'.models = SMap.keys M'.models ∧
      ∀ (exp : ℝ → ℝ), (∀ x, 0 < exp x) → M'.models ≠ [] → ∀ xs : List (List ℝ), xs ≠ [] → (∀ x ∈ xs, x.length = if f.bimodal then f.di else f.dim) →
        ∃ M'' N'', (do GmmModel.reset; GmmModel.filterAll Dens.real Real.log exp xs) M' = .ret () M'' ∧
          (do GmmModel.reset; GmmModel.filterAll Dens.real Real.log exp (xs.map (A.observation f))) N' = .ret () N'' ∧ M''.results.SameLikelihoods N''.results ∧
          (f.bimodal = true → A.CarriesPrediction f.di M.mode (M''.results.outVals, M''.results.outCov) (N''.results.outVals, N''.results.outCov)) := by
  obtain ⟨a1, a2⟩ := filled_of_takes f xs hf hfull
  have hall : ∀ e ∈ (Takes.run f (manyTakes xs) []).1, e.2.2.frames ≠ [] := by
    have key : ∀ (ys : List (Int × String × List (List ℝ))) (m : SMap Int (String × List (List ℝ))), (∀ x ∈ ys, x.2.2 ≠ []) → (∀ x ∈ m, x.2.2 ≠ []) →
        ∀ x ∈ ys.foldl (fun m x => SMap.assign x.1 x.2 m) m, x.2.2 ≠ [] := by
      intro ys
      induction ys with
      | nil => intro m _ h; exact h
      | cons y ys ih =>
        intro m hy hm
        refine ih _ (fun x hx => hy x (List.mem_cons_of_mem _ hx)) fun x hx => ?_
        rcases SMap.mem_assign hx with h | h
        · rw [h]; exact hy y List.mem_cons_self
        · exact hm x h
    intro e he
    exact key xs [] hfull (by simp) (e.1, e.2.1, e.2.2.frames) (by rw [← (C102_any_takes f xs hf).2]; exact List.mem_map.2 ⟨e, he, rfl⟩)
  have hne : (Takes.run f (manyTakes xs) []).1 ≠ [] := by
    intro h
    have := (C102_any_takes f xs hf).2
    rw [h] at this
    have hone : ∀ (k : Int) (v : String × List (List ℝ)) (m : SMap Int (String × List (List ℝ))), SMap.assign k v m ≠ [] := by
      intro k v m h
      cases m with
      | nil => simp [SMap.assign] at h
      | cons x m =>
        simp only [SMap.assign] at h
        split_ifs at h
    have key : ∀ (ys : List (Int × String × List (List ℝ))) (m : SMap Int (String × List (List ℝ))), m ≠ [] → ys.foldl (fun m x => SMap.assign x.1 x.2 m) m ≠ [] := by
      intro ys
      induction ys with
      | nil => intro m h; exact h
      | cons y ys ih => intro m _; exact ih _ (hone _ _ _)
    cases xs with
    | nil => exact hx0 rfl
    | cons x xs => exact key xs _ (hone x.1 x.2 []) this.symm
  have hb : Takes.Admissible f (manyTakes (A.takes xs)) [] := (C102_any_takes f (A.takes xs) (by
    intro x hx y hy
    obtain ⟨x0, -, rfl⟩ := List.mem_map.1 hx
    obtain ⟨y0, -, rfl⟩ := List.mem_map.1 hy
    exact A.frame_length _)).1
  refine C113_axes_partial f hv A hA 0 0 emptyWorld emptyWorld rfl rfl (manyTakes xs) _ a1 hb hne a2 (NewAxes.recorded f A xs hf) S hS (Or.inr fun e he => ?_) lowest pct cancel M M hbM hbM hmM hmM rfl
  refine Gmm.steady_one _ (h1 _) _ fun h0 => ?_
  have hmem : e.2.2.frames ∈ (((Takes.run f (manyTakes xs) []).1).ofClass e.2.1).frames := by
    simp only [Takes.frames, Takes.ofClass, List.mem_map, List.mem_filter, decide_eq_true_eq]
    exact ⟨e, ⟨he, rfl⟩, rfl⟩
  simp only [Takes.data] at h0
  cases hq : (((Takes.run f (manyTakes xs) []).1).ofClass e.2.1).frames with
  | nil => rw [hq] at hmem; simp at hmem
  | cons p ps =>
    rw [hq] at h0
    simp only [List.headD_cons] at h0
    have : p ∈ (((Takes.run f (manyTakes xs) []).1).ofClass e.2.1).frames := by rw [hq]; simp
    simp only [Takes.frames, Takes.ofClass, List.mem_map, List.mem_filter, decide_eq_true_eq] at this
    obtain ⟨e', ⟨q1, -⟩, rfl⟩ := this
    exact hall e' q1 h0

/-- two columns exchanged, the second one with the opposite sign, and another origin -/
def mirrored : NewAxes 2 where
  axis := Equiv.swap 0 1
  sign k := if k = 1 then -1 else 1
  shift k := if k = 0 then 7 else -3
  unit k := by
    by_cases h : k = 1
    · exact Or.inr (if_pos h)
    · exact Or.inl (if_neg h)

/-- Non-vacuity of C113: two classes, the first with two takes, in the axes of `mirrored`. -/
example : ∃ (f : Format) (A : NewAxes f.dim) (xs : List (Int × String × List (List ℝ))) (S : GmmSettings ℝ) (M : GmmModel ℝ), f.Valid ∧ (f.bimodal = true → A.KeepsInput f.di) ∧ xs.length = 3 ∧
    (∀ x ∈ xs, ∀ y ∈ x.2.2, y.length = f.dim) ∧ (∀ x ∈ xs, x.2.2 ≠ []) ∧ S.Valid ∧ (∀ l, S.gaussians l = 1) ∧ M.bimodal = f.bimodal ∧ (f.bimodal = true → ∀ l, S.mode l = M.mode) ∧
    A.takes xs = [(1, "a", [[7, -3], [8, -3]]), (2, "b", [[12, -8]]), (4, "a", [[10, -5]])] := by
  refine ⟨⟨false, 2, 0⟩, mirrored, [(1, "a", [[0, 0], [0, 1]]), (2, "b", [[5, 5]]), (4, "a", [[2, 3]])], ⟨3, ⟨5, 10⟩, fun _ => 1, fun _ => 1 / 100, fun _ => 1 / 1000, fun _ => .full⟩,
    ⟨[], [], false, 0, .full, .likeliest, false, ⟨[], [], [], [], [], "", [], []⟩⟩, by simp [Format.Valid], fun h => (by cases h), rfl, by simp, by simp,
    ⟨by norm_num, by norm_num, fun _ => le_refl _, fun _ => by norm_num⟩, fun _ => rfl, rfl, fun h => (by cases h), ?_⟩
  have hfr : ∀ x : List ℝ, mirrored.frame x = [x.getD 1 0 + 7, -x.getD 0 0 + -3] := fun x => by
    have s0 : mirrored.axis 0 = 1 := Equiv.swap_apply_left _ _
    have s1 : mirrored.axis 1 = 0 := Equiv.swap_apply_right _ _
    have g0 : mirrored.sign 0 = 1 := by show (if (0 : Fin 2) = 1 then (-1 : ℝ) else 1) = 1; rw [if_neg (by decide)]
    have g1 : mirrored.sign 1 = -1 := by show (if (1 : Fin 2) = 1 then (-1 : ℝ) else 1) = -1; rw [if_pos rfl]
    have t0 : mirrored.shift 0 = 7 := by show (if (0 : Fin 2) = 0 then (7 : ℝ) else -3) = 7; rw [if_pos rfl]
    have t1 : mirrored.shift 1 = -3 := by show (if (1 : Fin 2) = 0 then (7 : ℝ) else -3) = -3; rw [if_neg (by decide)]
    simp [NewAxes.frame, List.ofFn_succ, s0, s1, g0, g1, t0, t1]
  simp only [NewAxes.takes, List.map_cons, List.map_nil, hfr]
  norm_num

end Xmm
