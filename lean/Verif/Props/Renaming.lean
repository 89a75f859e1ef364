import Verif.Spec.Renaming
import Verif.Props.GmmTrain
import Mathlib.Data.List.Perm.Basic
set_option linter.unusedSectionVars false
/- C112: the names of the classes do not matter. -/
namespace Xmm
open TS PhraseSpec

/-! ### Sessions with other names -/

/-- the takes with other labels -/
def TS.Takes.rename {K : Type} (ρ : String → String) (τ : Takes K String) : Takes K String := τ.map fun e => (e.1, ρ e.2.1, e.2.2)

theorem rename_assign {K : Type} (ρ : String → String) (k : Int) (l : String) (s : PhraseSpec.S K) (τ : Takes K String) :
    Takes.rename ρ (SMap.assign k (l, s) τ) = SMap.assign k (ρ l, s) (Takes.rename ρ τ) := by
  induction τ with
  | nil => rfl
  | cons e τ ih =>
    unfold Takes.rename at *
    simp only [SMap.assign, List.map_cons]
    split
    · rfl
    · split
      · rfl
      · rw [List.map_cons, ih]

theorem rename_erase {K : Type} (ρ : String → String) (k : Int) (τ : Takes K String) :
    Takes.rename ρ (SMap.erase k τ) = SMap.erase k (Takes.rename ρ τ) := by
  induction τ with
  | nil => rfl
  | cons e τ ih =>
    unfold Takes.rename at *
    simp only [SMap.erase, List.map_cons]
    split
    · rfl
    · rw [List.map_cons, ih]

theorem rename_find {K : Type} (ρ : String → String) (k : Int) (τ : Takes K String) :
    SMap.find? k (Takes.rename ρ τ) = (SMap.find? k τ).map fun e => (ρ e.1, e.2) := by
  induction τ with
  | nil => rfl
  | cons e τ ih =>
    unfold Takes.rename at *
    simp only [SMap.find?, List.map_cons]
    split
    · rfl
    · exact ih

theorem rename_change {K : Type} (ρ : String → String) (k : Int) (g h : String × PhraseSpec.S K → String × PhraseSpec.S K)
    (hg : ∀ e, h (ρ e.1, e.2) = (ρ (g e).1, (g e).2)) (τ : Takes K String) :
    Takes.rename ρ (τ.change k g) = (Takes.rename ρ τ).change k h := by
  simp only [Takes.rename, Takes.change, List.map_map]
  refine List.map_congr_left fun e _ => ?_
  simp only [Function.comp]
  split
  · rw [hg]
  · rfl

theorem rename_filter {K : Type} (ρ : String → String) (p q : String → Bool) (h : ∀ l, q (ρ l) = p l) (τ : Takes K String) :
    Takes.rename ρ (τ.filter fun e => p e.2.1) = (Takes.rename ρ τ).filter fun e => q e.2.1 := by
  simp only [Takes.rename, List.filter_map, Function.comp_def, h]

theorem rename_step {K : Type} (f : Format) (ρ : String → String) (hρ : Function.Injective ρ) (op : RecOp K String) (τ : Takes K String) :
    Takes.step f (Takes.rename ρ τ) (op.rename ρ) = (Takes.rename ρ (Takes.step f τ op).1, (Takes.step f τ op).2) := by
  cases op with
  | add k l => simp only [Takes.step, RecOp.rename, rename_assign]
  | call k op =>
    simp only [Takes.step, RecOp.rename]
    rw [rename_change ρ k (fun e => (e.1, (e.2.step op).1)) (fun e => (e.1, (e.2.step op).1)) (fun e => rfl), rename_find]
    cases SMap.find? k τ <;> rfl
  | relabel k l =>
    simp only [Takes.step, RecOp.rename]
    rw [rename_change ρ k (fun e => (l, e.2)) (fun e => (ρ l, e.2)) (fun e => rfl)]
  | remove k => simp only [Takes.step, RecOp.rename, rename_erase]
  | removeClass l =>
    simp only [Takes.step, RecOp.rename]
    rw [rename_filter ρ (fun l' => decide (l' ≠ l)) (fun l' => decide (l' ≠ ρ l)) (fun l' => by simp [hρ.eq_iff])]
  | clear => rfl

theorem rename_keys {K : Type} (ρ : String → String) (τ : Takes K String) : SMap.keys (Takes.rename ρ τ) = SMap.keys τ := by
  simp [SMap.keys, Takes.rename, Function.comp_def]

theorem rename_run {K : Type} (f : Format) (ρ : String → String) (hρ : Function.Injective ρ) (ops : List (RecOp K String)) : ∀ τ : Takes K String,
    Takes.run f (ops.map (RecOp.rename ρ)) (Takes.rename ρ τ) = (Takes.rename ρ (Takes.run f ops τ).1, (Takes.run f ops τ).2) ∧
    (Takes.Admissible f ops τ → Takes.Admissible f (ops.map (RecOp.rename ρ)) (Takes.rename ρ τ)) := by
  induction ops with
  | nil => intro τ; exact ⟨rfl, fun _ => trivial⟩
  | cons op ops ih =>
    intro τ
    simp only [Takes.run, Takes.Admissible, List.map_cons, rename_step f ρ hρ]
    refine ⟨by rw [(ih _).1], fun h => ⟨?_, (ih _).2 h.2⟩⟩
    have hf := h.1
    cases op <;> simp only [Takes.Fair, RecOp.rename, rename_keys] at hf ⊢ <;> exact hf

theorem rename_ofClass {K : Type} (ρ : String → String) (hρ : Function.Injective ρ) (τ : Takes K String) (l : String) :
    ((Takes.rename ρ τ).ofClass (ρ l)).frames = (τ.ofClass l).frames := by
  unfold Takes.ofClass
  rw [← rename_filter ρ (fun l' => decide (l' = l)) (fun l' => decide (l' = ρ l)) (fun l' => by simp [hρ.eq_iff])]
  simp [Takes.frames, Takes.rename, Function.comp_def]

/-! ### Recognition -/

namespace GmmModel

/-- `reset()` and a stream, class by class -/
theorem reset_filterAll (D : Dens ℝ) (hD : D.Sound) (log exp : ℝ → ℝ) (hexp : ∀ x, 0 < exp x) (M : GmmModel ℝ) (hu : M.Usable) (hne : M.models ≠ [])
    (xs : List (List ℝ)) (hxs : xs ≠ []) (hx : ∀ x ∈ xs, ∀ lc ∈ M.models, lc.2.Fits x) :
    ∃ M', (do reset; filterAll D log exp xs) M = .ret () M' ∧ M'.Usable ∧ M' = { M with models := M'.models, results := M'.results } ∧
      List.Forall₂ (fun a b : String × Gmm ℝ => b.1 = a.1 ∧ ∃ ps, (do Gmm.reset; Gmm.filterAll D log xs) a.2 = .ret ps b.2) M.models M'.models ∧
      M'.results.Summary exp M'.classes ∧ (M.bimodal = true → M'.OutputsOf) := by
  obtain ⟨M1, a1, a2, a3, a4⟩ := C39_reset M hu.nulls hu.idle hu.sorted (fun lc hlc => by
    obtain ⟨h1, h2, h3⟩ := hu.cls lc hlc
    obtain ⟨hist, h4⟩ := hu.buf lc hlc
    exact ⟨h1, h2, h3, h4.ok⟩) hu.mode
  have hM1ne : M1.models ≠ [] := by intro h; rw [h] at a3; exact hne (List.forall₂_nil_right_iff.1 a3)
  obtain ⟨M', c1, c2, c3, c4, c5⟩ := filterAll_ret D hD log exp hexp xs M1 a2 hM1ne (fun x hx' lc hlc => by
    rw [List.forall₂_iff_get] at a3
    obtain ⟨i, hi, rfl⟩ := List.getElem_of_mem hlc
    have hi' : i < M.models.length := by rw [a3.1]; exact hi
    exact fits_same (a3.2 i hi' hi).2.2.1 x (hx x hx' _ (List.getElem_mem hi')))
  have hb1 : M1.bimodal = M.bimodal := by rw [a4]
  refine ⟨M', by rw [bind_of_ret a1]; exact c1, c2, by rw [c4, a4], ?_, (c5 hxs).1, fun hb => (c5 hxs).2 (hb1.trans hb)⟩
  exact forall₂_comp (by
      rintro a b c ⟨e1, e2, _⟩ ⟨e3, _, ps, e4⟩
      exact ⟨e3.trans e1, ps, by rw [bind_of_ret e2]; exact e4⟩) a3 c3

theorem mem_left {α β : Type} {R : α → β → Prop} {l : List α} {l' : List β} (h : List.Forall₂ R l l') : (∀ a ∈ l, ∃ b ∈ l', R a b) ∧ ∀ b ∈ l', ∃ a ∈ l, R a b := by
  rw [List.forall₂_iff_get] at h
  constructor
  · intro a ha
    obtain ⟨i, hi, rfl⟩ := List.getElem_of_mem ha
    exact ⟨_, List.getElem_mem (by rw [← h.1]; exact hi), h.2 i hi (by rw [← h.1]; exact hi)⟩
  · intro b hb
    obtain ⟨i, hi, rfl⟩ := List.getElem_of_mem hb
    exact ⟨_, List.getElem_mem (by rw [h.1]; exact hi), h.2 i (by rw [h.1]; exact hi) hi⟩

/-- the reports in terms of the classes -/
theorem report_eq {exp : ℝ → ℝ} {M : GmmModel ℝ} (h : M.results.Summary exp M.classes) : M.report = M.classes.map fun c =>
    ⟨c.1, c.2.instant, c.2.instant / (M.classes.map fun c => c.2.instant).sum, c.2.logLik, exp c.2.logLik / (M.classes.map fun c => exp c.2.logLik).sum⟩ := by
  have hlen : M.models.length = M.classes.length := by simp [classes]
  have hk : SMap.keys M.models = M.classes.map Prod.fst := by simp [classes, SMap.keys, Function.comp_def]
  unfold report
  rw [h.inst, h.instNorm, h.smoothedLog, h.smoothedNorm, hk, hlen]
  generalize (M.classes.map fun c => c.2.instant).sum = s
  generalize (M.classes.map fun c => exp c.2.logLik).sum = s'
  refine List.ext_getElem (by simp) fun i h1 h2 => ?_
  have hi : i < M.classes.length := by simpa using h2
  simp [List.getD_eq_getElem?_getD, List.getElem?_eq_getElem hi]

theorem rangeSum {α : Type} (F : α → ℝ) (l : List α) : ∑ i ∈ Finset.range l.length, (l[i]?.map F).getD 0 = (l.map F).sum := by
  induction l with
  | nil => simp
  | cons a l ih => rw [List.length_cons, Finset.sum_range_succ', List.map_cons, List.sum_cons, ← ih]; simp [add_comm]

theorem mixed {exp : ℝ → ℝ} {M : GmmModel ℝ} (h : M.results.Summary exp M.classes) (g : ClassRes ℝ → ℝ) :
    ∑ i ∈ Finset.range M.models.length, M.results.smoothedNorm.getD i 0 * (M.classes[i]?.map fun c => g c.2).getD 0 =
      (M.classes.map fun c => exp c.2.logLik / (M.classes.map fun c => exp c.2.logLik).sum * g c.2).sum := by
  have hlen : M.models.length = M.classes.length := by simp [classes]
  rw [h.smoothedNorm, hlen]
  generalize (M.classes.map fun c => exp c.2.logLik).sum = s'
  rw [← rangeSum]
  refine Finset.sum_congr rfl fun i hi => ?_
  have hi' := Finset.mem_range.1 hi
  simp [List.getD_eq_getElem?_getD, List.getElem?_eq_getElem hi']

/-- C112 (recognition): two usable models that have the same classes under other names.  After `reset()`, on every stream, the reports of the classes are the same, up to
    their names and their order; the likeliest class is the same one unless there is a tie; the mixed output is the same, and that of the likeliest class is the same unless there
    is a tie. -/
theorem C112_recognition (ρ : String → String) (hρ : Function.Injective ρ) (D : Dens ℝ) (hD : D.Sound) (log exp : ℝ → ℝ) (hexp : ∀ x, 0 < exp x) (M N : GmmModel ℝ)
    (hM : M.Usable) (hN : N.Usable) (hne : M.models ≠ []) (hr : RenamedAs ρ M N) (xs : List (List ℝ)) (hxs : xs ≠ []) (hx : ∀ x ∈ xs, ∀ lc ∈ M.models, lc.2.Fits x) :
    ∃ M' N', (do reset; filterAll D log exp xs) M = .ret () M' ∧ (do reset; filterAll D log exp xs) N = .ret () N' ∧
      N'.report.Perm (M'.report.map (ClassReport.rename ρ)) ∧ (NoTie M'.report → N'.results.likeliest = ρ M'.results.likeliest) ∧
      (M.bimodal = true → M.est = .mixture ∨ NoTie M'.report → N'.results.outVals = M'.results.outVals ∧ N'.results.outCov = M'.results.outCov) := by
  have huniq : ∀ {A : GmmModel ℝ}, A.Usable → ∀ {l : String} {u v : Gmm ℝ}, (l, u) ∈ A.models → (l, v) ∈ A.models → u = v := fun hA _ _ _ h1 h2 =>
    find?_unique hA.sorted h1 h2
  have hneN : N.models ≠ [] := by
    obtain ⟨lc, hlc⟩ := List.exists_mem_of_ne_nil _ hne
    obtain ⟨m, hm, -⟩ := hr.fwd lc hlc
    exact List.ne_nil_of_mem hm
  have hback : ∀ lc ∈ N.models, ∃ l m, (l, m) ∈ M.models ∧ ρ l = lc.1 ∧ Gmm.SameModel m lc.2 := by
    rintro ⟨k, n⟩ hlc
    obtain ⟨l, m, h1, rfl⟩ := hr.bwd _ hlc
    obtain ⟨n', h2, h3⟩ := hr.fwd _ h1
    obtain rfl := huniq hN hlc h2
    exact ⟨l, m, h1, rfl, h3⟩
  have hxN : ∀ x ∈ xs, ∀ lc ∈ N.models, lc.2.Fits x := by
    intro x hx' lc hlc
    obtain ⟨l, m, h1, -, h2⟩ := hback lc hlc
    exact fits_same h2 x (hx x hx' _ h1)
  obtain ⟨M', a1, a2, a3, a4, a5, a6⟩ := reset_filterAll D hD log exp hexp M hM hne xs hxs hx
  obtain ⟨N', b1, b2, b3, b4, b5, b6⟩ := reset_filterAll D hD log exp hexp N hN hneN xs hxs hxN
  -- one class and its counterpart
  have hpair : ∀ l m n, (l, m) ∈ M.models → (ρ l, n) ∈ N.models → Gmm.SameModel m n → ∃ m' n', (l, m') ∈ M'.models ∧ (ρ l, n') ∈ N'.models ∧
      n'.instant = m'.instant ∧ n'.logLik = m'.logLik ∧ (M.bimodal = true → n'.results = m'.results) := by
    intro l m n h1 h2 h3
    obtain ⟨⟨_, m'⟩, k1, rfl, p, k2⟩ := (mem_left a4).1 _ h1
    obtain ⟨⟨_, n'⟩, k3, rfl, q, k4⟩ := (mem_left b4).1 _ h2
    obtain ⟨f1, f2, _⟩ := hM.cls _ h1
    obtain ⟨hist, f3⟩ := hM.buf _ h1
    obtain ⟨f4, _⟩ := hN.cls _ h2
    obtain ⟨hist', f5⟩ := hN.buf _ h2
    obtain ⟨ps, m1, m2, g1, g2, g3, g4, _, g5⟩ := Gmm.C51_filter_forgets D hD log m n h3 f1 f4 f3.ok f5.ok xs hxs (fun x hx' => hx x hx' _ h1)
    simp only at k2 k4
    rw [k2] at g1
    rw [k4] at g2
    injection g1 with _ g1
    injection g2 with _ g2
    exact ⟨m', n', k1, k3, by rw [g1, g2, g3], by rw [g1, g2, g4], fun hb => by rw [g1, g2, g5 (f2.trans hb)]⟩
  have hto : ∀ l m', (l, m') ∈ M'.models → ∃ n', (ρ l, n') ∈ N'.models ∧ n'.instant = m'.instant ∧ n'.logLik = m'.logLik ∧ (M.bimodal = true → n'.results = m'.results) := by
    intro l m' h
    obtain ⟨⟨_, m⟩, k1, rfl, -⟩ := (mem_left a4).2 _ h
    obtain ⟨n, k2, k3⟩ := hr.fwd _ k1
    obtain ⟨m'', n', e1, e2, e3⟩ := hpair _ _ _ k1 k2 k3
    obtain rfl := huniq a2 h e1
    exact ⟨n', e2, e3⟩
  have hof : ∀ k n', (k, n') ∈ N'.models → ∃ l m', k = ρ l ∧ (l, m') ∈ M'.models ∧ n'.instant = m'.instant ∧ n'.logLik = m'.logLik ∧ (M.bimodal = true → n'.results = m'.results) := by
    intro k n' h
    obtain ⟨⟨_, n⟩, k1, rfl, -⟩ := (mem_left b4).2 _ h
    obtain ⟨l, m, k2, k3, k4⟩ := hback _ k1
    simp only at k3 k4 h
    obtain ⟨m', n'', e1, e2, e3⟩ := hpair l m n k2 (by rw [k3]; exact k1) k4
    rw [k3] at e2
    obtain rfl := huniq b2 h e2
    exact ⟨l, m', k3.symm, e1, e3⟩
  -- the classes, up to the order
  have hnodup : ∀ {A : GmmModel ℝ}, A.Usable → (A.classes.map Prod.fst).Nodup := by
    intro A hA
    have := SMap.keys_nodup hA.sorted
    simpa [classes, SMap.keys, Function.comp_def] using this
  have hgen : ∀ (γ : Type) (core : ClassRes ℝ → γ), (∀ m' n' : Gmm ℝ, n'.instant = m'.instant → n'.logLik = m'.logLik → (M.bimodal = true → n'.results = m'.results) →
      core n'.results = core m'.results) →
      (N'.classes.map fun c => (c.1, core c.2)).Perm (M'.classes.map fun c => (ρ c.1, core c.2)) := by
    intro γ core hcore
    refine (List.perm_ext_iff_of_nodup ?_ ?_).2 fun x => ?_
    · exact List.Nodup.of_map Prod.fst (by simpa [Function.comp_def] using hnodup b2)
    · refine List.Nodup.of_map Prod.fst ?_
      have := (hnodup a2).map hρ
      simpa [Function.comp_def] using this
    · simp only [classes, List.map_map, List.mem_map, Function.comp]
      constructor
      · rintro ⟨⟨k, n'⟩, h1, rfl⟩
        obtain ⟨l, m', rfl, e1, e2, e3, e4⟩ := hof k n' h1
        exact ⟨(l, m'), e1, by rw [hcore m' n' e2 e3 e4]⟩
      · rintro ⟨⟨l, m'⟩, h1, rfl⟩
        obtain ⟨n', e1, e2, e3, e4⟩ := hto l m' h1
        exact ⟨(ρ l, n'), e1, by rw [hcore m' n' e2 e3 e4]⟩
  have hcore := hgen _ (fun c : ClassRes ℝ => (c.instant, c.logLik)) fun m' n' h1 h2 _ => by simp [Gmm.results, h1, h2]
  have hs1 : (N'.classes.map fun c => c.2.instant).sum = (M'.classes.map fun c => c.2.instant).sum := by
    have := (hcore.map fun e => e.2.1).sum_eq
    simpa [Function.comp_def] using this
  have hs2 : (N'.classes.map fun c => exp c.2.logLik).sum = (M'.classes.map fun c => exp c.2.logLik).sum := by
    have := (hcore.map fun e => exp e.2.2).sum_eq
    simpa [Function.comp_def] using this
  have hrep : N'.report.Perm (M'.report.map (ClassReport.rename ρ)) := by
    rw [report_eq a5, report_eq b5, hs1, hs2]
    have := hcore.map fun e : String × ℝ × ℝ => (⟨e.1, e.2.1, e.2.1 / (M'.classes.map fun c => c.2.instant).sum, e.2.2,
      exp e.2.2 / (M'.classes.map fun c => exp c.2.logLik).sum⟩ : ClassReport)
    simpa [Function.comp_def, ClassReport.rename] using this
  -- the likeliest class
  have hlik : ∀ {A : GmmModel ℝ}, A.results.Summary exp A.classes → A.models ≠ [] → ∃ e ∈ A.report, e.label = A.results.likeliest ∧ ∀ e' ∈ A.report, e'.smoothedLog ≤ e.smoothedLog := by
    intro A hA hA'
    obtain ⟨before, c, after, e1, e2, e3, e4⟩ := hA.likeliest (by simpa [classes] using hA')
    rw [report_eq hA]
    refine ⟨_, List.mem_map.2 ⟨c, by rw [e1]; simp, rfl⟩, e2.symm, fun e' he' => ?_⟩
    obtain ⟨c', hc', rfl⟩ := List.mem_map.1 he'
    simp only
    rw [e1] at hc'
    simp only [List.mem_append, List.mem_cons] at hc'
    rcases hc' with h | rfl | h
    · exact (e3 _ h).le
    · exact le_rfl
    · exact e4 _ h
  have hne' : M'.models ≠ [] := by intro h; rw [h] at a4; exact hne (List.forall₂_nil_right_iff.1 a4)
  have hneN' : N'.models ≠ [] := by intro h; rw [h] at b4; exact hneN (List.forall₂_nil_right_iff.1 b4)
  have hbest : NoTie M'.report → N'.results.likeliest = ρ M'.results.likeliest := by
    rintro ⟨e, he, hmax⟩
    obtain ⟨u, u1, u2, u3⟩ := hlik a5 hne'
    obtain ⟨v, v1, v2, v3⟩ := hlik b5 hneN'
    have hu : u = e := by
      rcases hmax u u1 with h | h
      · exact h
      · exact absurd (u3 e he) (not_le.2 h)
    obtain ⟨v', w1, rfl⟩ := List.mem_map.1 ((hrep.mem_iff).1 v1)
    have hv : v' = e := by
      rcases hmax v' w1 with h | h
      · exact h
      · have := v3 (ClassReport.rename ρ e) (hrep.mem_iff.2 (List.mem_map.2 ⟨e, he, rfl⟩))
        exact absurd this (not_le.2 h)
    rw [← v2, ← u2, hu, hv]; rfl
  refine ⟨M', N', a1, b1, hrep, hbest, fun hb hest => ?_⟩
  have oM := a6 hb
  have oN := b6 (hr.bimodal.trans hb)
  have d1 : N'.dout = M'.dout := by
    rw [a3, b3]
    obtain ⟨lc, hlc⟩ := List.exists_mem_of_ne_nil _ hne
    obtain ⟨n, hn, hs⟩ := hr.fwd lc hlc
    show N.dout = M.dout
    rw [← (hN.cls _ hn).2.2, ← (hM.cls _ hlc).2.2]
    unfold Gmm.SameModel at hs
    rw [hs]
  have d2 : N'.mode = M'.mode := by rw [a3, b3]; exact hr.mode
  have d3 : N'.est = M'.est := by rw [a3, b3]; exact hr.est
  have d4 : M'.est = M.est := by rw [a3]
  have hall := hgen _ id fun m' n' _ _ h => h hb
  cases he : M.est with
  | likeliest =>
    have ht : NoTie M'.report := by
      rcases hest with h | h
      · rw [he] at h; cases h
      · exact h
    unfold OutputsOf at oM oN
    rw [d3, d4, he] at oN
    rw [d4, he] at oM
    simp only at oM oN
    obtain ⟨c, c1, c2, c3⟩ := oM
    obtain ⟨c', c1', c2', c3'⟩ := oN
    rw [hbest ht] at c1'
    obtain ⟨n', e1, -, -, e2⟩ := hto _ _ c1
    obtain rfl := huniq b2 c1' e1
    have e3 := e2 hb
    rw [c2, c3, c2', c3']
    simp only [Gmm.results, ClassRes.mk.injEq] at e3
    exact ⟨e3.2.2.1, e3.2.2.2⟩
  | mixture =>
    unfold OutputsOf at oM oN
    rw [d3, d4, he, d1, d2] at oN
    rw [d4, he] at oM
    simp only at oM oN
    have hmix : ∀ g : ClassRes ℝ → ℝ, (N'.classes.map fun c => exp c.2.logLik / (N'.classes.map fun c => exp c.2.logLik).sum * g c.2).sum =
        (M'.classes.map fun c => exp c.2.logLik / (M'.classes.map fun c => exp c.2.logLik).sum * g c.2).sum := by
      intro g
      rw [hs2]
      have := (hall.map fun e => exp e.2.logLik / (M'.classes.map fun c => exp c.2.logLik).sum * g e.2).sum_eq
      simpa [Function.comp_def] using this
    rw [oM.1, oM.2, oN.1, oN.2]
    constructor
    · refine List.map_congr_left fun k _ => ?_
      have h1 := mixed b5 fun c => c.outVals.getD k 0
      have h2 := mixed a5 fun c => c.outVals.getD k 0
      unfold RecSpec.outVal
      rw [h1, h2, hmix fun c => c.outVals.getD k 0]
    · refine List.map_congr_left fun k _ => ?_
      have h1 := mixed b5 fun c => c.outCov.getD k 0
      have h2 := mixed a5 fun c => c.outCov.getD k 0
      unfold RecSpec.outVar
      rw [h1, h2, hmix fun c => c.outCov.getD k 0]

end GmmModel

/-! ### From the recordings on -/

/-- C112: the names of the classes do not matter.  The same recording session with other, different names: training with the settings that go with the names gives the same
    classes under the other names; on every stream, after `reset()`, each class gets the same report; the likeliest class is the same one and the output is the same, ties
    aside. -/
theorem C112_names (ρ : String → String) (hρ : Function.Injective ρ) (f : Format) (hv : f.Valid) (i j : Nat) (v0 w0 : World ℝ String) (hv0 : v0.sets i = none)
    (hw0 : w0.sets j = none) (ops : List (RecOp ℝ String)) (ha : Takes.Admissible f ops []) (hne : (Takes.run f ops []).1 ≠ []) (hfill : Takes.Filled (Takes.run f ops []).1)
    (S T : GmmSettings ℝ) (hS : S.Valid) (hT : T.Valid) (hST : S.Renamed ρ T) (D : Dens ℝ) (hD : D.Sound) (log : ℝ → ℝ) (lowest pct : ℝ)
    (cancel cancel' : String → Nat → Bool) (hc : ∀ l, cancel' (ρ l) = cancel l) (M N : GmmModel ℝ) (hbM : M.bimodal = f.bimodal) (hbN : N.bimodal = f.bimodal)
    (hmM : f.bimodal = true → ∀ l, S.mode l = M.mode) (hmN : f.bimodal = true → ∀ l, T.mode l = N.mode) (hm : N.mode = M.mode) (he : N.est = M.est) :
    ∃ M' N', recordAndTrain S D log Real.sqrt (Compare.exact lowest pct) cancel f i ops v0 M = .ret () M' ∧
      recordAndTrain T D log Real.sqrt (Compare.exact lowest pct) cancel' f j (ops.map (RecOp.rename ρ)) w0 N = .ret () N' ∧
      GmmModel.RenamedAs ρ M' N' ∧
      ∀ (exp : ℝ → ℝ), (∀ x, 0 < exp x) → M'.models ≠ [] → ∀ xs : List (List ℝ), xs ≠ [] → (∀ x ∈ xs, f.Sample x) →
        ∃ M'' N'', (do GmmModel.reset; GmmModel.filterAll D log exp xs) M' = .ret () M'' ∧ (do GmmModel.reset; GmmModel.filterAll D log exp xs) N' = .ret () N'' ∧
          N''.report.Perm (M''.report.map (ClassReport.rename ρ)) ∧ (NoTie M''.report → N''.results.likeliest = ρ M''.results.likeliest) ∧
          (f.bimodal = true → M.est = .mixture ∨ NoTie M''.report → N''.results.outVals = M''.results.outVals ∧ N''.results.outCov = M''.results.outCov) := by
  obtain ⟨r1, r2⟩ := rename_run f ρ hρ ops []
  have r3 : (Takes.run f (ops.map (RecOp.rename ρ)) []).1 = Takes.rename ρ (Takes.run f ops []).1 := congrArg Prod.fst r1
  have hb : Takes.Admissible f (ops.map (RecOp.rename ρ)) [] := r2 ha
  set τ := (Takes.run f ops []).1 with hτ
  have hmem : ∀ e, e ∈ Takes.rename ρ τ ↔ ∃ e' ∈ τ, (e'.1, ρ e'.2.1, e'.2.2) = e := fun e => List.mem_map
  obtain ⟨w, t, s1, s2, s3⟩ := recordAndTrain_sim f hv i v0 hv0 ops ha
  obtain ⟨w', t', s1', s2', s3'⟩ := recordAndTrain_sim f hv j w0 hw0 _ hb
  rw [r3] at s1'
  obtain ⟨M', a1, a2, a3, a4, a5, a6, a7⟩ := C103_of_sim s1 s2 hv hne hfill S hS D hD log lowest pct cancel M hbM hmM
  obtain ⟨N', b1, b2, b3, b4, b5, b6, b7⟩ := C103_of_sim s1' s2' hv (by simpa [Takes.rename] using hne) (by
      intro e he
      obtain ⟨e0, h0, rfl⟩ := (hmem e).1 he
      obtain ⟨e1, h1, h2, h3⟩ := hfill e0 h0
      exact ⟨_, (hmem _).2 ⟨e1, h1, rfl⟩, by simp [h2], h3⟩) T hT D hD log lowest pct cancel' N hbN hmN
  -- each class
  have hal : ∀ l, trainedAlone T D log (Compare.exact lowest pct) (cancel' (ρ l)) f (ρ l) (Takes.data f (Takes.rename ρ τ) (ρ l)) =
      trainedAlone S D log (Compare.exact lowest pct) (cancel l) f l (Takes.data f τ l) := by
    intro l
    have hdata : Takes.data f (Takes.rename ρ τ) (ρ l) = Takes.data f τ l := by simp only [Takes.data, rename_ofClass ρ hρ]
    have hnew : GmmModel.newClass T f.bimodal f.dim f.di (ρ l) = GmmModel.newClass S f.bimodal f.dim f.di l := by
      simp only [GmmModel.newClass, hST.window, hST.gaussians, hST.relReg, hST.absReg, hST.mode]
    unfold trainedAlone
    rw [hdata, hnew, hST.em, hc]
  have hone : ∀ (A : GmmModel ℝ) (_ : SMap.Sorted A.models) (l : String) (u v : Gmm ℝ), (l, u) ∈ A.models → (l, v) ∈ A.models → u = v := by
    intro A hs l u v hu hv
    have e1 := (SMap.mem_iff_find? hs).1 hu
    rw [(SMap.mem_iff_find? hs).1 hv] at e1
    exact (Option.some.inj e1).symm
  have hclass : ∀ l, (∃ e ∈ τ, e.2.1 = l) → (l ∈ SMap.keys M'.models ↔ ρ l ∈ SMap.keys N'.models) ∧
      ∀ m n, (l, m) ∈ M'.models → (ρ l, n) ∈ N'.models → Gmm.SameModel m n := by
    intro l hl
    obtain ⟨tr, m0, c1, -, c2⟩ := a3.each l hl
    obtain ⟨tr', n0, d1, -, d2⟩ := b3.each (ρ l) (by
      obtain ⟨e, h1, rfl⟩ := hl
      exact ⟨_, (hmem _).2 ⟨e, h1, rfl⟩, rfl⟩)
    rw [hal, c1] at d1
    injection d1 with d1 d1'
    subst d1 d1'
    constructor
    · rcases c2 with ⟨q1, m', q2, -⟩ | ⟨q1, q2⟩ <;> rcases d2 with ⟨r1, n', r2, -⟩ | ⟨r1, r2⟩
      · exact ⟨fun _ => List.mem_map.2 ⟨_, r2, rfl⟩, fun _ => List.mem_map.2 ⟨_, q2, rfl⟩⟩
      · rcases r2 with r2 | r2 <;> rw [r2.1] at q1 <;> cases q1
      · rcases q2 with r2 | r2 <;> rw [r2.1] at r1 <;> cases r1
      · exact ⟨fun h => absurd h q1, fun h => absurd h r1⟩
    · intro m n km kn
      rcases c2 with ⟨q1, m', q2, q3⟩ | ⟨q1, -⟩
      · rcases d2 with ⟨r1, n', r2, r3⟩ | ⟨r1, -⟩
        · rw [hone M' a2.sorted l m m' km q2, hone N' b2.sorted (ρ l) n n' kn r2]
          unfold Gmm.SameModel at q3 r3 ⊢
          rw [r3, q3]
        · exact absurd (List.mem_map.2 ⟨_, kn, rfl⟩) r1
      · exact absurd (List.mem_map.2 ⟨_, km, rfl⟩) q1
  have hfit : ∀ lc ∈ M'.models, ∀ x, f.Sample x → lc.2.Fits x := by
    intro lc hlc x hx
    obtain ⟨k1, k2, k3⟩ := a7 lc hlc
    unfold Gmm.Fits
    rw [k1, k2, k3]
    exact hx
  have hfwd : ∀ lc ∈ M'.models, ∃ m, (ρ lc.1, m) ∈ N'.models ∧ Gmm.SameModel lc.2 m := by
    rintro ⟨l, m⟩ hlc
    have hk : l ∈ SMap.keys M'.models := List.mem_map.2 ⟨_, hlc, rfl⟩
    obtain ⟨h1, h2⟩ := hclass l (a3.known l hk)
    obtain ⟨⟨_, n⟩, hn, h3⟩ := List.mem_map.1 (h1.1 hk)
    simp only at h3
    subst h3
    exact ⟨n, hn, h2 m n hlc hn⟩
  have hbwd : ∀ lc ∈ N'.models, ∃ l m, (l, m) ∈ M'.models ∧ ρ l = lc.1 := by
    rintro ⟨k, n⟩ hlc
    have hk : k ∈ SMap.keys N'.models := List.mem_map.2 ⟨_, hlc, rfl⟩
    obtain ⟨e, h1, h2⟩ := b3.known k hk
    obtain ⟨e0, h3, rfl⟩ := (hmem e).1 h1
    simp only at h2
    subst h2
    obtain ⟨⟨_, m⟩, hm, h4⟩ := List.mem_map.1 ((hclass e0.2.1 ⟨e0, h3, rfl⟩).1.2 hk)
    exact ⟨_, m, hm, congrArg ρ h4⟩
  have hren : GmmModel.RenamedAs ρ M' N' := ⟨by rw [a4, b4], by rw [a5, b5, hm], by rw [a6, b6, he], hfwd, hbwd⟩
  refine ⟨M', N', by rw [s3]; exact a1, by rw [s3']; exact b1, hren, fun exp hexp hm0 xs hxs hx => ?_⟩
  obtain ⟨M'', N'', k1, k2, k3, k4, k5⟩ := GmmModel.C112_recognition ρ hρ D hD log exp hexp M' N' a2 b2 hm0 hren xs hxs fun x hx' lc hlc => hfit lc hlc x (hx x hx')
  exact ⟨M'', N'', k1, k2, k3, k4, fun hb ht => k5 (a4.trans hb) (by rw [a6]; exact ht)⟩

/-- the names "a" and "b" exchanged -/
def swapNames (l : String) : String := if l = "a" then "b" else if l = "b" then "a" else l

/-- the settings of the classes exchanged -/
noncomputable def swappedSettings : GmmSettings ℝ :=
  { sessionSettings with
    gaussians := fun l => sessionSettings.gaussians (swapNames l), relReg := fun l => sessionSettings.relReg (swapNames l)
    absReg := fun l => sessionSettings.absReg (swapNames l), mode := fun l => sessionSettings.mode (swapNames l) }

theorem swap_swap (l : String) : swapNames (swapNames l) = l := by
  unfold swapNames
  by_cases h1 : l = "a"
  · simp [h1]
  · by_cases h2 : l = "b"
    · simp [h2]
    · simp [h1, h2]

/-- the hypotheses of `C112_names` are met by a bimodal session with two classes whose names are exchanged -/
theorem C112_example : Function.Injective swapNames ∧ swapNames "a" ≠ "a" ∧ sessionSettings.Renamed swapNames swappedSettings ∧
    ∃ (v0 w0 : World ℝ String) (M : GmmModel ℝ), sessionFormat.Valid ∧ v0.sets 0 = none ∧ w0.sets 0 = none ∧ sessionSettings.Valid ∧ swappedSettings.Valid ∧
    Takes.Admissible sessionFormat sessionA [] ∧ Takes.Filled (Takes.run sessionFormat sessionA []).1 ∧ (∃ e ∈ (Takes.run sessionFormat sessionA []).1, e.2.1 = "a") ∧
    M.bimodal = sessionFormat.bimodal ∧ (sessionFormat.bimodal = true → ∀ l, sessionSettings.mode l = M.mode) ∧
      (sessionFormat.bimodal = true → ∀ l, swappedSettings.mode l = M.mode) := by
  obtain ⟨v0, w0, M, h1, h2, h3, h4, h5, -, h6, -, h7, -, -, -, h8, h9⟩ := session_example
  refine ⟨fun a b h => by rw [← swap_swap a, h, swap_swap], by decide, ⟨rfl, rfl, fun l => ?_, fun l => ?_, fun l => ?_, fun l => ?_⟩, v0, w0, M, h1, h2, h3, h4,
    ⟨h4.window, h4.minIter, fun l => h4.gaussians (swapNames l), fun l => h4.absReg (swapNames l)⟩, h5, h6, h7, h8, h9, fun hb l => h9 hb (swapNames l)⟩ <;>
  simp only [swappedSettings, swap_swap]

/-- C112 is violated at a tie: a model with two equal classes "a" and "b" is the same model under the exchanged names, but the likeliest class is "a" in both: the first one
    in the order of the names. -/
theorem C112_tie_violated (D : Dens ℝ) (hD : D.Sound) (log exp : ℝ → ℝ) (hexp : ∀ x, 0 < exp x) (M : GmmModel ℝ) (hM : M.Usable) (m n : Gmm ℝ)
    (hm : M.models = [("a", m), ("b", n)]) (hs : Gmm.SameModel m n) (xs : List (List ℝ)) (hxs : xs ≠ []) (hx : ∀ x ∈ xs, m.Fits x) :
    GmmModel.RenamedAs swapNames M M ∧ ∃ M', (do GmmModel.reset; GmmModel.filterAll D log exp xs) M = .ret () M' ∧ M'.results.likeliest = "a" ∧
      M'.results.likeliest ≠ swapNames M'.results.likeliest := by
  have hs' : Gmm.SameModel n m := by
    unfold Gmm.SameModel at hs ⊢
    rw [hs]
  have hfit : ∀ x ∈ xs, ∀ lc ∈ M.models, lc.2.Fits x := by
    intro x hx' lc hlc
    rw [hm] at hlc
    simp only [List.mem_cons, List.not_mem_nil, or_false] at hlc
    rcases hlc with rfl | rfl
    · exact hx x hx'
    · exact GmmModel.fits_same hs x (hx x hx')
  refine ⟨⟨rfl, rfl, rfl, ?_, ?_⟩, ?_⟩
  · rw [hm]
    simp only [List.mem_cons, List.not_mem_nil, or_false, forall_eq_or_imp, forall_eq]
    exact ⟨⟨n, Or.inr rfl, hs⟩, ⟨m, Or.inl rfl, hs'⟩⟩
  · rw [hm]
    simp only [List.mem_cons, List.not_mem_nil, or_false, forall_eq_or_imp, forall_eq]
    exact ⟨⟨"b", n, Or.inr rfl, rfl⟩, ⟨"a", m, Or.inl rfl, rfl⟩⟩
  · obtain ⟨M', a1, a2, a3, a4, a5, -⟩ := GmmModel.reset_filterAll D hD log exp hexp M hM (by rw [hm]; simp) xs hxs hfit
    have hlik : M'.results.likeliest = "a" := by
      rw [hm] at a4
      cases hm' : M'.models with
      | nil => rw [hm'] at a4; cases a4
      | cons p q =>
        rw [hm'] at a4
        cases a4 with
        | cons e1 e2 =>
          cases e2 with
          | cons e3 e4 =>
            rename_i q r
            cases e4
            obtain ⟨e1, ps, e1'⟩ := e1
            obtain ⟨e3, qs, e3'⟩ := e3
            obtain ⟨f1, -⟩ := hM.cls ("a", m) (by rw [hm]; simp)
            obtain ⟨hist, f2⟩ := hM.buf ("a", m) (by rw [hm]; simp)
            obtain ⟨f3, -⟩ := hM.cls ("b", n) (by rw [hm]; simp)
            obtain ⟨hist', f4⟩ := hM.buf ("b", n) (by rw [hm]; simp)
            obtain ⟨ps, m1, m2, g1, g2, -, g4, -⟩ := Gmm.C51_filter_forgets D hD log m n hs f1 f3 f2.ok f4.ok xs hxs hx
            simp only at e1' e3' e1
            rw [e1'] at g1
            rw [e3'] at g2
            injection g1 with _ g1
            injection g2 with _ g2
            have heq : p.2.logLik = q.2.logLik := by rw [g1, g2, g4]
            have hc : M'.classes = [(p.1, p.2.results), (q.1, q.2.results)] := by simp [GmmModel.classes, hm']
            obtain ⟨before, c, after, h1, h2, h3, -⟩ := a5.likeliest (by rw [hc]; simp)
            rw [hc] at h1
            cases before with
            | nil =>
              simp only [List.nil_append, List.cons.injEq] at h1
              rw [h2, ← h1.1]
              exact e1
            | cons b before =>
              simp only [List.cons_append, List.cons.injEq] at h1
              have h4 := h3 b List.mem_cons_self
              have h5 : c ∈ [(q.1, q.2.results)] := by rw [h1.2]; simp
              simp only [List.mem_singleton] at h5
              rw [h5, ← h1.1] at h4
              simp only [Gmm.results] at h4
              exact absurd heq h4.ne
    exact ⟨M', a1, hlik, by rw [hlik]; decide⟩

/-- the hypotheses of `C112_tie_violated` are met by a bimodal model with two equal classes of two components -/
theorem C112_tie_example : ∃ (M : GmmModel ℝ) (m n : Gmm ℝ), M.Usable ∧ M.models = [("a", m), ("b", n)] ∧ Gmm.SameModel m n ∧ m.Fits [1] := by
  let g : ℝ → Gauss ℝ := fun μ => {
    bimodal := true, dim := 2, dimMin := 2, di := 1, diMax := 1, mode := .full, mean := [μ, μ], cov := [1, 0, 0, 1],
    inv := [1, 0, 0, 1], det := 1, invIn := [1], detIn := 1, outCov := [1] }
  let m : ℝ → Gmm ℝ := fun μ => {
    gaussians := 2, mode := .full, absReg := 1 / 1000, relReg := 1 / 100, bimodal := true, dim := 2, di := 1, window := 3,
    comps := [g 0, g μ], coeffs := [1 / 4, 3 / 4], beta := [0, 0], reg := [1 / 1000, 1 / 1000], training := false,
    buf := CBuf.construct 0 1 3, instant := 0, logLik := 0, outVals := [], outCov := [] }
  have hm : ∀ μ, (m μ).CanFilter := by
    intro μ
    refine ⟨⟨⟨by simp [m], rfl, rfl, rfl, ?_⟩, ⟨by intro x hx; simp [m] at hx; rcases hx with rfl | rfl <;> norm_num, by norm_num [m]⟩, ?_⟩,
      rfl, by simp [m], ?_⟩
    · intro g' hg'
      simp only [m, List.mem_cons, List.not_mem_nil, or_false] at hg'
      rcases hg' with rfl | rfl <;> exact ⟨⟨rfl, rfl, rfl, fun _ => rfl, by simp [g]⟩, rfl, rfl, rfl, rfl⟩
    · intro g' hg'
      simp only [m, List.mem_cons, List.not_mem_nil, or_false] at hg'
      rcases hg' with rfl | rfl <;> simp [g]
    · intro _ g' hg'
      simp only [m, List.mem_cons, List.not_mem_nil, or_false] at hg'
      rcases hg' with rfl | rfl <;> rfl
  refine ⟨{
    models := [("a", m 1), ("b", m 1)], nulls := [], bimodal := true, dout := 1, mode := .full, est := .mixture, training := false,
    results := ⟨[0, 0], [0, 0], [0, 0], [0, 0], [0, 0], "", [0], [0]⟩ }, m 1, m 1, ⟨rfl, rfl, ?_, ⟨rfl, rfl, rfl, rfl, rfl⟩, ?_, ?_, ?_⟩, rfl, rfl, by simp [Gmm.Fits, m]⟩
  · have : ("a" : String) < "b" := by decide
    simpa [SMap.Sorted] using this
  · intro lc hlc
    simp only [List.mem_cons, List.not_mem_nil, or_false] at hlc
    rcases hlc with rfl | rfl <;> exact ⟨hm _, rfl, rfl⟩
  · intro _ lc hlc
    simp only [List.mem_cons, List.not_mem_nil, or_false] at hlc
    rcases hlc with rfl | rfl <;> rfl
  · intro lc hlc
    simp only [List.mem_cons, List.not_mem_nil, or_false] at hlc
    rcases hlc with rfl | rfl <;> exact ⟨[], CBuf.Holds.init 0 3 (by omega)⟩

end Xmm
