import Verif.Spec.Retrain
import Verif.Props.GmmRetrain
import Verif.Props.SequentialTrain
set_option linter.unusedSectionVars false
/- C108: training one class of a mixture model, new or trained before, and training the classes one by one. -/
namespace Xmm
open TS Prog

theorem Gmm.SameModel.refl (m : Gmm ℝ) : Gmm.SameModel m m := rfl

namespace GmmModel

theorem Holds.of_usable {M : GmmModel ℝ} {f : Format} {window : Nat} (h : M.Usable) (hb : M.bimodal = f.bimodal)
    (hc : ∀ lc ∈ M.models, lc.2.dim = f.dim ∧ lc.2.di = f.di ∧ lc.2.window = window) : M.Holds f window :=
  ⟨h.idle, h.nulls, h.sorted, hb, fun lc hlc => ⟨(h.cls lc hlc).1, (h.cls lc hlc).2.1.trans hb, (hc lc hlc).1, (hc lc hlc).2.1, (hc lc hlc).2.2⟩,
    fun hbi => h.mode (hb.trans hbi), fun lc hlc => ⟨_, h.buf lc hlc⟩⟩

theorem classFor_same {f : Format} (hv : f.Valid) (S : GmmSettings ℝ) (M : GmmModel ℝ) (hM : M.Holds f S.window) (l : String) :
    Gmm.SameSettings (newClass S f.bimodal f.dim f.di l) (classFor S f.bimodal f.dim f.di l M.models) ∧ BufOk (classFor S f.bimodal f.dim f.di l M.models).buf := by
  unfold classFor
  cases hf : SMap.find? l M.models with
  | none => exact ⟨rfl, bufOk_construct⟩
  | some c =>
    have hmem := SMap.mem_of_find? hf
    obtain ⟨-, h2, h3, h4, h5⟩ := hM.cls _ hmem
    obtain ⟨_, hist, hb⟩ := hM.buf _ hmem
    have hdi : f.di = if f.bimodal then f.di else 0 := by
      cases hb : f.bimodal <;> simp [Format.Valid, hb] at hv ⊢
      exact hv.1
    refine ⟨?_, hb.ok⟩
    simp only at h2 h3 h4 h5
    unfold Gmm.SameSettings newClass
    rw [← hdi]
    simp only [← h2, ← h3, ← h4, ← h5]

theorem labels_of_sim {f : Format} {i : Nat} {w : World ℝ String} {t : TSet String} {τ : Takes ℝ String} (h : Sim f i w t τ) (hx : Indexed w t) (hv : f.Valid) (l : String) :
    l ∈ SMap.keys t.labels ↔ ∃ e ∈ τ, e.2.1 = l := (h.presents hx hv).labels l

theorem trainLabel_of_sim {f : Format} {i : Nat} {w : World ℝ String} {t : TSet String} {τ : Takes ℝ String} (h : Sim f i w t τ) (hx : Indexed w t) (hv : f.Valid)
    (hfill : Takes.Filled τ) (S : GmmSettings ℝ) (hS : S.Valid) (D : Dens ℝ) (hD : D.Sound) (log : ℝ → ℝ) (lowest pct : ℝ) (cancel : Nat → Bool)
    (M : GmmModel ℝ) (hM : M.Holds f S.window) (hmode : f.bimodal = true → ∀ l, S.mode l = M.mode) (label : String) (hl : ∃ e ∈ τ, e.2.1 = label) :
    ∃ M', trainLabel S D log Real.sqrt (Compare.exact lowest pct) cancel w t label M = .ret () M' ∧ M'.Usable ∧ M'.Holds f S.window ∧ M'.mode = M.mode ∧ M'.est = M.est ∧
      ClassReplaced S D log (Compare.exact lowest pct) cancel f τ label M M' := by
  set C := Compare.exact lowest pct with hC
  have hlab := (labels_of_sim h hx hv label).2 hl
  have hdi : (if f.bimodal then f.di else 0) = f.di := by
    cases hb : f.bimodal <;> simp [Format.Valid, hb] at hv ⊢
    exact hv.1.symm
  have hod : M.otherDimensions f.dim f.di = false := by
    unfold otherDimensions
    cases hm : M.models with
    | nil => rfl
    | cons lc ms =>
      obtain ⟨-, -, h3, h4, -⟩ := hM.cls lc (by rw [hm]; exact List.mem_cons_self)
      simp [h3, h4]
  -- the class before and after its training
  obtain ⟨hset, hbuf⟩ := classFor_same hv S M hM label
  set c0 := classFor S f.bimodal f.dim f.di label M.models with hc0
  set n0 := newClass S f.bimodal f.dim f.di label with hn0
  set data := Takes.data f τ label with hdata
  have hne : data.frames ≠ [] := by
    obtain ⟨e, he, rfl⟩ := hl
    obtain ⟨e', he', h1, h2⟩ := hfill e he
    intro h0
    simp only [hdata, Takes.data, KData.frames, Takes.frames, List.flatten_eq_nil_iff, List.mem_map] at h0
    exact h2 (h0 _ ⟨e', by simp [Takes.ofClass, he', h1], rfl⟩)
  have hfed : n0.Fed data.deviation data := ⟨rfl, h.frame_length hv label, hne, by simp [KData.deviation, hdata, Takes.data, hn0, newClass]⟩
  have hadm : n0.Admissible := newClass_admissible S hS f hv label
  have hset' := hset
  unfold Gmm.SameSettings at hset'
  have hfed' : c0.Fed data.deviation data := by rw [hset']; exact ⟨hfed.dim, hfed.frame, hfed.some, hfed.sd⟩
  have hadm' : c0.Admissible := by rw [hset']; exact ⟨hadm.gaussians, hadm.dim, hadm.di⟩
  have hwin' : 1 ≤ c0.window := by rw [hset']; exact hS.window
  have hreg' : 1 / 10 ^ 9 ≤ c0.absReg := by rw [hset']; exact hS.absReg label
  obtain ⟨⟨n1, st⟩, tr0, q1, q2, q3, q4, q5, -, q7⟩ := trainedAlone_ret h hv hfill S hS D hD log lowest pct (fun _ => cancel) label hl n0
  simp only at q1 q2 q3 q4 q5 q7
  obtain ⟨tr, c1, p1, p2, p3⟩ := Gmm.retrain D log n0 c0 hset hadm data.deviation data hfed S.em hS.minIter C cancel tr0 n1 q1
  obtain ⟨tr', c1', k1, -, -, -, -, -, -, k2⟩ := Gmm.C81_training D hD log c0 hadm' hwin' data.deviation data hfed' hreg' lowest pct S.em hS.minIter cancel
  rw [← hC, p1] at k1
  injection k1 with k1 k1'
  subst k1 k1'
  have hgood : tr.status ≠ .cancel → c1.CanFilter ∧ c1.buf = c0.buf ∧ c1.bimodal = f.bimodal ∧ c1.dim = f.dim ∧ c1.di = f.di ∧ c1.mode = S.mode label ∧ c1.window = S.window := by
    intro hc
    obtain ⟨r1, ls, m'', r2, r3, r4, -⟩ := k2 hc
    obtain ⟨ls', m3, s1, -, -, s2⟩ := Gmm.C81_trained_usable D hD log _ hadm' hwin' _ _ hfed' hreg' tr.updates r4
    rw [r2] at s1
    injection s1 with _ s1
    subst s1
    refine ⟨r1, ?_, ?_, ?_, ?_, ?_, ?_⟩ <;> rw [r3] <;> simp only <;> rw [s2] <;> simp only
    · rw [hset']; rfl
    · rw [hset']; rfl
    · rw [hset']; exact hdi
    · rw [hset']; rfl
    · rw [hset']; rfl
  -- the model after the training
  set R := (if tr.status = .cancel ∨ tr.status = .error then SMap.erase label (SMap.assign label c0 M.models) else SMap.assign label c1 (SMap.assign label c0 M.models)) with hR
  have hfind : ∀ l, SMap.find? l R = if l = label then (if tr.status = .cancel ∨ tr.status = .error then none else some c1) else SMap.find? l M.models := by
    intro l
    rw [hR]
    by_cases hs : tr.status = .cancel ∨ tr.status = .error
    · rw [if_pos hs, SMap.find?_erase hM.sorted.assign, SMap.find?_assign]
      by_cases hll : l = label <;> simp [hll, hs]
    · rw [if_neg hs, SMap.find?_assign, SMap.find?_assign]
      by_cases hll : l = label <;> simp [hll, hs]
  have hsort : SMap.Sorted R := by
    rw [hR]
    split
    · exact hM.sorted.assign.erase
    · exact hM.sorted.assign.assign
  have hmem : ∀ lc ∈ R, (lc.1 = label ∧ lc.2 = c1 ∧ ¬(tr.status = .cancel ∨ tr.status = .error)) ∨ lc.1 ≠ label ∧ lc ∈ M.models := by
    intro lc hlc
    have e1 := (SMap.mem_iff_find? hsort (k := lc.1) (v := lc.2)).1 hlc
    rw [hfind] at e1
    by_cases hll : lc.1 = label
    · rw [if_pos hll] at e1
      split at e1
      · cases e1
      · next hs => injection e1 with e1; exact .inl ⟨hll, e1.symm, hs⟩
    · rw [if_neg hll] at e1
      exact .inr ⟨hll, SMap.mem_of_find? e1⟩
  have hcls : ∀ lc ∈ R, lc.2.CanFilter ∧ lc.2.bimodal = f.bimodal ∧ lc.2.dim = f.dim ∧ lc.2.di = f.di ∧ lc.2.window = S.window ∧ BufOk lc.2.buf ∧
      (f.bimodal = true → lc.2.mode = M.mode) := by
    intro lc hlc
    rcases hmem lc hlc with ⟨-, e2, e3⟩ | ⟨-, e2⟩
    · obtain ⟨g1, g2, g3, g4, g5, g6, g7⟩ := hgood (fun hc => e3 (.inl hc))
      rw [e2]
      exact ⟨g1, g3, g4, g5, g7, by rw [g2]; exact hbuf, fun hb => g6.trans (hmode hb label)⟩
    · obtain ⟨g1, g2, g3, g4, g5⟩ := hM.cls lc e2
      obtain ⟨_, hist, hb⟩ := hM.buf lc e2
      exact ⟨g1, g2, g3, g4, g5, hb.ok, fun hb => hM.mode hb lc e2⟩
  set M2 : GmmModel ℝ := { M with training := false, dout := f.dim - f.di, models := R } with hM2
  obtain ⟨M', r1, r2, r3, r4⟩ := C39_reset M2 hM.nulls rfl hsort (fun lc hlc => by
      obtain ⟨g1, g2, g3, g4, -, g6, -⟩ := hcls lc hlc
      exact ⟨g1, g2.trans hM.bimodal.symm, by rw [g3, g4], g6⟩)
    (fun hb lc hlc => (hcls lc hlc).2.2.2.2.2.2 (hM.bimodal ▸ hb))
  have hfwd : ∀ l m, (l, m) ∈ R → ∃ m', (l, m') ∈ M'.models ∧ Gmm.SameModel m m' := by
    intro l m hlm
    obtain ⟨b, hb, e1, -, e2, -⟩ := forall₂_exists r3 _ hlm
    refine ⟨b.2, ?_, e2⟩
    have := (List.of_mem_zip hb).2
    simp only at e1
    rw [← e1]
    exact this
  have hback : ∀ l m', (l, m') ∈ M'.models → ∃ m, (l, m) ∈ R ∧ Gmm.SameModel m m' := by
    intro l m' hlm
    obtain ⟨n, hn, e⟩ := List.getElem_of_mem hlm
    have hn' : n < R.length := by rw [show R.length = M'.models.length from r3.length_eq]; exact hn
    have e2 := (List.forall₂_iff_get.1 r3).2 n hn' hn
    simp only [List.get_eq_getElem, e] at e2
    have h3 : R[n] ∈ R := List.getElem_mem hn'
    refine ⟨R[n].2, ?_, e2.2.2.1⟩
    rw [e2.1]
    exact h3
  have hbi' : M'.bimodal = f.bimodal := by rw [r4]; exact hM.bimodal
  refine ⟨M', ?_, r2, Holds.of_usable r2 hbi' fun lc hlc => ?_, by rw [r4], by rw [r4], ⟨fun l hne => ⟨fun m' hm' => ?_, fun m hm => ?_⟩, ?_⟩⟩
  · unfold trainLabel
    rw [if_neg (by simpa using hlab)]
    rw [bind_def, get_def]
    beta_reduce
    simp only [h.dim, h.di]
    rw [if_neg (by rw [hod]; simp)]
    simp only [bind_def, get_def, modify_def, trainThread, SMap.find?_assign, if_true, hM.bimodal, h.dim, h.di, inThread,
      trainOne_any h hx hv S D log C cancel label hlab]
    rw [← hc0, ← hdata, p1]
    simp only [← hR, hdi]
    rw [hM2, hM.bimodal] at r1
    exact r1
  · obtain ⟨m, e1, e2⟩ := hback lc.1 lc.2 hlc
    obtain ⟨-, -, g3, g4, g5, -⟩ := hcls _ e1
    unfold Gmm.SameModel at e2
    rw [e2]
    exact ⟨g3, g4, g5⟩
  · obtain ⟨m, e1, e2⟩ := hback l m' hm'
    rcases hmem _ e1 with ⟨e3, -⟩ | ⟨-, e3⟩
    · exact absurd e3 hne
    · exact ⟨m, e3, e2⟩
  · refine hfwd l m ((SMap.mem_iff_find? hsort).2 ?_)
    rw [hfind, if_neg hne]
    exact (SMap.mem_iff_find? hM.sorted).1 hm
  · refine ⟨tr0, n1, q1, q4, ?_⟩
    have hout : tr.status = .cancel ∨ tr.status = .error → label ∉ SMap.keys M'.models := by
      intro hs hin
      obtain ⟨lc, hlc, e0⟩ := List.mem_map.1 hin
      obtain ⟨m, e1, -⟩ := hback lc.1 lc.2 hlc
      rcases hmem _ e1 with ⟨-, -, e3⟩ | ⟨e3, -⟩
      · exact e3 hs
      · exact e3 e0
    rcases q3 with q3 | q3 | q3
    · refine .inl ⟨q3, ?_⟩
      obtain ⟨-, s2⟩ := p3 (by rw [q3]; simp)
      obtain ⟨m', e1, e2⟩ := hfwd label c1 ((SMap.mem_iff_find? hsort).2 (by rw [hfind, if_pos rfl, if_neg (by rw [p2, q3]; simp)]))
      exact ⟨m', e1, s2.trans e2⟩
    · exact .inr ⟨hout (.inr (p2.trans q3)), .inr ⟨q3, q7 q3⟩⟩
    · exact .inr ⟨hout (.inl (p2.trans q3)), .inl ⟨q3, q5 q3⟩⟩

section session
variable (f : Format) (hv : f.Valid) (i : Nat) (w0 : World ℝ String) (h0 : w0.sets i = none) (ops : List (RecOp ℝ String)) (ha : Takes.Admissible f ops [])
  (S : GmmSettings ℝ) (D : Dens ℝ) (log : ℝ → ℝ) (lowest pct : ℝ) (M : GmmModel ℝ)
include hv h0 ha

/-- C108: `train(set, label)` for a label that the training set does not have raises `out_of_range` and changes nothing. -/
theorem C108_unknown_label (C : Compare ℝ) (cancel : Nat → Bool) (label : String) (hl : ∀ e ∈ (Takes.run f ops []).1, e.2.1 ≠ label) :
    recordAndTrainClass S D log C cancel f i ops w0 label M = .throw .outOfRange M := by
  obtain ⟨w, t, h1, h2, h3, -⟩ := recordThen_sim f hv i w0 h0 ops ha
  unfold recordAndTrainClass
  rw [h3]
  unfold trainLabel
  rw [if_pos (fun h => ?_)]
  · rfl
  · obtain ⟨e, he, h⟩ := (labels_of_sim h1 h2 hv label).1 h
    exact hl e he h

/-- C108: `train(set, label)` for a training set whose dimensions are not those of the classes of the model raises `runtime_error` and changes nothing. -/
theorem C108_other_dimensions (C : Compare ℝ) (cancel : Nat → Bool) (label : String) (hl : ∃ e ∈ (Takes.run f ops []).1, e.2.1 = label) (g : Format) (window : Nat)
    (hM : M.Holds g window) (hne : M.models ≠ []) (hd : g.dim ≠ f.dim ∨ g.bimodal = true ∧ g.di ≠ f.di) :
    recordAndTrainClass S D log C cancel f i ops w0 label M = .throw .runtimeError M := by
  obtain ⟨w, t, h1, h2, h3, -⟩ := recordThen_sim f hv i w0 h0 ops ha
  unfold recordAndTrainClass
  rw [h3]
  unfold trainLabel
  rw [if_neg (not_not.2 ((labels_of_sim h1 h2 hv label).2 hl)), bind_def, get_def]
  dsimp only
  rw [if_pos]
  · rfl
  · unfold otherDimensions
    obtain ⟨lc, ms, hm⟩ := List.exists_cons_of_ne_nil hne
    obtain ⟨-, -, h3, h4, -⟩ := hM.cls lc (by rw [hm]; exact List.mem_cons_self)
    simp only [hm, h1.dim, h1.di, h3, h4, hM.bimodal]
    rcases hd with hd | ⟨hb, hd⟩
    · simp [hd]
    · simp [hb, hd]

variable (hfill : Takes.Filled (Takes.run f ops []).1) (hS : S.Valid) (hD : D.Sound)
include hfill hS hD

/-- C108: training one class.  For every recording session in which every class has a complete frame, all settings, every moment of cancellation and every model, trained or not, whose
    classes have the format of the session: `train(set, label)` for a label of the session is defined and raises no exception, and the model can recognise.  The class is the one that would be
    trained alone on its own takes, even if it existed before: nothing of its former training remains.  If its training fails the class does not exist any more.  All other classes
    remain as they are. -/
theorem C108_train_class (cancel : Nat → Bool) (hM : M.Holds f S.window) (hmode : f.bimodal = true → ∀ l, S.mode l = M.mode) (label : String)
    (hl : ∃ e ∈ (Takes.run f ops []).1, e.2.1 = label) :
    ∃ M', recordAndTrainClass S D log (Compare.exact lowest pct) cancel f i ops w0 label M = .ret () M' ∧ M'.Usable ∧ M'.Holds f S.window ∧ M'.mode = M.mode ∧
      ClassReplaced S D log (Compare.exact lowest pct) cancel f (Takes.run f ops []).1 label M M' := by
  obtain ⟨w, t, h1, h2, h3, -⟩ := recordThen_sim f hv i w0 h0 ops ha
  obtain ⟨M', g1, g2, g3, g5, -, g4⟩ := trainLabel_of_sim h1 h2 hv hfill S hS D hD log lowest pct cancel M hM hmode label hl
  exact ⟨M', by unfold recordAndTrainClass; rw [h3]; exact g1, g2, g3, g5, g4⟩

/-- **C108 (violated): a training that fails does not leave the class as it was.**  If the training of `label` is not done, for instance because it is cancelled, a class `label` that was
    trained before does not exist any more. -/
theorem C108_failed_class_violated (cancel : Nat → Bool) (hM : M.Holds f S.window) (hmode : f.bimodal = true → ∀ l, S.mode l = M.mode) (label : String)
    (hl : ∃ e ∈ (Takes.run f ops []).1, e.2.1 = label) (_hold : label ∈ SMap.keys M.models)
    (hfail : ¬ ∃ m, Done S D log (Compare.exact lowest pct) (fun _ => cancel) f (Takes.run f ops []).1 label m) :
    ∃ M', recordAndTrainClass S D log (Compare.exact lowest pct) cancel f i ops w0 label M = .ret () M' ∧ label ∉ SMap.keys M'.models := by
  obtain ⟨M', g1, -, -, -, g4⟩ := C108_train_class f hv i w0 h0 ops ha S D log lowest pct M hfill hS hD cancel hM hmode label hl
  obtain ⟨tr, m, e1, -, e2⟩ := g4.replaced
  refine ⟨M', g1, ?_⟩
  rcases e2 with ⟨e2, -⟩ | ⟨e2, -⟩
  · exact absurd ⟨m, tr, e1, e2⟩ hfail
  · exact e2

/-- what is known of a label after its class has been trained -/
def Settled (S : GmmSettings ℝ) (D : Dens ℝ) (log : ℝ → ℝ) (C : Compare ℝ) (f : Format) (τ : Takes ℝ String) (M : GmmModel ℝ) (l : String) : Prop :=
  ∃ tr m, trainedAlone S D log C (fun _ => false) f l (Takes.data f τ l) = .ret tr m ∧ (∃ k, OneOutcome tr.events k tr.status) ∧
    (tr.status = .done ∧ (∃ m', (l, m') ∈ M.models ∧ Gmm.SameModel m m') ∨
      l ∉ SMap.keys M.models ∧ (tr.status = .cancel ∧ (∃ k : Nat, (fun _ => false : Nat → Bool) k = true) ∨
        tr.status = .error ∧ ∃ pre m'', Gmm.trainRun D log Real.sqrt (Takes.data f τ l).deviation (Takes.data f τ l) tr.updates
          (newClass S f.bimodal f.dim f.di l) = .ret (pre ++ [0, 0]) m''))

/-- C108: training class by class.  If the classes of a model are labels of the session, or if it has none, then calling `train(set, label)` for all labels of the session, in any
    order and any number of times, gives the model that `train(set)` gives (`C103_train`): the classes are those whose training is done, each one being the class trained alone on its own
    takes. -/
theorem C108_class_by_class (hM : M.Holds f S.window) (hmode : f.bimodal = true → ∀ l, S.mode l = M.mode)
    (hold : ∀ l ∈ SMap.keys M.models, ∃ e ∈ (Takes.run f ops []).1, e.2.1 = l) (ls : List String)
    (hls : ∀ l, l ∈ ls ↔ ∃ e ∈ (Takes.run f ops []).1, e.2.1 = l) :
    ∃ M', recordAndTrainClasses S D log (Compare.exact lowest pct) f i ops w0 ls M = .ret () M' ∧ M'.Holds f S.window ∧
      TrainedOn S D log (Compare.exact lowest pct) (fun _ _ => false) f (Takes.run f ops []).1 M' := by
  obtain ⟨w, t, h1, h2, h3, -⟩ := recordThen_sim f hv i w0 h0 ops ha
  generalize hτ : (Takes.run f ops []).1 = τ at *
  have key : ∀ (ls : List String), (∀ l ∈ ls, ∃ e ∈ τ, e.2.1 = l) → ∀ (M : GmmModel ℝ) (past : List String), M.Holds f S.window → (f.bimodal = true → ∀ l, S.mode l = M.mode) →
      (∀ l ∈ SMap.keys M.models, ∃ e ∈ τ, e.2.1 = l) → (∀ l ∈ past, Settled S D log (Compare.exact lowest pct) f τ M l) →
      ∃ M', (ls.foldlM (fun _ l => trainLabel S D log Real.sqrt (Compare.exact lowest pct) (fun _ => false) w t l) () : Prog (GmmModel ℝ) Unit) M = .ret () M' ∧
        M'.Holds f S.window ∧ (∀ l ∈ SMap.keys M'.models, ∃ e ∈ τ, e.2.1 = l) ∧ ∀ l, l ∈ past ∨ l ∈ ls → Settled S D log (Compare.exact lowest pct) f τ M' l := by
    intro ls
    induction ls with
    | nil =>
      intro _ M past hM _ hk hp
      exact ⟨M, rfl, hM, hk, fun l hl => hp l (by simpa using hl)⟩
    | cons l0 ls ih =>
      intro hl M past hM hmode hk hp
      obtain ⟨M1, g1, -, g3, g4, -, g5⟩ := trainLabel_of_sim h1 h2 hv hfill S hS D hD log lowest pct (fun _ => false) M hM hmode l0 (hl l0 List.mem_cons_self)
      have hk1 : ∀ l ∈ SMap.keys M1.models, ∃ e ∈ τ, e.2.1 = l := by
        intro l hlk
        by_cases hll : l = l0
        · rw [hll]; exact hl l0 List.mem_cons_self
        · obtain ⟨lc, hlc, rfl⟩ := List.mem_map.1 hlk
          obtain ⟨m, e1, -⟩ := (g5.others lc.1 hll).1 lc.2 hlc
          exact hk _ (List.mem_map.2 ⟨_, e1, rfl⟩)
      have hp1 : ∀ l ∈ l0 :: past, Settled S D log (Compare.exact lowest pct) f τ M1 l := by
        intro l hlp
        by_cases hll : l = l0
        · rw [hll]
          exact g5.replaced
        · obtain ⟨tr, m, q1, q2, q3⟩ := hp l ((List.mem_cons.1 hlp).resolve_left hll)
          refine ⟨tr, m, q1, q2, ?_⟩
          rcases q3 with ⟨q3, m', q4, q5⟩ | ⟨q3, q4⟩
          · obtain ⟨m'', r1, r2⟩ := (g5.others l hll).2 m' q4
            exact .inl ⟨q3, m'', r1, q5.trans r2⟩
          · refine .inr ⟨fun hin => q3 ?_, q4⟩
            obtain ⟨lc, hlc, rfl⟩ := List.mem_map.1 hin
            obtain ⟨m, e1, -⟩ := (g5.others lc.1 hll).1 lc.2 hlc
            exact List.mem_map.2 ⟨_, e1, rfl⟩
      obtain ⟨M', r1, r2, r3, r4⟩ := ih (fun l h => hl l (List.mem_cons_of_mem _ h)) M1 (l0 :: past) g3 (fun hb l => (hmode hb l).trans g4.symm) hk1 hp1
      refine ⟨M', ?_, r2, r3, fun l hlp => r4 l ?_⟩
      · rw [List.foldlM_cons, bind_def, g1]
        exact r1
      · rcases hlp with h | h
        · exact .inl (List.mem_cons_of_mem _ h)
        · rcases List.mem_cons.1 h with h | h
          · exact .inl (h ▸ List.mem_cons_self)
          · exact .inr h
  obtain ⟨M', r1, r2, r3, r4⟩ := key ls (fun l h => (hls l).1 h) M [] hM hmode hold (by simp)
  refine ⟨M', by unfold recordAndTrainClasses; rw [h3]; exact r1, r2, r3, fun l hl => r4 l (.inr ((hls l).2 hl))⟩

/-- C108: training class by class and training all classes at once give models that recognise alike.  A class is in both models or in none, with the same parameters, and after `reset()` it gives
    the same likelihoods on every stream. -/
theorem C108_same_as_train (hne : (Takes.run f ops []).1 ≠ []) (hM : M.Holds f S.window) (hmode : f.bimodal = true → ∀ l, S.mode l = M.mode)
    (hold : ∀ l ∈ SMap.keys M.models, ∃ e ∈ (Takes.run f ops []).1, e.2.1 = l) (ls : List String)
    (hls : ∀ l, l ∈ ls ↔ ∃ e ∈ (Takes.run f ops []).1, e.2.1 = l) :
    ∃ M' N', recordAndTrainClasses S D log (Compare.exact lowest pct) f i ops w0 ls M = .ret () M' ∧
      recordAndTrain S D log Real.sqrt (Compare.exact lowest pct) (fun _ _ => false) f i ops w0 M = .ret () N' ∧ SMap.keys M'.models = SMap.keys N'.models ∧
      ∀ l m n, SMap.find? l M'.models = some m → SMap.find? l N'.models = some n → Gmm.SameModel m n ∧
        ∀ xs, xs ≠ [] → (∀ x ∈ xs, f.Sample x) → ∃ ps m' n', (do Gmm.reset; Gmm.filterAll D log xs) m = .ret ps m' ∧ (do Gmm.reset; Gmm.filterAll D log xs) n = .ret ps n' := by
  obtain ⟨M', g1, g2, g3⟩ := C108_class_by_class f hv i w0 h0 ops ha S D log lowest pct M hfill hS hD hM hmode hold ls hls
  obtain ⟨N', k1, k2, k3, k4, k5⟩ := C103_train f hv i w0 h0 ops ha hne hfill S hS D hD log lowest pct (fun _ _ => false) M hM.idle hM.bimodal hmode
  have hboth : ∀ l, (∃ e ∈ (Takes.run f ops []).1, e.2.1 = l) →
      (∃ m n, SMap.find? l M'.models = some m ∧ SMap.find? l N'.models = some n ∧ Gmm.SameModel m n) ∨ l ∉ SMap.keys M'.models ∧ l ∉ SMap.keys N'.models := by
    intro l hl
    obtain ⟨tr, m, a1, -, a2⟩ := g3.each l hl
    obtain ⟨tr', m', b1, -, b2⟩ := k3.each l hl
    rw [a1] at b1
    injection b1 with b1 b1'
    subst b1 b1'
    rcases a2 with ⟨a2, x, a3, a4⟩ | ⟨a2, a3⟩ <;> rcases b2 with ⟨b2, y, b3, b4⟩ | ⟨b2, b3⟩
    · refine .inl ⟨x, y, (SMap.mem_iff_find? g2.sorted).1 a3, (SMap.mem_iff_find? k2.sorted).1 b3, ?_⟩
      unfold Gmm.SameModel at a4 b4 ⊢
      rw [b4, a4]
    · rcases b3 with ⟨b3, -⟩ | ⟨b3, -⟩ <;> rw [a2] at b3 <;> cases b3
    · rcases a3 with ⟨a3, -⟩ | ⟨a3, -⟩ <;> rw [b2] at a3 <;> cases a3
    · exact .inr ⟨a2, b2⟩
  have hkeys : ∀ l, l ∈ SMap.keys M'.models ↔ l ∈ SMap.keys N'.models := by
    intro l
    constructor
    · intro h
      rcases hboth l (g3.known l h) with ⟨m, n, -, e, -⟩ | ⟨e, -⟩
      · exact SMap.mem_keys_iff.2 ⟨n, e⟩
      · exact absurd h e
    · intro h
      rcases hboth l (k3.known l h) with ⟨m, n, e, -⟩ | ⟨-, e⟩
      · exact SMap.mem_keys_iff.2 ⟨m, e⟩
      · exact absurd h e
  refine ⟨M', N', g1, k1, ?_, fun l m n hm hn => ?_⟩
  · have hp : (SMap.keys M'.models).Perm (SMap.keys N'.models) := (List.perm_ext_iff_of_nodup (SMap.keys_nodup g2.sorted) (SMap.keys_nodup k2.sorted)).2 hkeys
    exact hp.eq_of_pairwise (fun a b _ _ h1 h2 => absurd h1 (lt_asymm h2)) (SMap.keys_sorted g2.sorted) (SMap.keys_sorted k2.sorted)
  · have km := SMap.mem_of_find? hm
    have kn := SMap.mem_of_find? hn
    have hs : Gmm.SameModel m n := by
      rcases hboth l (g3.known l (SMap.mem_keys_iff.2 ⟨m, hm⟩)) with ⟨m', n', e1, e2, e3⟩ | ⟨e, -⟩
      · rw [hm] at e1
        rw [hn] at e2
        injection e1 with e1
        injection e2 with e2
        rw [e1, e2]
        exact e3
      · exact absurd (SMap.mem_keys_iff.2 ⟨m, hm⟩) e
    refine ⟨hs, fun xs hxs hx => ?_⟩
    obtain ⟨q1, q2, q3, q4, -⟩ := g2.cls _ km
    obtain ⟨_, h1, hm'⟩ := g2.buf _ km
    obtain ⟨h2, hn'⟩ := k2.buf _ kn
    obtain ⟨ps, m', n', r1, r2, -⟩ := Gmm.C51_filter_forgets D hD log m n hs q1 (k2.cls _ kn).1 hm'.ok hn'.ok xs hxs fun x hx' => by
      unfold Gmm.Fits
      simp only at q2 q3 q4
      rw [q2, q3, q4]
      exact hx x hx'
    exact ⟨ps, m', n', r1, r2⟩

end session

/-- a model without classes -/
theorem sessionModel_holds : sessionModel.Holds sessionFormat 3 :=
  ⟨rfl, rfl, SMap.sorted_nil, rfl, by simp [sessionModel], by simp [sessionModel], by simp [sessionModel]⟩

/-- the hypotheses of the theorems on C108 are met: a bimodal session with the classes "a" and "b"; a model without classes; the model with the class "b" that training "b" on that model gives; a
    training of "b" that is cancelled -/
theorem retrain_example : sessionFormat.Valid ∧ Takes.Admissible sessionFormat sessionA [] ∧ Takes.Filled (Takes.run sessionFormat sessionA []).1 ∧ sessionSettings.Valid ∧
    (∀ l, sessionSettings.mode l = sessionModel.mode) ∧ (∀ l, l ∈ ["b", "a", "b"] ↔ ∃ e ∈ (Takes.run sessionFormat sessionA []).1, e.2.1 = l) ∧
    (∀ e ∈ (Takes.run sessionFormat sessionA []).1, e.2.1 ≠ "c") ∧
    (∃ M : GmmModel ℝ, M.Holds sessionFormat sessionSettings.window ∧ (∀ l, sessionSettings.mode l = M.mode) ∧ "b" ∈ SMap.keys M.models ∧ M.models ≠ [] ∧
      ∀ l ∈ SMap.keys M.models, ∃ e ∈ (Takes.run sessionFormat sessionA []).1, e.2.1 = l) ∧
    (∀ lowest pct, ¬ ∃ m, Done sessionSettings HierHmm.halfDens Real.log (Compare.exact lowest pct) (fun _ _ => true) sessionFormat (Takes.run sessionFormat sessionA []).1 "b" m) := by
  obtain ⟨hv, ha, hne, hfill, hS, hD, -, -, hmode, hdone, hb, hcan⟩ := sequential_example
  obtain ⟨c1, -⟩ := session_classes
  have hlab : ∀ l, (∃ e ∈ (Takes.run sessionFormat sessionA []).1, e.2.1 = l) ↔ l = "a" ∨ l = "b" := by
    intro l
    have : (∃ e ∈ (Takes.run sessionFormat sessionA []).1, e.2.1 = l) ↔ ∃ e ∈ (Takes.run sessionFormat sessionA []).1.map (fun e => (e.1, e.2.1, e.2.2.frames)), e.2.1 = l := by
      simp
    rw [this, c1]
    simp [eq_comm, or_comm]
  refine ⟨hv, ha, hfill, hS, hmode, fun l => ?_, fun e he h => ?_, ?_, fun lowest pct => ?_⟩
  · rw [hlab]; simp only [List.mem_cons, List.not_mem_nil, or_false]; tauto
  · have := (hlab "c").1 ⟨e, he, h⟩
    simp at this
  · obtain ⟨M', g1, g2, g3, g5, g4⟩ := C108_train_class sessionFormat hv 0 emptyWorld rfl sessionA ha sessionSettings HierHmm.halfDens Real.log 0 0 sessionModel hfill hS hD (fun _ => false)
      sessionModel_holds (fun _ => hmode) "b" hb
    obtain ⟨tr, m, e1, -, e2⟩ := g4.replaced
    obtain ⟨eb, heb, hebl⟩ := hb
    obtain ⟨m0, tr0, d1, d2⟩ := hdone 0 0 eb heb
    rw [hebl, e1] at d1
    injection d1 with d1 _
    subst d1
    have hin : ∃ m', ("b", m') ∈ M'.models := by
      rcases e2 with ⟨-, m', h, -⟩ | ⟨-, ⟨h, -⟩ | ⟨h, -⟩⟩
      · exact ⟨m', h⟩
      · rw [d2] at h; cases h
      · rw [d2] at h; cases h
    obtain ⟨m', hin⟩ := hin
    refine ⟨M', g3, fun l => (hmode l).trans g5.symm, List.mem_map.2 ⟨_, hin, rfl⟩, List.ne_nil_of_mem hin, fun l hl => ?_⟩
    by_cases hll : l = "b"
    · exact ⟨eb, heb, hebl.trans hll.symm⟩
    · obtain ⟨lc, hlc, rfl⟩ := List.mem_map.1 hl
      obtain ⟨m, e1, -⟩ := (g4.others lc.1 hll).1 lc.2 hlc
      simp [sessionModel] at e1
  · rintro ⟨m, tr, e1, e2⟩
    exact hcan lowest pct ⟨m, tr, by simpa using e1, e2⟩

/-- the hypotheses of `C108_other_dimensions` are met: a session with three dimensions and the model of two dimensions with the class "b" -/
theorem other_dimensions_example : ∃ (f g : Format) (ops : List (RecOp ℝ String)) (M : GmmModel ℝ), f.Valid ∧ Takes.Admissible f ops [] ∧
    (∃ e ∈ (Takes.run f ops []).1, e.2.1 = "c") ∧ M.Holds g 3 ∧ M.models ≠ [] ∧ (g.dim ≠ f.dim ∨ g.bimodal = true ∧ g.di ≠ f.di) := by
  obtain ⟨-, -, -, -, -, -, -, ⟨M, h1, -, -, h2, -⟩, -⟩ := retrain_example
  obtain ⟨a1, a2⟩ := C102_any_takes (K := ℝ) (L := String) ⟨true, 3, 1⟩ [(1, "c", [[0, 0, 1]])] (by simp)
  refine ⟨⟨true, 3, 1⟩, sessionFormat, _, M, by simp [Format.Valid], a1, ?_, h1, h2, by simp [sessionFormat]⟩
  have : (1, "c", [[0, 0, 1]]) ∈ (Takes.run ⟨true, 3, 1⟩ (manyTakes [(1, "c", [[0, 0, (1 : ℝ)]])]) []).1.map (fun e => (e.1, e.2.1, e.2.2.frames)) := by
    rw [a2]; simp [SMap.assign]
  obtain ⟨e, he, h⟩ := List.mem_map.1 this
  simp only [Prod.mk.injEq] at h
  exact ⟨e, he, h.2.1⟩

end GmmModel
end Xmm
