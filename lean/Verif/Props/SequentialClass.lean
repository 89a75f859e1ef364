import Verif.Spec.SequentialClass
import Verif.Props.Retrain
import Verif.Props.HmmRetrain
set_option linter.unusedSectionVars false
/- C108, C109: training one class in the multithreading mode Sequential. -/
namespace Xmm
open TS Prog
open Phrase (loop)

theorem loop_ub_at {σ α : Type} (k n : Nat) (hkn : k < n) (a : α) (body : α → Nat → Prog σ α) (s : σ) (h : loop (k + 1) a body s = .ub) : loop n a body s = .ub := by
  induction n with
  | zero => omega
  | succ n ih =>
    by_cases hk : k = n
    · rw [← hk]; exact h
    · rw [loop_succ, ih (by omega)]

/-- more classes than places for their results -/
theorem MultiRes.copyClasses_short_ub (exp : ℝ → ℝ) (cls : List (String × ClassRes ℝ)) (n : Nat) (r : MultiRes ℝ) (hr : r.Sized n) (hn : n < cls.length) : copyClasses exp cls r = .ub := by
  unfold copyClasses
  have key : ∀ (cls : List (String × ClassRes ℝ)) (acc : Nat × ℝ × ℝ × ℝ) (r : MultiRes ℝ), r.Sized n → acc.1 ≤ n → n < acc.1 + cls.length →
      (cls.foldlM (fun (acc : Nat × ℝ × ℝ × ℝ) lc => do
        writeClass exp acc.1 lc.2
        let r ← Prog.get
        let a ← Gauss.rd r.instNorm acc.1
        let b ← Gauss.rd r.smoothedNorm acc.1
        let l ← Gauss.rd r.smoothedLog acc.1
        let best ← pickLikeliest acc.1 lc.1 acc.2.1 l
        Pure.pure (acc.1 + 1, best, acc.2.2.1 + a, acc.2.2.2 + b)) acc : Prog (MultiRes ℝ) (Nat × ℝ × ℝ × ℝ)) r = .ub := by
    intro cls
    induction cls with
    | nil => intro acc r _ h1 h2; simp at h2; omega
    | cons lc cls ih =>
      intro acc r hr h1 h2
      rw [List.foldlM_cons]
      by_cases ha : acc.1 < n
      · have k1 := hr.inst
        have k2 := hr.instNorm
        have k3 := hr.smoothed
        have k4 := hr.smoothedNorm
        have k5 := hr.smoothedLog
        simp only [bind_def, writeClass, get_def, wr, Gauss.rd, k1, k2, k3, k4, k5, ha, if_true, pure_def, set_def, List.getElem?_set_self, pickLikeliest]
        have hstep : ∀ (b : ℝ × ℝ × ℝ) (r' : MultiRes ℝ), r'.Sized n → _ := fun b r' hr' => ih (acc.1 + 1, b) r' hr' ha (by simp only [List.length_cons] at h2; simp only; omega)
        by_cases hq : acc.1 = 0 ∨ acc.2.1 < lc.2.logLik
        · simp only [hq, if_true]
          exact hstep _ _ ⟨by simp [k1], by simp [k2], by simp [k3], by simp [k4], by simp [k5]⟩
        · simp only [hq, if_false]
          exact hstep _ _ ⟨by simp [k1], by simp [k2], by simp [k3], by simp [k4], by simp [k5]⟩
      · have k1 := hr.inst
        simp only [bind_def, writeClass, get_def, wr, k1, ha, if_false, undef_def]
  exact key cls (0, 0, 0, 0) r hr (by simp) (by simpa using hn)

namespace GmmModel

/-- `filter` on a model that has more classes than places for their results -/
theorem filter_short_ub (D : Dens ℝ) (log exp : ℝ → ℝ) (x : List ℝ) (M : GmmModel ℝ) (hidle : M.training = false) (hnull : M.nulls = [])
    (hres : M.results.inst.length < M.models.length) (hcan : ∀ lc ∈ M.models, ∃ p c', Gmm.filter D log x lc.2 = .ret p c') : filter D log exp x M = .ub := by
  unfold filter
  rw [bind_of_ret (a := ()) (checkTraining_idle hidle), bind_of_ret (get_def _), if_neg (by simp [hnull])]
  refine bind_of_ub (loop_ub_at _ _ hres _ _ _ ?_)
  obtain ⟨a, s, h1, l, v, rfl, h2, h3⟩ := loop_state M.results.inst.length () (fun _ i => filterClass D log x i) M
    (fun t _ s => ∃ l v, s = { M with models := l, results := { M.results with inst := v } } ∧ v.length = M.results.inst.length ∧ ∀ i, t ≤ i → l[i]? = M.models[i]?)
    ⟨M.models, M.results.inst, rfl, rfl, fun _ _ => rfl⟩ (by
      rintro t ht _ s ⟨l, v, rfl, h2, h3⟩
      obtain ⟨p, c', hp⟩ := hcan M.models[t] (List.getElem_mem (by omega))
      have hlt : l[t]? = some M.models[t] := by rw [h3 t le_rfl]; exact List.getElem?_eq_getElem (by omega)
      refine ⟨(), { M with models := l.set t (M.models[t].1, c'), results := { M.results with inst := v.set t p } }, ?_, _, _, rfl, by simpa using h2, fun i hi => ?_⟩
      · unfold filterClass
        simp only [bind_def, onClass, hlt, hp, get_def, MultiRes.wr]
        rw [if_pos (by omega)]
        simp only [pure_def, set_def]
      · rw [List.getElem?_set_ne (by omega)]
        exact h3 i (by omega))
  rw [loop_succ, h1]
  obtain ⟨p, c', hp⟩ := hcan M.models[M.results.inst.length] (List.getElem_mem hres)
  have hlt : l[M.results.inst.length]? = some M.models[M.results.inst.length] := by rw [h3 _ le_rfl]; exact List.getElem?_eq_getElem hres
  show filterClass D log x M.results.inst.length _ = .ub
  unfold filterClass
  simp only [bind_def, onClass, hlt, hp, get_def, MultiRes.wr]
  rw [if_neg (by omega)]
  rfl

theorem trainLabel_both {f : Format} {i : Nat} {w : World ℝ String} {t : TSet String} {τ : Takes ℝ String} (h : Sim f i w t τ) (hx : Indexed w t) (hv : f.Valid)
    (hfill : Takes.Filled τ) (S : GmmSettings ℝ) (hS : S.Valid) (D : Dens ℝ) (hD : D.Sound) (log : ℝ → ℝ) (lowest pct : ℝ) (cancel : Nat → Bool)
    (M : GmmModel ℝ) (hM : M.Holds f S.window) (label : String) (hl : ∃ e ∈ τ, e.2.1 = label) :
    ∃ tr0 n1 c1 M1, trainedAlone S D log (Compare.exact lowest pct) cancel f label (Takes.data f τ label) = .ret tr0 n1 ∧ (tr0.status = .cancel → ∃ k, cancel k = true) ∧
      trainLabelSequential S D log Real.sqrt (Compare.exact lowest pct) cancel w t label M = .ret () M1 ∧
      M1 = { M with training := false, dout := f.dim - f.di, models := M1.models } ∧ SMap.Sorted M1.models ∧
      (∀ l, SMap.find? l M1.models = if l = label then some c1 else SMap.find? l M.models) ∧
      (tr0.status = .done → trainLabel S D log Real.sqrt (Compare.exact lowest pct) cancel w t label M = reset M1) ∧
      (tr0.status ≠ .cancel → Gmm.SameModel n1 c1 ∧ c1.CanFilter ∧ c1.buf = (classFor S f.bimodal f.dim f.di label M.models).buf ∧
        c1.bimodal = f.bimodal ∧ c1.dim = f.dim ∧ c1.di = f.di ∧ c1.mode = S.mode label ∧ c1.window = S.window) := by
  set C := Compare.exact lowest pct with hC
  have hlab := (labels_of_sim h hx hv label).2 hl
  have hdi : (if f.bimodal then f.di else 0) = f.di := by
    cases hb : f.bimodal <;> simp [Format.Valid, hb] at hv ⊢
    exact hv.1.symm
  have hod : M.otherDimensions f.dim f.di = false := by
    unfold otherDimensions
    cases hm : M.models with
    | nil => rfl
    | cons lc ms =>
      obtain ⟨-, -, h3, h4, -⟩ := hM.cls lc (by rw [hm]; exact List.mem_cons_self)
      simp [h3, h4]
  obtain ⟨hset, hbuf⟩ := classFor_same hv S M hM label
  set c0 := classFor S f.bimodal f.dim f.di label M.models with hc0
  set n0 := newClass S f.bimodal f.dim f.di label with hn0
  set data := Takes.data f τ label with hdata
  have hne : data.frames ≠ [] := by
    obtain ⟨e, he, rfl⟩ := hl
    obtain ⟨e', he', h1, h2⟩ := hfill e he
    intro h0
    simp only [hdata, Takes.data, KData.frames, Takes.frames, List.flatten_eq_nil_iff, List.mem_map] at h0
    exact h2 (h0 _ ⟨e', by simp [Takes.ofClass, he', h1], rfl⟩)
  have hfed : n0.Fed data.deviation data := ⟨rfl, h.frame_length hv label, hne, by simp [KData.deviation, hdata, Takes.data, hn0, newClass]⟩
  have hadm : n0.Admissible := newClass_admissible S hS f hv label
  have hset' := hset
  unfold Gmm.SameSettings at hset'
  have hfed' : c0.Fed data.deviation data := by rw [hset']; exact ⟨hfed.dim, hfed.frame, hfed.some, hfed.sd⟩
  have hadm' : c0.Admissible := by rw [hset']; exact ⟨hadm.gaussians, hadm.dim, hadm.di⟩
  have hwin' : 1 ≤ c0.window := by rw [hset']; exact hS.window
  have hreg' : 1 / 10 ^ 9 ≤ c0.absReg := by rw [hset']; exact hS.absReg label
  obtain ⟨⟨n1, st⟩, tr0, q1, q2, q3, q4, q5, -, q7⟩ := trainedAlone_ret h hv hfill S hS D hD log lowest pct (fun _ => cancel) label hl n0
  simp only at q1 q2 q3 q4 q5 q7
  obtain ⟨tr, c1, p1, p2, p3⟩ := Gmm.retrain D log n0 c0 hset hadm data.deviation data hfed S.em hS.minIter C cancel tr0 n1 q1
  obtain ⟨tr', c1', k1, -, -, -, -, -, -, k2⟩ := Gmm.C81_training D hD log c0 hadm' hwin' data.deviation data hfed' hreg' lowest pct S.em hS.minIter cancel
  rw [← hC, p1] at k1
  injection k1 with k1 k1'
  subst k1 k1'
  have hgood : tr.status ≠ .cancel → c1.CanFilter ∧ c1.buf = c0.buf ∧ c1.bimodal = f.bimodal ∧ c1.dim = f.dim ∧ c1.di = f.di ∧ c1.mode = S.mode label ∧ c1.window = S.window := by
    intro hc
    obtain ⟨r1, ls, m'', r2, r3, r4, -⟩ := k2 hc
    obtain ⟨ls', m3, s1, -, -, s2⟩ := Gmm.C81_trained_usable D hD log _ hadm' hwin' _ _ hfed' hreg' tr.updates r4
    rw [r2] at s1
    injection s1 with _ s1
    subst s1
    refine ⟨r1, ?_, ?_, ?_, ?_, ?_, ?_⟩ <;> rw [r3] <;> simp only <;> rw [s2] <;> simp only
    · rw [hset']; rfl
    · rw [hset']; rfl
    · rw [hset']; exact hdi
    · rw [hset']; rfl
    · rw [hset']; rfl
  refine ⟨tr0, n1, c1, { M with training := false, dout := f.dim - f.di, models := SMap.assign label c1 (SMap.assign label c0 M.models) }, q1, q5, ?_, rfl, hM.sorted.assign.assign,
    fun l => ?_, fun hd => ?_, fun hc => ?_⟩
  · unfold trainLabelSequential
    rw [if_neg (by simpa using hlab)]
    rw [bind_def, get_def]
    beta_reduce
    simp only [h.dim, h.di]
    rw [if_neg (by rw [hod]; simp)]
    simp only [bind_def, get_def, modify_def, trainLabelHere, SMap.find?_assign, if_true, hM.bimodal, h.dim, h.di,
      trainOne_any h hx hv S D log C cancel label hlab]
    rw [← hc0, ← hdata, p1]
    simp only [hdi]
  · simp only [SMap.find?_assign]
    by_cases hll : l = label <;> simp [hll]
  · unfold trainLabel
    rw [if_neg (by simpa using hlab)]
    rw [bind_def, get_def]
    beta_reduce
    simp only [h.dim, h.di]
    rw [if_neg (by rw [hod]; simp)]
    simp only [bind_def, get_def, modify_def, trainThread, SMap.find?_assign, if_true, hM.bimodal, h.dim, h.di, inThread,
      trainOne_any h hx hv S D log C cancel label hlab]
    rw [← hc0, ← hdata, p1]
    simp only [hdi, p2, hd]
    simp
  · obtain ⟨-, s2⟩ := p3 hc
    exact ⟨s2, hgood (by rw [p2]; exact hc)⟩

section session
variable (f : Format) (hv : f.Valid) (i : Nat) (w0 : World ℝ String) (h0 : w0.sets i = none) (ops : List (RecOp ℝ String)) (ha : Takes.Admissible f ops [])
  (S : GmmSettings ℝ) (D : Dens ℝ) (log : ℝ → ℝ) (lowest pct : ℝ) (M : GmmModel ℝ) (hfill : Takes.Filled (Takes.run f ops []).1) (hS : S.Valid) (hD : D.Sound)
  (hM : M.Holds f S.window) (label : String) (hl : ∃ e ∈ (Takes.run f ops []).1, e.2.1 = label)
include hv h0 ha hfill hS hD hM hl

/-- C108, mode Sequential.  For every recording session and every model that can be used or has not been trained, whose classes have the format of the session: `train(set, label)` for a label of
    the session is defined and raises no exception, whether it is cancelled or not; the other classes are not touched.  If the training is done, then `reset()` makes it the model that the mode
    Parallel leaves (`C108_train_class`). -/
theorem C108_sequential_class (cancel : Nat → Bool) :
    ∃ M1, recordAndTrainClassSequential S D log (Compare.exact lowest pct) cancel f i ops w0 label M = .ret () M1 ∧ M1.training = false ∧
      (∀ l ≠ label, SMap.find? l M1.models = SMap.find? l M.models) ∧
      ((∃ m, Done S D log (Compare.exact lowest pct) (fun _ => cancel) f (Takes.run f ops []).1 label m) →
        recordAndTrainClass S D log (Compare.exact lowest pct) cancel f i ops w0 label M = reset M1) := by
  obtain ⟨w, t, h1, h2, h3, -⟩ := recordThen_sim f hv i w0 h0 ops ha
  obtain ⟨tr, n, c, M1, g1, -, g2, g3, -, g4, g5, -⟩ := trainLabel_both h1 h2 hv hfill S hS D hD log lowest pct cancel M hM label hl
  refine ⟨M1, by unfold recordAndTrainClassSequential; rw [h3]; exact g2, by rw [g3], fun l hne => by rw [g4, if_neg hne], ?_⟩
  rintro ⟨m, tr', e1, e2⟩
  rw [g1] at e1
  injection e1 with e1 _
  subst e1
  unfold recordAndTrainClass
  rw [h3]
  exact g5 e2

/-- **C108 (violated), mode Sequential.**  A class whose training is not done, for instance because it is cancelled, is in the model that the mode Sequential leaves, also if it did not exist before. -/
theorem C108_sequential_failed_class_violated (cancel : Nat → Bool)
    (_hfail : ¬ ∃ m, Done S D log (Compare.exact lowest pct) (fun _ => cancel) f (Takes.run f ops []).1 label m) (_hnew : label ∉ SMap.keys M.models) :
    ∃ M1, recordAndTrainClassSequential S D log (Compare.exact lowest pct) cancel f i ops w0 label M = .ret () M1 ∧ label ∈ SMap.keys M1.models := by
  obtain ⟨w, t, h1, h2, h3, -⟩ := recordThen_sim f hv i w0 h0 ops ha
  obtain ⟨tr, n, c, M1, -, -, g2, -, -, g4, -⟩ := trainLabel_both h1 h2 hv hfill S hS D hD log lowest pct cancel M hM label hl
  exact ⟨M1, by unfold recordAndTrainClassSequential; rw [h3]; exact g2, SMap.mem_keys_iff.2 ⟨c, by rw [g4, if_pos rfl]⟩⟩

/-- **C108 (undefined), mode Sequential.**  If a class is added to a model that can be used, then `filter`, without `reset()`, writes the likelihood of the last class outside of the results.  (The
    mode Parallel calls `reset()`.) -/
theorem C108_sequential_without_reset_ub (hu : M.results.Sized M.models.length) (hnew : label ∉ SMap.keys M.models) (exp : ℝ → ℝ) (x : List ℝ) (hx : f.Sample x) :
    ∃ M1, recordAndTrainClassSequential S D log (Compare.exact lowest pct) (fun _ => false) f i ops w0 label M = .ret () M1 ∧ filter D log exp x M1 = .ub := by
  obtain ⟨w, t, h1, h2, h3, -⟩ := recordThen_sim f hv i w0 h0 ops ha
  obtain ⟨tr, n, c, M1, -, gc, g2, g3, gs, g4, -, g6⟩ := trainLabel_both h1 h2 hv hfill S hS D hD log lowest pct (fun _ => false) M hM label hl
  obtain ⟨-, q1, q2, q3, q4, q5, -⟩ := g6 (fun h => by obtain ⟨k, hk⟩ := gc h; cases hk)
  have hnone : SMap.find? label M.models = none := by
    cases hf : SMap.find? label M.models with
    | none => rfl
    | some c => exact absurd (SMap.mem_keys_iff.2 ⟨c, hf⟩) hnew
  have hfits : ∀ m : Gmm ℝ, m.bimodal = f.bimodal → m.dim = f.dim → m.di = f.di → m.Fits x := by
    intro m e1 e2 e3
    unfold Gmm.Fits
    rw [e1, e2, e3]
    exact hx
  refine ⟨M1, by unfold recordAndTrainClassSequential; rw [h3]; exact g2, filter_short_ub D log exp x M1 (by rw [g3]) (by rw [g3]; exact hM.nulls) ?_ fun lc hlc => ?_⟩
  · -- one class more
    have hres : M1.results.inst.length = M.models.length := by rw [g3]; exact hu.inst
    rw [hres]
    have hsub : (label :: SMap.keys M.models).Subperm (SMap.keys M1.models) := by
      refine List.subperm_of_subset (List.nodup_cons.2 ⟨hnew, SMap.keys_nodup hM.sorted⟩) fun l hl => ?_
      rcases List.mem_cons.1 hl with rfl | hl
      · exact SMap.mem_keys_iff.2 ⟨c, by rw [g4, if_pos rfl]⟩
      · obtain ⟨m, hm⟩ := SMap.mem_keys_iff.1 hl
        by_cases hll : l = label
        · exact SMap.mem_keys_iff.2 ⟨c, by rw [g4, if_pos hll]⟩
        · exact SMap.mem_keys_iff.2 ⟨m, by rw [g4, if_neg hll]; exact hm⟩
    have := hsub.length_le
    simp only [SMap.keys, List.length_cons, List.length_map] at this
    omega
  · have e1 := (SMap.mem_iff_find? gs (k := lc.1) (v := lc.2)).1 hlc
    rw [g4] at e1
    by_cases hll : lc.1 = label
    · rw [if_pos hll] at e1
      injection e1 with e1
      rw [← e1]
      obtain ⟨d, hd⟩ := Gmm.obsDensities_exist D hD c q1.ready
      have hf := hfits c q3 q4 q5
      obtain ⟨c1, k1, -⟩ := Gmm.filter_any D hD log c q1 x hf (d x) (hd x hf).1 [] (w := 1) (by
        rw [q2]; unfold classFor; rw [hnone]; exact CBuf.Holds.init 0 1 (by omega))
      exact ⟨_, _, k1⟩
    · rw [if_neg hll] at e1
      have hmem := SMap.mem_of_find? e1
      obtain ⟨k1, k2, k3, k4, -⟩ := hM.cls _ hmem
      obtain ⟨_, hist, hb⟩ := hM.buf _ hmem
      obtain ⟨d, hd⟩ := Gmm.obsDensities_exist D hD lc.2 k1.ready
      have hf := hfits lc.2 k2 k3 k4
      obtain ⟨c1, k5, -⟩ := Gmm.filter_any D hD log lc.2 k1 x hf (d x) (hd x hf).1 hist hb
      exact ⟨_, _, k5⟩

end session

/-- The hypotheses are met: the session with the classes "a" and "b"; the model that has been trained for "b" alone, to which "a" is added; a training of "b" that is cancelled. -/
theorem sequential_class_example : sessionFormat.Valid ∧ Takes.Admissible sessionFormat sessionA [] ∧ Takes.Filled (Takes.run sessionFormat sessionA []).1 ∧ sessionSettings.Valid ∧
    HierHmm.halfDens.Sound ∧ (∃ e ∈ (Takes.run sessionFormat sessionA []).1, e.2.1 = "a") ∧
    (∀ lowest pct, ∃ m, Done sessionSettings HierHmm.halfDens Real.log (Compare.exact lowest pct) (fun _ _ => false) sessionFormat (Takes.run sessionFormat sessionA []).1 "a" m) ∧
    (∃ M : GmmModel ℝ, M.Holds sessionFormat sessionSettings.window ∧ M.results.Sized M.models.length ∧ M.models ≠ [] ∧ "a" ∉ SMap.keys M.models) ∧
    (sessionModel.Holds sessionFormat sessionSettings.window ∧ "b" ∉ SMap.keys sessionModel.models ∧ (∃ e ∈ (Takes.run sessionFormat sessionA []).1, e.2.1 = "b") ∧
      ∀ lowest pct, ¬ ∃ m, Done sessionSettings HierHmm.halfDens Real.log (Compare.exact lowest pct) (fun _ _ => true) sessionFormat (Takes.run sessionFormat sessionA []).1 "b" m) := by
  obtain ⟨hv, ha, -, hfill, hS, hD, -, -, hmode, hdone, hb, -⟩ := sequential_example
  obtain ⟨-, -, -, -, -, hlab, -, -, hcan⟩ := retrain_example
  have hA : ∃ e ∈ (Takes.run sessionFormat sessionA []).1, e.2.1 = "a" := (hlab "a").1 (by simp)
  refine ⟨hv, ha, hfill, hS, hD, hA, fun lowest pct => ?_, ?_, sessionModel_holds, by simp [sessionModel, SMap.keys], hb, hcan⟩
  · obtain ⟨e, he, hel⟩ := hA
    rw [← hel]
    exact hdone lowest pct e he
  · obtain ⟨M', g1, g2, g3, g5, g4⟩ := C108_train_class sessionFormat hv 0 emptyWorld rfl sessionA ha sessionSettings HierHmm.halfDens Real.log 0 0 sessionModel hfill hS hD (fun _ => false)
      sessionModel_holds (fun _ => hmode) "b" hb
    obtain ⟨tr, m, e1, -, e2⟩ := g4.replaced
    obtain ⟨eb, heb, hebl⟩ := hb
    obtain ⟨m0, tr0, d1, d2⟩ := hdone 0 0 eb heb
    rw [hebl, e1] at d1
    injection d1 with d1 _
    subst d1
    have hin : ∃ m', ("b", m') ∈ M'.models := by
      rcases e2 with ⟨-, m', h, -⟩ | ⟨-, ⟨h, -⟩ | ⟨h, -⟩⟩
      · exact ⟨m', h⟩
      · rw [d2] at h; cases h
      · rw [d2] at h; cases h
    obtain ⟨m', hin⟩ := hin
    refine ⟨M', g3, g2.sized, List.ne_nil_of_mem hin, fun hk => ?_⟩
    obtain ⟨lc, hlc, hl⟩ := List.mem_map.1 hk
    obtain ⟨m, e1, -⟩ := (g4.others "a" (by decide)).1 lc.2 (by rw [← hl]; exact hlc)
    simp [sessionModel] at e1

end GmmModel

namespace HierHmm
open HierSpec HmmSpec Hmm

/-- `filter` on classes that have been trained, with results that have no space for all of them -/
theorem filter_short_ub (D : Dens ℝ) (hD : D.Sound) (log exp : ℝ → ℝ) (x : List ℝ) (M : HierHmm ℝ) (hidle : M.training = false) (hnull : M.nulls = []) (n : Nat) (hres : M.results.Sized n)
    (hn : n < M.models.length) (hh : M.hier = true) (hst : M.started = false) (hprior : M.prior.length = M.models.length)
    (hcls : ∀ lc ∈ M.models, lc.2.InHierarchy ∧ lc.2.bimodal = M.bimodal ∧ (∃ win hist, Logs lc.2.buf win hist) ∧ lc.2.Fits x) : filter D log exp x M = .ub := by
  have hem : ∃ b : Nat → Nat → ℝ, HierSpec.Emits D M x b := by
    have key : ∀ c : Nat, ∃ b : Nat → ℝ, ∀ lc : String × Hmm ℝ, M.models[c]? = some lc → HmmSpec.Emits D lc.2 x b := by
      intro c
      by_cases hc : c < M.models.length
      · obtain ⟨lc, hlc⟩ := get_class hc
        obtain ⟨k1, -, -, k4⟩ := hcls lc (mem_of_get hlc)
        obtain ⟨b, hb⟩ := emits_exist D hD lc.2 k1.can
        refine ⟨b x, fun lc' hlc' => ?_⟩
        rw [hlc] at hlc'
        rw [← Option.some.inj hlc']
        exact (hb x k4).1
      · exact ⟨fun _ => 0, fun lc hlc => absurd (lt_of_get hlc) hc⟩
    choose b hb using key
    exact ⟨b, fun c lc hlc => hb c lc hlc⟩
  obtain ⟨b, hb⟩ := hem
  have e1 := forwardInit_any D M hidle hprior (fun lc hlc => ⟨(hcls lc hlc).1, (hcls lc hlc).2.1⟩) x b hb
  obtain ⟨l, g1, g2, -⟩ := eachClass_rel ({ M with
      models := M.models.mapIdx fun c lc => (lc.1, divided (initNorm M b) (begun (M.prior.getD c 0) (b c) lc.2))
      started := true } : HierHmm ℝ) (fun _ => progressClass log) (fun _ _ _ => True) (fun i lc hlc => by
    rw [List.getElem?_mapIdx, Option.map_eq_some_iff] at hlc
    obtain ⟨a, ha, rfl⟩ := hlc
    obtain ⟨k1, -, ⟨win, hist, k3⟩, -⟩ := hcls a (mem_of_get ha)
    have hsame : a.2.SameClass (divided (initNorm M b) (begun (M.prior.getD i 0) (b i) a.2)) := ⟨rfl, SameStates.refl _ k1.can.state⟩
    obtain ⟨m', q, -⟩ := progressClass_any log (divided (initNorm M b) (begun (M.prior.getD i 0) (b i) a.2)) (hsame.inHierarchy k1)
      ⟨by simp [divided, begun], by simp [divided, begun], by simp [divided, begun], k1.exit⟩ (win := win) hist k3
    exact ⟨m', q, trivial⟩)
  unfold filter
  rw [bind_of_ret (checkTraining_idle hidle), bind_of_ret (get_def M), if_neg (by simp [hnull])]
  have e2 : forward D log x M = .ret () ({ M with
      models := M.models.mapIdx fun c lc => (lc.1, divided (initNorm M b) (begun (M.prior.getD c 0) (b c) lc.2))
      started := true } : HierHmm ℝ) := by
    unfold forward
    rw [if_pos hh, if_neg (by simp [hst]), e1]
  simp only [List.length_mapIdx] at g1 g2
  rw [bind_of_ret e2, bind_of_ret g1, bind_of_ret (get_def _)]
  refine bind_of_ub ?_
  unfold onResults
  have := MultiRes.copyClasses_short_ub exp (classes { M with models := l, started := true }) n M.results hres (by simp [classes, g2, hn])
  simp only [MultiRes.updateResults, bind_def, this]

section session
variable (f : Format) (hv : f.Valid) (i : Nat) (w0 : World ℝ String) (h0 : w0.sets i = none) (ops : List (RecOp ℝ String)) (ha : Takes.Admissible f ops [])
  (z : ℝ) (D : Dens ℝ) (log : ℝ → ℝ) (lowest pct : ℝ) (P : EmParams) (M : HierHmm ℝ)
  (hlong : Takes.LongEnough (Takes.run f ops []).1 fun l => (M.conf l).n) (hS : M.Settings P) (hD : D.Sound)
  (hlog : ∀ x y, 0 < x → 0 < y → log (x * y) = log x + log y) (hM : M.Holds f) (label : String) (hl : ∃ e ∈ (Takes.run f ops []).1, e.2.1 = label)
include hv h0 ha hlong hS hD hlog hM hl

/-- C109, mode Sequential.  For every recording session, all settings and every hierarchical model as in `C109_train_class`: `train(set, label)` for a label of the session is defined and raises no
    exception, whether it is cancelled or not; the other classes are not touched.  If the training is done, then `reset()` makes it the model that the mode Parallel leaves. -/
theorem C109_sequential_class (cancel : Nat → Bool) :
    ∃ M1, recordAndTrainHmmClassSequential z D log (Compare.exact lowest pct) P cancel f i ops w0 label M = .ret () M1 ∧ M1.training = false ∧
      (∀ l ≠ label, SMap.find? l M1.models = SMap.find? l M.models) ∧
      ((∃ m, Done z D log (Compare.exact lowest pct) P (fun _ => cancel) f (Takes.run f ops []).1 M.conf M.window label m) →
        (∃ M', reset M1 = .ret () M') ∧ recordAndTrainHmmClass z D log (Compare.exact lowest pct) P cancel f i ops w0 label M = reset M1) := by
  obtain ⟨w, t, h1, h2, h3, -⟩ := recordThen_sim f hv i w0 h0 ops ha
  obtain ⟨n, M3, c1, m, tr, a1, ⟨a2, -⟩, a3, a4, a5, a6, a7, a8, M1, b1, b2, b3, b4⟩ := trainLabel_core h1 h2 hv M hM P hS hlong z D hD log hlog lowest pct cancel label hl
  refine ⟨M1, by unfold recordAndTrainHmmClassSequential; rw [h3]; exact b1, b2, fun l hne => by rw [b3, if_neg hne], ?_⟩
  rintro ⟨m', tr', e1, e2⟩
  have e3 := a6.symm.trans e1
  injection e3 with e3 _
  subst e3
  obtain ⟨rfl, b5, -⟩ := b4 e2
  have hnull : M1.nulls = [] := by rw [a4]; exact hM.nulls
  have hflat : ∀ lc ∈ M1.models, Flat lc.2 := by
    intro lc hlc
    have k := (SMap.mem_iff_find? a3 (k := lc.1) (v := lc.2)).1 hlc
    rw [b3] at k
    by_cases hll : lc.1 = label
    · rw [if_pos hll] at k
      injection k with k
      obtain ⟨r1, r2, ⟨q, r3⟩, -⟩ := a8 e2
      obtain ⟨tr2, q1, q2, -, -, -, q6, -⟩ := a5
      obtain ⟨p1, -⟩ := q6 (by have := a6.symm.trans q1; injection this with this _; rw [← this]; exact e2)
      rw [← k]
      refine ⟨?_, r1, by rw [r2]; exact hS.states label, ?_, ?_⟩ <;> rw [r3]
      · exact p1.can.idle
      · exact p1.can.window
      · exact p1.can.wf.trans
    · rw [if_neg hll] at k
      have hmem := SMap.mem_of_find? k
      obtain ⟨p1, -⟩ := hM.cls _ hmem
      obtain ⟨_, hist, hb⟩ := hM.buf _ hmem
      exact ⟨p1.can.idle, Logs.bufOk hb, p1.can.wf.pos, p1.can.window, p1.can.wf.trans⟩
  obtain ⟨M', r1, r2, r3, r4⟩ := reset_any hnull hflat b2
  refine ⟨⟨M', r1⟩, ?_⟩
  unfold recordAndTrainHmmClass
  rw [h3]
  show trainLabel z D log Real.sqrt (Compare.exact lowest pct) P KData.deviation cancel w t label M = _
  rw [a1, bind_of_ret r1, r1]
  unfold updateTransitionParameters
  rw [bind_of_ret (get_def _), if_pos (by rw [r4, a2.prior]; simp [size, r2, r3, b5]), pure_def]

/-- **C109 (violated), mode Sequential.**  A class whose training is not done, for instance because it is cancelled, is in the model that the mode Sequential leaves, also if it did not exist before. -/
theorem C109_sequential_failed_class_violated (cancel : Nat → Bool)
    (_hfail : ¬ ∃ m, Done z D log (Compare.exact lowest pct) P (fun _ => cancel) f (Takes.run f ops []).1 M.conf M.window label m) (_hnew : label ∉ SMap.keys M.models) :
    ∃ M1, recordAndTrainHmmClassSequential z D log (Compare.exact lowest pct) P cancel f i ops w0 label M = .ret () M1 ∧ label ∈ SMap.keys M1.models := by
  obtain ⟨w, t, h1, h2, h3, -⟩ := recordThen_sim f hv i w0 h0 ops ha
  obtain ⟨n, M3, c1, m, tr, -, -, -, -, -, -, -, -, M1, b1, -, b3, -⟩ := trainLabel_core h1 h2 hv M hM P hS hlong z D hD log hlog lowest pct cancel label hl
  exact ⟨M1, by unfold recordAndTrainHmmClassSequential; rw [h3]; exact b1, SMap.mem_keys_iff.2 ⟨c1, by rw [b3, if_pos rfl]⟩⟩

/-- **C109 (undefined), mode Sequential.**  If a class is added to a hierarchical model that is at the start of a recognition (after `reset()`, or without classes), and its training is done, then
    `filter`, without `reset()`, writes the likelihood of the last class outside of the results. -/
theorem C109_sequential_without_reset_ub (hr : M.results.Sized M.models.length) (hst : M.started = false) (hnew : label ∉ SMap.keys M.models)
    (hdone : ∃ m, Done z D log (Compare.exact lowest pct) P (fun _ _ => false) f (Takes.run f ops []).1 M.conf M.window label m) (exp : ℝ → ℝ) (x : List ℝ) (hx : f.Sample x) :
    ∃ M1, recordAndTrainHmmClassSequential z D log (Compare.exact lowest pct) P (fun _ => false) f i ops w0 label M = .ret () M1 ∧ filter D log exp x M1 = .ub := by
  obtain ⟨w, t, h1, h2, h3, -⟩ := recordThen_sim f hv i w0 h0 ops ha
  obtain ⟨n, M3, c1, m, tr, a1, ⟨a2, -⟩, a3, a4, a5, a6, a7, a8, M1, b1, b2, b3, b4⟩ := trainLabel_core h1 h2 hv M hM P hS hlong z D hD log hlog lowest pct (fun _ => false) label hl
  obtain ⟨m', tr', e1, e2⟩ := hdone
  have e3 := a6.symm.trans e1
  injection e3 with e3 _
  subst e3
  obtain ⟨rfl, b5, b6, -⟩ := b4 e2
  have hnone : SMap.find? label M.models = none := by
    cases hf : SMap.find? label M.models with
    | none => rfl
    | some c => exact absurd (SMap.mem_keys_iff.2 ⟨c, hf⟩) hnew
  have hlen : M.models.length < M1.models.length := by
    have hsub : (label :: SMap.keys M.models).Subperm (SMap.keys M1.models) := by
      refine List.subperm_of_subset (List.nodup_cons.2 ⟨hnew, SMap.keys_nodup hM.sorted⟩) fun l hl => ?_
      rcases List.mem_cons.1 hl with rfl | hl
      · exact SMap.mem_keys_iff.2 ⟨c1, by rw [b3, if_pos rfl]⟩
      · obtain ⟨m, hm⟩ := SMap.mem_keys_iff.1 hl
        by_cases hll : l = label
        · exact SMap.mem_keys_iff.2 ⟨c1, by rw [b3, if_pos hll]⟩
        · exact SMap.mem_keys_iff.2 ⟨m, by rw [b3, if_neg hll]; exact hm⟩
    have := hsub.length_le
    simp only [SMap.keys, List.length_cons, List.length_map] at this
    omega
  have hbi : M1.bimodal = f.bimodal := by rw [a4]; exact hM.bimodal
  refine ⟨M1, by unfold recordAndTrainHmmClassSequential; rw [h3]; exact b1, filter_short_ub D hD log exp x M1 b2 (by rw [a4]; exact hM.nulls) M.models.length (by rw [a4]; exact hr) hlen
    (by rw [a4]; exact hM.hier) (by rw [a4]; exact hst) (by rw [a2.prior, b5]) fun lc hlc => ?_⟩
  have hfits : ∀ m : Hmm ℝ, m.bimodal = f.bimodal → m.dim = f.dim → m.di = f.di → m.Fits x := by
    intro m e1 e2 e3
    unfold Hmm.Fits
    rw [e1, e2, e3]
    exact hx
  have k := (SMap.mem_iff_find? a3 (k := lc.1) (v := lc.2)).1 hlc
  rw [b3] at k
  by_cases hll : lc.1 = label
  · rw [if_pos hll] at k
    injection k with k
    obtain ⟨-, r2, ⟨q, r3⟩, r4, -⟩ := a8 e2
    obtain ⟨tr2, q1, q2, -, -, -, q6, -⟩ := a5
    obtain ⟨p1, p2, p3, p4, p5, p6, p7, p8, p9⟩ := q6 (by have := a6.symm.trans q1; injection this with this _; rw [← this]; exact e2)
    have hnm : m.n = (M.conf label).n := by rw [← r2, r3]; rfl
    have hsame : m.SameClass c1 := by
      have e : q.exitP = m.exitP := by
        have : c1.exitP = q.exitP := by rw [r3]; rfl
        rw [← this, r4 hnone, p8, r2, hnm]
      rw [r3]
      exact withPast_same q p1.can e
    rw [← k]
    have hb1 : c1.bimodal = f.bimodal := by rw [r3]; exact p3
    refine ⟨hsame.inHierarchy p1, hb1.trans hbi.symm, ⟨1, [], by rw [b6 hnone]; exact CBuf.Holds.init 0 1 (by omega)⟩, hfits c1 hb1 (by rw [r3]; exact p4) (by rw [r3]; exact p5)⟩
  · rw [if_neg hll] at k
    have hmem := SMap.mem_of_find? k
    obtain ⟨g1, g2, g3, g4, -⟩ := hM.cls _ hmem
    obtain ⟨_, hist, hb⟩ := hM.buf _ hmem
    exact ⟨g1, g2.trans hbi.symm, ⟨_, hist, hb⟩, hfits _ g2 g3 g4⟩

end session

/-- The hypotheses are met: the session and the models of `retrain_example`; the training of "a" is done if nobody cancels it. -/
example : sessionModel.Holds sessionFormat ∧ sessionModel.Settings ⟨5, 10⟩ ∧ sessionFormat.Valid ∧ Takes.Admissible sessionFormat sessionA [] ∧
    (Takes.LongEnough (Takes.run sessionFormat sessionA []).1 fun l => (sessionModel.conf l).n) ∧ bigDens.Sound ∧ (∃ e ∈ (Takes.run sessionFormat sessionA []).1, e.2.1 = "a") ∧
    "a" ∉ SMap.keys sessionModel.models ∧ sessionModel.results.Sized sessionModel.models.length ∧ sessionModel.started = false ∧
    (∃ M : HierHmm ℝ, M.Holds sessionFormat ∧ M.conf = sessionModel.conf ∧ M.window = 3 ∧ "a" ∈ SMap.keys M.models) ∧
    (∀ z lowest pct, ∃ m, Done z bigDens Real.log (Compare.exact lowest pct) ⟨5, 10⟩ (fun _ _ => false) sessionFormat (Takes.run sessionFormat sessionA []).1 sessionModel.conf 3 "a" m) ∧
    (∀ z lowest pct, ¬ ∃ m, Done z bigDens Real.log (Compare.exact lowest pct) ⟨5, 10⟩ (fun _ _ => true) sessionFormat (Takes.run sessionFormat sessionA []).1 sessionModel.conf 3 "a" m) := by
  obtain ⟨h1, h2, h3, h4, h5, -, h6, h7, -, ⟨M, k1, k2, -, k3, k4, -⟩, -, h8, h9⟩ := retrain_example
  refine ⟨h1, h2, h3, h4, h5, h6, (h7 "a").1 (by simp), by simp [sessionModel, SMap.keys], ⟨rfl, rfl, rfl, rfl, rfl⟩, rfl, ⟨M, k1, k2, k3, k4⟩, fun z lowest pct => ?_, h9⟩
  obtain ⟨tr, m, d1, d2⟩ := h8 z lowest pct
  exact ⟨m, tr, d1, d2⟩

end HierHmm
end Xmm
