import Verif.Props.SequentialClass
/- C108, C109: training several classes one after the other in the multithreading mode Sequential, with one call of `reset()` at the end. -/
namespace Xmm
open TS
open Prog (bind_def get_def pure_def)

namespace GmmModel

/-- one class -/
theorem Holds.class_trained {f : Format} {i : Nat} {w : World ℝ String} {t : TSet String} {τ : Takes ℝ String} (h : Sim f i w t τ) (hx : Indexed w t) (hv : f.Valid)
    (hfill : Takes.Filled τ) (S : GmmSettings ℝ) (hS : S.Valid) (D : Dens ℝ) (hD : D.Sound) (log : ℝ → ℝ) (lowest pct : ℝ) (M : GmmModel ℝ) (hM : M.Holds f S.window)
    (hmode : f.bimodal = true → ∀ l, S.mode l = M.mode) (label : String) (hl : ∃ e ∈ τ, e.2.1 = label) :
    ∃ tr m c M1, trainedAlone S D log (Compare.exact lowest pct) (fun _ => false) f label (Takes.data f τ label) = .ret tr m ∧
      trainLabelSequential S D log Real.sqrt (Compare.exact lowest pct) (fun _ => false) w t label M = .ret () M1 ∧ M1.Holds f S.window ∧ M1.mode = M.mode ∧ M1.dout = f.dim - f.di ∧
      (∀ l, SMap.find? l M1.models = if l = label then some c else SMap.find? l M.models) ∧ Gmm.SameModel m c := by
  obtain ⟨tr, m, c, M1, g1, gc, g2, g3, gs, g4, -, g6⟩ := trainLabel_both h hx hv hfill S hS D hD log lowest pct (fun _ => false) M hM label hl
  obtain ⟨q0, q1, q2, q3, q4, q5, q6, q7⟩ := g6 (fun h => by obtain ⟨k, hk⟩ := gc h; cases hk)
  have hmode1 : M1.mode = M.mode := by rw [g3]
  have hmem : ∀ lc ∈ M1.models, lc.2 = c ∨ lc ∈ M.models := by
    intro lc hlc
    have e1 := (SMap.mem_iff_find? gs (k := lc.1) (v := lc.2)).1 hlc
    rw [g4] at e1
    by_cases hll : lc.1 = label
    · rw [if_pos hll] at e1
      injection e1 with e1
      exact .inl e1.symm
    · rw [if_neg hll] at e1
      exact .inr (SMap.mem_of_find? e1)
  refine ⟨tr, m, c, M1, g1, g2, ⟨by rw [g3], by rw [g3]; exact hM.nulls, gs, by rw [g3]; exact hM.bimodal, fun lc hlc => ?_, fun hb lc hlc => ?_, fun lc hlc => ?_⟩, hmode1, by rw [g3], g4, q0⟩
  · rcases hmem lc hlc with e | e
    · rw [e]; exact ⟨q1, q3, q4, q5, q7⟩
    · exact hM.cls lc e
  · rcases hmem lc hlc with e | e
    · rw [e, q6, hmode1]; exact hmode hb label
    · rw [hmode1]; exact hM.mode hb lc e
  · rcases hmem lc hlc with e | e
    · rw [e, q2]
      unfold classFor
      cases hf : SMap.find? label M.models with
      | none => exact ⟨1, [], CBuf.Holds.init 0 1 (by omega)⟩
      | some c0 =>
        obtain ⟨w, hist, hb⟩ := hM.buf _ (SMap.mem_of_find? hf)
        exact ⟨w, hist, hb⟩
    · exact hM.buf lc e

/-- C108, mode Sequential, class by class.  For every recording session, every model that can be used or has not been trained, whose classes have the format of the session, and every non-empty list of labels
    of the session, in any order and with repetitions: calling `train(set, label)` for these labels one after the other, without `reset()` in between, is defined and raises no exception.  The class of
    each of the labels is then the one that would be trained alone on its own takes: nothing of its former training remains; all other classes are not touched.  One call of `reset()` at the end makes
    it a model that can recognise, with the same classes. -/
theorem C108_sequential_class_by_class (f : Format) (hv : f.Valid) (i : Nat) (w0 : World ℝ String) (h0 : w0.sets i = none) (ops : List (RecOp ℝ String)) (ha : Takes.Admissible f ops [])
    (S : GmmSettings ℝ) (D : Dens ℝ) (log : ℝ → ℝ) (lowest pct : ℝ) (M : GmmModel ℝ) (hfill : Takes.Filled (Takes.run f ops []).1) (hS : S.Valid) (hD : D.Sound)
    (hM : M.Holds f S.window) (hmode : f.bimodal = true → ∀ l, S.mode l = M.mode) (ls : List String) (hne : ls ≠ [])
    (hls : ∀ l ∈ ls, ∃ e ∈ (Takes.run f ops []).1, e.2.1 = l) :
    ∃ M1 M2, recordAndTrainClassesSequential S D log (Compare.exact lowest pct) f i ops w0 ls M = .ret () M1 ∧ M1.training = false ∧
      (∀ l ∉ ls, SMap.find? l M1.models = SMap.find? l M.models) ∧
      (∀ l ∈ ls, ∃ tr m c, trainedAlone S D log (Compare.exact lowest pct) (fun _ => false) f l (Takes.data f (Takes.run f ops []).1 l) = .ret tr m ∧
        SMap.find? l M1.models = some c ∧ Gmm.SameModel m c) ∧
      reset M1 = .ret () M2 ∧ M2.Usable ∧ List.Forall₂ (fun a b => b.1 = a.1 ∧ Gmm.SameModel a.2 b.2) M1.models M2.models := by
  obtain ⟨w, t, h1, h2, h3, -⟩ := recordThen_sim f hv i w0 h0 ops ha
  generalize hτ : (Takes.run f ops []).1 = τ at *
  have key : ∀ (ls : List String), (∀ l ∈ ls, ∃ e ∈ τ, e.2.1 = l) → ∀ (M : GmmModel ℝ), M.Holds f S.window → (f.bimodal = true → ∀ l, S.mode l = M.mode) →
      ∃ M1, (ls.foldlM (fun _ l => trainLabelSequential S D log Real.sqrt (Compare.exact lowest pct) (fun _ => false) w t l) () : Prog (GmmModel ℝ) Unit) M = .ret () M1 ∧
        M1.Holds f S.window ∧ (M.dout = f.dim - f.di ∨ ls ≠ [] → M1.dout = f.dim - f.di) ∧ (∀ l ∉ ls, SMap.find? l M1.models = SMap.find? l M.models) ∧
        ∀ l ∈ ls, ∃ tr m c, trainedAlone S D log (Compare.exact lowest pct) (fun _ => false) f l (Takes.data f τ l) = .ret tr m ∧
          SMap.find? l M1.models = some c ∧ Gmm.SameModel m c := by
    intro ls
    induction ls with
    | nil => exact fun _ M hM _ => ⟨M, rfl, hM, fun h => h.resolve_right (by simp), fun _ _ => rfl, fun l hl => absurd hl (by simp)⟩
    | cons l0 ls ih =>
      intro hl M hM hmode
      obtain ⟨tr, m, c, M1, g1, g2, g3, g4, gd, g5, g6⟩ := hM.class_trained h1 h2 hv hfill S hS D hD log lowest pct M hmode l0 (hl l0 List.mem_cons_self)
      obtain ⟨M', r1, r2, rd, r3, r4⟩ := ih (fun l h => hl l (List.mem_cons_of_mem _ h)) M1 g3 (fun hb l => (hmode hb l).trans g4.symm)
      refine ⟨M', ?_, r2, fun _ => rd (.inl gd), fun l hn => ?_, fun l hin => ?_⟩
      · rw [List.foldlM_cons, bind_def, g2]
        exact r1
      · rw [List.mem_cons, not_or] at hn
        rw [r3 l hn.2, g5, if_neg hn.1]
      · by_cases hll : l ∈ ls
        · exact r4 l hll
        · obtain rfl := (List.mem_cons.1 hin).resolve_right hll
          exact ⟨tr, m, c, g1, by rw [r3 _ hll, g5, if_pos rfl], g6⟩
  obtain ⟨M1, r1, r2, rd, r3, r4⟩ := key ls hls M hM hmode
  obtain ⟨M2, k1, k2, k3, -⟩ := C39_reset M1 r2.nulls r2.idle r2.sorted (fun lc hlc => by
      obtain ⟨e1, e2, e3, e4, -⟩ := r2.cls lc hlc
      obtain ⟨_, hist, hb⟩ := r2.buf lc hlc
      exact ⟨e1, e2.trans r2.bimodal.symm, by rw [e3, e4, rd (.inr hne)], hb.ok⟩)
    (fun hb lc hlc => r2.mode (r2.bimodal ▸ hb) lc hlc)
  refine ⟨M1, M2, by unfold recordAndTrainClassesSequential; rw [h3]; exact r1, r2.idle, r3, r4, k1, k2, k3.imp fun a b h => ⟨h.1, h.2.2.1⟩⟩

/-- the hypotheses of `C108_sequential_class_by_class` are met by a trained model with the class "b", a bimodal session with the classes "a" and "b" and the labels "b", "a" and "b" -/
theorem C108_sequential_classes_example (lowest pct : ℝ) : ∃ M M1 M2 : GmmModel ℝ, "b" ∈ SMap.keys M.models ∧
    recordAndTrainClassesSequential sessionSettings HierHmm.halfDens Real.log (Compare.exact lowest pct) sessionFormat 0 sessionA emptyWorld ["b", "a", "b"] M = .ret () M1 ∧
    reset M1 = .ret () M2 ∧ M2.Usable ∧ "a" ∈ SMap.keys M1.models := by
  obtain ⟨a1, a2, a3, a4, -, a6, -, ⟨M, b1, b2, b3, -⟩, -⟩ := retrain_example
  obtain ⟨-, -, -, -, -, hD, -⟩ := sequential_example
  obtain ⟨M1, M2, g1, -, -, g4, g5, g6, -⟩ := C108_sequential_class_by_class sessionFormat a1 0 emptyWorld rfl sessionA a2 sessionSettings HierHmm.halfDens Real.log lowest pct M a3 a4 hD b1
    (fun _ => b2) ["b", "a", "b"] (by simp) fun l hl => (a6 l).1 hl
  obtain ⟨-, -, c, -, h, -⟩ := g4 "a" (by simp)
  exact ⟨M, M1, M2, b3, g1, g5, g6, SMap.mem_keys_iff.2 ⟨c, h⟩⟩

end GmmModel

namespace HierHmm
open Hmm

/-- one class whose training is done -/
theorem Holds.class_trained {f : Format} {i : Nat} {w : World ℝ String} {t : TSet String} {τ : Takes ℝ String} (h : Sim f i w t τ) (hx : Indexed w t) (hv : f.Valid)
    {M : HierHmm ℝ} (hM : M.Holds f) (P : EmParams) (hS : M.Settings P) (hlong : Takes.LongEnough τ fun l => (M.conf l).n)
    (hmode : f.bimodal = true → ∀ l, (M.conf l).mode = M.mode) (z : ℝ) (D : Dens ℝ) (hD : D.Sound) (log : ℝ → ℝ)
    (hlog : ∀ x y, 0 < x → 0 < y → log (x * y) = log x + log y) (lowest pct : ℝ) (label : String) (hl : ∃ e ∈ τ, e.2.1 = label)
    (hfew : ∀ c, (label, c) ∈ M.models → (M.conf label).n ≤ c.n) (m : Hmm ℝ)
    (hdone : Done z D log (Compare.exact lowest pct) P (fun _ _ => false) f τ M.conf M.window label m) :
    ∃ c M1, trainLabelSequential z D log Real.sqrt (Compare.exact lowest pct) P KData.deviation (fun _ => false) w t label M = .ret () M1 ∧ M1.Holds f ∧
      M1 = { M with models := M1.models, prior := M1.prior, trans := M1.trans, exitTrans := M1.exitTrans, dim := f.dim, di := f.di } ∧
      (∀ l, SMap.find? l M1.models = if l = label then some c else SMap.find? l M.models) ∧ m.SameClass c ∧ c.n = (M.conf label).n := by
  obtain ⟨n, M3, c1, m1, tr, a1, ⟨a2, -⟩, a3, a4, a5, a6, a7, a8, M1, b1, b2, b3, b4⟩ := trainLabel_core h hx hv M hM P hS hlong z D hD log hlog lowest pct (fun _ => false) label hl
  obtain ⟨tr', e1, e2⟩ := hdone
  have e3 := a6.symm.trans e1
  injection e3 with e3 e4
  subst e3
  subst e4
  obtain ⟨rfl, b5, -, b7⟩ := b4 e2
  obtain ⟨tr2, q1, q2, -, -, -, q6, -⟩ := a5
  obtain ⟨p1, p2, p3, p4, p5, p6, p7, p8, p9⟩ := q6 (by have := a6.symm.trans q1; injection this with this _; rw [← this]; exact e2)
  obtain ⟨r1, hn1, ⟨q, r2⟩, r3, r4⟩ := a8 e2
  have hnm : m1.n = (M.conf label).n := by rw [← hn1, r2]; rfl
  have hxx : c1.exitP = lastExit c1.n := by
    cases hf : SMap.find? label M.models with
    | none => exact r3 hf
    | some c =>
      rw [(r4 c hf).1]
      exact exit_fewer (by rw [hn1]; exact hS.states label) (by rw [hn1]; exact hfew c (SMap.mem_of_find? hf))
  have hsame : m1.SameClass c1 := by
    have e : q.exitP = m1.exitP := by
      have : c1.exitP = q.exitP := by rw [r2]; rfl
      rw [← this, hxx, p8, hn1, hnm]
    rw [r2]
    exact withPast_same q p1.can e
  have hmem : ∀ lc ∈ M1.models, lc.2 = c1 ∨ lc ∈ M.models := by
    intro lc hlc
    have k := (SMap.mem_iff_find? a3 (k := lc.1) (v := lc.2)).1 hlc
    rw [b3] at k
    by_cases hll : lc.1 = label
    · rw [if_pos hll] at k
      injection k with k
      exact .inl k.symm
    · rw [if_neg hll] at k
      exact .inr (SMap.mem_of_find? k)
  have hm1 : M1.mode = M.mode := by rw [a4]
  have hw1 : M1.window = M.window := by rw [a4]
  refine ⟨c1, M1, b1, ⟨b2, by rw [a4]; exact hM.hier, by rw [a4]; exact hM.nulls, a3, TopAt.top (by rw [b5]; exact a2), by rw [a4]; exact hM.bimodal, fun hb => ?_, fun lc hlc => ?_,
    fun lc hlc => ?_, fun hb lc hlc => ?_, fun lc hlc => ?_⟩, a4, b3, hsame, hn1⟩
  · have hb' : f.bimodal = false := by
      rw [← hM.bimodal, ← hb, a4]
    rw [a4]
    simp [Format.Valid, hb'] at hv
    simp [hv]
  · rw [hw1]
    rcases hmem lc hlc with e | e
    · rw [e]
      refine ⟨hsame.inHierarchy p1, ?_, ?_, ?_, ?_, ?_⟩ <;> rw [r2]
      · exact p3
      · exact p4
      · exact p5
      · exact p9
      · exact p7
    · exact hM.cls lc e
  · rcases hmem lc hlc with e | e
    · rw [e]; exact hxx
    · exact hM.exits lc e
  · rw [hm1]
    rcases hmem lc hlc with e | e
    · rw [e, r2]; exact Eq.trans p6 (hmode hb label)
    · exact hM.mode hb lc e
  · rcases hmem lc hlc with e | e
    · rw [e]; exact b7
    · exact hM.buf lc e

/-- C109, mode Sequential, class by class.  For every recording session, all settings and every hierarchical model as in `C109_train_class`, and every non-empty list of labels of the session, in any
    order and with repetitions, whose trainings are done: calling `train(set, label)` for these labels one after the other, without `reset()` in between, is defined and raises no exception.  The class
    of each of the labels is then the one that would be trained alone on its own takes: nothing of its former training remains; all other classes are not touched.  One call of `reset()` at the end
    makes it a model that can recognise, with the same classes. -/
theorem C109_sequential_class_by_class (f : Format) (hv : f.Valid) (i : Nat) (w0 : World ℝ String) (h0 : w0.sets i = none) (ops : List (RecOp ℝ String)) (ha : Takes.Admissible f ops [])
    (z : ℝ) (D : Dens ℝ) (log : ℝ → ℝ) (lowest pct : ℝ) (P : EmParams) (M : HierHmm ℝ) (hlong : Takes.LongEnough (Takes.run f ops []).1 fun l => (M.conf l).n) (hS : M.Settings P) (hD : D.Sound)
    (hlog : ∀ x y, 0 < x → 0 < y → log (x * y) = log x + log y) (hM : M.Holds f) (hmode : f.bimodal = true → ∀ l, (M.conf l).mode = M.mode) (ls : List String) (hne : ls ≠ [])
    (hls : ∀ l ∈ ls, ∃ e ∈ (Takes.run f ops []).1, e.2.1 = l) (hfew : ∀ lc ∈ M.models, lc.1 ∈ ls → (M.conf lc.1).n ≤ lc.2.n)
    (hdone : ∀ l ∈ ls, ∃ m, Done z D log (Compare.exact lowest pct) P (fun _ _ => false) f (Takes.run f ops []).1 M.conf M.window l m) :
    ∃ M1 M2, recordAndTrainHmmClassesSequential z D log (Compare.exact lowest pct) P f i ops w0 ls M = .ret () M1 ∧ M1.training = false ∧
      (∀ l ∉ ls, SMap.find? l M1.models = SMap.find? l M.models) ∧
      (∀ l ∈ ls, ∃ m c, Done z D log (Compare.exact lowest pct) P (fun _ _ => false) f (Takes.run f ops []).1 M.conf M.window l m ∧ SMap.find? l M1.models = some c ∧ m.SameClass c) ∧
      reset M1 = .ret () M2 ∧ M2.Usable ∧ SameClasses M1 M2 := by
  obtain ⟨w, t, h1, h2, h3, -⟩ := recordThen_sim f hv i w0 h0 ops ha
  generalize hτ : (Takes.run f ops []).1 = τ at *
  have key : ∀ (ls : List String), (∀ l ∈ ls, ∃ e ∈ τ, e.2.1 = l) → (∀ l ∈ ls, ∃ m, Done z D log (Compare.exact lowest pct) P (fun _ _ => false) f τ M.conf M.window l m) →
      ∀ (N : HierHmm ℝ), N.Holds f → N.conf = M.conf → N.window = M.window → N.mode = M.mode → (∀ lc ∈ N.models, lc.1 ∈ ls → (M.conf lc.1).n ≤ lc.2.n) →
      ∃ M1, (ls.foldlM (fun _ l => trainLabelSequential z D log Real.sqrt (Compare.exact lowest pct) P KData.deviation (fun _ => false) w t l) () : Prog (HierHmm ℝ) Unit) N = .ret () M1 ∧
        M1.Holds f ∧ (N.dim = f.dim ∧ N.di = f.di ∨ ls ≠ [] → M1.dim = f.dim ∧ M1.di = f.di) ∧ (∀ l ∉ ls, SMap.find? l M1.models = SMap.find? l N.models) ∧
        ∀ l ∈ ls, ∃ m c, Done z D log (Compare.exact lowest pct) P (fun _ _ => false) f τ M.conf M.window l m ∧ SMap.find? l M1.models = some c ∧ m.SameClass c := by
    intro ls
    induction ls with
    | nil => exact fun _ _ N hN _ _ _ _ => ⟨N, rfl, hN, fun h => h.resolve_right (by simp), fun _ _ => rfl, fun l hl => absurd hl (by simp)⟩
    | cons l0 ls ih =>
      intro hl hdone N hN hc hw hmd hfew
      obtain ⟨m, hm⟩ := hdone l0 List.mem_cons_self
      have hSN : N.Settings P := ⟨by rw [hw]; exact hS.window, hS.minIter, by rw [hc]; exact hS.states, by rw [hc]; exact hS.gaussians, by rw [hc]; exact hS.absReg, by rw [hc]; exact hS.leftRight⟩
      obtain ⟨c, M1, g1, g2, g3, g4, g5, g6⟩ := hN.class_trained h1 h2 hv P hSN (by rw [hc]; exact hlong) (by rw [hc, hmd]; exact hmode) z D hD log hlog lowest pct l0 (hl l0 List.mem_cons_self)
        (fun c hcm => by rw [hc]; exact hfew _ hcm List.mem_cons_self) m (by rw [hc, hw]; exact hm)
      obtain ⟨M', r1, r2, rd, r3, r4⟩ := ih (fun l h => hl l (List.mem_cons_of_mem _ h)) (fun l h => hdone l (List.mem_cons_of_mem _ h)) M1 g2 (by rw [g3]; exact hc) (by rw [g3]; exact hw)
        (by rw [g3]; exact hmd) (fun lc hlc hin => by
          have k := (SMap.mem_iff_find? g2.sorted (k := lc.1) (v := lc.2)).1 hlc
          rw [g4] at k
          by_cases hll : lc.1 = l0
          · rw [if_pos hll] at k
            injection k with k
            rw [← k, g6, hc, hll]
          · rw [if_neg hll] at k
            exact hfew lc (SMap.mem_of_find? k) (List.mem_cons_of_mem _ hin))
      refine ⟨M', ?_, r2, fun _ => rd (.inl (by rw [g3]; exact ⟨rfl, rfl⟩)), fun l hn => ?_, fun l hin => ?_⟩
      · rw [List.foldlM_cons, bind_def, g1]
        exact r1
      · rw [List.mem_cons, not_or] at hn
        rw [r3 l hn.2, g4, if_neg hn.1]
      · by_cases hll : l ∈ ls
        · exact r4 l hll
        · obtain rfl := (List.mem_cons.1 hin).resolve_right hll
          exact ⟨m, c, hm, by rw [r3 _ hll, g4, if_pos rfl], g5⟩
  obtain ⟨M1, r1, r2, rd, r3, r4⟩ := key ls hls hdone M hM rfl rfl rfl hfew
  obtain ⟨d1, d2⟩ := rd (.inr hne)
  have hcls : ∀ lc ∈ M1.models, lc.2.InHierarchy ∧ BufOk lc.2.buf ∧ lc.2.bimodal = M1.bimodal ∧ lc.2.dim - lc.2.di = M1.dim - M1.di ∧ lc.2.ergodic = false ∧ lc.2.exitP = lastExit lc.2.n := by
    intro lc hlc
    obtain ⟨e1, e2, e3, e4, -, e6⟩ := r2.cls lc hlc
    obtain ⟨_, hist, hb⟩ := r2.buf lc hlc
    exact ⟨e1, Logs.bufOk hb, e2.trans r2.bimodal.symm, by rw [e3, e4, d1, d2], e6, r2.exits lc hlc⟩
  obtain ⟨M2, k1, k2, -, k4, -, -, -, -, -, -, -, k5⟩ := finish M1 r2.idle r2.hier r2.nulls r2.sorted (topAt_of_top r2.top) hcls (fun hb lc hlc => r2.mode (r2.bimodal.symm.trans hb) lc hlc)
  obtain ⟨M', s1, s2, s3, s4⟩ := reset_any r2.nulls (fun lc hlc => by
    obtain ⟨p1, p2, -⟩ := hcls lc hlc
    exact ⟨p1.can.idle, p2, p1.can.wf.pos, p1.can.window, p1.can.wf.trans⟩) r2.idle
  have hM' : M' = M2 := by
    rw [bind_of_ret s1] at k1
    unfold updateTransitionParameters at k1
    rw [bind_of_ret (get_def _), if_pos (by rw [s4, r2.top.prior]; simp [size, s2, s3]), pure_def] at k1
    injection k1
  exact ⟨M1, M2, by unfold recordAndTrainHmmClassesSequential; rw [h3]; exact r1, r2.idle, r3, r4, by rw [← hM']; exact s1, k2, ⟨k4, k5⟩⟩

/-- the hypotheses of `C109_sequential_class_by_class` are met: a model that holds the class "a" is trained on "b", "a" and "b" again -/
theorem C109_sequential_classes_example (z lowest pct : ℝ) : ∃ M M1 M2 : HierHmm ℝ, "a" ∈ SMap.keys M.models ∧
    recordAndTrainHmmClassesSequential z bigDens Real.log (Compare.exact lowest pct) ⟨5, 10⟩ sessionFormat 0 sessionA emptyWorld ["b", "a", "b"] M = .ret () M1 ∧
    reset M1 = .ret () M2 ∧ M2.Usable ∧ "b" ∈ SMap.keys M1.models := by
  obtain ⟨-, hS, hv, ha, hlong, -, hD, hl, -, ⟨M, b1, b2, b3, b4, b5, b6⟩, -⟩ := retrain_example
  have hSM : M.Settings ⟨5, 10⟩ := ⟨by rw [b4]; norm_num, hS.minIter, by rw [b2]; exact hS.states, by rw [b2]; exact hS.gaussians, by rw [b2]; exact hS.absReg, by rw [b2]; exact hS.leftRight⟩
  have hlM : Takes.LongEnough (Takes.run sessionFormat sessionA []).1 fun l => (M.conf l).n := by rw [b2]; exact hlong
  obtain ⟨M1, M2, g1, -, -, g4, g5, g6, -⟩ := C109_sequential_class_by_class sessionFormat hv 0 emptyWorld rfl sessionA ha z bigDens Real.log lowest pct ⟨5, 10⟩ M hlM hSM hD
    (fun x y hx hy => Real.log_mul hx.ne' hy.ne') b1 (fun _ l => by rw [b2, b3]; rfl) ["b", "a", "b"] (by simp) (fun l h => (hl l).1 h) (fun lc h _ => (b6 lc h).2)
    fun l h => big_done sessionFormat hv 0 emptyWorld rfl sessionA ha M ⟨5, 10⟩ hSM hlM z lowest pct (fun _ _ => false) l ((hl l).1 h) fun _ => rfl
  obtain ⟨-, c, -, h, -⟩ := g4 "b" (by simp)
  exact ⟨M, M1, M2, b5, g1, g5, g6, SMap.mem_keys_iff.2 ⟨c, h⟩⟩

end HierHmm
end Xmm
