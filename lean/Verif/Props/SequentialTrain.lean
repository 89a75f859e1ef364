import Verif.Spec.SequentialTrain
import Verif.Props.FlatTrain
import Verif.Props.ModelCopyFilter
import Verif.Props.LoadedFilter
set_option linter.unusedSimpArgs false
set_option linter.unusedSectionVars false
/- C107: training in the multithreading mode Sequential, from the recordings on. -/
namespace Xmm
open TS
open Phrase (loop)
open Prog (bind_def pure_def get_def set_def modify_def throw_def undef_def)
open Gauss (resize)

theorem recordThen_sim (f : Format) (hv : f.Valid) (i : Nat) (w0 : World ℝ String) (h0 : w0.sets i = none) (ops : List (RecOp ℝ String)) (ha : Takes.Admissible f ops []) :
    ∃ w t, Sim f i w t (Takes.run f ops []).1 ∧ Indexed w t ∧ (∀ (σ : Type) (p : World ℝ String → TSet String → Prog σ Unit), recordThen f i ops w0 p = p w t) ∧
      (∀ (S : GmmSettings ℝ) (D : Dens ℝ) (log : ℝ → ℝ) (C : Compare ℝ) (cancel : String → Nat → Bool) (M : GmmModel ℝ),
        recordAndTrain S D log Real.sqrt C cancel f i ops w0 M = GmmModel.train S D log Real.sqrt C cancel w t M) ∧
      ∀ (z : ℝ) (D : Dens ℝ) (log : ℝ → ℝ) (C : Compare ℝ) (P : EmParams) (cancel : String → Nat → Bool) (M : HierHmm ℝ),
        recordAndTrainHmm z D log C P cancel f i ops w0 M = HierHmm.trainSet z D log Real.sqrt C P KData.deviation cancel w t M := by
  obtain ⟨w1, t1, e1, s1, x1⟩ := sim_open (i := i) hv h0
  obtain ⟨w, t, e2, s2, x2⟩ := Sim.run hv ops s1 x1 ha
  refine ⟨w, t, s2, x2, fun σ p => ?_, fun S D log C cancel M => ?_, fun z D log C P cancel M => ?_⟩
  · funext M
    unfold recordThen
    rw [e1]
    simp only [e2, s2.set]
  · unfold recordAndTrain
    rw [e1]
    simp only [e2, s2.set]
  · unfold recordAndTrainHmm
    rw [e1]
    simp only [e2, s2.set]

/-- the classes after the training of the first ones -/
theorem set_mapped {α β γ : Type} (l : List (α × β)) (cs : List γ) (F : γ → β) (hl : cs.length = l.length) (t : Nat) (ht : t < l.length) (k : List (α × β))
    (hk : ∀ i : Nat, k[i]? = if i < t then (l.zip cs)[i]?.map fun x => (x.1.1, F x.2) else l[i]?) :
    ∀ i : Nat, (k.set t (l[t].1, F (cs[t]'(by omega))))[i]? = if i < t + 1 then (l.zip cs)[i]?.map fun x => (x.1.1, F x.2) else l[i]? := by
  intro i
  have hlen : t < k.length := by
    have := hk t
    rw [if_neg (by omega), List.getElem?_eq_getElem ht] at this
    exact (List.getElem?_eq_some_iff.1 this).1
  by_cases hi : i = t
  · subst hi
    rw [List.getElem?_set_self hlen, if_pos (by omega), List.getElem?_eq_getElem (by simp [hl, ht])]
    simp
  · rw [List.getElem?_set_ne (Ne.symm hi), hk i]
    by_cases h' : i < t
    · rw [if_pos h', if_pos (by omega)]
    · rw [if_neg h', if_neg (by omega)]

theorem mapped_all {α β γ : Type} (l : List (α × β)) (cs : List γ) (F : γ → β) (hl : cs.length = l.length) (k : List (α × β))
    (hk : ∀ i : Nat, k[i]? = if i < l.length then (l.zip cs)[i]?.map fun x => (x.1.1, F x.2) else l[i]?) : k = (l.zip cs).map fun x => (x.1.1, F x.2) := by
  refine List.ext_getElem? fun i => ?_
  rw [hk i, List.getElem?_map]
  by_cases h : i < l.length
  · rw [if_pos h]
  · rw [if_neg h, List.getElem?_eq_none (by omega), List.getElem?_eq_none (by simp; omega)]
    rfl

/-- the labels do not change -/
theorem map_fst_mapped {α β γ δ : Type} (l : List (α × β)) (cs : List γ) (F : γ → δ) (hl : cs.length = l.length) : ((l.zip cs).map fun x => (x.1.1, F x.2)).map Prod.fst = l.map Prod.fst := by
  have := List.map_fst_zip (l₁ := l) (l₂ := cs) (by omega)
  conv_rhs => rw [← this]
  rw [List.map_map, List.map_map]
  rfl

namespace GmmModel

/-- C107 (each class): the classes are trained one after the other, each one from its own state -/
theorem trainHere_all (S : GmmSettings ℝ) (D : Dens ℝ) (log : ℝ → ℝ) (C : Compare ℝ) (cancel : String → Nat → Bool) (w : World ℝ String) (t : TSet String) (M : GmmModel ℝ)
    (cs : List (Gmm ℝ × Status)) (h : List.Forall₂ (fun lc c => ∃ tr, trainOne S D log Real.sqrt C (cancel lc.1) w t lc.1 lc.2 = .ret tr c.1) M.models cs) :
    loop M.models.length () (fun _ i => trainHere S D log Real.sqrt C cancel w t i) M = .ret () { M with models := (M.models.zip cs).map fun x => (x.1.1, x.2.1) } := by
  have hl := h.length_eq.symm
  obtain ⟨a, s, h1, l, h3, h4⟩ := loop_state M.models.length () (fun _ i => trainHere S D log Real.sqrt C cancel w t i) M
    (fun n _ s => ∃ l, s = { M with models := l } ∧ ∀ i : Nat, l[i]? = if i < n then (M.models.zip cs)[i]?.map fun x => (x.1.1, x.2.1) else M.models[i]?)
    ⟨M.models, rfl, fun i => by simp⟩ (by
      rintro n hn a s ⟨l, rfl, hk⟩
      have hlt : l[n]? = some M.models[n] := by rw [hk n, if_neg (by omega)]; exact List.getElem?_eq_getElem hn
      obtain ⟨tr, htr⟩ := (List.forall₂_iff_get.1 h).2 n hn (by omega)
      simp only [List.get_eq_getElem] at htr
      refine ⟨(), _, ?_, _, rfl, set_mapped M.models cs Prod.fst hl n hn l hk⟩
      simp only [trainHere, onClass, hlt, bind_def, htr, pure_def])
  rw [h1, h3, mapped_all M.models cs Prod.fst hl l h4]

/-- the model when the training of the classes starts, and what their training gives -/
theorem training_starts {f : Format} {i : Nat} {w : World ℝ String} {t : TSet String} {τ : Takes ℝ String} (h : Sim f i w t τ) (hx : Indexed w t) (hv : f.Valid)
    (hne : τ ≠ []) (hfill : Takes.Filled τ) (S : GmmSettings ℝ) (hS : S.Valid) (D : Dens ℝ) (hD : D.Sound) (log : ℝ → ℝ) (lowest pct : ℝ) (cancel : String → Nat → Bool)
    (M : GmmModel ℝ) (hbi : M.bimodal = f.bimodal) :
    ∃ (N : GmmModel ℝ) (cs : List (Gmm ℝ × Status)), SMap.Sorted N.models ∧ (∀ l, l ∈ SMap.keys N.models ↔ ∃ e ∈ τ, e.2.1 = l) ∧ N.nulls = [] ∧ N.results.inst = [] ∧ N.bimodal = f.bimodal ∧
      List.Forall₂ (Trained S D log (Compare.exact lowest pct) cancel f τ) N.models cs ∧
      train S D log Real.sqrt (Compare.exact lowest pct) cancel w t M = reset { N with
        models := ((N.models.zip cs).filter fun x => x.2.2 ≠ .cancel ∧ x.2.2 ≠ .error).map fun x => (x.1.1, x.2.1), training := false } ∧
      trainSequential S D log Real.sqrt (Compare.exact lowest pct) cancel w t M = .ret () { N with models := (N.models.zip cs).map fun x => (x.1.1, x.2.1), training := false } := by
  have hp := h.presents hx hv
  obtain ⟨a1, a2, a3⟩ := addClasses_spec (newClass S f.bimodal f.dim f.di) (SMap.keys t.labels)
  set ms := addClasses (newClass S f.bimodal f.dim f.di) (SMap.keys t.labels) with hms
  have hdi : (if f.bimodal then f.di else 0) = f.di := by
    cases hb : f.bimodal <;> simp [Format.Valid, hb] at hv ⊢
    exact hv.1.symm
  have hlab : ∀ lc ∈ ms, ∃ e ∈ τ, e.2.1 = lc.1 := fun lc hlc =>
    (hp.labels _).1 ((a2 lc.1).1 (List.mem_map.2 ⟨lc, hlc, rfl⟩))
  set R0 := MultiRes.resetResults 0 M.bimodal M.dout M.mode M.results with hR0
  set M1 : GmmModel ℝ := { M with models := ms, nulls := [], training := true, dout := f.dim - f.di, results := R0 } with hM1
  have hone : ∀ lc ∈ ms, ∃ c, (∃ tr, trainOne S D log Real.sqrt (Compare.exact lowest pct) (cancel lc.1) w t lc.1 lc.2 = .ret tr c.1 ∧ c.2 = tr.status) ∧
      Trained S D log (Compare.exact lowest pct) cancel f τ lc c := by
    intro lc hlc
    obtain ⟨c, hc⟩ := trainedAlone_ret h hv hfill S hS D hD log lowest pct cancel lc.1 (hlab lc hlc) lc.2
    obtain ⟨tr, q1, q2, _⟩ := id hc
    refine ⟨c, ⟨tr, ?_, q2⟩, hc⟩
    rw [a3 lc hlc, Xmm.trainOne_alone h hx hv S D log _ _ lc.1 ((a2 lc.1).1 (List.mem_map.2 ⟨lc, hlc, rfl⟩)), q1]
  obtain ⟨cs, c1, c2⟩ := mapM_forall₂ ms (fun lc => inThread (trainOne S D log Real.sqrt (Compare.exact lowest pct) (cancel lc.1) w t lc.1) lc.2)
    (fun lc c => (∃ tr, trainOne S D log Real.sqrt (Compare.exact lowest pct) (cancel lc.1) w t lc.1 lc.2 = .ret tr c.1) ∧
      Trained S D log (Compare.exact lowest pct) cancel f τ lc c) M1 (by
      intro lc hlc
      obtain ⟨c, ⟨tr, q1, q2⟩, hc⟩ := hone lc hlc
      refine ⟨c, ?_, ⟨tr, q1⟩, hc⟩
      unfold inThread
      rw [q1]
      simp only [← q2])
  have hpe : t.phrases.isEmpty = false := by
    have : t.phrases.length = τ.length := by
      have := congrArg List.length hp.numbers
      simpa [SMap.keys] using this
    cases hq : t.phrases with
    | nil => rw [hq] at this; exact absurd (List.eq_nil_of_length_eq_zero this.symm) hne
    | cons => rfl
  have e0 : reset ({ M with models := [], nulls := [] } : GmmModel ℝ) = .ret () { M with models := [], nulls := [], results := R0 } := by
    simp [reset, Prog.bind_def, Prog.modify_def, Prog.get_def, hR0]
    rfl
  refine ⟨M1, cs, a1, fun l => ?_, rfl, ?_, hbi, c2.imp fun _ _ h => h.2, ?_, ?_⟩
  · rw [← hp.labels]; exact a2 l
  · simp [hM1, hR0, MultiRes.resetResults, resize]
  · unfold train
    simp only [hpe, Bool.false_eq_true, if_false, Prog.bind_def, Prog.modify_def, Prog.get_def]
    rw [e0]
    simp only [h.dim, h.di, hbi, hdi]
    have e1 := c1
    rw [hM1] at e1 ⊢
    simp only [hbi] at e1 ⊢
    rw [e1]
  · have e1 := trainHere_all S D log (Compare.exact lowest pct) cancel w t M1 cs (c2.imp fun _ _ h => h.1)
    unfold trainSequential
    simp only [hpe, Bool.false_eq_true, if_false, Prog.bind_def, Prog.modify_def, Prog.get_def]
    rw [e0]
    simp only [h.dim, h.di, hbi, hdi]
    rw [hM1] at e1 ⊢
    simp only [hbi] at e1 ⊢
    rw [e1]

/-- a class that has been trained, whether the training is done or not -/
theorem filter_unreset_ub (D : Dens ℝ) (hD : D.Sound) (log exp : ℝ → ℝ) (x : List ℝ) (M : GmmModel ℝ) (hidle : M.training = false) (hnull : M.nulls = []) (hres : M.results.inst = [])
    (lc : String × Gmm ℝ) (ls : List (String × Gmm ℝ)) (hl : M.models = lc :: ls) (hcan : lc.2.CanFilter) (hbuf : lc.2.buf = CBuf.construct 0 1 1) (hx : lc.2.Fits x) :
    filter D log exp x M = .ub := by
  obtain ⟨d, hd⟩ := Gmm.obsDensities_exist D hD lc.2 hcan.ready
  obtain ⟨c1, e1, _⟩ := Gmm.filter_any D hD log lc.2 hcan x hx (d x) (hd x hx).1 [] (w := 1) (by rw [hbuf]; exact CBuf.Holds.init 0 1 (by omega))
  unfold filter
  rw [bind_of_ret (a := ()) (checkTraining_idle hidle), bind_of_ret (get_def _), if_neg (by simp [hnull])]
  refine bind_of_ub ?_
  simp only [hl, List.length_cons]
  refine loop_ub _ _ _ _ ?_
  unfold filterClass
  simp only [bind_def, onClass, hl, List.getElem?_cons_zero, e1, get_def, MultiRes.wr, hres, List.length_nil, lt_irrefl, if_false, undef_def]

section session
variable (f : Format) (hv : f.Valid) (i : Nat) (w0 : World ℝ String) (h0 : w0.sets i = none) (ops : List (RecOp ℝ String)) (ha : Takes.Admissible f ops [])
  (hne : (Takes.run f ops []).1 ≠ []) (hfill : Takes.Filled (Takes.run f ops []).1) (S : GmmSettings ℝ) (hS : S.Valid) (D : Dens ℝ) (hD : D.Sound) (log : ℝ → ℝ) (lowest pct : ℝ)
  (cancel : String → Nat → Bool) (M : GmmModel ℝ) (hbi : M.bimodal = f.bimodal)
include hv h0 ha hne hfill hS hD hbi

/-- C107, mixture models: for every recording session that leaves at least one take and in which every class has a complete frame, for all settings and every moment of cancellation,
    training in the mode Sequential is defined and raises no exception.  The classes are the labels of the takes; each of them is what its training alone on its own takes has left.
    If the training of every class is done, then `reset()` makes it the model that the mode Parallel leaves. -/
theorem C107_gmm_train :
    ∃ M1, recordAndTrainSequential S D log (Compare.exact lowest pct) cancel f i ops w0 M = .ret () M1 ∧ M1.training = false ∧
      M1.EachTrained S D log (Compare.exact lowest pct) cancel f (Takes.run f ops []).1 ∧
      ((∀ e ∈ (Takes.run f ops []).1, ∃ m, Done S D log (Compare.exact lowest pct) cancel f (Takes.run f ops []).1 e.2.1 m) →
        recordAndTrain S D log Real.sqrt (Compare.exact lowest pct) cancel f i ops w0 M = reset M1) := by
  obtain ⟨w, t, h1, h2, h3, h4, -⟩ := recordThen_sim f hv i w0 h0 ops ha
  obtain ⟨N, cs, a1, a2, -, -, -, a6, a7, a8⟩ := training_starts h1 h2 hv hne hfill S hS D hD log lowest pct cancel M hbi
  generalize hτ : (Takes.run f ops []).1 = τ at *
  refine ⟨_, by unfold recordAndTrainSequential; rw [h3]; exact a8, rfl, ⟨fun l => ?_, fun lc hlc => ?_⟩, fun hd => ?_⟩
  · rw [← a2 l]
    unfold SMap.keys
    exact iff_of_eq (congrArg (l ∈ ·) (map_fst_mapped N.models cs Prod.fst a6.length_eq.symm))
  · obtain ⟨x, hx, rfl⟩ := List.mem_map.1 hlc
    obtain ⟨tr, q1, -, -, q4, -⟩ := (forall₂_zip a6 x hx).1
    exact ⟨tr, q1, q4⟩
  · rw [h4, a7]
    have : ((N.models.zip cs).filter fun x => x.2.2 ≠ .cancel ∧ x.2.2 ≠ .error) = N.models.zip cs := by
      rw [List.filter_eq_self]
      intro x hx
      obtain ⟨hr, -⟩ := forall₂_zip a6 x hx
      obtain ⟨tr, q1, q2, -⟩ := hr
      obtain ⟨e, he, hl⟩ := (a2 x.1.1).1 (List.mem_map.2 ⟨x.1, (List.of_mem_zip hx).1, rfl⟩)
      obtain ⟨m, tr', p1, p2⟩ := hd e he
      rw [hl, q1] at p1
      injection p1 with p1 _
      subst p1
      simp [q2, p2]
    rw [this]

/-- **C107 (undefined), mixture models.**  If no training is cancelled, `filter` on the model that the mode Sequential leaves, without `reset()`, writes the likelihood of the first class
    outside of the results.  (The mode Parallel calls `reset()`.) -/
theorem C107_gmm_without_reset_ub (hc : ∀ l k, cancel l k = false) (exp : ℝ → ℝ) (x : List ℝ) (hx : f.Sample x) :
    ∃ M1, recordAndTrainSequential S D log (Compare.exact lowest pct) cancel f i ops w0 M = .ret () M1 ∧ filter D log exp x M1 = .ub := by
  obtain ⟨w, t, h1, h2, h3, -, -⟩ := recordThen_sim f hv i w0 h0 ops ha
  obtain ⟨N, cs, a1, a2, a3, a4, a5, a6, -, a8⟩ := training_starts h1 h2 hv hne hfill S hS D hD log lowest pct cancel M hbi
  generalize hτ : (Takes.run f ops []).1 = τ at *
  refine ⟨_, by unfold recordAndTrainSequential; rw [h3]; exact a8, ?_⟩
  obtain ⟨e, he⟩ := List.exists_mem_of_ne_nil _ hne
  have hz : N.models.zip cs ≠ [] := by
    obtain ⟨lc, hlc, -⟩ := List.mem_map.1 ((a2 e.2.1).2 ⟨e, he, rfl⟩)
    obtain ⟨c, hc, -⟩ := forall₂_exists a6 lc hlc
    exact List.ne_nil_of_mem hc
  obtain ⟨y, ys, hl⟩ := List.exists_cons_of_ne_nil hz
  obtain ⟨tr, -, -, -, -, q5, q6, -⟩ := (forall₂_zip a6 y (by rw [hl]; exact List.mem_cons_self)).1
  obtain ⟨k1, k2, k3, k4, k5, -⟩ := q6 (fun hq => by
    obtain ⟨k, hk⟩ := q5 hq
    rw [hc] at hk
    cases hk)
  refine filter_unreset_ub D hD log exp x _ rfl a3 a4 (y.1.1, y.2.1) (ys.map fun x => (x.1.1, x.2.1)) (by rw [hl]; rfl) k1 k2 ?_
  unfold Gmm.Fits
  rw [k3, k4, k5]
  exact hx

/-- **C107 (violated), mixture models.**  A class whose training is not done (it was cancelled, or the last log-likelihoods are 0) is in the model that the mode Sequential leaves, and not in
    that of the mode Parallel. -/
theorem C107_gmm_failed_class_violated (hidle : M.training = false) (hmode : f.bimodal = true → ∀ l, S.mode l = M.mode) (l : String) (hl : ∃ e ∈ (Takes.run f ops []).1, e.2.1 = l)
    (hfail : ¬ ∃ m, Done S D log (Compare.exact lowest pct) cancel f (Takes.run f ops []).1 l m) :
    ∃ M1 M2, recordAndTrainSequential S D log (Compare.exact lowest pct) cancel f i ops w0 M = .ret () M1 ∧
      recordAndTrain S D log Real.sqrt (Compare.exact lowest pct) cancel f i ops w0 M = .ret () M2 ∧ l ∈ SMap.keys M1.models ∧ l ∉ SMap.keys M2.models := by
  obtain ⟨M1, g1, -, g2, -⟩ := C107_gmm_train f hv i w0 h0 ops ha hne hfill S hS D hD log lowest pct cancel M hbi
  obtain ⟨M2, k1, -, k2, -⟩ := C103_train f hv i w0 h0 ops ha hne hfill S hS D hD log lowest pct cancel M hidle hbi hmode
  refine ⟨M1, M2, g1, k1, (g2.labels l).2 hl, ?_⟩
  obtain ⟨tr, m, e1, -, e2⟩ := k2.each l hl
  rcases e2 with ⟨e2, -⟩ | ⟨e2, -⟩
  · exact absurd ⟨m, tr, e1, e2⟩ hfail
  · exact e2

end session
end GmmModel

namespace HierHmm
open HierSpec HmmSpec Hmm RecSpec

theorem trainHere_all (D : Dens ℝ) (log : ℝ → ℝ) (C : Compare ℝ) (P : EmParams) (cancel : String → Nat → Bool) (w : World ℝ String) (t : TSet String) (M : HierHmm ℝ)
    (cs : List (Hmm ℝ × Status)) (h : List.Forall₂ (fun lc c => ∃ tr, trainOne D log Real.sqrt C P KData.deviation (cancel lc.1) w t lc.1 lc.2 = .ret tr c.1) M.models cs) :
    loop M.models.length () (fun _ i => trainHere D log Real.sqrt C P KData.deviation cancel w t i) M =
      .ret () { M with models := (M.models.zip cs).map fun x => (x.1.1, x.2.1) } := by
  have hl := h.length_eq.symm
  obtain ⟨a, s, h1, l, h3, h4⟩ := loop_state M.models.length () (fun _ i => trainHere D log Real.sqrt C P KData.deviation cancel w t i) M
    (fun n _ s => ∃ l, s = { M with models := l } ∧ ∀ i : Nat, l[i]? = if i < n then (M.models.zip cs)[i]?.map fun x => (x.1.1, x.2.1) else M.models[i]?)
    ⟨M.models, rfl, fun i => by simp⟩ (by
      rintro n hn a s ⟨l, rfl, hk⟩
      have hlt : l[n]? = some M.models[n] := by rw [hk n, if_neg (by omega)]; exact List.getElem?_eq_getElem hn
      obtain ⟨tr, htr⟩ := (List.forall₂_iff_get.1 h).2 n hn (by omega)
      simp only [List.get_eq_getElem] at htr
      refine ⟨(), _, ?_, _, rfl, set_mapped M.models cs Prod.fst hl n hn l hk⟩
      simp only [trainHere, onClass, hlt, bind_def, htr, pure_def])
  rw [h1, h3, mapped_all M.models cs Prod.fst hl l h4]

/-- the model without classes -/
noncomputable def cleared (M : HierHmm ℝ) : HierHmm ℝ :=
  { M with models := [], nulls := [], prior := [], trans := [], exitTrans := [], front1 := resize 0 M.front1, front2 := resize 0 M.front2, started := false,
           results := MultiRes.resetResults 0 M.bimodal (M.dim - M.di) M.mode M.results }

/-- the model when the training of the classes starts, and what their training gives -/
theorem training_starts {f : Format} {i : Nat} {w : World ℝ String} {t : TSet String} {τ : Takes ℝ String} (h : Sim f i w t τ) (hx : Indexed w t) (hv : f.Valid) (hne : τ ≠ [])
    (M : HierHmm ℝ) (hidle : M.training = false) (P : EmParams) (hS : M.Settings P) (hlong : Takes.LongEnough τ fun l => (M.conf l).n) (hbi : M.bimodal = f.bimodal)
    (hdi : M.bimodal = false → M.di = 0) (z : ℝ) (D : Dens ℝ) (hD : D.Sound) (log : ℝ → ℝ)
    (hlog : ∀ x y, 0 < x → 0 < y → log (x * y) = log x + log y) (lowest pct : ℝ) (cancel : String → Nat → Bool) :
    ∃ (N : HierHmm ℝ) (cs : List (Hmm ℝ × Status)), (∀ l, l ∈ SMap.keys N.models ↔ ∃ e ∈ τ, e.2.1 = l) ∧ AllFresh f z N ∧ N.results.inst = [] ∧ N.started = false ∧ N.hier = M.hier ∧
      List.Forall₂ (fun lc c => ClassTrained z D log (Compare.exact lowest pct) P cancel f τ M.conf M.window lc.1 c) N.models cs ∧
      trainSet z D log Real.sqrt (Compare.exact lowest pct) P KData.deviation cancel w t M = (do reset; updateTransitionParameters : Prog (HierHmm ℝ) Unit) { N with
        models := ((N.models.zip cs).filter fun x => x.2.2 ≠ .cancel ∧ x.2.2 ≠ .error).map fun x => (x.1.1, x.2.1), training := false } ∧
      trainSequential z D log Real.sqrt (Compare.exact lowest pct) P KData.deviation cancel w t M =
        .ret () { N with models := (N.models.zip cs).map fun x => (x.1.1, x.2.1), training := false } := by
  have hp := h.presents hx hv
  have a1 : clear M = .ret () (cleared M) := by
    unfold clear reset checkTraining cleared
    simp only [Prog.bind_def, Prog.modify_def, Prog.get_def, Prog.pure_def, hidle, Bool.false_eq_true, if_false, ne_eq, not_true_eq_false, List.length_nil]
    rfl
  generalize hM1 : cleared M = M1 at a1
  have hdi' : (if M1.bimodal then t.dims.di else M1.di) = f.di := by
    rw [← hM1, cleared]
    dsimp only
    cases hb : M.bimodal
    · rw [hdi hb]
      rw [hbi] at hb
      simp [Format.Valid, hb] at hv ⊢
      exact hv.1.symm
    · simp [h.di]
  set M2 : HierHmm ℝ := { M1 with training := true, dim := t.dims.dim, di := if M1.bimodal then t.dims.di else M1.di } with hM2
  have hconf : M2.conf = M.conf := by rw [hM2, ← hM1, cleared]
  have hwin : M2.window = M.window := by rw [hM2, ← hM1, cleared]
  have hm2 : M2.models = [] := by rw [hM2, ← hM1, cleared]
  have hfresh : AllFresh f z M2 := by
    have e1 : M2.prior = [] := by rw [hM2, ← hM1, cleared]
    have e2 : M2.trans = [] := by rw [hM2, ← hM1, cleared]
    have e3 : M2.exitTrans = [] := by rw [hM2, ← hM1, cleared]
    refine ⟨by rw [hM2, ← hM1, cleared], by rw [hm2]; exact SMap.sorted_nil, ?_, ?_, by rw [hM2, ← hM1, cleared]; exact hbi, h.dim, hdi', by rw [hm2]; simp⟩ <;> rw [hm2]
    · constructor <;> simp [e1, e2, e3]
    · constructor <;> simp [e1, e2, e3]
  have hlabs : SMap.Sorted t.labels := hp.sorted
  obtain ⟨M3, b1, b2, b3, b4⟩ := adds_fresh (SMap.keys t.labels) hfresh (by rw [hconf]; exact hS.states) (SMap.keys_sorted hlabs).nodup (by simp [hm2, SMap.keys])
  have hconf3 : M3.conf = M.conf := by rw [b3]; exact hconf
  have hwin3 : M3.window = M.window := by rw [b3]; exact hwin
  have hkey3 : ∀ lc ∈ M3.models, lc.1 ∈ SMap.keys t.labels := fun lc hlc => by
    have := (b4 lc.1).1 (List.mem_map.2 ⟨lc, hlc, rfl⟩)
    simpa [hm2, SMap.keys] using this
  have hlab : ∀ lc ∈ M3.models, ∃ e ∈ τ, e.2.1 = lc.1 := fun lc hlc => (hp.labels _).1 (hkey3 lc hlc)
  obtain ⟨cs, c1, c2⟩ := mapM_forall₂ M3.models
    (fun lc => inThread (trainOne D log Real.sqrt (Compare.exact lowest pct) P KData.deviation (cancel lc.1) w t lc.1) lc.2)
    (fun lc c => (∃ tr, trainOne D log Real.sqrt (Compare.exact lowest pct) P KData.deviation (cancel lc.1) w t lc.1 lc.2 = .ret tr c.1) ∧
      ClassTrained z D log (Compare.exact lowest pct) P cancel f τ M.conf M.window lc.1 c) M3 (by
      intro lc hlc
      obtain ⟨c, hc⟩ := class_trained h hv hS hlong z D hD log hlog lowest pct cancel lc.1 (hlab lc hlc)
      obtain ⟨tr, q1, q2, _⟩ := id hc
      have e1 : trainOne D log Real.sqrt (Compare.exact lowest pct) P KData.deviation (cancel lc.1) w t lc.1 lc.2 = .ret tr c.1 := by
        rw [trainOne_alone h hx hv D log _ P _ lc.1 (hkey3 lc hlc), b2.cls lc hlc, hconf3, hwin3]
        dsimp only
        rw [show ({ fresh f M.window (M.conf lc.1) z with training := true } : Hmm ℝ) = fresh f M.window (M.conf lc.1) z from rfl, q1]
      refine ⟨c, ?_, ⟨tr, e1⟩, hc⟩
      unfold inThread
      rw [e1]
      simp only [← q2])
  have hpe : t.phrases.isEmpty = false := by
    have : t.phrases.length = τ.length := by
      have := congrArg List.length hp.numbers
      simpa [SMap.keys] using this
    cases hq : t.phrases with
    | nil => rw [hq] at this; exact absurd (List.eq_nil_of_length_eq_zero this.symm) hne
    | cons => rfl
  have hr3 : M3.results = M1.results := by rw [b3]
  have hs3 : M3.started = M1.started := by rw [b3]
  have hh3 : M3.hier = M1.hier := by rw [b3]
  refine ⟨M3, cs, fun l => ?_, b2, ?_, by rw [hs3, ← hM1]; rfl, by rw [hh3, ← hM1]; rfl, c2.imp fun _ _ h => h.2, ?_, ?_⟩
  · rw [b4 l, ← hp.labels]
    simp [hm2, SMap.keys]
  · rw [hr3, ← hM1]
    simp [cleared, MultiRes.resetResults, resize]
  · unfold trainSet
    rw [if_neg (by simp [hpe]), bind_of_ret a1, bind_of_ret (Prog.modify_def _ _), bind_of_ret b1, bind_of_ret (Prog.get_def _), bind_of_ret c1,
      bind_of_ret (Prog.modify_def _ _)]
  · unfold trainSequential
    rw [if_neg (by simp [hpe]), bind_of_ret a1, bind_of_ret (Prog.modify_def _ _), bind_of_ret b1, bind_of_ret (Prog.get_def _),
      bind_of_ret (trainHere_all D log (Compare.exact lowest pct) P cancel w t M3 cs (c2.imp fun _ _ h => h.1)), Prog.modify_def]

/-- `filter` on classes that have been trained, with results that have no space for them -/
theorem filter_unreset_ub (D : Dens ℝ) (hD : D.Sound) (log exp : ℝ → ℝ) (x : List ℝ) (M : HierHmm ℝ) (hidle : M.training = false) (hnull : M.nulls = []) (hres : M.results.inst = [])
    (hh : M.hier = true) (hst : M.started = false) (hprior : M.prior.length = M.models.length) (hne : M.models ≠ [])
    (hcls : ∀ lc ∈ M.models, lc.2.InHierarchy ∧ lc.2.bimodal = M.bimodal ∧ lc.2.buf = CBuf.construct 0 1 1 ∧ lc.2.Fits x) : filter D log exp x M = .ub := by
  have hem : ∃ b : Nat → Nat → ℝ, HierSpec.Emits D M x b := by
    have key : ∀ c : Nat, ∃ b : Nat → ℝ, ∀ lc : String × Hmm ℝ, M.models[c]? = some lc → HmmSpec.Emits D lc.2 x b := by
      intro c
      by_cases hc : c < M.models.length
      · obtain ⟨lc, hlc⟩ := get_class hc
        obtain ⟨k1, -, -, k4⟩ := hcls lc (mem_of_get hlc)
        obtain ⟨b, hb⟩ := emits_exist D hD lc.2 k1.can
        refine ⟨b x, fun lc' hlc' => ?_⟩
        rw [hlc] at hlc'
        rw [← Option.some.inj hlc']
        exact (hb x k4).1
      · exact ⟨fun _ => 0, fun lc hlc => absurd (lt_of_get hlc) hc⟩
    choose b hb using key
    exact ⟨b, fun c lc hlc => hb c lc hlc⟩
  obtain ⟨b, hb⟩ := hem
  have e1 := forwardInit_any D M hidle hprior (fun lc hlc => ⟨(hcls lc hlc).1, (hcls lc hlc).2.1⟩) x b hb
  obtain ⟨lc, ls, hl⟩ := List.exists_cons_of_ne_nil hne
  obtain ⟨l, g1, g2, -⟩ := eachClass_rel ({ M with
      models := M.models.mapIdx fun c lc => (lc.1, divided (initNorm M b) (begun (M.prior.getD c 0) (b c) lc.2))
      started := true } : HierHmm ℝ) (fun _ => progressClass log) (fun _ _ _ => True) (fun i lc hlc => by
    rw [List.getElem?_mapIdx, Option.map_eq_some_iff] at hlc
    obtain ⟨a, ha, rfl⟩ := hlc
    obtain ⟨k1, -, k3, -⟩ := hcls a (mem_of_get ha)
    have hsame : a.2.SameClass (divided (initNorm M b) (begun (M.prior.getD i 0) (b i) a.2)) := ⟨rfl, SameStates.refl _ k1.can.state⟩
    obtain ⟨m', q, -⟩ := progressClass_any log (divided (initNorm M b) (begun (M.prior.getD i 0) (b i) a.2)) (hsame.inHierarchy k1)
      ⟨by simp [divided, begun], by simp [divided, begun], by simp [divided, begun], k1.exit⟩ (win := 1) []
      (by show Logs a.2.buf 1 []; rw [k3]; exact CBuf.Holds.init 0 1 (by omega))
    exact ⟨m', q, trivial⟩)
  unfold filter
  rw [bind_of_ret (checkTraining_idle hidle), bind_of_ret (get_def M), if_neg (by simp [hnull])]
  have e2 : forward D log x M = .ret () ({ M with
      models := M.models.mapIdx fun c lc => (lc.1, divided (initNorm M b) (begun (M.prior.getD c 0) (b c) lc.2))
      started := true } : HierHmm ℝ) := by
    unfold forward
    rw [if_pos hh, if_neg (by simp [hst]), e1]
  simp only [List.length_mapIdx] at g1
  rw [bind_of_ret e2, bind_of_ret g1, bind_of_ret (get_def _)]
  refine bind_of_ub ?_
  have hl' : l ≠ [] := by
    intro h0
    rw [h0] at g2
    simp [hl] at g2
  obtain ⟨a, as, hla⟩ := List.exists_cons_of_ne_nil hl'
  simp only [onResults, MultiRes.updateResults, bind_def, MultiRes.copyClasses, classes, hla, List.map_cons, List.foldlM_cons, MultiRes.writeClass, get_def, MultiRes.wr, hres,
    List.length_nil, lt_irrefl, if_false, undef_def]

/-- `reset()` in both modes -/
theorem reset_any {M : HierHmm ℝ} (hn : M.nulls = []) (hc : ∀ lc ∈ M.models, Flat lc.2) (hi : M.training = false) :
    ∃ M', reset M = .ret () M' ∧ M'.nulls = [] ∧ M'.models.length = M.models.length ∧ M'.prior = M.prior := by
  unfold reset
  rw [bind_of_ret (checkTraining_idle hi), bind_of_ret (get_def M), if_neg (by simp [hn])]
  obtain ⟨ms, h1, h2, h3⟩ := eachClass_keep (fun _ => Hmm.reset) Flat M (fun _ m hm => by
    obtain ⟨m', e1, e2, -⟩ := hm.reset_ret
    exact ⟨m', e1, e2⟩) hc
  rw [bind_of_ret h1, bind_of_ret (modify_def _ _)]
  generalize hM1 : ({ ({ M with models := ms } : HierHmm ℝ) with
      results := MultiRes.resetResults (HierHmm.size { M with models := ms }) M.bimodal (M.dim - M.di) M.mode M.results
      front1 := resize (HierHmm.size { M with models := ms }) M.front1
      front2 := resize (HierHmm.size { M with models := ms }) M.front2
      started := false } : HierHmm ℝ) = M1
  have hlen : M.models.length = M1.models.length := by
    rw [← hM1]
    have := congrArg List.length h2
    simpa using this.symm
  rw [hlen]
  obtain ⟨ms', g1, g2, -⟩ := eachClass_keep (fun _ => resetClass M.hier) Flat M1 (fun _ m hm => by
    obtain ⟨m', e1, e2, -⟩ := Flat.reset_ret (m := { m with hier := M.hier }) ⟨hm.idle, hm.buf, hm.n, hm.window, hm.trans⟩
    exact ⟨m', by unfold resetClass; rw [bind_of_ret (modify_def _ _), e1], e2⟩) (by rw [← hM1]; exact h3)
  refine ⟨_, g1, by rw [← hM1]; exact hn, ?_, by rw [← hM1]⟩
  have := congrArg List.length g2
  simpa using this

section session
variable (f : Format) (hv : f.Valid) (i : Nat) (w0 : World ℝ String) (h0 : w0.sets i = none) (ops : List (RecOp ℝ String)) (ha : Takes.Admissible f ops [])
  (hne : (Takes.run f ops []).1 ≠ []) (M : HierHmm ℝ) (hidle : M.training = false) (P : EmParams) (hS : M.Settings P)
  (hlong : Takes.LongEnough (Takes.run f ops []).1 fun l => (M.conf l).n) (hbi : M.bimodal = f.bimodal) (hdi : M.bimodal = false → M.di = 0)
  (z : ℝ) (D : Dens ℝ) (hD : D.Sound) (log : ℝ → ℝ) (hlog : ∀ x y, 0 < x → 0 < y → log (x * y) = log x + log y) (lowest pct : ℝ) (cancel : String → Nat → Bool)
include hv h0 ha hne hidle hS hlong hbi hdi hD hlog

/-- C107, hidden Markov models: for every recording session that leaves at least one take and in which every class has a take with at least as many complete frames as it has states,
    for all settings of LeftRight classes, hierarchical or not, and every moment of cancellation, training in the mode Sequential is defined and raises no exception.  The classes are
    the labels of the takes; each of them is what its training alone on its own takes has left.  If the training of every class is done, then `reset()` makes it the model that
    the mode Parallel leaves. -/
theorem C107_hmm_train :
    ∃ M1, recordAndTrainHmmSequential z D log (Compare.exact lowest pct) P cancel f i ops w0 M = .ret () M1 ∧ M1.training = false ∧
      M1.EachTrained z D log (Compare.exact lowest pct) P cancel f (Takes.run f ops []).1 M.conf M.window ∧
      ((∀ e ∈ (Takes.run f ops []).1, ∃ m, Done z D log (Compare.exact lowest pct) P cancel f (Takes.run f ops []).1 M.conf M.window e.2.1 m) →
        (∃ M', reset M1 = .ret () M') ∧ recordAndTrainHmm z D log (Compare.exact lowest pct) P cancel f i ops w0 M = reset M1) := by
  obtain ⟨w, t, h1, h2, h3, -, h4⟩ := recordThen_sim f hv i w0 h0 ops ha
  obtain ⟨N, cs, a1, a2, a3, a4, a5, a6, a7, a8⟩ := training_starts h1 h2 hv hne M hidle P hS hlong hbi hdi z D hD log hlog lowest pct cancel
  generalize hτ : (Takes.run f ops []).1 = τ at *
  have hlen : (N.models.zip cs).length = N.models.length := by simp [a6.length_eq]
  refine ⟨_, by unfold recordAndTrainHmmSequential; rw [h3]; exact a8, rfl, ⟨fun l => ?_, fun lc hlc => ?_⟩, fun hd => ?_⟩
  · rw [← a1 l]
    unfold SMap.keys
    exact iff_of_eq (congrArg (l ∈ ·) (map_fst_mapped N.models cs Prod.fst a6.length_eq.symm))
  · obtain ⟨x, hx, rfl⟩ := List.mem_map.1 hlc
    obtain ⟨tr, q1, -, -, q4, -⟩ := (forall₂_zip a6 x hx).1
    exact ⟨tr, q1, q4⟩
  · have hdone : ∀ x ∈ N.models.zip cs, ClassTrained z D log (Compare.exact lowest pct) P cancel f τ M.conf M.window x.1.1 x.2 ∧ x.2.2 = .done := by
      intro x hx
      obtain ⟨hr, -⟩ := forall₂_zip a6 x hx
      obtain ⟨tr, q1, q2, -⟩ := id hr
      obtain ⟨e, he, hl⟩ := (a1 x.1.1).1 (List.mem_map.2 ⟨x.1, (List.of_mem_zip hx).1, rfl⟩)
      obtain ⟨m, tr', p1, p2⟩ := hd e he
      rw [hl, q1] at p1
      injection p1 with p1 _
      subst p1
      exact ⟨hr, q2.trans p2⟩
    have : ((N.models.zip cs).filter fun x => x.2.2 ≠ .cancel ∧ x.2.2 ≠ .error) = N.models.zip cs := by
      rw [List.filter_eq_self]
      intro x hx
      simp [(hdone x hx).2]
    rw [h4, a7, this]
    have hflats : ∀ lc ∈ (N.models.zip cs).map (fun x => (x.1.1, x.2.1)), Flat lc.2 := by
      intro lc hlc
      obtain ⟨x, hx, rfl⟩ := List.mem_map.1 hlc
      obtain ⟨⟨tr, -, q2, -, -, -, q6, -⟩, hdn⟩ := hdone x hx
      obtain ⟨k1, k2, -⟩ := q6 (q2.symm.trans hdn)
      exact ⟨k1.can.idle, by dsimp only; rw [k2]; exact GmmModel.bufOk_construct, k1.can.wf.pos, k1.can.window, k1.can.wf.trans⟩
    generalize hM1 : ({ N with models := (N.models.zip cs).map fun x => (x.1.1, x.2.1), training := false } : HierHmm ℝ) = M1
    have hr : ∃ M', reset M1 = .ret () M' ∧ M'.nulls = [] ∧ M'.models.length = M1.models.length ∧ M'.prior = M1.prior :=
      reset_any (by rw [← hM1]; exact a2.nulls) (by rw [← hM1]; exact hflats) (by rw [← hM1])
    obtain ⟨M', r1, r2, r3, r4⟩ := hr
    refine ⟨⟨M', r1⟩, ?_⟩
    rw [bind_of_ret r1, r1]
    unfold updateTransitionParameters
    rw [bind_of_ret (get_def _), if_pos (by
      rw [r4, ← hM1, a2.top.prior]
      simp [size, r2, r3, ← hM1, hlen]), pure_def]

/-- **C107 (undefined), hidden Markov models.**  If the training of every class is done, `filter` on the hierarchical model that the mode Sequential leaves, without `reset()`, writes the
    likelihood of the first class outside of the results. -/
theorem C107_hmm_without_reset_ub (hh : M.hier = true)
    (hdone : ∀ e ∈ (Takes.run f ops []).1, ∃ m, Done z D log (Compare.exact lowest pct) P cancel f (Takes.run f ops []).1 M.conf M.window e.2.1 m) (exp : ℝ → ℝ) (x : List ℝ)
    (hx : f.Sample x) :
    ∃ M1, recordAndTrainHmmSequential z D log (Compare.exact lowest pct) P cancel f i ops w0 M = .ret () M1 ∧ filter D log exp x M1 = .ub := by
  obtain ⟨w, t, h1, h2, h3, -, -⟩ := recordThen_sim f hv i w0 h0 ops ha
  obtain ⟨N, cs, a1, a2, a3, a4, a5, a6, -, a8⟩ := training_starts h1 h2 hv hne M hidle P hS hlong hbi hdi z D hD log hlog lowest pct cancel
  generalize hτ : (Takes.run f ops []).1 = τ at *
  refine ⟨_, by unfold recordAndTrainHmmSequential; rw [h3]; exact a8, ?_⟩
  obtain ⟨e, he⟩ := List.exists_mem_of_ne_nil _ hne
  have hz : N.models.zip cs ≠ [] := by
    obtain ⟨lc, hlc, -⟩ := List.mem_map.1 ((a1 e.2.1).2 ⟨e, he, rfl⟩)
    obtain ⟨c, hc, -⟩ := forall₂_exists a6 lc hlc
    exact List.ne_nil_of_mem hc
  refine filter_unreset_ub D hD log exp x _ rfl a2.nulls a3 (a5.trans hh) a4 ?_ (by simpa using hz) fun lc hlc => ?_
  · show N.prior.length = _
    rw [a2.top.prior]
    simp [a6.length_eq]
  · obtain ⟨y, hy, rfl⟩ := List.mem_map.1 hlc
    obtain ⟨tr, q1, q2, -, -, -, q6, -⟩ := (forall₂_zip a6 y hy).1
    obtain ⟨e, he, hl⟩ := (a1 y.1.1).1 (List.mem_map.2 ⟨y.1, (List.of_mem_zip hy).1, rfl⟩)
    obtain ⟨m, tr', p1, p2⟩ := hdone e he
    rw [hl, q1] at p1
    injection p1 with p1 _
    subst p1
    obtain ⟨k1, k2, k3, k4, k5, -⟩ := q6 p2
    refine ⟨k1, k3.trans a2.bimodal.symm, k2, ?_⟩
    unfold Hmm.Fits
    rw [k3, k4, k5]
    exact hx

/-- **C107 (violated), hidden Markov models.**  A class whose training is not done is in the model that the mode Sequential leaves.  In a hierarchy it is not in that of the mode Parallel. -/
theorem C107_hmm_failed_class_violated (hh : M.hier = true) (hmode : M.bimodal = true → ∀ l, (M.conf l).mode = M.mode) (l : String)
    (hl : ∃ e ∈ (Takes.run f ops []).1, e.2.1 = l)
    (hfail : ¬ ∃ m, Done z D log (Compare.exact lowest pct) P cancel f (Takes.run f ops []).1 M.conf M.window l m) :
    ∃ M1 M2, recordAndTrainHmmSequential z D log (Compare.exact lowest pct) P cancel f i ops w0 M = .ret () M1 ∧
      recordAndTrainHmm z D log (Compare.exact lowest pct) P cancel f i ops w0 M = .ret () M2 ∧ l ∈ SMap.keys M1.models ∧ l ∉ SMap.keys M2.models := by
  obtain ⟨M1, g1, -, g2, -⟩ := C107_hmm_train f hv i w0 h0 ops ha hne M hidle P hS hlong hbi hdi z D hD log hlog lowest pct cancel
  obtain ⟨M2, k1, -, -, k2, -⟩ := C105_train f hv i w0 h0 ops ha hne M hidle P hS hh hlong hbi hdi hmode z D hD log hlog lowest pct cancel
  refine ⟨M1, M2, g1, k1, (g2.labels l).2 hl, ?_⟩
  obtain ⟨tr, m, e1, -, e2⟩ := k2.each l hl
  rcases e2 with ⟨e2, -⟩ | ⟨e2, -⟩
  · exact absurd ⟨m, tr, e1, e2⟩ hfail
  · exact e2

end session
end HierHmm
/-! ### The hypotheses of C107 are met -/

namespace Gmm
open GmmSpec

/-- with a likelihood function that answers at most 1/2, the log-likelihood of an iteration is negative -/
theorem update_negative (D : Dens ℝ) (p : ℝ) (hp : 0 < p) (hp2 : p ≤ 1 / 2) (data : KData ℝ) (m m' : Gmm ℝ) (hw : m.WF) (ht : m.Trains data) (hc : IsDistribution m.coeffs)
    (hn : m.gaussians ≤ 10 ^ 90) (hd : Densities D m data.frames fun _ _ => p) (l : ℝ) (hu : emUpdate D Real.log data m = .ret l m') : l < 0 := by
  obtain ⟨m2, -, e⟩ := emUpdate_run D Real.log data m hw ht _ hd
  rw [hu] at e
  have hl : l = (data.frames.map fun _ => Real.log (∑ c ∈ Finset.range m.gaussians, score (weights m) (fun _ => p) c)).sum := by
    simp only [bind_def, pure_def] at e
    split at e
    · injection e
    · cases e
    · cases e
  have hw0 : ∀ c, 0 ≤ weights m c := fun c => by
    unfold weights
    rw [List.getD_eq_getElem?_getD]
    cases hq : m.coeffs[c]? with
    | none => simp
    | some y => exact hc.1 y (List.mem_of_getElem? hq)
  have hsum : ∑ c ∈ Finset.range m.gaussians, weights m c = 1 := by
    rw [← hc.2, ← hw.coeffs]
    unfold weights
    have := sum_range_getD (0 : ℝ) (fun x => x) m.coeffs
    simpa using this
  have hs : ∀ c, 0 < score (weights m) (fun _ => p) c ∧ score (weights m) (fun _ => p) c ≤ weights m c * p + 1 / 10 ^ 100 := by
    intro c
    unfold score
    split_ifs with h
    · exact ⟨by positivity, by rw [h]; simp⟩
    · exact ⟨lt_of_le_of_ne (mul_nonneg (hw0 c) hp.le) (Ne.symm h), le_add_of_nonneg_right (by positivity)⟩
  have hpos : 0 < ∑ c ∈ Finset.range m.gaussians, score (weights m) (fun _ => p) c :=
    Finset.sum_pos (fun c _ => (hs c).1) ⟨0, Finset.mem_range.2 hw.pos⟩
  have hlt : ∑ c ∈ Finset.range m.gaussians, score (weights m) (fun _ => p) c < 1 := by
    have h1 : ∑ c ∈ Finset.range m.gaussians, score (weights m) (fun _ => p) c ≤ p + m.gaussians * (1 / 10 ^ 100) := by
      refine le_trans (Finset.sum_le_sum fun c _ => (hs c).2) ?_
      rw [Finset.sum_add_distrib, ← Finset.sum_mul, hsum]
      simp
    have h2 : (m.gaussians : ℝ) * (1 / 10 ^ 100) ≤ 10 ^ 90 * (1 / 10 ^ 100) := mul_le_mul_of_nonneg_right (by exact_mod_cast hn) (by positivity)
    have h3 : (10 : ℝ) ^ 90 * (1 / 10 ^ 100) < 1 / 2 := by norm_num
    linarith
  have hneg := Real.log_neg hpos hlt
  rw [hl]
  simp only [List.map_const', List.sum_replicate, nsmul_eq_mul]
  exact mul_neg_of_pos_of_neg (by exact_mod_cast List.length_pos_of_ne_nil ht.some) hneg

theorem half_densities (m : Gmm ℝ) (frames : List (List ℝ)) : Densities HierHmm.halfDens m frames (fun _ _ => 1 / 2) := by
  intro x _ c g _
  cases m.bimodal <;> rfl

/-- the training of a mixture does not fail with that likelihood function -/
theorem half_not_error (m0 : Gmm ℝ) (ha : m0.Admissible) (hn : m0.gaussians ≤ 10 ^ 90) (sd : List ℝ) (data : KData ℝ) (hf : m0.Fed sd data) (hreg : 1 / 10 ^ 9 ≤ m0.absReg) (n : Nat)
    (pre : List ℝ) (m' : Gmm ℝ) : trainRun HierHmm.halfDens Real.log Real.sqrt sd data n m0 ≠ .ret (pre ++ [0, 0]) m' := by
  intro hr
  obtain ⟨m1, ok, m2, s1, s2, -, s3, s4, -⟩ := start_ret m0 ha sd data hf hreg
  unfold trainRun at hr
  rw [bind_of_ret s1, bind_of_ret s2] at hr
  cases n with
  | zero =>
    simp only [trainSteps, pure_def] at hr
    injection hr with hr _
    simp at hr
  | succ n =>
    obtain ⟨ls, m3, e1, -, e3, e4, -⟩ := trainSteps_ret HierHmm.halfDens HierHmm.halfDens_sound Real.log data ok m0 m2 s3 s4 n
    obtain ⟨l, m4, k1, -⟩ := trainStep_ret HierHmm.halfDens HierHmm.halfDens_sound Real.log data ok n m0 m3 e3 e4
    unfold trainSteps at hr
    rw [bind_of_ret e1, bind_of_ret k1, pure_def] at hr
    injection hr with hr _
    have hl : l = 0 := by
      have := congrArg List.getLast? hr
      simpa using this
    have hg : m3.gaussians = m0.gaussians := by rw [e3.same]
    have hneg : l < 0 := by
      unfold trainStep at k1
      split at k1
      · exact update_negative _ (1 / 2) (by norm_num) le_rfl data m3 m4 e3.wf e3.trains e3.coeffs (by rw [hg]; exact hn) (half_densities _ _) l k1
      · exact update_negative _ (1 / 10 ^ 180) (by positivity) (by
          rw [div_le_div_iff₀ (by positivity) (by positivity)]
          norm_num) data m3 m4 e3.wf e3.trains e3.coeffs (by rw [hg]; exact hn) (floor_densities _ _) l k1
    exact hneg.ne hl

end Gmm

namespace GmmModel

/-- with that likelihood function, the training of a class is done if it is not cancelled -/
theorem half_done (f : Format) (hv : f.Valid) (i : Nat) (w0 : World ℝ String) (h0 : w0.sets i = none) (ops : List (RecOp ℝ String)) (ha : Takes.Admissible f ops [])
    (hfill : Takes.Filled (Takes.run f ops []).1) (S : GmmSettings ℝ) (hS : S.Valid) (lowest pct : ℝ) (cancel : String → Nat → Bool) (l : String)
    (hl : ∃ e ∈ (Takes.run f ops []).1, e.2.1 = l) (hn : S.gaussians l ≤ 10 ^ 90) (hc : ∀ k, cancel l k = false) :
    ∃ m, Done S HierHmm.halfDens Real.log (Compare.exact lowest pct) cancel f (Takes.run f ops []).1 l m := by
  obtain ⟨w, t, h1, h2, -⟩ := recordThen_sim f hv i w0 h0 ops ha
  obtain ⟨c, tr, q1, q2, q3, q4, q5, q6, q7⟩ := trainedAlone_ret h1 hv hfill S hS HierHmm.halfDens HierHmm.halfDens_sound Real.log lowest pct cancel l hl (newClass S f.bimodal f.dim f.di l)
  refine ⟨c.1, tr, q1, ?_⟩
  rcases q3 with q3 | q3 | q3
  · exact q3
  · exfalso
    obtain ⟨pre, m'', e⟩ := q7 q3
    have hne : (Takes.data f (Takes.run f ops []).1 l).frames ≠ [] := by
      obtain ⟨a, ha, hal⟩ := hl
      obtain ⟨e', he', h1, h2⟩ := hfill a ha
      intro h0
      simp only [Takes.data, KData.frames, Takes.frames, List.flatten_eq_nil_iff, List.mem_map] at h0
      exact h2 (h0 _ ⟨e', by simp [Takes.ofClass, he', h1, hal], rfl⟩)
    exact Gmm.half_not_error (newClass S f.bimodal f.dim f.di l) (newClass_admissible S hS f hv l) hn _ (Takes.data f (Takes.run f ops []).1 l)
      ⟨rfl, h1.frame_length hv l, hne, by simp [KData.deviation, Takes.data, newClass]⟩ (hS.absReg l) _ _ _ e
  · exfalso
    obtain ⟨k, hk⟩ := q5 q3
    rw [hc k] at hk
    cases hk

/-- a model for two modalities -/
def sessionModel : GmmModel ℝ := ⟨[], [], true, 0, .full, .likeliest, false, ⟨[], [], [], [], [], "", [], []⟩⟩

/-- the hypotheses of `C107_gmm_train`, `C107_gmm_without_reset_ub` and `C107_gmm_failed_class_violated` are met by a bimodal session with two classes: if no training is cancelled, both
    are done; the training of one of them is cancelled -/
theorem sequential_example : sessionFormat.Valid ∧ Takes.Admissible sessionFormat sessionA [] ∧ (Takes.run sessionFormat sessionA []).1 ≠ [] ∧
    Takes.Filled (Takes.run sessionFormat sessionA []).1 ∧ sessionSettings.Valid ∧ HierHmm.halfDens.Sound ∧ sessionModel.bimodal = sessionFormat.bimodal ∧ sessionModel.training = false ∧
    (∀ l, sessionSettings.mode l = sessionModel.mode) ∧
    (∀ lowest pct, ∀ e ∈ (Takes.run sessionFormat sessionA []).1, ∃ m,
      Done sessionSettings HierHmm.halfDens Real.log (Compare.exact lowest pct) (fun _ _ => false) sessionFormat (Takes.run sessionFormat sessionA []).1 e.2.1 m) ∧
    (∃ e ∈ (Takes.run sessionFormat sessionA []).1, e.2.1 = "b") ∧
    (∀ lowest pct, ¬ ∃ m,
      Done sessionSettings HierHmm.halfDens Real.log (Compare.exact lowest pct) (fun l _ => l == "b") sessionFormat (Takes.run sessionFormat sessionA []).1 "b" m) := by
  obtain ⟨-, -, -, hv, -, -, hS, ha, -, hfill, -⟩ := session_example
  obtain ⟨c1, -⟩ := session_classes
  have hb : ∃ e ∈ (Takes.run sessionFormat sessionA []).1, e.2.1 = "b" := by
    have : ((2, "b", [[5, 5]]) : Int × String × List (List ℝ)) ∈ (Takes.run sessionFormat sessionA []).1.map (fun e => (e.1, e.2.1, e.2.2.frames)) := by rw [c1]; simp
    obtain ⟨e, he, h⟩ := List.mem_map.1 this
    simp only [Prod.mk.injEq] at h
    exact ⟨e, he, h.2.1⟩
  refine ⟨hv, ha, ?_, hfill, hS, HierHmm.halfDens_sound, rfl, rfl, fun _ => rfl, fun lowest pct e he => ?_, hb, ?_⟩
  · obtain ⟨e, he, -⟩ := hb
    exact List.ne_nil_of_mem he
  · refine half_done sessionFormat hv 0 emptyWorld rfl sessionA ha hfill _ hS lowest pct _ _ ⟨e, he, rfl⟩ ?_ fun _ => rfl
    simp only [sessionSettings]
    split <;> norm_num
  · rintro lowest pct ⟨m, tr, e1, e2⟩
    obtain ⟨g, g1, -⟩ := Gmm.allocate_ret (newClass sessionSettings sessionFormat.bimodal sessionFormat.dim sessionFormat.di "b")
      (newClass_admissible sessionSettings hS sessionFormat hv "b").gaussians (newClass_admissible sessionSettings hS sessionFormat hv "b").dim
      (newClass_admissible sessionSettings hS sessionFormat hv "b").di
    obtain ⟨t, k, q1, q2, -⟩ := Trainee.train_cancelled (Gmm.trainee HierHmm.halfDens Real.log Real.sqrt (Takes.data sessionFormat (Takes.run sessionFormat sessionA []).1 "b").deviation
      (Takes.data sessionFormat (Takes.run sessionFormat sessionA []).1 "b")) (Compare.exact lowest pct) sessionSettings.em (fun _ => true) _ _ g1 (by norm_num [sessionSettings]) rfl
    unfold trainedAlone at e1
    have hc : ("b" == "b") = true := by simp
    simp only [hc] at e1
    rw [q1] at e1
    injection e1 with e1 _
    subst e1
    rw [q2] at e2
    cases e2

end GmmModel

namespace HierHmm

/-- a hierarchical model for two modalities, with one state for each class -/
noncomputable def stackedModel : HierHmm ℝ := { flatModel with hier := true }

/-- the hypotheses of `C107_hmm_train` (both modes), `C107_hmm_without_reset_ub` and `C107_hmm_failed_class_violated` are met by a bimodal session with two classes: if no training is
    cancelled, both are done; the training of one of them is cancelled -/
theorem sequential_example : stackedModel.training = false ∧ stackedModel.hier = true ∧ stackedModel.Settings ⟨5, 10⟩ ∧ sessionFormat.Valid ∧
    Takes.Admissible sessionFormat frameSession [] ∧ (Takes.LongEnough (Takes.run sessionFormat frameSession []).1 fun l => (stackedModel.conf l).n) ∧
    stackedModel.bimodal = sessionFormat.bimodal ∧ (stackedModel.bimodal = true → ∀ l, (stackedModel.conf l).mode = stackedModel.mode) ∧ halfDens.Sound ∧
    (∀ z lowest pct, ∀ e ∈ (Takes.run sessionFormat frameSession []).1, ∃ m,
      Done z halfDens Real.log (Compare.exact lowest pct) ⟨5, 10⟩ (fun _ _ => false) sessionFormat (Takes.run sessionFormat frameSession []).1 stackedModel.conf stackedModel.window e.2.1 m) ∧
    (∀ z lowest pct, ∃ e ∈ (Takes.run sessionFormat frameSession []).1, ¬ ∃ m,
      Done z halfDens Real.log (Compare.exact lowest pct) ⟨5, 10⟩ (fun l _ => l == "b") sessionFormat (Takes.run sessionFormat frameSession []).1 stackedModel.conf stackedModel.window e.2.1 m) := by
  obtain ⟨a1, -, a3, a4, a5, a6, a7, a8, a9, a10, -, a12, -⟩ := flat_session_example
  exact ⟨a1, rfl, ⟨a3.window, a3.minIter, a3.states, a3.gaussians, a3.absReg, a3.leftRight⟩, a4, a5, a6, a7, a8, a9, a10, a12⟩

end HierHmm
end Xmm
