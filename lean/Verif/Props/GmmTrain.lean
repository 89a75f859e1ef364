import Verif.Lemmas.GmmTrain
import Verif.Props.ClassTraining
import Verif.Props.GmmModel
import Verif.Props.Takes
set_option linter.unusedSectionVars false
/- C103: recording, training and recognising with a Gaussian mixture model, from the calls of the user to the results.  C104: a class is trained on its own takes only. -/
namespace Xmm
open TS PhraseSpec

namespace GmmModel

theorem reading_ret {σ α K : Type} [Field K] [LinearOrder K] {o : TSStats.Store K} {p : Prog (TSStats.Store K) α} {a : α} (h : p o = .ret a o) (s : σ) :
    reading o p s = .ret a s := by simp [reading, h]

theorem bufOk_construct : BufOk (CBuf.construct (0 : ℝ) 1 1) := by simp [BufOk, CBuf.construct, CBuf.vecResize]

end GmmModel

/-- every frame of the takes has the dimension of the session -/
theorem TS.Sim.frame_length {f : Format} {i : Nat} {w : World ℝ String} {t : TSet String} {τ : Takes ℝ String} (h : Sim f i w t τ) (hv : f.Valid) (l : String) :
    ∀ x ∈ (Takes.data f τ l).frames, x.length = f.dim := by
  intro x hx
  simp only [Takes.data, KData.frames, Takes.frames, List.mem_flatten, List.mem_map] at hx
  obtain ⟨fr, ⟨e, he, rfl⟩, hx⟩ := hx
  have hz := h.class l
  unfold SMap.Zip at hz
  obtain ⟨n, h2, rfl⟩ := List.getElem_of_mem he
  have hi := ((List.forall₂_iff_get.1 hz).2 n (by rw [hz.length_eq]; exact h2) h2).2
  rw [hi.rep.frames_row (hi.coh hv) hx, hi.dim]

theorem newClass_admissible (S : GmmSettings ℝ) (hS : S.Valid) (f : Format) (hv : f.Valid) (l : String) :
    (GmmModel.newClass S f.bimodal f.dim f.di l).Admissible := by
  refine ⟨hS.gaussians l, ?_, ?_⟩ <;> cases hb : f.bimodal <;> simp [Format.Valid, hb, GmmModel.newClass] at hv ⊢ <;> omega

/-- a class is trained on the frames of the takes with its label -/
theorem trainOne_any {f : Format} {i : Nat} {w : World ℝ String} {t : TSet String} {τ : Takes ℝ String} (h : Sim f i w t τ) (hx : Indexed w t) (hv : f.Valid)
    (S : GmmSettings ℝ) (D : Dens ℝ) (log : ℝ → ℝ) (C : Compare ℝ) (cancel : Nat → Bool) (l : String) (hl : l ∈ SMap.keys t.labels) (m : Gmm ℝ) :
    GmmModel.trainOne S D log Real.sqrt C cancel w t l m =
      (Gmm.trainee D log Real.sqrt (Takes.data f τ l).deviation (Takes.data f τ l)).train C S.em cancel m := by
  obtain ⟨-, hsub⟩ := h.index hx hv
  obtain ⟨s, h1, h2, _⟩ := makeSub_ok (fun r => (w.obj r).label) t h.dims (h.coh hv) h.sorted l
  have hp := makeSub_phrases (fun r => (w.obj r).label) t h.dims (h.coh hv) h.sorted l
  rw [h1] at hp
  simp only at hp
  have hf : SMap.find? l t.subs = some s := by rw [hsub, if_pos hl, h1]
  have hd : s.dims.dim = f.dim := h2.trans h.dim
  have hn : ((t.phrases.filter fun e => decide ((w.obj e.2).label = l)).map Prod.snd).Nodup :=
    h.nodup.sublist (List.filter_sublist.map _)
  have e1 := allFrames_zip hv _ _ (h.class l)
  have e2 := deviation_ret hv (h.class l) hn
  rw [← hp] at e1 e2
  unfold GmmModel.trainOne
  rw [hf]
  simp only [hd, Prog.bind_def, GmmModel.reading_ret e1, GmmModel.reading_ret e2]
  rfl

/-- C103 (each class): a class is trained on the frames of its own takes -/
theorem trainOne_alone {f : Format} {i : Nat} {w : World ℝ String} {t : TSet String} {τ : Takes ℝ String} (h : Sim f i w t τ) (hx : Indexed w t) (hv : f.Valid)
    (S : GmmSettings ℝ) (D : Dens ℝ) (log : ℝ → ℝ) (C : Compare ℝ) (cancel : Nat → Bool) (l : String) (hl : l ∈ SMap.keys t.labels) :
    GmmModel.trainOne S D log Real.sqrt C cancel w t l (GmmModel.newClass S f.bimodal f.dim f.di l) =
      trainedAlone S D log C cancel f l (Takes.data f τ l) := trainOne_any h hx hv S D log C cancel l hl _

theorem mapM_forall₂ {σ α β : Type} (l : List β) (body : β → Prog σ α) (R : β → α → Prop) (s : σ)
    (h : ∀ b ∈ l, ∃ a, body b s = .ret a s ∧ R b a) : ∃ as, (l.mapM body : Prog σ (List α)) s = .ret as s ∧ List.Forall₂ R l as := by
  classical
  cases l with
  | nil => exact ⟨[], rfl, .nil⟩
  | cons b0 l =>
    obtain ⟨a0, _⟩ := h b0 List.mem_cons_self
    let F : β → α := fun b => if hb : b ∈ b0 :: l then (h b hb).choose else a0
    have hF : ∀ b ∈ b0 :: l, body b s = .ret (F b) s ∧ R b (F b) := by
      intro b hb
      simp only [F, dif_pos hb]
      exact (h b hb).choose_spec
    refine ⟨_, prog_mapM_ret _ body F s fun b hb => (hF b hb).1, ?_⟩
    rw [List.forall₂_map_right_iff]
    exact List.forall₂_same.2 fun b hb => (hF b hb).2

theorem forall₂_exists {α β : Type} {R : α → β → Prop} : ∀ {l : List α} {l' : List β}, List.Forall₂ R l l' → ∀ a ∈ l, ∃ b, (a, b) ∈ l.zip l' ∧ R a b
  | _, _, .nil, _, h => by simp at h
  | _, _, .cons (a := a0) (b := b0) h1 h2, a, h => by
    rcases List.mem_cons.1 h with rfl | h
    · exact ⟨b0, by simp, h1⟩
    · obtain ⟨b, q1, q2⟩ := forall₂_exists h2 a h
      exact ⟨b, by simp [q1], q2⟩

theorem forall₂_zip {α β : Type} {R : α → β → Prop} : ∀ {l : List α} {l' : List β}, List.Forall₂ R l l' → ∀ x ∈ l.zip l', R x.1 x.2 ∧ x.1 ∈ l
  | _, _, .nil, _, h => by simp at h
  | _, _, .cons h1 h2, x, h => by
    rcases List.mem_cons.1 h with rfl | h
    · exact ⟨h1, by simp⟩
    · exact ⟨(forall₂_zip h2 x h).1, List.mem_cons_of_mem _ (forall₂_zip h2 x h).2⟩

/-- what the thread of a class gives -/
def Trained (S : GmmSettings ℝ) (D : Dens ℝ) (log : ℝ → ℝ) (C : Compare ℝ) (cancel : String → Nat → Bool) (f : Format) (τ : Takes ℝ String)
    (lc : String × Gmm ℝ) (c : Gmm ℝ × Status) : Prop :=
  ∃ tr, trainedAlone S D log C (cancel lc.1) f lc.1 (Takes.data f τ lc.1) = .ret tr c.1 ∧ c.2 = tr.status ∧ tr.status.Final ∧
    (∃ k, OneOutcome tr.events k tr.status) ∧ (tr.status = .cancel → ∃ k, cancel lc.1 k = true) ∧
    (tr.status ≠ .cancel → c.1.CanFilter ∧ c.1.buf = CBuf.construct 0 1 1 ∧ c.1.bimodal = f.bimodal ∧ c.1.dim = f.dim ∧ c.1.di = f.di ∧ c.1.mode = S.mode lc.1) ∧
    (tr.status = .error → ∃ pre m'', Gmm.trainRun D log Real.sqrt (Takes.data f τ lc.1).deviation (Takes.data f τ lc.1) tr.updates
          (GmmModel.newClass S f.bimodal f.dim f.di lc.1) = .ret (pre ++ [0, 0]) m'')

theorem trainedAlone_ret {f : Format} {i : Nat} {w : World ℝ String} {t : TSet String} {τ : Takes ℝ String} (h : Sim f i w t τ) (hv : f.Valid)
    (hfill : Takes.Filled τ) (S : GmmSettings ℝ) (hS : S.Valid) (D : Dens ℝ) (hD : D.Sound) (log : ℝ → ℝ) (lowest pct : ℝ) (cancel : String → Nat → Bool)
    (l : String) (hl : ∃ e ∈ τ, e.2.1 = l) (m0 : Gmm ℝ) :
    ∃ c, Trained S D log (Compare.exact lowest pct) cancel f τ (l, m0) c := by
  have hne : (Takes.data f τ l).frames ≠ [] := by
    obtain ⟨e, he, rfl⟩ := hl
    obtain ⟨e', he', h1, h2⟩ := hfill e he
    intro h0
    simp only [Takes.data, KData.frames, Takes.frames, List.flatten_eq_nil_iff, List.mem_map] at h0
    exact h2 (h0 _ ⟨e', by simp [Takes.ofClass, he', h1], rfl⟩)
  have hfed : (GmmModel.newClass S f.bimodal f.dim f.di l).Fed (Takes.data f τ l).deviation (Takes.data f τ l) :=
    ⟨rfl, h.frame_length hv l, hne, by simp [KData.deviation, Takes.data, GmmModel.newClass]⟩
  have hadm := newClass_admissible S hS f hv l
  obtain ⟨tr, m, e1, e2, e3, -, -, -, e4, e5⟩ := Gmm.C81_training D hD log _ hadm hS.window _ _ hfed (hS.absReg l) lowest pct S.em hS.minIter (cancel l)
  refine ⟨(m, tr.status), tr, e1, rfl, e3, e2, e4, fun hc => ?_, fun he => ?_⟩
  · obtain ⟨q1, ls, m'', q2, q3, q4, -⟩ := e5 hc
    obtain ⟨ls', m3, r1, -, -, r2⟩ := Gmm.C81_trained_usable D hD log _ hadm hS.window _ _ hfed (hS.absReg l) tr.updates q4
    rw [q2] at r1
    injection r1 with _ r1
    subst r1
    have hdi : (GmmModel.newClass S f.bimodal f.dim f.di l).di = f.di := by
      cases hb : f.bimodal <;> simp [Format.Valid, hb, GmmModel.newClass] at hv ⊢
      exact hv.1.symm
    refine ⟨q1, ?_, ?_, ?_, ?_, ?_⟩ <;> simp only [q3] <;> rw [r2]
    · rfl
    · rfl
    · rfl
    · exact hdi
    · rfl
  · obtain ⟨-, ls, m'', q2, -, -, q3⟩ := e5 (by rw [he]; simp)
    obtain ⟨pre, rfl⟩ := q3 he
    exact ⟨pre, m'', q2⟩

theorem C103_of_sim {f : Format} {i : Nat} {w : World ℝ String} {t : TSet String} {τ : Takes ℝ String} (h : Sim f i w t τ) (hx : Indexed w t) (hv : f.Valid)
    (hne : τ ≠ []) (hfill : Takes.Filled τ) (S : GmmSettings ℝ) (hS : S.Valid) (D : Dens ℝ) (hD : D.Sound) (log : ℝ → ℝ) (lowest pct : ℝ) (cancel : String → Nat → Bool)
    (M : GmmModel ℝ) (hbi : M.bimodal = f.bimodal) (hmode : f.bimodal = true → ∀ l, S.mode l = M.mode) :
    ∃ M', GmmModel.train S D log Real.sqrt (Compare.exact lowest pct) cancel w t M = .ret () M' ∧ M'.Usable ∧
      TrainedOn S D log (Compare.exact lowest pct) cancel f τ M' ∧ M'.bimodal = f.bimodal ∧ M'.mode = M.mode ∧ M'.est = M.est ∧
      ∀ lc ∈ M'.models, lc.2.dim = f.dim ∧ lc.2.di = f.di ∧ lc.2.bimodal = f.bimodal := by
  have hp := h.presents hx hv
  obtain ⟨a1, a2, a3⟩ := GmmModel.addClasses_spec (GmmModel.newClass S f.bimodal f.dim f.di) (SMap.keys t.labels)
  set ms := GmmModel.addClasses (GmmModel.newClass S f.bimodal f.dim f.di) (SMap.keys t.labels) with hms
  have hdi : (if f.bimodal then f.di else 0) = f.di := by
    cases hb : f.bimodal <;> simp [Format.Valid, hb] at hv ⊢
    exact hv.1.symm
  have hlab : ∀ lc ∈ ms, ∃ e ∈ τ, e.2.1 = lc.1 := fun lc hlc =>
    (hp.labels _).1 ((a2 lc.1).1 (List.mem_map.2 ⟨lc, hlc, rfl⟩))
  -- the model when the classes are trained
  set R0 := MultiRes.resetResults 0 M.bimodal M.dout M.mode M.results with hR0
  set M1 : GmmModel ℝ := { M with models := ms, nulls := [], training := true, dout := f.dim - f.di, results := R0 } with hM1
  obtain ⟨cs, c1, c2⟩ := mapM_forall₂ ms (fun lc => GmmModel.inThread (GmmModel.trainOne S D log Real.sqrt (Compare.exact lowest pct) (cancel lc.1) w t lc.1) lc.2)
    (Trained S D log (Compare.exact lowest pct) cancel f τ) M1 (by
      intro lc hlc
      obtain ⟨c, hc⟩ := trainedAlone_ret h hv hfill S hS D hD log lowest pct cancel lc.1 (hlab lc hlc) lc.2
      obtain ⟨tr, q1, q2, _⟩ := id hc
      refine ⟨c, ?_, hc⟩
      unfold GmmModel.inThread
      rw [a3 lc hlc, trainOne_alone h hx hv S D log _ _ lc.1 ((a2 lc.1).1 (List.mem_map.2 ⟨lc, hlc, rfl⟩)), q1]
      simp only [← q2])
  set kept := ((ms.zip cs).filter fun x => x.2.2 ≠ .cancel ∧ x.2.2 ≠ .error).map (fun x => (x.1.1, x.2.1)) with hkept
  have hsub : (kept.map Prod.fst).Sublist (ms.map Prod.fst) := by
    have e1 : kept.map Prod.fst = (((ms.zip cs).filter fun x => x.2.2 ≠ .cancel ∧ x.2.2 ≠ .error)).map (fun x => x.1.1) := by
      rw [hkept, List.map_map]; rfl
    have e2 : ms.map Prod.fst = (ms.zip cs).map (fun x => x.1.1) := by
      have := List.map_fst_zip (l₁ := ms) (l₂ := cs) (by rw [c2.length_eq])
      conv_lhs => rw [← this]
      rw [List.map_map]; rfl
    rw [e1, e2]
    exact List.filter_sublist.map _
  have hsorted : SMap.Sorted kept := by
    have : (ms.map Prod.fst).Pairwise (· < ·) := by rw [List.pairwise_map]; exact a1
    have := this.sublist hsub
    rw [List.pairwise_map] at this
    exact this
  have hmem : ∀ lc ∈ kept, ∃ st, Trained S D log (Compare.exact lowest pct) cancel f τ lc (lc.2, st) ∧ st = .done := by
    intro lc hlc
    obtain ⟨x, hx', rfl⟩ := List.mem_map.1 hlc
    obtain ⟨h1, h2⟩ := List.mem_filter.1 hx'
    have hr := (forall₂_zip c2 x h1).1
    simp only [decide_eq_true_eq] at h2
    obtain ⟨tr, q1, q2, q3, _⟩ := id hr
    refine ⟨x.2.2, hr, ?_⟩
    rw [q2] at h2 ⊢
    rcases q3 with q3 | q3 | q3
    · exact q3
    · exact absurd q3 h2.2
    · exact absurd q3 h2.1
  have hcls : ∀ lc ∈ kept, lc.2.CanFilter ∧ BufOk lc.2.buf ∧ lc.2.bimodal = f.bimodal ∧ lc.2.dim = f.dim ∧ lc.2.di = f.di ∧ lc.2.mode = S.mode lc.1 := by
    intro lc hlc
    obtain ⟨st, ⟨tr, -, q2, -, -, -, q6, -⟩, hst⟩ := hmem lc hlc
    obtain ⟨k1, k2, k3⟩ := q6 (by rw [← q2, hst]; simp)
    exact ⟨k1, by rw [k2]; exact GmmModel.bufOk_construct, k3⟩
  set M2 : GmmModel ℝ := { M1 with models := kept, training := false } with hM2
  obtain ⟨M', r1, r2, r3, r4⟩ := GmmModel.C39_reset M2 rfl rfl hsorted (fun lc hlc => by
      obtain ⟨k1, k2, k3, k4, k5, -⟩ := hcls lc hlc
      exact ⟨k1, k3.trans hbi.symm, by rw [k4, k5], k2⟩)
    (fun hb lc hlc => (hcls lc hlc).2.2.2.2.2.trans (hmode (hbi ▸ hb) lc.1))
  have hkeys : SMap.keys M'.models = SMap.keys kept := by
    unfold SMap.keys
    apply List.ext_getElem
    · simp only [List.length_map]; exact r3.length_eq.symm
    · intro n h1 h2
      simp only [List.length_map] at h1 h2
      simp only [List.getElem_map]
      exact ((List.forall₂_iff_get.1 r3).2 n h2 h1).1
  have hpe : t.phrases.isEmpty = false := by
    have : t.phrases.length = τ.length := by
      have := congrArg List.length hp.numbers
      simpa [SMap.keys] using this
    cases hq : t.phrases with
    | nil => rw [hq] at this; exact absurd (List.eq_nil_of_length_eq_zero this.symm) hne
    | cons => rfl
  refine ⟨M', ?_, r2, ⟨fun l hl => ?_, fun l hl => ?_⟩, ?_, ?_, ?_, ?_⟩
  · unfold GmmModel.train
    simp only [hpe, Bool.false_eq_true, if_false, Prog.bind_def, Prog.modify_def, Prog.get_def]
    have e0 : GmmModel.reset ({ M with models := [], nulls := [] } : GmmModel ℝ) = .ret () { M with models := [], nulls := [], results := R0 } := by
      simp [GmmModel.reset, Prog.bind_def, Prog.modify_def, Prog.get_def, hR0]
      rfl
    rw [e0]
    simp only [h.dim, h.di, hbi, hdi]
    have e1 := c1
    rw [hM1] at e1
    simp only [hbi] at e1
    rw [e1]
    have e2 := r1
    rw [hM2, hM1] at e2
    simp only [hbi] at e2
    exact e2
  · rw [hkeys] at hl
    obtain ⟨lc, hlc, rfl⟩ := List.mem_map.1 (hsub.subset hl)
    exact hlab lc hlc
  · obtain ⟨lc, hlc, rfl⟩ := List.mem_map.1 ((a2 l).2 ((hp.labels l).2 hl))
    obtain ⟨c, hz, hr⟩ := forall₂_exists c2 lc hlc
    obtain ⟨tr, q1, q2, q3, q4, q5, q6, q7⟩ := hr
    refine ⟨tr, c.1, q1, q4, ?_⟩
    have hout : (c.2 = .cancel ∨ c.2 = .error) → lc.1 ∉ SMap.keys M'.models := by
      intro hc hin
      rw [hkeys] at hin
      obtain ⟨k, hk, hkl⟩ := List.mem_map.1 hin
      obtain ⟨x, hx', rfl⟩ := List.mem_map.1 hk
      obtain ⟨h1, h2⟩ := List.mem_filter.1 hx'
      simp only [decide_eq_true_eq] at h2
      obtain ⟨⟨tr', p1, p2, _⟩, hin'⟩ := forall₂_zip c2 x h1
      simp only at hkl
      rw [hkl, q1] at p1
      injection p1 with p1 _
      subst p1
      rw [p2, ← q2] at h2
      rcases hc with hc | hc
      · exact h2.1 hc
      · exact h2.2 hc
    rcases q3 with q3 | q3 | q3
    · refine .inl ⟨q3, ?_⟩
      have hk : (lc.1, c.1) ∈ kept := List.mem_map.2 ⟨(lc, c), List.mem_filter.2 ⟨hz, by simp [q2, q3]⟩, rfl⟩
      obtain ⟨b, hb, e1, -, e2, -⟩ := forall₂_exists r3 _ hk
      refine ⟨b.2, ?_, e2⟩
      have := (List.of_mem_zip hb).2
      rw [← e1]
      exact this
    · exact .inr ⟨hout (.inr (q2.trans q3)), .inr ⟨q3, q7 q3⟩⟩
    · exact .inr ⟨hout (.inl (q2.trans q3)), .inl ⟨q3, q5 q3⟩⟩
  · rw [r4]; exact hbi
  · rw [r4]
  · rw [r4]
  · intro lc hlc
    obtain ⟨n, hn, rfl⟩ := List.getElem_of_mem hlc
    have hn' : n < kept.length := by rw [show kept.length = M'.models.length from r3.length_eq]; exact hn
    have e2 := ((List.forall₂_iff_get.1 r3).2 n hn' hn).2.2.1
    obtain ⟨-, -, k3, k4, k5, -⟩ := hcls _ (List.getElem_mem hn')
    unfold Gmm.SameModel at e2
    simp only [List.get_eq_getElem] at e2
    rw [e2]
    exact ⟨k4, k5, k3⟩

theorem recordAndTrain_sim (f : Format) (hv : f.Valid) (i : Nat) (w0 : World ℝ String) (h0 : w0.sets i = none) (ops : List (RecOp ℝ String)) (ha : Takes.Admissible f ops []) :
    ∃ w t, Sim f i w t (Takes.run f ops []).1 ∧ Indexed w t ∧ ∀ (S : GmmSettings ℝ) (D : Dens ℝ) (log : ℝ → ℝ) (C : Compare ℝ) (cancel : String → Nat → Bool) (M : GmmModel ℝ),
      recordAndTrain S D log Real.sqrt C cancel f i ops w0 M = GmmModel.train S D log Real.sqrt C cancel w t M := by
  obtain ⟨w1, t1, e1, s1, x1⟩ := sim_open (i := i) hv h0
  obtain ⟨w, t, e2, s2, x2⟩ := Sim.run hv ops s1 x1 ha
  refine ⟨w, t, s2, x2, fun S D log C cancel M => ?_⟩
  unfold recordAndTrain
  rw [e1]
  simp only [e2, s2.set]

/-- C103: from the recordings to the trained model.  For every recording session that leaves at least one take and in which every class has a take with a complete
    frame, for all valid settings of the classes, every model that is idle and every moment of cancellation: the program of the user
    (a new training set, the calls of the session, `train`) is defined and raises no exception, and the model can recognise.  The classes of the model are labels of takes
    that are in the set at the end; each of them is exactly the class that would be trained alone on the complete frames of the takes with its label.  A label has no class only
    if its training was cancelled or if the last two log-likelihoods are 0. -/
theorem C103_train (f : Format) (hv : f.Valid) (i : Nat) (w0 : World ℝ String) (h0 : w0.sets i = none) (ops : List (RecOp ℝ String)) (ha : Takes.Admissible f ops [])
    (hne : (Takes.run f ops []).1 ≠ []) (hfill : Takes.Filled (Takes.run f ops []).1) (S : GmmSettings ℝ) (hS : S.Valid) (D : Dens ℝ) (hD : D.Sound) (log : ℝ → ℝ) (lowest pct : ℝ)
    (cancel : String → Nat → Bool) (M : GmmModel ℝ) (_hidle : M.training = false) (hbi : M.bimodal = f.bimodal) (hmode : f.bimodal = true → ∀ l, S.mode l = M.mode) :
    ∃ M', recordAndTrain S D log Real.sqrt (Compare.exact lowest pct) cancel f i ops w0 M = .ret () M' ∧ M'.Usable ∧
      TrainedOn S D log (Compare.exact lowest pct) cancel f (Takes.run f ops []).1 M' ∧ M'.bimodal = f.bimodal ∧
      ∀ lc ∈ M'.models, ∀ x, f.Sample x → lc.2.Fits x := by
  obtain ⟨w, t, h1, h2, h3⟩ := recordAndTrain_sim f hv i w0 h0 ops ha
  obtain ⟨M', g1, g2, g3, g4, _, _, g5⟩ := C103_of_sim h1 h2 hv hne hfill S hS D hD log lowest pct cancel M hbi hmode
  refine ⟨M', by rw [h3]; exact g1, g2, g3, g4, fun lc hlc x hx => ?_⟩
  obtain ⟨k1, k2, k3⟩ := g5 lc hlc
  unfold Gmm.Fits
  rw [k1, k2, k3]
  exact hx

theorem filterAll_snoc {K : Type} [Field K] [LinearOrder K] (D : Dens K) (log exp : K → K) (pre : List (List K)) (x : List K) (M : GmmModel K) :
    GmmModel.filterAll D log exp (pre ++ [x]) M = match GmmModel.filterAll D log exp pre M with
      | .ret _ M1 => GmmModel.filter D log exp x M1
      | .throw e M1 => .throw e M1
      | .ub => .ub := by
  induction pre generalizing M with
  | nil =>
    simp only [List.nil_append, GmmModel.filterAll, Prog.bind_def, Prog.pure_def]
    cases GmmModel.filter D log exp x M <;> rfl
  | cons y pre ih =>
    simp only [List.cons_append, GmmModel.filterAll, Prog.bind_def]
    cases GmmModel.filter D log exp y M with
    | ret _ M1 => exact ih M1
    | throw => rfl
    | ub => rfl

/-- C103 (recognition): then, for every stream of observations of the right size, the program is defined and raises no exception; the likeliest class is the label of a take,
    and the normalised likelihoods of the classes are a probability distribution. -/
theorem C103_recognise (f : Format) (hv : f.Valid) (i : Nat) (w0 : World ℝ String) (h0 : w0.sets i = none) (ops : List (RecOp ℝ String)) (ha : Takes.Admissible f ops [])
    (hne : (Takes.run f ops []).1 ≠ []) (hfill : Takes.Filled (Takes.run f ops []).1) (S : GmmSettings ℝ) (hS : S.Valid) (D : Dens ℝ) (hD : D.Sound) (log exp : ℝ → ℝ) (hexp : ∀ x, 0 < exp x)
    (lowest pct : ℝ) (cancel : String → Nat → Bool) (M : GmmModel ℝ) (hidle : M.training = false) (hbi : M.bimodal = f.bimodal) (hmode : f.bimodal = true → ∀ l, S.mode l = M.mode)
    (M' : GmmModel ℝ) (ht : recordAndTrain S D log Real.sqrt (Compare.exact lowest pct) cancel f i ops w0 M = .ret () M') (hcls : M'.models ≠ [])
    (xs : List (List ℝ)) (hxs : xs ≠ []) (hx : ∀ x ∈ xs, f.Sample x) :
    ∃ M'', GmmModel.filterAll D log exp xs M' = .ret () M'' ∧ (∃ e ∈ (Takes.run f ops []).1, M''.results.likeliest = e.2.1) ∧
      M''.results.Summary exp M''.classes ∧ (f.bimodal = true → M''.OutputsOf) ∧
      IsDistribution M''.results.instNorm ∧ IsDistribution M''.results.smoothedNorm := by
  obtain ⟨N, g1, g2, g3, g4, g5⟩ := C103_train f hv i w0 h0 ops ha hne hfill S hS D hD log lowest pct cancel M hidle hbi hmode
  rw [ht] at g1
  injection g1 with _ g1
  subst g1
  obtain ⟨pre, x, rfl⟩ : ∃ pre x, xs = pre ++ [x] := ⟨xs.dropLast, xs.getLast hxs, (List.dropLast_append_getLast hxs).symm⟩
  obtain ⟨M1, a1, a2, a3, a4, -⟩ := GmmModel.filterAll_ret D hD log exp hexp pre M' g2 hcls fun y hy lc hlc => g5 lc hlc y (hx y (by simp [hy]))
  have hne1 : M1.models ≠ [] := by intro h; rw [h] at a3; exact hcls (List.forall₂_nil_right_iff.1 a3)
  have hfit : ∀ lc ∈ M1.models, lc.2.Fits x := by
    intro lc hlc
    obtain ⟨n, hn, rfl⟩ := List.getElem_of_mem hlc
    have hn' : n < M'.models.length := by rw [a3.length_eq]; exact hn
    exact GmmModel.fits_same ((List.forall₂_iff_get.1 a3).2 n hn' hn).2.1 x (g5 _ (List.getElem_mem hn') x (hx x (by simp)))
  obtain ⟨M2, b1, b2, b3, b4, b5, b6, b7, b8⟩ := GmmModel.C39_filter D hD log exp hexp M1 a2 hne1 x hfit
  refine ⟨M2, ?_, ?_, b4, fun hb => b7 ?_, b5, b6⟩
  · rw [filterAll_snoc, a1]
    exact b1
  · have hc : M2.classes ≠ [] := by
      intro h
      simp only [GmmModel.classes, List.map_eq_nil_iff] at h
      rw [h] at b3
      exact hne1 (List.forall₂_nil_right_iff.1 b3)
    obtain ⟨before, c, after, e1, e2, -⟩ := b4.likeliest hc
    have hm : c ∈ M2.classes := by rw [e1]; simp
    simp only [GmmModel.classes, List.mem_map] at hm
    obtain ⟨lc, hlc, rfl⟩ := hm
    obtain ⟨n, hn, rfl⟩ := List.getElem_of_mem hlc
    have hn1 : n < M1.models.length := by rw [b3.length_eq]; exact hn
    have hn0 : n < M'.models.length := by rw [a3.length_eq]; exact hn1
    have k1 := ((List.forall₂_iff_get.1 b3).2 n hn1 hn).1
    have k0 := ((List.forall₂_iff_get.1 a3).2 n hn0 hn1).1
    simp only [List.get_eq_getElem] at k0 k1
    obtain ⟨e, he, hel⟩ := g3.known M'.models[n].1 (List.mem_map.2 ⟨_, List.getElem_mem hn0, rfl⟩)
    exact ⟨e, he, by rw [e2, hel, k1, k0]⟩
  · rw [a4]; exact g4.trans hb

/-- C104: a class is trained on its own takes.  Two sessions, with any other takes, any other classes, any other numbers of the takes and any previous contents of the two models: if the takes
    with label `l` hold the same frames in the same order, and the settings for `l` are the same, then the class `l` is in both models or in none, it has the same
    parameters in both, and after `reset()` it gives the same likelihoods on every stream. -/
theorem C104_own_takes (f : Format) (hv : f.Valid) (i j : Nat) (v0 w0 : World ℝ String) (hv0 : v0.sets i = none) (hw0 : w0.sets j = none) (as bs : List (RecOp ℝ String))
    (ha : Takes.Admissible f as []) (hb : Takes.Admissible f bs []) (hfa : Takes.Filled (Takes.run f as []).1) (hfb : Takes.Filled (Takes.run f bs []).1)
    (l : String) (hla : ∃ e ∈ (Takes.run f as []).1, e.2.1 = l) (hlb : ∃ e ∈ (Takes.run f bs []).1, e.2.1 = l)
    (hl : ((Takes.run f as []).1.ofClass l).frames = ((Takes.run f bs []).1.ofClass l).frames)
    (S T : GmmSettings ℝ) (hS : S.Valid) (hT : T.Valid)
    (hst : S.window = T.window ∧ S.em = T.em ∧ S.gaussians l = T.gaussians l ∧ S.relReg l = T.relReg l ∧ S.absReg l = T.absReg l ∧ S.mode l = T.mode l)
    (D : Dens ℝ) (hD : D.Sound) (log : ℝ → ℝ) (lowest pct : ℝ) (cancel cancel' : String → Nat → Bool) (hc : cancel l = cancel' l)
    (M N : GmmModel ℝ) (hiM : M.training = false) (hiN : N.training = false) (hbM : M.bimodal = f.bimodal) (hbN : N.bimodal = f.bimodal)
    (hmM : f.bimodal = true → ∀ l, S.mode l = M.mode) (hmN : f.bimodal = true → ∀ l, T.mode l = N.mode) :
    ∃ M' N', recordAndTrain S D log Real.sqrt (Compare.exact lowest pct) cancel f i as v0 M = .ret () M' ∧
      recordAndTrain T D log Real.sqrt (Compare.exact lowest pct) cancel' f j bs w0 N = .ret () N' ∧
      (l ∈ SMap.keys M'.models ↔ l ∈ SMap.keys N'.models) ∧
      ∀ m n, SMap.find? l M'.models = some m → SMap.find? l N'.models = some n → Gmm.SameModel m n ∧
        ∀ xs, xs ≠ [] → (∀ x ∈ xs, f.Sample x) → ∃ ps m' n', (do Gmm.reset; Gmm.filterAll D log xs) m = .ret ps m' ∧ (do Gmm.reset; Gmm.filterAll D log xs) n = .ret ps n' := by
  obtain ⟨M', a1, a2, a3, a4, a5⟩ := C103_train f hv i v0 hv0 as ha (by obtain ⟨e, he, _⟩ := hla; exact List.ne_nil_of_mem he) hfa S hS D hD log lowest pct cancel M hiM hbM hmM
  obtain ⟨N', b1, b2, b3, b4, b5⟩ := C103_train f hv j w0 hw0 bs hb (by obtain ⟨e, he, _⟩ := hlb; exact List.ne_nil_of_mem he) hfb T hT D hD log lowest pct cancel' N hiN hbN hmN
  have hdata : Takes.data f (Takes.run f as []).1 l = Takes.data f (Takes.run f bs []).1 l := by simp only [Takes.data, hl]
  have hnew : GmmModel.newClass S f.bimodal f.dim f.di l = GmmModel.newClass T f.bimodal f.dim f.di l := by
    obtain ⟨e1, -, e3, e4, e5, e6⟩ := hst
    simp only [GmmModel.newClass, e1, e3, e4, e5, e6]
  obtain ⟨tr, m0, c1, -, c2⟩ := a3.each l hla
  obtain ⟨tr', n0, d1, -, d2⟩ := b3.each l hlb
  have hal : trainedAlone S D log (Compare.exact lowest pct) (cancel l) f l (Takes.data f (Takes.run f as []).1 l) =
      trainedAlone T D log (Compare.exact lowest pct) (cancel' l) f l (Takes.data f (Takes.run f bs []).1 l) := by
    unfold trainedAlone
    rw [hdata, hnew, hst.2.1, hc]
  rw [hal, d1] at c1
  injection c1 with c1 c1'
  subst c1 c1'
  refine ⟨M', N', a1, b1, ?_, fun m n hm hn => ?_⟩
  · rcases c2 with ⟨q1, m', q2, -⟩ | ⟨q1, q2⟩ <;> rcases d2 with ⟨r1, n', r2, -⟩ | ⟨r1, r2⟩
    · exact ⟨fun _ => List.mem_map.2 ⟨_, r2, rfl⟩, fun _ => List.mem_map.2 ⟨_, q2, rfl⟩⟩
    · rcases r2 with r2 | r2 <;> rw [r2.1] at q1 <;> cases q1
    · rcases q2 with r2 | r2 <;> rw [r2.1] at r1 <;> cases r1
    · exact ⟨fun h => absurd h q1, fun h => absurd h r1⟩
  · have km := SMap.mem_of_find? hm
    have kn := SMap.mem_of_find? hn
    have hone : ∀ (A : GmmModel ℝ) (hs : SMap.Sorted A.models) (u v : Gmm ℝ), (l, u) ∈ A.models → (l, v) ∈ A.models → u = v := by
      intro A hs u v hu hv
      have e1 := (SMap.mem_iff_find? hs).1 hu
      rw [(SMap.mem_iff_find? hs).1 hv] at e1
      exact (Option.some.inj e1).symm
    have hsame : Gmm.SameModel m n := by
      rcases c2 with ⟨q1, m', q2, q3⟩ | ⟨q1, -⟩
      · rcases d2 with ⟨r1, n', r2, r3⟩ | ⟨r1, -⟩
        · rw [hone M' a2.sorted m m' km q2, hone N' b2.sorted n n' kn r2]
          unfold Gmm.SameModel at q3 r3 ⊢
          rw [r3, q3]
        · exact absurd (List.mem_map.2 ⟨_, kn, rfl⟩) r1
      · exact absurd (List.mem_map.2 ⟨_, km, rfl⟩) q1
    refine ⟨hsame, fun xs hxs hx => ?_⟩
    obtain ⟨h1, hm'⟩ := a2.buf _ km
    obtain ⟨h2, hn'⟩ := b2.buf _ kn
    obtain ⟨ps, m', n', k1, k2, -⟩ := Gmm.C51_filter_forgets D hD log m n hsame (a2.cls _ km).1 (b2.cls _ kn).1 hm'.ok hn'.ok xs hxs fun x hx' => a5 _ km x (hx x hx')
    exact ⟨ps, m', n', k1, k2⟩

/-! ### The hypotheses are met -/

/-- a session made of takes that are not empty -/
theorem filled_of_takes (f : Format) (xs : List (Int × String × List (List ℝ))) (hf : ∀ x ∈ xs, ∀ y ∈ x.2.2, y.length = f.dim) (hne : ∀ x ∈ xs, x.2.2 ≠ []) :
    Takes.Admissible f (manyTakes xs) [] ∧ Takes.Filled (Takes.run f (manyTakes xs) []).1 := by
  obtain ⟨h1, h2⟩ := C102_any_takes f xs hf
  refine ⟨h1, fun e he => ⟨e, he, rfl, ?_⟩⟩
  have key : ∀ (ys : List (Int × String × List (List ℝ))) (m : SMap Int (String × List (List ℝ))), (∀ x ∈ ys, x.2.2 ≠ []) → (∀ x ∈ m, x.2.2 ≠ []) →
      ∀ x ∈ ys.foldl (fun m x => SMap.assign x.1 x.2 m) m, x.2.2 ≠ [] := by
    intro ys
    induction ys with
    | nil => intro m _ h; exact h
    | cons y ys ih =>
      intro m hy hm
      refine ih _ (fun x hx => hy x (List.mem_cons_of_mem _ hx)) fun x hx => ?_
      rcases SMap.mem_assign hx with h | h
      · rw [h]; exact hy y List.mem_cons_self
      · exact hm x h
  have := key xs [] hne (by simp) (e.1, e.2.1, e.2.2.frames) (by rw [← h2]; exact List.mem_map.2 ⟨e, he, rfl⟩)
  exact this

/-- two classes -/
def sessionA : List (RecOp ℝ String) := manyTakes [(1, "a", [[0, 0], [1, 1]]), (2, "b", [[5, 5]]), (4, "a", [[2, 3]])]

/-- two classes, one of them with the takes of the class "a" of the other session -/
def sessionB : List (RecOp ℝ String) := manyTakes [(3, "c", [[9, 1], [2, 2]]), (8, "a", [[0, 0], [1, 1]]), (9, "a", [[2, 3]])]

def sessionFormat : Format := ⟨true, 2, 1⟩

noncomputable def sessionSettings : GmmSettings ℝ := ⟨3, ⟨5, 10⟩, fun l => if l = "a" then 2 else 1, fun _ => 1 / 100, fun _ => 1 / 1000, fun _ => .full⟩

theorem session_classes :
    (Takes.run sessionFormat sessionA []).1.map (fun e => (e.1, e.2.1, e.2.2.frames)) = [(1, "a", [[0, 0], [1, 1]]), (2, "b", [[5, 5]]), (4, "a", [[2, 3]])] ∧
    (Takes.run sessionFormat sessionB []).1.map (fun e => (e.1, e.2.1, e.2.2.frames)) = [(3, "c", [[9, 1], [2, 2]]), (8, "a", [[0, 0], [1, 1]]), (9, "a", [[2, 3]])] := by
  constructor
  · unfold sessionA
    rw [(C102_any_takes sessionFormat _ (by simp [sessionFormat])).2]
    simp [SMap.assign]
  · unfold sessionB
    rw [(C102_any_takes sessionFormat _ (by simp [sessionFormat])).2]
    simp [SMap.assign]

theorem ofClass_frames (τ : Takes ℝ String) (l : String) :
    (τ.ofClass l).frames = ((τ.map fun e => (e.1, e.2.1, e.2.2.frames)).filter fun e => decide (e.2.1 = l)).map fun e => e.2.2 := by
  unfold Takes.ofClass Takes.frames
  rw [List.filter_map, List.map_map]
  rfl

/-- a program without training sets -/
def emptyWorld : World ℝ String := ⟨fun _ => ⟨Phrase.construct ℝ true true, "", []⟩, 0, fun _ => none⟩

/-- the hypotheses of `C103_train` and of `C104_own_takes` are met by two bimodal sessions with two classes each -/
theorem session_example : ∃ (v0 w0 : World ℝ String) (M : GmmModel ℝ), sessionFormat.Valid ∧ v0.sets 0 = none ∧ w0.sets 0 = none ∧ sessionSettings.Valid ∧
    Takes.Admissible sessionFormat sessionA [] ∧ Takes.Admissible sessionFormat sessionB [] ∧
    Takes.Filled (Takes.run sessionFormat sessionA []).1 ∧ Takes.Filled (Takes.run sessionFormat sessionB []).1 ∧
    (∃ e ∈ (Takes.run sessionFormat sessionA []).1, e.2.1 = "a") ∧ (∃ e ∈ (Takes.run sessionFormat sessionB []).1, e.2.1 = "a") ∧
    ((Takes.run sessionFormat sessionA []).1.ofClass "a").frames = ((Takes.run sessionFormat sessionB []).1.ofClass "a").frames ∧
    M.training = false ∧ M.bimodal = sessionFormat.bimodal ∧ (sessionFormat.bimodal = true → ∀ l, sessionSettings.mode l = M.mode) := by
  obtain ⟨a1, a2⟩ := filled_of_takes sessionFormat [(1, "a", [[0, 0], [1, 1]]), (2, "b", [[5, 5]]), (4, "a", [[2, 3]])] (by simp [sessionFormat]) (by simp)
  obtain ⟨b1, b2⟩ := filled_of_takes sessionFormat [(3, "c", [[9, 1], [2, 2]]), (8, "a", [[0, 0], [1, 1]]), (9, "a", [[2, 3]])] (by simp [sessionFormat]) (by simp)
  obtain ⟨c1, c2⟩ := session_classes
  have hin : ∀ (τ : Takes ℝ String) (k : Int) (fr : List (List ℝ)), (k, "a", fr) ∈ τ.map (fun e => (e.1, e.2.1, e.2.2.frames)) → ∃ e ∈ τ, e.2.1 = "a" := by
    intro τ k fr h
    obtain ⟨e, he, h⟩ := List.mem_map.1 h
    simp only [Prod.mk.injEq] at h
    exact ⟨e, he, h.2.1⟩
  refine ⟨emptyWorld, emptyWorld,
    ⟨[], [], true, 0, .full, .likeliest, false, ⟨[], [], [], [], [], "", [], []⟩⟩, ?_, rfl, rfl, ?_, a1, b1, a2, b2, hin _ 1 [[0, 0], [1, 1]] (by rw [c1]; simp),
    hin _ 8 [[0, 0], [1, 1]] (by rw [c2]; simp), ?_, rfl, rfl, fun _ _ => rfl⟩
  · simp [sessionFormat, Format.Valid]
  · exact ⟨by norm_num [sessionSettings], by norm_num [sessionSettings], fun l => by simp only [sessionSettings]; split <;> norm_num, fun l => by norm_num [sessionSettings]⟩
  · rw [ofClass_frames, ofClass_frames, c1, c2]
    simp

end Xmm
