import Verif.Lemmas.HmmTrain
import Verif.Props.GmmTrain
import Verif.Props.HmmInit
import Verif.Props.HierProperties
set_option linter.unusedSectionVars false
/- C105: recording, training and recognising with a hierarchical hidden Markov model, from the calls of the user to the results. -/
namespace Xmm
open TS PhraseSpec
open Gauss (resize)

namespace Hmm

theorem emRun_eq (D : Dens ℝ) (log : ℝ → ℝ) (data : KData ℝ) : ∀ k, emRun D log data k = Trainee.steps (fun _ => emUpdate D log data) k
  | 0 => rfl
  | k + 1 => by
    unfold emRun Trainee.steps
    rw [emRun_eq D log data k]

theorem fresh_admissible {f : Format} (hv : f.Valid) {window : Nat} {p : HmmParams ℝ} (hn : 1 ≤ p.n) (hg : 1 ≤ p.gaussians) (z : ℝ) : (fresh f window p z).Admissible := by
  refine ⟨hn, hg, ?_, ?_⟩ <;> cases hb : f.bimodal <;> simp [Format.Valid, hb, fresh] at hv ⊢ <;> omega

end Hmm

namespace HierHmm
open Hmm

/-- C105 (each class): a class is trained on the frames of its own takes -/
theorem trainOne_alone {f : Format} {i : Nat} {w : World ℝ String} {t : TSet String} {τ : Takes ℝ String} (h : Sim f i w t τ) (hx : Indexed w t) (hv : f.Valid)
    (D : Dens ℝ) (log : ℝ → ℝ) (C : Compare ℝ) (P : EmParams) (cancel : Nat → Bool) (l : String) (hl : l ∈ SMap.keys t.labels) (m : Hmm ℝ) :
    trainOne D log Real.sqrt C P KData.deviation cancel w t l m = Hmm.trainedAlone D log C P cancel { m with training := true } (Takes.data f τ l) := by
  obtain ⟨-, hsub⟩ := h.index hx hv
  obtain ⟨s, h1, h2, _⟩ := makeSub_ok (fun r => (w.obj r).label) t h.dims (h.coh hv) h.sorted l
  have hp := makeSub_phrases (fun r => (w.obj r).label) t h.dims (h.coh hv) h.sorted l
  rw [h1] at hp
  simp only at hp
  have hf : SMap.find? l t.subs = some s := by rw [hsub, if_pos hl, h1]
  have hd : s.dims.dim = f.dim := h2.trans h.dim
  have e1 := allFrames_zip hv _ _ (h.class l)
  rw [← hp] at e1
  unfold trainOne Hmm.trainedAlone
  rw [hf]
  simp only [hd, Prog.bind_def, Prog.modify_def, GmmModel.reading_ret e1]
  rfl

/-- what the thread of a class gives -/
def ClassTrained (z : ℝ) (D : Dens ℝ) (log : ℝ → ℝ) (C : Compare ℝ) (P : EmParams) (cancel : String → Nat → Bool) (f : Format) (τ : Takes ℝ String)
    (conf : String → HmmParams ℝ) (window : Nat) (l : String) (c : Hmm ℝ × Status) : Prop :=
  ∃ tr, Hmm.trainedAlone D log C P (cancel l) (fresh f window (conf l) z) (Takes.data f τ l) = .ret tr c.1 ∧ c.2 = tr.status ∧ tr.status.Final ∧
    (∃ k, OneOutcome tr.events k tr.status) ∧ (tr.status = .cancel → ∃ k, cancel l k = true) ∧
    (tr.status = .done → c.1.InHierarchy ∧ c.1.buf = CBuf.construct 0 1 1 ∧ c.1.bimodal = f.bimodal ∧ c.1.dim = f.dim ∧ c.1.di = f.di ∧ c.1.mode = (conf l).mode ∧ c.1.ergodic = false ∧
      c.1.exitP = lastExit c.1.n ∧ c.1.window = window) ∧
    (tr.status = .error → ∃ pre m'', iterations D log C P tr.updates (Takes.data f τ l) (fresh f window (conf l) z) = .ret (pre ++ [0, 0]) m'')

theorem class_trained {f : Format} {i : Nat} {w : World ℝ String} {t : TSet String} {τ : Takes ℝ String} (h : Sim f i w t τ) (hv : f.Valid)
    {M : HierHmm ℝ} {P : EmParams} (hS : M.Settings P) (hlong : Takes.LongEnough τ fun l => (M.conf l).n) (z : ℝ) (D : Dens ℝ) (hD : D.Sound) (log : ℝ → ℝ)
    (hlog : ∀ x y, 0 < x → 0 < y → log (x * y) = log x + log y) (lowest pct : ℝ) (cancel : String → Nat → Bool) (l : String) (hl : ∃ e ∈ τ, e.2.1 = l) :
    ∃ c, ClassTrained z D log (Compare.exact lowest pct) P cancel f τ M.conf M.window l c := by
  obtain ⟨e, he, rfl⟩ := hl
  obtain ⟨⟨e', he', k1, k2⟩, k3⟩ := hlong e he
  set l := e.2.1 with hle
  have hmem : e'.2.2.frames ∈ (Takes.data f τ l).phrases := by
    simp only [Takes.data, Takes.frames, List.mem_map]
    exact ⟨e', by simp [Takes.ofClass, he', k1], rfl⟩
  have hn := hS.states l
  have hne : (Takes.data f τ l).frames ≠ [] := by
    intro h0
    simp only [KData.frames, List.flatten_eq_nil_iff] at h0
    have := h0 _ hmem
    rw [this] at k2
    simp only [List.length_nil] at k2
    omega
  have hfed : (fresh f M.window (M.conf l) z).Fed (Takes.data f τ l) := ⟨rfl, h.frame_length hv l, hne⟩
  obtain ⟨tr, m, e1, e2, e3, -, -, -, e4, e5, e6, e7, -⟩ := C83_training D hD log hlog (fresh f M.window (M.conf l) z) (fresh_admissible hv hn (hS.gaussians l) z)
    (hS.leftRight l) hS.window _ hfed ⟨_, hmem, k2⟩ k3 (hS.absReg l) KData.deviation (fun d => by simp [KData.deviation]) lowest pct P hS.minIter (cancel l)
  refine ⟨(m, tr.status), tr, e1, rfl, e3, e2, e5, fun hd => ?_, fun hd => ?_⟩
  · obtain ⟨-, -, -, -, q⟩ := e7 hd
    have hx := lastExit_exits (m := fresh f M.window (M.conf l) z) rfl
    refine ⟨(q rfl hx).1, ?_, ?_, ?_, ?_, ?_, ?_, ?_, ?_⟩ <;> dsimp only
    · rw [e4]; rfl
    · rw [e4]; rfl
    · rw [e4]; rfl
    · rw [e4]; rfl
    · rw [e4]; rfl
    · rw [e4]; exact hS.leftRight l
    · rw [e4]; exact exit_again hn
    · rw [e4]; rfl
  · obtain ⟨m1, m2, ls, pre, m3, q1, q2, q3, q4⟩ := e6 hd
    refine ⟨pre, m3, ?_⟩
    unfold iterations
    rw [bind_of_ret q1, bind_of_ret q2, emRun_eq, q3, q4]

theorem clear_exact (M : HierHmm ℝ) (hi : M.training = false) : ∃ M', clear M = .ret () M' ∧
    M' = { M with models := [], nulls := [], prior := [], trans := [], exitTrans := [], results := M'.results, front1 := M'.front1, front2 := M'.front2, started := false } := by
  refine ⟨{ M with models := [], nulls := [], prior := [], trans := [], exitTrans := [],
                   results := MultiRes.resetResults 0 M.bimodal (M.dim - M.di) M.mode M.results, front1 := resize 0 M.front1, front2 := resize 0 M.front2,
                   started := false }, ?_, rfl⟩
  unfold clear reset checkTraining
  simp only [Prog.bind_def, Prog.modify_def, Prog.get_def, Prog.pure_def, hi, Bool.false_eq_true, if_false, ne_eq, not_true_eq_false, List.length_nil]
  rfl

/-- what is common to both modes: the model before the last steps of `joinTraining` -/
structure Joined (z : ℝ) (D : Dens ℝ) (log : ℝ → ℝ) (C : Compare ℝ) (P : EmParams) (cancel : String → Nat → Bool) (f : Format) (τ : Takes ℝ String) (M : HierHmm ℝ)
    (ls : List String) (M3 : HierHmm ℝ) : Prop where
  nodup : ls.Nodup
  labels : ∀ l, l ∈ ls ↔ ∃ e ∈ τ, e.2.1 = l
  sub : (M3.models.map Prod.fst).Sublist ls
  top : TopAt ls.length M3
  uniform : M3.UniformAt ls.length
  idle : M3.training = false
  nulls : M3.nulls = []
  sorted : SMap.Sorted M3.models
  hier : M3.hier = M.hier
  bimodal : M3.bimodal = f.bimodal
  dim : M3.dim = f.dim
  di : M3.di = f.di
  mode : M3.mode = M.mode
  est : M3.est = M.est
  conf : M3.conf = M.conf
  window : M3.window = M.window
  cls : ∀ lc ∈ M3.models, ClassTrained z D log C P cancel f τ M.conf M.window lc.1 (lc.2, .done)
  each : ∀ l, (∃ e ∈ τ, e.2.1 = l) → ∃ c, ClassTrained z D log C P cancel f τ M.conf M.window l c ∧ (c.2 = .done → (l, c.1) ∈ M3.models) ∧
    (c.2 ≠ .done → l ∉ SMap.keys M3.models)

theorem trainSet_core {f : Format} {i : Nat} {w : World ℝ String} {t : TSet String} {τ : Takes ℝ String} (h : Sim f i w t τ) (hx : Indexed w t) (hv : f.Valid) (hne : τ ≠ [])
    (M : HierHmm ℝ) (hidle : M.training = false) (P : EmParams) (hS : M.Settings P) (hlong : Takes.LongEnough τ fun l => (M.conf l).n) (hbi : M.bimodal = f.bimodal)
    (hdi : M.bimodal = false → M.di = 0) (z : ℝ) (D : Dens ℝ) (hD : D.Sound) (log : ℝ → ℝ)
    (hlog : ∀ x y, 0 < x → 0 < y → log (x * y) = log x + log y) (lowest pct : ℝ) (cancel : String → Nat → Bool) :
    ∃ ls M3, trainSet z D log Real.sqrt (Compare.exact lowest pct) P KData.deviation cancel w t M = (do reset; updateTransitionParameters : Prog (HierHmm ℝ) Unit) M3 ∧
      Joined z D log (Compare.exact lowest pct) P cancel f τ M ls M3 := by
  have hp := h.presents hx hv
  obtain ⟨M1, a1, a2⟩ := clear_exact M hidle
  have hdi' : (if M1.bimodal then t.dims.di else M1.di) = f.di := by
    rw [a2]
    dsimp only
    cases hb : M.bimodal
    · rw [hdi hb]
      rw [hbi] at hb
      simp [Format.Valid, hb] at hv ⊢
      exact hv.1.symm
    · simp [h.di]
  set M2 : HierHmm ℝ := { M1 with training := true, dim := t.dims.dim, di := if M1.bimodal then t.dims.di else M1.di } with hM2
  have hconf : M2.conf = M.conf := by rw [hM2, a2]
  have hwin : M2.window = M.window := by rw [hM2, a2]
  have hm2 : M2.models = [] := by rw [hM2, a2]
  have hfresh : AllFresh f z M2 := by
    have e1 : M2.prior = [] := by rw [hM2, a2]
    have e2 : M2.trans = [] := by rw [hM2, a2]
    have e3 : M2.exitTrans = [] := by rw [hM2, a2]
    refine ⟨by rw [hM2, a2], by rw [hm2]; exact SMap.sorted_nil, ?_, ?_, by rw [hM2, a2]; exact hbi, h.dim, hdi', by rw [hm2]; simp⟩ <;> rw [hm2]
    · constructor <;> simp [e1, e2, e3]
    · constructor <;> simp [e1, e2, e3]
  have hlabs : SMap.Sorted t.labels := hp.sorted
  obtain ⟨M3, b1, b2, b3, b4⟩ := adds_fresh (SMap.keys t.labels) hfresh (by rw [hconf]; exact hS.states) (SMap.keys_sorted hlabs).nodup (by simp [hm2, SMap.keys])
  have hconf3 : M3.conf = M.conf := by rw [b3]; exact hconf
  have hwin3 : M3.window = M.window := by rw [b3]; exact hwin
  have hkey3 : ∀ lc ∈ M3.models, lc.1 ∈ SMap.keys t.labels := fun lc hlc => by
    have := (b4 lc.1).1 (List.mem_map.2 ⟨lc, hlc, rfl⟩)
    simpa [hm2, SMap.keys] using this
  have hlab : ∀ lc ∈ M3.models, ∃ e ∈ τ, e.2.1 = lc.1 := fun lc hlc => (hp.labels _).1 (hkey3 lc hlc)
  obtain ⟨cs, c1, c2⟩ := mapM_forall₂ M3.models
    (fun lc => inThread (trainOne D log Real.sqrt (Compare.exact lowest pct) P KData.deviation (cancel lc.1) w t lc.1) lc.2)
    (fun lc c => ClassTrained z D log (Compare.exact lowest pct) P cancel f τ M.conf M.window lc.1 c) M3 (by
      intro lc hlc
      obtain ⟨c, hc⟩ := class_trained h hv hS hlong z D hD log hlog lowest pct cancel lc.1 (hlab lc hlc)
      obtain ⟨tr, q1, q2, _⟩ := id hc
      refine ⟨c, ?_, hc⟩
      unfold inThread
      rw [trainOne_alone h hx hv D log _ P _ lc.1 (hkey3 lc hlc), b2.cls lc hlc, hconf3, hwin3]
      dsimp only
      rw [show ({ fresh f M.window (M.conf lc.1) z with training := true } : Hmm ℝ) = fresh f M.window (M.conf lc.1) z from rfl, q1]
      simp only [← q2])
  set kept := ((M3.models.zip cs).filter fun x => x.2.2 ≠ .cancel ∧ x.2.2 ≠ .error).map (fun x => (x.1.1, x.2.1)) with hkept
  have hsub : (kept.map Prod.fst).Sublist (M3.models.map Prod.fst) := by
    have e1 : kept.map Prod.fst = (((M3.models.zip cs).filter fun x => x.2.2 ≠ .cancel ∧ x.2.2 ≠ .error)).map (fun x => x.1.1) := by
      rw [hkept, List.map_map]; rfl
    have e2 : M3.models.map Prod.fst = (M3.models.zip cs).map (fun x => x.1.1) := by
      have := List.map_fst_zip (l₁ := M3.models) (l₂ := cs) (by rw [c2.length_eq])
      conv_lhs => rw [← this]
      rw [List.map_map]; rfl
    rw [e1, e2]
    exact List.filter_sublist.map _
  have hsorted : SMap.Sorted kept := by
    have : (M3.models.map Prod.fst).Pairwise (· < ·) := by rw [List.pairwise_map]; exact b2.sorted
    have := this.sublist hsub
    rw [List.pairwise_map] at this
    exact this
  have hmem : ∀ lc ∈ kept, ∃ st, ClassTrained z D log (Compare.exact lowest pct) P cancel f τ M.conf M.window lc.1 (lc.2, st) ∧ st = .done := by
    intro lc hlc
    obtain ⟨x, hx', rfl⟩ := List.mem_map.1 hlc
    obtain ⟨h1, h2⟩ := List.mem_filter.1 hx'
    have hr := (forall₂_zip c2 x h1).1
    simp only [decide_eq_true_eq] at h2
    obtain ⟨tr, q1, q2, q3, _⟩ := id hr
    refine ⟨x.2.2, hr, ?_⟩
    rw [q2] at h2 ⊢
    rcases q3 with q3 | q3 | q3
    · exact q3
    · exact absurd q3 h2.2
    · exact absurd q3 h2.1
  have hpe : t.phrases.isEmpty = false := by
    have : t.phrases.length = τ.length := by
      have := congrArg List.length hp.numbers
      simpa [SMap.keys] using this
    cases hq : t.phrases with
    | nil => rw [hq] at this; exact absurd (List.eq_nil_of_length_eq_zero this.symm) hne
    | cons => rfl
  refine ⟨SMap.keys M3.models, { M3 with models := kept, training := false }, ?_, ⟨?_, fun l => ?_, hsub, ?_, ?_, rfl, b2.nulls, hsorted, ?_, b2.bimodal, b2.dim, b2.di, ?_, ?_, hconf3, hwin3,
    fun lc hlc => ?_, fun l hl => ?_⟩⟩
  · unfold trainSet
    rw [if_neg (by simp [hpe]), bind_of_ret a1, bind_of_ret (Prog.modify_def _ _), bind_of_ret b1, bind_of_ret (Prog.get_def _), bind_of_ret c1,
      bind_of_ret (Prog.modify_def _ _)]
  · exact (SMap.keys_sorted b2.sorted).nodup
  · rw [b4 l, ← hp.labels]
    simp [hm2, SMap.keys]
  · have := b2.top
    rw [show (SMap.keys M3.models).length = M3.models.length by simp [SMap.keys]]
    exact this.congr rfl rfl rfl
  · have := b2.uniform
    rw [show (SMap.keys M3.models).length = M3.models.length by simp [SMap.keys]]
    exact ⟨this.prior, this.trans, this.exitTrans⟩
  · show M3.hier = M.hier
    rw [b3, hM2, a2]
  · show M3.mode = M.mode
    rw [b3, hM2, a2]
  · show M3.est = M.est
    rw [b3, hM2, a2]
  · obtain ⟨st, h1, rfl⟩ := hmem lc hlc
    exact h1
  · have hin : l ∈ SMap.keys M3.models := (b4 l).2 (.inl ((hp.labels l).2 hl))
    obtain ⟨lc, hlc, rfl⟩ := List.mem_map.1 hin
    obtain ⟨c, hz, hr⟩ := forall₂_exists c2 lc hlc
    refine ⟨c, hr, fun hd => List.mem_map.2 ⟨(lc, c), List.mem_filter.2 ⟨hz, by simp [hd]⟩, rfl⟩, fun hd hin => ?_⟩
    obtain ⟨tr, q1, q2, -⟩ := hr
    obtain ⟨k, hk, hkl⟩ := List.mem_map.1 hin
    obtain ⟨st, ⟨tr', p1, p2, -⟩, rfl⟩ := hmem k hk
    simp only at hkl p2
    rw [hkl, q1] at p1
    injection p1 with p1 _
    subst p1
    exact hd (q2.trans p2.symm)

/-- the classes of the model after training -/
theorem Joined.trainedOn {z : ℝ} {D : Dens ℝ} {log : ℝ → ℝ} {C : Compare ℝ} {P : EmParams} {cancel : String → Nat → Bool} {f : Format} {τ : Takes ℝ String} {M : HierHmm ℝ}
    {ls : List String} {M3 : HierHmm ℝ} (h : Joined z D log C P cancel f τ M ls M3) {M' : HierHmm ℝ} (hs : SameClasses M3 M') :
    M'.TrainedOn z D log C P cancel f τ M.conf M.window := by
  have hkeys : SMap.keys M'.models = SMap.keys M3.models := hs.keys
  refine ⟨fun l hl => ?_, fun l hl => ?_⟩
  · rw [hkeys] at hl
    exact (h.labels l).1 (h.sub.subset hl)
  · obtain ⟨c, ⟨tr, q1, q2, q3, q4, q5, q6, q7⟩, h1, h2⟩ := h.each l hl
    refine ⟨tr, c.1, q1, q4, ?_⟩
    rw [hkeys]
    rcases q3 with q3 | q3 | q3
    · refine .inl ⟨q3, ?_⟩
      obtain ⟨n, hn, en⟩ := List.getElem_of_mem (h1 (q2.trans q3))
      obtain ⟨m', e1, e2⟩ := hs.2 n (l, c.1) (by rw [← en]; exact List.getElem?_eq_getElem hn)
      exact ⟨m', mem_of_get e1, e2⟩
    · exact .inr ⟨h2 (by rw [q2, q3]; simp), .inr ⟨q3, q7 q3⟩⟩
    · exact .inr ⟨h2 (by rw [q2, q3]; simp), .inl ⟨q3, q5 q3⟩⟩

theorem Joined.classes {z : ℝ} {D : Dens ℝ} {log : ℝ → ℝ} {C : Compare ℝ} {P : EmParams} {cancel : String → Nat → Bool} {f : Format} {τ : Takes ℝ String} {M : HierHmm ℝ}
    {ls : List String} {M3 : HierHmm ℝ} (h : Joined z D log C P cancel f τ M ls M3) : ∀ lc ∈ M3.models, lc.2.InHierarchy ∧ BufOk lc.2.buf ∧ lc.2.bimodal = f.bimodal ∧
      lc.2.dim = f.dim ∧ lc.2.di = f.di ∧ lc.2.mode = (M.conf lc.1).mode ∧ lc.2.ergodic = false ∧ lc.2.exitP = lastExit lc.2.n ∧ lc.2.window = M.window := by
  intro lc hlc
  obtain ⟨tr, -, q2, -, -, -, q6, -⟩ := h.cls lc hlc
  obtain ⟨k1, k2, k3⟩ := q6 q2.symm
  exact ⟨k1, by rw [k2]; exact GmmModel.bufOk_construct, k3⟩

theorem C105_of_sim {f : Format} {i : Nat} {w : World ℝ String} {t : TSet String} {τ : Takes ℝ String} (h : Sim f i w t τ) (hx : Indexed w t) (hv : f.Valid) (hne : τ ≠ [])
    (M : HierHmm ℝ) (hidle : M.training = false) (P : EmParams) (hS : M.Settings P) (hh : M.hier = true) (hlong : Takes.LongEnough τ fun l => (M.conf l).n) (hbi : M.bimodal = f.bimodal)
    (hdi : M.bimodal = false → M.di = 0) (hmode : M.bimodal = true → ∀ l, (M.conf l).mode = M.mode) (z : ℝ) (D : Dens ℝ) (hD : D.Sound) (log : ℝ → ℝ)
    (hlog : ∀ x y, 0 < x → 0 < y → log (x * y) = log x + log y) (lowest pct : ℝ) (cancel : String → Nat → Bool) :
    ∃ M', trainSet z D log Real.sqrt (Compare.exact lowest pct) P KData.deviation cancel w t M = .ret () M' ∧ M'.Usable ∧ M'.started = false ∧
      M'.TrainedOn z D log (Compare.exact lowest pct) P cancel f τ M.conf M.window ∧ M'.bimodal = f.bimodal ∧ M'.mode = M.mode ∧ M'.est = M.est ∧
      (∀ lc ∈ M'.models, lc.2.dim = f.dim ∧ lc.2.di = f.di ∧ lc.2.bimodal = f.bimodal ∧ lc.2.ergodic = false ∧ lc.2.window = M.window) ∧
      M'.UniformAt M'.models.length ∧ M'.dim = f.dim ∧ M'.di = f.di ∧ M'.conf = M.conf ∧ M'.window = M.window := by
  obtain ⟨ls, M3, a1, a2⟩ := trainSet_core h hx hv hne M hidle P hS hlong hbi hdi z D hD log hlog lowest pct cancel
  have hcls := a2.classes
  obtain ⟨M', r1, r2, r3, r4, r5, r6, r7, r8, r9, r10, r11, r12⟩ := finish M3 a2.idle (a2.hier.trans hh) a2.nulls a2.sorted a2.top (fun lc hlc => by
      obtain ⟨k1, k2, k3, k4, k5, -, k7, k8, -⟩ := hcls lc hlc
      exact ⟨k1, k2, k3.trans a2.bimodal.symm, by rw [k4, k5, a2.dim, a2.di], k7, k8⟩)
    (fun hb lc hlc => (hcls lc hlc).2.2.2.2.2.1.trans ((hmode (hbi.trans (a2.bimodal.symm.trans hb)) lc.1).trans a2.mode.symm))
  have hsame : SameClasses M3 M' := ⟨r4, r12⟩
  refine ⟨M', a1.trans r1, r2, r3, a2.trainedOn hsame, r5.trans a2.bimodal, r10.trans a2.mode, r11.trans a2.est, fun lc hlc => ?_,
    finish_uniform M3 a2.idle (a2.hier.trans hh) a2.nulls (fun _ => a2.uniform) a2.top.prior (fun lc hlc => ⟨(hcls lc hlc).1, (hcls lc hlc).2.1⟩) r1, r6.trans a2.dim, r7.trans a2.di, r9.trans a2.conf, r8.trans a2.window⟩
  obtain ⟨c, a, ha, -, -, hs⟩ := hsame.back hlc
  obtain ⟨-, -, k3, k4, k5, -, k7, -, k9⟩ := hcls a (mem_of_get ha)
  have e := hs.1
  rw [e]
  exact ⟨k4, k5, k3, k7, k9⟩

theorem recordAndTrainHmm_sim (f : Format) (hv : f.Valid) (i : Nat) (w0 : World ℝ String) (h0 : w0.sets i = none) (ops : List (RecOp ℝ String)) (ha : Takes.Admissible f ops []) :
    ∃ w t, Sim f i w t (Takes.run f ops []).1 ∧ Indexed w t ∧ ∀ (z : ℝ) (D : Dens ℝ) (log : ℝ → ℝ) (C : Compare ℝ) (P : EmParams) (cancel : String → Nat → Bool) (M : HierHmm ℝ),
      recordAndTrainHmm z D log C P cancel f i ops w0 M = trainSet z D log Real.sqrt C P KData.deviation cancel w t M := by
  obtain ⟨w1, t1, e1, s1, x1⟩ := sim_open (i := i) hv h0
  obtain ⟨w, t, e2, s2, x2⟩ := Sim.run hv ops s1 x1 ha
  refine ⟨w, t, s2, x2, fun z D log C P cancel M => ?_⟩
  unfold recordAndTrainHmm
  rw [e1]
  simp only [e2, s2.set]

/-- C105: from the recordings to the trained hierarchical model.  For every recording session that leaves at least one take and in which every class has a take with at least as many complete
    frames as the class has states, for all admissible settings of LeftRight classes, every hierarchical model that is idle and every moment of cancellation: the program of the user
    (a new training set, the calls of the session, `train`) is defined and raises no exception, and the model can recognise.  The classes of the model are labels of takes
    that are in the set at the end; each of them is exactly the class that would be trained alone on the complete frames of the takes with its label.  A label has no class only
    if its training was cancelled or if the last two log-likelihoods are 0. -/
theorem C105_train (f : Format) (hv : f.Valid) (i : Nat) (w0 : World ℝ String) (h0 : w0.sets i = none) (ops : List (RecOp ℝ String)) (ha : Takes.Admissible f ops [])
    (hne : (Takes.run f ops []).1 ≠ []) (M : HierHmm ℝ) (hidle : M.training = false) (P : EmParams) (hS : M.Settings P) (hh : M.hier = true)
    (hlong : Takes.LongEnough (Takes.run f ops []).1 fun l => (M.conf l).n) (hbi : M.bimodal = f.bimodal) (hdi : M.bimodal = false → M.di = 0)
    (hmode : M.bimodal = true → ∀ l, (M.conf l).mode = M.mode) (z : ℝ) (D : Dens ℝ) (hD : D.Sound) (log : ℝ → ℝ)
    (hlog : ∀ x y, 0 < x → 0 < y → log (x * y) = log x + log y) (lowest pct : ℝ) (cancel : String → Nat → Bool) :
    ∃ M', recordAndTrainHmm z D log (Compare.exact lowest pct) P cancel f i ops w0 M = .ret () M' ∧ M'.Usable ∧ M'.started = false ∧
      M'.TrainedOn z D log (Compare.exact lowest pct) P cancel f (Takes.run f ops []).1 M.conf M.window ∧ M'.bimodal = f.bimodal ∧
      (∀ lc ∈ M'.models, lc.2.ergodic = false ∧ lc.2.window = M.window ∧ ∀ x, f.Sample x → lc.2.Fits x) ∧ M'.UniformAt M'.models.length := by
  obtain ⟨w, t, h1, h2, h3⟩ := recordAndTrainHmm_sim f hv i w0 h0 ops ha
  obtain ⟨M', g1, g2, g3, g4, g5, -, -, g6, g7, -⟩ := C105_of_sim h1 h2 hv hne M hidle P hS hh hlong hbi hdi hmode z D hD log hlog lowest pct cancel
  refine ⟨M', by rw [h3]; exact g1, g2, g3, g4, g5, fun lc hlc => ?_, g7⟩
  obtain ⟨k1, k2, k3, k4, k5⟩ := g6 lc hlc
  refine ⟨k4, k5, fun x hx => ?_⟩
  unfold Hmm.Fits
  rw [k1, k2, k3]
  exact hx

/-- C105 (recognition): then, for every stream of observations of the right size, recognition is defined and raises no exception; the likeliest class is the label of a take, the normalised
    likelihoods of the classes and the probabilities of the states are distributions, and the smoothed log-likelihood of each class is the average of the logs of its last
    likelihoods. -/
theorem C105_recognise (f : Format) (hv : f.Valid) (i : Nat) (w0 : World ℝ String) (h0 : w0.sets i = none) (ops : List (RecOp ℝ String)) (ha : Takes.Admissible f ops [])
    (hne : (Takes.run f ops []).1 ≠ []) (M : HierHmm ℝ) (hidle : M.training = false) (P : EmParams) (hS : M.Settings P) (hh : M.hier = true)
    (hlong : Takes.LongEnough (Takes.run f ops []).1 fun l => (M.conf l).n) (hbi : M.bimodal = f.bimodal) (hdi : M.bimodal = false → M.di = 0)
    (hmode : M.bimodal = true → ∀ l, (M.conf l).mode = M.mode) (z : ℝ) (D : Dens ℝ) (hD : D.Sound) (log exp : ℝ → ℝ)
    (hlog : ∀ x y, 0 < x → 0 < y → log (x * y) = log x + log y) (hexp : ∀ x, 0 < exp x) (lowest pct : ℝ) (cancel : String → Nat → Bool)
    (M' : HierHmm ℝ) (ht : recordAndTrainHmm z D log (Compare.exact lowest pct) P cancel f i ops w0 M = .ret () M') (hcls : M'.models ≠ [])
    (xs : List (List ℝ)) (hxs : xs ≠ []) (hx : ∀ x ∈ xs, f.Sample x) :
    ∃ rs M'', filterAll D log exp xs M' = .ret rs M'' ∧ rs.length = xs.length ∧ (∃ e ∈ (Takes.run f ops []).1, M''.results.likeliest = e.2.1) ∧
      M''.results.Summary exp M''.classes ∧ (f.bimodal = true → M''.OutputsOf) ∧ IsDistribution M''.results.instNorm ∧ IsDistribution M''.results.smoothedNorm ∧
      HierSpec.Distribution M'' := by
  obtain ⟨N, g1, g2, g3, g4, g5, g6, -⟩ := C105_train f hv i w0 h0 ops ha hne M hidle P hS hh hlong hbi hdi hmode z D hD log hlog lowest pct cancel
  rw [ht] at g1
  injection g1 with _ g1
  subst g1
  obtain ⟨rs, M'', b1, b2, b3⟩ := stream_ret D hD log exp xs M' g2 hcls fun x hx' lc hlc => (g6 lc hlc).2.2 x (hx x hx')
  have hrs : rs ≠ [] := fun h0 => hxs (List.eq_nil_of_length_eq_zero (by rw [← b2, h0]; rfl))
  obtain ⟨s1, s2, s3, _⟩ := b3.summary hrs
  have hne' := b3.same.ne hcls
  have hc : M''.classes ≠ [] := fun h => hne' (List.map_eq_nil_iff.1 h)
  obtain ⟨d1, d2, -, -⟩ := C39_normalised exp hexp M''.classes hc (fun c hc => by
    obtain ⟨lc, hlc, rfl⟩ := List.mem_map.1 hc
    exact s3 lc hlc) M''.results s1
  refine ⟨rs, M'', b1, b2, ?_, s1, fun hb => s2 (g5.trans hb), d1, d2, b3.distribution hrs (.inr (.inr ?_))⟩
  · obtain ⟨before, c, after, e1, e2, -⟩ := s1.likeliest hc
    have hm : c ∈ M''.classes := by rw [e1]; simp
    simp only [classes, List.mem_map] at hm
    obtain ⟨lc, hlc, rfl⟩ := hm
    obtain ⟨k, a, ha', -, ea, -⟩ := b3.same.back hlc
    obtain ⟨e, he, hel⟩ := g4.known a.1 (List.mem_map.2 ⟨_, mem_of_get ha', rfl⟩)
    exact ⟨e, he, by rw [e2, hel, ea]⟩
  · unfold HierSpec.stale
    refine Finset.sum_eq_zero fun c hc => ?_
    obtain ⟨lc, hlc⟩ := get_class (Finset.mem_range.1 hc)
    rw [hlc]
    simp [(g6 lc (mem_of_get hlc)).1]

/-- C105 (own takes): a class of a hierarchical model is trained on its own takes.  Two sessions, with any other takes and classes and any previous contents of the two models: if the takes
    with label `l` hold the same frames in the same order and the settings for `l` are the same, then the class `l` is in both models or in none, and its parameters are in both those of
    the same class `m`. -/
theorem C105_own_takes (f : Format) (hv : f.Valid) (i j : Nat) (v0 w0 : World ℝ String) (hv0 : v0.sets i = none) (hw0 : w0.sets j = none) (as bs : List (RecOp ℝ String))
    (ha : Takes.Admissible f as []) (hb : Takes.Admissible f bs []) (M N : HierHmm ℝ) (hiM : M.training = false) (hiN : N.training = false) (P : EmParams)
    (hSM : M.Settings P) (hSN : N.Settings P) (hhM : M.hier = true) (hhN : N.hier = true) (hla' : Takes.LongEnough (Takes.run f as []).1 fun l => (M.conf l).n)
    (hlb' : Takes.LongEnough (Takes.run f bs []).1 fun l => (N.conf l).n) (hbM : M.bimodal = f.bimodal) (hbN : N.bimodal = f.bimodal)
    (hdM : M.bimodal = false → M.di = 0) (hdN : N.bimodal = false → N.di = 0) (hmM : M.bimodal = true → ∀ l, (M.conf l).mode = M.mode)
    (hmN : N.bimodal = true → ∀ l, (N.conf l).mode = N.mode)
    (l : String) (hla : ∃ e ∈ (Takes.run f as []).1, e.2.1 = l) (hlb : ∃ e ∈ (Takes.run f bs []).1, e.2.1 = l)
    (hl : ((Takes.run f as []).1.ofClass l).frames = ((Takes.run f bs []).1.ofClass l).frames) (hc : M.conf l = N.conf l) (hw : M.window = N.window)
    (z : ℝ) (D : Dens ℝ) (hD : D.Sound) (log : ℝ → ℝ) (hlog : ∀ x y, 0 < x → 0 < y → log (x * y) = log x + log y) (lowest pct : ℝ)
    (cancel cancel' : String → Nat → Bool) (hcl : cancel l = cancel' l) :
    ∃ M' N', recordAndTrainHmm z D log (Compare.exact lowest pct) P cancel f i as v0 M = .ret () M' ∧
      recordAndTrainHmm z D log (Compare.exact lowest pct) P cancel' f j bs w0 N = .ret () N' ∧
      (l ∈ SMap.keys M'.models ↔ l ∈ SMap.keys N'.models) ∧
      ∀ a b, SMap.find? l M'.models = some a → SMap.find? l N'.models = some b → ∃ m, Hmm.SameClass m a ∧ Hmm.SameClass m b := by
  obtain ⟨M', a1, a2, -, a3, -⟩ := C105_train f hv i v0 hv0 as ha (by obtain ⟨e, he, _⟩ := hla; exact List.ne_nil_of_mem he) M hiM P hSM hhM hla' hbM hdM hmM z D hD log hlog
    lowest pct cancel
  obtain ⟨N', b1, b2, -, b3, -⟩ := C105_train f hv j w0 hw0 bs hb (by obtain ⟨e, he, _⟩ := hlb; exact List.ne_nil_of_mem he) N hiN P hSN hhN hlb' hbN hdN hmN z D hD log hlog
    lowest pct cancel'
  have hdata : Takes.data f (Takes.run f as []).1 l = Takes.data f (Takes.run f bs []).1 l := by simp only [Takes.data, hl]
  obtain ⟨tr, m0, c1, -, c2⟩ := a3.each l hla
  obtain ⟨tr', n0, d1, -, d2⟩ := b3.each l hlb
  rw [hdata, hcl, hc, hw, d1] at c1
  injection c1 with c1 c1'
  subst c1 c1'
  refine ⟨M', N', a1, b1, ?_, fun m n hm hn => ?_⟩
  · rcases c2 with ⟨q1, m', q2, -⟩ | ⟨q1, q2⟩ <;> rcases d2 with ⟨r1, n', r2, -⟩ | ⟨r1, r2⟩
    · exact ⟨fun _ => List.mem_map.2 ⟨_, r2, rfl⟩, fun _ => List.mem_map.2 ⟨_, q2, rfl⟩⟩
    · rcases r2 with r2 | r2 <;> rw [r2.1] at q1 <;> cases q1
    · rcases q2 with r2 | r2 <;> rw [r2.1] at r1 <;> cases r1
    · exact ⟨fun h => absurd h q1, fun h => absurd h r1⟩
  · have km := SMap.mem_of_find? hm
    have kn := SMap.mem_of_find? hn
    have hone : ∀ (A : HierHmm ℝ) (hs : SMap.Sorted A.models) (u v : Hmm ℝ), (l, u) ∈ A.models → (l, v) ∈ A.models → u = v := by
      intro A hs u v hu hv
      have e1 := (SMap.mem_iff_find? hs).1 hu
      rw [(SMap.mem_iff_find? hs).1 hv] at e1
      exact (Option.some.inj e1).symm
    rcases c2 with ⟨q1, m', q2, q3⟩ | ⟨q1, -⟩
    · rcases d2 with ⟨r1, n', r2, r3⟩ | ⟨r1, -⟩
      · rw [hone M' a2.sorted m m' km q2, hone N' b2.sorted n n' kn r2]
        exact ⟨_, q3, r3⟩
      · exact absurd (List.mem_map.2 ⟨_, kn, rfl⟩) r1
    · exact absurd (List.mem_map.2 ⟨_, km, rfl⟩) q1

/-! ### The hypotheses are met -/

/-- a new hierarchical model for two modalities: two states for the class "a", one state for the others -/
noncomputable def sessionModel : HierHmm ℝ :=
  { models := [], nulls := [], prior := [], exitTrans := [], trans := [], front1 := [], front2 := [], started := false, training := false,
    conf := fun l => ⟨if l = "a" then 2 else 1, 1, false, .full, 1 / 1000, 1 / 100, .full⟩, hier := true, mode := .full, est := .likeliest, bimodal := true,
    dim := 2, di := 1, window := 3, results := ⟨[], [], [], [], [], "", [], []⟩ }

theorem long_of_classes (τ : Takes ℝ String) (states : String → Nat)
    (h : ∀ e ∈ τ.map (fun e => (e.1, e.2.1, e.2.2.frames)), (∃ e' ∈ τ.map (fun e => (e.1, e.2.1, e.2.2.frames)), e'.2.1 = e.2.1 ∧ states e.2.1 ≤ e'.2.2.length) ∧
      ((((τ.map fun e => (e.1, e.2.1, e.2.2.frames)).filter fun e' => decide (e'.2.1 = e.2.1)).map fun e => e.2.2).flatten).length ≤ 10 ^ 90) : Takes.LongEnough τ states := by
  intro e he
  obtain ⟨⟨x, hx, h1, h2⟩, h3⟩ := h _ (List.mem_map.2 ⟨e, he, rfl⟩)
  obtain ⟨e', he', rfl⟩ := List.mem_map.1 hx
  refine ⟨⟨e', he', h1, h2⟩, ?_⟩
  rw [ofClass_frames]
  exact h3

/-- the hypotheses of `C105_train`, `C105_recognise` and `C105_own_takes` are met by two bimodal sessions with two classes each, one of them with two states -/
theorem session_example : sessionModel.training = false ∧ sessionModel.hier = true ∧ sessionModel.Settings ⟨5, 10⟩ ∧ sessionFormat.Valid ∧
    Takes.Admissible sessionFormat sessionA [] ∧ Takes.Admissible sessionFormat sessionB [] ∧
    (Takes.LongEnough (Takes.run sessionFormat sessionA []).1 fun l => (sessionModel.conf l).n) ∧
    (Takes.LongEnough (Takes.run sessionFormat sessionB []).1 fun l => (sessionModel.conf l).n) ∧
    (∃ e ∈ (Takes.run sessionFormat sessionA []).1, e.2.1 = "a") ∧ (∃ e ∈ (Takes.run sessionFormat sessionB []).1, e.2.1 = "a") ∧
    ((Takes.run sessionFormat sessionA []).1.ofClass "a").frames = ((Takes.run sessionFormat sessionB []).1.ofClass "a").frames ∧
    sessionModel.bimodal = sessionFormat.bimodal ∧ (sessionModel.bimodal = true → ∀ l, (sessionModel.conf l).mode = sessionModel.mode) ∧ (sessionModel.conf "a").n = 2 := by
  obtain ⟨_, _, _, h1, -, -, -, h2, h3, -, -, h4, h5, h6, -⟩ := Xmm.session_example
  obtain ⟨c1, c2⟩ := session_classes
  refine ⟨rfl, rfl, ⟨by norm_num [sessionModel], by norm_num, fun l => ?_, fun l => le_rfl, fun l => by norm_num [sessionModel], fun l => rfl⟩, h1, h2, h3,
    long_of_classes _ _ ?_, long_of_classes _ _ ?_, h4, h5, h6, rfl, fun _ _ => rfl, rfl⟩
  · simp only [sessionModel]; split <;> norm_num
  · rw [c1]
    simp [sessionModel]
  · rw [c2]
    simp [sessionModel]

end HierHmm
end Xmm
