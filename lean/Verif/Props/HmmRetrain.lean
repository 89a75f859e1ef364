import Verif.Spec.HmmRetrain
import Verif.Spec.SequentialClass
import Verif.Props.HmmClassRetrain
import Verif.Props.Retrain
set_option linter.unusedSectionVars false
/- C109: training one class of a hierarchical hidden Markov model, new or trained before, and training the classes one by one. -/
namespace Xmm
open TS Prog
open Gauss (resize)

namespace Hmm

/-- a class with at most as many states as before is left from its last state only -/
theorem exit_fewer {n k : Nat} (hn : 1 ≤ n) (hk : n ≤ k) : (resize n (lastExit k)).set (n - 1) (1 / 10) = lastExit n := by
  refine List.ext_getElem (by simp [resize, lastExit]; omega) fun i h1 h2 => ?_
  simp only [lastExit, List.length_map, List.length_range] at h2
  rw [List.getElem_set]
  simp only [lastExit, List.getElem_map, List.getElem_range]
  by_cases hi : n - 1 = i
  · rw [if_pos hi, if_pos (by omega)]
  · rw [if_neg hi, if_neg (by omega)]
    simp only [resize]
    rw [List.getElem_append_left (by simp [lastExit]; omega)]
    simp only [lastExit, List.getElem_take, List.getElem_map, List.getElem_range]
    rw [if_neg (by omega)]

/-- the former last state remains an exit point -/
theorem exit_more {n k : Nat} (hk : 1 ≤ k) (hn : k < n) : ((resize n (lastExit k)).set (n - 1) (1 / 10)).getD (k - 1) 0 = 1 / 10 := by
  rw [List.getD_eq_getElem?_getD, List.getElem?_set_ne (by omega)]
  simp only [resize]
  rw [List.getElem?_append_left (by simp [lastExit]; omega), List.getElem?_take_of_lt (by omega)]
  simp only [lastExit, List.getElem?_map, List.getElem?_range (show k - 1 < k by omega), Option.map_some, Option.getD_some]
  rw [if_pos (by omega)]

theorem lastExit_zero {n k : Nat} (hk : 1 ≤ k) (hn : k < n) : (lastExit n).getD (k - 1) 0 = 0 := by
  rw [List.getD_eq_getElem?_getD]
  simp only [lastExit, List.getElem?_map, List.getElem?_range (show k - 1 < n by omega), Option.map_some, Option.getD_some]
  rw [if_neg (by omega)]

end Hmm

namespace HierHmm
open Hmm HierSpec HmmSpec

theorem topAt_of_top {M : HierHmm ℝ} (h : M.Top) : TopAt M.models.length M :=
  ⟨h.prior, h.exitTrans, h.trans, h.row, h.prior_pos, fun hn => h.prior_sum (fun h0 => hn (by rw [h0]; rfl)), h.row_nonneg, h.row_sum, h.exit_nonneg, h.exit_le⟩

theorem find?_mapSnd (g : Hmm ℝ → Hmm ℝ) (l : String) : ∀ m : SMap String (Hmm ℝ), SMap.find? l (m.map fun lc => (lc.1, g lc.2)) = (SMap.find? l m).map g
  | [] => rfl
  | lc :: m => by
    simp only [List.map_cons, SMap.find?]
    split
    · rfl
    · exact find?_mapSnd g l m

theorem length_assign_old {label : String} {c : Hmm ℝ} {m : SMap String (Hmm ℝ)} (hsort : SMap.Sorted m) (hin : label ∈ SMap.keys m) : (SMap.assign label c m).length = m.length := by
  have hp : (SMap.keys (SMap.assign label c m)).Perm (SMap.keys m) := (List.perm_ext_iff_of_nodup (SMap.keys_nodup hsort.assign) (SMap.keys_nodup hsort)).2 fun l => by
    rw [SMap.mem_keys_iff, SMap.mem_keys_iff, SMap.find?_assign]
    by_cases hll : l = label
    · have := SMap.mem_keys_iff.1 hin
      simp [hll, this]
    · simp [hll]
  have := hp.length_eq
  simpa [SMap.keys] using this

/-- the class that `train(set, label)` trains, and the hierarchy at that moment -/
theorem add_class {f : Format} {M : HierHmm ℝ} {z : ℝ} {label : String} (hn : 1 ≤ (M.conf label).n) (hidle : M.nulls = []) (hsort : SMap.Sorted M.models) (htop : TopAt M.models.length M)
    (hbi : M.bimodal = f.bimodal) (hdim : M.dim = f.dim) (hdi : M.di = f.di)
    (hcls : ∀ lc ∈ M.models, lc.2.InHierarchy ∧ lc.2.bimodal = f.bimodal ∧ lc.2.dim = f.dim ∧ lc.2.di = f.di ∧ lc.2.window = M.window ∧ lc.2.ergodic = false)
    (hex : ∀ lc ∈ M.models, lc.2.exitP = lastExit lc.2.n) (hbuf : ∀ lc ∈ M.models, ∃ w hist, Logs lc.2.buf w hist) :
    ∃ M2 c0 n, addModelForClass z label M = .ret () M2 ∧ TopAt n M2 ∧ SMap.Sorted M2.models ∧ SameBut M M2 ∧
      (∀ l, SMap.find? l M2.models = if l = label then some c0 else SMap.find? l M.models) ∧ (∃ w hist, Logs c0.buf w hist) ∧
      (∃ p s pr tr, ({ c0 with training := true } : Hmm ℝ) = withPast p { fresh f M.window (M.conf label) z with sts := s, prior := pr, trans := tr }) ∧
      (∀ c, SMap.find? label M.models = some c → c0.exitP = lastExit c.n ∧ n = M.models.length ∧ M2.prior = M.prior ∧ M2.trans = M.trans ∧ M2.exitTrans = M.exitTrans) ∧
      (SMap.find? label M.models = none → c0.exitP = lastExit (M.conf label).n ∧ c0.buf = CBuf.construct 0 1 1 ∧ M2.UniformAt n) ∧ M2.models.length = n := by
  cases hf : SMap.find? label M.models with
  | none =>
    have hl : label ∉ SMap.keys M.models := fun h => by
      obtain ⟨c, hc⟩ := SMap.mem_keys_iff.1 h
      rw [hf] at hc
      cases hc
    set g : Hmm ℝ → Hmm ℝ := fun c => { c with exitP := (resize c.n c.exitP).set (c.n - 1) (1 / 10) } with hg
    set ms := SMap.assign label (newClass M (M.conf label) z) M.models with hms
    have hlen : ms.length = M.models.length + 1 := length_assign_new hl
    obtain ⟨M', g1, g2, gu, g3⟩ := update_uniform { M with models := ms } hidle (by show ms.length ≠ M.prior.length; rw [htop.prior, hlen]; omega) (fun lc hlc => by
      rcases (mem_assign_new hl lc).1 hlc with e | e
      · rw [e]; exact ⟨rfl, hn⟩
      · exact ⟨(hcls lc e).1.hier, (hcls lc e).1.can.wf.pos⟩)
    have hmod : M'.models = ms.map fun lc => (lc.1, g lc.2) := by rw [g3]
    refine ⟨M', g (newClass M (M.conf label) z), _, ?_, g2, ?_, ?_, fun l => ?_, ⟨1, [], CBuf.Holds.init 0 1 (by omega)⟩, ⟨Past.of (fresh f M.window (M.conf label) z), [], [], [], ?_⟩, by simp, fun _ => ?_, ?_⟩
    · unfold addModelForClass
      rw [bind_of_ret (get_def M), hf, bind_of_ret (set_def _ _)]
      exact g1
    · exact sorted_of_keys (ms' := ms) (by rw [hmod]; simp [Function.comp_def]) (by rw [hms]; exact hsort.assign)
    · unfold SameBut
      rw [g3]
    · rw [hmod, find?_mapSnd, hms, SMap.find?_assign]
      by_cases hll : l = label
      · simp [hll]
      · simp only [hll, if_false]
        cases hc : SMap.find? l M.models with
        | none => rfl
        | some c =>
          have hm := SMap.mem_of_find? hc
          have e := hex _ hm
          simp only at e
          have hp : 1 ≤ c.n := (hcls _ hm).1.can.wf.pos
          simp only [Option.map_some, hg]
          rw [e, exit_again hp, ← e]
    · simp only [hg, newClass, hbi, hdim, hdi, exit_new hn]
      rfl
    · simp only [hg, newClass]
      refine ⟨exit_new hn, trivial, ?_⟩
      rw [hmod, List.length_map]
      exact gu
    · rw [hmod, List.length_map]
  | some c =>
    have hm := SMap.mem_of_find? hf
    obtain ⟨k1, k2, k3, k4, k5, k6⟩ := hcls _ hm
    have hin : label ∈ SMap.keys M.models := SMap.mem_keys_iff.2 ⟨c, hf⟩
    set ms := SMap.assign label (setParams (M.conf label) c) M.models with hms
    have hsz : ms.length = M.models.length := by
      have e : SMap.keys ms = SMap.keys M.models := by
        have hp : (SMap.keys ms).Perm (SMap.keys M.models) := (List.perm_ext_iff_of_nodup (SMap.keys_nodup hsort.assign) (SMap.keys_nodup hsort)).2 fun l => by
          rw [SMap.mem_keys_iff, SMap.mem_keys_iff, SMap.find?_assign]
          by_cases hll : l = label
          · simp [hll, hf]
          · simp [hll]
        exact hp.eq_of_pairwise (fun a b _ _ h1 h2 => absurd h1 (lt_asymm h2)) (SMap.keys_sorted hsort.assign) (SMap.keys_sorted hsort)
      have := congrArg List.length e
      simpa [SMap.keys] using this
    refine ⟨{ M with models := ms }, setParams (M.conf label) c, M.models.length, ?_, htop.congr rfl rfl rfl, hsort.assign, rfl, fun l => SMap.find?_assign .., hbuf _ hm,
      ⟨Past.of c, c.sts, c.prior, c.trans, ?_⟩, ?_, by simp, hsz⟩
    · unfold addModelForClass
      rw [bind_of_ret (get_def M), hf, bind_of_ret (set_def _ _)]
      unfold updateTransitionParameters
      rw [bind_of_ret (get_def _), if_pos]
      · rfl
      · show ms.length + M.nulls.length = M.prior.length
        rw [hsz, hidle, htop.prior]
        rfl
    · have k0 := k1.hier
      simp only at k0 k2 k3 k4 k5
      cases c
      simp only at k0 k2 k3 k4 k5
      subst k0 k2 k3 k4 k5
      rfl
    · intro c' hc'
      injection hc' with hc'
      subst hc'
      exact ⟨hex _ hm, rfl, rfl, rfl, rfl⟩

/-- the model before the last steps of `joinTraining` -/
theorem trainLabel_core {f : Format} {i : Nat} {w : World ℝ String} {t : TSet String} {τ : Takes ℝ String} (h : Sim f i w t τ) (hx : Indexed w t) (hv : f.Valid)
    (M : HierHmm ℝ) (hM : M.Holds f) (P : EmParams) (hS : M.Settings P) (hlong : Takes.LongEnough τ fun l => (M.conf l).n)
    (z : ℝ) (D : Dens ℝ) (hD : D.Sound) (log : ℝ → ℝ)
    (hlog : ∀ x y, 0 < x → 0 < y → log (x * y) = log x + log y) (lowest pct : ℝ) (cancel : Nat → Bool) (label : String) (hl : ∃ e ∈ τ, e.2.1 = label) :
    ∃ (n : Nat) (M3 : HierHmm ℝ) (c1 m : Hmm ℝ) (tr : Trainer ℝ),
      trainLabel z D log Real.sqrt (Compare.exact lowest pct) P KData.deviation cancel w t label M = (do reset; updateTransitionParameters : Prog (HierHmm ℝ) Unit) M3 ∧
      (TopAt n M3 ∧ (SMap.find? label M.models = none → M3.UniformAt n) ∧ ∀ c, SMap.find? label M.models = some c →
        n = M.models.length ∧ M3.prior = M.prior ∧ M3.trans = M.trans ∧ M3.exitTrans = M.exitTrans) ∧ SMap.Sorted M3.models ∧
      M3 = { M with models := M3.models, prior := M3.prior, trans := M3.trans, exitTrans := M3.exitTrans, dim := f.dim, di := f.di } ∧
      ClassTrained z D log (Compare.exact lowest pct) P (fun _ => cancel) f τ M.conf M.window label (m, tr.status) ∧
      Hmm.trainedAlone D log (Compare.exact lowest pct) P cancel (fresh f M.window (M.conf label) z) (Takes.data f τ label) = .ret tr m ∧
      (∀ l, SMap.find? l M3.models = if l = label then (if tr.status = .done then some c1 else none) else SMap.find? l M.models) ∧
      (tr.status = .done → BufOk c1.buf ∧ c1.n = (M.conf label).n ∧ (∃ q, c1 = withPast q m) ∧ (SMap.find? label M.models = none → c1.exitP = lastExit c1.n) ∧
        ∀ c, SMap.find? label M.models = some c → c1.exitP = (resize c1.n (lastExit c.n)).set (c1.n - 1) (1 / 10) ∧
          n = M.models.length ∧ M3.prior = M.prior ∧ M3.trans = M.trans ∧ M3.exitTrans = M.exitTrans) ∧
      ∃ M1, trainLabelSequential z D log Real.sqrt (Compare.exact lowest pct) P KData.deviation cancel w t label M = .ret () M1 ∧ M1.training = false ∧
        (∀ l, SMap.find? l M1.models = if l = label then some c1 else SMap.find? l M.models) ∧ (tr.status = .done → M1 = M3 ∧ M3.models.length = n ∧ (SMap.find? label M.models = none → c1.buf = CBuf.construct 0 1 1) ∧ ∃ w hist, Logs c1.buf w hist) := by
  set C := Compare.exact lowest pct with hC
  have hlab := (GmmModel.labels_of_sim h hx hv label).2 hl
  have hdi : (if f.bimodal then f.di else M.di) = f.di := by
    cases hb : f.bimodal
    · have := hM.di (hM.bimodal.trans hb)
      rw [this]
      simp [Format.Valid, hb] at hv ⊢
      exact hv.1.symm
    · simp
  have hod : M.otherDimensions f.dim f.di = false := by
    unfold otherDimensions
    cases hm : M.models with
    | nil => rfl
    | cons lc ms =>
      obtain ⟨-, -, h3, h4, -⟩ := hM.cls lc (by rw [hm]; exact List.mem_cons_self)
      simp [h3, h4]
  set M1 : HierHmm ℝ := { M with training := true, dim := f.dim, di := f.di } with hM1
  obtain ⟨M2, c0, n, a1, a2, a3, a4, a5, a6, ⟨p, s, pr, tt, a7⟩, a8, a9, a10⟩ := add_class (f := f) (M := M1) (z := z) (label := label) (hS.states label) hM.nulls hM.sorted
    ((topAt_of_top hM.top).congr rfl rfl rfl) hM.bimodal rfl rfl hM.cls hM.exits hM.buf
  -- the training of the class
  obtain ⟨⟨m, st⟩, hct⟩ := class_trained h hv hS hlong z D hD log hlog lowest pct (fun _ => cancel) label hl
  obtain ⟨tr, q1, q2, q3, -⟩ := id hct
  simp only at q1 q2
  subst q2
  obtain ⟨e, he, hel⟩ := hl
  obtain ⟨⟨e', he', k1, k2⟩, k3⟩ := hlong e he
  rw [hel] at k1 k2 k3
  have hmem' : e'.2.2.frames ∈ (Takes.data f τ label).phrases := by
    simp only [Takes.data, Takes.frames, List.mem_map]
    exact ⟨e', by simp [Takes.ofClass, he', k1], rfl⟩
  have hn := hS.states label
  have hne : (Takes.data f τ label).frames ≠ [] := by
    intro h0
    simp only [KData.frames, List.flatten_eq_nil_iff] at h0
    have := h0 _ hmem'
    rw [this] at k2
    simp only [List.length_nil] at k2
    omega
  have hfed : (fresh f M.window (M.conf label) z).Fed (Takes.data f τ label) := ⟨rfl, h.frame_length hv label, hne⟩
  have hadm := fresh_admissible hv (window := M.window) hn (hS.gaussians label) z
  obtain ⟨tr', c1, b1, b2, b3⟩ := Hmm.retrain D hD log hlog (fresh f M.window (M.conf label) z) hadm (hS.leftRight label) rfl _ hfed ⟨_, hmem', k2⟩ k3 (hS.absReg label)
    KData.deviation (fun d => by simp [KData.deviation]) lowest pct P hS.minIter cancel p s pr tt q1
  have a7' : ({ c0 with training := true } : Hmm ℝ) = withPast p { fresh f M.window (M.conf label) z with sts := s, prior := pr, trans := tt } := a7
  rw [← a7'] at b1
  have hfr : ({ c0 with training := true } : Hmm ℝ).Admissible ∧ ({ c0 with training := true } : Hmm ℝ).Fed (Takes.data f τ label) ∧
      ({ c0 with training := true } : Hmm ℝ).LongPhrase (Takes.data f τ label) ∧ c0.n = (M.conf label).n ∧ c0.hier = true ∧ c0.window = M.window ∧ c0.ergodic = false ∧
      c0.absReg = (M.conf label).absReg := by
    refine ⟨?_, ?_, ?_, ?_, ?_, ?_, ?_, ?_⟩
    · rw [a7']; exact ⟨hadm.n, hadm.gaussians, hadm.dim, hadm.di⟩
    · rw [a7']; exact ⟨hfed.dim, hfed.frame, hfed.some⟩
    · rw [a7']; exact ⟨_, hmem', k2⟩
    · exact congrArg Hmm.n a7'
    · exact congrArg Hmm.hier a7'
    · exact congrArg Hmm.window a7'
    · exact (congrArg Hmm.ergodic a7').trans (hS.leftRight label)
    · exact congrArg Hmm.absReg a7'
  obtain ⟨f1, f2, f3, f4, f5, f6, f7, f8⟩ := hfr
  obtain ⟨tr2, c2, d1, -, -, -, -, -, d2, -⟩ := C83_training D hD log hlog { c0 with training := true } f1 f7 (by show 1 ≤ c0.window; rw [f6]; exact hS.window) _ f2 f3 k3
    (by show 1 / 10 ^ 9 ≤ c0.absReg; rw [f8]; exact hS.absReg label) KData.deviation (fun d => by simp [KData.deviation]) lowest pct P hS.minIter cancel
  rw [b1] at d1
  injection d1 with d1 d1'
  subst d1 d1'
  have hst : (tr'.status = .cancel ∨ tr'.status = .error) ↔ tr.status ≠ .done := by
    rw [b2]
    rcases q3 with q3 | q3 | q3 <;> rw [q3] <;> simp
  set R := (if tr'.status = .cancel ∨ tr'.status = .error then SMap.erase label M2.models else SMap.assign label c1 M2.models) with hR
  have hsort : SMap.Sorted R := by
    rw [hR]
    split
    · exact a3.erase
    · exact a3.assign
  have hm1 : M1.models = M.models := rfl
  refine ⟨n, { M2 with models := R, training := false }, c1, m, tr, ?_, ⟨a2.congr rfl rfl rfl, fun hf => ?_, fun c hf => (a8 c hf).2⟩, hsort, ?_, hct, q1, fun l => ?_, fun hd => ?_,
    { M2 with models := SMap.assign label c1 M2.models, training := false }, ?_, rfl, fun l => ?_, fun hd => ?_⟩
  · unfold trainLabel
    rw [if_neg (by simpa using hlab), bind_def, get_def]
    dsimp only
    simp only [h.dim, h.di]
    rw [if_neg (by rw [hod]; simp), bind_of_ret (modify_def _ _)]
    have e1 : ({ M with training := true, dim := f.dim, di := if M.bimodal then f.di else M.di } : HierHmm ℝ) = M1 := by
      rw [hM1, hM.bimodal, hdi]
    rw [e1, bind_of_ret a1]
    have e2 : trainThread D log Real.sqrt C P KData.deviation cancel w t label M2 = .ret (c1, tr'.status) M2 := by
      unfold trainThread
      rw [a5, if_pos rfl]
      unfold inThread
      simp only [trainOne_alone h hx hv D log C P cancel label hlab]
      unfold Hmm.trainedAlone
      rw [b1]
    rw [bind_of_ret e2, bind_of_ret (modify_def _ _)]
  · obtain ⟨u1, u2, u3⟩ := (a9 hf).2.2
    exact ⟨u1, u2, u3⟩
  · have := a4
    unfold SameBut at this
    rw [this, hM1]
    rw [show M.training = false from hM.idle]
  · by_cases hs : tr.status = .done
    · have hs' : ¬ (tr'.status = .cancel ∨ tr'.status = .error) := by rw [hst]; simpa using hs
      show SMap.find? l R = _
      rw [hR, if_neg hs', if_pos hs, SMap.find?_assign, a5]
      by_cases hll : l = label <;> simp [hll, hm1]
    · have hs' := hst.2 hs
      show SMap.find? l R = _
      rw [hR, if_pos hs', if_neg hs, SMap.find?_erase a3, a5]
      by_cases hll : l = label <;> simp [hll, hm1]
  · obtain ⟨-, q, b4⟩ := b3 (by rw [hd]; simp)
    have hcn : c1.n = c0.n := by rw [d2]
    have hcx : c1.exitP = (resize c0.n c0.exitP).set (c0.n - 1) (1 / 10) := by
      rw [d2]
      show (if c0.hier then _ else _) = _
      rw [f5]
      rfl
    refine ⟨?_, hcn.trans f4, ⟨q, b4⟩, fun hf => ?_, fun c hf => ?_⟩
    · have : c1.buf = c0.buf := by rw [d2]
      rw [this]
      obtain ⟨_, hist, hb⟩ := a6
      exact Logs.bufOk hb
    · rw [hcn, hcx, (a9 hf).1, f4]
      exact exit_again hn
    · obtain ⟨r1, r2⟩ := a8 c hf
      rw [hcn, hcx, r1]
      exact ⟨rfl, r2⟩
  · unfold trainLabelSequential
    rw [if_neg (by simpa using hlab), bind_def, get_def]
    dsimp only
    simp only [h.dim, h.di]
    rw [if_neg (by rw [hod]; simp), bind_of_ret (modify_def _ _)]
    have e1 : ({ M with training := true, dim := f.dim, di := if M.bimodal then f.di else M.di } : HierHmm ℝ) = M1 := by
      rw [hM1, hM.bimodal, hdi]
    rw [e1, bind_of_ret a1]
    have e2 : trainLabelHere D log Real.sqrt C P KData.deviation cancel w t label M2 = .ret () { M2 with models := SMap.assign label c1 M2.models } := by
      unfold trainLabelHere
      rw [a5, if_pos rfl]
      simp only [trainOne_alone h hx hv D log C P cancel label hlab]
      unfold Hmm.trainedAlone
      rw [b1]
    rw [bind_of_ret e2, modify_def]
  · show SMap.find? l (SMap.assign label c1 M2.models) = _
    rw [SMap.find?_assign, a5]
    by_cases hll : l = label <;> simp [hll, hm1]
  · have hs' : ¬ (tr'.status = .cancel ∨ tr'.status = .error) := by rw [hst]; simpa using hd
    have hR' : R = SMap.assign label c1 M2.models := by rw [hR, if_neg hs']
    refine ⟨by rw [hR'], ?_, fun hf => by rw [← (a9 hf).2.1, d2], by rw [d2]; exact a6⟩
    show R.length = n
    rw [hR', length_assign_old a3 (SMap.mem_keys_iff.2 ⟨c0, by rw [a5, if_pos rfl]⟩), a10]

theorem trainLabel_of_sim' {f : Format} {i : Nat} {w : World ℝ String} {t : TSet String} {τ : Takes ℝ String} (h : Sim f i w t τ) (hx : Indexed w t) (hv : f.Valid)
    (M : HierHmm ℝ) (hM : M.Holds f) (P : EmParams) (hS : M.Settings P) (hlong : Takes.LongEnough τ fun l => (M.conf l).n)
    (hmode : f.bimodal = true → ∀ l, (M.conf l).mode = M.mode) (z : ℝ) (D : Dens ℝ) (hD : D.Sound) (log : ℝ → ℝ)
    (hlog : ∀ x y, 0 < x → 0 < y → log (x * y) = log x + log y) (lowest pct : ℝ) (cancel : Nat → Bool) (label : String) (hl : ∃ e ∈ τ, e.2.1 = label)
    (hfew : ∀ c, (label, c) ∈ M.models →
      (∃ tr m, Hmm.trainedAlone D log (Compare.exact lowest pct) P cancel (fresh f M.window (M.conf label) z) (Takes.data f τ label) = .ret tr m ∧ tr.status = .done) → (M.conf label).n ≤ c.n) :
    ∃ M', trainLabel z D log Real.sqrt (Compare.exact lowest pct) P KData.deviation cancel w t label M = .ret () M' ∧ M'.Usable ∧ M'.Holds f ∧ M'.started = false ∧ M'.mode = M.mode ∧
      M'.est = M.est ∧ M'.conf = M.conf ∧ M'.window = M.window ∧ ClassReplaced z D log (Compare.exact lowest pct) P cancel f τ label M M' ∧
      (label ∈ SMap.keys M.models → label ∈ SMap.keys M'.models → M'.prior = M.prior ∧ M'.trans = M.trans ∧ M'.exitTrans = M.exitTrans) ∧
      (∀ m', (label, m') ∈ M'.models → m'.n = (M.conf label).n) ∧
      (label ∉ SMap.keys M.models ∨ label ∉ SMap.keys M'.models → M'.UniformAt M'.models.length) ∧ M'.dim = f.dim ∧ M'.di = f.di := by
  obtain ⟨n, M3, c1, m, tr, a1, ⟨a2, au, at'⟩, a3, a4, a5, a6, a7, a8, -⟩ := trainLabel_core h hx hv M hM P hS hlong z D hD log hlog lowest pct cancel label hl
  obtain ⟨tr', q1, q2, q3, q4, q5, q6, q7⟩ := a5
  simp only at q1 q2 q6
  rw [a6] at q1
  injection q1 with q1 _
  subst q1
  have hgood : tr.status = .done → c1.InHierarchy ∧ BufOk c1.buf ∧ c1.bimodal = f.bimodal ∧ c1.dim = f.dim ∧ c1.di = f.di ∧ c1.window = M.window ∧ c1.ergodic = false ∧
      c1.exitP = lastExit c1.n ∧ c1.mode = (M.conf label).mode ∧ m.SameClass c1 ∧ c1.n = (M.conf label).n := by
    intro hd
    obtain ⟨p1, p2, p3, p4, p5, p6, p7, p8, p9⟩ := q6 hd
    obtain ⟨r1, hn1, ⟨q, r2⟩, r3, r4⟩ := a8 hd
    have hnm : m.n = (M.conf label).n := by rw [← hn1, r2]; rfl
    have hxx : c1.exitP = lastExit c1.n := by
      cases hf : SMap.find? label M.models with
      | none => exact r3 hf
      | some c =>
        rw [(r4 c hf).1]
        exact exit_fewer (by rw [hn1]; exact hS.states label) (by rw [hn1]; exact hfew c (SMap.mem_of_find? hf) ⟨tr, m, a6, hd⟩)
    have hsame : m.SameClass c1 := by
      have e : q.exitP = m.exitP := by
        have : c1.exitP = q.exitP := by rw [r2]; rfl
        rw [← this, hxx, p8, hn1, hnm]
      rw [r2]
      exact withPast_same q p1.can e
    refine ⟨hsame.inHierarchy p1, r1, ?_, ?_, ?_, ?_, ?_, hxx, ?_, hsame, hn1⟩ <;> rw [r2]
    · exact p3
    · exact p4
    · exact p5
    · exact p9
    · exact p7
    · exact p6
  have hmem : ∀ lc ∈ M3.models, (lc.1 = label ∧ lc.2 = c1 ∧ tr.status = .done) ∨ lc.1 ≠ label ∧ lc ∈ M.models := by
    intro lc hlc
    have e1 := (SMap.mem_iff_find? a3 (k := lc.1) (v := lc.2)).1 hlc
    rw [a7] at e1
    by_cases hll : lc.1 = label
    · rw [if_pos hll] at e1
      split at e1
      · next hs => injection e1 with e1; exact .inl ⟨hll, e1.symm, hs⟩
      · cases e1
    · rw [if_neg hll] at e1
      exact .inr ⟨hll, SMap.mem_of_find? e1⟩
  have hcls : ∀ lc ∈ M3.models, lc.2.InHierarchy ∧ BufOk lc.2.buf ∧ lc.2.bimodal = f.bimodal ∧ lc.2.dim = f.dim ∧ lc.2.di = f.di ∧ lc.2.window = M.window ∧ lc.2.ergodic = false ∧
      lc.2.exitP = lastExit lc.2.n ∧ (f.bimodal = true → lc.2.mode = M.mode) := by
    intro lc hlc
    rcases hmem lc hlc with ⟨-, e2, e3⟩ | ⟨-, e2⟩
    · obtain ⟨g1, g2, g3, g4, g5, g6, g7, g8, g9, -⟩ := hgood e3
      rw [e2]
      exact ⟨g1, g2, g3, g4, g5, g6, g7, g8, fun hb => g9.trans (hmode hb label)⟩
    · obtain ⟨g1, g2, g3, g4, g5, g6⟩ := hM.cls lc e2
      obtain ⟨_, hist, hb⟩ := hM.buf lc e2
      exact ⟨g1, Logs.bufOk hb, g2, g3, g4, g5, g6, hM.exits lc e2, fun hb => hM.mode hb lc e2⟩
  have b1 : M3.training = false := by rw [a4]; exact hM.idle
  have b2 : M3.hier = true := by rw [a4]; exact hM.hier
  have b3 : M3.nulls = [] := by rw [a4]; exact hM.nulls
  have b4 : M3.bimodal = f.bimodal := by rw [a4]; exact hM.bimodal
  have b5 : M3.dim = f.dim := by rw [a4]
  have b6 : M3.di = f.di := by rw [a4]
  have b7 : M3.mode = M.mode := by rw [a4]
  obtain ⟨M', r1, r2, r3, r4, r5, r6, r7, r8, r9, r10, r11, r12⟩ := finish M3 b1 b2 b3 a3 a2 (fun lc hlc => by
      obtain ⟨g1, g2, g3, g4, g5, -, g7, g8, -⟩ := hcls lc hlc
      exact ⟨g1, g2, g3.trans b4.symm, by rw [g4, g5, b5, b6], g7, g8⟩)
    (fun hb lc hlc => ((hcls lc hlc).2.2.2.2.2.2.2.2 (b4.symm.trans hb)).trans b7.symm)
  have hsame : SameClasses M3 M' := ⟨r4, r12⟩
  have hback : ∀ l m', (l, m') ∈ M'.models → ∃ m, (l, m) ∈ M3.models ∧ m.SameClass m' := by
    intro l m' hlm
    obtain ⟨c, a, ha, -, e, hs⟩ := hsame.back hlm
    have hm := mem_of_get ha
    refine ⟨a.2, ?_, hs⟩
    rw [show l = a.1 by first | exact e | exact e.symm]
    exact hm
  have hfwd : ∀ l m, (l, m) ∈ M3.models → ∃ m', (l, m') ∈ M'.models ∧ m.SameClass m' := by
    intro l m hlm
    obtain ⟨k, hk, e⟩ := List.getElem_of_mem hlm
    obtain ⟨m', e1, e2⟩ := r12 k (l, m) (by rw [← e]; exact List.getElem?_eq_getElem hk)
    exact ⟨m', mem_of_get e1, e2⟩
  have hw : M'.window = M.window := by rw [r8, a4]
  have hout : tr.status ≠ .done → label ∉ SMap.keys M'.models := by
    intro hs hin
    obtain ⟨lc, hlc, e0⟩ := List.mem_map.1 hin
    obtain ⟨m, e1, -⟩ := hback lc.1 lc.2 hlc
    rcases hmem _ e1 with ⟨-, -, e3⟩ | ⟨e3, -⟩
    · exact hs e3
    · exact e3 e0
  refine ⟨M', a1.trans r1, r2, ⟨r2.ready.idle, r2.hier, r2.nulls, r2.sorted, r2.ready.top, r5.trans b4, ?_, ?_, ?_, ?_, fun lc hlc => ⟨_, r2.buf lc hlc⟩⟩, r3, r10.trans b7, by rw [r11, a4], by rw [r9, a4], hw,
    ⟨fun l hne => ⟨fun m' hm' => ?_, fun m hm => ?_⟩, ?_⟩, fun hin hin' => ?_, fun m' hm' => ?_, ?_, r6.trans b5, r7.trans b6⟩
  · intro hb
    rw [r7, b6]
    rw [r5, b4] at hb
    simp [Format.Valid, hb] at hv
    exact hv.1
  · intro lc hlc
    obtain ⟨m, e1, e2⟩ := hback lc.1 lc.2 hlc
    obtain ⟨g1, -, g3, g4, g5, g6, g7, -⟩ := hcls _ e1
    have e := e2.1
    refine ⟨e2.inHierarchy g1, ?_, ?_, ?_, ?_, ?_⟩
    · rw [e]; exact g3
    · rw [e]; exact g4
    · rw [e]; exact g5
    · rw [e, hw]; exact g6
    · rw [e]; exact g7
  · intro lc hlc
    obtain ⟨m, e1, e2⟩ := hback lc.1 lc.2 hlc
    obtain ⟨-, -, -, -, -, -, -, g8, -⟩ := hcls _ e1
    have e := e2.1
    rw [e]
    exact g8
  · intro hb lc hlc
    exact r2.mode (r5.trans (b4.trans hb)) lc hlc
  · obtain ⟨m, e1, e2⟩ := hback l m' hm'
    rcases hmem _ e1 with ⟨e3, -⟩ | ⟨-, e3⟩
    · exact absurd e3 hne
    · exact ⟨m, e3, e2⟩
  · refine hfwd l m ((SMap.mem_iff_find? a3).2 ?_)
    rw [a7, if_neg hne]
    exact (SMap.mem_iff_find? hM.sorted).1 hm
  · refine ⟨tr, m, a6, q4, ?_⟩
    rcases q3 with q3 | q3 | q3
    · refine .inl ⟨q3, ?_⟩
      obtain ⟨-, -, -, -, -, -, -, -, -, s2, -⟩ := hgood q3
      obtain ⟨m', e1, e2⟩ := hfwd label c1 ((SMap.mem_iff_find? a3).2 (by rw [a7, if_pos rfl, if_pos q3]))
      exact ⟨m', e1, s2.trans e2⟩
    · exact .inr ⟨hout (by rw [q3]; simp), .inr ⟨q3, q7 q3⟩⟩
    · exact .inr ⟨hout (by rw [q3]; simp), .inl ⟨q3, q5 q3⟩⟩
  · by_cases hd : tr.status = .done
    · obtain ⟨c, hc⟩ := SMap.mem_keys_iff.1 hin
      obtain ⟨-, -, -, -, g⟩ := a8 hd
      obtain ⟨-, g1, g2, g3, g4⟩ := g c hc
      obtain ⟨N, n1, n2, n3, -⟩ := reset_classes M3 b1 b2 b3 fun lc hlc => ⟨(hcls lc hlc).1, (hcls lc hlc).2.1⟩
      have hlen : M3.models.length = M.models.length := by
        have hp : (SMap.keys M3.models).Perm (SMap.keys M.models) := (List.perm_ext_iff_of_nodup (SMap.keys_nodup a3) (SMap.keys_nodup hM.sorted)).2 fun l => by
          rw [SMap.mem_keys_iff, SMap.mem_keys_iff, a7]
          by_cases hll : l = label
          · simp [hll, hd, hc]
          · simp [hll]
        have := hp.length_eq
        simpa [SMap.keys] using this
      have n4 : updateTransitionParameters N = .ret () N := by
        unfold updateTransitionParameters
        rw [bind_of_ret (get_def N), if_pos]
        · rfl
        · have e1 : N.nulls = [] := by rw [n2]; exact b3
          have e2 : N.prior = M3.prior := by rw [n2]
          simp only [size, e1, e2, n3, hlen, g2, hM.top.prior]
          rfl
      rw [bind_of_ret n1, n4] at r1
      injection r1 with _ r1
      subst r1
      rw [n2]
      exact ⟨g2, g3, g4⟩
    · exact absurd hin' (hout hd)
  · obtain ⟨m, e1, e2⟩ := hback label m' hm'
    rcases hmem _ e1 with ⟨-, e3, e4⟩ | ⟨e3, -⟩
    · obtain ⟨-, -, -, -, -, -, -, -, -, -, g⟩ := hgood e4
      rw [e2.facts.1, show m = c1 from e3]
      exact g
    · exact absurd rfl e3
  · intro hor
    obtain ⟨N, n1, n2, n3, -, -, -, n4⟩ := reset_classes M3 b1 b2 b3 fun lc hlc => ⟨(hcls lc hlc).1, (hcls lc hlc).2.1⟩
    have hNn : N.nulls = [] := by rw [n2]; exact b3
    have hNp : N.prior.length = n := by rw [n2]; exact a2.prior
    rw [bind_of_ret n1] at r1
    by_cases hq : N.models.length = N.prior.length
    · have e : updateTransitionParameters N = .ret () N := by
        unfold updateTransitionParameters
        rw [bind_of_ret (get_def N), if_pos (by simp [size, hNn, hq])]
        rfl
      rw [e] at r1
      injection r1 with _ r1
      subst r1
      have hn3 : M3.models.length = n := by rw [← n3, hq, hNp]
      have hu : M3.UniformAt n := by
        cases hf : SMap.find? label M.models with
        | none => exact au hf
        | some c =>
          exfalso
          rcases hor with h | h
          · exact h (SMap.mem_keys_iff.2 ⟨c, hf⟩)
          · have hd : tr.status ≠ .done := by
              intro hd
              obtain ⟨m', e1, -⟩ := hfwd label c1 ((SMap.mem_iff_find? a3).2 (by rw [a7, if_pos rfl, if_pos hd]))
              exact h (List.mem_map.2 ⟨_, e1, rfl⟩)
            have e3 : M3.models.length = M.models.length := hn3.trans (at' c hf).1
            have hsub : SMap.keys M3.models ⊆ (SMap.keys M.models).erase label := by
              intro l hlk
              obtain ⟨x, hx⟩ := SMap.mem_keys_iff.1 hlk
              rw [a7] at hx
              by_cases hll : l = label
              · rw [if_pos hll, if_neg hd] at hx
                cases hx
              · rw [if_neg hll] at hx
                exact (List.mem_erase_of_ne hll).2 (SMap.mem_keys_iff.2 ⟨x, hx⟩)
            have e4 := ((SMap.keys_nodup a3).subperm hsub).length_le
            have hin : label ∈ SMap.keys M.models := SMap.mem_keys_iff.2 ⟨c, hf⟩
            rw [List.length_erase_of_mem hin] at e4
            have e5 := List.length_pos_of_mem hin
            simp only [SMap.keys, List.length_map] at e4 e5
            omega
      rw [n3, hn3]
      obtain ⟨u1, u2, u3⟩ := hu
      rw [n2]
      exact ⟨u1, u2, u3⟩
    · obtain ⟨N', g1, g2, g3, g4⟩ := update_uniform N hNn hq fun lc hlc => by
        obtain ⟨k, hk, ek⟩ := List.getElem_of_mem hlc
        obtain ⟨a, ha⟩ := get_class (M := M3) (c := k) (by rw [← n3]; exact hk)
        obtain ⟨m', s1, s2, -⟩ := n4 k a ha
        rw [List.getElem?_eq_getElem hk, ek] at s1
        injection s1 with s1
        have h1 := s2.inHierarchy (hcls a (mem_of_get ha)).1
        rw [s1]
        exact ⟨h1.hier, h1.can.wf.pos⟩
      rw [g1] at r1
      injection r1 with _ r1
      subst r1
      have : N'.models.length = N.models.length := by rw [g4]; simp
      rw [this]
      exact g3

theorem trainLabel_of_sim {f : Format} {i : Nat} {w : World ℝ String} {t : TSet String} {τ : Takes ℝ String} (h : Sim f i w t τ) (hx : Indexed w t) (hv : f.Valid)
    (M : HierHmm ℝ) (hM : M.Holds f) (P : EmParams) (hS : M.Settings P) (hlong : Takes.LongEnough τ fun l => (M.conf l).n)
    (hmode : f.bimodal = true → ∀ l, (M.conf l).mode = M.mode) (z : ℝ) (D : Dens ℝ) (hD : D.Sound) (log : ℝ → ℝ)
    (hlog : ∀ x y, 0 < x → 0 < y → log (x * y) = log x + log y) (lowest pct : ℝ) (cancel : Nat → Bool) (label : String) (hl : ∃ e ∈ τ, e.2.1 = label)
    (hfew : ∀ c, (label, c) ∈ M.models → (M.conf label).n ≤ c.n) :
    ∃ M', trainLabel z D log Real.sqrt (Compare.exact lowest pct) P KData.deviation cancel w t label M = .ret () M' ∧ M'.Usable ∧ M'.Holds f ∧ M'.started = false ∧ M'.mode = M.mode ∧
      M'.est = M.est ∧ M'.conf = M.conf ∧ M'.window = M.window ∧ ClassReplaced z D log (Compare.exact lowest pct) P cancel f τ label M M' ∧
      (label ∈ SMap.keys M.models → label ∈ SMap.keys M'.models → M'.prior = M.prior ∧ M'.trans = M.trans ∧ M'.exitTrans = M.exitTrans) ∧
      (∀ m', (label, m') ∈ M'.models → m'.n = (M.conf label).n) ∧
      (label ∉ SMap.keys M.models ∨ label ∉ SMap.keys M'.models → M'.UniformAt M'.models.length) ∧ M'.dim = f.dim ∧ M'.di = f.di :=
  trainLabel_of_sim' h hx hv M hM P hS hlong hmode z D hD log hlog lowest pct cancel label hl fun c hc _ => hfew c hc

section session
variable (f : Format) (hv : f.Valid) (i : Nat) (w0 : World ℝ String) (h0 : w0.sets i = none) (ops : List (RecOp ℝ String)) (ha : Takes.Admissible f ops [])
  (z : ℝ) (D : Dens ℝ) (log : ℝ → ℝ) (lowest pct : ℝ) (P : EmParams) (M : HierHmm ℝ)
include hv h0 ha

/-- C109: `train(set, label)` for a label that the training set does not have raises `out_of_range` and changes nothing. -/
theorem C109_unknown_label (C : Compare ℝ) (cancel : Nat → Bool) (label : String) (hl : ∀ e ∈ (Takes.run f ops []).1, e.2.1 ≠ label) :
    recordAndTrainHmmClass z D log C P cancel f i ops w0 label M = .throw .outOfRange M := by
  obtain ⟨w, t, h1, h2, h3, -⟩ := recordThen_sim f hv i w0 h0 ops ha
  unfold recordAndTrainHmmClass
  rw [h3]
  unfold trainLabel
  rw [if_pos (fun h => ?_)]
  · rfl
  · obtain ⟨e, he, h⟩ := (GmmModel.labels_of_sim h1 h2 hv label).1 h
    exact hl e he h

/-- C109: `train(set, label)` for a training set whose dimensions are not those of the classes of the model raises `runtime_error` and changes nothing. -/
theorem C109_other_dimensions (C : Compare ℝ) (cancel : Nat → Bool) (label : String) (hl : ∃ e ∈ (Takes.run f ops []).1, e.2.1 = label) (g : Format)
    (hM : M.Holds g) (hne : M.models ≠ []) (hd : g.dim ≠ f.dim ∨ g.bimodal = true ∧ g.di ≠ f.di) :
    recordAndTrainHmmClass z D log C P cancel f i ops w0 label M = .throw .runtimeError M := by
  obtain ⟨w, t, h1, h2, h3, -⟩ := recordThen_sim f hv i w0 h0 ops ha
  unfold recordAndTrainHmmClass
  rw [h3]
  unfold trainLabel
  rw [if_neg (not_not.2 ((GmmModel.labels_of_sim h1 h2 hv label).2 hl)), bind_def, get_def]
  dsimp only
  rw [if_pos]
  · rfl
  · unfold otherDimensions
    obtain ⟨lc, ms, hm⟩ := List.exists_cons_of_ne_nil hne
    obtain ⟨-, -, h3, h4, -⟩ := hM.cls lc (by rw [hm]; exact List.mem_cons_self)
    simp only [hm, h1.dim, h1.di, h3, h4, hM.bimodal]
    rcases hd with hd | ⟨hb, hd⟩
    · simp [hd]
    · simp [hb, hd]

variable (hlong : Takes.LongEnough (Takes.run f ops []).1 fun l => (M.conf l).n) (hS : M.Settings P) (hD : D.Sound)
  (hlog : ∀ x y, 0 < x → 0 < y → log (x * y) = log x + log y) (hM : M.Holds f) (hmode : f.bimodal = true → ∀ l, (M.conf l).mode = M.mode)
include hlong hS hD hlog hM hmode

/-- C109: training one class of a hierarchy.  For every recording session in which every class has a take with at least as many complete frames as the class has states, all admissible settings
    of LeftRight classes, every moment of cancellation and every hierarchical model, trained or not, whose classes have the format of the session and are left from their last state only:
    `train(set, label)` for a label of the session is defined and raises no exception, and the model can recognise.  If the class did not exist, or has no more states than before, it is the one
    that would be trained alone on its own takes: nothing of its former training remains.  If its training fails the class does not exist any more.  All other classes remain as they are.
    If the class existed and its training is done, the priors of the classes, their transitions and exit probabilities remain, too; if a class is added or removed they are uniform again. -/
theorem C109_train_class (cancel : Nat → Bool) (label : String) (hl : ∃ e ∈ (Takes.run f ops []).1, e.2.1 = label)
    (hfew : ∀ c, (label, c) ∈ M.models → (M.conf label).n ≤ c.n) :
    ∃ M', recordAndTrainHmmClass z D log (Compare.exact lowest pct) P cancel f i ops w0 label M = .ret () M' ∧ M'.Usable ∧ M'.Holds f ∧ M'.started = false ∧
      ClassReplaced z D log (Compare.exact lowest pct) P cancel f (Takes.run f ops []).1 label M M' ∧
      (label ∈ SMap.keys M.models → label ∈ SMap.keys M'.models → M'.prior = M.prior ∧ M'.trans = M.trans ∧ M'.exitTrans = M.exitTrans) ∧
      (label ∉ SMap.keys M.models ∨ label ∉ SMap.keys M'.models → M'.UniformAt M'.models.length) := by
  obtain ⟨w, t, h1, h2, h3, -⟩ := recordThen_sim f hv i w0 h0 ops ha
  obtain ⟨M', g1, g2, g3, g4, -, -, -, -, g5, g6, -, g7, -⟩ := trainLabel_of_sim h1 h2 hv M hM P hS hlong hmode z D hD log hlog lowest pct cancel label hl hfew
  exact ⟨M', by unfold recordAndTrainHmmClass; rw [h3]; exact g1, g2, g3, g4, g5, g6, g7⟩

/-- **C109 (violated): a class that is trained again with more states than before is not the one that would be trained alone.**  Its former last state remains an exit point: it is left from
    there with probability 1/10, where the class trained alone is not left. -/
theorem C109_more_states_violated (label : String) (hl : ∃ e ∈ (Takes.run f ops []).1, e.2.1 = label) (c : Hmm ℝ) (hc : (label, c) ∈ M.models) (hmore : c.n < (M.conf label).n)
    (cancel : Nat → Bool) {tr : Trainer ℝ} {m : Hmm ℝ}
    (hdone : Hmm.trainedAlone D log (Compare.exact lowest pct) P cancel (fresh f M.window (M.conf label) z) (Takes.data f (Takes.run f ops []).1 label) = .ret tr m) (hd : tr.status = .done) :
    ∃ M' m', recordAndTrainHmmClass z D log (Compare.exact lowest pct) P cancel f i ops w0 label M = .ret () M' ∧ (label, m') ∈ M'.models ∧
      m'.exitP.getD (c.n - 1) 0 = 1 / 10 ∧ m.exitP.getD (c.n - 1) 0 = 0 := by
  obtain ⟨w, t, h1, h2, h3, -⟩ := recordThen_sim f hv i w0 h0 ops ha
  obtain ⟨n, M3, c1, m1, tr1, a1, ⟨a2, -⟩, a3, a4, a5, a6, a7, a8, -⟩ := trainLabel_core h1 h2 hv M hM P hS hlong z D hD log hlog lowest pct cancel label hl
  rw [hdone] at a6
  injection a6 with e1 e2
  subst e1 e2
  have hf := (SMap.mem_iff_find? hM.sorted).1 hc
  obtain ⟨r1, hn1, ⟨q, r2⟩, -, r3⟩ := a8 hd
  obtain ⟨r4, r5, r6, r7, r8⟩ := r3 c hf
  obtain ⟨tr', q1, q2, -, -, -, q6, -⟩ := a5
  simp only at q1 q6
  rw [hdone] at q1
  injection q1 with q1 _
  subst q1
  obtain ⟨p1, p2, p3, p4, p5, p6, p7, p8, p9⟩ := q6 hd
  have hcp : 1 ≤ c.n := (hM.cls _ hc).1.can.wf.pos
  have hx1 : ∀ k < c1.n, 0 ≤ c1.exitP.getD k 0 ∧ c1.exitP.getD k 0 < 1 := by
    intro k hk
    have : c1.exitP.getD k 0 = 0 ∨ c1.exitP.getD k 0 = 1 / 10 := by
      rw [r4, List.getD_eq_getElem?_getD, List.getElem?_set]
      split
      · split
        · exact .inr rfl
        · exact .inl rfl
      · simp only [resize, List.getElem?_append, List.getElem?_take, List.getElem?_replicate, lastExit, List.getElem?_map]
        split
        · rcases Nat.lt_or_ge k c.n with hkc | hkc
          · rw [List.getElem?_range hkc]
            simp only [Option.map_some, Option.getD_some]
            by_cases hkn : k + 1 = c.n <;> simp [hkn]
          · rw [List.getElem?_eq_none (by simpa using hkc)]
            exact .inl rfl
        · left
          split <;> rfl
    rcases this with h | h <;> rw [h] <;> norm_num
  have hnm : c1.n = m.n := by rw [r2]; rfl
  have hin1 : c1.InHierarchy := by
    have hs : m.SameClass (withPast { q with exitP := m.exitP } m) := withPast_same _ p1.can rfl
    have hi := hs.inHierarchy p1
    have hlen : c1.exitP.length = c1.n := by rw [r4]; simp [length_resize]
    have ec : c1.CanFilter := by
      have := hi.can
      rw [r2]
      exact ⟨⟨this.wf.pos, this.wf.sts, this.wf.prior, this.wf.trans, this.wf.state⟩, ⟨this.chain.start_nonneg, this.chain.start_sum, this.chain.step_nonneg, this.chain.step_sum⟩, this.idle,
        this.window, this.state⟩
    have et : c1.trans = m.trans := by rw [r2]; rfl
    have ee : c1.ergodic = m.ergodic := by rw [r2]; rfl
    refine ⟨ec, ?_, hlen, fun k hk => (hx1 k hk).1, fun k hk => (hx1 k hk).2, ?_, ?_⟩
    · rw [r2]; exact p1.hier
    · rw [et]; exact p1.trans
    · rw [et, ee, hnm]; exact p1.last
  have hlen : M3.models.length = M.models.length := by
    have hp : (SMap.keys M3.models).Perm (SMap.keys M.models) := (List.perm_ext_iff_of_nodup (SMap.keys_nodup a3) (SMap.keys_nodup hM.sorted)).2 fun l => by
      rw [SMap.mem_keys_iff, SMap.mem_keys_iff, a7]
      by_cases hll : l = label
      · simp [hll, hd, hf]
      · simp [hll]
    have := hp.length_eq
    simpa [SMap.keys] using this
  have b1 : M3.training = false := by rw [a4]; exact hM.idle
  have b2 : M3.hier = true := by rw [a4]; exact hM.hier
  have b3 : M3.nulls = [] := by rw [a4]; exact hM.nulls
  obtain ⟨N, n1, n2, n3, -, -, -, n4⟩ := reset_classes M3 b1 b2 b3 fun lc hlc => by
    have e1 := (SMap.mem_iff_find? a3 (k := lc.1) (v := lc.2)).1 hlc
    rw [a7] at e1
    by_cases hll : lc.1 = label
    · rw [if_pos hll, if_pos hd] at e1
      injection e1 with e1
      rw [← e1]
      exact ⟨hin1, r1⟩
    · rw [if_neg hll] at e1
      have := SMap.mem_of_find? e1
      obtain ⟨_, hist, hb⟩ := hM.buf _ this
      exact ⟨(hM.cls _ this).1, Logs.bufOk hb⟩
  have n5 : updateTransitionParameters N = .ret () N := by
    unfold updateTransitionParameters
    rw [bind_of_ret (get_def N), if_pos]
    · rfl
    · have e1 : N.nulls = [] := by rw [n2]; exact b3
      have e2 : N.prior = M3.prior := by rw [n2]
      simp only [size, e1, e2, n3, hlen, r6, hM.top.prior]
      rfl
  have hc1 : (label, c1) ∈ M3.models := (SMap.mem_iff_find? a3).2 (by rw [a7, if_pos rfl, if_pos hd])
  obtain ⟨k, hk, ek⟩ := List.getElem_of_mem hc1
  obtain ⟨m', s1, s2, -⟩ := n4 k (label, c1) (by rw [← ek]; exact List.getElem?_eq_getElem hk)
  have hcn : m.n = (M.conf label).n := hnm.symm.trans hn1
  refine ⟨N, m', ?_, mem_of_get s1, ?_, ?_⟩
  · unfold recordAndTrainHmmClass
    rw [h3, a1, bind_of_ret n1, n5]
  · have e := s2.facts.2.2.2.2.2.2.2.2.2.2.2.2.1
    rw [e]
    show c1.exitP.getD _ _ = _
    rw [r4]
    exact exit_more hcp (by rw [hnm, hcn]; exact hmore)
  · rw [p8]
    exact lastExit_zero hcp (by rw [hcn]; exact hmore)

/-- **C109 (violated): a training that fails does not leave the class as it was.**  If the training of `label` is not done, for instance because it is cancelled, a class `label` that was
    trained before does not exist any more. -/
theorem C109_failed_class_violated (cancel : Nat → Bool) (label : String) (hl : ∃ e ∈ (Takes.run f ops []).1, e.2.1 = label)
    (hfew : ∀ c, (label, c) ∈ M.models → (M.conf label).n ≤ c.n) (_hold : label ∈ SMap.keys M.models)
    (hfail : ¬ ∃ m, Done z D log (Compare.exact lowest pct) P (fun _ => cancel) f (Takes.run f ops []).1 M.conf M.window label m) :
    ∃ M', recordAndTrainHmmClass z D log (Compare.exact lowest pct) P cancel f i ops w0 label M = .ret () M' ∧ label ∉ SMap.keys M'.models := by
  obtain ⟨M', g1, -, -, -, g4, -⟩ := C109_train_class f hv i w0 h0 ops ha z D log lowest pct P M hlong hS hD hlog hM hmode cancel label hl hfew
  obtain ⟨tr, m, e1, -, e2⟩ := g4.replaced
  refine ⟨M', g1, ?_⟩
  rcases e2 with ⟨e2, -⟩ | ⟨e2, -⟩
  · exact absurd ⟨m, tr, e1, e2⟩ hfail
  · exact e2

/-- what is known of a label after its class has been trained -/
def Settled (z : ℝ) (D : Dens ℝ) (log : ℝ → ℝ) (C : Compare ℝ) (P : EmParams) (f : Format) (τ : Takes ℝ String) (conf : String → HmmParams ℝ) (window : Nat) (M : HierHmm ℝ)
    (l : String) : Prop :=
  ∃ tr m, Hmm.trainedAlone D log C P (fun _ => false) (fresh f window (conf l) z) (Takes.data f τ l) = .ret tr m ∧ (∃ k, OneOutcome tr.events k tr.status) ∧
    (tr.status = .done ∧ (∃ m', (l, m') ∈ M.models ∧ Hmm.SameClass m m') ∨
      l ∉ SMap.keys M.models ∧ (tr.status = .cancel ∧ (∃ k : Nat, (fun _ => false : Nat → Bool) k = true) ∨
        tr.status = .error ∧ ∃ pre m'', Hmm.iterations D log C P tr.updates (Takes.data f τ l) (fresh f window (conf l) z) = .ret (pre ++ [0, 0]) m''))

/-- C109: training class by class.  If the classes of a model are labels of the session, with at least as many states as configured, or if it has none, then calling `train(set, label)` for all
    labels of the session, in any order and any number of times, gives classes that `train(set)` gives (`C105_train`): those whose training is done, each one being the class trained
    alone on its own takes. -/
theorem C109_class_by_class (hold : ∀ lc ∈ M.models, (∃ e ∈ (Takes.run f ops []).1, e.2.1 = lc.1) ∧ (M.conf lc.1).n ≤ lc.2.n) (ls : List String)
    (hls : ∀ l, l ∈ ls ↔ ∃ e ∈ (Takes.run f ops []).1, e.2.1 = l) :
    ∃ M', recordAndTrainHmmClasses z D log (Compare.exact lowest pct) P f i ops w0 ls M = .ret () M' ∧ M'.Holds f ∧
      M'.TrainedOn z D log (Compare.exact lowest pct) P (fun _ _ => false) f (Takes.run f ops []).1 M.conf M.window := by
  obtain ⟨w, t, h1, h2, h3, -⟩ := recordThen_sim f hv i w0 h0 ops ha
  generalize hτ : (Takes.run f ops []).1 = τ at *
  have key : ∀ (ls : List String), (∀ l ∈ ls, ∃ e ∈ τ, e.2.1 = l) → ∀ (N : HierHmm ℝ) (past : List String), N.Holds f → N.conf = M.conf → N.window = M.window → N.mode = M.mode →
      (∀ lc ∈ N.models, (∃ e ∈ τ, e.2.1 = lc.1) ∧ (M.conf lc.1).n ≤ lc.2.n) →
      (∀ l ∈ past, Settled z D log (Compare.exact lowest pct) P f τ M.conf M.window N l) →
      ∃ M', (ls.foldlM (fun _ l => trainLabel z D log Real.sqrt (Compare.exact lowest pct) P KData.deviation (fun _ => false) w t l) () : Prog (HierHmm ℝ) Unit) N = .ret () M' ∧
        M'.Holds f ∧ (∀ lc ∈ M'.models, (∃ e ∈ τ, e.2.1 = lc.1) ∧ (M.conf lc.1).n ≤ lc.2.n) ∧
        ∀ l, l ∈ past ∨ l ∈ ls → Settled z D log (Compare.exact lowest pct) P f τ M.conf M.window M' l := by
    intro ls
    induction ls with
    | nil =>
      intro _ N past hN _ _ _ hk hp
      exact ⟨N, rfl, hN, hk, fun l hl => hp l (by simpa using hl)⟩
    | cons l0 ls ih =>
      intro hl N past hN hc hw hm hk hp
      have hSN : N.Settings P :=
        ⟨by rw [hw]; exact hS.window, hS.minIter, fun l => by rw [hc]; exact hS.states l, fun l => by rw [hc]; exact hS.gaussians l, fun l => by rw [hc]; exact hS.absReg l,
          fun l => by rw [hc]; exact hS.leftRight l⟩
      obtain ⟨M1, g1, -, g3, -, g4, -, g6, g7, g5, -, g8, -⟩ := trainLabel_of_sim h1 h2 hv N hN P hSN (by rw [hc]; exact hlong) (fun hb l => by rw [hc, hm]; exact hmode hb l) z D hD log hlog
        lowest pct (fun _ => false) l0 (hl l0 List.mem_cons_self) (fun c hcm => by rw [hc]; exact (hk _ hcm).2)
      have hk1 : ∀ lc ∈ M1.models, (∃ e ∈ τ, e.2.1 = lc.1) ∧ (M.conf lc.1).n ≤ lc.2.n := by
        intro lc hlc
        by_cases hll : lc.1 = l0
        · refine ⟨by rw [hll]; exact hl l0 List.mem_cons_self, ?_⟩
          rw [g8 lc.2 (by rw [← hll]; exact hlc), hc, hll]
        · obtain ⟨m, e1, e2⟩ := (g5.others lc.1 hll).1 lc.2 hlc
          refine ⟨(hk _ e1).1, ?_⟩
          rw [e2.facts.1]
          exact (hk _ e1).2
      have hp1 : ∀ l ∈ l0 :: past, Settled z D log (Compare.exact lowest pct) P f τ M.conf M.window M1 l := by
        intro l hlp
        by_cases hll : l = l0
        · rw [hll]
          have := g5.replaced
          rw [hc, hw] at this
          exact this
        · obtain ⟨tr, m, q1, q2, q3⟩ := hp l ((List.mem_cons.1 hlp).resolve_left hll)
          refine ⟨tr, m, q1, q2, ?_⟩
          rcases q3 with ⟨q3, m', q4, q5⟩ | ⟨q3, q4⟩
          · obtain ⟨m'', r1, r2⟩ := (g5.others l hll).2 m' q4
            exact .inl ⟨q3, m'', r1, q5.trans r2⟩
          · refine .inr ⟨fun hin => q3 ?_, q4⟩
            obtain ⟨lc, hlc, rfl⟩ := List.mem_map.1 hin
            obtain ⟨m, e1, -⟩ := (g5.others lc.1 hll).1 lc.2 hlc
            exact List.mem_map.2 ⟨_, e1, rfl⟩
      obtain ⟨M', r1, r2, r3, r4⟩ := ih (fun l h => hl l (List.mem_cons_of_mem _ h)) M1 (l0 :: past) g3 (g6.trans hc) (g7.trans hw) (g4.trans hm) hk1 hp1
      refine ⟨M', ?_, r2, r3, fun l hlp => r4 l ?_⟩
      · rw [List.foldlM_cons, bind_def, g1]
        exact r1
      · rcases hlp with h | h
        · exact .inl (List.mem_cons_of_mem _ h)
        · rcases List.mem_cons.1 h with h | h
          · exact .inl (h ▸ List.mem_cons_self)
          · exact .inr h
  obtain ⟨M', r1, r2, r3, r4⟩ := key ls (fun l h => (hls l).1 h) M [] hM rfl rfl rfl hold (by simp)
  refine ⟨M', by unfold recordAndTrainHmmClasses; rw [h3]; exact r1, r2, fun l hl => ?_, fun l hl => r4 l (.inr ((hls l).2 hl))⟩
  obtain ⟨lc, hlc, rfl⟩ := List.mem_map.1 hl
  exact (r3 lc hlc).1

/-- C109: training class by class and training all classes at once give the same classes: a label has a class in both models or in none, and both are the class trained alone on its own takes. -/
theorem C109_same_as_train (hne : (Takes.run f ops []).1 ≠ []) (hold : ∀ lc ∈ M.models, (∃ e ∈ (Takes.run f ops []).1, e.2.1 = lc.1) ∧ (M.conf lc.1).n ≤ lc.2.n) (ls : List String)
    (hls : ∀ l, l ∈ ls ↔ ∃ e ∈ (Takes.run f ops []).1, e.2.1 = l) :
    ∃ M' N', recordAndTrainHmmClasses z D log (Compare.exact lowest pct) P f i ops w0 ls M = .ret () M' ∧
      recordAndTrainHmm z D log (Compare.exact lowest pct) P (fun _ _ => false) f i ops w0 M = .ret () N' ∧ SMap.keys M'.models = SMap.keys N'.models ∧
      ∀ l a b, SMap.find? l M'.models = some a → SMap.find? l N'.models = some b → ∃ m, Hmm.SameClass m a ∧ Hmm.SameClass m b := by
  obtain ⟨M', g1, g2, g3⟩ := C109_class_by_class f hv i w0 h0 ops ha z D log lowest pct P M hlong hS hD hlog hM hmode hold ls hls
  obtain ⟨N', k1, k2, -, k3, -⟩ := C105_train f hv i w0 h0 ops ha hne M hM.idle P hS hM.hier hlong hM.bimodal hM.di (fun hb => hmode (hM.bimodal.symm.trans hb)) z D hD log hlog lowest pct
    (fun _ _ => false)
  have hboth : ∀ l, (∃ e ∈ (Takes.run f ops []).1, e.2.1 = l) →
      (∃ a b m, SMap.find? l M'.models = some a ∧ SMap.find? l N'.models = some b ∧ Hmm.SameClass m a ∧ Hmm.SameClass m b) ∨
        l ∉ SMap.keys M'.models ∧ l ∉ SMap.keys N'.models := by
    intro l hl
    obtain ⟨tr, m, a1, -, a2⟩ := g3.each l hl
    obtain ⟨tr', m', b1, -, b2⟩ := k3.each l hl
    rw [a1] at b1
    injection b1 with b1 b1'
    subst b1 b1'
    rcases a2 with ⟨a2, x, a3, a4⟩ | ⟨a2, a3⟩ <;> rcases b2 with ⟨b2, y, b3, b4⟩ | ⟨b2, b3⟩
    · exact .inl ⟨x, y, m, (SMap.mem_iff_find? g2.sorted).1 a3, (SMap.mem_iff_find? k2.sorted).1 b3, a4, b4⟩
    · rcases b3 with ⟨b3, -⟩ | ⟨b3, -⟩ <;> rw [a2] at b3 <;> cases b3
    · rcases a3 with ⟨a3, -⟩ | ⟨a3, -⟩ <;> rw [b2] at a3 <;> cases a3
    · exact .inr ⟨a2, b2⟩
  have hkeys : ∀ l, l ∈ SMap.keys M'.models ↔ l ∈ SMap.keys N'.models := by
    intro l
    constructor
    · intro h
      rcases hboth l (g3.known l h) with ⟨m, n, -, -, e, -⟩ | ⟨e, -⟩
      · exact SMap.mem_keys_iff.2 ⟨n, e⟩
      · exact absurd h e
    · intro h
      rcases hboth l (k3.known l h) with ⟨m, n, -, e, -⟩ | ⟨-, e⟩
      · exact SMap.mem_keys_iff.2 ⟨m, e⟩
      · exact absurd h e
  refine ⟨M', N', g1, k1, ?_, fun l a b hm hn => ?_⟩
  · have hp : (SMap.keys M'.models).Perm (SMap.keys N'.models) := (List.perm_ext_iff_of_nodup (SMap.keys_nodup g2.sorted) (SMap.keys_nodup k2.sorted)).2 hkeys
    exact hp.eq_of_pairwise (fun a b _ _ h1 h2 => absurd h1 (lt_asymm h2)) (SMap.keys_sorted g2.sorted) (SMap.keys_sorted k2.sorted)
  · rcases hboth l (g3.known l (SMap.mem_keys_iff.2 ⟨a, hm⟩)) with ⟨a', b', m, e1, e2, e3⟩ | ⟨e, -⟩
    · rw [hm] at e1
      rw [hn] at e2
      injection e1 with e1
      injection e2 with e2
      rw [e1, e2]
      exact ⟨m, e3⟩
    · exact absurd (SMap.mem_keys_iff.2 ⟨a, hm⟩) e

end session

/-! ### The hypotheses are met -/

/-- a likelihood function that always answers 10¹⁰¹ -/
noncomputable def bigDens : Dens ℝ := ⟨fun _ => Pure.pure (10 ^ 101), fun _ => Pure.pure (10 ^ 101), fun _ _ => Pure.pure (10 ^ 101)⟩

theorem bigDens_sound : bigDens.Sound := by
  have h : (1 : ℝ) / 10 ^ 180 ≤ 10 ^ 101 := by
    rw [div_le_iff₀ (by positivity)]
    norm_num
  exact ⟨fun g _ _ _ _ => ⟨_, rfl, h⟩, fun g _ _ _ _ _ => ⟨_, rfl, h⟩, fun g _ _ _ _ _ _ _ => ⟨_, rfl, h⟩⟩

theorem big_total (m : Hmm ℝ) (hm : m.InTraining) (b : Nat → Nat → ℝ) : ∀ T, (∀ t ≤ T, ∀ j < m.n, b t j = 10 ^ 101) → 10 ^ 101 ≤ total m.n (start m) (step m) b T
  | 0, hb => by
    rw [total_eq_sum]
    have : ∀ j ∈ Finset.range m.n, endingIn m.n (start m) (step m) b 0 j = start m j * 10 ^ 101 := by
      intro j hj
      rw [endingIn_zero _ _ _ _ _ (Finset.mem_range.1 hj), hb 0 le_rfl j (Finset.mem_range.1 hj)]
    rw [Finset.sum_congr rfl this, ← Finset.sum_mul, hm.start_sum, one_mul]
  | T + 1, hb => by
    have ih := big_total m hm b T fun t ht => hb t (by omega)
    rw [total_eq_sum] at ih ⊢
    have h1 : ∀ j ∈ Finset.range m.n, endingIn m.n (start m) (step m) b (T + 1) j = (∑ k ∈ Finset.range m.n, endingIn m.n (start m) (step m) b T k * step m k j) * 10 ^ 101 := by
      intro j hj
      rw [endingIn_succ _ _ _ _ _ _ (Finset.mem_range.1 hj), hb _ le_rfl j (Finset.mem_range.1 hj)]
    rw [Finset.sum_congr rfl h1, ← Finset.sum_mul, Finset.sum_comm]
    have h2 : (∑ k ∈ Finset.range m.n, endingIn m.n (start m) (step m) b T k) * (1 / 10 ^ 100) ≤
        ∑ k ∈ Finset.range m.n, ∑ j ∈ Finset.range m.n, endingIn m.n (start m) (step m) b T k * step m k j := by
      rw [Finset.sum_mul]
      refine Finset.sum_le_sum fun k hk => ?_
      rw [← Finset.mul_sum]
      refine mul_le_mul_of_nonneg_left (hm.step_sum k (Finset.mem_range.1 hk)) ?_
      exact endingIn_nonneg T hm.start_nonneg hm.step_nonneg (fun t ht j hj => by rw [hb t (by omega) j hj]; positivity) k (Finset.mem_range.1 hk)
    calc (10 : ℝ) ^ 101 ≤ (10 ^ 101 * (1 / 10 ^ 100)) * 10 ^ 101 := by norm_num
      _ ≤ _ := by
        refine mul_le_mul_of_nonneg_right (le_trans ?_ h2) (by positivity)
        exact mul_le_mul_of_nonneg_right ih (by positivity)

theorem big_update (data : KData ℝ) (m m' : Hmm ℝ) (hm : m.InTraining) (ht : m.Trains data) (l : ℝ)
    (hu : emUpdate bigDens Real.log data m = .ret l m') : 0 < l := by
  obtain ⟨d, m2, hO, hge, h6, -⟩ := C73_update bigDens bigDens_sound Real.log (fun x y hx hy => Real.log_mul hx.ne' hy.ne') data m hm ht
  rw [hu] at h6
  injection h6 with h6 _
  rw [h6]
  have hd : ∀ x ∈ data.frames, ∀ i < m.n, likOf m d x i = 10 ^ 101 := by
    intro x hx i hi
    obtain ⟨s, hs'⟩ : ∃ s, m.sts[i]? = some s := ⟨_, List.getElem?_eq_getElem (by rw [hm.wf.sts]; exact hi)⟩
    have hmem := List.mem_of_getElem? hs'
    have hr := hm.ready s hmem
    have hg := (hm.wf.state s hmem).1
    have hdc : ∀ c ∈ Finset.range m.gaussians, coeff m i c * d i x c = s.coeffs.getD c 0 * (10 ^ 101) := by
      intro c hc
      have hc' : c < s.comps.length := by rw [hr.wf.comps, hg]; exact Finset.mem_range.1 hc
      have := hO i s hs' x hx c _ (List.getElem?_eq_getElem hc')
      have h2 : (if s.bimodal then bigDens.bimodal (x.take s.di) (x.drop s.di) else bigDens.joint x) s.comps[c] = .ret (10 ^ 101) s.comps[c] := by
        split <;> rfl
      rw [h2] at this
      injection this with this _
      rw [← this]
      unfold HmmSpec.coeff GmmSpec.weights
      rw [hs']
      simp
    unfold likOf RecSpec.mixture
    rw [Finset.sum_congr rfl hdc, ← Finset.sum_mul]
    have hsum : ∑ c ∈ Finset.range m.gaussians, s.coeffs.getD c 0 = 1 := by
      rw [← hg, ← hr.wf.coeffs, ← hr.coeffs.2]
      simpa using sum_range_getD (0 : ℝ) id s.coeffs
    rw [hsum, one_mul]
  unfold HmmSpec.logTotal
  have hval : ∀ fr ∈ data.phrases.filter (fun fr => fr ≠ []), 0 < Real.log (total m.n (start m) (step m) (likAt m d fr) (fr.length - 1)) := by
    intro fr hfr
    rw [List.mem_filter] at hfr
    have hne : fr ≠ [] := by simpa using hfr.2
    have hlik : ∀ t < fr.length, ∀ j < m.n, likAt m d fr t j = 10 ^ 101 := by
      intro t ht' j hj
      unfold likAt
      rw [List.getD_eq_getElem?_getD, List.getElem?_eq_getElem ht']
      exact hd _ (List.mem_flatten.2 ⟨fr, hfr.1, List.getElem_mem ht'⟩) j hj
    refine Real.log_pos (lt_of_lt_of_le (by norm_num : (1 : ℝ) < 10 ^ 101) (big_total m hm (likAt m d fr) (fr.length - 1) fun t ht' j hj => hlik t ?_ j hj))
    have := List.length_pos_iff.2 hne
    omega
  refine List.sum_pos _ (fun v hv => ?_) ?_
  · obtain ⟨fr, hfr, rfl⟩ := List.mem_map.1 hv
    exact hval fr hfr
  · obtain ⟨x, hx⟩ := List.exists_mem_of_ne_nil _ ht.some
    obtain ⟨fr, h1, h2⟩ := List.mem_flatten.1 hx
    exact List.ne_nil_of_mem (List.mem_map.2 ⟨fr, List.mem_filter.2 ⟨h1, by simpa using List.ne_nil_of_mem h2⟩, rfl⟩)

theorem big_run (data : KData ℝ) (hl : data.frames.length ≤ 10 ^ 90) {m0 m : Hmm ℝ} (he : m0.ergodic = false) (h : Running m0 data m) :
    ∀ k ls m', emRun bigDens Real.log data k m = .ret ls m' → Running m0 data m' ∧ ∀ v ∈ ls, 0 < v
  | 0, ls, m', hr => by
    unfold emRun at hr
    rw [pure_def] at hr
    injection hr with h1 h2
    subst h1 h2
    exact ⟨h, by simp⟩
  | k + 1, ls, m', hr => by
    unfold emRun at hr
    rw [bind_def] at hr
    split at hr
    · rename_i a b hk
      obtain ⟨r1, r2⟩ := big_run data hl he h k a b hk
      obtain ⟨v, m'', q1, q2⟩ := r1.next bigDens bigDens_sound Real.log (fun x y hx hy => Real.log_mul hx.ne' hy.ne') hl (fun h' => absurd (he.symm.trans h') (by simp))
      rw [bind_of_ret q1, pure_def] at hr
      injection hr with h1 h2
      subst h1 h2
      refine ⟨q2, fun u hu => ?_⟩
      rcases List.mem_append.1 hu with hu | hu
      · exact r2 u hu
      · rw [List.mem_singleton.1 hu]
        exact big_update data b m'' r1.training r1.trains v q1
    · cases hr
    · cases hr

/-- with that likelihood function, the training of every class is done if it is not cancelled -/
theorem big_done (f : Format) (hv : f.Valid) (i : Nat) (w0 : World ℝ String) (h0 : w0.sets i = none) (ops : List (RecOp ℝ String)) (ha : Takes.Admissible f ops [])
    (M : HierHmm ℝ) (P : EmParams) (hS : M.Settings P) (hlong : Takes.LongEnough (Takes.run f ops []).1 fun l => (M.conf l).n) (z lowest pct : ℝ)
    (cancel : String → Nat → Bool) (l : String) (hl : ∃ e ∈ (Takes.run f ops []).1, e.2.1 = l) (hc : ∀ k, cancel l k = false) :
    ∃ m, Done z bigDens Real.log (Compare.exact lowest pct) P cancel f (Takes.run f ops []).1 M.conf M.window l m := by
  obtain ⟨w, t, h1, h2, h3⟩ := recordAndTrainHmm_sim f hv i w0 h0 ops ha
  have hlog : ∀ x y : ℝ, 0 < x → 0 < y → Real.log (x * y) = Real.log x + Real.log y := fun x y hx hy => Real.log_mul hx.ne' hy.ne'
  obtain ⟨c, tr, q1, q2, q3, q4, q5, q6, q7⟩ := class_trained h1 hv hS hlong z bigDens bigDens_sound Real.log hlog lowest pct cancel l hl
  refine ⟨c.1, tr, q1, ?_⟩
  rcases q3 with q3 | q3 | q3
  · exact q3
  · exfalso
    obtain ⟨pre, m'', e⟩ := q7 q3
    obtain ⟨e0, he0, rfl⟩ := hl
    obtain ⟨⟨e', he', k1, k2⟩, k3⟩ := hlong e0 he0
    have hn := hS.states e0.2.1
    have hmem : e'.2.2.frames ∈ (Takes.data f (Takes.run f ops []).1 e0.2.1).phrases := by
      simp only [Takes.data, Takes.frames, List.mem_map]
      exact ⟨e', by simp [Takes.ofClass, he', k1], rfl⟩
    have hne : (Takes.data f (Takes.run f ops []).1 e0.2.1).frames ≠ [] := by
      intro h0
      simp only [KData.frames, List.flatten_eq_nil_iff] at h0
      have := h0 _ hmem
      rw [this] at k2
      simp only [List.length_nil] at k2
      omega
    obtain ⟨g, m1, m2, a1, a2, -, -, a3⟩ := init_ret bigDens bigDens_sound Real.log lowest pct P hS.minIter KData.deviation (fun d => by simp [KData.deviation]) _
      (fresh f M.window (M.conf e0.2.1) z) (fresh_admissible hv hn (hS.gaussians _) z) ⟨rfl, h1.frame_length hv _, hne⟩ ⟨_, hmem, k2⟩
      (fun he => absurd ((hS.leftRight e0.2.1).symm.trans he) (by simp)) (hS.absReg _)
    obtain ⟨m1', b1, -, -, b2, -⟩ := allocate_fresh (fresh f M.window (M.conf e0.2.1) z) (fresh_admissible hv hn (hS.gaussians _) z)
    rw [a1] at b1
    injection b1 with _ b1
    subst b1
    unfold iterations at e
    rw [bind_of_ret a1, bind_of_ret a2] at e
    obtain ⟨-, hpos⟩ := big_run (Takes.data f (Takes.run f ops []).1 e0.2.1) k3 (by rw [b2]; exact hS.leftRight _) a3 _ _ _ e
    have := hpos 0 (by simp)
    exact lt_irrefl _ this
  · exfalso
    obtain ⟨k, hk⟩ := q5 q3
    rw [hc k] at hk
    cases hk

/-- a model without classes -/
theorem sessionModel_holds : sessionModel.Holds sessionFormat :=
  ⟨rfl, rfl, rfl, SMap.sorted_nil, ⟨rfl, rfl, rfl, by simp [sessionModel], by simp [sessionModel], by simp [sessionModel], by simp [sessionModel], by simp [sessionModel], by simp [sessionModel],
    by simp [sessionModel]⟩, rfl,
    by simp [sessionModel], by simp [sessionModel], by simp [sessionModel], by simp [sessionModel], by simp [sessionModel]⟩

/-- training the class "a" on a model without classes, with the likelihood function above, gives a model with the class "a" -/
theorem trained_a (conf : String → HmmParams ℝ) (hS : ({ sessionModel with conf := conf } : HierHmm ℝ).Settings ⟨5, 10⟩) (hn : ∀ l, (conf l).n ≤ if l = "a" then 2 else 1)
    (hm : ∀ l, (conf l).mode = .full) :
    ∃ M : HierHmm ℝ, M.Holds sessionFormat ∧ M.conf = conf ∧ M.mode = .full ∧ M.window = 3 ∧ (∃ c, ("a", c) ∈ M.models) ∧ ∀ lc ∈ M.models, lc.1 = "a" ∧ lc.2.n = (conf "a").n := by
  obtain ⟨-, -, -, hv, ha, -, hlong, -, hl, -⟩ := session_example
  obtain ⟨w, t, h1, h2, h3, -⟩ := recordThen_sim sessionFormat hv 0 emptyWorld rfl sessionA ha
  have hlog : ∀ x y : ℝ, 0 < x → 0 < y → Real.log (x * y) = Real.log x + Real.log y := fun x y hx hy => Real.log_mul hx.ne' hy.ne'
  have hM : ({ sessionModel with conf := conf } : HierHmm ℝ).Holds sessionFormat := by
    have h := sessionModel_holds
    have ht := h.top
    exact ⟨h.idle, h.hier, h.nulls, h.sorted, ⟨ht.prior, ht.exitTrans, ht.trans, ht.row, ht.prior_pos, ht.prior_sum, ht.row_nonneg, ht.row_sum, ht.exit_nonneg, ht.exit_le⟩, h.bimodal, h.di,
      h.cls, h.exits, h.mode, h.buf⟩
  have hlong' : Takes.LongEnough (Takes.run sessionFormat sessionA []).1 fun l => (({ sessionModel with conf := conf } : HierHmm ℝ).conf l).n := by
    intro e he
    obtain ⟨⟨e', k1, k2, k3⟩, k4⟩ := hlong e he
    exact ⟨⟨e', k1, k2, le_trans (hn _) k3⟩, k4⟩
  obtain ⟨m0, tr0, d1, d2⟩ := big_done sessionFormat hv 0 emptyWorld rfl sessionA ha _ ⟨5, 10⟩ hS hlong' 0 0 0 (fun _ _ => false) "a" hl fun _ => rfl
  obtain ⟨M, -, -, g3, -, g4, -, g6, g7, g5, -, g8, -⟩ := trainLabel_of_sim h1 h2 hv _ hM ⟨5, 10⟩ hS hlong' (fun _ l => hm l) 0 bigDens bigDens_sound Real.log hlog 0 0 (fun _ => false) "a" hl
    (fun c hc => absurd hc (by simp [sessionModel]))
  have hk : ∀ lc ∈ M.models, lc.1 = "a" := by
    intro lc hlc
    by_contra hne
    obtain ⟨m, e1, -⟩ := (g5.others lc.1 hne).1 lc.2 hlc
    simp [sessionModel] at e1
  refine ⟨M, g3, g6, g4, g7, ?_, fun lc hlc => ⟨hk lc hlc, g8 _ (by rw [← hk lc hlc]; exact hlc)⟩⟩
  obtain ⟨tr, m, e1, -, e2⟩ := g5.replaced
  rw [d1] at e1
  injection e1 with e1 _
  subst e1
  rcases e2 with ⟨-, m', h, -⟩ | ⟨-, ⟨h, -⟩ | ⟨h, -⟩⟩
  · exact ⟨m', h⟩
  · rw [d2] at h; cases h
  · rw [d2] at h; cases h

/-- the hypotheses of the theorems on C109 are met: a bimodal session with the classes "a", for which two states are configured, and "b"; a model without classes; a model with the class "a" and two
    states; one with the class "a" and one state; a training of "a" that is done and one that is cancelled -/
theorem retrain_example : sessionModel.Holds sessionFormat ∧ sessionModel.Settings ⟨5, 10⟩ ∧ sessionFormat.Valid ∧ Takes.Admissible sessionFormat sessionA [] ∧
    (Takes.LongEnough (Takes.run sessionFormat sessionA []).1 fun l => (sessionModel.conf l).n) ∧ (∀ l, (sessionModel.conf l).mode = .full) ∧ bigDens.Sound ∧
    (∀ l, l ∈ ["b", "a", "b"] ↔ ∃ e ∈ (Takes.run sessionFormat sessionA []).1, e.2.1 = l) ∧ (∀ e ∈ (Takes.run sessionFormat sessionA []).1, e.2.1 ≠ "c") ∧
    (∃ M : HierHmm ℝ, M.Holds sessionFormat ∧ M.conf = sessionModel.conf ∧ M.mode = .full ∧ M.window = 3 ∧ "a" ∈ SMap.keys M.models ∧
      ∀ lc ∈ M.models, (∃ e ∈ (Takes.run sessionFormat sessionA []).1, e.2.1 = lc.1) ∧ (M.conf lc.1).n ≤ lc.2.n) ∧
    (∃ (M : HierHmm ℝ) (c : Hmm ℝ), M.Holds sessionFormat ∧ M.conf = sessionModel.conf ∧ M.mode = .full ∧ M.window = 3 ∧ ("a", c) ∈ M.models ∧ c.n < (M.conf "a").n) ∧
    (∀ z lowest pct, ∃ tr m, Hmm.trainedAlone bigDens Real.log (Compare.exact lowest pct) ⟨5, 10⟩ (fun _ => false) (fresh sessionFormat 3 (sessionModel.conf "a") z)
      (Takes.data sessionFormat (Takes.run sessionFormat sessionA []).1 "a") = .ret tr m ∧ tr.status = .done) ∧
    (∀ z lowest pct, ¬ ∃ m, Done z bigDens Real.log (Compare.exact lowest pct) ⟨5, 10⟩ (fun _ _ => true) sessionFormat (Takes.run sessionFormat sessionA []).1 sessionModel.conf 3 "a" m) := by
  obtain ⟨-, -, hS, hv, ha, -, hlong, -, hl, -⟩ := session_example
  obtain ⟨c1, -⟩ := session_classes
  have hlab : ∀ l, (∃ e ∈ (Takes.run sessionFormat sessionA []).1, e.2.1 = l) ↔ l = "a" ∨ l = "b" := by
    intro l
    have : (∃ e ∈ (Takes.run sessionFormat sessionA []).1, e.2.1 = l) ↔ ∃ e ∈ (Takes.run sessionFormat sessionA []).1.map (fun e => (e.1, e.2.1, e.2.2.frames)), e.2.1 = l := by
      simp
    rw [this, c1]
    simp [eq_comm, or_comm]
  refine ⟨sessionModel_holds, hS, hv, ha, hlong, fun _ => rfl, bigDens_sound, fun l => ?_, fun e he h => ?_, ?_, ?_, fun z lowest pct => ?_, fun z lowest pct => ?_⟩
  · rw [hlab]; simp only [List.mem_cons, List.not_mem_nil, or_false]; tauto
  · have := (hlab "c").1 ⟨e, he, h⟩
    simp at this
  · obtain ⟨M, g1, g2, g3, g4, ⟨c, g5⟩, g6⟩ := trained_a sessionModel.conf hS (fun l => le_rfl) fun _ => rfl
    refine ⟨M, g1, g2, g3, g4, List.mem_map.2 ⟨_, g5, rfl⟩, fun lc hlc => ?_⟩
    obtain ⟨k1, k2⟩ := g6 lc hlc
    rw [k1, k2, g2]
    exact ⟨hl, le_rfl⟩
  · obtain ⟨M, g1, g2, g3, g4, ⟨c, g5⟩, g6⟩ := trained_a (fun _ => ⟨1, 1, false, .full, 1 / 1000, 1 / 100, .full⟩)
      ⟨by norm_num [sessionModel], by norm_num, fun l => le_rfl, fun l => le_rfl, fun l => by norm_num, fun l => rfl⟩ (fun l => by dsimp only; split <;> norm_num) fun _ => rfl
    have ht := g1.top
    refine ⟨{ M with conf := sessionModel.conf }, c, ⟨g1.idle, g1.hier, g1.nulls, g1.sorted,
      ⟨ht.prior, ht.exitTrans, ht.trans, ht.row, ht.prior_pos, ht.prior_sum, ht.row_nonneg, ht.row_sum, ht.exit_nonneg, ht.exit_le⟩, g1.bimodal, g1.di, g1.cls, g1.exits, g1.mode, g1.buf⟩,
      rfl, g3, g4, g5, ?_⟩
    rw [(g6 _ g5).2]
    simp [sessionModel]
  · obtain ⟨m, tr, d1, d2⟩ := big_done sessionFormat hv 0 emptyWorld rfl sessionA ha sessionModel ⟨5, 10⟩ hS hlong z lowest pct (fun _ _ => false) "a" hl fun _ => rfl
    exact ⟨tr, m, d1, d2⟩
  · rintro ⟨m, tr, e1, e2⟩
    obtain ⟨m1, b1, -⟩ := allocate_fresh (fresh sessionFormat 3 (sessionModel.conf "a") z) (fresh_admissible hv (hS.states "a") (hS.gaussians "a") z)
    obtain ⟨t, k, g1, g2, -⟩ := Trainee.train_cancelled (trainee bigDens Real.log Real.sqrt (Compare.exact lowest pct) ⟨5, 10⟩ KData.deviation
      (Takes.data sessionFormat (Takes.run sessionFormat sessionA []).1 "a")) (Compare.exact lowest pct) ⟨5, 10⟩ (fun _ => true) _ m1 b1 (by norm_num) rfl
    unfold Hmm.trainedAlone at e1
    rw [g1] at e1
    injection e1 with e1 _
    subst e1
    rw [g2] at e2
    cases e2

/-- the hypotheses of `C109_other_dimensions` are met: a session with three dimensions and the model of two dimensions with the class "a" -/
theorem other_dimensions_example : ∃ (f g : Format) (ops : List (RecOp ℝ String)) (M : HierHmm ℝ), f.Valid ∧ Takes.Admissible f ops [] ∧
    (∃ e ∈ (Takes.run f ops []).1, e.2.1 = "c") ∧ M.Holds g ∧ M.models ≠ [] ∧ (g.dim ≠ f.dim ∨ g.bimodal = true ∧ g.di ≠ f.di) := by
  obtain ⟨-, -, -, -, -, -, -, -, -, ⟨M, h1, -, -, -, h2, -⟩, -⟩ := retrain_example
  obtain ⟨a1, a2⟩ := C102_any_takes (K := ℝ) (L := String) ⟨true, 3, 1⟩ [(1, "c", [[0, 0, 1]])] (by simp)
  refine ⟨⟨true, 3, 1⟩, sessionFormat, _, M, by simp [Format.Valid], a1, ?_, h1, fun h0 => by rw [h0] at h2; simp [SMap.keys] at h2, by simp [sessionFormat]⟩
  have : (1, "c", [[0, 0, 1]]) ∈ (Takes.run ⟨true, 3, 1⟩ (manyTakes [(1, "c", [[0, 0, (1 : ℝ)]])]) []).1.map (fun e => (e.1, e.2.1, e.2.2.frames)) := by
    rw [a2]; simp [SMap.assign]
  obtain ⟨e, he, h⟩ := List.mem_map.1 this
  simp only [Prod.mk.injEq] at h
  exact ⟨e, he, h.2.1⟩

end HierHmm
end Xmm
