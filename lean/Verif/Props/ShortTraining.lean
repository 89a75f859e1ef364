import Verif.Props.SequentialTrain
set_option linter.unusedSectionVars false
/- C81, C83, C107: a training of a fixed number of one or two iterations never fails. -/
namespace Xmm
open TS Prog

variable {V σ : Type}

namespace Trainer

/-- the loop with at most two iterations does not end with an error -/
theorem emLoop_short (E : EmEnv V) (P : EmParams) (hm : P.minIter ≤ P.maxIter) (h2 : P.maxIter ≤ 2) (hu : ∀ n, ∃ v, E.update n = some v) :
    ∀ (fuel : Nat) (old : V) (s : Trainer V) (r : Ended) (s' : Trainer V), s.status ≠ .error → emLoop E P fuel false old s = .ret r s' → s'.status ≠ .error
  | 0, _, s, r, s', hs, h => by
    unfold emLoop at h
    rw [pure_def] at h
    injection h with _ h
    rw [← h]; exact hs
  | fuel + 1, old, s, r, s', hs, h => by
    unfold emLoop at h
    rw [bind_of_ret (get_def s)] at h
    by_cases hc : hasConverged E P s.iterations s.logLik old = true
    · rw [if_pos hc, pure_def] at h
      injection h with _ h
      rw [← h]; exact hs
    · rw [if_neg hc] at h
      have hit : s.iterations < 2 := by
        have : ¬ P.maxIter ≤ s.iterations := fun hh => hc (by simp [hasConverged, hm, hh])
        omega
      cases hcan : E.cancel s.checks with
      | true =>
        rw [bind_of_ret (cancel_yes hcan), if_pos rfl, pure_def] at h
        injection h with _ h
        rw [← h]; simp
      | false =>
        obtain ⟨v, hv⟩ := hu s.updates
        have hno : cancelIfRequested E s = .ret false { s with checks := s.checks + 1 } := by simp [cancelIfRequested, hcan]
        have hup : emUpdate E false { s with checks := s.checks + 1 } = .ret false { s with checks := s.checks + 1, updates := s.updates + 1, logLik := v } := by
          simp [emUpdate, hv]
        rw [bind_of_ret hno, if_neg (by simp), bind_of_ret (get_def _)] at h
        simp only at h
        rw [bind_of_ret hup, bind_of_ret (get_def _)] at h
        have hd : decide (1 < s.iterations) = false := by simpa using hit
        simp only [hd, Bool.and_false, Bool.or_self, Bool.false_eq_true, if_false] at h
        rw [bind_of_ret (modify_def _ _), bind_of_ret (modify_def _ _), bind_of_ret (show notify _ = .ret () _ from rfl)] at h
        refine emLoop_short E P hm h2 hu fuel _ _ r s' ?_ h
        exact hs

/-- a training with at most two iterations does not end with an error -/
theorem train_short (E : EmEnv V) (P : EmParams) (hm : P.minIter ≤ P.maxIter) (h2 : P.maxIter ≤ 2) (hi : E.init = true) (hu : ∀ n, ∃ v, E.update n = some v) (fuel : Nat) (s : Trainer V)
    (b : Bool) (s' : Trainer V) (h : train E P true true fuel s = .ret b s') : s'.status ≠ .error := by
  unfold train at h
  rw [bind_of_ret (modify_def _ _), if_neg (by simp)] at h
  cases hcan : E.cancel s.checks with
  | true =>
    simp only at h
    rw [bind_of_ret (cancel_yes (s := { s with locked := true, status := .run }) hcan), if_pos rfl, pure_def] at h
    injection h with _ h
    rw [← h]; simp
  | false =>
    have hno : cancelIfRequested E { s with locked := true, status := .run } = .ret false { s with locked := true, status := .run, checks := s.checks + 1 } := by simp [cancelIfRequested, hcan]
    simp only [hi, Bool.not_true, Bool.or_self] at h
    rw [bind_of_ret hno, if_neg (by simp), bind_of_ret (modify_def _ _), bind_def] at h
    split at h
    · rename_i r s1 hl
      have h1 := emLoop_short E P hm h2 hu fuel _ _ r s1 (by simp) hl
      cases r with
      | running => simp only at h; rw [pure_def] at h; injection h with _ h; rw [← h]; exact h1
      | returned => simp only at h; rw [pure_def] at h; injection h with _ h; rw [← h]; exact h1
      | converged =>
        cases hc1 : E.cancel s1.checks with
        | true =>
          simp only at h
          rw [bind_of_ret (cancel_yes hc1), if_pos rfl, pure_def] at h
          injection h with _ h
          rw [← h]; simp
        | false =>
          have hno : cancelIfRequested E s1 = .ret false { s1 with checks := s1.checks + 1 } := by simp [cancelIfRequested, hc1]
          simp only at h
          rw [bind_of_ret hno, if_neg (by simp), bind_of_ret (show emTerminate _ = .ret () _ from rfl), bind_of_ret (modify_def _ _), pure_def] at h
          injection h with _ h
          rw [← h]; simp
    · cases h
    · cases h

end Trainer

namespace Trainee

theorem finish_status {T : Trainee σ V} {t t' : Trainer V} {s s' : σ} (h : finish T t s = .ret t' s') : t' = t := by
  unfold finish at h
  by_cases hd : t.status = .done
  · rw [if_pos hd, bind_def] at h
    split at h
    · simp only at h
      rw [bind_of_ret (modify_def _ _), pure_def] at h
      injection h with h _
      exact h.symm
    · cases h
    · cases h
  · rw [if_neg hd] at h
    simp only at h
    rw [bind_of_ret (modify_def _ _), pure_def] at h
    injection h with h _
    exact h.symm

/-- a class whose updates all return: a training with at most two iterations does not end with an error -/
theorem train_short [Zero V] (T : Trainee σ V) (C : Compare V) (P : EmParams) (hP : 1 ≤ P.minIter) (hm : P.minIter ≤ P.maxIter) (h2 : P.maxIter ≤ 2) (cancel : Nat → Bool) {s s1 s2 : σ} {ok : Bool}
    (ha : T.allocate s = .ret () s1) (hi : T.init s1 = .ret ok s2) (I : Nat → σ → Prop) (h0 : I 0 s2) (hstep : ∀ k s, I k s → ∃ v s', T.update ok k s = .ret v s' ∧ I (k + 1) s')
    {t : Trainer V} {u : σ} (h : T.train C P cancel s = .ret t u) : t.status ≠ .error := by
  cases hc : cancel 0 with
  | true =>
    obtain ⟨t', k, g1, g2, -⟩ := train_cancelled T C P cancel s s1 ha hP hc
    rw [h] at g1
    injection g1 with g1 _
    rw [g1, g2]; simp
  | false =>
    obtain ⟨t', k, h1, -⟩ := Trainer.train_trained (env C true (T.update ok) s2 cancel) P hP true true (fun _ => rfl) 1001 (by omega) (start V) ⟨rfl, rfl, rfl⟩
    have hu : ∀ n, ∃ v, (env C true (T.update ok) s2 cancel).update n = some v := by
      intro n
      obtain ⟨ls, s', q1, q2, q3⟩ := after_steps (T.update ok) s2 I h0 hstep n
      obtain ⟨v, s'', e, _⟩ := hstep n s' q3
      exact ⟨v, by simp [env, q2, e]⟩
    have key := Trainer.train_short _ P hm h2 rfl hu _ _ _ _ h1
    obtain ⟨ls, s3, k1, k2, k3⟩ := after_steps (T.update ok) s2 I h0 hstep t'.updates
    have hb : begin' (cancel 0) true T.init s1 = .ret (some ok) s2 := by simp [begin', attempt, hc, hi]
    unfold train at h
    rw [bind_of_ret ha, bind_of_ret hb, bind_of_ret (get_def _)] at h
    simp only [Option.isSome_some, Option.getD_some, h1, k2] at h
    rw [bind_of_ret (set_def _ _)] at h
    rw [finish_status h]
    exact key

end Trainee

/-- C81, one or two iterations: a mixture that is trained with a fixed number of iterations, 1 or 2, is trained: for all admissible parameters and all data of the right dimension with at least
    one frame, `train` ends with Done unless a cancellation is requested. -/
theorem Gmm.C81_short_training (D : Dens ℝ) (hD : D.Sound) (log : ℝ → ℝ) (m : Gmm ℝ) (ha : m.Admissible) (hwin : 1 ≤ m.window) (sd : List ℝ) (data : KData ℝ) (hf : m.Fed sd data)
    (hreg : 1 / 10 ^ 9 ≤ m.absReg) (lowest pct : ℝ) (P : EmParams) (hP : 1 ≤ P.minIter) (hm : P.minIter ≤ P.maxIter) (h2 : P.maxIter ≤ 2) (cancel : Nat → Bool) :
    ∃ t m', (Gmm.trainee D log Real.sqrt sd data).train (Compare.exact lowest pct) P cancel m = .ret t m' ∧ (t.status = .done ∨ t.status = .cancel ∧ ∃ k, cancel k = true) ∧
      (t.status = .done → m'.CanFilter) := by
  obtain ⟨t, m', e1, -, e3, -, -, -, e4, e5⟩ := Gmm.C81_training D hD log m ha hwin sd data hf hreg lowest pct P hP cancel
  obtain ⟨m1, ok, m2, h1, h2', -, h3, h4, -⟩ := start_ret m ha sd data hf hreg
  have hne := Trainee.train_short (Gmm.trainee D log Real.sqrt sd data) (Compare.exact lowest pct) P hP hm h2 cancel h1 h2' (fun k m' => Going m data m' ∧ (ok = true ∨ 0 < k → m'.Ready))
    ⟨h3, fun h => h4 (by simpa using h)⟩ (by
      rintro k m' ⟨q1, q2⟩
      obtain ⟨l, m'', k1, k2, k3, _⟩ := trainStep_ret D hD log data ok k m m' q1 q2
      exact ⟨l, m'', k1, k2, fun _ => k3⟩) e1
  refine ⟨t, m', e1, ?_, fun h => (e5 (by rw [h]; simp)).1⟩
  rcases e3 with h | h | h
  · exact .inl h
  · exact absurd h hne
  · exact .inr ⟨h, e4 h⟩

/-- C83, one or two iterations: a LeftRight hidden Markov model that is trained with a fixed number of iterations, 1 or 2, is trained: for all admissible parameters and all data of the right
    dimension with a phrase that has at least as many frames as there are states, `train` ends with Done unless a cancellation is requested. -/
theorem Hmm.C83_short_training (D : Dens ℝ) (hD : D.Sound) (log : ℝ → ℝ) (hlog : ∀ x y, 0 < x → 0 < y → log (x * y) = log x + log y) (m : Hmm ℝ) (ha : m.Admissible)
    (he : m.ergodic = false) (hwin : 1 ≤ m.window) (data : KData ℝ) (hf : m.Fed data) (hl : m.LongPhrase data) (hlen : data.frames.length ≤ 10 ^ 90) (hreg : 1 / 10 ^ 9 ≤ m.absReg)
    (sdOf : KData ℝ → List ℝ) (hsd : ∀ d, (sdOf d).length = d.dim) (lowest pct : ℝ) (P : EmParams) (hP : 1 ≤ P.minIter) (hm : P.minIter ≤ P.maxIter) (h2 : P.maxIter ≤ 2) (cancel : Nat → Bool) :
    ∃ t m', (Hmm.trainee D log Real.sqrt (Compare.exact lowest pct) P sdOf data).train (Compare.exact lowest pct) P cancel m = .ret t m' ∧
      (t.status = .done ∨ t.status = .cancel ∧ ∃ k, cancel k = true) ∧ (t.status = .done → m'.CanFilter) := by
  obtain ⟨t, m', e1, -, e3, -, -, -, e4, e5, e6, e7, -⟩ := Hmm.C83_training D hD log hlog m ha he hwin data hf hl hlen hreg sdOf hsd lowest pct P hP cancel
  obtain ⟨g, m1, m2, h1, h2', -, -, h4⟩ := Hmm.init_ret D hD log lowest pct P hP sdOf hsd data m ha hf hl (fun h => absurd (he.symm.trans h) (by simp)) hreg
  obtain ⟨m1', h1', -, -, hs1, -, -⟩ := Hmm.allocate_fresh m ha
  rw [h1] at h1'
  injection h1' with _ h1'
  subst h1'
  have ee : m1.ergodic = false := by rw [hs1]; exact he
  have hinit : (Hmm.trainee D log Real.sqrt (Compare.exact lowest pct) P sdOf data).init m1 = .ret true m2 := by
    show (Hmm.emInit D log Real.sqrt (Compare.exact lowest pct) P sdOf data >>= fun _ => Pure.pure true) m1 = _
    rw [bind_of_ret h2', pure_def]
  have hne := Trainee.train_short (Hmm.trainee D log Real.sqrt (Compare.exact lowest pct) P sdOf data) (Compare.exact lowest pct) P hP hm h2 cancel h1 hinit (fun _ m' => m1.Running data m') h4
    (fun k m' q1 => q1.next D hD log hlog hlen (fun h => absurd (ee.symm.trans h) (by simp))) e1
  refine ⟨t, m', e1, ?_, fun h => (e7 h).2.1⟩
  rcases e3 with h | h | h
  · exact .inl h
  · exact absurd h hne
  · exact .inr ⟨h, e5 h⟩

namespace GmmModel

/-- the number of iterations is fixed, and it is 1 or 2 -/
theorem short_done (f : Format) (hv : f.Valid) (i : Nat) (w0 : World ℝ String) (h0 : w0.sets i = none) (ops : List (RecOp ℝ String)) (ha : Takes.Admissible f ops [])
    (hfill : Takes.Filled (Takes.run f ops []).1) (S : GmmSettings ℝ) (hS : S.Valid) (hm : S.em.minIter ≤ S.em.maxIter) (h2 : S.em.maxIter ≤ 2) (D : Dens ℝ) (hD : D.Sound) (log : ℝ → ℝ)
    (lowest pct : ℝ) (cancel : String → Nat → Bool) (l : String) (hl : ∃ e ∈ (Takes.run f ops []).1, e.2.1 = l) (hc : ∀ k, cancel l k = false) :
    ∃ m, Done S D log (Compare.exact lowest pct) cancel f (Takes.run f ops []).1 l m := by
  obtain ⟨w, t, h1, -⟩ := recordThen_sim f hv i w0 h0 ops ha
  have hne : (Takes.data f (Takes.run f ops []).1 l).frames ≠ [] := by
    obtain ⟨e, he, rfl⟩ := hl
    obtain ⟨e', he', k1, k2⟩ := hfill e he
    intro h0
    simp only [Takes.data, KData.frames, Takes.frames, List.flatten_eq_nil_iff, List.mem_map] at h0
    exact k2 (h0 _ ⟨e', by simp [Takes.ofClass, he', k1], rfl⟩)
  obtain ⟨tr, m, e1, e2, -⟩ := Gmm.C81_short_training D hD log (newClass S f.bimodal f.dim f.di l) (newClass_admissible S hS f hv l) hS.window (Takes.data f (Takes.run f ops []).1 l).deviation
    (Takes.data f (Takes.run f ops []).1 l) ⟨rfl, h1.frame_length hv l, hne, by simp [KData.deviation, Takes.data, newClass]⟩ (hS.absReg l) lowest pct S.em hS.minIter hm h2 (cancel l)
  refine ⟨m, tr, e1, ?_⟩
  rcases e2 with h | ⟨-, k, hk⟩
  · exact h
  · rw [hc k] at hk; cases hk

/-- C107, mixture models, one or two iterations: if the number of iterations is fixed, 1 or 2, and nothing is cancelled, then every class of the takes is trained: the classes are exactly the
    labels of the takes, and training in the mode Sequential followed by `reset()` gives the model of the mode Parallel, which can recognise. -/
theorem C107_gmm_short_train (f : Format) (hv : f.Valid) (i : Nat) (w0 : World ℝ String) (h0 : w0.sets i = none) (ops : List (RecOp ℝ String)) (ha : Takes.Admissible f ops [])
    (hne : (Takes.run f ops []).1 ≠ []) (hfill : Takes.Filled (Takes.run f ops []).1) (S : GmmSettings ℝ) (hS : S.Valid) (hm : S.em.minIter ≤ S.em.maxIter) (h2 : S.em.maxIter ≤ 2)
    (D : Dens ℝ) (hD : D.Sound) (log : ℝ → ℝ) (lowest pct : ℝ) (M : GmmModel ℝ) (hidle : M.training = false) (hbi : M.bimodal = f.bimodal)
    (hmode : f.bimodal = true → ∀ l, S.mode l = M.mode) :
    ∃ M1 M', recordAndTrainSequential S D log (Compare.exact lowest pct) (fun _ _ => false) f i ops w0 M = .ret () M1 ∧ reset M1 = .ret () M' ∧
      recordAndTrain S D log Real.sqrt (Compare.exact lowest pct) (fun _ _ => false) f i ops w0 M = .ret () M' ∧ M'.Usable ∧
      ∀ l, l ∈ SMap.keys M'.models ↔ ∃ e ∈ (Takes.run f ops []).1, e.2.1 = l := by
  obtain ⟨M1, a1, -, -, a4⟩ := C107_gmm_train f hv i w0 h0 ops ha hne hfill S hS D hD log lowest pct (fun _ _ => false) M hbi
  obtain ⟨M', b1, b2, b3, -⟩ := C103_train f hv i w0 h0 ops ha hne hfill S hS D hD log lowest pct (fun _ _ => false) M hidle hbi hmode
  have hd := fun l hl => short_done f hv i w0 h0 ops ha hfill S hS hm h2 D hD log lowest pct (fun _ _ => false) l hl fun _ => rfl
  refine ⟨M1, M', a1, (a4 fun e he => hd _ ⟨e, he, rfl⟩).symm.trans b1, b1, b2, fun l => ⟨b3.known l, fun hl => ?_⟩⟩
  obtain ⟨tr, m, c1, -, c2⟩ := b3.each l hl
  obtain ⟨m1, tr1, d1, d2⟩ := hd l hl
  rw [c1] at d1
  injection d1 with d1 _
  subst d1
  rcases c2 with ⟨-, m', h, -⟩ | ⟨-, ⟨h, -⟩ | ⟨h, -⟩⟩
  · exact List.mem_map.2 ⟨_, h, rfl⟩
  · rw [d2] at h; cases h
  · rw [d2] at h; cases h

end GmmModel

namespace HierHmm

/-- the number of iterations is fixed, and it is 1 or 2 -/
theorem short_done (f : Format) (hv : f.Valid) (i : Nat) (w0 : World ℝ String) (h0 : w0.sets i = none) (ops : List (RecOp ℝ String)) (ha : Takes.Admissible f ops [])
    (M : HierHmm ℝ) (P : EmParams) (hS : M.Settings P) (hm : P.minIter ≤ P.maxIter) (h2 : P.maxIter ≤ 2) (hlong : Takes.LongEnough (Takes.run f ops []).1 fun l => (M.conf l).n)
    (z : ℝ) (D : Dens ℝ) (hD : D.Sound) (log : ℝ → ℝ) (hlog : ∀ x y, 0 < x → 0 < y → log (x * y) = log x + log y) (lowest pct : ℝ)
    (cancel : String → Nat → Bool) (l : String) (hl : ∃ e ∈ (Takes.run f ops []).1, e.2.1 = l) (hc : ∀ k, cancel l k = false) :
    ∃ m, Done z D log (Compare.exact lowest pct) P cancel f (Takes.run f ops []).1 M.conf M.window l m := by
  obtain ⟨w, t, h1, -⟩ := recordThen_sim f hv i w0 h0 ops ha
  obtain ⟨e, he, rfl⟩ := hl
  obtain ⟨⟨e', he', k1, k2⟩, k3⟩ := hlong e he
  set l := e.2.1 with hle
  have hmem : e'.2.2.frames ∈ (Takes.data f (Takes.run f ops []).1 l).phrases := by
    simp only [Takes.data, Takes.frames, List.mem_map]
    exact ⟨e', by simp [Takes.ofClass, he', k1], rfl⟩
  have hn := hS.states l
  have hne : (Takes.data f (Takes.run f ops []).1 l).frames ≠ [] := by
    intro h0
    simp only [KData.frames, List.flatten_eq_nil_iff] at h0
    have := h0 _ hmem
    rw [this] at k2
    simp only [List.length_nil] at k2
    omega
  obtain ⟨tr, m, e1, e2, -⟩ := Hmm.C83_short_training D hD log hlog (Hmm.fresh f M.window (M.conf l) z) (Hmm.fresh_admissible hv hn (hS.gaussians l) z)
    (hS.leftRight l) hS.window (Takes.data f (Takes.run f ops []).1 l) ⟨rfl, h1.frame_length hv l, hne⟩ ⟨_, hmem, k2⟩ k3 (hS.absReg l) KData.deviation (fun d => by simp [KData.deviation])
    lowest pct P hS.minIter hm h2 (cancel l)
  refine ⟨m, tr, e1, ?_⟩
  rcases e2 with h | ⟨-, k, hk⟩
  · exact h
  · rw [hc k] at hk; cases hk

/-- C107, hierarchical HMMs, one or two iterations: if the number of iterations is fixed, 1 or 2, and nothing is cancelled, then every class of the takes is trained: the classes are exactly the
    labels of the takes, and training in the mode Sequential followed by `reset()` gives the model of the mode Parallel, which can recognise. -/
theorem C107_hmm_short_train (f : Format) (hv : f.Valid) (i : Nat) (w0 : World ℝ String) (h0 : w0.sets i = none) (ops : List (RecOp ℝ String)) (ha : Takes.Admissible f ops [])
    (hne : (Takes.run f ops []).1 ≠ []) (M : HierHmm ℝ) (hidle : M.training = false) (P : EmParams) (hS : M.Settings P) (hm : P.minIter ≤ P.maxIter) (h2 : P.maxIter ≤ 2) (hh : M.hier = true)
    (hlong : Takes.LongEnough (Takes.run f ops []).1 fun l => (M.conf l).n) (hbi : M.bimodal = f.bimodal) (hdi : M.bimodal = false → M.di = 0)
    (hmode : M.bimodal = true → ∀ l, (M.conf l).mode = M.mode) (z : ℝ) (D : Dens ℝ) (hD : D.Sound) (log : ℝ → ℝ)
    (hlog : ∀ x y, 0 < x → 0 < y → log (x * y) = log x + log y) (lowest pct : ℝ) :
    ∃ M1 M', recordAndTrainHmmSequential z D log (Compare.exact lowest pct) P (fun _ _ => false) f i ops w0 M = .ret () M1 ∧ reset M1 = .ret () M' ∧
      recordAndTrainHmm z D log (Compare.exact lowest pct) P (fun _ _ => false) f i ops w0 M = .ret () M' ∧ M'.Usable ∧
      ∀ l, l ∈ SMap.keys M'.models ↔ ∃ e ∈ (Takes.run f ops []).1, e.2.1 = l := by
  obtain ⟨M1, a1, -, -, a4⟩ := C107_hmm_train f hv i w0 h0 ops ha hne M hidle P hS hlong hbi hdi z D hD log hlog lowest pct (fun _ _ => false)
  obtain ⟨M', b1, b2, -, b3, -⟩ := C105_train f hv i w0 h0 ops ha hne M hidle P hS hh hlong hbi hdi hmode z D hD log hlog lowest pct (fun _ _ => false)
  have hd := fun l hl => short_done f hv i w0 h0 ops ha M P hS hm h2 hlong z D hD log hlog lowest pct (fun _ _ => false) l hl fun _ => rfl
  refine ⟨M1, M', a1, (a4 fun e he => hd _ ⟨e, he, rfl⟩).2.symm.trans b1, b1, b2, fun l => ⟨b3.known l, fun hl => ?_⟩⟩
  obtain ⟨tr, m, c1, -, c2⟩ := b3.each l hl
  obtain ⟨m1, tr1, d1, d2⟩ := hd l hl
  rw [c1] at d1
  injection d1 with d1 _
  subst d1
  rcases c2 with ⟨-, m', h, -⟩ | ⟨-, ⟨h, -⟩ | ⟨h, -⟩⟩
  · exact List.mem_map.2 ⟨_, h, rfl⟩
  · rw [d2] at h; cases h
  · rw [d2] at h; cases h

/-- the hypotheses of `C107_hmm_short_train` are met, with the exact densities: the session of `sequential_example`, with one or two iterations -/
theorem short_example : stackedModel.training = false ∧ stackedModel.hier = true ∧ stackedModel.Settings ⟨1, 2⟩ ∧ sessionFormat.Valid ∧ Takes.Admissible sessionFormat frameSession [] ∧
    (Takes.run sessionFormat frameSession []).1 ≠ [] ∧ (Takes.LongEnough (Takes.run sessionFormat frameSession []).1 fun l => (stackedModel.conf l).n) ∧
    stackedModel.bimodal = sessionFormat.bimodal ∧ (stackedModel.bimodal = true → ∀ l, (stackedModel.conf l).mode = stackedModel.mode) ∧ stackedModel.bimodal = true ∧ Dens.real.Sound := by
  obtain ⟨a1, a2, a3, a4, a5, a6, a7, a8, -, -, a10⟩ := sequential_example
  refine ⟨a1, a2, ⟨a3.window, le_rfl, a3.states, a3.gaussians, a3.absReg, a3.leftRight⟩, a4, a5, ?_, a6, a7, a8, rfl, Dens.real_sound⟩
  obtain ⟨e, he, -⟩ := a10 0 0 0
  exact List.ne_nil_of_mem he

end HierHmm

/-- the hypotheses of `GmmModel.C107_gmm_short_train` are met, with the exact densities: the session of `GmmModel.sequential_example`, with one iteration -/
theorem GmmModel.short_example : sessionFormat.Valid ∧ Takes.Admissible sessionFormat sessionA [] ∧ (Takes.run sessionFormat sessionA []).1 ≠ [] ∧
    Takes.Filled (Takes.run sessionFormat sessionA []).1 ∧ GmmSettings.Valid { sessionSettings with em := ⟨1, 1⟩ } ∧ Dens.real.Sound ∧
    GmmModel.sessionModel.bimodal = sessionFormat.bimodal ∧ GmmModel.sessionModel.training = false ∧ ∀ l, sessionSettings.mode l = GmmModel.sessionModel.mode := by
  obtain ⟨a1, a2, a3, a4, a5, -, a6, a7, a8, -⟩ := GmmModel.sequential_example
  exact ⟨a1, a2, a3, a4, ⟨a5.window, le_rfl, a5.gaussians, a5.absReg⟩, Dens.real_sound, a6, a7, a8⟩

end Xmm
