import Verif.Props.HierStream
import Verif.Props.HmmResults
import Verif.Spec.FlatHmm
set_option linter.unusedSimpArgs false
set_option linter.unusedSectionVars false
/- C85: a model that is not hierarchical filters each class on its own. -/
namespace Xmm
open Phrase (loop)
open Gauss (rd rd_lt resize)
open Prog (bind_def pure_def get_def set_def modify_def throw_def undef_def)
namespace Hmm
variable {K : Type} [Field K] [LinearOrder K] [IsStrictOrderedRing K]
open HmmSpec GmmSpec RecSpec HierSpec

/-- the class with another buffer, and with the variables of `m0` that it does not use -/
def solo (m0 : Hmm K) (bf : CBuf K 1) (m : Hmm K) : Hmm K :=
  { m with buf := bf, alpha0 := m0.alpha0, alpha1 := m0.alpha1, alpha2 := m0.alpha2, beta := m0.beta, prevBeta := m0.prevBeta }

theorem occ_solo (m0 : Hmm K) (bf : CBuf K 1) {m : Hmm K} (h : m.hier = false) (i : Nat) : occ (solo m0 bf m) i = occ m i := by
  simp [occ, solo, h]

theorem solo_same (m0 : Hmm K) {bf bf' : CBuf K 1} {m m' : Hmm K} (h : m.SameModel m') : (solo m0 bf m).SameModel (solo m0 bf' m') := by
  refine ⟨?_, h.2⟩
  unfold solo
  rw [h.1]

theorem solo_can {m0 : Hmm K} {bf : CBuf K 1} {m : Hmm K} (h : (solo m0 bf m).CanFilter) : m.CanFilter :=
  ⟨⟨h.wf.pos, h.wf.sts, h.wf.prior, h.wf.trans, h.wf.state⟩,
    ⟨h.chain.start_nonneg, h.chain.start_sum, h.chain.step_nonneg, h.chain.step_sum⟩, h.idle, h.window, h.state⟩

theorem solo_filtered (m0 : Hmm K) {bf bf' : CBuf K 1} {m m' : Hmm K} {log : K → K} {hist : List K} {b : Nat → K} {v c : Nat → List K}
    (hh : m.hier = false) (h : m.Filtered log hist b v c m') : (solo m0 bf m).Filtered log hist b v c (solo m0 bf' m') := by
  have hh' : m'.hier = false := h.same.facts.2.2.2.2.2.1.trans hh
  have ho := occ_solo m0 bf' hh'
  have how : ∀ i, outWeight (solo m0 bf' m') i = outWeight m' i := fun i => by
    unfold outWeight; rw [ho]; rfl
  have hcw : ∀ i, covWeight (solo m0 bf' m') i = covWeight m' i := fun i => by
    unfold covWeight; rw [ho]; rfl
  refine ⟨solo_same m0 h.same, h.started, h.alpha, h.instant, h.logLik, ⟨⟨h.windowed.likeliest.1, fun j hj => ?_, fun j hj => ?_⟩,
    h.windowed.lo, h.windowed.hi, ?_⟩, ?_, h.unimodal, fun hb => ?_, fun hb => ?_⟩
  · rw [ho, ho]; exact h.windowed.likeliest.2.1 j hj
  · rw [ho, ho]; exact h.windowed.likeliest.2.2 j hj
  · rw [Finset.sum_congr rfl fun i _ => ho i]; exact h.windowed.norm
  · refine h.progress.trans ?_
    show _ = (∑ i ∈ Finset.Ico m'.winMin m'.winMax, occ (solo m0 bf' m') i * (i : K) / m'.winNorm) / _
    simp only [ho]
    rfl
  · refine (h.outVals hb).trans ?_
    refine List.map_congr_left fun k _ => Finset.sum_congr rfl fun i _ => by rw [how]
  · refine (h.outCov hb).trans ?_
    refine List.map_congr_left fun k _ => Finset.sum_congr rfl fun i _ => by rw [hcw]

/-- the results of a class that is not in a hierarchy, without its outputs -/
theorem progress_flat (log : K → K) (m : Hmm K) (hm : m.CanFilter) (hh : m.hier = false) (hs : m.Sized) (hist : List K)
    (hl : Logs m.buf m.window hist) :
    ∃ m', HierHmm.progressClass log m = .ret () m' ∧
      m' = { m with winMin := m'.winMin, winMax := m'.winMax, winNorm := m'.winNorm, buf := m'.buf, logLik := m'.logLik,
                    progress := m'.progress, likeliest := m'.likeliest } ∧
      m'.logLik = avgLast m.window (hist ++ [log m.instant]) ∧ Windowed m' ∧
      (m'.progress = (∑ i ∈ Finset.Ico m'.winMin m'.winMax, occ m' i * (i : K) / m'.winNorm) /
        (if m.n - 1 = 0 then 1 else ((m.n - 1 : Nat) : K))) ∧ Logs m'.buf m.window (hist ++ [log m.instant]) := by
  obtain ⟨i, f1, f2⟩ := updateAlphaWindow_ret m hs hm.wf.pos hm.idle
  unfold HierHmm.progressClass
  rw [bind_of_ret f1]
  generalize hm2 : ({ m with
      likeliest := i
      winMin := i - m.n / 2
      winMax := min (i + m.n / 2) m.n
      winNorm := ∑ j ∈ Finset.Ico (i - m.n / 2) (min (i + m.n / 2) m.n), occ m j } : Hmm K) = m2
  have hs2 : m2.Sized := by subst hm2; exact hs
  have hh2 : m2.hier = false := by subst hm2; exact hh
  obtain ⟨bf, g1, g2⟩ := updateResults_ret log m2 (occ m2) (fun b i hi t =>
    progressWeight_flat ({ m2 with buf := b } : Hmm K) hs2 hh2 i hi t) (by subst hm2; exact min_le_right _ _) hist
    (win := m.window) (by subst hm2; exact hl)
  refine ⟨_, g1, ?_⟩
  subst hm2
  exact ⟨rfl, rfl, ⟨f2, rfl, rfl, rfl⟩, rfl, g2⟩

/-- a class that filters, reports a second time and predicts its output a second time -/
theorem again_ret (D : Dens K) (log : K → K) (m m1 : Hmm K) (hm : m.CanFilter) (hh : m.hier = false) (x : List K) (hx : m.Fits x)
    (b : Nat → K) (v c : Nat → List K) (hv : m.bimodal = true → Predicts D m x v c) (hist : List K) (hf : m.Filtered log hist b v c m1)
    (hl : Logs m1.buf m.window (hist ++ [log (evidence m b)])) :
    ∃ m2 m3, HierHmm.progressClass log m1 = .ret () m2 ∧ (m.bimodal = true → Hmm.regression D log x m2 = .ret () m3) ∧
      (m.bimodal = false → m3 = m2) ∧ m2.instant = m3.instant ∧ m2.logLik = m3.logLik ∧
      m.Filtered log (hist ++ [log (evidence m b)]) b v c m3 ∧
      Logs m3.buf m.window (hist ++ [log (evidence m b), log (evidence m b)]) := by
  have hs1 := hf.same
  obtain ⟨e1, _, _, _, e5, e6, e7, _, e9, e10, e11, e12⟩ := hs1.facts
  have hc1 := hs1.canFilter hm
  have hz1 : m1.Sized := by unfold Sized; rw [if_neg (by rw [e6, hh]; simp), hf.alpha, e1]; simp
  obtain ⟨m2, g1, g2, g3, g4, g5, g6⟩ := progress_flat log m1 hc1 (e6.trans hh) hz1 _ (by rw [e5]; exact hl)
  rw [hf.instant, e5, List.append_assoc] at g3 g6
  rw [e1] at g5
  have hs12 : m1.SameModel m2 := ⟨by rw [g2], by rw [g2]; exact SameStates.refl _ hc1.state⟩
  have hs2 := hs1.trans hs12
  have hst : m2.started = true ∧ m2.alpha = m1.alpha ∧ m2.instant = m1.instant ∧ m2.outVals = m1.outVals ∧ m2.outCov = m1.outCov := by
    rw [g2]; exact ⟨hf.started, rfl, rfl, rfl, rfl⟩
  obtain ⟨t1, t2, t3, t4, t5⟩ := hst
  rcases bool_cases m.bimodal with hb | hb
  · refine ⟨m2, m2, g1, fun h => absurd (hb.symm.trans h) (by simp), fun _ => rfl, rfl, rfl, ?_, g6⟩
    exact ⟨hs2, t1, t2.trans hf.alpha, t3.trans hf.instant, by rw [g3]; simp, g4, g5,
      fun h => ⟨t4.trans (hf.unimodal h).1, t5.trans (hf.unimodal h).2⟩, fun h => absurd (hb.symm.trans h) (by simp),
      fun h => absurd (hb.symm.trans h) (by simp)⟩
  · obtain ⟨q1, _, _, _, q5, q6, q7, _, q9, q10, q11, q12⟩ := hs2.facts
    have hz2 : m2.Sized := by unfold Sized; rw [if_neg (by rw [q6, hh]; simp), t2, hf.alpha, q1]; simp
    have hx2 : m2.di ≤ x.length := by
      have := hs2.fits hx
      unfold Fits at this
      rwa [if_pos (q7.trans hb)] at this
    obtain ⟨l, r1, r2⟩ := regression_ret D log m2 (hs2.canFilter hm) (q7.trans hb) hz2 (by rw [g4.hi]; exact min_le_right _ _)
      g4.likeliest.1 x hx2 v c (hs2.predicts (hv hb))
    refine ⟨m2, _, g1, fun _ => r1, fun h => absurd (hb.symm.trans h) (by simp), rfl, rfl, ?_, g6⟩
    generalize hm3 : ({ m2 with
        sts := l
        outVals := (List.range (m2.dim - m2.di)).map fun k => ∑ i ∈ Finset.range m2.n, outWeight m2 i * (v i).getD k 0
        outCov := (List.range (outCells m2.mode (m2.dim - m2.di))).map fun k =>
          ∑ i ∈ Finset.range m2.n, covWeight m2 i * (c i).getD k 0 } : Hmm K) = m3
    have hs23 : m2.SameModel m3 := by subst hm3; exact ⟨rfl, r2⟩
    refine ⟨hs2.trans hs23, ?_, ?_, ?_, ?_, ?_, ?_, fun h => absurd (hb.symm.trans h) (by simp), fun _ => ?_, fun _ => ?_⟩
    · subst hm3; exact t1
    · subst hm3; exact t2.trans hf.alpha
    · subst hm3; exact t3.trans hf.instant
    · subst hm3; rw [show m2.logLik = _ from g3]; simp
    · subst hm3; exact ⟨g4.likeliest, g4.lo, g4.hi, g4.norm⟩
    · subst hm3; exact g5
    · rw [← q9, ← q10, ← q1]; subst hm3; rfl
    · rw [← q9, ← q10, ← q1, ← q11]; subst hm3; rfl

/-- The state of a class of a model that is not hierarchical, after observations with the likelihoods `bs` for which `ps` was reported; `m0`
    is the class alone after `reset()`. -/
def Follows (m0 : Hmm K) (log : K → K) (bs : List (Nat → K)) (ps : List K) (m : Hmm K) : Prop :=
  (∃ bf, Heard m0 log bs ps (solo m0 bf m)) ∧ Logs m.buf m0.window (twice (ps.map log))

theorem twice_append (l l' : List K) : twice (l ++ l') = twice l ++ twice l' := by simp [twice]

/-- one observation for one class, in the model and alone -/
theorem follows_step (D : Dens K) (log : K → K) {m0 m s : Hmm K} {bs : List (Nat → K)} {ps : List K} (hm : m0.CanFilter)
    (hh : m0.hier = false) (hd : Follows m0 log bs ps m) (hd' : Heard m0 log bs ps s) (x : List K) (hx : m0.Fits x) (b : Nat → K)
    (hb : Emits D m0 x b) (hbp : ∀ i < m0.n, 1 / 10 ^ 180 ≤ b i) (v c : Nat → List K) (hv : m0.bimodal = true → Predicts D m0 x v c) :
    ∃ m1 m2 m3 s' p, Hmm.filter D log x m = .ret p m1 ∧ HierHmm.progressClass log m1 = .ret () m2 ∧
      (m.bimodal = true → Hmm.regression D log x m2 = .ret () m3) ∧ (m.bimodal = false → m3 = m2) ∧
      Hmm.filter D log x s = .ret p s' ∧ m3.instant = p ∧ m2.instant = p ∧ m2.logLik = m3.logLik ∧ 0 < p ∧
      m3.logLik = avgLast m0.window (twice ((ps ++ [p]).map log)) ∧ SameFrame s' m3 ∧ m.SameModel m3 ∧
      (m.bimodal = true → m3.outVals.length = m.dim - m.di ∧ m3.outCov.length = outCells m.mode (m.dim - m.di)) ∧
      Follows m0 log (bs ++ [b]) (ps ++ [p]) m3 ∧ Heard m0 log (bs ++ [b]) (ps ++ [p]) s' := by
  obtain ⟨⟨bf, hd⟩, hl⟩ := hd
  obtain ⟨s', k1, k2, k3⟩ := heard_step D log hm hh hd' x hx b hb hbp v c hv
  obtain ⟨e1, e2, e3, e4, e5, e6, e7, _⟩ := hd.same.facts
  have hmc : m.CanFilter := solo_can (hd.same.canFilter hm)
  obtain ⟨hwn, hge⟩ := norm_ge hm hd b hbp
  have hev : evidence m b = evidence (solo m0 bf m) b := rfl
  have hpos : 0 < evidence m b := lt_of_lt_of_le (by positivity) hge
  have h300 : 1 / 10 ^ 300 < evidence m b := by
    refine lt_of_lt_of_le ?_ hge
    apply one_div_lt_one_div_of_lt (by positivity)
    calc (20 : K) * 10 ^ 180 < 10 ^ 2 * 10 ^ 180 := by
            apply mul_lt_mul_of_pos_right _ (by positivity); norm_num
      _ = 10 ^ 182 := by rw [← pow_add]
      _ ≤ 10 ^ 300 := pow_le_pow_right₀ (by norm_num) (by norm_num)
  have hfx : m.Fits x := hd.same.fits hx
  have hvm : m.bimodal = true → Predicts D m x v c := fun h => hd.same.predicts (hv (e7 ▸ h))
  have hwin : m.window = m0.window := e5
  have hhm : m.hier = false := e6.trans hh
  obtain ⟨m1, r1, r2, r3⟩ := filter_ret D log m hmc hhm x hfx b (hd.same.emits hb)
    (fun h => (hd.alen h).trans e1.symm) h300 v c hvm _ (by rw [hwin]; exact hl) (by
      intro hs
      have := hd.started
      rw [show (solo m0 bf m).started = m.started from rfl, hs] at this
      have hb0 : bs = [] := by cases bs with
        | nil => rfl
        | cons _ _ => simp at this
      have := hd.len
      rw [hb0] at this
      rw [List.length_eq_zero_iff.1 this]; rfl)
  obtain ⟨m2, m3, q1, q2, q3, q4, q5, q6, q7⟩ := again_ret D log m m1 hmc hhm x hfx b v c hvm _ r2 r3
  obtain ⟨bf', w1, w2⟩ := smooth_ret hd.logs (log (evidence m b))
  have hsf := solo_filtered m0 (bf := bf) (bf' := bf') hhm q6
  have hnext := heard_next log hm hd b hbp v c hsf w2
  have hdet := (heard_det hd' hd b).2
  rw [hdet] at k1 k3
  have hframe := filtered_frame hd' hd k2 hsf hh
  refine ⟨m1, m2, m3, s', evidence m b, r1, q1, q2, q3, k1, q6.instant, q4.trans q6.instant, q5, hpos, ?_, ?_, q6.same, fun hbm => ?_,
    ⟨⟨bf', hnext⟩, ?_⟩, k3⟩
  · rw [q6.logLik, hwin, List.map_append, twice_append]
    simp [twice]
  · exact ⟨hframe.instant, hframe.progress, hframe.likeliest, hframe.alpha, hframe.output⟩
  · rw [q6.outVals hbm, q6.outCov hbm]; simp
  · rw [List.map_append, twice_append]
    rw [hwin] at q7
    simpa [twice] using q7

end Hmm

namespace HierHmm
variable {K : Type} [Field K] [LinearOrder K] [IsStrictOrderedRing K]
open HierSpec Hmm HmmSpec RecSpec

/-- the loop of `filter` over the classes, in the mode without hierarchy -/
theorem filterClasses_ret (D : Dens K) (log : K → K) (x : List K) (M : HierHmm K) (hs : M.results.inst.length = M.models.length)
    (f : Nat → Hmm K)
    (hc : ∀ (i : Nat) (a : String × Hmm K), M.models[i]? = some a → ∃ p, Hmm.filter D log x a.2 = .ret p (f i)) :
    ∃ v, loop M.models.length () (fun _ i => filterClass D log x i) M =
      .ret () { M with models := M.models.mapIdx fun i (a : String × Hmm K) => (a.1, f i), results := { M.results with inst := v } } ∧
      v.length = M.models.length := by
  have key : ∃ u s, loop M.models.length () (fun _ i => filterClass D log x i) M = .ret u s ∧
      (∃ l v, s = { M with models := l, results := { M.results with inst := v } } ∧ l.length = M.models.length ∧
        v.length = M.models.length ∧
        (∀ (i : Nat) (a : String × Hmm K), i < M.models.length → M.models[i]? = some a → l[i]? = some (a.1, f i)) ∧
        ∀ i, M.models.length ≤ i → l[i]? = M.models[i]?) := by
    refine loop_state M.models.length () _ M (fun t _ s => ∃ l v,
        s = { M with models := l, results := { M.results with inst := v } } ∧ l.length = M.models.length ∧
        v.length = M.models.length ∧
        (∀ (i : Nat) (a : String × Hmm K), i < t → M.models[i]? = some a → l[i]? = some (a.1, f i)) ∧
        ∀ i, t ≤ i → l[i]? = M.models[i]?)
      ⟨M.models, M.results.inst, rfl, rfl, hs, fun i a hi => by omega, fun _ _ => rfl⟩ ?_
    rintro t ht _ s ⟨l, v, rfl, h1, h2, h3, h4⟩
    have hg : M.models[t]? = some M.models[t] := List.getElem?_eq_getElem ht
    obtain ⟨p, hp⟩ := hc t M.models[t] hg
    have hlt : l[t]? = some M.models[t] := by rw [h4 t le_rfl]; exact hg
    refine ⟨(), { M with models := l.set t (M.models[t].1, f t), results := { M.results with inst := v.set t p } }, ?_,
      l.set t (M.models[t].1, f t), v.set t p, rfl, by simpa using h1, by simpa using h2, ?_, ?_⟩
    · unfold filterClass
      simp only [bind_def, onClass, hlt, hp, get_def, MultiRes.wr]
      rw [if_pos (by omega)]
      simp only [pure_def, set_def]
    · intro i a hi ha
      by_cases hit : i = t
      · subst hit
        rw [hg] at ha; cases ha
        rw [List.getElem?_set_self (by omega)]
      · rw [List.getElem?_set_ne (Ne.symm hit)]
        exact h3 i a (by omega) ha
    · intro i hi
      rw [List.getElem?_set_ne (by omega)]
      exact h4 i (by omega)
  obtain ⟨u, s, k1, l, v, rfl, k2, k3, k4, k5⟩ := key
  refine ⟨v, ?_, k3⟩
  rw [k1]
  have : l = M.models.mapIdx fun i (a : String × Hmm K) => (a.1, f i) := by
    refine List.ext_getElem? fun i => ?_
    rw [List.getElem?_mapIdx]
    by_cases hi : i < M.models.length
    · obtain ⟨a, ha⟩ := get_class hi
      rw [k4 i a hi ha, ha]; rfl
    · rw [List.getElem?_eq_none (by omega), List.getElem?_eq_none (by omega)]; rfl
  rw [this]

/-- a loop over the classes whose outcome is known -/
theorem eachClass_to (M : HierHmm K) (g : Prog (Hmm K) Unit) (f : Nat → Hmm K)
    (h : ∀ (i : Nat) (a : String × Hmm K), M.models[i]? = some a → g a.2 = .ret () (f i)) :
    loop M.models.length () (fun _ i => onClass i g) M = .ret () { M with models := M.models.mapIdx fun i (a : String × Hmm K) => (a.1, f i) } := by
  obtain ⟨l, h1, h2, h3⟩ := eachClass_rel M (fun _ => g) (fun i _ m' => m' = f i) (fun i a ha => ⟨f i, h i a ha, rfl⟩)
  rw [h1]
  have : l = M.models.mapIdx fun i (a : String × Hmm K) => (a.1, f i) := by
    refine List.ext_getElem? fun i => ?_
    rw [List.getElem?_mapIdx]
    by_cases hi : i < M.models.length
    · obtain ⟨a, ha⟩ := get_class hi
      obtain ⟨m', e1, e2⟩ := h3 i a ha
      rw [e1, ha, e2]; rfl
    · rw [List.getElem?_eq_none (by omega), List.getElem?_eq_none (by omega)]; rfl
  rw [this]

/-- a model without hierarchy that is filtering -/
structure FlatRun (M : HierHmm K) : Prop where
  idle : M.training = false
  flat : M.hier = false
  nulls : M.nulls = []
  sorted : SMap.Sorted M.models
  sized : M.results.Sized M.models.length
  cls : ∀ lc ∈ M.models, lc.2.bimodal = M.bimodal ∧ lc.2.dim - lc.2.di = M.dim - M.di
  mode : M.bimodal = true → ∀ lc ∈ M.models, lc.2.mode = M.mode

/-- the outputs of a model, given those of its classes -/
theorem outputs_ret (M : HierHmm K) (exp : K → K) (hs : M.results.Summary exp M.classes) (hne : M.models ≠ [])
    (hv : ∀ lc ∈ M.models, lc.2.outVals.length = M.dim - M.di ∧ lc.2.outCov.length = outCells M.mode (M.dim - M.di)) :
    ∃ y z, outputs M = .ret () { M with results := { M.results with outVals := y, outCov := z } } ∧
      OutputsOf { M with results := { M.results with outVals := y, outCov := z } } := by
  unfold HierHmm.outputs HierHmm.OutputsOf
  simp only
  have hclne : M.classes ≠ [] := by simpa [classes] using hne
  have hest : M.est = .likeliest ∨ M.est = .mixture := by cases M.est <;> simp
  rcases hest with hE | hE
  · simp only [hE]
    obtain ⟨before, c, after, e1, e2, _⟩ := hs.likeliest hclne
    have hmem : (M.results.likeliest, c.2) ∈ M.classes := by rw [e1, e2]; simp
    obtain ⟨b', hb1, hb2⟩ := List.mem_map.1 hmem
    simp only [Prod.mk.injEq] at hb2
    obtain ⟨c', hc'⟩ := SMap.find?_of_mem (k := M.results.likeliest) (v := b'.2) (m := M.models) (by rw [← hb2.1]; exact hb1)
    refine ⟨c'.outVals, c'.outCov, ?_, c', SMap.mem_of_find? hc', rfl, rfl⟩
    simp only [likeliestOutputs, bind_def, likeliestResults, hc', modify_def, Hmm.results, hE]
  · simp only [hE]
    have hm2 := MultiRes.mixOutputs_ret (M.dim - M.di) M.mode M.classes M.results (by
        simp [classes, hs.smoothedNorm]) (fun c hc => by
          obtain ⟨b', hb1, rfl⟩ := List.mem_map.1 hc
          exact (hv b' hb1).1) (fun c hc => by
          obtain ⟨b', hb1, rfl⟩ := List.mem_map.1 hc
          exact (hv b' hb1).2)
    have hcll : M.classes.length = M.models.length := by simp [classes]
    rw [hcll] at hm2
    refine ⟨(List.range (M.dim - M.di)).map fun k => ∑ i ∈ Finset.range M.models.length, M.results.smoothedNorm.getD i 0 *
        RecSpec.outVal M.classes i k,
      (List.range (outCells M.mode (M.dim - M.di))).map fun k => ∑ i ∈ Finset.range M.models.length, M.results.smoothedNorm.getD i 0 *
        RecSpec.outVar M.classes i k, ?_, rfl, rfl⟩
    rw [onResults_ret hm2, hE]

/-- one call of `filter` in the mode without hierarchy; class number `c` is `f1 c` after `filter`, `f2 c` after its results have been
    computed again and `f3 c` after its output has been computed again -/
theorem filter_flat (D : Dens K) (log exp : K → K) (hexp : ∀ x, 0 < exp x) (M : HierHmm K) (hr : M.FlatRun) (hne : M.models ≠ []) (x : List K)
    (f1 f2 f3 : Nat → Hmm K) (p : Nat → K)
    (hc : ∀ (i : Nat) (a : String × Hmm K), M.models[i]? = some a →
      Hmm.filter D log x a.2 = .ret (p i) (f1 i) ∧ progressClass log (f1 i) = .ret () (f2 i) ∧
      (a.2.bimodal = true → Hmm.regression D log x (f2 i) = .ret () (f3 i)) ∧ (a.2.bimodal = false → f3 i = f2 i) ∧
      (f3 i).instant = p i ∧ (f2 i).instant = p i ∧ (f2 i).logLik = (f3 i).logLik ∧ 0 < p i ∧ a.2.SameModel (f3 i) ∧
      (a.2.bimodal = true → (f3 i).outVals.length = a.2.dim - a.2.di ∧ (f3 i).outCov.length = outCells a.2.mode (a.2.dim - a.2.di))) :
    ∃ M', filter D log exp x M = .ret () M' ∧ M'.FlatRun ∧ M'.models = M.models.mapIdx (fun i (a : String × Hmm K) => (a.1, f3 i)) ∧
      M' = { M with models := M'.models, results := M'.results } ∧
      M'.results.Summary exp M'.classes ∧ IsDistribution M'.results.instNorm ∧ IsDistribution M'.results.smoothedNorm ∧
      (M.bimodal = true → M'.OutputsOf) ∧ ∀ c < M.models.length, M'.results.inst.getD c 0 = p c := by
  obtain ⟨v, h1, h2⟩ := filterClasses_ret D log x M hr.sized.inst f1 fun i a ha => ⟨_, (hc i a ha).1⟩
  generalize hM1 : ({ M with models := M.models.mapIdx fun i (a : String × Hmm K) => (a.1, f1 i), results := { M.results with inst := v } } : HierHmm K) = M1 at h1
  have hl1 : M1.models.length = M.models.length := by subst hM1; simp
  have hget : ∀ (f : Nat → Hmm K) (i : Nat) (a : String × Hmm K), (M.models.mapIdx fun i (a : String × Hmm K) => (a.1, f i))[i]? = some a →
      ∃ a0, M.models[i]? = some a0 ∧ a = (a0.1, f i) := by
    intro f i a ha
    rw [List.getElem?_mapIdx] at ha
    obtain ⟨a0, e1, e2⟩ := Option.map_eq_some_iff.1 ha
    exact ⟨a0, e1, e2.symm⟩
  have h3 := eachClass_to M1 (progressClass log) f2 (fun i a ha => by
    subst hM1
    obtain ⟨a0, e1, rfl⟩ := hget f1 i a ha
    exact (hc i a0 e1).2.1)
  have hmm : ∀ (f g : Nat → Hmm K), (M.models.mapIdx fun i (a : String × Hmm K) => (a.1, f i)).mapIdx (fun i (a : String × Hmm K) => (a.1, g i)) =
      M.models.mapIdx fun i (a : String × Hmm K) => (a.1, g i) := by
    intro f g; rw [List.mapIdx_mapIdx]; rfl
  have hrun1 : filter D log exp x M = (do
      let M ← Prog.get
      onResults (MultiRes.updateResults exp M.classes)
      regress D log x) { M with models := M.models.mapIdx fun i (a : String × Hmm K) => (a.1, f2 i), results := { M.results with inst := v } } := by
    unfold filter
    rw [bind_of_ret (checkTraining_idle hr.idle), bind_of_ret (get_def M), if_neg (by simp [hr.nulls])]
    have hf : forward D log x M = .ret () M1 := by
      unfold forward
      rw [if_neg (by simp [hr.flat])]; exact h1
    rw [bind_of_ret hf, ← hl1, bind_of_ret h3]
    subst hM1
    simp only [hmm]
  generalize hM2 : ({ M with models := M.models.mapIdx fun i (a : String × Hmm K) => (a.1, f2 i), results := { M.results with inst := v } } : HierHmm K) = M2 at hrun1
  have hl2 : M2.models.length = M.models.length := by subst hM2; simp
  have hsz : M2.results.Sized M2.classes.length := by
    rw [show M2.classes.length = M.models.length by simp [classes, hl2]]
    subst hM2
    exact ⟨h2, hr.sized.instNorm, hr.sized.smoothed, hr.sized.smoothedNorm, hr.sized.smoothedLog⟩
  obtain ⟨r', g1, g2, g3, g4, _⟩ := MultiRes.updateResults_ret exp M2.classes M2.results hsz
  have hrun2 : filter D log exp x M = regress D log x { M2 with results := r' } := by
    rw [hrun1, bind_of_ret (get_def M2)]
    exact bind_of_ret (a := ()) (by simp only [onResults, g1])
  have hcl : ∀ M3 : HierHmm K, M3.models = M.models.mapIdx (fun i (a : String × Hmm K) => (a.1, f3 i)) →
      (M2.classes.map fun c => (c.1, c.2.instant, c.2.logLik)) = M3.classes.map fun c => (c.1, c.2.instant, c.2.logLik) := by
    intro M3 e3
    subst hM2
    unfold classes
    rw [e3, List.map_map, List.map_map]
    refine List.ext_getElem? fun i => ?_
    rw [List.getElem?_map, List.getElem?_map, List.getElem?_mapIdx, List.getElem?_mapIdx]
    cases ha : M.models[i]? with
    | none => rfl
    | some a =>
      obtain ⟨_, _, _, _, e5, e6, e7, _⟩ := hc i a ha
      simp [Hmm.results, e5, e6, e7]
  have hsum : ∀ (M3 : HierHmm K) y z, M3.models = M.models.mapIdx (fun i (a : String × Hmm K) => (a.1, f3 i)) →
      ({ r' with outVals := y, outCov := z } : MultiRes K).Summary exp M3.classes := by
    intro M3 y z e3
    have := summary_congr _ _ r' (hcl M3 e3) g2
    exact ⟨this.inst, this.smoothedLog, this.smoothed, this.instNorm, this.smoothedNorm, this.likeliest⟩
  have hfinal : ∀ y z, let M' : HierHmm K := { M with models := M.models.mapIdx (fun i (a : String × Hmm K) => (a.1, f3 i)), results := { r' with outVals := y, outCov := z } }
      (M.bimodal = true → M'.OutputsOf) → M'.FlatRun ∧ M'.results.Summary exp M'.classes ∧ IsDistribution M'.results.instNorm ∧
        IsDistribution M'.results.smoothedNorm ∧ ∀ c < M.models.length, M'.results.inst.getD c 0 = p c := by
    intro y z M' hO
    have hS : M'.results.Summary exp M'.classes := hsum M' y z rfl
    have hmem : ∀ b ∈ M'.models, ∃ (i : Nat) (a : String × Hmm K), M.models[i]? = some a ∧ b = (a.1, f3 i) := by
      intro b hb
      obtain ⟨i, hi, rfl⟩ := List.getElem_of_mem hb
      obtain ⟨a, e1, e2⟩ := hget f3 i _ (List.getElem?_eq_getElem hi)
      exact ⟨i, a, e1, e2⟩
    have hpos : ∀ c ∈ M'.classes, 0 < c.2.instant := by
      intro c hc'
      obtain ⟨b, hb, rfl⟩ := List.mem_map.1 hc'
      obtain ⟨i, a, e1, rfl⟩ := hmem b hb
      obtain ⟨_, _, _, _, e5, _, _, e8, _⟩ := hc i a e1
      show 0 < (f3 i).instant
      rw [e5]; exact e8
    have hclne : M'.classes ≠ [] := by simpa [classes, M'] using hne
    obtain ⟨d1, d2, d3, d4⟩ := C39_normalised exp hexp M'.classes hclne hpos _ hS
    have hlen : M'.classes.length = M'.models.length := by simp [classes]
    refine ⟨⟨hr.idle, hr.flat, hr.nulls, ?_, ⟨?_, ?_, ?_, ?_, ?_⟩, fun b hb => ?_, fun hbm b hb => ?_⟩, hS, d1, d2, fun c hc' => ?_⟩
    · have hs := hr.sorted
      unfold SMap.Sorted at hs ⊢
      have hkeys : M.models.map Prod.fst = M'.models.map Prod.fst := by
        refine List.ext_getElem? fun i => ?_
        rw [List.getElem?_map, List.getElem?_map, List.getElem?_mapIdx]
        cases M.models[i]? <;> rfl
      have : (M.models.map Prod.fst).Pairwise (· < ·) := by rw [List.pairwise_map]; exact hs
      rw [hkeys, List.pairwise_map] at this
      exact this
    · rw [hS.inst, List.length_map, hlen]
    · rw [d3, hlen]
    · rw [hS.smoothed, List.length_map, hlen]
    · rw [d4, hlen]
    · rw [hS.smoothedLog, List.length_map, hlen]
    · obtain ⟨i, a, e1, rfl⟩ := hmem b hb
      obtain ⟨_, _, _, _, _, _, q7, _, q9, q10, _⟩ := (hc i a e1).2.2.2.2.2.2.2.2.1.facts
      have := hr.cls a (mem_of_get e1)
      exact ⟨q7.trans this.1, by simp only; rw [q9, q10]; exact this.2⟩
    · obtain ⟨i, a, e1, rfl⟩ := hmem b hb
      have q := (hc i a e1).2.2.2.2.2.2.2.2.1.facts
      exact q.2.2.2.2.2.2.2.2.2.2.1.trans (hr.mode hbm a (mem_of_get e1))
    · rw [hS.inst]
      obtain ⟨a, ha⟩ := get_class hc'
      rw [List.getD_eq_getElem?_getD]
      simp only [classes, M', List.getElem?_map, List.getElem?_mapIdx, ha, Option.map_some, Option.getD_some, Hmm.results]
      exact (hc c a ha).2.2.2.2.1
  rw [hrun2]
  rcases bool_cases M.bimodal with hb | hb
  · have hb' : ∀ i a, M.models[i]? = some a → f2 i = f3 i := fun i a ha =>
      ((hc i a ha).2.2.2.1 ((hr.cls a (mem_of_get ha)).1.trans hb)).symm
    have hll : (M.models.mapIdx fun i (a : String × Hmm K) => (a.1, f2 i)) = M.models.mapIdx fun i (a : String × Hmm K) => (a.1, f3 i) := by
      refine List.ext_getElem? fun i => ?_
      rw [List.getElem?_mapIdx, List.getElem?_mapIdx]
      cases ha : M.models[i]? with
      | none => rfl
      | some a => simp [hb' i a ha]
    have e : ({ M2 with results := r' } : HierHmm K) = { M with models := M.models.mapIdx (fun i (a : String × Hmm K) => (a.1, f3 i)), results := r' } := by
      subst hM2; simp only [hll]
    rw [e]
    have hO : M.bimodal = true → ({ M with models := M.models.mapIdx (fun i (a : String × Hmm K) => (a.1, f3 i)), results := r' } : HierHmm K).OutputsOf :=
      fun h => absurd (hb.symm.trans h) (by simp)
    obtain ⟨k1, k2, k3, k4, k5⟩ := hfinal r'.outVals r'.outCov hO
    refine ⟨_, ?_, k1, rfl, rfl, k2, k3, k4, hO, k5⟩
    unfold regress
    rw [if_neg (by simp [hb])]
  · have e : ({ M2 with results := r' } : HierHmm K) = { M with models := M.models.mapIdx (fun i (a : String × Hmm K) => (a.1, f2 i)), results := r' } := by
      subst hM2; rfl
    rw [e]
    generalize hM3 : ({ M with models := M.models.mapIdx (fun i (a : String × Hmm K) => (a.1, f2 i)), results := r' } : HierHmm K) = M3
    have hloop := eachClass_to M3 (Hmm.regression D log x) f3 (fun i a ha => by
      subst hM3
      obtain ⟨a0, e1, rfl⟩ := hget f2 i a ha
      exact (hc i a0 e1).2.2.1 ((hr.cls a0 (mem_of_get e1)).1.trans hb))
    have hbM : M3.bimodal = true := by subst hM3; exact hb
    have hM4 : ({ M3 with models := M3.models.mapIdx fun i (a : String × Hmm K) => (a.1, f3 i) } : HierHmm K) =
        { M with models := M.models.mapIdx (fun i (a : String × Hmm K) => (a.1, f3 i)), results := r' } := by
      subst hM3; simp only [hmm]
    rw [hM4] at hloop
    have hsumm : ({ M with models := M.models.mapIdx (fun i (a : String × Hmm K) => (a.1, f3 i)), results := r' } : HierHmm K).results.Summary exp
        ({ M with models := M.models.mapIdx (fun i (a : String × Hmm K) => (a.1, f3 i)), results := r' } : HierHmm K).classes :=
      hsum _ r'.outVals r'.outCov rfl
    obtain ⟨y, z, o1, o2⟩ := outputs_ret _ exp hsumm (by simpa using hne) (fun b hb' => by
      obtain ⟨i, hi, rfl⟩ := List.getElem_of_mem hb'
      obtain ⟨a, e1, e2⟩ := hget f3 i _ (List.getElem?_eq_getElem hi)
      rw [e2]
      have hcl := hr.cls a (mem_of_get e1)
      have := (hc i a e1).2.2.2.2.2.2.2.2.2 (hcl.1.trans hb)
      simp only
      rw [this.1, this.2, hcl.2, hr.mode hb a (mem_of_get e1)]
      exact ⟨rfl, rfl⟩)
    obtain ⟨k1, k2, k3, k4, k5⟩ := hfinal y z (fun _ => o2)
    refine ⟨_, ?_, k1, rfl, rfl, k2, k3, k4, fun _ => o2, k5⟩
    unfold regress
    rw [if_pos hbM]
    exact (bind_of_ret hloop).trans o1

/-- `reset()` of one class, in either mode, then in the mode without hierarchy -/
theorem class_reset (log : K → K) (m : Hmm K) (hm : ({ m with hier := false } : Hmm K).Usable) (he : m.ergodic = true → m.hier = false) :
    ∃ m1 m2 m0, Hmm.reset m = .ret () m1 ∧ resetClass false m1 = .ret () m2 ∧ Hmm.reset { m with hier := false } = .ret () m0 ∧
      m0.CanFilter ∧ m0.hier = false ∧ (∀ x, m.Fits x → m0.Fits x) ∧ m0.bimodal = m.bimodal ∧ m0.window = m.window ∧
      Follows m0 log [] [] m2 ∧ Heard m0 log [] [] m0 ∧ m2.bimodal = m.bimodal ∧ m2.dim = m.dim ∧ m2.di = m.di ∧ m2.mode = m.mode := by
  obtain ⟨bf, h1, h2⟩ := Hmm.reset_ret _ hm
  have hc := cleared_can _ hm.can bf
  have key : ∃ m1, Hmm.reset m = .ret () m1 ∧ ({ m1 with hier := false } : Hmm K).Usable ∧
      (∀ b b', (cleared { m with hier := false } bf).SameModel (solo (cleared { m with hier := false } bf) b' (cleared { m1 with hier := false } b))) ∧
      m1.window = m.window ∧ (m.ergodic = true → m1.alpha.length = m.n) ∧
      m1.bimodal = m.bimodal ∧ m1.dim = m.dim ∧ m1.di = m.di ∧ m1.mode = m.mode := by
    rcases bool_cases m.hier with hh | hh
    · have e : ({ m with hier := false } : Hmm K) = m := by rw [← hh]
      rw [e] at hm hc
      obtain ⟨b1, k1, k2⟩ := Hmm.reset_ret m hm
      have hc1 := cleared_can m hm.can b1
      have e1 : ({ cleared m b1 with hier := false } : Hmm K) = cleared m b1 := by
        have : (cleared m b1).hier = false := hh
        rw [← this]
      refine ⟨cleared m b1, k1, ?_, fun b b' => ?_, rfl, hm.alpha, rfl, rfl, rfl, rfl⟩
      · rw [e1]; exact ⟨hc1, hh, Logs.ok k2, hm.alpha⟩
      · rw [e1, e]
        refine ⟨?_, SameStates.refl _ hm.can.state⟩
        unfold solo cleared cyclicCell
        simp only
        by_cases h : 1 < m.n
        · simp only [if_pos h, List.set_set]
        · simp only [if_neg h]
    · have hbuf : BufOk m.buf := hm.buf
      obtain ⟨b1, k1, k2⟩ := resetBuffer_ret hbuf m.window hm.can.window
      have hne : m.ergodic = true → False := fun h => by rw [he h] at hh; cases hh
      refine ⟨{ m with
          buf := b1
          started := false
          alpha0 := resize m.n m.alpha0
          alpha1 := resize m.n m.alpha1
          alpha2 := resize m.n m.alpha2
          alpha := []
          prevAlpha := []
          beta := []
          prevBeta := [] }, ?_, ?_, fun b b' => ?_, ?_, fun h => (hne h).elim, ?_, ?_, ?_, ?_⟩
      · unfold Hmm.reset
        have hidle : m.training = false := hm.can.idle
        rw [bind_of_ret (Hmm.checkTraining_idle hidle), bind_of_ret (get_def m), bind_of_ret (onBuf_ret k1), bind_of_ret (modify_def _ _),
          if_pos hh, modify_def]
      · have hw := hm.can.wf
        exact ⟨⟨⟨hw.pos, hw.sts, hw.prior, hw.trans, hw.state⟩,
          ⟨hm.can.chain.start_nonneg, hm.can.chain.start_sum, hm.can.chain.step_nonneg, hm.can.chain.step_sum⟩, hm.can.idle, hm.can.window,
          hm.can.state⟩, rfl, Logs.ok k2, fun h => (hne h).elim⟩
      · exact ⟨rfl, SameStates.refl _ hm.can.state⟩
      all_goals rfl
  obtain ⟨m1, k1, k2, k3, k4, k5, k6, k7, k8, k9⟩ := key
  obtain ⟨b2, q1, q2⟩ := Hmm.reset_ret _ k2
  have h00 := heard_nil log (cleared { m with hier := false } bf) hc rfl h2 hm.alpha
  have hf : (cleared { m1 with hier := false } b2).started = false := rfl
  refine ⟨m1, cleared { m1 with hier := false } b2, cleared { m with hier := false } bf, k1, ?_, h1, hc, rfl, fun _ h => h, rfl, rfl, ⟨⟨bf, ?_⟩, ?_⟩, h00, k6, k7, k8, k9⟩
  · unfold resetClass
    rw [bind_of_ret (modify_def _ _)]; exact q1
  · refine ⟨k3 b2 bf, rfl, rfl, fun h => ?_, h00.logs, (fun h => absurd (hf.symm.trans h) (by simp)),
      (fun h => absurd (hf.symm.trans h) (by simp)), (fun p hp => absurd hp (by simp)), (fun T h => absurd h (by simp)), (fun T h => absurd h (by simp))⟩
    have he' : m1.ergodic = true := h.resolve_left (by simp [solo, hf])
    have he2 : m.ergodic = true := by
      have := (k3 b2 bf).1
      have := congrArg Hmm.ergodic this
      exact this.symm.trans he'
    exact k5 he2
  · rw [show (cleared ({ m with hier := false } : Hmm K) bf).window = m1.window from k4.symm]
    exact q2

/-- `reset()` in the mode without hierarchy -/
theorem reset_ret_flat (log : K → K) (M : HierHmm K) (hM : M.FlatTrained) (hne : M.models ≠ []) :
    ∃ (M0 : HierHmm K) (m0 f : Nat → Hmm K), reset M = .ret () M0 ∧ M0.FlatRun ∧ M0.models = M.models.mapIdx (fun i (a : String × Hmm K) => (a.1, f i)) ∧
      M0.bimodal = M.bimodal ∧ ∀ (c : Nat) (lc : String × Hmm K), M.models[c]? = some lc →
        Hmm.reset { lc.2 with hier := false } = .ret () (m0 c) ∧ (m0 c).CanFilter ∧ (m0 c).hier = false ∧ (∀ x, lc.2.Fits x → (m0 c).Fits x) ∧
        (m0 c).bimodal = M.bimodal ∧ (m0 c).window = lc.2.window ∧ Follows (m0 c) log [] [] (f c) ∧ Heard (m0 c) log [] [] (m0 c) := by
  classical
  have key : ∀ c : Nat, ∃ m1 m2 m0 : Hmm K, ∀ lc : String × Hmm K, M.models[c]? = some lc →
      Hmm.reset lc.2 = .ret () m1 ∧ resetClass false m1 = .ret () m2 ∧ Hmm.reset { lc.2 with hier := false } = .ret () m0 ∧
      m0.CanFilter ∧ m0.hier = false ∧ (∀ x, lc.2.Fits x → m0.Fits x) ∧ m0.bimodal = lc.2.bimodal ∧ m0.window = lc.2.window ∧
      Follows m0 log [] [] m2 ∧ Heard m0 log [] [] m0 ∧ m2.bimodal = lc.2.bimodal ∧ m2.dim = lc.2.dim ∧ m2.di = lc.2.di ∧ m2.mode = lc.2.mode := by
    intro c
    cases hlc : M.models[c]? with
    | none =>
      obtain ⟨a, _⟩ := List.exists_mem_of_ne_nil _ hne
      exact ⟨a.2, a.2, a.2, fun lc h => by cases h⟩
    | some lc =>
      obtain ⟨h1, _, _, h4⟩ := hM.cls lc (mem_of_get hlc)
      obtain ⟨m1, m2, m0, h⟩ := class_reset log lc.2 h1 h4
      exact ⟨m1, m2, m0, fun lc' h' => by cases h'; exact h⟩
  choose f1 f2 m0 hf using key
  have h1 := eachClass_to M Hmm.reset f1 (fun i a ha => (hf i a ha).1)
  unfold reset
  rw [bind_of_ret (checkTraining_idle hM.idle), bind_of_ret (get_def M), if_neg (by simp [hM.nulls]), bind_of_ret h1, bind_of_ret (modify_def _ _)]
  generalize hM1 : HierHmm.mk _ _ _ _ _ _ _ _ _ _ _ _ _ _ _ _ _ _ = M1
  have hl1 : M1.models = M.models.mapIdx fun i (a : String × Hmm K) => (a.1, f1 i) := by subst hM1; rfl
  have hlen : M1.models.length = M.models.length := by rw [hl1]; simp
  have h2 := eachClass_to M1 (resetClass false) f2 (fun i a ha => by
    rw [hl1, List.getElem?_mapIdx] at ha
    obtain ⟨a0, e1, rfl⟩ := Option.map_eq_some_iff.1 ha
    exact (hf i a0 e1).2.1)
  rw [hlen] at h2
  rw [hM.flat]
  have hmm : (M1.models.mapIdx fun i (a : String × Hmm K) => (a.1, f2 i)) = M.models.mapIdx fun i (a : String × Hmm K) => (a.1, f2 i) := by
    rw [hl1, List.mapIdx_mapIdx]; rfl
  have hmem : ∀ b ∈ (M.models.mapIdx fun i (a : String × Hmm K) => (a.1, f2 i)), ∃ (i : Nat) (a : String × Hmm K),
      M.models[i]? = some a ∧ b = (a.1, f2 i) := by
    intro b hb
    obtain ⟨i, hi, rfl⟩ := List.getElem_of_mem hb
    have := List.getElem?_eq_getElem hi
    rw [List.getElem?_mapIdx] at this
    obtain ⟨a, e1, e2⟩ := Option.map_eq_some_iff.1 this
    exact ⟨i, a, e1, e2.symm⟩
  refine ⟨_, m0, f2, h2, ⟨?_, ?_, ?_, ?_, ?_, ?_, ?_⟩, hmm, ?_, fun c lc hlc => ?_⟩
  · subst hM1; exact hM.idle
  · subst hM1; exact hM.flat
  · subst hM1; exact hM.nulls
  · show SMap.Sorted (M1.models.mapIdx fun i (a : String × Hmm K) => (a.1, f2 i))
    rw [hmm]
    have hs := hM.sorted
    unfold SMap.Sorted at hs ⊢
    have hkeys : M.models.map Prod.fst = (M.models.mapIdx fun i (a : String × Hmm K) => (a.1, f2 i)).map Prod.fst := by
      refine List.ext_getElem? fun i => ?_
      rw [List.getElem?_map, List.getElem?_map, List.getElem?_mapIdx]
      cases M.models[i]? <;> rfl
    have : (M.models.map Prod.fst).Pairwise (· < ·) := by rw [List.pairwise_map]; exact hs
    rw [hkeys, List.pairwise_map] at this
    exact this
  · show M1.results.Sized (M1.models.mapIdx fun i (a : String × Hmm K) => (a.1, f2 i)).length
    rw [hmm]
    subst hM1
    simp only [List.length_mapIdx]
    constructor <;> simp [MultiRes.resetResults, resize, HierHmm.size, hM.nulls] <;> omega
  · intro b hb
    replace hb : b ∈ (M1.models.mapIdx fun i (a : String × Hmm K) => (a.1, f2 i)) := hb
    rw [hmm] at hb
    obtain ⟨i, a, e1, rfl⟩ := hmem b hb
    have := hM.cls a (mem_of_get e1)
    have hf' := (hf i a e1).2.2.2.2.2.2.2.2.2.2
    have eb : M1.bimodal = M.bimodal ∧ M1.dim = M.dim ∧ M1.di = M.di := by subst hM1; exact ⟨rfl, rfl, rfl⟩
    simp only
    rw [eb.1, eb.2.1, eb.2.2, hf'.1, hf'.2.1, hf'.2.2.1]
    exact ⟨this.2.1, this.2.2.1⟩
  · intro hbm b hb
    replace hb : b ∈ (M1.models.mapIdx fun i (a : String × Hmm K) => (a.1, f2 i)) := hb
    rw [hmm] at hb
    obtain ⟨i, a, e1, rfl⟩ := hmem b hb
    have hf' := (hf i a e1).2.2.2.2.2.2.2.2.2.2
    have eb : M1.bimodal = M.bimodal ∧ M1.mode = M.mode := by subst hM1; exact ⟨rfl, rfl⟩
    simp only
    rw [eb.2, hf'.2.2.2]
    exact hM.mode (eb.1.symm.trans hbm) a (mem_of_get e1)
  · subst hM1; rfl
  · obtain ⟨_, _, a3, a4, a5, a6, a7, a8, a9, a10, _⟩ := hf c lc hlc
    exact ⟨a3, a4, a5, a6, a7.trans (hM.cls lc (mem_of_get hlc)).2.1, a8, a9, a10⟩

/-- a stream: the model, and each class alone -/
theorem stream_flat (D : Dens K) (log exp : K → K) (hexp : ∀ x, 0 < exp x) (m0 : Nat → Hmm K) (b : Nat → List K → Nat → K)
    (v w : Nat → List K → Nat → List K) (n : Nat) (hn : 0 < n) (xs : List (List K))
    (h0 : ∀ c < n, (m0 c).CanFilter ∧ (m0 c).hier = false ∧
      (∀ x, (m0 c).Fits x → Emits D (m0 c) x (b c x) ∧ ∀ i < (m0 c).n, 1 / 10 ^ 180 ≤ b c x i) ∧
      ((m0 c).bimodal = true → ∀ x, (m0 c).Fits x → Predicts D (m0 c) x (v c x) (w c x)) ∧ ∀ x ∈ xs, (m0 c).Fits x) :
    ∀ (M : HierHmm K) (f s : Nat → Hmm K) (bs : Nat → List (Nat → K)) (ps : Nat → List K), M.FlatRun → M.models.length = n →
      (∀ (c : Nat) (a : String × Hmm K), M.models[c]? = some a → a.2 = f c ∧ Follows (m0 c) log (bs c) (ps c) (f c) ∧
        Heard (m0 c) log (bs c) (ps c) (s c)) →
    ∃ (rs : List (List K)) (M' : HierHmm K) (f' s' : Nat → Hmm K), filterAll D log exp xs M = .ret rs M' ∧ M'.FlatRun ∧
      M'.models = M.models.mapIdx (fun i (a : String × Hmm K) => (a.1, if xs = [] then a.2 else f' i)) ∧ M'.bimodal = M.bimodal ∧
      (∀ c < n, ∃ qs, Hmm.filterAll D log xs (s c) = .ret qs (s' c) ∧ (rs.map fun r => r.getD c 0) = qs ∧
        (xs ≠ [] → SameFrame (s' c) (f' c) ∧ (f' c).logLik = avgLast (m0 c).window (twice ((ps c ++ qs).map log)))) ∧
      (xs ≠ [] → M'.results.Summary exp M'.classes ∧ IsDistribution M'.results.instNorm ∧ IsDistribution M'.results.smoothedNorm ∧
        (M.bimodal = true → M'.OutputsOf)) := by
  classical
  induction xs with
  | nil =>
    intro M f s bs ps hr hl hc
    refine ⟨[], M, f, s, rfl, hr, ?_, rfl, fun c hc' => ⟨[], rfl, rfl, fun h => absurd rfl h⟩, fun h => absurd rfl h⟩
    refine List.ext_getElem? fun i => ?_
    rw [List.getElem?_mapIdx]
    cases M.models[i]? <;> rfl
  | cons x xs ih =>
    intro M f s bs ps hr hl hc
    have key : ∀ c : Nat, ∃ (m1 m2 m3 s' : Hmm K) (p : K), ∀ a : String × Hmm K, M.models[c]? = some a →
        Hmm.filter D log x a.2 = .ret p m1 ∧ HierHmm.progressClass log m1 = .ret () m2 ∧
        (a.2.bimodal = true → Hmm.regression D log x m2 = .ret () m3) ∧ (a.2.bimodal = false → m3 = m2) ∧
        Hmm.filter D log x (s c) = .ret p s' ∧ m3.instant = p ∧ m2.instant = p ∧ m2.logLik = m3.logLik ∧ 0 < p ∧
        m3.logLik = avgLast (m0 c).window (twice ((ps c ++ [p]).map log)) ∧ SameFrame s' m3 ∧ a.2.SameModel m3 ∧
        (a.2.bimodal = true → m3.outVals.length = a.2.dim - a.2.di ∧ m3.outCov.length = outCells a.2.mode (a.2.dim - a.2.di)) ∧
        Follows (m0 c) log (bs c ++ [b c x]) (ps c ++ [p]) m3 ∧ Heard (m0 c) log (bs c ++ [b c x]) (ps c ++ [p]) s' := by
      intro c
      cases ha : M.models[c]? with
      | none => exact ⟨f c, f c, f c, f c, 0, fun a h => by cases h⟩
      | some a =>
        obtain ⟨c1, c2, c3, c4, c5⟩ := h0 c (by rw [← hl]; exact lt_of_get ha)
        obtain ⟨e1, e2, e3⟩ := hc c a ha
        have hfx := c5 x List.mem_cons_self
        obtain ⟨m1, m2, m3, s', p, h⟩ := follows_step D log c1 c2 e2 e3 x hfx (b c x) (c3 x hfx).1 (c3 x hfx).2 (v c x) (w c x)
          (fun h => c4 h x hfx)
        exact ⟨m1, m2, m3, s', p, fun a' h' => by cases h'; rw [e1]; exact h⟩
    choose f1 f2 f3 s1 p hf using key
    obtain ⟨M1, g1, g2, g3, g4, g5, g6, g7, g8, g9⟩ := filter_flat D log exp hexp M hr (by rintro h; rw [h] at hl; simp at hl; omega) x f1 f2 f3 p
      (fun i a ha => by
        obtain ⟨a1, a2, a3, a4, a5, a6, a7, a8, a9, a10, a11, a12, a13, _⟩ := hf i a ha
        exact ⟨a1, a2, a3, a4, a6, a7, a8, a9, a12, a13⟩)
    have hl1 : M1.models.length = n := by rw [g3]; simpa using hl
    have hb1 : M1.bimodal = M.bimodal := by rw [g4]
    obtain ⟨rs, M', f', s', k1, k2, k3, k4, k5, k6⟩ := ih (fun c hc' => by
        obtain ⟨c1, c2, c3, c4, c5⟩ := h0 c hc'
        exact ⟨c1, c2, c3, c4, fun y hy => c5 y (List.mem_cons_of_mem _ hy)⟩) M1 f3 s1 (fun c => bs c ++ [b c x]) (fun c => ps c ++ [p c]) g2 hl1
      (fun c a ha => by
        rw [g3, List.getElem?_mapIdx] at ha
        obtain ⟨a0, e1, rfl⟩ := Option.map_eq_some_iff.1 ha
        obtain ⟨_, _, _, _, _, _, _, _, _, _, _, _, _, a14, a15⟩ := hf c a0 e1
        exact ⟨rfl, a14, a15⟩)
    refine ⟨M1.results.inst :: rs, M', (fun c => if xs = [] then f3 c else f' c), s', ?_, k2, ?_, k4.trans hb1, fun c hc' => ?_, fun _ => ?_⟩
    · unfold filterAll
      rw [bind_of_ret g1, bind_of_ret (get_def _), bind_of_ret k1, pure_def]
    · rw [k3, g3, List.mapIdx_mapIdx]
      simp only [reduceCtorEq, if_false]
      rfl
    · obtain ⟨a, ha⟩ := get_class (M := M) (c := c) (by omega)
      obtain ⟨a1, a2, a3, a4, a5, a6, a7, a8, a9, a10, a11, _⟩ := hf c a ha
      obtain ⟨qs, q1, q2, q3⟩ := k5 c hc'
      refine ⟨p c :: qs, ?_, ?_, fun _ => ?_⟩
      · unfold Hmm.filterAll
        rw [bind_of_ret a5, bind_of_ret q1, pure_def]
      · rw [List.map_cons, q2, g9 c (by omega)]
      · by_cases hx : xs = []
        · subst hx
          simp only [if_true]
          have hs : s' c = s1 c ∧ qs = [] := by
            unfold Hmm.filterAll at q1
            rw [pure_def] at q1
            injection q1 with q1 q1'
            exact ⟨q1'.symm, q1.symm⟩
          rw [hs.1, hs.2]
          exact ⟨a11, a10⟩
        · simp only [if_neg hx]
          have := q3 hx
          rw [List.append_assoc] at this
          exact this
    · by_cases hx : xs = []
      · subst hx
        have hM : M' = M1 := by
          unfold filterAll at k1
          rw [pure_def] at k1
          injection k1 with _ k1
          exact k1.symm
        rw [hM]
        exact ⟨g5, g6, g7, g8⟩
      · obtain ⟨o1, o2, o3, o4⟩ := k6 hx
        exact ⟨o1, o2, o3, fun h => o4 (hb1.trans h)⟩

/-- C85: after `reset()`, a model of several hidden Markov models whose parameter `hierarchical` is false treats each class as if it was used on its
    own: for any non-empty stream the likelihoods reported for a class, and after the stream its state probabilities, progress, likeliest state and
    output, are those of the class alone.  The smoothed log-likelihood is the average of the last `window` numbers of the list in which the log of each
    likelihood occurs twice.  The results of the model are those of its classes. -/
theorem C85_flat (D : Dens K) (hD : D.Sound) (log exp : K → K) (hexp : ∀ x, 0 < exp x) (M : HierHmm K) (hM : M.FlatTrained) (hne : M.models ≠ [])
    (xs : List (List K)) (hxs : xs ≠ []) (hx : ∀ x ∈ xs, ∀ lc ∈ M.models, lc.2.Fits x) :
    ∃ M0 rs M', reset M = .ret () M0 ∧ filterAll D log exp xs M0 = .ret rs M' ∧
      (∀ (c : Nat) (lc : String × Hmm K), M.models[c]? = some lc → ∃ m0 ps m' m'',
        Hmm.reset { lc.2 with hier := false } = .ret () m0 ∧ Hmm.filterAll D log xs m0 = .ret ps m' ∧
        M'.models[c]? = some (lc.1, m'') ∧ (rs.map fun r => r.getD c 0) = ps ∧ SameFrame m' m'' ∧
        m''.logLik = avgLast lc.2.window (twice (ps.map log))) ∧
      M'.models.length = M.models.length ∧
      M'.results.Summary exp M'.classes ∧ IsDistribution M'.results.instNorm ∧ IsDistribution M'.results.smoothedNorm ∧
      (M.bimodal = true → M'.OutputsOf) := by
  classical
  obtain ⟨M0, m0, f, h1, h2, h3, h4, h5⟩ := reset_ret_flat log M hM hne
  have key : ∀ c : Nat, ∃ (b : List K → Nat → K) (v w : List K → Nat → List K), c < M.models.length →
      (∀ x, (m0 c).Fits x → Emits D (m0 c) x (b x) ∧ ∀ i < (m0 c).n, 1 / 10 ^ 180 ≤ b x i) ∧
      ((m0 c).bimodal = true → ∀ x, (m0 c).Fits x → Predicts D (m0 c) x (v x) (w x)) := by
    intro c
    by_cases hc : c < M.models.length
    · obtain ⟨lc, hlc⟩ := get_class hc
      obtain ⟨_, hcan, _⟩ := h5 c lc hlc
      obtain ⟨b, hb⟩ := emits_exist D hD _ hcan
      rcases bool_cases (m0 c).bimodal with h | h
      · exact ⟨b, fun _ _ => [], fun _ _ => [], fun _ => ⟨hb, fun h' => absurd (h.symm.trans h') (by simp)⟩⟩
      · obtain ⟨v, w, hv⟩ := predicts_exist D hD _ hcan h
        exact ⟨b, v, w, fun _ => ⟨hb, fun _ => hv⟩⟩
    · exact ⟨fun _ _ => 0, fun _ _ => [], fun _ _ => [], fun h => absurd h hc⟩
  choose b v w hbvw using key
  have hpos : 0 < M.models.length := List.length_pos_of_ne_nil hne
  obtain ⟨rs, M', f', s', k1, k2, k3, k4, k5, k6⟩ := stream_flat D log exp hexp m0 b v w M.models.length hpos xs (fun c hc => by
    obtain ⟨lc, hlc⟩ := get_class hc
    obtain ⟨_, a2, a3, a4, _⟩ := h5 c lc hlc
    exact ⟨a2, a3, (hbvw c hc).1, (hbvw c hc).2, fun x hxx => a4 x (hx x hxx lc (mem_of_get hlc))⟩) M0 f m0 (fun _ => []) (fun _ => []) h2 (by rw [h3]; simp)
    (fun c a ha => by
      rw [h3, List.getElem?_mapIdx] at ha
      obtain ⟨a0, e1, rfl⟩ := Option.map_eq_some_iff.1 ha
      obtain ⟨_, _, _, _, _, _, a7, a8⟩ := h5 c a0 e1
      exact ⟨rfl, a7, a8⟩)
  obtain ⟨o1, o2, o3, o4⟩ := k6 hxs
  refine ⟨M0, rs, M', h1, k1, fun c lc hlc => ?_, by rw [k3, h3]; simp, o1, o2, o3, fun h => o4 (h4.trans h)⟩
  obtain ⟨a1, a2, a3, a4, a5, a6, a7, a8⟩ := h5 c lc hlc
  obtain ⟨qs, q1, q2, q3⟩ := k5 c (lt_of_get hlc)
  obtain ⟨r1, r2⟩ := q3 hxs
  refine ⟨m0 c, qs, s' c, f' c, a1, q1, ?_, q2, r1, ?_⟩
  · rw [k3, h3, List.mapIdx_mapIdx, List.getElem?_mapIdx, hlc]
    simp [hxs]
  · rw [r2, a6]; rfl

/-! ### Ergodic classes that have just been trained -/

/-- an ergodic class whose state probabilities have been freed -/
theorem filter_freed_ub (D : Dens K) (hD : D.Sound) (log : K → K) (m : Hmm K) (hm : m.CanFilter) (he : m.ergodic = true) (ha : m.alpha = [])
    (hs : m.started = false) (hist : List K) (hl : Logs m.buf m.window hist) (x : List K) (hx : m.Fits x) :
    Hmm.filter D log x m = .ub := by
  obtain ⟨b, hb⟩ := emits_exist D hD m hm
  have hp := reads_stateProb D m hm x (b x) (hb x hx).1
  obtain ⟨bf, e1, _⟩ := CBuf.Holds.clear hl
  have hpr : 0 < m.prior.length := by rw [hm.wf.prior he]; exact hm.wf.pos
  have hinit : Hmm.forwardInit (fun i => do
      let m ← Prog.get
      stateProb D m x [] i) ({ m with buf := bf } : Hmm K) = .ub := by
    have hr := hp ({ m with buf := bf } : Hmm K) rfl rfl 0 hm.wf.pos
    have h0 : (Prog.get >>= fun m0 : Hmm K => do
        let w ← rd m0.prior 0
        let b ← (do
          let m ← Prog.get
          stateProb D m x [] 0 : Prog (Hmm K) K)
        setAlpha 0 (w * b)
        pure (0 + w * b)) ({ m with buf := bf } : Hmm K) = .ub := by
      rw [bind_of_ret (get_def _), bind_of_ret (rd_lt hpr 0 _), bind_of_ret hr]
      simp only [bind_def, setAlpha, get_def, rd, ha, List.getElem?_nil, undef_def]
    unfold Hmm.forwardInit
    rw [bind_def]
    have : Hmm.initAlpha (fun i => do
        let m ← Prog.get
        stateProb D m x [] i) ({ m with buf := bf } : Hmm K) = .ub := by
      unfold Hmm.initAlpha
      rw [bind_of_ret (get_def _), if_pos he]
      have hl : ∀ (N : Nat) (body : K → Nat → Prog (Hmm K) K) (s : Hmm K), 0 < N → body 0 0 s = .ub → loop N 0 body s = .ub := by
        intro N body s hN hbody
        obtain ⟨k, rfl⟩ : ∃ k, N = 1 + k := ⟨N - 1, by omega⟩
        rw [loop_add, bind_def]
        have h1 : loop 1 0 body s = body 0 0 s := by rw [loop_succ]; rfl
        rw [h1, hbody]
      exact hl m.n _ _ hm.wf.pos h0
    rw [this]
  unfold Hmm.filter Hmm.forward
  rw [bind_of_ret (Hmm.checkTraining_idle hm.idle), bind_def]
  have : (Prog.get >>= fun m : Hmm K => if m.started then Hmm.forwardUpdate (fun i => do
        let m ← Prog.get
        stateProb D m x [] i) else do
      Hmm.onBuf CBuf.clear
      Hmm.forwardInit (fun i => do
        let m ← Prog.get
        stateProb D m x [] i)) m = .ub := by
    rw [bind_of_ret (get_def m), if_neg (by simp [hs]), bind_of_ret (onBuf_ret e1), hinit]
  rw [this]

/-- `reset()` of a class that can filter, in the mode without hierarchy -/
theorem reset_flat_ret (m : Hmm K) (hc : m.CanFilter) (hf : m.hier = false) (hb : BufOk m.buf) :
    ∃ b, Hmm.reset m = .ret () (cleared m b) ∧ Logs b m.window [] := by
  obtain ⟨b, h1, h2⟩ := resetBuffer_ret hb m.window hc.window
  refine ⟨b, ?_, h2⟩
  unfold Hmm.reset
  rw [bind_of_ret (Hmm.checkTraining_idle hc.idle), bind_of_ret (get_def m), bind_of_ret (onBuf_ret h1), bind_of_ret (modify_def _ _),
    if_neg (by simp [hf])]
  have hw := hc.wf
  exact addCyclic_ret ({ m with buf := b, started := false } : Hmm K) ⟨hw.pos, hw.sts, hw.prior, hw.trans, hw.state⟩ hc.idle _

/-- `reset()` frees the state probabilities of a class that was in a hierarchy so far -/
theorem class_reset_hier (m : Hmm K) (hm : m.CanFilter) (hb : BufOk m.buf) (hh : m.hier = true) :
    ∃ m1 m2, Hmm.reset m = .ret () m1 ∧ resetClass false m1 = .ret () m2 ∧ m2.CanFilter ∧ m2.ergodic = m.ergodic ∧ m2.alpha = [] ∧
      m2.started = false ∧ Logs m2.buf m2.window [] ∧ ∀ x, m.Fits x → m2.Fits x := by
  obtain ⟨b1, k1, k2⟩ := resetBuffer_ret hb m.window hm.window
  have hw := hm.wf
  generalize hz : ({ m with
      hier := false
      buf := b1
      started := false
      alpha0 := resize m.n m.alpha0
      alpha1 := resize m.n m.alpha1
      alpha2 := resize m.n m.alpha2
      alpha := []
      prevAlpha := []
      beta := []
      prevBeta := [] } : Hmm K) = z
  have hcz : z.CanFilter := by
    subst hz
    exact ⟨⟨hw.pos, hw.sts, hw.prior, hw.trans, hw.state⟩,
          ⟨hm.chain.start_nonneg, hm.chain.start_sum, hm.chain.step_nonneg, hm.chain.step_sum⟩, hm.idle, hm.window, hm.state⟩
  obtain ⟨b2, q1, q2⟩ := reset_flat_ret z hcz (by subst hz; rfl) (by subst hz; exact Logs.ok k2)
  refine ⟨{ m with
      buf := b1
      started := false
      alpha0 := resize m.n m.alpha0
      alpha1 := resize m.n m.alpha1
      alpha2 := resize m.n m.alpha2
      alpha := []
      prevAlpha := []
      beta := []
      prevBeta := [] }, cleared z b2, ?_, ?_, cleared_can z hcz b2, ?_, ?_, rfl, q2, ?_⟩
  · unfold Hmm.reset
    rw [bind_of_ret (Hmm.checkTraining_idle hm.idle), bind_of_ret (get_def m), bind_of_ret (onBuf_ret k1), bind_of_ret (modify_def _ _),
      if_pos hh, modify_def]
  · unfold resetClass
    rw [bind_of_ret (modify_def _ _)]
    subst hz
    exact q1
  · subst hz; rfl
  · subst hz; rfl
  · subst hz; exact fun x hx => hx

/-- C85 is false for ergodic classes that have just been trained: a class is created as part of a hierarchy, and `reset()` frees its state
    probabilities before it takes the class out of the hierarchy.  With the parameter `hierarchical` set to false, `train`, `reset` and the first
    `filter` write past the end of an empty vector. -/
theorem C85_ergodic_ub (D : Dens K) (hD : D.Sound) (log exp : K → K) (M : HierHmm K) (hi : M.training = false) (hf : M.hier = false)
    (hn : M.nulls = []) (lc : String × Hmm K) (rest : SMap String (Hmm K)) (hm : M.models = lc :: rest)
    (hc : ∀ a ∈ M.models, a.2.CanFilter ∧ BufOk a.2.buf ∧ a.2.hier = true) (he : lc.2.ergodic = true) (x : List K) (hx : lc.2.Fits x) :
    ∃ M0, reset M = .ret () M0 ∧ filter D log exp x M0 = .ub := by
  classical
  have key : ∀ c : Nat, ∃ m1 m2 : Hmm K, ∀ a : String × Hmm K, M.models[c]? = some a →
      Hmm.reset a.2 = .ret () m1 ∧ resetClass false m1 = .ret () m2 ∧ m2.CanFilter ∧ m2.ergodic = a.2.ergodic ∧ m2.alpha = [] ∧
      m2.started = false ∧ Logs m2.buf m2.window [] ∧ ∀ x, a.2.Fits x → m2.Fits x := by
    intro c
    cases hlc : M.models[c]? with
    | none => exact ⟨lc.2, lc.2, fun a h => by cases h⟩
    | some a =>
      obtain ⟨h1, h2, h3⟩ := hc a (mem_of_get hlc)
      obtain ⟨m1, m2, h⟩ := class_reset_hier a.2 h1 h2 h3
      exact ⟨m1, m2, fun a' h' => by cases h'; exact h⟩
  choose f1 f2 hf12 using key
  have h1 := eachClass_to M Hmm.reset f1 (fun i a ha => (hf12 i a ha).1)
  unfold reset
  rw [bind_of_ret (checkTraining_idle hi), bind_of_ret (get_def M), if_neg (by simp [hn]), bind_of_ret h1, bind_of_ret (modify_def _ _)]
  generalize hM1 : HierHmm.mk _ _ _ _ _ _ _ _ _ _ _ _ _ _ _ _ _ _ = M1
  have hl1 : M1.models = M.models.mapIdx fun i (a : String × Hmm K) => (a.1, f1 i) := by subst hM1; rfl
  have hlen : M1.models.length = M.models.length := by rw [hl1]; simp
  have h2 := eachClass_to M1 (resetClass false) f2 (fun i a ha => by
    rw [hl1, List.getElem?_mapIdx] at ha
    obtain ⟨a0, e1, rfl⟩ := Option.map_eq_some_iff.1 ha
    exact (hf12 i a0 e1).2.1)
  rw [hlen] at h2
  rw [hf]
  refine ⟨_, h2, ?_⟩
  have hmm : (M1.models.mapIdx fun i (a : String × Hmm K) => (a.1, f2 i)) = M.models.mapIdx fun i (a : String × Hmm K) => (a.1, f2 i) := by
    rw [hl1, List.mapIdx_mapIdx]; rfl
  rw [hmm]
  generalize hM2 : ({ M1 with models := M.models.mapIdx fun i (a : String × Hmm K) => (a.1, f2 i) } : HierHmm K) = M2
  have hM2' : M2.training = false ∧ M2.nulls = [] ∧ M2.hier = false := by subst hM2; subst hM1; exact ⟨hi, hn, hf⟩
  have hm2 : ∃ rest', M2.models = (lc.1, f2 0) :: rest' := by subst hM2; simp only [hm, List.mapIdx_cons]; exact ⟨_, rfl⟩
  obtain ⟨rest', hm2⟩ := hm2
  obtain ⟨_, _, c3, c4, c5, c6, c7, c8⟩ := hf12 0 lc (by rw [hm]; rfl)
  have hub := filter_freed_ub D hD log (f2 0) c3 (c4.trans he) c5 c6 [] c7 x (c8 x hx)
  unfold filter
  rw [bind_of_ret (checkTraining_idle hM2'.1), bind_of_ret (get_def M2), if_neg (by simp [hM2'.2.1]), bind_def]
  have : forward D log x M2 = .ub := by
    unfold forward
    rw [if_neg (by simp [hM2'.2.2])]
    have hl : ∀ (N : Nat) (body : Unit → Nat → Prog (HierHmm K) Unit) (s : HierHmm K), 0 < N → body () 0 s = .ub → loop N () body s = .ub := by
      intro N body s hN hbody
      obtain ⟨k, rfl⟩ : ∃ k, N = 1 + k := ⟨N - 1, by omega⟩
      rw [loop_add, bind_def]
      have h1 : loop 1 () body s = body () 0 s := by rw [loop_succ]; rfl
      rw [h1, hbody]
    refine hl _ _ _ (by rw [hm2]; simp) ?_
    unfold filterClass
    simp only [bind_def, onClass, hm2, List.getElem?_cons_zero, hub]
  rw [this]

end HierHmm
end Xmm
