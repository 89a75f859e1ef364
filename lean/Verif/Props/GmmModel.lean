import Verif.Props.Recognition
import Verif.Props.GmmTrained
set_option linter.unusedSimpArgs false
set_option linter.unusedSectionVars false
/- C39, C51, C69: recognition and regression with several mixtures. -/
namespace Xmm
open Phrase (loop)
open Gauss (rd rd_lt)
open Prog (bind_def pure_def get_def set_def modify_def throw_def undef_def)
open GmmSpec RecSpec

namespace MultiRes
variable {K : Type} [Field K] [LinearOrder K]

/-- the mixture of the outputs, exactly -/
theorem mixOutputs_ret (dout : Nat) (mode : CovMode) (cls : List (String × ClassRes K)) (r : MultiRes K)
    (hw : r.smoothedNorm.length = cls.length) (hv : ∀ c ∈ cls, c.2.outVals.length = dout)
    (hc : ∀ c ∈ cls, c.2.outCov.length = outCells mode dout) :
    mixOutputs dout mode cls r = .ret () { r with
      outVals := (List.range dout).map fun k => ∑ i ∈ Finset.range cls.length, r.smoothedNorm.getD i 0 * outVal cls i k
      outCov := (List.range (outCells mode dout)).map fun k =>
        ∑ i ∈ Finset.range cls.length, r.smoothedNorm.getD i 0 * outVar cls i k } := by
  have key : ∃ acc s, (cls.foldlM (fun acc lc => addClass dout mode acc lc.2)
      ((0, List.replicate dout 0, List.replicate (outCells mode dout) 0) : Nat × List K × List K)) r = .ret acc s ∧ (s = r ∧
      acc.1 = cls.length ∧ acc.2.1.length = dout ∧ acc.2.2.length = outCells mode dout ∧
      (∀ k < dout, acc.2.1.getD k 0 = ∑ i ∈ Finset.range cls.length, r.smoothedNorm.getD i 0 * outVal cls i k) ∧
      ∀ k < outCells mode dout, acc.2.2.getD k 0 = ∑ i ∈ Finset.range cls.length, r.smoothedNorm.getD i 0 * outVar cls i k) := by
    refine foldlM_state cls _ _ r (fun pre (acc : Nat × List K × List K) s => s = r ∧
      acc.1 = pre.length ∧ acc.2.1.length = dout ∧ acc.2.2.length = outCells mode dout ∧
      (∀ k < dout, acc.2.1.getD k 0 = ∑ i ∈ Finset.range pre.length, r.smoothedNorm.getD i 0 * outVal cls i k) ∧
      ∀ k < outCells mode dout, acc.2.2.getD k 0 = ∑ i ∈ Finset.range pre.length, r.smoothedNorm.getD i 0 * outVar cls i k)
      ⟨rfl, rfl, by simp, by simp, fun k hk => by rw [getD_replicate]; simp, fun k hk => by rw [getD_replicate]; simp⟩ ?_
    rintro pre b post hl ⟨i, av, ac⟩ s ⟨rfl, i1, i2, i3, i4, i5⟩
    simp only at i1 i2 i3 i4 i5
    subst i1
    have hb : b ∈ cls := by rw [hl]; simp
    have hget : cls[pre.length]? = some b := by rw [hl]; simp
    have hlt : pre.length < s.smoothedNorm.length := by rw [hw, hl]; simp
    obtain ⟨r1, a1, a2, a3⟩ := addScaled_ret dout (s.smoothedNorm.getD pre.length 0) b.2.outVals av s (hv b hb).ge i2.ge
    obtain ⟨r2, b1, b2, b3⟩ := addScaled_ret (outCells mode dout) (s.smoothedNorm.getD pre.length 0) b.2.outCov ac s
      (hc b hb).ge i3.ge
    refine ⟨(pre.length + 1, r1, r2), s, ?_, rfl, by simp, by rw [a2]; exact i2, by rw [b2]; exact i3, ?_, ?_⟩
    · unfold addClass
      rw [bind_of_ret (get_def s), bind_of_ret (rd_lt hlt 0 s), bind_of_ret a1, bind_of_ret b1, pure_def]
    · intro k hk
      simp only [List.length_append, List.length_cons, List.length_nil, zero_add]
      rw [a3 k, if_pos hk, i4 k hk, Finset.sum_range_succ]
      simp only [outVal, hget, Option.map_some, Option.getD_some]
    · intro k hk
      simp only [List.length_append, List.length_cons, List.length_nil, zero_add]
      rw [b3 k, if_pos hk, i5 k hk, Finset.sum_range_succ]
      simp only [outVar, hget, Option.map_some, Option.getD_some]
  obtain ⟨acc, s, h1, rfl, _, h2, h3, h4, h5⟩ := key
  unfold mixOutputs
  rw [bind_of_ret h1, modify_def, eq_map_range_of_getD _ _ _ h2 h4, eq_map_range_of_getD _ _ _ h3 h5]

end MultiRes

namespace SMap

theorem mem_of_find? {ν : Type} {k : String} {v : ν} : ∀ {m : SMap String ν}, find? k m = some v → (k, v) ∈ m
  | [], h => by simp [find?] at h
  | (k', v') :: m, h => by
    unfold find? at h
    by_cases hk : k = k'
    · rw [if_pos hk] at h; cases h; rw [hk]; exact List.mem_cons_self
    · rw [if_neg hk] at h; exact List.mem_cons_of_mem _ (mem_of_find? h)

theorem find?_of_mem {ν : Type} {k : String} {v : ν} : ∀ {m : SMap String ν}, (k, v) ∈ m → ∃ v', find? k m = some v'
  | [], h => by simp at h
  | (k', v') :: m, h => by
    unfold find?
    by_cases hk : k = k'
    · rw [if_pos hk]; exact ⟨_, rfl⟩
    · rw [if_neg hk]
      rcases List.mem_cons.1 h with h | h
      · cases h; exact absurd rfl hk
      · exact find?_of_mem h

end SMap

theorem keys_forall₂ {α β γ : Type} {R : γ × α → γ × β → Prop} (h : ∀ a b, R a b → b.1 = a.1) {l : List (γ × α)} {l' : List (γ × β)}
    (hl : List.Forall₂ R l l') : l.map Prod.fst = l'.map Prod.fst := by
  induction hl with
  | nil => rfl
  | cons h1 _ ih => simp [h _ _ h1, ih]

namespace GmmModel
variable {K : Type} [Field K] [LinearOrder K] [IsStrictOrderedRing K]

/-- the effect of `filter(x)` on one class -/
def Step (D : Dens K) (log : K → K) (x : List K) (a b : String × Gmm K) : Prop :=
  b.1 = a.1 ∧ (∃ p, Gmm.filter D log x a.2 = .ret p b.2 ∧ 0 < p ∧ b.2.instant = p) ∧ b.2.CanFilter ∧ Gmm.SameModel a.2 b.2 ∧
    (∃ hist, Logs b.2.buf b.2.window hist) ∧
    (b.2.bimodal = true → b.2.outVals.length = b.2.dim - b.2.di ∧ b.2.outCov.length = outCells b.2.mode (b.2.dim - b.2.di))

theorem class_step (D : Dens K) (hD : D.Sound) (log : K → K) (x : List K) (a : String × Gmm K) (hc : a.2.CanFilter) (hx : a.2.Fits x)
    (hist : List K) (hl : Logs a.2.buf a.2.window hist) : ∃ b, Step D log x a b := by
  obtain ⟨d, hd⟩ := Gmm.obsDensities_exist D hD a.2 hc.ready
  have hy : ∃ y : Nat → List K, a.2.bimodal = true → Predictions a.2 x y := by
    rcases bool_cases a.2.bimodal with h | h
    · exact ⟨fun _ => [], fun h' => by rw [h] at h'; cases h'⟩
    · obtain ⟨y, hy⟩ := Gmm.predictions_exist a.2 hc.ready.wf h
      exact ⟨y x, fun _ => (hy x hx).1⟩
  obtain ⟨y, hy⟩ := hy
  obtain ⟨m', h1, h2, h3⟩ := Gmm.filter_ret D log a.2 hc x (fun hb => by unfold Gmm.Fits at hx; rw [if_pos hb] at hx; exact hx)
    (d x) (hd x hx).1 y hy hist hl
  have hsame : Gmm.SameModel a.2 m' := .of_filtered h2.same
  refine ⟨(a.1, m'), rfl, ⟨_, h1, Gmm.mixture_pos hc.ready (hd x hx).2, h2.instant⟩, hsame.canFilter hc (by rw [h2.beta]; simp), hsame,
    ⟨_, h3⟩, fun hb => ?_⟩
  have e := h2.same
  have e1 : m'.bimodal = a.2.bimodal := by rw [e]
  have e2 : m'.dim = a.2.dim := by rw [e]
  have e3 : m'.di = a.2.di := by rw [e]
  have e4 : m'.mode = a.2.mode := by rw [e]
  simp only at hb ⊢
  rw [e1] at hb
  rw [h2.outVals hb, h2.outCov hb, e2, e3, e4]
  simp

/-- the loop over the classes -/
theorem filterClasses_ret (D : Dens K) (log : K → K) (x : List K) (M : GmmModel K)
    (hs : M.results.inst.length = M.models.length) (hc : ∀ a ∈ M.models, ∃ b, Step D log x a b) :
    ∃ l v, loop M.models.length () (fun _ i => filterClass D log x i) M =
      .ret () { M with models := l, results := { M.results with inst := v } } ∧
      List.Forall₂ (Step D log x) M.models l ∧ v.length = M.models.length := by
  have key : ∃ u s, loop M.models.length () (fun _ i => filterClass D log x i) M = .ret u s ∧
      (∃ l v, s = { M with models := l, results := { M.results with inst := v } } ∧ l.length = M.models.length ∧
        v.length = M.models.length ∧
        (∀ (i : Nat) (a : String × Gmm K), i < M.models.length → M.models[i]? = some a → ∃ b, l[i]? = some b ∧ Step D log x a b) ∧
        ∀ i, M.models.length ≤ i → l[i]? = M.models[i]?) := by
    refine loop_state M.models.length () _ M (fun t _ s => ∃ l v,
        s = { M with models := l, results := { M.results with inst := v } } ∧ l.length = M.models.length ∧
        v.length = M.models.length ∧
        (∀ (i : Nat) (a : String × Gmm K), i < t → M.models[i]? = some a → ∃ b, l[i]? = some b ∧ Step D log x a b) ∧
        ∀ i, t ≤ i → l[i]? = M.models[i]?)
      ⟨M.models, M.results.inst, rfl, rfl, hs, fun i a hi => by omega, fun _ _ => rfl⟩ ?_
    rintro t ht _ s ⟨l, v, rfl, h1, h2, h3, h4⟩
    have hg : M.models[t]? = some M.models[t] := List.getElem?_eq_getElem ht
    obtain ⟨b, hb⟩ := hc M.models[t] (List.getElem_mem ht)
    obtain ⟨p, hp, _⟩ := hb.2.1
    have hlt : l[t]? = some M.models[t] := by rw [h4 t le_rfl]; exact hg
    refine ⟨(), { M with models := l.set t b, results := { M.results with inst := v.set t p } }, ?_,
      l.set t b, v.set t p, rfl, by simpa using h1, by simpa using h2, ?_, ?_⟩
    · unfold filterClass
      simp only [bind_def, onClass, hlt, hp, get_def, MultiRes.wr]
      rw [if_pos (by omega)]
      simp only [pure_def, set_def]
      rw [show (M.models[t].1, b.2) = b by rw [← hb.1]]
    · intro i a hi ha
      by_cases hit : i = t
      · subst hit
        rw [hg] at ha; cases ha
        exact ⟨b, by rw [List.getElem?_set_self (by omega)], hb⟩
      · rw [List.getElem?_set_ne (Ne.symm hit)]
        exact h3 i a (by omega) ha
    · intro i hi
      rw [List.getElem?_set_ne (by omega)]
      exact h4 i (by omega)
  obtain ⟨u, s, k1, l, v, rfl, k2, k3, k4, k5⟩ := key
  refine ⟨l, v, k1, ?_, k3⟩
  rw [List.forall₂_iff_get]
  refine ⟨k2.symm, fun i h1 h2 => ?_⟩
  obtain ⟨b, e1, e2⟩ := k4 i _ h1 (List.getElem?_eq_getElem h1)
  rw [List.getElem?_eq_getElem h2] at e1
  cases e1
  exact e2

theorem checkTraining_idle {M : GmmModel K} (h : M.training = false) : checkTraining M = .ret () M := by
  simp [checkTraining, h]

/-- C39, C69: `filter(x)` on a usable model with at least one class returns.  Every class has filtered `x`; the likelihoods, the normalised
    likelihoods and the likeliest class are those of the results of the classes, and the output of a bimodal model is the one
    prescribed by the estimator.  The model is still usable. -/
theorem C39_filter (D : Dens K) (hD : D.Sound) (log exp : K → K) (hexp : ∀ x, 0 < exp x) (M : GmmModel K) (hu : M.Usable)
    (hne : M.models ≠ []) (x : List K) (hx : ∀ lc ∈ M.models, lc.2.Fits x) :
    ∃ M', filter D log exp x M = .ret () M' ∧ M'.Usable ∧ List.Forall₂ (Step D log x) M.models M'.models ∧
      M'.results.Summary exp M'.classes ∧ IsDistribution M'.results.instNorm ∧ IsDistribution M'.results.smoothedNorm ∧
      (M.bimodal = true → M'.OutputsOf) ∧ M' = { M with models := M'.models, results := M'.results } := by
  obtain ⟨l, v, h1, h2, h3⟩ := filterClasses_ret D log x M hu.sized.inst (fun a ha => by
    obtain ⟨hist, hl⟩ := hu.buf a ha
    exact class_step D hD log x a (hu.cls a ha).1 (hx a ha) hist hl)
  have hlen : l.length = M.models.length := h2.length_eq.symm
  have hstep : ∀ b ∈ l, ∃ a ∈ M.models, Step D log x a b := by
    intro b hb
    rw [List.forall₂_iff_get] at h2
    obtain ⟨i, hi, rfl⟩ := List.getElem_of_mem hb
    exact ⟨M.models[i], List.getElem_mem _, h2.2 i (by omega) hi⟩
  have hlne : l ≠ [] := by rintro rfl; simp at hlen; exact hne (List.eq_nil_of_length_eq_zero hlen.symm)
  generalize hM1 : ({ M with models := l, results := { M.results with inst := v } } : GmmModel K) = M1
  have hcls : M1.classes.length = l.length := by subst hM1; simp [classes]
  have hsz : M1.results.Sized M1.classes.length := by
    rw [hcls, hlen]
    subst hM1
    exact ⟨h3, hu.sized.instNorm, hu.sized.smoothed, hu.sized.smoothedNorm, hu.sized.smoothedLog⟩
  obtain ⟨r', g1, g2, g3, g4, _⟩ := MultiRes.updateResults_ret exp M1.classes M1.results hsz
  have hclne : M1.classes ≠ [] := by subst hM1; simpa [classes] using hlne
  have hpos : ∀ c ∈ M1.classes, 0 < c.2.instant := by
    subst hM1
    intro c hc
    obtain ⟨b, hb, rfl⟩ := List.mem_map.1 hc
    obtain ⟨a, _, hs⟩ := hstep b hb
    obtain ⟨p, _, hp, hi⟩ := hs.2.1
    show 0 < b.2.instant
    rw [hi]; exact hp
  obtain ⟨d1, d2, d3, d4⟩ := C39_normalised exp hexp M1.classes hclne hpos r' g2
  have hbase : ∀ (w z : List K), ({ M1 with results := { r' with outVals := w, outCov := z } } : GmmModel K).Usable := by
    intro w z
    subst hM1
    have hb2 : ∀ b ∈ l, ∃ a ∈ M.models, Step D log x a b := hstep
    refine ⟨hu.idle, hu.nulls, ?_, ?_, ?_, ?_, ?_⟩
    · have hs := hu.sorted
      unfold SMap.Sorted at hs ⊢
      have hkeys : M.models.map Prod.fst = l.map Prod.fst := keys_forall₂ (fun a b h => h.1) h2
      have : (M.models.map Prod.fst).Pairwise (· < ·) := by rw [List.pairwise_map]; exact hs
      rw [hkeys, List.pairwise_map] at this
      exact this
    · have : l.length = (GmmModel.classes { M with models := l, results := { M.results with inst := v } }).length := hcls.symm
      refine ⟨?_, ?_, ?_, ?_, ?_⟩
      · simp only [g2.inst, List.length_map, this]
      · simp only [g2.instNorm, List.length_map, this]
      · simp only [g2.smoothed, List.length_map, this]
      · simp only [g2.smoothedNorm, List.length_map, this]
      · simp only [g2.smoothedLog, List.length_map, this]
    · intro b hb
      obtain ⟨a, ha, hs⟩ := hb2 b hb
      obtain ⟨_, c2, c3⟩ := hu.cls a ha
      have e := hs.2.2.2.1
      unfold Gmm.SameModel at e
      refine ⟨hs.2.2.1, ?_, ?_⟩
      · rw [e]; exact c2
      · rw [e]; exact c3
    · intro hbm b hb
      obtain ⟨a, ha, hs⟩ := hb2 b hb
      have e := hs.2.2.2.1
      unfold Gmm.SameModel at e
      rw [e]; exact hu.mode hbm a ha
    · intro b hb
      obtain ⟨a, ha, hs⟩ := hb2 b hb
      exact hs.2.2.2.2.1
  have hrun : filter D log exp x M = outputs { M1 with results := r' } := by
    unfold filter
    rw [bind_of_ret (checkTraining_idle hu.idle), bind_of_ret (get_def M), if_neg (by simp [hu.nulls]), bind_of_ret h1, hM1,
      bind_of_ret (get_def M1)]
    refine bind_of_ret (a := ()) ?_
    simp only [onResults, g1]
  have hbim : M1.bimodal = M.bimodal := by subst hM1; rfl
  have hmodels : M1.models = l := by subst hM1; rfl
  have hest : ∀ (r : MultiRes K), ({ M1 with results := r } : GmmModel K).classes = M1.classes := fun r => rfl
  have hfinal : ∀ (r : MultiRes K), ({ M1 with results := r } : GmmModel K) =
      { M with models := ({ M1 with results := r } : GmmModel K).models, results := r } := by
    intro r; subst hM1; rfl
  have hsum : ∀ (w z : List K), MultiRes.Summary exp M1.classes { r' with outVals := w, outCov := z } := fun w z =>
    ⟨g2.inst, g2.smoothedLog, g2.smoothed, g2.instNorm, g2.smoothedNorm, g2.likeliest⟩
  rw [hrun]
  rcases bool_cases M.bimodal with hb | hb
  · refine ⟨{ M1 with results := r' }, ?_, hbase r'.outVals r'.outCov, by rw [← hmodels] at h2; exact h2, g2, d1, d2,
      (fun h => by rw [hb] at h; cases h), hfinal r'⟩
    unfold outputs
    rw [if_neg (by simp [hbim, hb])]
  · have hout : ∀ c ∈ M1.classes, c.2.outVals.length = M.dout ∧ c.2.outCov.length = outCells M.mode M.dout := by
      subst hM1
      intro c hc
      obtain ⟨b, hb', rfl⟩ := List.mem_map.1 hc
      obtain ⟨a, ha, hs⟩ := hstep b hb'
      obtain ⟨_, c2, c3⟩ := hu.cls a ha
      have c4 := hu.mode hb a ha
      have e := hs.2.2.2.1
      unfold Gmm.SameModel at e
      have q1 : b.2.bimodal = true := by rw [e]; exact c2.trans hb
      have q2 : b.2.dim - b.2.di = M.dout := by rw [e]; exact c3
      have q3 : b.2.mode = M.mode := by rw [e]; exact c4
      have := hs.2.2.2.2.2 q1
      rw [q2, q3] at this
      exact this
    have hOut : ∃ w z, outputs { M1 with results := r' } = .ret () { M1 with results := { r' with outVals := w, outCov := z } } ∧
        GmmModel.OutputsOf { M1 with results := { r' with outVals := w, outCov := z } } := by
      unfold outputs
      rw [if_pos (by simp [hbim, hb])]
      unfold GmmModel.OutputsOf
      simp only
      cases hE : M1.est with
      | likeliest =>
        obtain ⟨before, c, after, e1, e2, _⟩ := g2.likeliest hclne
        have hmem : (r'.likeliest, c.2) ∈ M1.classes := by rw [e1, e2]; simp
        obtain ⟨b, hb1, hb2⟩ := List.mem_map.1 hmem
        simp only [Prod.mk.injEq] at hb2
        obtain ⟨c', hc'⟩ := SMap.find?_of_mem (k := r'.likeliest) (v := b.2) (m := M1.models) (by rw [← hb2.1]; exact hb1)
        refine ⟨c'.outVals, c'.outCov, ?_, c', SMap.mem_of_find? hc', rfl, rfl⟩
        simp only [likeliestOutputs, bind_def, likeliestResults, hc', modify_def, Gmm.results]
      | mixture =>
        have hd : M1.dout = M.dout := by subst hM1; rfl
        have hm : M1.mode = M.mode := by subst hM1; rfl
        have := MultiRes.mixOutputs_ret M.dout M.mode M1.classes r' d4 (fun c hc => (hout c hc).1) (fun c hc => (hout c hc).2)
        have hl' : M1.classes.length = M1.models.length := by rw [hcls, hmodels]
        rw [← hd, ← hm] at this
        refine ⟨(List.range M1.dout).map fun k => ∑ i ∈ Finset.range M1.classes.length, r'.smoothedNorm.getD i 0 * outVal M1.classes i k,
          (List.range (outCells M1.mode M1.dout)).map fun k =>
            ∑ i ∈ Finset.range M1.classes.length, r'.smoothedNorm.getD i 0 * outVar M1.classes i k, ?_, ?_⟩
        · have hcl : ({ M1 with est := .mixture, results := r' } : GmmModel K).classes = M1.classes := rfl
          simp only [onResults]
          rw [hcl, this]
        · simp only [hl']
          exact ⟨rfl, rfl⟩
    obtain ⟨w, z, o1, o2⟩ := hOut
    exact ⟨_, o1, hbase w z, by rw [← hmodels] at h2; exact h2, hsum w z, d1, d2, fun _ => o2, hfinal _⟩

/-- `reset()` makes a model usable -/
theorem C39_reset (M : GmmModel K) (hnulls : M.nulls = []) (hidle : M.training = false) (hsort : SMap.Sorted M.models)
    (hcls : ∀ lc ∈ M.models, lc.2.CanFilter ∧ lc.2.bimodal = M.bimodal ∧ lc.2.dim - lc.2.di = M.dout ∧ BufOk lc.2.buf)
    (hmode : M.bimodal = true → ∀ lc ∈ M.models, lc.2.mode = M.mode) :
    ∃ M', reset M = .ret () M' ∧ M'.Usable ∧
      List.Forall₂ (fun a b => b.1 = a.1 ∧ Gmm.reset a.2 = .ret () b.2 ∧ Gmm.SameModel a.2 b.2 ∧ Logs b.2.buf b.2.window []) M.models
        M'.models ∧ M' = { M with models := M'.models, results := M'.results } := by
  generalize hM0 : ({ M with
    results := MultiRes.resetResults (M.models.length + M.nulls.length) M.bimodal M.dout M.mode M.results } : GmmModel K) = M0
  let R : String × Gmm K → String × Gmm K → Prop := fun a b =>
    b.1 = a.1 ∧ Gmm.reset a.2 = .ret () b.2 ∧ Gmm.SameModel a.2 b.2 ∧ Logs b.2.buf b.2.window []
  have hmod : M0.models = M.models := by subst hM0; rfl
  have key : ∃ u s, loop M.models.length () (fun _ i => onClass i Gmm.reset) M0 = .ret u s ∧
      (∃ l, s = { M0 with models := l } ∧ l.length = M.models.length ∧
        (∀ (i : Nat) (a : String × Gmm K), i < M.models.length → M.models[i]? = some a → ∃ b, l[i]? = some b ∧ R a b) ∧
        ∀ i, M.models.length ≤ i → l[i]? = M.models[i]?) := by
    refine loop_state M.models.length () _ M0 (fun t _ s => ∃ l, s = { M0 with models := l } ∧ l.length = M.models.length ∧
        (∀ (i : Nat) (a : String × Gmm K), i < t → M.models[i]? = some a → ∃ b, l[i]? = some b ∧ R a b) ∧
        ∀ i, t ≤ i → l[i]? = M.models[i]?)
      ⟨M.models, by rw [← hmod], rfl, fun i a hi => by omega, fun _ _ => rfl⟩ ?_
    rintro t ht _ s ⟨l, rfl, h1, h3, h4⟩
    have hg : M.models[t]? = some M.models[t] := List.getElem?_eq_getElem ht
    obtain ⟨hc, _, _, hb⟩ := hcls M.models[t] (List.getElem_mem ht)
    obtain ⟨bf, hr, hlog⟩ := Gmm.reset_ret M.models[t].2 hc hb
    have hlt : l[t]? = some M.models[t] := by rw [h4 t le_rfl]; exact hg
    refine ⟨(), { M0 with models := l.set t (M.models[t].1, { M.models[t].2 with buf := bf }) }, ?_, _, rfl, by simpa using h1, ?_, ?_⟩
    · simp only [onClass, hlt, hr]
    · intro i a hi ha
      by_cases hit : i = t
      · subst hit
        rw [hg] at ha; cases ha
        exact ⟨(M.models[i].1, { M.models[i].2 with buf := bf }), by rw [List.getElem?_set_self (by omega)], rfl, hr, rfl, hlog⟩
      · rw [List.getElem?_set_ne (Ne.symm hit)]
        exact h3 i a (by omega) ha
    · intro i hi
      rw [List.getElem?_set_ne (by omega)]
      exact h4 i (by omega)
  obtain ⟨u, s, k1, l, rfl, k2, k4, k5⟩ := key
  have hall : List.Forall₂ R M.models l := by
    rw [List.forall₂_iff_get]
    refine ⟨k2.symm, fun i h1 h2 => ?_⟩
    obtain ⟨b, e1, e2⟩ := k4 i _ h1 (List.getElem?_eq_getElem h1)
    rw [List.getElem?_eq_getElem h2] at e1
    cases e1
    exact e2
  have hstep : ∀ b ∈ l, ∃ a ∈ M.models, R a b := by
    intro b hb
    obtain ⟨i, hi, rfl⟩ := List.getElem_of_mem hb
    rw [List.forall₂_iff_get] at hall
    exact ⟨M.models[i], List.getElem_mem _, hall.2 i (by omega) hi⟩
  refine ⟨{ M0 with models := l }, ?_, ⟨?_, ?_, ?_, ?_, ?_, ?_, ?_⟩, hall, by subst hM0; rfl⟩
  · unfold reset
    rw [bind_of_ret (modify_def _ _), hM0, bind_of_ret (get_def M0), if_neg (by subst hM0; simp [hnulls]), hmod]
    exact k1
  · subst hM0; exact hidle
  · subst hM0; exact hnulls
  · unfold SMap.Sorted at hsort ⊢
    have hkeys : M.models.map Prod.fst = l.map Prod.fst := keys_forall₂ (fun a b h => h.1) hall
    have : (M.models.map Prod.fst).Pairwise (· < ·) := by rw [List.pairwise_map]; exact hsort
    rw [hkeys, List.pairwise_map] at this
    exact this
  · subst hM0
    simp only [hnulls, List.length_nil, add_zero, k2]
    exact ⟨Gauss.resize_length _ _, Gauss.resize_length _ _, Gauss.resize_length _ _, Gauss.resize_length _ _, Gauss.resize_length _ _⟩
  · intro b hb
    obtain ⟨a, ha, hs⟩ := hstep b hb
    obtain ⟨c1, c2, c3, _⟩ := hcls a ha
    have e := hs.2.2.1
    unfold Gmm.SameModel at e
    have hbeta : b.2.beta.length = a.2.gaussians := by
      obtain ⟨bf, hr, _⟩ := Gmm.reset_ret a.2 c1 (hcls a ha).2.2.2
      rw [hs.2.1] at hr
      injection hr with _ hr
      rw [hr]
      exact c1.ready.wf.beta
    refine ⟨Gmm.SameModel.canFilter hs.2.2.1 c1 hbeta, ?_, ?_⟩
    · rw [e]; subst hM0; exact c2
    · rw [e]; subst hM0; exact c3
  · intro hbm b hb
    obtain ⟨a, ha, hs⟩ := hstep b hb
    have e := hs.2.2.1
    unfold Gmm.SameModel at e
    rw [e]; subst hM0; exact hmode hbm a ha
  · intro b hb
    obtain ⟨a, ha, hs⟩ := hstep b hb
    exact ⟨[], hs.2.2.2⟩

/-! ### Streams -/

/-- `filter` on each observation of a stream -/
def filterAll (D : Dens K) (log exp : K → K) : List (List K) → Prog (GmmModel K) Unit
  | [] => pure ()
  | x :: xs => do
    filter D log exp x
    filterAll D log exp xs

/-- a class before and after a stream -/
def Streamed (D : Dens K) (log : K → K) (xs : List (List K)) (a b : String × Gmm K) : Prop :=
  b.1 = a.1 ∧ Gmm.SameModel a.2 b.2 ∧ ∃ ps, Gmm.filterAll D log xs a.2 = .ret ps b.2

theorem forall₂_comp {α β γ : Type} {R : α → β → Prop} {S : β → γ → Prop} {T : α → γ → Prop} (h : ∀ a b c, R a b → S b c → T a c)
    {l1 : List α} {l2 : List β} {l3 : List γ} (h1 : List.Forall₂ R l1 l2) (h2 : List.Forall₂ S l2 l3) : List.Forall₂ T l1 l3 := by
  rw [List.forall₂_iff_get] at *
  exact ⟨h1.1.trans h2.1, fun i a b => h _ _ _ (h1.2 i a (by omega)) (h2.2 i (by omega) b)⟩

theorem fits_same {m m' : Gmm K} (h : Gmm.SameModel m m') (x : List K) (hx : m.Fits x) : m'.Fits x := by
  unfold Gmm.SameModel at h
  unfold Gmm.Fits at *
  rw [h]
  exact hx

theorem filterAll_ret (D : Dens K) (hD : D.Sound) (log exp : K → K) (hexp : ∀ x, 0 < exp x) (xs : List (List K)) :
    ∀ M : GmmModel K, M.Usable → M.models ≠ [] → (∀ x ∈ xs, ∀ lc ∈ M.models, lc.2.Fits x) →
    ∃ M', filterAll D log exp xs M = .ret () M' ∧ M'.Usable ∧ List.Forall₂ (Streamed D log xs) M.models M'.models ∧
      M' = { M with models := M'.models, results := M'.results } ∧
      (xs ≠ [] → M'.results.Summary exp M'.classes ∧ (M.bimodal = true → M'.OutputsOf)) := by
  induction xs with
  | nil =>
    intro M hu hne _
    refine ⟨M, rfl, hu, List.forall₂_same.2 fun a _ => ⟨rfl, rfl, [], rfl⟩, rfl, fun h => absurd rfl h⟩
  | cons x xs ih =>
    intro M hu hne hx
    obtain ⟨M1, h1, h2, h3, h4, _, _, h5, h6⟩ := C39_filter D hD log exp hexp M hu hne x (hx x List.mem_cons_self)
    have hne1 : M1.models ≠ [] := by
      intro h; rw [h] at h3; exact hne (List.forall₂_nil_right_iff.1 h3)
    have hx1 : ∀ x' ∈ xs, ∀ lc ∈ M1.models, lc.2.Fits x' := by
      intro x' hx' lc hlc
      rw [List.forall₂_iff_get] at h3
      obtain ⟨i, hi, rfl⟩ := List.getElem_of_mem hlc
      have hi' : i < M.models.length := by rw [h3.1]; exact hi
      exact fits_same (h3.2 i hi' hi).2.2.2.1 x' (hx x' (List.mem_cons_of_mem _ hx') _ (List.getElem_mem hi'))
    obtain ⟨M2, g1, g2, g3, g4, g5⟩ := ih M1 h2 hne1 hx1
    have hb1 : M1.bimodal = M.bimodal := by rw [h6]
    refine ⟨M2, by unfold filterAll; rw [bind_of_ret h1]; exact g1, g2, ?_, by rw [g4, h6], fun _ => ?_⟩
    · refine forall₂_comp (R := Step D log x) (S := Streamed D log xs) ?_ h3 g3
      rintro a b c hab ⟨e1, e2, ps, e3⟩
      obtain ⟨p, hp, _⟩ := hab.2.1
      refine ⟨e1.trans hab.1, hab.2.2.2.1.trans e2, p :: ps, ?_⟩
      unfold Gmm.filterAll
      rw [bind_of_ret hp, bind_of_ret e3, pure_def]
    · cases xs with
      | nil =>
        have : M2 = M1 := by
          simp only [filterAll, pure_def] at g1
          injection g1 with _ g1
          exact g1.symm
        rw [this]
        exact ⟨h4, h5⟩
      | cons y ys => rw [← hb1]; exact g5 (by simp)

/-- the summary of the classes determines the results, except the outputs -/
theorem summary_unique {exp : K → K} {cls : SMap String (ClassRes K)} (hsort : SMap.Sorted cls) (hne : cls ≠ []) {r r' : MultiRes K}
    (h : r.Summary exp cls) (h' : r'.Summary exp cls) :
    r' = { r with outVals := r'.outVals, outCov := r'.outCov } := by
  obtain ⟨c, h1, h2⟩ := C39_likeliest exp cls hsort hne r h
  obtain ⟨c', h1', h2'⟩ := C39_likeliest exp cls hsort hne r' h'
  have e : c.logLik = c'.logLik := le_antisymm (h2' _ h1).1 (h2 _ h1').1
  have hl : r'.likeliest = r.likeliest := le_antisymm ((h2' _ h1).2 e) ((h2 _ h1').2 e.symm)
  cases r; cases r'
  simp only [MultiRes.mk.injEq]
  exact ⟨h'.inst.trans h.inst.symm, h'.instNorm.trans h.instNorm.symm, h'.smoothed.trans h.smoothed.symm,
    h'.smoothedNorm.trans h.smoothedNorm.symm, h'.smoothedLog.trans h.smoothedLog.symm, hl, trivial, trivial⟩

theorem find?_unique {ν : Type} {m : SMap String ν} (hs : SMap.Sorted m) {k : String} {a b : ν} (ha : (k, a) ∈ m) (hb : (k, b) ∈ m) :
    a = b := by
  induction m with
  | nil => simp at ha
  | cons p m ih =>
    unfold SMap.Sorted at hs
    rw [List.pairwise_cons] at hs
    rcases List.mem_cons.1 ha with ha | ha
    · rcases List.mem_cons.1 hb with hb | hb
      · rw [← hb] at ha; cases ha; rfl
      · have := hs.1 _ hb; rw [← ha] at this; exact absurd this (lt_irrefl _)
    · rcases List.mem_cons.1 hb with hb | hb
      · have := hs.1 _ ha; rw [← hb] at this; exact absurd this (lt_irrefl _)
      · exact ih hs.2 ha hb

/-- C51: after `reset()`, the results of a stream of observations do not depend on what the model has filtered before.  Two bimodal
    models with the same classes, parameters and settings report exactly the same results. -/
theorem C51_model_forgets (D : Dens K) (hD : D.Sound) (log exp : K → K) (hexp : ∀ x, 0 < exp x) (M N : GmmModel K)
    (hN : N = { M with models := N.models, results := N.results })
    (hsame : List.Forall₂ (fun a b => b.1 = a.1 ∧ Gmm.SameModel a.2 b.2 ∧ b.2.CanFilter ∧ BufOk b.2.buf) M.models N.models)
    (hnulls : M.nulls = []) (hidle : M.training = false) (hsort : SMap.Sorted M.models) (hne : M.models ≠ [])
    (hcls : ∀ lc ∈ M.models, lc.2.CanFilter ∧ lc.2.bimodal = M.bimodal ∧ lc.2.dim - lc.2.di = M.dout ∧ BufOk lc.2.buf)
    (hmode : M.bimodal = true → ∀ lc ∈ M.models, lc.2.mode = M.mode)
    (xs : List (List K)) (hxs : xs ≠ []) (hx : ∀ x ∈ xs, ∀ lc ∈ M.models, lc.2.Fits x) :
    ∃ M' N', (do reset; filterAll D log exp xs) M = .ret () M' ∧ (do reset; filterAll D log exp xs) N = .ret () N' ∧
      N'.results = { M'.results with outVals := N'.results.outVals, outCov := N'.results.outCov } ∧
      (M.bimodal = true → N'.results = M'.results) := by
  have hmem : ∀ b ∈ N.models, ∃ a ∈ M.models, b.1 = a.1 ∧ Gmm.SameModel a.2 b.2 ∧ b.2.CanFilter ∧ BufOk b.2.buf := by
    intro b hb
    rw [List.forall₂_iff_get] at hsame
    obtain ⟨i, hi, rfl⟩ := List.getElem_of_mem hb
    have hi' : i < M.models.length := by rw [hsame.1]; exact hi
    exact ⟨_, List.getElem_mem hi', hsame.2 i hi' hi⟩
  have n1 : N.nulls = [] := by rw [hN]; exact hnulls
  have n2 : N.training = false := by rw [hN]; exact hidle
  have n3 : N.bimodal = M.bimodal := by rw [hN]
  have n4 : N.dout = M.dout := by rw [hN]
  have n5 : N.mode = M.mode := by rw [hN]
  have n6 : N.est = M.est := by rw [hN]
  have hsortN : SMap.Sorted N.models := by
    unfold SMap.Sorted at hsort ⊢
    have hkeys := keys_forall₂ (fun a b h => h.1) hsame
    have : (M.models.map Prod.fst).Pairwise (· < ·) := by rw [List.pairwise_map]; exact hsort
    rw [hkeys, List.pairwise_map] at this
    exact this
  have hneN : N.models ≠ [] := by intro h; rw [h] at hsame; exact hne (List.forall₂_nil_right_iff.1 hsame)
  obtain ⟨M1, a1, a2, a3, a4⟩ := C39_reset M hnulls hidle hsort hcls hmode
  obtain ⟨N1, b1, b2, b3, b4⟩ := C39_reset N n1 n2 hsortN (fun b hb => by
      obtain ⟨a, ha, _, e2, e3, e4⟩ := hmem b hb
      obtain ⟨_, c2, c3, _⟩ := hcls a ha
      unfold Gmm.SameModel at e2
      refine ⟨e3, ?_, ?_, e4⟩
      · rw [n3, ← c2, e2]
      · rw [n4, ← c3, e2])
    (fun h b hb => by
      obtain ⟨a, ha, _, e2, _⟩ := hmem b hb
      unfold Gmm.SameModel at e2
      rw [n5, ← hmode (n3 ▸ h) a ha, e2])
  have hM1ne : M1.models ≠ [] := by intro h; rw [h] at a3; exact hne (List.forall₂_nil_right_iff.1 a3)
  have hN1ne : N1.models ≠ [] := by intro h; rw [h] at b3; exact hneN (List.forall₂_nil_right_iff.1 b3)
  obtain ⟨M', c1, c2, c3, c4, c5⟩ := filterAll_ret D hD log exp hexp xs M1 a2 hM1ne (fun x hx' lc hlc => by
    rw [List.forall₂_iff_get] at a3
    obtain ⟨i, hi, rfl⟩ := List.getElem_of_mem hlc
    have hi' : i < M.models.length := by rw [a3.1]; exact hi
    exact fits_same (a3.2 i hi' hi).2.2.1 x (hx x hx' _ (List.getElem_mem hi')))
  obtain ⟨N', d1, d2, d3, d4, d5⟩ := filterAll_ret D hD log exp hexp xs N1 b2 hN1ne (fun x hx' lc hlc => by
    rw [List.forall₂_iff_get] at b3
    obtain ⟨i, hi, rfl⟩ := List.getElem_of_mem hlc
    have hi' : i < N.models.length := by rw [b3.1]; exact hi
    obtain ⟨a, ha, _, e2, _⟩ := hmem _ (List.getElem_mem hi')
    exact fits_same (b3.2 i hi' hi).2.2.1 x (fits_same e2 x (hx x hx' a ha)))
  -- classes: the same results
  have k1 := forall₂_comp (T := fun a b : String × Gmm K => b.1 = a.1 ∧ ∃ ps, (do Gmm.reset; Gmm.filterAll D log xs) a.2 = .ret ps b.2)
    (by
      rintro a b c ⟨e1, e2, _⟩ ⟨e3, _, ps, e4⟩
      exact ⟨e3.trans e1, ps, by rw [bind_of_ret e2]; exact e4⟩) a3 c3
  have k2 := forall₂_comp (T := fun a b : String × Gmm K => b.1 = a.1 ∧ ∃ ps, (do Gmm.reset; Gmm.filterAll D log xs) a.2 = .ret ps b.2)
    (by
      rintro a b c ⟨e1, e2, _⟩ ⟨e3, _, ps, e4⟩
      exact ⟨e3.trans e1, ps, by rw [bind_of_ret e2]; exact e4⟩) b3 d3
  have hl : M.models.length = N.models.length := hsame.length_eq
  have hlm : M.models.length = M'.models.length := k1.length_eq
  have hln : N.models.length = N'.models.length := k2.length_eq
  rw [List.forall₂_iff_get] at k1 k2 hsame
  have pair : ∀ (i : Nat) (h1 : i < M'.models.length) (h2 : i < N'.models.length),
      N'.models[i].1 = M'.models[i].1 ∧ N'.models[i].2.instant = M'.models[i].2.instant ∧
      N'.models[i].2.logLik = M'.models[i].2.logLik ∧
      (M.bimodal = true → N'.models[i].2.results = M'.models[i].2.results) := by
    intro i h1 h2
    obtain ⟨e1, p, e2⟩ := k1.2 i (by omega) h1
    obtain ⟨e3, q, e4⟩ := k2.2 i (by omega) h2
    obtain ⟨e5, e6, e7, e8⟩ := hsame.2 i (by omega) (by omega)
    simp only [List.get_eq_getElem] at e1 e2 e3 e4 e5 e6 e7 e8
    have hin : M.models[i] ∈ M.models := List.getElem_mem _
    obtain ⟨f1, f2, _, f3⟩ := hcls _ hin
    obtain ⟨ps, m1, m2, g1, g2, g3, g4, _, g5⟩ := Gmm.C51_filter_forgets D hD log M.models[i].2 N.models[i].2 e6 f1 e7 f3 e8 xs hxs
      (fun x hx' => hx x hx' _ hin)
    rw [e2] at g1
    rw [e4] at g2
    injection g1 with _ g1
    injection g2 with _ g2
    rw [g1, g2]
    exact ⟨by rw [e3, e5, e1], g3.symm, g4.symm, fun hb => (g5 (f2.trans hb)).symm⟩
  obtain ⟨s1, s2⟩ := c5 hxs
  obtain ⟨s3, s4⟩ := d5 hxs
  have hnm : N'.results.Summary exp M'.classes := by
    have e1 : (N'.classes.map fun c => c.2.instant) = M'.classes.map fun c => c.2.instant := by
      refine List.ext_getElem (by simp [classes]; omega) fun i h1 h2 => ?_
      simp [classes] at h1 h2
      simpa [classes, Gmm.results] using (pair i h2 h1).2.1
    have e2 : (N'.classes.map fun c => c.2.logLik) = M'.classes.map fun c => c.2.logLik := by
      refine List.ext_getElem (by simp [classes]; omega) fun i h1 h2 => ?_
      simp [classes] at h1 h2
      simpa [classes, Gmm.results] using (pair i h2 h1).2.2.1
    have e3 : (N'.classes.map fun c => exp c.2.logLik) = M'.classes.map fun c => exp c.2.logLik := by
      have := congrArg (List.map exp) e2
      simpa [List.map_map, Function.comp_def] using this
    refine ⟨by rw [s3.inst, e1], by rw [s3.smoothedLog, e2], by rw [s3.smoothed, e3], ?_, ?_, fun h => ?_⟩
    · rw [s3.instNorm]
      have := congrArg (List.map (· / (M'.classes.map fun c => c.2.instant).sum)) e1
      rw [e1]
      simpa [List.map_map, Function.comp_def] using this
    · rw [s3.smoothedNorm]
      have := congrArg (List.map (· / (M'.classes.map fun c => exp c.2.logLik).sum)) e3
      rw [e3]
      simpa [List.map_map, Function.comp_def] using this
    · have hlen : N'.classes.length = M'.classes.length := by simp [classes]; omega
      obtain ⟨before, c, after, q1, q2, q3, q4⟩ := s3.likeliest (by
        intro h0; rw [h0] at hlen; exact h (List.eq_nil_of_length_eq_zero hlen.symm))
      have hpos : before.length < M'.classes.length := by rw [← hlen, q1]; simp
      have hpair : ∀ (j : Nat) (h1 : j < N'.classes.length) (h2 : j < M'.classes.length),
          M'.classes[j].1 = N'.classes[j].1 ∧ M'.classes[j].2.logLik = N'.classes[j].2.logLik := by
        intro j h1 h2
        have h1' : j < N'.models.length := by simpa [classes] using h1
        have h2' : j < M'.models.length := by simpa [classes] using h2
        have := pair j h2' h1'
        simp only [classes, List.getElem_map, Gmm.results]
        exact ⟨this.1.symm, this.2.2.1.symm⟩
      have hc : N'.classes[before.length]'(by rw [hlen]; exact hpos) = c := by simp [q1]
      refine ⟨M'.classes.take before.length, M'.classes[before.length], M'.classes.drop (before.length + 1), ?_, ?_, ?_, ?_⟩
      · simp
      · rw [q2, (hpair _ (by omega) hpos).1, hc]
      · intro b hb
        obtain ⟨j, hj, rfl⟩ := List.getElem_of_mem hb
        simp only [List.length_take] at hj
        rw [List.getElem_take, (hpair j (by omega) (by omega)).2, (hpair _ (by omega) hpos).2, hc]
        refine q3 _ ?_
        have : N'.classes[j]'(by omega) = before[j]'(by omega) := by simp [q1, List.getElem_append_left (show j < before.length by omega)]
        rw [this]
        exact List.getElem_mem _
      · intro b hb
        obtain ⟨j, hj, rfl⟩ := List.getElem_of_mem hb
        simp only [List.length_drop] at hj
        rw [List.getElem_drop, (hpair _ (by omega) (by omega)).2, (hpair _ (by omega) hpos).2, hc]
        refine q4 _ ?_
        have hj2 : before.length + 1 + j < (before ++ c :: after).length := by rw [← q1]; omega
        have hja : j < after.length := by simp at hj2; omega
        have : N'.classes[before.length + 1 + j]'(by omega) = after[j] := by
          simp only [q1]
          rw [List.getElem_append_right (by omega)]
          simp only [show before.length + 1 + j - before.length = j + 1 by omega, List.getElem_cons_succ]
        rw [this]
        exact List.getElem_mem _
  have hsortM' : SMap.Sorted (M'.classes : SMap String (ClassRes K)) := by
    have := c2.sorted
    unfold SMap.Sorted at this ⊢
    rw [classes, List.pairwise_map]
    exact this
  have hneM' : M'.classes ≠ [] := by
    intro h
    have : M'.models.length = 0 := by have := congrArg List.length h; simpa [classes] using this
    exact hne (List.eq_nil_of_length_eq_zero (by omega))
  have hres := summary_unique hsortM' hneM' s1 hnm
  refine ⟨M', N', by rw [bind_of_ret a1]; exact c1, by rw [bind_of_ret b1]; exact d1, hres, fun hb => ?_⟩
  have hbm1 : M1.bimodal = true := by rw [a4]; exact hb
  have hbn1 : N1.bimodal = true := by rw [b4]; exact n3.trans hb
  have o1 := s2 hbm1
  have o2 := s4 hbn1
  have hclasses : N'.classes = M'.classes := by
    refine List.ext_getElem (by simp [classes]; omega) fun i h1 h2 => ?_
    simp [classes] at h1 h2
    have := pair i h2 h1
    simp only [classes, List.getElem_map]
    rw [this.1, this.2.2.2 hb]
  have hest : N'.est = M'.est := by rw [d4, c4]; show N1.est = M1.est; rw [b4, a4]; exact n6
  have hdout : N'.dout = M'.dout := by rw [d4, c4]; show N1.dout = M1.dout; rw [b4, a4]; exact n4
  have hmod : N'.mode = M'.mode := by rw [d4, c4]; show N1.mode = M1.mode; rw [b4, a4]; exact n5
  have hlike : N'.results.likeliest = M'.results.likeliest := by rw [hres]
  have hsn : N'.results.smoothedNorm = M'.results.smoothedNorm := by rw [hres]
  have hfin : N'.results.outVals = M'.results.outVals ∧ N'.results.outCov = M'.results.outCov := by
    unfold OutputsOf at o1 o2
    rw [hest] at o2
    cases hE : M'.est with
    | likeliest =>
      rw [hE] at o1 o2
      simp only at o1 o2
      obtain ⟨c, t1, t2, t3⟩ := o1
      obtain ⟨c', t4, t5, t6⟩ := o2
      have w1 : (M'.results.likeliest, c.results) ∈ M'.classes := List.mem_map.2 ⟨_, t1, rfl⟩
      have w2 : (M'.results.likeliest, c'.results) ∈ M'.classes := by
        rw [← hclasses, ← hlike]; exact List.mem_map.2 ⟨_, t4, rfl⟩
      have := find?_unique hsortM' w1 w2
      unfold Gmm.results at this
      injection this with _ _ t7 t8
      rw [t5, t6, t2, t3]
      exact ⟨t7.symm, t8.symm⟩
    | mixture =>
      rw [hE] at o1 o2
      simp only at o1 o2
      have hlen : N'.models.length = M'.models.length := by omega
      rw [o1.1, o1.2, o2.1, o2.2, hclasses, hsn, hdout, hmod, hlen]
      exact ⟨rfl, rfl⟩
  rw [hres, hfin.1, hfin.2]

/-- Without `reset()` the results are undefined behaviour: a model of one class that has never been reset. -/
theorem C39_filter_without_reset_ub (D : Dens K) (hD : D.Sound) (log exp : K → K) (M : GmmModel K) (hi : M.training = false)
    (hn : M.nulls = []) (lc : String × Gmm K) (hm : M.models = [lc]) (hr : M.results.inst = []) (hc : lc.2.CanFilter)
    (x : List K) (hx : lc.2.Fits x) (hist : List K) (hl : Logs lc.2.buf lc.2.window hist) :
    filter D log exp x M = .ub := by
  obtain ⟨b, hb⟩ := class_step D hD log x lc hc hx hist hl
  obtain ⟨p, hp, _⟩ := hb.2.1
  unfold filter
  rw [bind_of_ret (checkTraining_idle hi), bind_of_ret (get_def M), if_neg (by simp [hn])]
  have : loop M.models.length () (fun _ i => filterClass D log x i) M = .ub := by
    rw [hm]
    show loop 1 () (fun _ i => filterClass D log x i) M = .ub
    rw [loop_succ]
    have h0 : loop 0 () (fun _ i => filterClass D log x i) M = .ret () M := rfl
    rw [h0]
    unfold filterClass
    simp only [bind_def, onClass, hm, List.getElem?_cons_zero, hp, get_def, MultiRes.wr, hr, List.length_nil, lt_irrefl, if_false,
      undef_def]
  rw [bind_def, this]

/-- the accumulation reads past the end of a vector that is too short -/
theorem addScaled_ub {σ : Type} (n : Nat) (b : K) (src dst : List K) (s : σ) (h1 : src.length < n) (h2 : n ≤ dst.length) :
    addScaled n b src dst s = .ub := by
  obtain ⟨r, e, l, _⟩ := addScaled_ret src.length b src dst s le_rfl (by omega)
  unfold addScaled at e ⊢
  have : ∀ t, src.length < t → loop t dst (fun dst d => do
      let y ← rd dst d
      let x ← rd src d
      pure (dst.set d (y + b * x))) s = .ub := by
    intro t ht
    induction t with
    | zero => omega
    | succ t ih =>
      rw [loop_succ]
      rcases Nat.lt_or_ge src.length t with h | h
      · rw [ih h]
      · obtain rfl : t = src.length := by omega
        rw [e]
        simp only
        rw [bind_of_ret (rd_lt (show src.length < r.length by omega) 0 s), bind_def]
        simp only [rd, List.getElem?_eq_none (le_refl src.length), undef_def]
  exact this n h1

/-- C69, when the covariance mode of the classes is the default one (`Usable.mode`; `C69_class_mode_ub` is what is missing): the output of
    a bimodal model is that of the likeliest class or the weighted average, according to the estimator. -/
theorem C69_outputs_partial (D : Dens K) (hD : D.Sound) (log exp : K → K) (hexp : ∀ x, 0 < exp x) (M : GmmModel K) (hu : M.Usable)
    (hb : M.bimodal = true) (hne : M.models ≠ []) (x : List K) (hx : ∀ lc ∈ M.models, lc.2.Fits x) :
    ∃ M', filter D log exp x M = .ret () M' ∧ M'.OutputsOf ∧ M'.est = M.est ∧ M'.dout = M.dout := by
  obtain ⟨M', h1, -, -, -, -, -, h2, h3⟩ := C39_filter D hD log exp hexp M hu hne x hx
  exact ⟨M', h1, h2 hb, by rw [h3], by rw [h3]⟩

/-- C69 is violated when a class has its own covariance mode: a class in Diagonal mode in a model whose default is Full has an
    output covariance that is too short, and the mixture estimator reads past its end (two outputs or more). -/
theorem C69_class_mode_ub (dout : Nat) (hd : 2 ≤ dout) (label : String) (c : ClassRes K) (r : MultiRes K)
    (hw : r.smoothedNorm.length = 1) (hv : c.outVals.length = dout) (hc : c.outCov.length = outCells .diagonal dout) :
    MultiRes.mixOutputs dout .full [(label, c)] r = .ub := by
  have hlt : dout < dout * dout := by nlinarith
  obtain ⟨r1, a1, a2, a3⟩ := addScaled_ret dout (r.smoothedNorm.getD 0 0) c.outVals (List.replicate dout 0) r hv.ge (by simp)
  have a4 := addScaled_ub (outCells .full dout) (r.smoothedNorm.getD 0 0) c.outCov
    (List.replicate (outCells .full dout) 0) r (by rw [hc]; simpa [outCells] using hlt) (by simp)
  unfold MultiRes.mixOutputs
  rw [bind_def]
  have : ([(label, c)].foldlM (fun acc lc => MultiRes.addClass dout .full acc lc.2)
      ((0, List.replicate dout 0, List.replicate (outCells .full dout) 0) : Nat × List K × List K)) r = .ub := by
    rw [List.foldlM_cons, bind_def]
    have : MultiRes.addClass dout .full (0, List.replicate dout 0, List.replicate (outCells .full dout) 0) c r = .ub := by
      unfold MultiRes.addClass
      rw [bind_of_ret (get_def r), bind_of_ret (rd_lt (by omega) 0 r), bind_of_ret a1, bind_def, a4]
    rw [this]
  rw [this]

/-- Non-vacuity: a usable bimodal model of two classes with two components each. -/
example : ∃ M : GmmModel ℝ, M.Usable ∧ M.models.length = 2 ∧ M.bimodal = true ∧ (∀ lc ∈ M.models, lc.2.Fits [1]) := by
  let g : ℝ → Gauss ℝ := fun μ => {
    bimodal := true, dim := 2, dimMin := 2, di := 1, diMax := 1, mode := .full, mean := [μ, μ], cov := [1, 0, 0, 1],
    inv := [1, 0, 0, 1], det := 1, invIn := [1], detIn := 1, outCov := [1] }
  let m : ℝ → Gmm ℝ := fun μ => {
    gaussians := 2, mode := .full, absReg := 1 / 1000, relReg := 1 / 100, bimodal := true, dim := 2, di := 1, window := 3,
    comps := [g 0, g μ], coeffs := [1 / 4, 3 / 4], beta := [0, 0], reg := [1 / 1000, 1 / 1000], training := false,
    buf := CBuf.construct 0 1 3, instant := 0, logLik := 0, outVals := [], outCov := [] }
  have hm : ∀ μ, (m μ).CanFilter := by
    intro μ
    refine ⟨⟨⟨by simp [m], rfl, rfl, rfl, ?_⟩, ⟨by intro x hx; simp [m] at hx; rcases hx with rfl | rfl <;> norm_num, by norm_num [m]⟩, ?_⟩,
      rfl, by simp [m], ?_⟩
    · intro g' hg'
      simp only [m, List.mem_cons, List.not_mem_nil, or_false] at hg'
      rcases hg' with rfl | rfl <;> exact ⟨⟨rfl, rfl, rfl, fun _ => rfl, by simp [g]⟩, rfl, rfl, rfl, rfl⟩
    · intro g' hg'
      simp only [m, List.mem_cons, List.not_mem_nil, or_false] at hg'
      rcases hg' with rfl | rfl <;> simp [g]
    · intro _ g' hg'
      simp only [m, List.mem_cons, List.not_mem_nil, or_false] at hg'
      rcases hg' with rfl | rfl <;> rfl
  refine ⟨{
    models := [("a", m 1), ("b", m 2)], nulls := [], bimodal := true, dout := 1, mode := .full, est := .mixture, training := false,
    results := ⟨[0, 0], [0, 0], [0, 0], [0, 0], [0, 0], "", [0], [0]⟩ }, ⟨rfl, rfl, ?_, ⟨rfl, rfl, rfl, rfl, rfl⟩, ?_, ?_, ?_⟩, rfl, rfl, ?_⟩
  · have : ("a" : String) < "b" := by decide
    simpa [SMap.Sorted] using this
  · intro lc hlc
    simp only [List.mem_cons, List.not_mem_nil, or_false] at hlc
    rcases hlc with rfl | rfl <;> exact ⟨hm _, rfl, rfl⟩
  · intro _ lc hlc
    simp only [List.mem_cons, List.not_mem_nil, or_false] at hlc
    rcases hlc with rfl | rfl <;> rfl
  · intro lc hlc
    simp only [List.mem_cons, List.not_mem_nil, or_false] at hlc
    rcases hlc with rfl | rfl <;> exact ⟨[], CBuf.Holds.init 0 3 (by omega)⟩
  · intro lc hlc
    simp only [List.mem_cons, List.not_mem_nil, or_false] at hlc
    rcases hlc with rfl | rfl <;> simp [Gmm.Fits, m]

end GmmModel
end Xmm
