import Verif.Model.TrainingSetStats
import Verif.Spec.TrainingSetStats
import Verif.Props.PhraseStats
import Mathlib.Algebra.BigOperators.Ring.Finset
set_option linter.unusedSimpArgs false
/- C24: statistics and normalisation of training sets. -/
namespace Xmm
open PhraseSpec Phrase TSStats TSStatsSpec
variable {K : Type}

/-- the phrases of the set are representations of the sequences `s`, all of dimension `dim` -/
structure Holds (o : Store K) (s : Nat → S K) (refs : List Nat) (dim : Nat) : Prop where
  rep : ∀ r ∈ refs, Rep (o r) (s r)
  coh : ∀ r ∈ refs, (s r).Coherent
  dim : ∀ r ∈ refs, (s r).dim = dim

theorem on_ret {α : Type} {r : Nat} {f : Prog (Phrase K) α} {o : Store K} {a : α} (h : f (o r) = .ret a (o r)) :
    TSStats.on r f o = .ret a o := by
  have : (fun q => if q = r then o r else o q) = o := by funext q; split <;> simp_all
  simp [TSStats.on, h, this]

theorem totalLength_ret {o : Store K} {s : Nat → S K} {refs : List Nat} {dim : Nat} (h : Holds o s refs dim) :
    totalLength refs o = .ret (frames s refs) o := by
  have := prog_foldlM_ret refs 0 (fun acc r => do
    let n ← TSStats.on (K := K) r (do let p ← Prog.get; pure p.length)
    pure (acc + n)) (fun acc r => acc + (s r).size) o (by
      intro a r hr
      rw [Prog.bind_def, on_ret (a := (s r).size) (by simp [(h.rep r hr).size])]
      rfl)
  have hs : ∀ (l : List Nat) (a : Nat), l.foldl (fun acc r => acc + (s r).size) a = a + (l.map fun r => (s r).size).sum := by
    intro l
    induction l with
    | nil => simp
    | cons x l ih => intro a; simp [ih]; omega
  rw [totalLength, this, hs, frames]; simp

theorem foldl_range_add' [AddCommMonoid K] (n : Nat) (v : Nat → K) (a : K) :
    (List.range n).foldl (fun acc t => acc + v t) a = a + ∑ t ∈ Finset.range n, v t := by
  induction n with
  | zero => simp
  | succ n ih => rw [List.range_succ, List.foldl_append, ih, Finset.sum_range_succ]; simp [add_assoc]

theorem sumOver_ret [Field K] {o : Store K} {s : Nat → S K} {refs : List Nat} {dim : Nat} (h : Holds o s refs dim)
    (d : Nat) (f : K → K) (body : K → Nat → Prog (Phrase K) K)
    (hb : ∀ r ∈ refs, ∀ a, ∀ t < (s r).size, body a t (o r) = .ret (a + f (colVal (s r) d t)) (o r)) :
    (refs.foldlM (fun acc r => TSStats.on r (do
      let p ← Prog.get
      loop p.length acc body)) 0 : Prog (Store K) K) o = .ret (colSum s refs d f) o := by
  have := prog_foldlM_ret refs (0 : K) (fun acc r => TSStats.on r (do
      let p ← Prog.get
      loop p.length acc body)) (fun acc r => acc + ∑ t ∈ Finset.range (s r).size, f (colVal (s r) d t)) o (by
        intro a r hr
        refine on_ret ?_
        have hl := prog_foldlM_ret (List.range (o r).length) a body (fun acc t => acc + f (colVal (s r) d t)) (o r)
          (fun a t ht => hb r hr a t (by rw [← (h.rep r hr).size]; exact List.mem_range.1 ht))
        simp only [Prog.bind_def, Prog.get_def, loop, hl]
        rw [foldl_range_add' _ (fun t => f (colVal (s r) d t)), (h.rep r hr).size])
  have hs : ∀ (l : List Nat) (a : K), l.foldl (fun acc r => acc + ∑ t ∈ Finset.range (s r).size, f (colVal (s r) d t)) a =
      a + (l.map fun r => ∑ t ∈ Finset.range (s r).size, f (colVal (s r) d t)).sum := by
    intro l
    induction l with
    | nil => simp
    | cons x l ih => intro a; simp [ih, add_assoc]
  rw [this, hs, colSum]; simp [colVal]

theorem meanAt_ret [Field K] {o : Store K} {s : Nat → S K} {refs : List Nat} {dim : Nat} (h : Holds o s refs dim)
    (d : Nat) (hd : d < dim) :
    TSStats.meanAt refs d o = .ret (colSum s refs d id / (frames s refs : K)) o := by
  have := sumOver_ret h d id (fun acc t => do let v ← Phrase.getValue t d; pure (acc + v)) (by
    intro r hr a t ht
    simp [(h.rep r hr).getValue_colVal (h.coh r hr) ht (by rw [h.dim r hr]; exact hd)])
  simp only [TSStats.meanAt, Prog.bind_def, this, totalLength_ret h, Prog.pure_def]

theorem stddevAt_ret [Field K] {o : Store K} {s : Nat → S K} {refs : List Nat} {dim : Nat} (h : Holds o s refs dim)
    (sqrt : K → K) (d : Nat) (hd : d < dim) (m : K) :
    TSStats.stddevAt sqrt refs d m o =
      .ret (sqrt (colSum s refs d (fun v => (v - m) * (v - m)) / (frames s refs : K))) o := by
  have := sumOver_ret h d (fun v => (v - m) * (v - m)) (fun acc t => do
      let v ← Phrase.getValue t d
      let w ← Phrase.getValue t d
      pure (acc + (v - m) * (w - m))) (by
    intro r hr a t ht
    simp [(h.rep r hr).getValue_colVal (h.coh r hr) ht (by rw [h.dim r hr]; exact hd)])
  simp only [TSStats.stddevAt, Prog.bind_def, this, totalLength_ret h, Prog.pure_def]

/-- the mean of column `d` -/
def meanOf [Field K] (s : Nat → S K) (refs : List Nat) (d : Nat) : K := colSum s refs d id / (frames s refs : K)

/-- the standard deviation of column `d` -/
def sdOf [Field K] (sqrt : K → K) (s : Nat → S K) (refs : List Nat) (d : Nat) : K :=
  sqrt (colSum s refs d (fun v => (v - meanOf s refs d) * (v - meanOf s refs d)) / (frames s refs : K))

theorem mean_ret [Field K] {o : Store K} {s : Nat → S K} {refs : List Nat} {dim : Nat} (h : Holds o s refs dim) :
    TSStats.mean dim refs o = .ret ((List.range dim).map (meanOf s refs)) o :=
  prog_mapM_ret _ _ _ _ fun d hd => meanAt_ret h d (List.mem_range.1 hd)

theorem sd_ret [Field K] {o : Store K} {s : Nat → S K} {refs : List Nat} {dim : Nat} (h : Holds o s refs dim)
    (sqrt : K → K) :
    TSStats.standardDeviation sqrt dim refs o = .ret ((List.range dim).map (sdOf sqrt s refs)) o :=
  prog_mapM_ret _ _ _ _ fun d hd => by
    simp only [Prog.bind_def, meanAt_ret h d (List.mem_range.1 hd)]
    exact stddevAt_ret h sqrt d (List.mem_range.1 hd) _

/-- the phrases held are those obtained by the phrase histories `ops r` -/
def FromHistories (b : Bool) (ops : Nat → List (Op K)) (o : Store K) (refs : List Nat) (dim : Nat) : Prop :=
  ∀ r ∈ refs, S.Admissible (ops r) (PhraseSpec.new K b) ∧
    (Phrase.run (ops r) (construct K true b)).map Prod.fst = some (o r) ∧
    (S.run (ops r) (PhraseSpec.new K b)).1.dim = dim

/-- the contents of phrase `r` -/
def contents (b : Bool) (ops : Nat → List (Op K)) (r : Nat) : S K := (S.run (ops r) (PhraseSpec.new K b)).1

theorem FromHistories.holds {b : Bool} {ops : Nat → List (Op K)} {o : Store K} {refs : List Nat} {dim : Nat}
    (h : FromHistories b ops o refs dim) : Holds o (contents b ops) refs dim := by
  have key : ∀ r ∈ refs, Rep (o r) (contents b ops r) ∧ (contents b ops r).Coherent := by
    intro r hr
    obtain ⟨ha, h1, _⟩ := h r hr
    obtain ⟨p, e, h2, h3⟩ := Phrase.reach (K := K) b (ops r) ha
    rw [e] at h1
    have : p = o r := by simpa using h1
    exact ⟨this ▸ h2, h3⟩
  exact ⟨fun r hr => (key r hr).1, fun r hr => (key r hr).2, fun r hr => (h r hr).2.2⟩

/-- C24 (mean and standard deviation): for every training set with at least one frame, whose phrases were built by
    admissible histories and have the dimension of the set, `mean()` and `standardDeviation()` return one entry per
    dimension: entry `d` of the mean is the average of column `d` over all frames of all phrases, and entry `d` of the
    standard deviation is non-negative with square the average squared distance to that mean. -/
theorem C24_mean_standardDeviation (b : Bool) (ops : Nat → List (Op ℝ)) (o : Store ℝ) (refs : List Nat) (dim : Nat)
    (h : FromHistories b ops o refs dim) (hn : 0 < frames (contents b ops) refs) :
    ∃ me sd, TSStats.mean dim refs o = .ret me o ∧ TSStats.standardDeviation Real.sqrt dim refs o = .ret sd o ∧
      me.length = dim ∧ sd.length = dim ∧
      ∀ d < dim, ∃ m σ, me[d]? = some m ∧ sd[d]? = some σ ∧ 0 ≤ σ ∧
        m * (frames (contents b ops) refs : ℝ) = colSum (contents b ops) refs d (fun v => v) ∧
        σ ^ 2 * (frames (contents b ops) refs : ℝ) = colSum (contents b ops) refs d (fun v => (v - m) ^ 2) := by
  have hh := h.holds
  refine ⟨_, _, mean_ret hh, sd_ret hh Real.sqrt, by simp, by simp, ?_⟩
  intro d hd
  have hpos : (0 : ℝ) < (frames (contents b ops) refs : ℝ) := Nat.cast_pos.2 hn
  refine ⟨meanOf (contents b ops) refs d, sdOf Real.sqrt (contents b ops) refs d, by simp [hd], by simp [hd],
    Real.sqrt_nonneg _, ?_, ?_⟩
  · rw [meanOf, div_mul_cancel₀ _ (ne_of_gt hpos)]; rfl
  · rw [sdOf, Real.sq_sqrt, div_mul_cancel₀ _ (ne_of_gt hpos)]
    · simp only [pow_two]
    · refine div_nonneg (List.sum_nonneg ?_) hpos.le
      intro x hx
      obtain ⟨r, _, rfl⟩ := List.mem_map.1 hx
      exact Finset.sum_nonneg fun t _ => mul_self_nonneg _

/-! ## normalisation -/

/-- the sequences after rescaling -/
def rescaled [Field K] (offset gain : List K) (s : S K) : S K := { s with ins := s.ins.map (affineFrame offset gain) }

theorem rescale_ret [Field K] (offset gain : List K) (dim : Nat) (ho : dim ≤ offset.length) (hg : dim ≤ gain.length)
    (s : Nat → S K) : ∀ (refs : List Nat) (o : Store K), refs.Nodup → Holds o s refs dim →
    (∀ r ∈ refs, (s r).bimodal = false) →
    ∃ o', TSStats.rescale offset gain refs o = .ret () o' ∧ (∀ r, r ∉ refs → o' r = o r) ∧
      ∀ r ∈ refs, Rep (o' r) (rescaled offset gain (s r)) ∧ o' r = { o r with data0 := (o' r).data0 } := by
  intro refs
  induction refs with
  | nil => intro o _ _ _; exact ⟨o, rfl, fun _ _ => rfl, by simp⟩
  | cons r rs ih =>
    intro o hnd h hb
    obtain ⟨hnr, hnd'⟩ := List.nodup_cons.1 hnd
    have hr := h.rep r List.mem_cons_self
    have hbr := hb r List.mem_cons_self
    have hdr := h.dim r List.mem_cons_self
    obtain ⟨p', e, rep', q⟩ := rescale_uni_loop hr hbr offset gain (by omega) (by omega) (s r).ins.length (le_refl _)
    simp only [List.take_length, List.drop_length, List.append_nil] at rep'
    have hl := (hr.uni hbr).2.1
    have e' : Phrase.rescale offset gain (o r) = .ret () p' := by
      simp only [Phrase.rescale, Prog.bind_def, Prog.get_def, hl]; exact e
    obtain ⟨o', e2, f2, r2⟩ := ih (fun q => if q = r then p' else o q) hnd' ⟨by
        intro x hx
        have : x ≠ r := fun hc => hnr (hc ▸ hx)
        simp only [this, if_false]; exact h.rep x (List.mem_cons_of_mem _ hx),
        fun x hx => h.coh x (List.mem_cons_of_mem _ hx), fun x hx => h.dim x (List.mem_cons_of_mem _ hx)⟩
      (fun x hx => hb x (List.mem_cons_of_mem _ hx))
    refine ⟨o', ?_, ?_, ?_⟩
    · simp only [TSStats.rescale, Prog.bind_def, TSStats.on, e', e2]
    · intro x hx
      rw [List.mem_cons, not_or] at hx
      rw [f2 x hx.2]; simp [hx.1]
    · intro x hx
      rcases List.mem_cons.1 hx with rfl | hx
      · rw [f2 x hnr]; simp only [if_true]; exact ⟨rep', q⟩
      · have hne : x ≠ r := fun hc => hnr (hc ▸ hx)
        have := r2 x hx
        simp only [hne, if_false] at this; exact this

theorem colVal_rescaled [Field K] {p : Phrase K} {s : S K} (h : Rep p s) (hb : s.bimodal = false) (offset gain : List K)
    {t d : Nat} (ht : t < s.size) (hd : d < s.dim) :
    colVal (rescaled offset gain s) d t = affine offset gain d (colVal s d t) := by
  obtain ⟨v, hv⟩ := h.value_some ht hd
  have hv' := hv
  simp only [S.value, hb, Bool.false_eq_true, if_false] at hv
  cases hf : s.ins[t]? with
  | none => rw [hf] at hv; simp at hv
  | some f =>
    rw [hf] at hv; simp only [Option.bind_some] at hv
    simp [colVal, hv', rescaled, S.value, hb, hf, affineFrame, hv]

theorem colSum_rescaled [Field K] {o : Store K} {s : Nat → S K} {refs : List Nat} {dim : Nat} (h : Holds o s refs dim)
    (hb : ∀ r ∈ refs, (s r).bimodal = false) (offset gain : List K) {d : Nat} (hd : d < dim) (f : K → K) :
    colSum (fun r => rescaled offset gain (s r)) refs d f = colSum s refs d (fun v => f (affine offset gain d v)) := by
  unfold colSum
  congr 1
  refine List.map_congr_left fun r hr => ?_
  have hs : (rescaled offset gain (s r)).size = (s r).size := by simp [rescaled, S.size, hb r hr]
  rw [hs]
  refine Finset.sum_congr rfl fun t ht => ?_
  have := colVal_rescaled (h.rep r hr) (hb r hr) offset gain (Finset.mem_range.1 ht) (by rw [h.dim r hr]; exact hd)
  rw [colVal] at this
  rw [this]; rfl

theorem colSum_mul [Field K] (s : Nat → S K) (refs : List Nat) (d : Nat) (f : K → K) (c : K) :
    colSum s refs d (fun v => f v * c) = colSum s refs d f * c := by
  unfold colSum
  rw [← List.sum_map_mul_right]
  congr 1
  exact List.map_congr_left fun r _ => by rw [Finset.sum_mul]

theorem colSum_sub [Field K] (s : Nat → S K) (refs : List Nat) (d : Nat) (f : K → K) (m : K) :
    colSum s refs d (fun v => f v - m) = colSum s refs d f - (frames s refs : K) * m := by
  unfold colSum frames
  induction refs with
  | nil => simp
  | cons r rs ih =>
    rw [List.map_cons, List.sum_cons, ih, List.map_cons, List.sum_cons, List.map_cons, List.sum_cons]
    simp only [Finset.sum_sub_distrib, Finset.sum_const, Finset.card_range, nsmul_eq_mul, Nat.cast_add]
    ring

/-- C24 (normalisation, unimodal): for every unimodal training set of distinct phrases built by admissible histories, of
    the dimension of the set, with at least one frame, `normalize()` returns; afterwards every phrase has the same number
    of frames and, in every column whose standard deviation was not zero, every value is its distance to the old mean
    divided by the old standard deviation, and `mean()` and `standardDeviation()` answer 0 and 1.  Phrases outside the
    set are untouched.  Bimodal sets and sets holding a phrase twice are not normalised: see
    `C24_normalize_bimodal_violated`, `C24_normalize_shared_violated`. -/
theorem C24_normalize_unimodal (ops : Nat → List (Op ℝ)) (o : Store ℝ) (refs : List Nat) (dim : Nat)
    (h : FromHistories false ops o refs dim) (hnd : refs.Nodup) (hn : 0 < frames (contents false ops) refs)
    (me sd : List ℝ) (hme : TSStats.mean dim refs o = .ret me o)
    (hsd : TSStats.standardDeviation Real.sqrt dim refs o = .ret sd o) :
    ∃ o' me' sd', TSStats.normalize Real.sqrt dim refs o = .ret () o' ∧
      TSStats.mean dim refs o' = .ret me' o' ∧ TSStats.standardDeviation Real.sqrt dim refs o' = .ret sd' o' ∧
      (∀ (d : Nat) σ, sd[d]? = some σ → σ ≠ 0 → me'[d]? = some 0 ∧ sd'[d]? = some 1) ∧
      (∀ r, r ∉ refs → o' r = o r) ∧
      ∀ r ∈ refs, (o' r).length = (o r).length ∧ ∀ t d v m σ, Phrase.getValue t d (o r) = .ret v (o r) →
        me[d]? = some m → sd[d]? = some σ → σ ≠ 0 → Phrase.getValue t d (o' r) = .ret ((v - m) / σ) (o' r) := by
  have hh := h.holds
  have hpos : (0 : ℝ) < (frames (contents false ops) refs : ℝ) := Nat.cast_pos.2 hn
  have hb : ∀ r ∈ refs, (contents false ops r).bimodal = false := fun r _ => (run_bimodal (ops r) _).trans rfl
  rw [mean_ret hh] at hme
  rw [sd_ret hh] at hsd
  simp only [Res.ret.injEq, and_true] at hme hsd
  have hml : me.length = dim := by rw [← hme]; simp
  have hsl : sd.length = dim := by rw [← hsd]; simp
  obtain ⟨o', e, f, r⟩ := rescale_ret me (sd.map fun g => 1 / g) dim (by omega) (by simp; omega)
    (contents false ops) refs o hnd hh hb
  have hh' : Holds o' (fun r => rescaled me (sd.map fun g => 1 / g) (contents false ops r)) refs dim :=
    ⟨fun q hq => (r q hq).1, fun q hq hc => by simp [rescaled, hb q hq] at hc, fun q hq => hh.dim q hq⟩
  have hfr : frames (fun r => rescaled me (sd.map fun g => 1 / g) (contents false ops r)) refs =
      frames (contents false ops) refs := by
    unfold frames; congr 1
    exact List.map_congr_left fun q hq => by simp [rescaled, S.size, hb q hq]
  have hmd : ∀ d < dim, me[d]? = some (meanOf (contents false ops) refs d) := by
    intro d hd; rw [← hme]; simp [hd]
  have hsdd : ∀ d < dim, sd[d]? = some (sdOf Real.sqrt (contents false ops) refs d) := by
    intro d hd; rw [← hsd]; simp [hd]
  have haff : ∀ d < dim, ∀ v, affine me (sd.map fun g => 1 / g) d v =
      (v - meanOf (contents false ops) refs d) * (1 / sdOf Real.sqrt (contents false ops) refs d) := by
    intro d hd v
    simp [affine, hmd d hd, hsdd d hd]
  have hm0 : ∀ d < dim, meanOf (fun r => rescaled me (sd.map fun g => 1 / g) (contents false ops r)) refs d = 0 := by
    intro d hd
    rw [meanOf, colSum_rescaled hh hb _ _ hd]
    simp only [haff d hd, id]
    rw [colSum_mul, colSum_sub _ _ _ (fun v => v)]
    have : (frames (contents false ops) refs : ℝ) * meanOf (contents false ops) refs d =
        colSum (contents false ops) refs d (fun v => v) := by
      rw [meanOf, mul_div_cancel₀ _ (ne_of_gt hpos)]; rfl
    rw [this]; simp
  have hs1 : ∀ d < dim, sdOf Real.sqrt (contents false ops) refs d ≠ 0 →
      sdOf Real.sqrt (fun r => rescaled me (sd.map fun g => 1 / g) (contents false ops r)) refs d = 1 := by
    intro d hd hσ
    rw [sdOf, hm0 d hd, colSum_rescaled hh hb _ _ hd, hfr]
    simp only [haff d hd, sub_zero]
    have h1 : ∀ v : ℝ, (v - meanOf (contents false ops) refs d) * (1 / sdOf Real.sqrt (contents false ops) refs d) *
        ((v - meanOf (contents false ops) refs d) * (1 / sdOf Real.sqrt (contents false ops) refs d)) =
        ((v - meanOf (contents false ops) refs d) * (v - meanOf (contents false ops) refs d)) *
          ((1 / sdOf Real.sqrt (contents false ops) refs d) ^ 2) := fun v => by ring
    simp only [h1]
    rw [colSum_mul, mul_div_right_comm]
    have h2 : colSum (contents false ops) refs d (fun v => (v - meanOf (contents false ops) refs d) *
        (v - meanOf (contents false ops) refs d)) / (frames (contents false ops) refs : ℝ) =
        sdOf Real.sqrt (contents false ops) refs d ^ 2 := by
      rw [sdOf, Real.sq_sqrt]
      refine div_nonneg (List.sum_nonneg ?_) hpos.le
      intro x hx
      obtain ⟨r, _, rfl⟩ := List.mem_map.1 hx
      exact Finset.sum_nonneg fun t _ => mul_self_nonneg _
    rw [h2, ← mul_pow, mul_one_div_cancel hσ]; simp
  refine ⟨o', _, _, ?_, mean_ret hh', sd_ret hh' Real.sqrt, ?_, f, ?_⟩
  · simp only [TSStats.normalize, Prog.bind_def, mean_ret hh, sd_ret hh, hme, hsd]
    exact e
  · intro d σ hd hσ
    have hdim : d < dim := by
      rw [← hsl]; exact (List.getElem?_eq_some_iff.1 hd).1
    rw [hsdd d hdim, Option.some.injEq] at hd
    rw [← hd] at hσ
    rw [List.getElem?_map, List.getElem?_map, List.getElem?_range hdim]
    exact ⟨congrArg some (hm0 d hdim), congrArg some (hs1 d hdim hσ)⟩
  · intro q hq
    refine ⟨by rw [(r q hq).2], ?_⟩
    intro t d v m σ hv hm hσ _
    rw [(hh.rep q hq).getValue (hh.coh q hq)] at hv
    have hval : (contents false ops q).value t d = some v := by
      unfold expectedRead at hv
      cases hs : (contents false ops q).value t d with
      | none => rw [hs] at hv; simp at hv
      | some w => rw [hs] at hv; simp at hv; rw [hv]
    rw [(hh'.rep q hq).getValue (hh'.coh q hq), expectedRead]
    have : S.value (rescaled me (sd.map fun g => 1 / g) (contents false ops q)) t d = some ((v - m) / σ) := by
      simp only [S.value, rescaled, hb q hq, Bool.false_eq_true, if_false] at hval ⊢
      rw [List.getElem?_map]
      cases hf : (contents false ops q).ins[t]? with
      | none => rw [hf] at hval; simp at hval
      | some f =>
        rw [hf] at hval
        simp only [Option.bind_some] at hval
        simp [affineFrame, hval, affine, hm, hσ, div_eq_mul_inv]
    rw [this]

/-! ## bounds -/

theorem minmax_list [LinearOrder K] (l : List K) (M m : K) :
    let r := l.foldl (fun acc v => (min v acc.1, max v acc.2)) (M, m)
    (r.1 ≤ M ∧ (∀ v ∈ l, r.1 ≤ v) ∧ (r.1 = M ∨ r.1 ∈ l)) ∧ (m ≤ r.2 ∧ (∀ v ∈ l, v ≤ r.2) ∧ (r.2 = m ∨ r.2 ∈ l)) := by
  induction l generalizing M m with
  | nil => simp
  | cons x l ih =>
    obtain ⟨⟨a1, a2, a3⟩, b1, b2, b3⟩ := ih (min x M) (max x m)
    simp only [List.foldl_cons]
    refine ⟨⟨le_trans a1 (min_le_right _ _), ?_, ?_⟩, le_trans (le_max_right _ _) b1, ?_, ?_⟩
    · intro v hv
      rcases List.mem_cons.1 hv with rfl | hv
      · exact le_trans a1 (min_le_left _ _)
      · exact a2 v hv
    · rcases a3 with h | h
      · rcases min_choice x M with h' | h'
        · right; rw [h, h']; exact List.mem_cons_self
        · left; rw [h, h']
      · exact Or.inr (List.mem_cons_of_mem _ h)
    · intro v hv
      rcases List.mem_cons.1 hv with rfl | hv
      · exact le_trans (le_max_left _ _) b1
      · exact b2 v hv
    · rcases b3 with h | h
      · rcases max_choice x m with h' | h'
        · right; rw [h, h']; exact List.mem_cons_self
        · left; rw [h, h']
      · exact Or.inr (List.mem_cons_of_mem _ h)

/-- number of values of column `d` -/
def colLen (s : S K) (d : Nat) : Nat :=
  if s.bimodal then (if d < s.di then s.ins.length else s.outs.length) else s.ins.length

theorem value_colLen {p : Phrase K} {s : S K} (h : Rep p s) {d : Nat} (hd : d < s.dim) (t : Nat) :
    (t < colLen s d → ∃ v, s.value t d = some v) ∧ (∀ v, s.value t d = some v → t < colLen s d) := by
  cases hb : s.bimodal with
  | false =>
    obtain ⟨b0, _⟩ := h.uni hb
    simp only [colLen, hb, Bool.false_eq_true, if_false, S.value]
    constructor
    · intro ht
      obtain ⟨f, v, e1, e2, _⟩ := b0.read_isSome t d ht hd
      exact ⟨v, by simp [e1, e2]⟩
    · intro v hv
      by_contra hc
      rw [List.getElem?_eq_none (by omega)] at hv; simp at hv
  | true =>
    obtain ⟨b0, b1, _⟩ := h.bi hb
    by_cases hdi : d < s.di
    · simp only [colLen, hb, if_true, S.value, hdi]
      constructor
      · intro ht
        obtain ⟨f, v, e1, e2, _⟩ := b0.read_isSome t d ht hdi
        exact ⟨v, by simp [e1, e2]⟩
      · intro v hv
        by_contra hc
        rw [List.getElem?_eq_none (by omega)] at hv; simp at hv
    · simp only [colLen, hb, if_true, S.value, hdi, if_false]
      constructor
      · intro ht
        obtain ⟨f, v, e1, e2, _⟩ := b1.read_isSome t (d - s.di) ht (by omega)
        exact ⟨v, by simp [e1, e2]⟩
      · intro v hv
        by_contra hc
        rw [List.getElem?_eq_none (by omega)] at hv; simp at hv

/-- C24 (bounds): for every training set, unimodal or bimodal, whose phrases were built by admissible histories with the
    set's dimensions and values in the float range, `minmax()` returns one pair per dimension; the pair of column `d`
    bounds every value of the column in every phrase and, when the column has a value, both bounds are values of it. -/
theorem C24_minmax [Field K] [LinearOrder K] (b : Bool) (ops : Nat → List (Op K)) (o : Store K) (refs : List Nat)
    (dim di : Nat) (fmax flowest : K) (h : FromHistories b ops o refs dim)
    (hdi : b = true → ∀ r ∈ refs, (contents b ops r).di = di)
    (hr : ∀ r ∈ refs, ∀ t d v, (contents b ops r).value t d = some v → flowest ≤ v ∧ v ≤ fmax) :
    ∃ mm, TSStats.minmax fmax flowest b dim di refs o = .ret mm o ∧ mm.length = dim ∧
      ∀ d < dim, ∃ lo hi, mm[d]? = some (lo, hi) ∧
        (∀ r ∈ refs, ∀ t v, (contents b ops r).value t d = some v → lo ≤ v ∧ v ≤ hi) ∧
        ((∃ r ∈ refs, ∃ t v, (contents b ops r).value t d = some v) →
          (∃ r ∈ refs, ∃ t, (contents b ops r).value t d = some lo) ∧
          (∃ r ∈ refs, ∃ t, (contents b ops r).value t d = some hi)) := by
  have hh := h.holds
  have hbm : ∀ r, (contents b ops r).bimodal = b := fun r => (run_bimodal (ops r) _).trans (by cases b <;> rfl)
  have hcol : ∀ r ∈ refs, ∀ d, (if b then (if d < di then (o r).inputLength else (o r).outputLength) else (o r).length) =
      colLen (contents b ops r) d := by
    intro r hq d
    have hR := hh.rep r hq
    cases b with
    | false =>
      have := hbm r
      simp [colLen, this, (hR.uni this).2.1]
    | true =>
      have := hbm r
      obtain ⟨_, _, l0, l1, _⟩ := hR.bi this
      simp [colLen, this, hdi rfl r hq, l0, l1]
  let vals : Nat → Nat → List K := fun d r => (List.range (colLen (contents b ops r) d)).map (colVal (contents b ops r) d)
  have key : ∀ d < dim, TSStats.minmaxAt fmax flowest b di refs d o =
      .ret ((refs.flatMap (vals d)).foldl (fun acc v => (min v acc.1, max v acc.2)) (fmax, flowest)) o := by
    intro d hd
    rw [List.foldl_flatMap]
    refine prog_foldlM_ret refs _ _ _ o ?_
    intro a r hr'
    refine on_ret ?_
    simp only [Prog.bind_def, Prog.get_def, hcol r hr' d]
    simp only [vals, List.foldl_map]
    refine prog_foldlM_ret _ _ _ _ _ ?_
    intro a t ht
    have hd' : d < (contents b ops r).dim := by rw [hh.dim r hr']; exact hd
    obtain ⟨v, hv⟩ := (value_colLen (hh.rep r hr') hd' t).1 (List.mem_range.1 ht)
    have : Phrase.getValue t d (o r) = .ret (colVal (contents b ops r) d t) (o r) := by
      rw [(hh.rep r hr').getValue (hh.coh r hr'), expectedRead, hv, colVal, hv]; rfl
    simp [this]
  have hmem : ∀ d < dim, ∀ v, v ∈ refs.flatMap (vals d) ↔ ∃ r ∈ refs, ∃ t, (contents b ops r).value t d = some v := by
    intro d hd v
    simp only [List.mem_flatMap, vals, List.mem_map, List.mem_range]
    constructor
    · rintro ⟨r, hr', t, ht, rfl⟩
      obtain ⟨w, hw⟩ := (value_colLen (hh.rep r hr') (by rw [hh.dim r hr']; exact hd) t).1 ht
      exact ⟨r, hr', t, by simp [colVal, hw]⟩
    · rintro ⟨r, hr', t, hv⟩
      exact ⟨r, hr', t, (value_colLen (hh.rep r hr') (by rw [hh.dim r hr']; exact hd) t).2 v hv, by simp [colVal, hv]⟩
  refine ⟨_, prog_mapM_ret _ _ _ _ fun d hd => key d (List.mem_range.1 hd), by simp, ?_⟩
  intro d hd
  obtain ⟨⟨a1, a2, a3⟩, b1, b2, b3⟩ := minmax_list (refs.flatMap (vals d)) fmax flowest
  refine ⟨_, _, by simp [hd]; rfl, ?_, ?_⟩
  · intro r hr' t v hv
    have := (hmem d hd v).2 ⟨r, hr', t, hv⟩
    exact ⟨a2 v this, b2 v this⟩
  · rintro ⟨r, hr', t, v, hv⟩
    have hvm := (hmem d hd v).2 ⟨r, hr', t, hv⟩
    have hrange := hr r hr' t d v hv
    refine ⟨(hmem d hd _).1 ?_, (hmem d hd _).1 ?_⟩
    · rcases a3 with h' | h'
      · have : v = fmax := le_antisymm hrange.2 (h' ▸ a2 v hvm)
        rw [h', ← this]; exact hvm
      · exact h'
    · rcases b3 with h' | h'
      · have : v = flowest := le_antisymm (h' ▸ b2 v hvm) hrange.1
        rw [h', ← this]; exact hvm
      · exact h'

/-! ## non-vacuity and negative results -/

/-- two unimodal phrases: values 3, -1 and 5 -/
def demoOps : Nat → List (Op ℝ) := fun r => if r = 0 then [.record [3], .record [-1]] else [.record [5]]

theorem demo_from : ∃ o, FromHistories false demoOps o [0, 1] 1 := by
  have key : ∀ r, ∃ p, S.Admissible (demoOps r) (PhraseSpec.new ℝ false) ∧
      (Phrase.run (demoOps r) (construct ℝ true false)).map Prod.fst = some p ∧
      (S.run (demoOps r) (PhraseSpec.new ℝ false)).1.dim = 1 := by
    intro r
    have ha := PhraseSpec.admissible_unimodal (PhraseSpec.new ℝ false) rfl (demoOps r)
    obtain ⟨p, e, _⟩ := Phrase.reach (K := ℝ) false (demoOps r) ha
    refine ⟨p, ha, by rw [e]; rfl, ?_⟩
    by_cases hr : r = 0 <;> simp [demoOps, hr, S.run, S.step, PhraseSpec.new]
  exact ⟨fun r => (key r).choose, fun r _ => (key r).choose_spec⟩

theorem demo_frames : frames (contents false demoOps) [0, 1] = 3 := by
  simp [frames, contents, demoOps, S.run, S.step, PhraseSpec.new, S.size]

/-- the hypotheses of the three theorems hold of a set of two phrases -/
example : ∃ o, FromHistories false demoOps o [0, 1] 1 ∧ [0, 1].Nodup ∧ 0 < frames (contents false demoOps) [0, 1] ∧
    ∃ me sd, TSStats.mean 1 [0, 1] o = .ret me o ∧ TSStats.standardDeviation Real.sqrt 1 [0, 1] o = .ret sd o ∧
      sd.length = 1 ∧ ∀ x ∈ sd, x ≠ 0 := by
  obtain ⟨o, h⟩ := demo_from
  refine ⟨o, h, by decide, by rw [demo_frames]; norm_num, _, _, mean_ret h.holds, sd_ret h.holds Real.sqrt, by simp, ?_⟩
  intro x hx
  simp only [List.range_one, List.map_cons, List.map_nil, List.mem_singleton] at hx
  rw [hx, sdOf, Real.sqrt_ne_zero', demo_frames]
  have h1 : ∀ f : ℝ → ℝ, colSum (contents false demoOps) [0, 1] 0 f = f 3 + f (-1) + f 5 := by
    intro f
    simp [colSum, contents, demoOps, S.run, S.step, PhraseSpec.new, S.size, S.value, Finset.sum_range_succ]
  rw [meanOf, demo_frames, h1, h1]
  norm_num

/-- a stand-in for the square root on the only argument it receives below, 1 -/
def sqrt1 (x : ℚ) : ℚ := if x = 1 then 1 else 0

/-- the means reported after normalising a set -/
def meanAfterNormalize (dim : Nat) (refs : List Nat) (o : Store ℚ) : Option (List ℚ) :=
  match TSStats.normalize sqrt1 dim refs o with
  | .ret _ o' => match TSStats.mean dim refs o' with
    | .ret m _ => some m
    | _ => none
  | _ => none

/-- C24 fails for bimodal sets (a defect inherited from `Phrase::rescale`): a set holding one bimodal phrase with inputs
    0, 2 and outputs 0, 2, 7 has mean 1 and standard deviation 1 in both columns; after `normalize()` the mean of the
    output column is 1/2, not 0. -/
theorem C24_normalize_bimodal_violated :
    ((Phrase.run [.recordInput [0], .recordInput [2], .recordOutput [0], .recordOutput [2], .recordOutput [7]]
      (construct ℚ true true)).bind fun p => meanAfterNormalize 2 [0] fun _ => p.1) = some [0, 1 / 2] := by
  decide +kernel

/-- C24 fails when the same phrase object is held under two indices: it is rescaled once per index.  The phrase holds
    0 and 2; after `normalize()` the mean of the set is -1. -/
theorem C24_normalize_shared_violated :
    ((Phrase.run [.record [0], .record [2]] (construct ℚ true false)).bind
      fun p => meanAfterNormalize 1 [0, 0] fun _ => p.1) = some [-1] := by
  decide +kernel

/-- the same phrase under one index is normalised -/
example : ((Phrase.run [.record [0], .record [2]] (construct ℚ true false)).bind
      fun p => meanAfterNormalize 1 [0] fun _ => p.1) = some [0] := by
  decide +kernel

end Xmm
