import Verif.Model.PhraseStats
import Verif.Props.Phrase
import Mathlib.Algebra.BigOperators.Group.Finset.Basic
import Mathlib.Algebra.Order.BigOperators.Group.Finset
import Mathlib.Tactic.FieldSimp
import Mathlib.Tactic.NormNum
import Mathlib.Analysis.SpecialFunctions.Sqrt
set_option linter.unusedSimpArgs false
/- C19, C20: statistics and rescaling of phrases. -/
namespace Xmm
open PhraseSpec Phrase
variable {K : Type}

theorem prog_foldlM_ret {σ α β : Type} (l : List β) (init : α) (body : α → β → Prog σ α) (f : α → β → α) (s : σ)
    (h : ∀ a, ∀ b ∈ l, body a b s = .ret (f a b) s) : (l.foldlM body init : Prog σ α) s = .ret (l.foldl f init) s := by
  induction l generalizing init with
  | nil => rfl
  | cons b l ih =>
    simp only [List.foldlM_cons, Prog.bind_def, h init b List.mem_cons_self, List.foldl_cons]
    exact ih _ fun a c hc => h a c (List.mem_cons_of_mem _ hc)

theorem loop_succ {σ α : Type} (n : Nat) (init : α) (body : α → Nat → Prog σ α) (s : σ) :
    loop (n + 1) init body s = match loop n init body s with
      | .ret a s' => body a n s'
      | .throw e s' => .throw e s'
      | .ub => .ub := by
  have h : ∀ (l : List Nat) (init : α) (s : σ), (List.foldlM body init (l ++ [n]) : Prog σ α) s =
      match (List.foldlM body init l : Prog σ α) s with
      | .ret a s' => body a n s'
      | .throw e s' => .throw e s'
      | .ub => .ub := by
    intro l
    induction l with
    | nil =>
      intro init s
      simp only [List.nil_append, List.foldlM_cons, List.foldlM_nil, Prog.bind_def, Prog.pure_def]
      cases body init n s <;> rfl
    | cons b l ih =>
      intro init s
      simp only [List.cons_append, List.foldlM_cons, Prog.bind_def]
      cases body init b s with
      | ret a s' => exact ih a s'
      | throw e s' => rfl
      | ub => rfl
  unfold loop
  rw [List.range_succ]
  exact h _ _ _

theorem prog_mapM_ret {σ α β : Type} (l : List β) (body : β → Prog σ α) (f : β → α) (s : σ)
    (h : ∀ b ∈ l, body b s = .ret (f b) s) : (l.mapM body : Prog σ (List α)) s = .ret (l.map f) s := by
  have hl : ∀ (l : List β) (acc : List α), (∀ b ∈ l, body b s = .ret (f b) s) →
      (List.mapM.loop body l acc : Prog σ (List α)) s = .ret (acc.reverse ++ l.map f) s := by
    intro l
    induction l with
    | nil => intro acc _; simp [List.mapM.loop]
    | cons b l ih =>
      intro acc h
      simp only [List.mapM.loop, Prog.bind_def, h b List.mem_cons_self]
      rw [ih _ fun c hc => h c (List.mem_cons_of_mem _ hc)]
      simp
  simpa [List.mapM] using hl l [] h

theorem foldl_range_add [AddCommMonoid K] (n : Nat) (v : Nat → K) :
    (List.range n).foldl (fun acc t => acc + v t) 0 = ∑ t ∈ Finset.range n, v t := by
  induction n with
  | zero => rfl
  | succ n ih => rw [List.range_succ, List.foldl_append, ih, Finset.sum_range_succ]; rfl

/-- in-range values exist -/
theorem Phrase.Rep.value_some {p : Phrase K} {s : S K} (h : Rep p s) {t d : Nat} (ht : t < s.size)
    (hd : d < s.dim) : ∃ v, s.value t d = some v := by
  cases hb : s.bimodal with
  | false =>
    obtain ⟨b0, _⟩ := h.uni hb
    simp only [S.size, hb, Bool.false_eq_true, if_false] at ht
    obtain ⟨f, v, e1, e2, _⟩ := b0.read_isSome t d ht hd
    exact ⟨v, by simp [S.value, hb, e1, e2]⟩
  | true =>
    obtain ⟨b0, b1, _⟩ := h.bi hb
    simp only [S.size, hb, if_true] at ht
    by_cases hdi : d < s.di
    · obtain ⟨f, v, e1, e2, _⟩ := b0.read_isSome t d (by omega) hdi
      exact ⟨v, by simp [S.value, hb, hdi, e1, e2]⟩
    · obtain ⟨f, v, e1, e2, _⟩ := b1.read_isSome t (d - s.di) (by omega) (by omega)
      exact ⟨v, by simp [S.value, hb, hdi, e1, e2]⟩

/-- value at frame `t`, column `d` (0 outside) -/
def colVal [Zero K] (s : S K) (d t : Nat) : K := (s.value t d).getD 0

theorem Phrase.Rep.getValue_colVal [Zero K] {p : Phrase K} {s : S K} (h : Rep p s) (hc : s.Coherent) {t d : Nat}
    (ht : t < s.size) (hd : d < s.dim) : Phrase.getValue t d p = .ret (colVal s d t) p := by
  obtain ⟨v, hv⟩ := h.value_some ht hd
  rw [h.getValue hc, expectedRead, hv, colVal, hv]; rfl

theorem Phrase.Rep.meanAt [Field K] {p : Phrase K} {s : S K} (h : Rep p s) (hc : s.Coherent) (d : Nat) (hd : d < s.dim) :
    Phrase.meanAt d p = .ret ((∑ t ∈ Finset.range s.size, colVal s d t) / (s.size : K)) p := by
  have hl := prog_foldlM_ret (List.range p.length) (0 : K)
    (fun acc t => do let v ← Phrase.getValue t d; pure (acc + v)) (fun acc t => acc + colVal s d t) p
    (by
      intro a t ht
      have ht' : t < s.size := by rw [← h.size]; exact List.mem_range.1 ht
      simp [h.getValue_colVal hc ht' hd])
  simp only [Phrase.meanAt, loop, Prog.bind_def, Prog.get_def, hl, Prog.pure_def]
  rw [foldl_range_add, h.size]

theorem minmax_fold [LinearOrder K] (v : Nat → K) (M m : K) (n : Nat) :
    let r := (List.range n).foldl (fun acc t => (min (v t) acc.1, max (v t) acc.2)) (M, m)
    (r.1 ≤ M ∧ (∀ t < n, r.1 ≤ v t) ∧ (r.1 = M ∨ ∃ t < n, r.1 = v t)) ∧
    (m ≤ r.2 ∧ (∀ t < n, v t ≤ r.2) ∧ (r.2 = m ∨ ∃ t < n, r.2 = v t)) := by
  induction n with
  | zero => simp
  | succ n ih =>
    rw [List.range_succ, List.foldl_append]
    obtain ⟨⟨a1, a2, a3⟩, b1, b2, b3⟩ := ih
    generalize (List.range n).foldl (fun acc t => (min (v t) acc.1, max (v t) acc.2)) (M, m) = r at *
    simp only [List.foldl_cons, List.foldl_nil]
    refine ⟨⟨le_trans (min_le_right _ _) a1, ?_, ?_⟩, le_trans b1 (le_max_right _ _), ?_, ?_⟩
    · intro t ht
      rcases Nat.lt_succ_iff_lt_or_eq.1 ht with h | rfl
      · exact le_trans (min_le_right _ _) (a2 t h)
      · exact min_le_left _ _
    · rcases min_choice (v n) r.1 with h | h
      · exact Or.inr ⟨n, Nat.lt_succ_self n, h⟩
      · rw [h]
        rcases a3 with h' | ⟨t, ht, h'⟩
        · exact Or.inl h'
        · exact Or.inr ⟨t, by omega, h'⟩
    · intro t ht
      rcases Nat.lt_succ_iff_lt_or_eq.1 ht with h | rfl
      · exact le_trans (b2 t h) (le_max_right _ _)
      · exact le_max_left _ _
    · rcases max_choice (v n) r.2 with h | h
      · exact Or.inr ⟨n, Nat.lt_succ_self n, h⟩
      · rw [h]
        rcases b3 with h' | ⟨t, ht, h'⟩
        · exact Or.inl h'
        · exact Or.inr ⟨t, by omega, h'⟩

theorem Phrase.Rep.minmaxAt [Field K] [LinearOrder K] {p : Phrase K} {s : S K} (h : Rep p s) (hc : s.Coherent)
    (M m : K) (d : Nat) (hd : d < s.dim) :
    Phrase.minmaxAt M m d p = .ret ((List.range s.size).foldl
      (fun acc t => (min (colVal s d t) acc.1, max (colVal s d t) acc.2)) (M, m)) p := by
  have hl := prog_foldlM_ret (List.range p.length) (M, m)
    (fun acc t => do
      let v ← Phrase.getValue t d
      let w ← Phrase.getValue t d
      pure (min v acc.1, max w acc.2))
    (fun acc t => (min (colVal s d t) acc.1, max (colVal s d t) acc.2)) p
    (by
      intro a t ht
      have ht' : t < s.size := by rw [← h.size]; exact List.mem_range.1 ht
      simp [h.getValue_colVal hc ht' hd])
  simp only [Phrase.minmaxAt, loop, Prog.bind_def, Prog.get_def]
  rw [← h.size]; exact hl

/-- C20: for every phrase built by an admissible history, with at least one frame and with values in the float range
    `[flowest, fmax]`: `minmax()` and `mean()` return one entry per dimension; the bounds of entry `d` are attained
    in column `d` and bound it, and the mean is the average of the column and lies between them. -/
theorem C20_minmax_mean [Field K] [LinearOrder K] [IsStrictOrderedRing K] (b : Bool) (ops : List (Op K))
    (ha : S.Admissible ops (PhraseSpec.new K b)) (fmax flowest : K)
    (hsize : 0 < (S.run ops (PhraseSpec.new K b)).1.size)
    (hr : ∀ t d v, (S.run ops (PhraseSpec.new K b)).1.value t d = some v → flowest ≤ v ∧ v ≤ fmax) :
    let s := (S.run ops (PhraseSpec.new K b)).1
    ∃ p mm me, (Phrase.run ops (construct K true b)).map Prod.fst = some p ∧
      Phrase.minmax fmax flowest p = .ret mm p ∧ Phrase.mean p = .ret me p ∧
      mm.length = s.dim ∧ me.length = s.dim ∧
      ∀ d (_ : d < s.dim), ∃ lo hi m, mm[d]? = some (lo, hi) ∧ me[d]? = some m ∧
        (∃ t < s.size, s.value t d = some lo) ∧ (∃ t < s.size, s.value t d = some hi) ∧
        (∀ t < s.size, ∃ v, s.value t d = some v ∧ lo ≤ v ∧ v ≤ hi) ∧
        m * (s.size : K) = ∑ t ∈ Finset.range s.size, (s.value t d).getD 0 ∧ lo ≤ m ∧ m ≤ hi := by
  obtain ⟨p, h1, h2, h3⟩ := Phrase.reach (K := K) b ops ha
  generalize (S.run ops (PhraseSpec.new K b)).1 = s at *
  have hmm := prog_mapM_ret (List.range p.dimension) (Phrase.minmaxAt fmax flowest) _ p
    (fun d hd => h2.minmaxAt h3 fmax flowest d (by rw [← h2.dim]; exact List.mem_range.1 hd))
  have hme := prog_mapM_ret (List.range p.dimension) Phrase.meanAt _ p
    (fun d hd => h2.meanAt h3 d (by rw [← h2.dim]; exact List.mem_range.1 hd))
  refine ⟨p, _, _, by rw [h1]; rfl, hmm, hme, by simp [h2.dim], by simp [h2.dim], ?_⟩
  intro d hd
  have hd' : d < p.dimension := by rw [h2.dim]; exact hd
  obtain ⟨⟨a1, a2, a3⟩, b1, b2, b3⟩ := minmax_fold (colVal s d) fmax flowest s.size
  generalize hrr : (List.range s.size).foldl
    (fun acc t => (min (colVal s d t) acc.1, max (colVal s d t) acc.2)) (fmax, flowest) = r at *
  have hval : ∀ t < s.size, s.value t d = some (colVal s d t) := by
    intro t ht
    obtain ⟨v, hv⟩ := h2.value_some ht hd
    simp [colVal, hv]
  have hpos : (0 : K) < (s.size : K) := Nat.cast_pos.2 hsize
  refine ⟨r.1, r.2, _, by simp [hd', hrr], by simp [hd']; rfl, ?_, ?_, ?_, ?_, ?_, ?_⟩
  · rcases a3 with h | ⟨t, ht, h⟩
    · refine ⟨0, hsize, ?_⟩
      have : r.1 = colVal s d 0 := le_antisymm (a2 0 hsize) (h ▸ (hr 0 d _ (hval 0 hsize)).2)
      rw [this]; exact hval 0 hsize
    · exact ⟨t, ht, by rw [h]; exact hval t ht⟩
  · rcases b3 with h | ⟨t, ht, h⟩
    · refine ⟨0, hsize, ?_⟩
      have : r.2 = colVal s d 0 := le_antisymm (h ▸ (hr 0 d _ (hval 0 hsize)).1) (b2 0 hsize)
      rw [this]; exact hval 0 hsize
    · exact ⟨t, ht, by rw [h]; exact hval t ht⟩
  · exact fun t ht => ⟨_, hval t ht, a2 t ht, b2 t ht⟩
  · rw [div_mul_cancel₀ _ (ne_of_gt hpos)]; rfl
  · rw [le_div_iff₀ hpos]
    have := Finset.card_nsmul_le_sum (Finset.range s.size) (colVal s d) r.1
      (fun t ht => a2 t (Finset.mem_range.1 ht))
    simpa [nsmul_eq_mul, mul_comm] using this
  · rw [div_le_iff₀ hpos]
    have := Finset.sum_le_card_nsmul (Finset.range s.size) (colVal s d) r.2
      (fun t ht => b2 t (Finset.mem_range.1 ht))
    simpa [nsmul_eq_mul, mul_comm] using this

/-- non-vacuity -/
example : 0 < (S.run [.record [(3 : ℚ)], .record [-1]] (PhraseSpec.new ℚ false)).1.size ∧
    ∀ t d v, (S.run [.record [(3 : ℚ)], .record [-1]] (PhraseSpec.new ℚ false)).1.value t d = some v →
      -1000 ≤ v ∧ v ≤ 1000 := by
  refine ⟨by decide, ?_⟩
  intro t d v hv
  have hs : (S.run [.record [(3 : ℚ)], .record [-1]] (PhraseSpec.new ℚ false)).1 =
    ⟨false, 1, 0, 0, 0, [[3], [-1]], []⟩ := rfl
  rw [hs] at hv
  simp only [S.value, Bool.false_eq_true, if_false] at hv
  match t, d, hv with
  | 0, 0, hv => simp at hv; subst hv; norm_num
  | 1, 0, hv => simp at hv; subst hv; norm_num
  | 0, d + 1, hv => simp at hv
  | 1, d + 1, hv => simp at hv
  | t + 2, d, hv => simp at hv

theorem Phrase.Rep.stddevAt [Field K] {p : Phrase K} {s : S K} (h : Rep p s) (hc : s.Coherent) (sqrt : K → K) (d : Nat)
    (hd : d < s.dim) (m : K) :
    Phrase.stddevAt sqrt d m p =
      .ret (sqrt ((∑ t ∈ Finset.range s.size, (colVal s d t - m) * (colVal s d t - m)) / (s.size : K))) p := by
  have hl := prog_foldlM_ret (List.range p.length) (0 : K)
    (fun acc t => do
      let v ← Phrase.getValue t d
      let w ← Phrase.getValue t d
      pure (acc + (v - m) * (w - m)))
    (fun acc t => acc + (colVal s d t - m) * (colVal s d t - m)) p
    (by
      intro a t ht
      have ht' : t < s.size := by rw [← h.size]; exact List.mem_range.1 ht
      simp [h.getValue_colVal hc ht' hd])
  simp only [Phrase.stddevAt, loop, Prog.bind_def, Prog.get_def, hl, Prog.pure_def]
  rw [foldl_range_add (p.length) (fun t => (colVal s d t - m) * (colVal s d t - m)), h.size]

/-- C20 (standard deviation): for every non-empty phrase built by an admissible history, `standardDeviation()` returns
    one non-negative entry per dimension, and the square of entry `d` is the average squared distance of the values of
    column `d` to their average `m`. -/
theorem C20_standardDeviation (b : Bool) (ops : List (Op ℝ)) (ha : S.Admissible ops (PhraseSpec.new ℝ b))
    (hsize : 0 < (S.run ops (PhraseSpec.new ℝ b)).1.size) :
    let s := (S.run ops (PhraseSpec.new ℝ b)).1
    ∃ p sd, (Phrase.run ops (construct ℝ true b)).map Prod.fst = some p ∧
      Phrase.standardDeviation Real.sqrt p = .ret sd p ∧ sd.length = s.dim ∧
      ∀ d < s.dim, ∃ σ m, sd[d]? = some σ ∧ 0 ≤ σ ∧
        m * s.size = ∑ t ∈ Finset.range s.size, (s.value t d).getD 0 ∧
        σ ^ 2 * s.size = ∑ t ∈ Finset.range s.size, ((s.value t d).getD 0 - m) ^ 2 := by
  obtain ⟨p, h1, h2, h3⟩ := Phrase.reach (K := ℝ) b ops ha
  generalize (S.run ops (PhraseSpec.new ℝ b)).1 = s at *
  have hsd := prog_mapM_ret (List.range p.dimension)
    (fun d => do let m ← Phrase.meanAt d; Phrase.stddevAt Real.sqrt d m) _ p
    (fun d hd => by
      have hd' : d < s.dim := by rw [← h2.dim]; exact List.mem_range.1 hd
      simp only [Prog.bind_def, h2.meanAt h3 d hd']
      exact h2.stddevAt h3 Real.sqrt d hd' _)
  refine ⟨p, _, by rw [h1]; rfl, hsd, by simp [h2.dim], ?_⟩
  intro d hd
  have hd' : d < p.dimension := by rw [h2.dim]; exact hd
  have hpos : (0 : ℝ) < (s.size : ℝ) := Nat.cast_pos.2 hsize
  refine ⟨_, (∑ t ∈ Finset.range s.size, colVal s d t) / (s.size : ℝ), by rw [List.getElem?_map, List.getElem?_range hd']; rfl, Real.sqrt_nonneg _, ?_, ?_⟩
  · rw [div_mul_cancel₀ _ (ne_of_gt hpos)]; rfl
  · rw [Real.sq_sqrt, div_mul_cancel₀ _ (ne_of_gt hpos)]
    · exact Finset.sum_congr rfl fun t _ => by rw [pow_two]; rfl
    · exact div_nonneg (Finset.sum_nonneg fun t _ => mul_self_nonneg _) (le_of_lt hpos)

/-- non-vacuity -/
example : 0 < (S.run [.record [(3 : ℝ)], .record [-1]] (PhraseSpec.new ℝ false)).1.size := by
  have : (S.run [.record [(3 : ℝ)], .record [-1]] (PhraseSpec.new ℝ false)).1 = ⟨false, 1, 0, 0, 0, [[3], [-1]], []⟩ := by
    simp [S.run, S.step, PhraseSpec.new]
  rw [this]; decide

/-! ## C19 -/

/-- pointwise description of a block -/
theorem Block.of_pointwise {d max : Nat} {fs : List (List K)} {l : List (Option K)} (hu : ∀ f ∈ fs, f.length = d)
    (hle : fs.length ≤ max) (hl : l.length = max * d)
    (hp : ∀ t j, t < fs.length → j < d → l[t * d + j]? = ((fs[t]?).bind (fun f => f[j]?)).map some) :
    Block (.cells l) d max fs := by
  refine ⟨hu, hle, Or.inr ⟨l, rfl, hl, ?_⟩⟩
  apply List.ext_getElem?
  intro i
  by_cases hi : i < fs.length * d
  · have hd : 0 < d := by
      rcases Nat.eq_zero_or_pos d with h | h
      · subst h; simp at hi
      · exact h
    have h1 : i = i / d * d + i % d := by rw [Nat.mul_comm]; exact (Nat.div_add_mod i d).symm
    have h2 : i / d < fs.length := (Nat.div_lt_iff_lt_mul hd).2 hi
    have h3 : i % d < d := Nat.mod_lt _ hd
    rw [List.getElem?_take_of_lt hi, List.getElem?_map]
    rw [h1, hp _ _ h2 h3, flatten_getElem_uniform hu _ _ h2 h3]
  · have h1 : (l.take (fs.length * d)).length ≤ i := by
      rw [List.length_take]; omega
    rw [List.getElem?_eq_none h1, List.getElem?_eq_none]
    rw [List.length_map, flatten_length_uniform hu]; omega

theorem Block.pointwise {d max : Nat} {fs : List (List K)} {l : List (Option K)} (h : Block (.cells l) d max fs)
    (t j : Nat) (ht : t < fs.length) (hj : j < d) :
    l[t * d + j]? = ((fs[t]?).bind (fun f => f[j]?)).map some := by
  have hlt : t * d + j < fs.length * d := by
    calc t * d + j < t * d + d := by omega
      _ = (t + 1) * d := by ring
      _ ≤ fs.length * d := Nat.mul_le_mul_right d ht
  rcases h.rep with ⟨h1, _⟩ | ⟨l', h1, h2, h3⟩
  · cases h1
  · cases h1
    rw [← List.getElem?_take_of_lt hlt, h3, List.getElem?_map, flatten_getElem_uniform h.uni t j ht hj]

/-- the affine map of column `d` -/
def affine [Field K] (offset gain : List K) (d : Nat) (v : K) : K :=
  match offset[d]?, gain[d]? with
  | some o, some g => (v - o) * g
  | _, _ => v

theorem rescaleRow_spec [Field K] (offset gain : List K) (n base : Nat) (hlo : n ≤ offset.length)
    (hlg : n ≤ gain.length) (l : List (Option K)) (row : Nat → K)
    (hrow : ∀ j < n, l[base + j]? = some (some (row j))) :
    ∃ l', rescaleRow base 0 n offset gain (.cells l) = some (.cells l') ∧ l'.length = l.length ∧
      (∀ j < n, l'[base + j]? = some (some (affine offset gain j (row j)))) ∧
      (∀ i, (i < base ∨ base + n ≤ i) → l'[i]? = l[i]?) := by
  induction n with
  | zero => exact ⟨l, rfl, rfl, by simp, fun _ _ => rfl⟩
  | succ n ih =>
    obtain ⟨l1, e1, len1, p1, f1⟩ := ih (by omega) (by omega) (fun j hj => hrow j (by omega))
    have ho : offset[n]? = some (offset[n]'(by omega)) := List.getElem?_eq_getElem _
    have hg : gain[n]? = some (gain[n]'(by omega)) := List.getElem?_eq_getElem _
    have hcell : l1[base + n]? = some (some (row n)) := by rw [f1 _ (Or.inr (by omega))]; exact hrow n (by omega)
    have hlt : base + n < l1.length := by
      by_contra hcon
      rw [List.getElem?_eq_none (by omega)] at hcell; cases hcell
    have hw : Phrase.rescaleCell (.cells l1) (base + (0 + n)) (0 + n) offset gain =
        some (.cells (l1.set (base + n) (some (affine offset gain n (row n))))) := by
      have haff : affine offset gain n (row n) = (row n - offset[n]'(by omega)) * gain[n]'(by omega) := by
        simp [affine, ho, hg]
      simp only [rescaleCell, Nat.zero_add, Ptr.read, hcell, ho, hg, Ptr.write, haff, List.length_cons,
        List.length_nil, List.map_cons, List.map_nil]
      rw [if_pos (by omega), List.set_eq_take_append_cons_drop, if_pos hlt]
      simp
    refine ⟨l1.set (base + n) (some (affine offset gain n (row n))), ?_, by simp [len1], ?_, ?_⟩
    · simp only [rescaleRow, List.range_succ, List.foldlM_append, List.foldlM_cons, List.foldlM_nil]
      have e1' : List.foldlM (fun ptr k => Phrase.rescaleCell ptr (base + (0 + k)) (0 + k) offset gain) (Ptr.cells l)
        (List.range n) = some (.cells l1) := e1
      rw [e1']
      simp only [Nat.zero_add] at hw
      simp [hw]
    · intro j hj
      rcases Nat.lt_succ_iff_lt_or_eq.1 hj with h | rfl
      · rw [List.getElem?_set_ne (by omega)]; exact p1 j h
      · rw [List.getElem?_set_self hlt]
    · intro i hi
      rw [List.getElem?_set_ne (by omega)]
      exact f1 i (by omega)

/-- apply the affine maps to a frame -/
def affineFrame [Field K] (offset gain : List K) (f : List K) : List K := f.mapIdx (affine offset gain)

theorem Block.rescale [Field K] {ptr : Ptr K} {d max : Nat} {fs : List (List K)} (h : Block ptr d max fs)
    (offset gain : List K) (ho : d ≤ offset.length) (hg : d ≤ gain.length) (t : Nat) (ht : t < fs.length) :
    ∃ ptr', rescaleRow (t * d) 0 d offset gain ptr = some ptr' ∧
      Block ptr' d max (fs.set t (affineFrame offset gain fs[t])) := by
  rcases h.rep with ⟨_, hm⟩ | ⟨l, rfl, hl, _⟩
  · have := h.le; omega
  · have hft := h.uni _ (List.getElem_mem ht)
    obtain ⟨l', e, hlen, hp, hf⟩ := rescaleRow_spec offset gain d (t * d) ho hg l
      (fun j => if hj : j < d then fs[t][j]'(by omega) else 0) (by
        intro j hj
        rw [h.pointwise t j ht hj, List.getElem?_eq_getElem ht]
        simp [hj, List.getElem?_eq_getElem (l := fs[t]) (i := j) (by omega)])
    refine ⟨_, e, Block.of_pointwise ?_ ?_ (by rw [hlen, hl]) ?_⟩
    · intro f hfm
      rcases List.mem_or_eq_of_mem_set hfm with h' | rfl
      · exact h.uni f h'
      · simp [affineFrame, hft]
    · simpa using h.le
    · intro t' j ht' hj
      rw [List.length_set] at ht'
      by_cases htt : t = t'
      · subst htt
        rw [hp j hj, List.getElem?_set_self ht]
        simp [affineFrame, hj, List.getElem?_eq_getElem (l := fs[t]) (i := j) (by omega)]
      · rw [List.getElem?_set_ne htt, hf, h.pointwise t' j ht' hj]
        rcases Nat.lt_or_gt_of_ne htt with h1 | h1
        · right
          calc t * d + d = (t + 1) * d := by ring
            _ ≤ t' * d := Nat.mul_le_mul_right d h1
            _ ≤ t' * d + j := Nat.le_add_right _ _
        · left
          calc t' * d + j < t' * d + d := by omega
            _ = (t' + 1) * d := by ring
            _ ≤ t * d := Nat.mul_le_mul_right d h1

theorem rescale_uni_loop [Field K] {p : Phrase K} {s : S K} (h : Rep p s) (hb : s.bimodal = false)
    (offset gain : List K) (ho : s.dim ≤ offset.length) (hg : s.dim ≤ gain.length) (n : Nat) (hn : n ≤ s.ins.length) :
    ∃ p', loop n () (fun _ t => rescaleFrame offset gain t) p = .ret () p' ∧
      Rep p' { s with ins := (s.ins.take n).map (affineFrame offset gain) ++ s.ins.drop n } ∧
      p' = { p with data0 := p'.data0 } := by
  induction n with
  | zero => exact ⟨p, rfl, by simpa using h, rfl⟩
  | succ n ih =>
    obtain ⟨p1, e1, r1, q1⟩ := ih (by omega)
    obtain ⟨b0, l0, o0⟩ := r1.uni hb
    have hlen : ((s.ins.take n).map (affineFrame offset gain) ++ s.ins.drop n).length = s.ins.length := by
      simp; omega
    have hlen0 : p1.length = s.ins.length := by rw [l0]; exact hlen
    obtain ⟨ptr', e2, b2⟩ := b0.rescale offset gain ho hg n (by simp only; rw [hlen]; omega)
    have hget : ((s.ins.take n).map (affineFrame offset gain) ++ s.ins.drop n)[n]'(by rw [hlen]; omega) = s.ins[n] := by
      rw [List.getElem_append_right (by simp)]
      simp [Nat.min_eq_left (show n ≤ s.ins.length by omega)]
    have hset : ((s.ins.take n).map (affineFrame offset gain) ++ s.ins.drop n).set n (affineFrame offset gain s.ins[n]) =
        (s.ins.take (n + 1)).map (affineFrame offset gain) ++ s.ins.drop (n + 1) := by
      rw [List.set_append_right _ _ (by simp)]
      have hz : n - (List.map (affineFrame offset gain) (List.take n s.ins)).length = 0 := by simp; omega
      rw [hz, List.drop_eq_getElem_cons (show n < s.ins.length by omega), List.set_cons_zero,
        List.take_succ_eq_append_getElem (show n < s.ins.length by omega), List.map_append, List.append_assoc]
      rfl
    have hpb1 : p1.bimodal = false := r1.bim.trans hb
    refine ⟨{ p1 with data0 := ptr' }, ?_, ?_, ?_⟩
    · rw [loop_succ, e1]
      have hd1 : p1.dimension = s.dim := r1.dim
      have hnl : ¬ p1.length ≤ n := by omega
      simp only [rescaleFrame, Prog.bind_def, Prog.get_def, hpb1,
        Bool.false_eq_true, if_false, getPointer, ge_iff_le, hnl, Prog.pure_def, hd1]
      simp only at e2
      simp [e2, orUB]
    · simp only [hget, hset] at b2
      refine ⟨r1.own, r1.bim, r1.dim, r1.di, r1.dmin, r1.diMin, r1.diMax, isGarbage_of_block b2, fun _ => ⟨b2, ?_, o0⟩,
        fun hb' => ?_⟩
      · simp only [hlen0]; simp; omega
      · simp [hb] at hb'
    · rw [q1]

/-- C19 (unimodal, proved part): for every unimodal phrase and vectors with at least one entry per dimension, `rescale`
    returns, replaces every value `v` of column `d` by `(v - offset[d]) * gain[d]`, keeps the number of frames and changes
    nothing else.  Missing: bimodal phrases, for which the property is false (`C19_bimodal_violated`). -/
theorem C19_rescale_unimodal_partial [Field K] (ops : List (Op K)) (offset gain : List K)
    (ho : (S.run ops (PhraseSpec.new K false)).1.dim ≤ offset.length)
    (hg : (S.run ops (PhraseSpec.new K false)).1.dim ≤ gain.length) :
    ∃ p p', (Phrase.run ops (construct K true false)).map Prod.fst = some p ∧
      Phrase.rescale offset gain p = .ret () p' ∧ p'.length = p.length ∧ p' = { p with data0 := p'.data0 } ∧
      ∀ t d v o g, Phrase.getValue t d p = .ret v p → offset[d]? = some o → gain[d]? = some g →
        Phrase.getValue t d p' = .ret ((v - o) * g) p' := by
  obtain ⟨p, h1, h2, h3⟩ := Phrase.reach (K := K) false ops (PhraseSpec.admissible_unimodal _ rfl ops)
  have hb : (S.run ops (PhraseSpec.new K false)).1.bimodal = false := (run_bimodal ops _).trans rfl
  generalize (S.run ops (PhraseSpec.new K false)).1 = s at *
  obtain ⟨p', e, r, q⟩ := rescale_uni_loop h2 hb offset gain ho hg s.ins.length (le_refl _)
  simp only [List.take_length, List.drop_length, List.append_nil] at r
  have hl := (h2.uni hb).2.1
  refine ⟨p, p', by rw [h1]; rfl, ?_, by rw [q], q, ?_⟩
  · simp only [Phrase.rescale, Prog.bind_def, Prog.get_def, hl]
    exact e
  · intro t d v o g hv hoo hgg
    have hc' : S.Coherent { s with ins := s.ins.map (affineFrame offset gain) } := fun hb' => by simp [hb] at hb'
    rw [r.getValue hc']
    rw [h2.getValue h3] at hv
    have hval : s.value t d = some v := by
      unfold expectedRead at hv
      cases hs : s.value t d with
      | none => rw [hs] at hv; simp at hv
      | some w => rw [hs] at hv; simp at hv; rw [hv]
    have : S.value { s with ins := s.ins.map (affineFrame offset gain) } t d = some ((v - o) * g) := by
      simp only [S.value, hb, Bool.false_eq_true, if_false] at hval ⊢
      rw [List.getElem?_map]
      cases hf : s.ins[t]? with
      | none => rw [hf] at hval; simp at hval
      | some f =>
        rw [hf] at hval
        simp only [Option.bind_some] at hval
        simp [affineFrame, hval, affine, hoo, hgg]
    rw [expectedRead, this]

example : (S.run [.record [(3 : ℚ)]] (PhraseSpec.new ℚ false)).1.dim ≤ [(1 : ℚ)].length := by decide

theorem block_one_cons {ptr : Ptr K} {max : Nat} {v : K} {fs : List (List K)} (h : Block ptr 1 max ([v] :: fs)) :
    ∃ l, ptr = .cells (some v :: l) ∧ fs.flatten.map some = l.take fs.length := by
  rcases h.rep with ⟨_, hm⟩ | ⟨l, hl, _, hf⟩
  · have := h.le; simp [hm] at this
  · cases l with
    | nil => simp at hf
    | cons x xs =>
      simp at hf
      exact ⟨xs, by rw [hl, hf.1], by rw [hf.2, List.map_flatten]⟩

/-- C19 fails for bimodal phrases (a defect): the output row is indexed with the column number of the whole frame.
    With one input frame and two output frames of dimension 1, rescaling leaves the output value of frame 0 untouched and
    instead changes the output of frame 1, which is not even a frame of the phrase (`size() == 1`). -/
theorem C19_bimodal_violated [Field K] (a b c o0 o1 g0 g1 : K) :
    ∃ p p', (Phrase.run [.recordInput [a], .recordOutput [b], .recordOutput [c]] (construct K true true)).map Prod.fst =
        some p ∧ p.length = 1 ∧
      Phrase.getValue 0 1 p = .ret b p ∧ Phrase.getValue 1 1 p = .ret c p ∧
      Phrase.rescale [o0, o1] [g0, g1] p = .ret () p' ∧
      Phrase.getValue 0 1 p' = .ret b p' ∧ Phrase.getValue 1 1 p' = .ret ((c - o1) * g1) p' := by
  have ha : S.Admissible [.recordInput [a], .recordOutput [b], .recordOutput [c]] (PhraseSpec.new K true) :=
    PhraseSpec.admissible_keepsDims _ (PhraseSpec.new_coherent true) _ (by simp [KeepsDims])
  obtain ⟨p, h1, h2, h3⟩ := Phrase.reach (K := K) true _ ha
  have hs : (S.run [.recordInput [a], .recordOutput [b], .recordOutput [c]] (PhraseSpec.new K true)).1 =
      ⟨true, 2, 1, 1, 2, [[a]], [[b], [c]]⟩ := by simp [S.run, S.step, PhraseSpec.new]
  rw [hs] at h2 h3
  obtain ⟨b0, b1, l0, l1, l2, -⟩ := h2.bi rfl
  obtain ⟨r0, e0, -⟩ := block_one_cons b0
  have hd1 : ∃ r1, p.data1 = .cells (some b :: some c :: r1) := by
    obtain ⟨r, e, hr⟩ := block_one_cons b1
    cases r with
    | nil => simp at hr
    | cons x xs => simp at hr; exact ⟨xs, by rw [e, hr]⟩
  obtain ⟨r1, e1⟩ := hd1
  have hb : p.bimodal = true := h2.bim
  have hd : p.dimension = 2 := h2.dim
  have hdi : p.dimensionInput = 1 := h2.di
  have hod : p.outDim = 1 := by simp [outDim, hd, hdi]
  have hl : p.length = 1 := by rw [l2]; rfl
  have hol : p.outputLength = 2 := by rw [l1]; rfl
  refine ⟨p, { p with data0 := .cells (some ((a - o0) * g0) :: r0),
                      data1 := .cells (some b :: some ((c - o1) * g1) :: r1) },
    by rw [h1]; rfl, hl, ?_, ?_, ?_, ?_, ?_⟩
  · simp [Phrase.getValue, hb, hd, hdi, hod, hol, e1, Ptr.read, orUB]
  · simp [Phrase.getValue, hb, hd, hdi, hod, hol, e1, Ptr.read, orUB]
  · simp only [Phrase.rescale, Prog.bind_def, Prog.get_def, hl]
    rw [loop_succ]
    simp [loop, rescaleFrame, hb, hd, hdi, hod, hl, e0, e1, getPointerInput, getPointerOutput, rescaleRow, rescaleCell,
      Ptr.read, Ptr.write, orUB, outDim]
  · simp [Phrase.getValue, hb, hd, hdi, hol, Ptr.read, orUB, outDim]
  · simp [Phrase.getValue, hb, hd, hdi, hol, Ptr.read, orUB, outDim]

/-- Rescaling a bimodal phrase holding one complete frame accesses memory that was never written. -/
theorem C19_bimodal_ub [Field K] (a b o0 o1 g0 g1 : K) :
    ∃ p, (Phrase.run [.record [a, b]] (construct K true true)).map Prod.fst = some p ∧
      Phrase.rescale [o0, o1] [g0, g1] p = .ub := by
  refine ⟨{ construct K true true with
      data0 := .cells (some a :: List.replicate 255 none), data1 := .cells (some b :: List.replicate 255 none),
      inputLength := 1, outputLength := 1, length := 1, empty := false, maxLength := 256 }, ?_, ?_⟩
  · simp [Phrase.run, Phrase.step, record, construct, ensureRoom, reallocateLength, Ptr.reallocate, orUB, outDim,
      allocationBlockSize, Ptr.write, -List.reduceReplicate]
  · simp only [Phrase.rescale, Prog.bind_def, Prog.get_def]
    rw [loop_succ]
    simp [loop, construct, rescaleFrame, getPointerInput, getPointerOutput, rescaleRow, rescaleCell,
      Ptr.read, Ptr.write, orUB, outDim, -List.reduceReplicate]

end Xmm
