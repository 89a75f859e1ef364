import Verif.Lemmas.Smoothing
set_option linter.unusedSimpArgs false
set_option linter.unusedSectionVars false
/- C39: the results of a model with several classes. -/
namespace Xmm
open Phrase (loop)
open Gauss (rd rd_lt)
open Prog (bind_def pure_def get_def set_def modify_def throw_def undef_def)

/-- a loop over a list, by an invariant on the elements already visited, the accumulator and the state -/
theorem foldlM_state {σ α β : Type} (l : List β) (init : α) (body : α → β → Prog σ α) (s : σ) (I : List β → α → σ → Prop)
    (h0 : I [] init s)
    (hstep : ∀ pre b post, l = pre ++ b :: post → ∀ a s, I pre a s → ∃ a' s', body a b s = .ret a' s' ∧ I (pre ++ [b]) a' s') :
    ∃ a s', (l.foldlM body init : Prog σ α) s = .ret a s' ∧ I l a s' := by
  have gen : ∀ (r pre : List β) (init : α) (s : σ), I pre init s → l = pre ++ r →
      ∃ a s', (r.foldlM body init : Prog σ α) s = .ret a s' ∧ I (pre ++ r) a s' := by
    intro r
    induction r with
    | nil => intro pre init s h _; exact ⟨init, s, rfl, by simpa using h⟩
    | cons b r ih =>
      intro pre init s h hl
      obtain ⟨a', s1, h1, h2⟩ := hstep pre b r hl init s h
      obtain ⟨a, s', h3, h4⟩ := ih (pre ++ [b]) a' s1 h2 (by simp [hl])
      refine ⟨a, s', ?_, by simpa using h4⟩
      rw [List.foldlM_cons, bind_of_ret h1]
      exact h3
  exact gen l [] init s h0 rfl

namespace MultiRes
variable {K : Type} [Field K] [LinearOrder K]

/-- the first elements of a vector of length `n` have been written -/
def Filled {β : Type} (f : β → K) (pre : List β) (n : Nat) (v : List K) : Prop := ∃ t, v = pre.map f ++ t ∧ pre.length + t.length = n

theorem Filled.start {β : Type} (f : β → K) (v : List K) : Filled f [] v.length v := ⟨v, rfl, by simp⟩

theorem Filled.length {β : Type} {f : β → K} {pre : List β} {n : Nat} {v : List K} (h : Filled f pre n v) : v.length = n := by
  obtain ⟨t, rfl, h⟩ := h
  simpa using h

theorem Filled.full {β : Type} {f : β → K} {l : List β} {v : List K} (h : Filled f l l.length v) : v = l.map f := by
  obtain ⟨t, rfl, h⟩ := h
  have : t = [] := List.eq_nil_of_length_eq_zero (by omega)
  simp [this]

theorem Filled.set {β : Type} {f : β → K} {pre : List β} {n : Nat} {v : List K} (h : Filled f pre n v) (hn : pre.length < n) (b : β) :
    Filled f (pre ++ [b]) n (v.set pre.length (f b)) := by
  obtain ⟨t, rfl, h⟩ := h
  cases t with
  | nil => simp at h; omega
  | cons z t =>
    refine ⟨t, ?_, by simp at h ⊢; omega⟩
    rw [List.set_append]
    simp

theorem Filled.wr {β σ : Type} {f : β → K} {pre : List β} {n : Nat} {v : List K} (h : Filled f pre n v) (hn : pre.length < n) (b : β)
    (s : σ) : wr v pre.length (f b) s = .ret (v.set pre.length (f b)) s := by
  unfold MultiRes.wr
  rw [if_pos (by rw [h.length]; exact hn)]
  rfl

theorem rd_set {σ : Type} (v : List K) (i : Nat) (x : K) (h : i < v.length) (s : σ) : rd (v.set i x) i s = .ret x s := by
  simp [rd, List.getElem?_set_self h]

theorem divideNorms_ret (n : Nat) (zi zs : K) (r : MultiRes K) (h1 : r.instNorm.length = n) (h2 : r.smoothedNorm.length = n) :
    divideNorms n zi zs r = .ret () { r with
      instNorm := r.instNorm.map (· / zi)
      smoothedNorm := r.smoothedNorm.map (· / zs) } := by
  have key : ∃ u s, divideNorms n zi zs r = .ret u s ∧
      s = { r with instNorm := s.instNorm, smoothedNorm := s.smoothedNorm } ∧ s.instNorm.length = n ∧ s.smoothedNorm.length = n ∧
      (∀ c < n, s.instNorm.getD c 0 = if c < n then r.instNorm.getD c 0 / zi else r.instNorm.getD c 0) ∧
      (∀ c < n, s.smoothedNorm.getD c 0 = if c < n then r.smoothedNorm.getD c 0 / zs else r.smoothedNorm.getD c 0) := by
    refine loop_state n () _ r (fun t _ s => s = { r with instNorm := s.instNorm, smoothedNorm := s.smoothedNorm } ∧
      s.instNorm.length = n ∧ s.smoothedNorm.length = n ∧
      (∀ c < n, s.instNorm.getD c 0 = if c < t then r.instNorm.getD c 0 / zi else r.instNorm.getD c 0) ∧
      (∀ c < n, s.smoothedNorm.getD c 0 = if c < t then r.smoothedNorm.getD c 0 / zs else r.smoothedNorm.getD c 0))
      ⟨rfl, h1, h2, fun c hc => by rw [if_neg (by omega)], fun c hc => by rw [if_neg (by omega)]⟩ ?_
    rintro t ht _ s ⟨i1, i2, i3, i4, i5⟩
    simp only [bind_def, get_def, rd_lt (show t < s.instNorm.length by omega) 0, rd_lt (show t < s.smoothedNorm.length by omega) 0,
      set_def]
    refine ⟨_, _, rfl, ?_, by simpa using i2, by simpa using i3, ?_, ?_⟩
    · rw [i1]
    · intro c hc
      simp only
      rw [getD_set _ _ _ _ _ (by omega)]
      by_cases h : c = t
      · rw [if_pos h, h, if_pos (by omega), i4 t ht, if_neg (by omega)]
      · rw [if_neg h, i4 c hc]
        by_cases h' : c < t
        · rw [if_pos h', if_pos (by omega)]
        · rw [if_neg h', if_neg (by omega)]
    · intro c hc
      simp only
      rw [getD_set _ _ _ _ _ (by omega)]
      by_cases h : c = t
      · rw [if_pos h, h, if_pos (by omega), i5 t ht, if_neg (by omega)]
      · rw [if_neg h, i5 c hc]
        by_cases h' : c < t
        · rw [if_pos h', if_pos (by omega)]
        · rw [if_neg h', if_neg (by omega)]
  obtain ⟨u, s, k1, k2, k3, k4, k5, k6⟩ := key
  have e : ∀ (v w : List K) (z : K), v.length = n → w.length = n →
      (∀ c < n, w.getD c 0 = if c < n then v.getD c 0 / z else v.getD c 0) → w = v.map (· / z) := by
    intro v w z hv hw h
    refine List.ext_getElem (by simp [hv, hw]) fun i hi hi' => ?_
    have := h i (by omega)
    rw [if_pos (by omega), List.getD_eq_getElem?_getD, List.getElem?_eq_getElem hi, Option.getD_some,
      List.getD_eq_getElem?_getD, List.getElem?_eq_getElem (show i < v.length by omega), Option.getD_some] at this
    simpa using this
  rw [k1, k2, e r.instNorm s.instNorm zi h1 k3 k5, e r.smoothedNorm s.smoothedNorm zs h2 k4 k6]

/-- `updateResults()` of a model, exactly -/
theorem updateResults_ret (exp : K → K) (cls : List (String × ClassRes K)) (r : MultiRes K) (hs : r.Sized cls.length) :
    ∃ r', updateResults exp cls r = .ret () r' ∧ r'.Summary exp cls ∧ r'.outVals = r.outVals ∧ r'.outCov = r.outCov ∧
      (cls = [] → r'.likeliest = r.likeliest) := by
  have key : ∃ acc s, copyClasses exp cls r = .ret acc s ∧ (acc.1 = cls.length ∧
      Filled (fun c => c.2.instant) cls cls.length s.inst ∧ Filled (fun c => c.2.logLik) cls cls.length s.smoothedLog ∧
      Filled (fun c => exp c.2.logLik) cls cls.length s.smoothed ∧ Filled (fun c => c.2.instant) cls cls.length s.instNorm ∧
      Filled (fun c => exp c.2.logLik) cls cls.length s.smoothedNorm ∧
      acc.2.2.1 = (cls.map fun c => c.2.instant).sum ∧ acc.2.2.2 = (cls.map fun c => exp c.2.logLik).sum ∧
      s.outVals = r.outVals ∧ s.outCov = r.outCov ∧ (cls = [] → s.likeliest = r.likeliest) ∧
      (cls ≠ [] → ∃ before c after, cls = before ++ c :: after ∧ s.likeliest = c.1 ∧ acc.2.1 = c.2.logLik ∧
        (∀ b ∈ before, b.2.logLik < c.2.logLik) ∧ ∀ a ∈ after, a.2.logLik ≤ c.2.logLik)) := by
    unfold copyClasses
    refine foldlM_state cls ((0, 0, 0, 0) : Nat × K × K × K) _ r (fun pre (acc : Nat × K × K × K) s => acc.1 = pre.length ∧
      Filled (fun c => c.2.instant) pre cls.length s.inst ∧ Filled (fun c => c.2.logLik) pre cls.length s.smoothedLog ∧
      Filled (fun c => exp c.2.logLik) pre cls.length s.smoothed ∧ Filled (fun c => c.2.instant) pre cls.length s.instNorm ∧
      Filled (fun c => exp c.2.logLik) pre cls.length s.smoothedNorm ∧
      acc.2.2.1 = (pre.map fun c => c.2.instant).sum ∧ acc.2.2.2 = (pre.map fun c => exp c.2.logLik).sum ∧
      s.outVals = r.outVals ∧ s.outCov = r.outCov ∧ (pre = [] → s.likeliest = r.likeliest) ∧
      (pre ≠ [] → ∃ before c after, pre = before ++ c :: after ∧ s.likeliest = c.1 ∧ acc.2.1 = c.2.logLik ∧
        (∀ b ∈ before, b.2.logLik < c.2.logLik) ∧ ∀ a ∈ after, a.2.logLik ≤ c.2.logLik))
      ⟨rfl, hs.inst ▸ Filled.start _ _, hs.smoothedLog ▸ Filled.start _ _, hs.smoothed ▸ Filled.start _ _,
        hs.instNorm ▸ Filled.start _ _, hs.smoothedNorm ▸ Filled.start _ _, rfl, rfl, rfl, rfl, fun _ => rfl, fun h => absurd rfl h⟩ ?_
    rintro pre b post hl ⟨i, best, zi, zs⟩ s ⟨h1, h2, h3, h4, h5, h6, h7, h8, h9, h10, h11, h12⟩
    simp only at h1 h7 h8 h12
    subst h1
    have hn : pre.length < cls.length := by rw [hl]; simp
    let s1 : MultiRes K := { s with
      inst := s.inst.set pre.length b.2.instant
      smoothedLog := s.smoothedLog.set pre.length b.2.logLik
      smoothed := s.smoothed.set pre.length (exp b.2.logLik)
      instNorm := s.instNorm.set pre.length b.2.instant
      smoothedNorm := s.smoothedNorm.set pre.length (exp b.2.logLik) }
    have hwrite : writeClass exp pre.length b.2 s = .ret () s1 := by
      unfold writeClass
      rw [bind_of_ret (get_def s), bind_of_ret (h2.wr hn b s), bind_of_ret (h3.wr hn b s),
        bind_of_ret (rd_set _ _ _ (by rw [h3.length]; exact hn) s), bind_of_ret (h4.wr hn b s),
        bind_of_ret (rd_set _ _ _ (by rw [h2.length]; exact hn) s), bind_of_ret (h5.wr hn b s),
        bind_of_ret (rd_set _ _ _ (by rw [h4.length]; exact hn) s), bind_of_ret (h6.wr hn b s), set_def]
    have hrun : ∀ best' s2, pickLikeliest pre.length b.1 best b.2.logLik s1 = .ret best' s2 →
        (do
          writeClass exp pre.length b.2
          let r ← Prog.get
          let a ← rd r.instNorm pre.length
          let b' ← rd r.smoothedNorm pre.length
          let l ← rd r.smoothedLog pre.length
          let best ← pickLikeliest pre.length b.1 best l
          pure (pre.length + 1, best, zi + a, zs + b')) s =
        (.ret (pre.length + 1, best', zi + b.2.instant, zs + exp b.2.logLik) s2 : Res (MultiRes K) (Nat × K × K × K)) := by
      intro best' s2 hp
      rw [bind_of_ret hwrite, bind_of_ret (get_def s1), bind_of_ret (rd_set _ _ _ (by rw [h5.length]; exact hn) s1),
        bind_of_ret (rd_set _ _ _ (by rw [h6.length]; exact hn) s1), bind_of_ret (rd_set _ _ _ (by rw [h3.length]; exact hn) s1),
        bind_of_ret hp, pure_def]
    by_cases hbest : pre.length = 0 ∨ best < b.2.logLik
    · refine ⟨_, _, hrun b.2.logLik { s1 with likeliest := b.1 } (if_pos hbest), by simp, h2.set hn b, h3.set hn b, h4.set hn b,
        h5.set hn b, h6.set hn b, by simp [h7], by simp [h8], h9, h10, fun h => by simp at h, fun _ => ?_⟩
      refine ⟨pre, b, [], rfl, rfl, rfl, fun a ha => ?_, fun a ha => by simp at ha⟩
      have hne : pre ≠ [] := by rintro rfl; simp at ha
      obtain ⟨before, c, after, e1, e2, e3, e4, e5⟩ := h12 hne
      have hlt : best < b.2.logLik := by
        rcases hbest with h | h
        · exact absurd (List.eq_nil_of_length_eq_zero h) hne
        · exact h
      rw [e3] at hlt
      rw [e1] at ha
      rcases List.mem_append.1 ha with h | h
      · exact (e4 a h).trans hlt
      · rcases List.mem_cons.1 h with h | h
        · rw [h]; exact hlt
        · exact (e5 a h).trans_lt hlt
    · refine ⟨_, _, hrun best s1 (if_neg hbest), by simp, h2.set hn b, h3.set hn b, h4.set hn b,
        h5.set hn b, h6.set hn b, by simp [h7], by simp [h8], h9, h10, fun h => by simp at h, fun _ => ?_⟩
      have hne : pre ≠ [] := by rintro rfl; simp at hbest
      obtain ⟨before, c, after, e1, e2, e3, e4, e5⟩ := h12 hne
      refine ⟨before, c, after ++ [b], by simp [e1], e2, e3, e4, fun a ha => ?_⟩
      rcases List.mem_append.1 ha with h | h
      · exact e5 a h
      · rw [List.mem_singleton.1 h]
        rw [← e3]
        exact not_lt.1 fun h => hbest (Or.inr h)
  obtain ⟨acc, s, k1, k2, k3, k4, k5, k6, k7, k8, k9, k10, k11, k12, k13⟩ := key
  unfold updateResults
  rw [bind_of_ret k1, divideNorms_ret _ _ _ _ k6.length k7.length]
  refine ⟨_, rfl, ⟨k3.full, k4.full, k5.full, ?_, ?_, fun h => ?_⟩, k10, k11, k12⟩
  · simp only
    rw [k6.full, k8, List.map_map]; rfl
  · simp only
    rw [k7.full, k9, List.map_map]; rfl
  · obtain ⟨before, c, after, e1, e2, _, e4, e5⟩ := k13 h
    exact ⟨before, c, after, e1, e2, e4, e5⟩

end MultiRes

/-- normalised non-negative numbers, not all zero, are a probability distribution -/
theorem normalised_distribution {K : Type} [Field K] [LinearOrder K] [IsStrictOrderedRing K] (l : List K) (h : ∀ x ∈ l, 0 ≤ x)
    (hs : l.sum ≠ 0) : IsDistribution (l.map (· / l.sum)) := by
  have h0 : 0 ≤ l.sum := List.sum_nonneg h
  constructor
  · intro x hx
    obtain ⟨y, hy, rfl⟩ := List.mem_map.1 hx
    exact div_nonneg (h y hy) h0
  · have : ∀ (l' : List K) (z : K), (l'.map (· / z)).sum = l'.sum / z := by
      intro l' z
      induction l' with
      | nil => simp
      | cons a l' ih => simp [ih, add_div]
    rw [this, div_self hs]

theorem list_sum_pos {K : Type} [Field K] [LinearOrder K] [IsStrictOrderedRing K] (l : List K) (h : ∀ x ∈ l, 0 < x) (hne : l ≠ []) :
    0 < l.sum := by
  cases l with
  | nil => exact absurd rfl hne
  | cons a l =>
    rw [List.sum_cons]
    exact add_pos_of_pos_of_nonneg (h a List.mem_cons_self) (List.sum_nonneg fun x hx => (h x (List.mem_cons_of_mem _ hx)).le)

/-- C39: the normalised likelihoods, instantaneous and smoothed, are probability distributions over the classes, as soon as there is a class and
    the likelihoods are positive. -/
theorem C39_normalised {K : Type} [Field K] [LinearOrder K] [IsStrictOrderedRing K] (exp : K → K) (hexp : ∀ x, 0 < exp x)
    (cls : List (String × ClassRes K)) (hne : cls ≠ []) (hpos : ∀ c ∈ cls, 0 < c.2.instant) (r : MultiRes K) (h : r.Summary exp cls) :
    IsDistribution r.instNorm ∧ IsDistribution r.smoothedNorm ∧ r.instNorm.length = cls.length ∧ r.smoothedNorm.length = cls.length := by
  have e1 : r.instNorm = (cls.map fun c => c.2.instant).map (· / (cls.map fun c => c.2.instant).sum) := by
    rw [h.instNorm, List.map_map]; rfl
  have e2 : r.smoothedNorm = (cls.map fun c => exp c.2.logLik).map (· / (cls.map fun c => exp c.2.logLik).sum) := by
    rw [h.smoothedNorm, List.map_map]; rfl
  have p1 : ∀ x ∈ (cls.map fun c => c.2.instant), 0 < x := by
    intro x hx; obtain ⟨c, hc, rfl⟩ := List.mem_map.1 hx; exact hpos c hc
  have p2 : ∀ x ∈ (cls.map fun c => exp c.2.logLik), 0 < x := by
    intro x hx; obtain ⟨c, hc, rfl⟩ := List.mem_map.1 hx; exact hexp _
  refine ⟨?_, ?_, by simp [h.instNorm], by simp [h.smoothedNorm]⟩
  · rw [e1]
    exact normalised_distribution _ (fun x hx => (p1 x hx).le) (list_sum_pos _ p1 (by simpa using hne)).ne'
  · rw [e2]
    exact normalised_distribution _ (fun x hx => (p2 x hx).le) (list_sum_pos _ p2 (by simpa using hne)).ne'

/-- C39: the likeliest class is the class with the greatest smoothed log-likelihood; on a tie, the one with the least label. -/
theorem C39_likeliest {K : Type} [Field K] [LinearOrder K] (exp : K → K) (cls : SMap String (ClassRes K)) (hsort : SMap.Sorted cls)
    (hne : cls ≠ []) (r : MultiRes K) (h : r.Summary exp cls) :
    ∃ c, (r.likeliest, c) ∈ cls ∧ ∀ lc ∈ cls, lc.2.logLik ≤ c.logLik ∧ (lc.2.logLik = c.logLik → r.likeliest ≤ lc.1) := by
  obtain ⟨before, c, after, e1, e2, e3, e4⟩ := h.likeliest hne
  refine ⟨c.2, by rw [e1, e2]; simp, fun lc hlc => ?_⟩
  unfold SMap.Sorted at hsort
  rw [e1] at hlc hsort
  rw [e2]
  rcases List.mem_append.1 hlc with h | h
  · exact ⟨(e3 lc h).le, fun h' => absurd h' (e3 lc h).ne⟩
  · rcases List.mem_cons.1 h with h | h
    · rw [h]; exact ⟨le_rfl, fun _ => le_rfl⟩
    · refine ⟨e4 lc h, fun _ => ?_⟩
      have := (List.pairwise_append.1 hsort).2.1
      exact (List.rel_of_pairwise_cons this h).le

end Xmm
