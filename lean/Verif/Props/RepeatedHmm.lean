import Verif.Props.Repeated
import Verif.Props.PhraseOrderHmm
set_option linter.unusedSimpArgs false
set_option linter.unusedSectionVars false
/- C110: every phrase recorded several times, for hidden Markov models. -/
namespace Xmm
open Prog (bind_def pure_def get_def set_def modify_def throw_def undef_def)
open HmmSpec

theorem Copies.flatMap {α β : Type} {k : Nat} {l l' : List α} (h : Copies k l l') (f : α → List β) : Copies k (l.flatMap f) (l'.flatMap f) := by
  rw [List.flatMap_def, List.flatMap_def]
  exact (h.map f).flatten

section field
variable {K : Type} [Field K] [LinearOrder K] [IsStrictOrderedRing K] {k : Nat}

theorem WSpec.mass_copies {ι : Type} {l l' : List ι} (h : Copies k l l') (w : ι → Nat → K) (c : Nat) : mass l' w c = k * mass l w c := by
  unfold mass
  rw [(h.map _).sum, nsmul_eq_mul]

theorem times_pos (hk : 1 ≤ k) : (0 : K) < k := by exact_mod_cast (by omega : 0 < k)

theorem WSpec.avg_copies {ι : Type} (hk : 1 ≤ k) {l l' : List ι} (h : Copies k l l') (w : ι → Nat → K) (c : Nat) (f : ι → K) : avg l' w c f = avg l w c f := by
  unfold avg
  rw [mass_copies h, (h.map _).sum, nsmul_eq_mul, mul_div_mul_left _ _ (times_ne hk)]
  simp only [mul_pos_iff_of_pos_left (times_pos (K := K) hk)]

theorem WSpec.mean_copies {ι : Type} (hk : 1 ≤ k) {l l' : List ι} (h : Copies k l l') (w : ι → Nat → K) (x : ι → List K) (c i : Nat) : mean l' w x c i = mean l w x c i :=
  avg_copies hk h w c _

theorem WSpec.cov_copies {ι : Type} (hk : 1 ≤ k) {l l' : List ι} (h : Copies k l l') (w : ι → Nat → K) (x : ι → List K) (c i j : Nat) : cov l' w x c i j = cov l w x c i j := by
  unfold cov
  rw [avg_copies hk h, mean_copies hk h, mean_copies hk h]

theorem WSpec.coeff_copies {ι : Type} (hk : 1 ≤ k) {l l' : List ι} (h : Copies k l l') (w : ι → Nat → K) (n c : Nat) : coeff l' w n c = coeff l w n c := by
  unfold coeff
  simp only [mass_copies h, ← Finset.mul_sum, mul_pos_iff_of_pos_left (times_pos (K := K) hk), mul_div_mul_left _ _ (times_ne (K := K) hk)]

namespace HmmSpec

theorem visits_copies {phrases phrases' : List (List (List K))} (h : Copies k phrases phrases') (m : Hmm K) (d : Nat → List K → Nat → K) (i : Nat) :
    visits m d phrases' i = k * visits m d phrases i := by
  unfold visits positions
  rw [((h.flatMap _).map _).sum, nsmul_eq_mul]

theorem moves_copies {phrases phrases' : List (List (List K))} (h : Copies k phrases phrases') (m : Hmm K) (d : Nat → List K → Nat → K) (i j : Nat) :
    moves m d phrases' i j = k * moves m d phrases i j := by
  unfold moves
  rw [(h.map _).sum, nsmul_eq_mul]

theorem filled_copies {phrases phrases' : List (List (List K))} (h : Copies k phrases phrases') : (filled phrases' : K) = k * (filled phrases : K) := by
  unfold filled
  rw [List.countP_eq_length_filter, List.countP_eq_length_filter, (h.filter _).length, Nat.cast_mul]

theorem logTotal_copies {phrases phrases' : List (List (List K))} (h : Copies k phrases phrases') (log : K → K) (m : Hmm K) (d : Nat → List K → Nat → K) :
    logTotal log m d phrases' = k * logTotal log m d phrases := by
  unfold logTotal
  rw [((h.filter _).map _).sum, nsmul_eq_mul]

/-- the factor between the transition probabilities -/
theorem newStep_copies {phrases phrases' : List (List (List K))} (h : Copies k phrases phrases') (m : Hmm K) (d : Nat → List K → Nat → K) (i j : Nat)
    (hv : 0 ≤ visits m d phrases i) :
    newStep m d phrases' i j = k * (visits m d phrases i + 2 / 10 ^ 5) / (k * visits m d phrases i + 2 / 10 ^ 5) * newStep m d phrases i j := by
  have h1 : visits m d phrases i + 2 / 10 ^ 5 ≠ 0 := by positivity
  have h2 : (k : K) * visits m d phrases i + 2 / 10 ^ 5 ≠ 0 := by positivity
  unfold newStep
  rw [visits_copies h, moves_copies h, filled_copies h]
  split_ifs
  · field_simp
  · field_simp
  · field_simp
  · field_simp
  · simp

end HmmSpec

theorem Gmm.Fitted.repeated {ι : Type} (hk : 1 ≤ k) {l l' : List ι} (h : Copies k l l') {w : ι → Nat → K} {x : ι → List K} {m a b : Gmm K} (ha : Gmm.Fitted l w x m a)
    (hb : Gmm.Fitted l' w x m b) : a.SameValues b := by
  have e1 : a.gaussians = m.gaussians := by rw [ha.same]
  have e2 : a.dim = m.dim := by rw [ha.same]
  refine ⟨fun c hc => ?_, fun c g g' hg hg' i hi => ?_, fun c g g' hg hg' i hi j hj => ?_⟩
  · rw [e1] at hc
    rw [ha.coeff c hc, hb.coeff c hc, WSpec.coeff_copies hk h]
  · rw [e2] at hi
    rw [ha.mean c g hg i hi, hb.mean c g' hg' i hi, WSpec.mean_copies hk h]
  · rw [e2] at hi hj
    rw [ha.cov c g hg i hi j hj, hb.cov c g' hg' i hi j hj, WSpec.cov_copies hk h]

namespace Hmm

theorem Trains.repeated {data data' : KData K} {m : Hmm K} (ht : m.Trains data) (h : data.Repeated k data') : m.Trains data' :=
  ⟨fun x hx => ht.frame x (h.mem_frames.1 hx), fun e => ht.some ((h.frames.eq_nil h.times).1 e), fun he fr hfr => ht.filled he fr ((h.copies.mem h.times).1 hfr), ht.regLen, ht.reg⟩

/-- **C110** (hidden Markov models, one iteration): recording every phrase `k` times multiplies the log-likelihood by `k` and gives the same states and the same start
    probabilities; the transition probabilities out of a state are multiplied by a positive number, the same for all destinations, so that their proportions do not change. -/
theorem C110_iteration_partial (D : Dens K) (hD : D.Sound) (log : K → K) (hlog : ∀ x y, 0 < x → 0 < y → log (x * y) = log x + log y) (data data' : KData K)
    (m : Hmm K) (hm : m.InTraining) (ht : m.Trains data) (h : data.Repeated k data') :
    ∃ (v : K) (a b : Hmm K), emUpdate D log data m = .ret v a ∧ emUpdate D log data' m = .ret (k * v) b ∧
      (∀ (i : Nat) (s s' : Gmm K), a.sts[i]? = some s → b.sts[i]? = some s' → s.SameValues s') ∧
      (∀ i < m.n, start b i = start a i) ∧ ∀ i < m.n, ∃ f : K, 0 < f ∧ (m.ergodic = false → 2 ≤ k → 1 < f ∧ 0 < step a i i) ∧ ∀ j < m.n, step b i j = f * step a i j := by
  obtain ⟨d, h1, h2⟩ := observes_exist D hD m hm.wf hm.ready data.frames ht.frame
  obtain ⟨a, a1, a2, a3, -⟩ := update_ret D log hlog data m hm ht d h1 h2
  obtain ⟨b, b1, b2, b3, -⟩ := update_ret D log hlog data' m hm (ht.repeated h) d (fun i s hs x hx => h1 i s hs x (h.mem_frames.1 hx)) (fun x hx => h2 x (h.mem_frames.1 hx))
  have ka : (0 : K) < k := times_pos h.times
  refine ⟨_, a, b, a1, by rw [b1, logTotal_copies h.copies], fun i s s' hs hs' => ?_, fun i hi => ?_, fun i hi => ?_⟩
  · have hla : a.sts.length = m.n := by rw [a3.sts, a2.same]
    have hi : i < m.sts.length := by rw [hm.wf.sts, ← hla]; exact (List.getElem?_eq_some_iff.1 hs).1
    exact Gmm.Fitted.repeated h.times (h.copies.flatMap _) (a2.state i _ s (List.getElem?_eq_getElem hi) hs) (b2.state i _ s' (List.getElem?_eq_getElem hi) hs')
  · have ea : a.ergodic = m.ergodic := by rw [a2.same]
    have eb : b.ergodic = m.ergodic := by rw [b2.same]
    unfold start
    rw [ea, eb]
    cases hE : m.ergodic with
    | false => rfl
    | true =>
      simp only [if_true]
      rw [a2.prior hE i hi, b2.prior hE i hi, (h.copies.map _).sum, h.copies.length, nsmul_eq_mul, Nat.cast_mul, mul_div_mul_left _ _ (times_ne h.times)]
  · have hp := posts m hm data d h2
    have hv := visits_nonneg hp hi
    have h0 : (0 : K) < visits m d data.phrases i + 2 / 10 ^ 5 := by positivity
    have h0' : (0 : K) < k * visits m d data.phrases i + 2 / 10 ^ 5 := by positivity
    refine ⟨k * (visits m d data.phrases i + 2 / 10 ^ 5) / (k * visits m d data.phrases i + 2 / 10 ^ 5), by positivity, fun hE hk2 => ⟨?_, ?_⟩, fun j hj => ?_⟩
    · rw [one_lt_div h0', mul_add]
      have : (2 : K) ≤ k := by exact_mod_cast hk2
      have h3 : (1 : K) * (2 / 10 ^ 5) < k * (2 / 10 ^ 5) := mul_lt_mul_of_pos_right (by linarith) (by positivity)
      linarith
    · rw [a2.step i hi i hi]
      unfold newStep
      rw [hE, if_neg (by simp), if_pos rfl]
      have hf : (1 : K) ≤ filled data.phrases := by exact_mod_cast filled_pos ht.some
      have hmv := moves_nonneg hp hi hi
      apply div_pos _ h0
      have : (0 : K) < if i + 1 < m.n then 1 / 10 ^ 5 else 2 / 10 ^ 5 := by split_ifs <;> positivity
      have := mul_pos (lt_of_lt_of_le one_pos hf) this
      linarith
    · rw [a2.step i hi j hj, b2.step i hi j hj, newStep_copies h.copies m d i j hv]

/-- C110 is violated for hidden Markov models: with every phrase recorded twice or more, an iteration of the training of a LeftRight model gives every state a higher probability to
    stay in it. -/
theorem C110_transitions_violated (D : Dens K) (hD : D.Sound) (log : K → K) (hlog : ∀ x y, 0 < x → 0 < y → log (x * y) = log x + log y) (data data' : KData K)
    (m : Hmm K) (hm : m.InTraining) (ht : m.Trains data) (hE : m.ergodic = false) (h : data.Repeated k data') (hk : 2 ≤ k) :
    ∃ (v : K) (a b : Hmm K), emUpdate D log data m = .ret v a ∧ emUpdate D log data' m = .ret (k * v) b ∧ ∀ i < m.n, step a i i < step b i i := by
  obtain ⟨v, a, b, h1, h2, -, -, h3⟩ := C110_iteration_partial D hD log hlog data data' m hm ht h
  refine ⟨v, a, b, h1, h2, fun i hi => ?_⟩
  obtain ⟨f, -, h4, h5⟩ := h3 i hi
  obtain ⟨h6, h7⟩ := h4 hE hk
  rw [h5 i hi]
  calc step a i i = 1 * step a i i := (one_mul _).symm
    _ < f * step a i i := mul_lt_mul_of_pos_right h6 h7

end Hmm
end field

/-- the hypotheses of the theorems are met: three phrases, and each of them twice -/
example (e : Bool) : ∃ (m : Hmm ℝ) (data data' : KData ℝ), m.InTraining ∧ m.Trains data ∧ m.n = 3 ∧ m.ergodic = e ∧ data.Repeated 2 data' ∧ Dens.real.Sound := by
  obtain ⟨m, h1, h2, -, h4, h5, h6, -⟩ := Hmm.trains_exists e
  refine ⟨m, _, ⟨2, [[[1, 2], [3, 5], [2, 2]], [[0, 1]], [[4, 4], [5, 4]], [[1, 2], [3, 5], [2, 2]], [[0, 1]], [[4, 4], [5, 4]]]⟩, h1, h6, h2, h4, ⟨by omega, rfl, ?_, rfl⟩, h5⟩
  exact List.Perm.refl _

/-- the hypotheses of `Gmm.C110_training` are met: both modes, one modality or two, two components -/
example (b : Bool) (mode : CovMode) : ∃ (m : Gmm ℝ) (sd : List ℝ) (data data' : KData ℝ), m.mode = mode ∧ m.bimodal = b ∧ m.Admissible ∧ m.Fed sd data ∧ 1 / 10 ^ 9 ≤ m.absReg ∧
    data.Repeated 2 data' ∧ m.gaussians = 2 := by
  refine ⟨Gmm.example2 b mode, [1, 1], ⟨2, [[[0, 0], [0, 1], [9, 9], [9, 8]], [[1, 1]]]⟩,
    ⟨2, [[[0, 0], [0, 1], [9, 9], [9, 8]], [[1, 1]], [[0, 0], [0, 1], [9, 9], [9, 8]], [[1, 1]]]⟩, rfl, rfl, ⟨?_, ?_, ?_⟩, ⟨rfl, ?_, ?_, rfl⟩, ?_, ⟨by omega, rfl, List.Perm.refl _, rfl⟩, rfl⟩
  · exact Nat.le_succ 1
  · cases b <;> simp [Gmm.example2]
  · cases b <;> simp [Gmm.example2]
  · simp [KData.frames, Gmm.example2]
  · simp [KData.frames]
  · norm_num [Gmm.example2]

end Xmm
