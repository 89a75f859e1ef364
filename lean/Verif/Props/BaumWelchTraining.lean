import Verif.Props.BaumWelchUpdate
/- The invariant of the training of a hidden Markov model. -/
namespace Xmm
variable {K : Type} [Field K] [LinearOrder K] [IsStrictOrderedRing K]
open Gauss Gmm GmmSpec RecSpec HmmSpec Phrase

namespace Hmm

/-- the posteriors of the frames of a training set -/
structure Posts (m : Hmm K) (d : Nat → List K → Nat → K) (phrases : List (List (List K))) : Prop where
  gamma : ∀ fr ∈ phrases, ∀ t < fr.length, ∀ i < m.n, 0 ≤ gammaOf m d fr t i
  sum : ∀ fr ∈ phrases, ∀ t < fr.length, ∑ i ∈ Finset.range m.n, gammaOf m d fr t i = 1
  xi : ∀ fr ∈ phrases, ∀ t, t + 1 < fr.length → ∀ i < m.n, ∀ j < m.n, 0 ≤ xiOf m d fr t i j
  out : ∀ fr ∈ phrases, ∀ t, t + 1 < fr.length → ∀ i < m.n, ∑ j ∈ Finset.range m.n, xiOf m d fr t i j = gammaOf m d fr t i

theorem posts (m : Hmm K) (hm : m.InTraining) (data : KData K) (d : Nat → List K → Nat → K)
    (hge : ∀ x ∈ data.frames, ∀ i < m.n, ∀ c < m.gaussians, 1 / 10 ^ 180 ≤ d i x c) : m.Posts d data.phrases := by
  have h : ∀ fr ∈ data.phrases, _ := fun fr h => posteriors m hm fr d (fun x hx => hge x (List.mem_flatten.2 ⟨fr, h, hx⟩))
  exact ⟨fun fr hf t ht => ((h fr hf).1 t ht).1, fun fr hf t ht => ((h fr hf).1 t ht).2.1, fun fr hf t ht => ((h fr hf).2 t ht).1,
    fun fr hf t ht => ((h fr hf).2 t ht).2.1⟩

theorem gamma_le {m : Hmm K} {d : Nat → List K → Nat → K} {phrases : List (List (List K))} (h : m.Posts d phrases) {fr : List (List K)}
    (hf : fr ∈ phrases) {t : Nat} (ht : t < fr.length) {i : Nat} (hi : i < m.n) : gammaOf m d fr t i ≤ 1 := by
  rw [← h.sum fr hf t ht]
  exact Finset.single_le_sum (f := fun i => gammaOf m d fr t i) (fun j hj => h.gamma fr hf t ht j (Finset.mem_range.1 hj)) (Finset.mem_range.2 hi)

theorem visits_nonneg {m : Hmm K} {d : Nat → List K → Nat → K} {phrases : List (List (List K))} (h : m.Posts d phrases) {i : Nat} (hi : i < m.n) :
    0 ≤ visits m d phrases i := by
  unfold visits
  refine List.sum_nonneg fun x hx => ?_
  obtain ⟨p, hp, rfl⟩ := List.mem_map.1 hx
  obtain ⟨p1, p2⟩ := mem_positions hp
  exact h.gamma _ p1 _ p2 i hi

theorem positions_length (phrases : List (List (List K))) : (positions phrases).length = phrases.flatten.length := by
  unfold positions
  rw [List.length_flatMap, List.length_flatten]
  simp

theorem visits_le {m : Hmm K} {d : Nat → List K → Nat → K} {phrases : List (List (List K))} (h : m.Posts d phrases) {i : Nat} (hi : i < m.n) :
    visits m d phrases i ≤ (phrases.flatten.length : K) := by
  unfold visits
  rw [← positions_length]
  have : ∀ l : List (List (List K) × Nat), (∀ p ∈ l, p ∈ positions phrases) → (l.map fun p => gammaOf m d p.1 p.2 i).sum ≤ (l.length : K) := by
    intro l
    induction l with
    | nil => simp
    | cons p l ih =>
      intro hl
      have h1 := ih fun q hq => hl q (by simp [hq])
      obtain ⟨p1, p2⟩ := mem_positions (hl p (by simp))
      have h2 := gamma_le h p1 p2 hi
      simp only [List.map_cons, List.sum_cons, List.length_cons]
      push_cast
      linarith
  exact this _ fun p hp => hp

theorem moves_nonneg {m : Hmm K} {d : Nat → List K → Nat → K} {phrases : List (List (List K))} (h : m.Posts d phrases) {i j : Nat} (hi : i < m.n)
    (hj : j < m.n) : 0 ≤ moves m d phrases i j := by
  unfold moves
  refine List.sum_nonneg fun x hx => ?_
  obtain ⟨fr, hf, rfl⟩ := List.mem_map.1 hx
  exact Finset.sum_nonneg fun t ht => h.xi fr hf t (by have := Finset.mem_range.1 ht; omega) i hi j hj

/-- the expected number of transitions out of state `i`: of frames in it that are not the last ones of their phrases -/
def HmmSpec.departures (m : Hmm K) (d : Nat → List K → Nat → K) (phrases : List (List (List K))) (i : Nat) : K :=
  (phrases.map fun fr => ∑ t ∈ Finset.range (fr.length - 1), gammaOf m d fr t i).sum

theorem sum_moves {m : Hmm K} {d : Nat → List K → Nat → K} {phrases : List (List (List K))} (h : m.Posts d phrases) {i : Nat} (hi : i < m.n) :
    ∑ j ∈ Finset.range m.n, moves m d phrases i j = HmmSpec.departures m d phrases i := by
  unfold moves HmmSpec.departures
  rw [list_sum_swap]
  refine congrArg List.sum (List.map_congr_left fun fr hf => ?_)
  rw [Finset.sum_comm]
  exact Finset.sum_congr rfl fun t ht => h.out fr hf t (by have := Finset.mem_range.1 ht; omega) i hi

theorem newStep_nonneg {m : Hmm K} {d : Nat → List K → Nat → K} {phrases : List (List (List K))} (h : m.Posts d phrases) {i j : Nat} (hi : i < m.n)
    (hj : j < m.n) : 0 ≤ newStep m d phrases i j := by
  have h1 := visits_nonneg h hi
  have h2 := moves_nonneg h hi hj
  unfold newStep
  split_ifs <;> positivity

/-- the mass of a re-estimated row of an Ergodic model -/
theorem sum_newStep_ergodic {m : Hmm K} {d : Nat → List K → Nat → K} {phrases : List (List (List K))} (h : m.Posts d phrases) (he : m.ergodic = true)
    {i : Nat} (hi : i < m.n) :
    ∑ j ∈ Finset.range m.n, newStep m d phrases i j = HmmSpec.departures m d phrases i / (visits m d phrases i + 2 / 10 ^ 5) := by
  simp only [newStep, he, if_true]
  rw [← Finset.sum_div, sum_moves h hi]

/-- the mass of a re-estimated row of a LeftRight model is positive: the code adds 2e-5 to it for each phrase -/
theorem sum_newStep_leftRight {m : Hmm K} {d : Nat → List K → Nat → K} {phrases : List (List (List K))} (h : m.Posts d phrases)
    (he : m.ergodic = false) (hf : 1 ≤ filled phrases) (hl : phrases.flatten.length ≤ 10 ^ 90) {i : Nat} (hi : i < m.n) :
    1 / 10 ^ 100 ≤ ∑ j ∈ Finset.range m.n, newStep m d phrases i j := by
  have hv0 := visits_nonneg h hi
  have hv1 : visits m d phrases i ≤ 10 ^ 90 := (visits_le h hi).trans (by exact_mod_cast hl)
  have hf' : (1 : K) ≤ (filled phrases : K) := by exact_mod_cast hf
  have key : (2 / 10 ^ 5 : K) / (visits m d phrases i + 2 / 10 ^ 5) ≤ ∑ j ∈ Finset.range m.n, newStep m d phrases i j := by
    have hp : (0 : K) < visits m d phrases i + 2 / 10 ^ 5 := by positivity
    by_cases hlast : i + 1 < m.n
    · have hsub : ({i, i + 1} : Finset Nat) ⊆ Finset.range m.n := by
        intro j hj
        simp only [Finset.mem_insert, Finset.mem_singleton] at hj
        exact Finset.mem_range.2 (by omega)
      refine le_trans ?_ (Finset.sum_le_sum_of_subset_of_nonneg hsub fun j hj _ => newStep_nonneg h hi (Finset.mem_range.1 hj))
      rw [Finset.sum_pair (by omega)]
      simp only [newStep, he, Bool.false_eq_true, if_false, if_true, hlast, if_neg (show ¬ i + 1 = i by omega)]
      rw [← add_div]
      refine div_le_div_of_nonneg_right ?_ hp.le
      have := moves_nonneg h hi hi
      have := moves_nonneg h hi hlast
      linarith
    · refine le_trans ?_ (Finset.single_le_sum (f := fun j => newStep m d phrases i j)
        (fun j hj => newStep_nonneg h hi (Finset.mem_range.1 hj)) (Finset.mem_range.2 hi))
      simp only [newStep, he, Bool.false_eq_true, if_false, if_true, hlast]
      refine div_le_div_of_nonneg_right ?_ hp.le
      have := moves_nonneg h hi hi
      linarith
  refine le_trans ?_ key
  rw [div_le_div_iff₀ (by positivity) (by positivity)]
  have h100 : (10 : K) ^ 100 = 10 ^ 90 * 10 ^ 10 := by rw [← pow_add]
  have h90 : (1 : K) ≤ 10 ^ 90 := one_le_pow₀ (by norm_num)
  rw [h100]
  nlinarith

theorem filled_pos {data : KData K} (h : data.frames ≠ []) : 1 ≤ filled data.phrases := by
  unfold filled
  rw [Nat.one_le_iff_ne_zero, Ne, List.countP_eq_zero]
  intro hc
  refine h ?_
  unfold KData.frames
  rw [List.flatten_eq_nil_iff]
  intro fr hf
  simpa using hc fr hf

/-- an iteration of the training keeps what the next one relies on.  The rows of an Ergodic model must keep some mass. -/
theorem next_inTraining {m m' : Hmm K} {data : KData K} {d : Nat → List K → Nat → K} (hm : m.InTraining) (ht : m.Trains data)
    (hge : ∀ x ∈ data.frames, ∀ i < m.n, ∀ c < m.gaussians, 1 / 10 ^ 180 ≤ d i x c) (hr : m.Reestimated data.phrases d m') (hw : m'.WF)
    (hready : ∀ s ∈ m'.sts, s.Ready) (ha : m'.alpha.length = m.n) (hb : m'.beta.length = m.n)
    (hlast : m.ergodic = false → m'.trans.getD (m.n * 2 - 1) 0 = 0) (hl : data.frames.length ≤ 10 ^ 90)
    (hmass : m.ergodic = true → ∀ i < m.n, 1 / 10 ^ 100 ≤ HmmSpec.departures m d data.phrases i / (visits m d data.phrases i + 2 / 10 ^ 5)) :
    m'.InTraining ∧ m'.Trains data ∧ m'.n = m.n ∧ m'.ergodic = m.ergodic := by
  have hp := posts m hm data d hge
  have en : m'.n = m.n := by rw [hr.same]
  have ee : m'.ergodic = m.ergodic := by rw [hr.same]
  have ed : m'.dim = m.dim := by rw [hr.same]
  have hstart : (∀ i < m'.n, 0 ≤ start m' i) ∧ ∑ i ∈ Finset.range m'.n, start m' i = 1 := by
    rcases bool_cases m.ergodic with hE | hE
    · exact start_leftRight m' (ee.trans hE) hw.pos
    · have hs : ∀ i < m.n, start m' i = (data.phrases.map fun fr => gammaOf m d fr 0 i).sum / (data.phrases.length : K) := by
        intro i hi
        simp only [start, ee, hE, if_true]
        exact hr.prior hE i hi
      have hfill : ∀ fr ∈ data.phrases, 0 < fr.length := fun fr h => List.length_pos_iff.2 (ht.filled hE fr h)
      rw [en]
      refine ⟨fun i hi => ?_, ?_⟩
      · rw [hs i hi]
        refine div_nonneg (List.sum_nonneg fun x hx => ?_) (Nat.cast_nonneg _)
        obtain ⟨fr, hf, rfl⟩ := List.mem_map.1 hx
        exact hp.gamma fr hf 0 (hfill fr hf) i hi
      · rw [Finset.sum_congr rfl fun i hi => hs i (Finset.mem_range.1 hi), ← Finset.sum_div, list_sum_swap,
          List.map_congr_left fun fr hf => hp.sum fr hf 0 (hfill fr hf)]
        have hne : data.phrases ≠ [] := by
          intro h
          exact ht.some (by simp [KData.frames, h])
        have : (data.phrases.length : K) ≠ 0 := by
          rw [Ne, Nat.cast_eq_zero, List.length_eq_zero_iff]; exact hne
        simp [this]
  refine ⟨⟨hw, hready, ha.trans en.symm, hb.trans en.symm, hstart.1, hstart.2, ?_, ?_, ?_⟩, ⟨?_, ht.some, ?_, ?_, ?_⟩, en, ee⟩
  · intro i hi j hj
    rw [en] at hi hj
    rw [hr.step i hi j hj]
    exact newStep_nonneg hp hi hj
  · intro i hi
    rw [en] at hi ⊢
    rw [Finset.sum_congr rfl fun j hj => hr.step i hi j (Finset.mem_range.1 hj)]
    rcases bool_cases m.ergodic with hE | hE
    · exact sum_newStep_leftRight hp hE (filled_pos ht.some) hl hi
    · rw [sum_newStep_ergodic hp hE hi]
      exact hmass hE i hi
  · intro h
    rw [en]
    exact hlast (ee ▸ h)
  · intro x hx
    rw [ed]; exact ht.frame x hx
  · intro h
    exact ht.filled (ee ▸ h)
  · intro s hs
    obtain ⟨i, hi, rfl⟩ := List.getElem_of_mem hs
    have hi' : i < m.sts.length := by rw [hm.wf.sts, ← en, ← hw.sts]; exact hi
    have := (hr.state i _ _ (List.getElem?_eq_getElem hi') (List.getElem?_eq_getElem hi)).same
    rw [this, ed]
    exact ht.regLen m.sts[i] (List.getElem_mem hi')
  · intro s hs k hk
    obtain ⟨i, hi, rfl⟩ := List.getElem_of_mem hs
    have hi' : i < m.sts.length := by rw [hm.wf.sts, ← en, ← hw.sts]; exact hi
    have := (hr.state i _ _ (List.getElem?_eq_getElem hi') (List.getElem?_eq_getElem hi)).same
    rw [this]
    exact ht.reg m.sts[i] (List.getElem_mem hi') k (by rw [← ed]; exact hk)

/-- `k` iterations of the training: `emAlgorithmUpdate` in the loop of xmmModelSingleClass.cpp:140-181 -/
def iterate (D : Dens K) (log : K → K) (data : KData K) (k : Nat) : Prog (Hmm K) Unit :=
  loop k () fun _ _ => do
    let _ ← emUpdate D log data
    pure ()

/-- the end of the training: the rows are divided by their sums -/
theorem terminate {m : Hmm K} (h : m.InTraining) : ∃ m', normalizeTransitions m = .ret () m' ∧ m'.WF ∧ m'.Stochastic ∧ m'.n = m.n := by
  have hpos : (0 : K) < 1 / 10 ^ 100 := by positivity
  obtain ⟨m', k1, k2, k3, k4, _⟩ := C44_normalize m h.wf h.start_nonneg (by rw [h.start_sum]; exact one_pos) h.step_nonneg
    fun i hi => lt_of_lt_of_le hpos (h.step_sum i hi)
  exact ⟨m', k1, k3, k4, by rw [k2]⟩

theorem iterate_succ (D : Dens K) (log : K → K) (data : KData K) (k : Nat) {m m1 m2 : Hmm K} {x : K} (h1 : iterate D log data k m = .ret () m1)
    (h2 : emUpdate D log data m1 = .ret x m2) : iterate D log data (k + 1) m = .ret () m2 := by
  unfold iterate at h1 ⊢
  rw [loop_succ, h1]
  show (emUpdate D log data >>= _) _ = _
  rw [bind_of_ret h2]
  rfl

/-- any number of iterations; the rows of an Ergodic model must keep some mass -/
theorem iterate_inTraining (D : Dens K) (hD : D.Sound) (log : K → K) (hlog : ∀ x y, 0 < x → 0 < y → log (x * y) = log x + log y)
    (data : KData K) (hl : data.frames.length ≤ 10 ^ 90) (m : Hmm K) (hm : m.InTraining) (ht : m.Trains data) (k : Nat)
    (hmass : m.ergodic = true → ∀ j ≤ k, ∀ m', iterate D log data j m = .ret () m' → ∀ i < m.n, 1 / 10 ^ 100 ≤ ∑ j ∈ Finset.range m.n, step m' i j) :
    ∃ m1, iterate D log data k m = .ret () m1 ∧ m1.InTraining ∧ m1.Trains data ∧ m1.n = m.n ∧ m1.ergodic = m.ergodic := by
  induction k with
  | zero => exact ⟨m, rfl, hm, ht, rfl, rfl⟩
  | succ k ih =>
    obtain ⟨m1, h1, h2, h3, h4, h5⟩ := ih fun he j hj => hmass he j (by omega)
    obtain ⟨d, m', _, hge, h6, h7, h8, h9, h10, h11, h12⟩ := C73_update D hD log hlog data m1 h2 h3
    have hi := iterate_succ D log data k h1 h6
    obtain ⟨k1, k2, k3, k4⟩ := next_inTraining h2 h3 hge h7 h8 (fun s hs => (h9 s hs).1) h10 h11 h12 hl (by
      intro he i hi'
      rw [← sum_newStep_ergodic (posts m1 h2 data d hge) he hi']
      rw [← Finset.sum_congr rfl fun j hj => h7.step i hi' j (Finset.mem_range.1 hj), h4]
      exact hmass (h5 ▸ he) (k + 1) le_rfl m' hi i (h4 ▸ hi'))
    exact ⟨m', hi, k1, k2, k3.trans h4, k4.trans h5⟩

/-- C44, training of a LeftRight model: any number of iterations on any training set (of at most 10^90 frames), then `normalizeTransitions()` (the end of
    the training): nothing fails, and the transition probabilities out of each state are a distribution. -/
theorem C44_training_leftRight (D : Dens K) (hD : D.Sound) (log : K → K) (hlog : ∀ x y, 0 < x → 0 < y → log (x * y) = log x + log y)
    (data : KData K) (hl : data.frames.length ≤ 10 ^ 90) (m : Hmm K) (hm : m.InTraining) (ht : m.Trains data) (he : m.ergodic = false) (k : Nat) :
    ∃ m1 m2, iterate D log data k m = .ret () m1 ∧ normalizeTransitions m1 = .ret () m2 ∧ m2.WF ∧ m2.Stochastic ∧ m2.n = m.n := by
  obtain ⟨m1, h1, h2, _, h4, _⟩ := iterate_inTraining D hD log hlog data hl m hm ht k (fun h => absurd h (by simp [he]))
  obtain ⟨m2, k1, k2, k3, k4⟩ := terminate h2
  exact ⟨m1, m2, h1, k1, k2, k3, k4.trans h4⟩

/-- C44, training of an Ergodic model, as long as the re-estimated rows keep some mass: the start probabilities and the transition
    probabilities out of each state are distributions. -/
theorem C44_training_ergodic_partial (D : Dens K) (hD : D.Sound) (log : K → K) (hlog : ∀ x y, 0 < x → 0 < y → log (x * y) = log x + log y)
    (data : KData K) (hl : data.frames.length ≤ 10 ^ 90) (m : Hmm K) (hm : m.InTraining) (ht : m.Trains data) (k : Nat)
    (hmass : ∀ j ≤ k, ∀ m', iterate D log data j m = .ret () m' → ∀ i < m.n, 1 / 10 ^ 100 ≤ ∑ j ∈ Finset.range m.n, step m' i j) :
    ∃ m1 m2, iterate D log data k m = .ret () m1 ∧ normalizeTransitions m1 = .ret () m2 ∧ m2.WF ∧ m2.Stochastic ∧ m2.n = m.n := by
  obtain ⟨m1, h1, h2, _, h4, _⟩ := iterate_inTraining D hD log hlog data hl m hm ht k fun _ => hmass
  obtain ⟨m2, k1, k2, k3, k4⟩ := terminate h2
  exact ⟨m1, m2, h1, k1, k2, k3, k4.trans h4⟩

/-- C44 does not hold for an Ergodic model trained on phrases of one frame: after any iteration all its transition probabilities are 0, and
    `normalizeTransitions()` divides 0 by 0. -/
theorem C44_single_frames_violated (D : Dens K) (hD : D.Sound) (log : K → K) (hlog : ∀ x y, 0 < x → 0 < y → log (x * y) = log x + log y)
    (data : KData K) (m : Hmm K) (hm : m.InTraining) (ht : m.Trains data) (he : m.ergodic = true) (h1 : ∀ fr ∈ data.phrases, fr.length = 1) :
    ∃ x m', emUpdate D log data m = .ret x m' ∧ m'.n = m.n ∧ m'.ergodic = true ∧ (∀ i < m.n, ∑ j ∈ Finset.range m.n, step m' i j = 0) ∧
      ¬ m'.Stochastic := by
  obtain ⟨d, m', _, hge, h6, h7, h8, _⟩ := C73_update D hD log hlog data m hm ht
  have h0 : ∀ i < m.n, ∑ j ∈ Finset.range m.n, step m' i j = 0 := by
    intro i hi
    rw [Finset.sum_congr rfl fun j hj => h7.step i hi j (Finset.mem_range.1 hj), sum_newStep_ergodic (posts m hm data d hge) he hi]
    unfold HmmSpec.departures
    rw [List.map_congr_left (g := fun _ => (0 : K)) fun fr hf => by rw [h1 fr hf]; simp]
    simp
  have hn : m'.n = m.n := by rw [h7.same]
  refine ⟨_, m', h6, hn, by rw [h7.same]; exact he, h0, fun hs => ?_⟩
  have := hs.step_sum 0 (by have := h8.pos; omega)
  rw [hn, h0 0 (by have := hm.wf.pos; omega)] at this
  exact zero_ne_one this

/-- there are such models and training sets -/
example : ∃ m : Hmm ℝ, m.InTraining ∧ m.Trains ⟨2, [[[1, 2]], [[3, 4]]]⟩ ∧ m.ergodic = true ∧ Dens.real.Sound := by
  obtain ⟨m, h1, h2, h3, h4, h5, h6, h7⟩ := inTraining_exists true
  refine ⟨m, h1, ⟨?_, by simp [KData.frames], by simp, ?_, ?_⟩, h4, h5⟩
  · simp [KData.frames, h6]
  · intro s hs
    simp [h7 s hs, h6]
  · intro s hs i hi
    rw [h6] at hi
    rw [h7 s hs]
    interval_cases i <;> norm_num

end Hmm
end Xmm
