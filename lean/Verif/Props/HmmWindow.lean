import Verif.Props.HmmForward
import Verif.Props.GmmRecognition
set_option linter.unusedSimpArgs false
set_option linter.unusedSectionVars false
/- The likeliest state, the window around it, the time progression and the output of a hidden Markov model. -/
namespace Xmm
open Phrase (loop)
open Gauss (rd rd_lt)
open Prog (bind_def pure_def get_def set_def modify_def throw_def undef_def)
namespace Hmm
variable {K : Type} [Field K] [LinearOrder K] [IsStrictOrderedRing K]
open HmmSpec GmmSpec RecSpec Gmm

theorem checkTraining_idle {m : Hmm K} (h : m.training = false) : Hmm.checkTraining m = .ret () m := by
  simp [Hmm.checkTraining, h]

theorem occupancy_ret {σ : Type} (m : Hmm K) (hs : m.Sized) (i : Nat) (hi : i < m.n) (t : σ) : occupancy m i t = .ret (occ m i) t := by
  unfold occupancy occ
  unfold Sized at hs
  rcases bool_cases m.hier with h | h
  · simp only [h, Bool.false_eq_true, if_false] at hs ⊢
    rw [rd_lt (by omega) 0]
  · simp only [h, if_true] at hs ⊢
    rw [bind_of_ret (rd_lt (by omega) 0 t), bind_of_ret (rd_lt (by omega) 0 t), pure_def]

theorem findLikeliest_ret {σ : Type} (m : Hmm K) (hs : m.Sized) (hn : 1 ≤ m.n) (t : σ) :
    ∃ i, findLikeliest m t = .ret (i, occ m i) t ∧ IsLikeliest m i := by
  unfold findLikeliest
  rw [bind_of_ret (occupancy_ret m hs 0 hn t)]
  obtain ⟨a, h1, h2, h3, h4, h5⟩ := loop_inv (m.n - 1) ((0 : Nat), occ m 0) (fun acc k => do
      let a ← occupancy m (k + 1)
      pure (if acc.2 < a then (k + 1, a) else acc)) t
    (fun k a => a.2 = occ m a.1 ∧ a.1 ≤ k ∧ (∀ j ≤ k, occ m j ≤ occ m a.1) ∧ ∀ j < a.1, occ m j < occ m a.1)
    ⟨rfl, le_rfl, fun j hj => by rw [Nat.le_zero.1 hj], fun j hj => by simp at hj⟩ (by
      rintro k hk ⟨b, v⟩ ⟨i1, i2, i3, i4⟩
      simp only at i1 i2 i3 i4
      rw [bind_of_ret (occupancy_ret m hs (k + 1) (by omega) t), pure_def]
      refine ⟨_, rfl, ?_⟩
      by_cases h : v < occ m (k + 1)
      · rw [if_pos h]
        rw [i1] at h
        refine ⟨rfl, le_rfl, fun j hj => ?_, fun j hj => ?_⟩
        · rcases Nat.lt_or_ge j (k + 1) with h' | h'
          · exact (i3 j (by omega)).trans h.le
          · rw [show j = k + 1 by omega]
        · exact lt_of_le_of_lt (i3 j (by simp only at hj; omega)) h
      · rw [if_neg h]
        rw [i1, not_lt] at h
        refine ⟨i1, by simp only; omega, fun j hj => ?_, i4⟩
        rcases Nat.lt_or_ge j (k + 1) with h' | h'
        · exact i3 j (by omega)
        · rw [show j = k + 1 by omega]; exact h)
  refine ⟨a.1, ?_, by omega, fun j hj => h4 j (by omega), h5⟩
  rw [h1, ← h2]

theorem updateAlphaWindow_ret (m : Hmm K) (hs : m.Sized) (hn : 1 ≤ m.n) (ht : m.training = false) :
    ∃ i, updateAlphaWindow m = .ret () { m with
        likeliest := i
        winMin := i - m.n / 2
        winMax := min (i + m.n / 2) m.n
        winNorm := ∑ j ∈ Finset.Ico (i - m.n / 2) (min (i + m.n / 2) m.n), occ m j } ∧ IsLikeliest m i := by
  obtain ⟨i, h1, h2⟩ := findLikeliest_ret m hs hn m
  refine ⟨i, ?_, h2⟩
  unfold updateAlphaWindow
  rw [bind_of_ret (checkTraining_idle ht), bind_of_ret (get_def m), bind_of_ret h1]
  have hhi : (if i + m.n / 2 ≤ m.n then i + m.n / 2 else m.n) = min (i + m.n / 2) m.n := rfl
  simp only [hhi]
  obtain ⟨a, e1, e2⟩ := loop_inv (min (i + m.n / 2) m.n - (i - m.n / 2)) (0 : K) (fun acc k => do
      let a ← occupancy m (i - m.n / 2 + k)
      pure (acc + a)) m (fun k a => a = ∑ j ∈ Finset.range k, occ m (i - m.n / 2 + j)) (by simp) (by
        rintro k hk a rfl
        refine ⟨_, ?_, (Finset.sum_range_succ _ _).symm⟩
        rw [bind_of_ret (occupancy_ret m hs _ (by omega) m), pure_def])
  rw [bind_of_ret e1, set_def, e2, Finset.sum_Ico_eq_sum_range]

theorem computeProgress_ret {σ : Type} (m : Hmm K) (w : Nat → K) (hw : ∀ i < m.n, ∀ t : σ, progressWeight m i t = .ret (w i) t)
    (hhi : m.winMax ≤ m.n) (t : σ) :
    computeProgress m t = .ret ((∑ i ∈ Finset.Ico m.winMin m.winMax, w i * (i : K) / m.winNorm) /
      (if m.n - 1 = 0 then 1 else ((m.n - 1 : Nat) : K))) t := by
  unfold computeProgress
  obtain ⟨a, e1, e2⟩ := loop_inv (m.winMax - m.winMin) (0 : K) (fun acc k => do
      let a ← progressWeight m (m.winMin + k)
      pure (acc + a * ((m.winMin + k : Nat) : K) / m.winNorm)) t
    (fun k a => a = ∑ j ∈ Finset.range k, w (m.winMin + j) * ((m.winMin + j : Nat) : K) / m.winNorm) (by simp) (by
        rintro k hk a rfl
        refine ⟨_, ?_, (Finset.sum_range_succ _ _).symm⟩
        rw [bind_of_ret (hw _ (by omega) t), pure_def])
  rw [bind_of_ret e1, pure_def, e2, Finset.sum_Ico_eq_sum_range]

theorem progressWeight_flat {σ : Type} (m : Hmm K) (hs : m.Sized) (hh : m.hier = false) (i : Nat) (hi : i < m.n) (t : σ) :
    progressWeight m i t = .ret (occ m i) t := by
  unfold progressWeight occ
  unfold Sized at hs
  simp only [hh, Bool.false_eq_true, if_false] at hs ⊢
  rw [rd_lt (by omega) 0]

theorem progressWeight_hier {σ : Type} (m : Hmm K) (hs : m.Sized) (hh : m.hier = true) (i : Nat) (hi : i < m.n) (t : σ) :
    progressWeight m i t = .ret (occ m i + m.alpha2.getD i 0) t := by
  unfold progressWeight occ
  unfold Sized at hs
  simp only [hh, if_true] at hs ⊢
  rw [bind_of_ret (rd_lt (by omega) 0 t), bind_of_ret (rd_lt (by omega) 0 t), bind_of_ret (rd_lt (by omega) 0 t), pure_def]

theorem onBuf_ret {α : Type} {f : Prog (CBuf K 1) α} {m : Hmm K} {a : α} {b : CBuf K 1} (h : f m.buf = .ret a b) :
    Hmm.onBuf f m = .ret a { m with buf := b } := by
  simp [Hmm.onBuf, h]

theorem updateResults_ret (log : K → K) (m : Hmm K) (w : Nat → K)
    (hw : ∀ b, ∀ i < m.n, ∀ t : Hmm K, progressWeight { m with buf := b } i t = .ret (w i) t)
    (hhi : m.winMax ≤ m.n) {win : Nat} (hist : List K) (hl : Logs m.buf win hist) :
    ∃ b, Hmm.updateResults log m = .ret () { m with
        buf := b
        logLik := avgLast win (hist ++ [log m.instant])
        progress := (∑ i ∈ Finset.Ico m.winMin m.winMax, w i * (i : K) / m.winNorm) /
          (if m.n - 1 = 0 then 1 else ((m.n - 1 : Nat) : K)) } ∧ Logs b win (hist ++ [log m.instant]) := by
  obtain ⟨b, h1, h2⟩ := smooth_ret hl (log m.instant)
  refine ⟨b, ?_, h2⟩
  unfold Hmm.updateResults
  rw [bind_of_ret (get_def m), bind_of_ret (onBuf_ret h1), bind_of_ret (get_def _),
    bind_of_ret (computeProgress_ret ({ m with buf := b } : Hmm K) w (hw b) hhi _), set_def]

theorem onState_ret {α : Type} {f : Prog (Gmm K) α} {m : Hmm K} {i : Nat} {s s' : Gmm K} {a : α} (hs : m.sts[i]? = some s)
    (h : f s = .ret a s') : onState i f m = .ret a { m with sts := m.sts.set i s' } := by
  simp [onState, hs, h]

end Hmm
end Xmm
