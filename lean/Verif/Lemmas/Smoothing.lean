import Verif.Spec.Recognition
import Verif.Props.CircularBuffer
import Verif.Lemmas.Gmm
set_option linter.unusedSimpArgs false
set_option linter.unusedSectionVars false
/- Smoothing of likelihoods; accumulation of vectors. -/
namespace Xmm
open Phrase (loop)
open Gauss (rd rd_lt)
open Prog (bind_def pure_def get_def set_def modify_def throw_def undef_def)
open CBufSpec RecSpec
variable {K : Type} [Field K] [LinearOrder K]

theorem Logs.ok {b : CBuf K 1} {w : Nat} {hist : List K} (h : Logs b w hist) : BufOk b := by
  unfold BufOk; rw [h.dlen, h.len]

theorem lastN_map {α β : Type} (f : α → β) (k : Nat) (l : List α) : lastN k (l.map f) = (lastN k l).map f := by
  simp [lastN, List.map_drop]

/-- slots that can be read hold the last values, in some order -/
theorem Holds.take_perm {α : Type} {b : CBuf α 1} {L : Nat} {hist : List (Fin 1 → α)} (hb : b.Holds L hist) :
    (b.data.take b.count).Perm (lastN L hist) := by
  have hd := hb.dlen; have hl := hb.len; have hcur := hb.cur
  unfold CBuf.count
  cases hf : b.full with
  | false =>
    obtain ⟨h1, h2⟩ := hb.notfull hf
    have : lastN L hist = hist := by unfold lastN; rw [show hist.length - L = 0 by omega]; rfl
    simp [h2, this]
  | true =>
    obtain ⟨h1, h2⟩ := hb.isfull hf
    rw [← h2]
    simp only [if_true]
    rw [List.take_of_length_le (by omega)]
    conv_lhs => rw [← List.take_append_drop b.current b.data]
    exact List.perm_append_comm

theorem sumSlots (b : CBuf K 1) (n : Nat) (hn : n ≤ b.count) (hd : b.count ≤ b.data.length) :
    loop n (0 : K) (fun acc i => do
      let v ← CBuf.at' 0 i
      pure (acc + v)) b = .ret ((b.data.take n).map fun v => v 0).sum b := by
  induction n with
  | zero => simp [loop, pure_def]
  | succ n ih =>
    rw [loop_succ, ih (by omega)]
    have h1 : n < b.data.length := by omega
    simp only [bind_def, CBuf.at', get_def, zero_lt_one, dif_pos]
    rw [if_neg (by unfold CBuf.count at hn; omega)]
    rw [List.getElem?_eq_getElem h1]
    simp only [pure_def]
    rw [List.take_add_one, List.getElem?_eq_getElem h1]
    simp only [List.map_append, List.sum_append, Option.toList_some, List.map_cons, List.map_nil, List.sum_cons, List.sum_nil,
      add_zero]
    rfl

/-- C40 on the buffer: pushing a value and averaging gives the average of the last `w` values. -/
theorem smooth_ret {b : CBuf K 1} {w : Nat} {hist : List K} (h : Logs b w hist) (l : K) :
    ∃ b', smooth l b = .ret (avgLast w (hist ++ [l])) b' ∧ Logs b' w (hist ++ [l]) := by
  obtain ⟨b', h1, h2⟩ := CBuf.Holds.push h (fun _ => l)
  have h3 : Logs b' w (hist ++ [l]) := by unfold Logs; simpa using h2
  refine ⟨b', ?_, h3⟩
  have hp := Holds.take_perm h3
  have hcd : b'.count ≤ b'.data.length := by
    have := h3.dlen; have := h3.len; have := h3.cur
    unfold CBuf.count; split <;> omega
  have hl := hp.length_eq
  rw [List.length_take, min_eq_left hcd] at hl
  have hpush : CBuf.pushScalar l b = .ret () b' := by
    simp only [CBuf.pushScalar, gt_iff_lt, lt_irrefl, if_false, h1]
  unfold smooth
  rw [bind_of_ret hpush, bind_of_ret (get_def b'), bind_of_ret (sumSlots b' b'.count le_rfl hcd), pure_def]
  congr 1
  unfold avgLast
  rw [(hp.map fun v => v 0).sum_eq, lastN_map, List.map_map, hl, lastN_map, List.length_map]
  congr 2
  simp [Function.comp_def]

/-- after `reset()` the buffer remembers nothing -/
theorem resetBuffer_ret {b : CBuf K 1} (hb : BufOk b) (w : Nat) (hw : 1 ≤ w) :
    ∃ b', resetBuffer w b = .ret () b' ∧ Logs b' w [] := by
  unfold BufOk at hb
  simp only [resetBuffer, bind_def, CBuf.resize, get_def]
  by_cases h : w = b.length
  · simp only [if_pos h, pure_def, CBuf.clear, modify_def]
    refine ⟨_, rfl, ?_⟩
    constructor <;> simp [← h, hb] <;> omega
  · simp only [if_neg h, set_def, CBuf.clear, modify_def]
    refine ⟨_, rfl, ?_⟩
    constructor <;> simp [CBuf.vecResize] <;> omega

theorem addScaled_ret {σ : Type} (n : Nat) (b : K) (src dst : List K) (s : σ) (h1 : n ≤ src.length) (h2 : n ≤ dst.length) :
    ∃ r, addScaled n b src dst s = .ret r s ∧ r.length = dst.length ∧
      ∀ d, r.getD d 0 = if d < n then dst.getD d 0 + b * src.getD d 0 else dst.getD d 0 := by
  unfold addScaled
  refine loop_inv n dst _ s (fun t r => r.length = dst.length ∧
    ∀ d, r.getD d 0 = if d < t then dst.getD d 0 + b * src.getD d 0 else dst.getD d 0) ⟨rfl, fun d => by simp⟩ ?_
  rintro t ht r ⟨i1, i2⟩
  simp only [bind_def, pure_def]
  rw [rd_lt (by omega) 0]
  simp only
  rw [rd_lt (by omega) 0]
  refine ⟨_, rfl, by simpa using i1, fun d => ?_⟩
  rw [getD_set _ _ _ _ _ (by omega)]
  by_cases h : d = t
  · rw [if_pos h, h, if_pos (by omega), i2 t, if_neg (by omega)]
  · rw [if_neg h, i2 d]
    by_cases h' : d < t
    · rw [if_pos h', if_pos (by omega)]
    · rw [if_neg h', if_neg (by omega)]

theorem eq_map_range_of_getD (l : List K) (n : Nat) (f : Nat → K) (hl : l.length = n) (h : ∀ i < n, l.getD i 0 = f i) :
    l = (List.range n).map f := by
  refine List.ext_getElem (by simp [hl]) fun i h1 h2 => ?_
  have := h i (by omega)
  rw [List.getD_eq_getElem?_getD, List.getElem?_eq_getElem h1, Option.getD_some] at this
  simpa using this

end Xmm
