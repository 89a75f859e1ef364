import Verif.Model.CircularBuffer
import Verif.Spec.CircularBuffer
import Mathlib.Algebra.BigOperators.Group.List.Basic
import Mathlib.Algebra.Order.Ring.Rat
import Mathlib.Tactic.Ring
/-
C04, C05, C06: circular buffer.
-/
namespace Xmm
open CBuf CBufSpec
namespace CBuf
variable {α : Type} {channels : Nat}

/-- push a whole list -/
def pushAll : List (Fin channels → α) → Prog (CBuf α channels) Unit
  | [] => pure ()
  | v :: vs => do push v; pushAll vs

/-- the history since the last clear, oldest first, for a buffer that has never been resized -/
structure Holds (b : CBuf α channels) (L : Nat) (hist : List (Fin channels → α)) : Prop where
  len : b.length = L
  dlen : b.data.length = L
  cur : b.current < L
  notfull : b.full = false → b.current = hist.length ∧ b.data.take b.current = hist
  isfull : b.full = true → L ≤ hist.length ∧ b.data.drop b.current ++ b.data.take b.current = lastN L hist

theorem Holds.init (dflt : α) (L : Nat) (hL : 0 < L) :
    (construct dflt channels L).Holds L [] := by
  constructor <;> simp [construct, vecResize, hL]

theorem lastN_snoc {β : Type} (L : Nat) (hL : 0 < L) (l : List β) (v : β) (h : L ≤ l.length) :
    lastN L (l ++ [v]) = (lastN L l).tail ++ [v] := by
  unfold lastN
  have h1 : (l ++ [v]).length - L = (l.length - L) + 1 := by simp; omega
  rw [h1, ← List.drop_drop, List.drop_append_of_le_length (by omega), List.drop_append_of_le_length,
    List.drop_one]
  simp; omega

theorem Holds.push {b : CBuf α channels} {L : Nat} {hist : List (Fin channels → α)}
    (h : b.Holds L hist) (v : Fin channels → α) :
    ∃ b', push v b = .ret () b' ∧ b'.Holds L (hist ++ [v]) := by
  have hc := h.cur
  have hd := h.dlen
  have hl := h.len
  have hlt : b.current < b.data.length := by omega
  have hL0 : b.length ≠ 0 := by omega
  refine ⟨{ b with data := b.data.set b.current v, current := (b.current + 1) % b.length,
                   full := if b.current + 1 = b.length then true else b.full }, ?_, ?_⟩
  · simp [CBuf.push, hlt, hL0]
  by_cases hw : b.current + 1 = b.length
  · -- wrap
    have hmod : (b.current + 1) % b.length = 0 := by rw [hw]; exact Nat.mod_self _
    constructor
    · exact hl
    · simpa using hd
    · simp only [hmod]; omega
    · simp [hw]
    · intro _
      simp only [hmod, List.drop_zero, List.take_zero, List.append_nil]
      have hset : b.data.set b.current v = b.data.take b.current ++ [v] := by
        rw [List.set_eq_take_append_cons_drop, if_pos hlt]
        congr 2
        apply List.drop_eq_nil_of_le; omega
      rw [hset]
      cases hf : b.full with
      | false =>
        obtain ⟨h1, h2⟩ := h.notfull hf
        refine ⟨by simp; omega, ?_⟩
        rw [h2]
        unfold lastN
        have : (hist ++ [v]).length - L = 0 := by simp; omega
        rw [this, List.drop_zero]
      | true =>
        obtain ⟨h1, h2⟩ := h.isfull hf
        refine ⟨by simp; omega, ?_⟩
        rw [lastN_snoc L (by omega) hist v h1, ← h2]
        have hdrop : b.data.drop b.current = [b.data[b.current]] := by
          rw [List.drop_eq_getElem_cons hlt]
          congr 1
          apply List.drop_eq_nil_of_le; omega
        rw [hdrop]; rfl
  · have hmod : (b.current + 1) % b.length = b.current + 1 := Nat.mod_eq_of_lt (by omega)
    constructor
    · exact hl
    · simpa using hd
    · simp only [hmod]; omega
    · intro hf
      simp only [hw, if_false] at hf
      obtain ⟨h1, h2⟩ := h.notfull hf
      simp only [hmod]
      refine ⟨by simp; omega, ?_⟩
      rw [List.set_eq_take_append_cons_drop, if_pos hlt, List.take_append, List.take_take, h2]
      rw [h1] at h2
      simp [h1, h2]
    · intro hf
      simp only [hw, if_false] at hf
      obtain ⟨h1, h2⟩ := h.isfull hf
      simp only [hmod]
      refine ⟨by simp; omega, ?_⟩
      rw [lastN_snoc L (by omega) hist v h1, ← h2]
      rw [List.set_eq_take_append_cons_drop, if_pos hlt]
      have hlen : (b.data.take b.current).length = b.current := by simp; omega
      have e1 : List.drop (b.current + 1) (List.take b.current b.data ++ v :: List.drop (b.current + 1) b.data)
          = List.drop (b.current + 1) b.data := by
        rw [List.drop_append, List.drop_eq_nil_of_le (by omega), hlen]
        simp
      have e2 : List.take (b.current + 1) (List.take b.current b.data ++ v :: List.drop (b.current + 1) b.data)
          = List.take b.current b.data ++ [v] := by
        rw [List.take_append, List.take_of_length_le (by omega), hlen]
        simp
      rw [e1, e2, ← List.append_assoc]
      congr 1
      conv_rhs => rw [List.drop_eq_getElem_cons hlt]
      rfl

theorem Holds.clear {b : CBuf α channels} {L : Nat} {hist : List (Fin channels → α)}
    (h : b.Holds L hist) : ∃ b', CBuf.clear b = .ret () b' ∧ b'.Holds L [] := by
  refine ⟨_, rfl, ?_⟩
  have := h.cur
  constructor <;> simp [h.len, h.dlen]
  omega

end CBuf

/-- What was pushed since the last clear, in a history of pushes and clears. -/
def CBufSpec.sinceClear {α : Type} {channels : Nat} (h : List (CBuf.Op α channels)) :
    List (Fin channels → α) :=
  h.foldl (fun acc op => match op with | .push v => acc ++ [v] | .clear => [] | .resize _ => acc) []

/-- The history contains no resize. -/
def CBufSpec.NoResize {α : Type} {channels : Nat} (h : List (CBuf.Op α channels)) : Prop :=
  ∀ op ∈ h, match op with | .resize _ => False | _ => True

theorem CBuf.run_holds {α : Type} {channels : Nat} (dflt : α) (L : Nat)
    (h : List (CBuf.Op α channels)) (hn : CBufSpec.NoResize h) :
    ∀ (b : CBuf α channels) (hist : List (Fin channels → α)), b.Holds L hist →
    ∃ b', run dflt h b = .ret () b' ∧ b'.Holds L
      (h.foldl (fun acc op => match op with | .push v => acc ++ [v] | .clear => [] | .resize _ => acc) hist) := by
  induction h with
  | nil => intro b hist hb; exact ⟨b, rfl, hb⟩
  | cons op ops ih =>
    intro b hist hb
    have hn' : CBufSpec.NoResize ops := fun o ho => hn o (List.mem_cons_of_mem _ ho)
    have hop := hn op List.mem_cons_self
    cases op with
    | push v =>
      obtain ⟨b1, e1, h1⟩ := hb.push v
      obtain ⟨b2, e2, h2⟩ := ih hn' b1 _ h1
      exact ⟨b2, by simp [run, step, e1, e2], h2⟩
    | clear =>
      obtain ⟨b1, e1, h1⟩ := hb.clear
      obtain ⟨b2, e2, h2⟩ := ih hn' b1 _ h1
      exact ⟨b2, by simp [run, step, e1, e2], h2⟩
    | resize n => exact absurd hop (by simp)

/-- C04: after any history of pushes and clears, a buffer of length `L > 0` has not thrown and has no
    undefined behaviour; it reports `min n L` values, `n` being the number of pushes since the last clear;
    reading an index `i` of channel `c` below that count returns a value, reading at or beyond it throws
    `out_of_range`; and the values readable at indices `0, 1, …` are exactly the last `L` pushed, each once
    (they are a permutation of them). -/
theorem C04_holds_most_recent {α : Type} {channels : Nat} (dflt : α) (L : Nat) (hL : 0 < L)
    (h : List (CBuf.Op α channels)) (hn : CBufSpec.NoResize h) :
    ∃ (b : CBuf α channels) (readable : List (Fin channels → α)),
      run dflt h (construct dflt channels L) = .ret () b ∧
      b.count = min (CBufSpec.sinceClear h).length L ∧
      readable.length = b.count ∧
      readable.Perm (lastN L (CBufSpec.sinceClear h)) ∧
      ∀ c i, at' c i b =
        if hc : c < channels then
          if hi : i < readable.length then .ret (readable[i] ⟨c, hc⟩) b else .throw .outOfRange b
        else .throw .outOfRange b := by
  obtain ⟨b, e, hb⟩ := CBuf.run_holds dflt L h hn _ _ (Holds.init (channels := channels) dflt L hL)
  change b.Holds L (CBufSpec.sinceClear h) at hb
  generalize hH : CBufSpec.sinceClear h = hist at *
  refine ⟨b, b.data.take b.count, e, ?_, ?_, ?_, ?_⟩
  · unfold count
    cases hf : b.full with
    | false => have := hb.notfull hf; have := hb.cur; simp; omega
    | true => have := hb.isfull hf; have := hb.len; simp; omega
  · unfold count
    have := hb.cur; have := hb.dlen; have := hb.len
    cases hf : b.full <;> simp <;> omega
  · unfold count
    have hd := hb.dlen; have hl := hb.len; have := hb.cur
    cases hf : b.full with
    | false =>
      obtain ⟨h1, h2⟩ := hb.notfull hf
      have : lastN L hist = hist := by unfold lastN; rw [show hist.length - L = 0 by omega]; rfl
      simp [h2, this]
    | true =>
      obtain ⟨h1, h2⟩ := hb.isfull hf
      rw [← h2]
      simp only [if_true]
      rw [List.take_of_length_le (by omega)]
      conv_lhs => rw [← List.take_append_drop b.current b.data]
      exact List.perm_append_comm
  · intro c i
    have hd := hb.dlen; have hl := hb.len; have hcur := hb.cur
    have hcnt : b.count ≤ b.data.length := by unfold count; split <;> omega
    by_cases hc : c < channels
    · simp only [at', Prog.bind_def, Prog.get_def, hc, dif_pos]
      change (if i ≥ b.count then Prog.throw Exn.outOfRange else _) b = _
      by_cases hi : i < b.count
      · have hi2 : i < b.data.length := by omega
        have hi3 : i < (b.data.take b.count).length := by simp; omega
        have : ¬ i ≥ b.count := by omega
        rw [if_neg this, dif_pos hi3]
        simp [List.getElem?_eq_getElem hi2]
      · have hi3 : ¬ i < (b.data.take b.count).length := by simp; omega
        rw [if_pos (by omega), dif_neg hi3]; rfl
    · simp [at', hc]

/-- Non-vacuity: length 3, five pushes (one wrap), after a clear. -/
example : CBufSpec.NoResize (α := Nat) (channels := 1)
      [.push (fun _ => 9), .clear, .push (fun _ => 1), .push (fun _ => 2), .push (fun _ => 3),
        .push (fun _ => 4), .push (fun _ => 5)] ∧
    lastN 3 (CBufSpec.sinceClear (α := Nat) (channels := 1)
      [.push (fun _ => 9), .clear, .push (fun _ => 1), .push (fun _ => 2), .push (fun _ => 3),
        .push (fun _ => 4), .push (fun _ => 5)]) = [fun _ => 3, fun _ => 4, fun _ => 5] := by
  constructor
  · simp [CBufSpec.NoResize]
  · rfl

theorem foldl_add_eq_sum {β K : Type} [AddCommMonoid K] (f : β → K) (l : List β) (z : K) :
    l.foldl (fun acc x => acc + f x) z = z + (l.map f).sum := by
  induction l generalizing z with
  | nil => simp
  | cons x xs ih => simp [ih, add_assoc]

/-- C05: after any non-empty history since the last clear, `mean()` returns, for every channel, the
    arithmetic mean of the last `min n L` values pushed. -/
theorem C05_mean_of_window {K : Type} [Field K] {channels : Nat} (dflt : K) (L : Nat) (hL : 0 < L)
    (h : List (CBuf.Op K channels)) (hn : CBufSpec.NoResize h) (hne : CBufSpec.sinceClear h ≠ []) :
    ∃ b, run dflt h (construct dflt channels L) = .ret () b ∧
      mean b = .ret (fun c => ((lastN L (CBufSpec.sinceClear h)).map (fun v => v c)).sum /
        ((lastN L (CBufSpec.sinceClear h)).length : K)) b := by
  obtain ⟨b, readable, e, hcount, hlen, hperm, _⟩ := C04_holds_most_recent dflt L hL h hn
  obtain ⟨b', e', hb⟩ := CBuf.run_holds dflt L h hn _ _ (Holds.init (channels := channels) dflt L hL)
  rw [e] at e'
  obtain rfl : b = b' := by injection e'
  change b.Holds L (CBufSpec.sinceClear h) at hb
  have hpos : 0 < (CBufSpec.sinceClear h).length := List.length_pos_of_ne_nil hne
  have hb0 : b.count ≠ 0 := by omega
  have hcnt : ¬ b.data.length < b.count := by
    have := hb.dlen; have := hb.len; have := hb.cur
    unfold count; split <;> omega
  have hplen := hperm.length_eq
  -- the readable slots
  have hread : (b.data.take b.count).Perm (lastN L (CBufSpec.sinceClear h)) := by
    have hd := hb.dlen; have hl := hb.len; have hcur := hb.cur
    generalize CBufSpec.sinceClear h = hist at *
    unfold count
    cases hf : b.full with
    | false =>
      obtain ⟨h1, h2⟩ := hb.notfull hf
      have : lastN L hist = hist := by unfold lastN; rw [show hist.length - L = 0 by omega]; rfl
      simp [h2, this]
    | true =>
      obtain ⟨h1, h2⟩ := hb.isfull hf
      rw [← h2]
      simp only [if_true]
      rw [List.take_of_length_le (by omega)]
      conv_lhs => rw [← List.take_append_drop b.current b.data]
      exact List.perm_append_comm
  refine ⟨b, e, ?_⟩
  simp only [mean, Prog.bind_def, Prog.get_def]
  change (if b.count = 0 ∨ b.data.length < b.count then _ else _ : Prog _ _) b = _
  rw [if_neg (by tauto)]
  simp only [Prog.pure_def]
  congr 1
  funext c
  change (b.data.take b.count).foldl (fun acc slot => acc + slot c) 0 / (b.count : K) = _
  rw [foldl_add_eq_sum (fun slot : Fin channels → K => slot c), zero_add,
    (hread.map (fun slot => slot c)).sum_eq, ← hread.length_eq]
  congr 2
  simp
  omega

/-- Non-vacuity: three pushes into a buffer of length 2; the mean is that of the last two. -/
example : lastN 2 (CBufSpec.sinceClear (α := Rat) (channels := 1)
    [.push (fun _ => 10), .push (fun _ => 1), .push (fun _ => 3)]) = [fun _ => 1, fun _ => 3] ∧
    (mean (K := Rat) (channels := 1) ⟨[fun _ => 3, fun _ => 1], 2, 1, true⟩ =
      .ret (fun _ => 2) ⟨[fun _ => 3, fun _ => 1], 2, 1, true⟩) := by
  refine ⟨rfl, ?_⟩
  simp [mean]
  norm_num

/-! ### C06: resize -/

/-- What can be read from a buffer (slots `0 … count-1`). -/
def CBuf.readable {α : Type} {channels : Nat} (b : CBuf α channels) : List (Fin channels → α) :=
  b.data.take b.count

/-- C06 (partial).  Full property: after `resize n` the buffer exposes the `min count n` most recent values.
    Proved: it never exposes anything that was not readable before (no stale or default cell becomes
    visible) and it exposes a prefix of the previous storage order; when shrinking, the count is exactly
    `min count n`; when growing a buffer that never wrapped, everything is kept.
    Missing (false, see the two violations): which values survive when shrinking, and the loss of values when
    growing a full buffer. -/
theorem C06_resize_partial {α : Type} {channels : Nat} (dflt : α) (L n : Nat) (_hn : 0 < n)
    (b : CBuf α channels) (hist : List (Fin channels → α)) (hb : b.Holds L hist) :
    ∃ b', resize dflt n b = .ret () b' ∧ b'.readable <+: b.readable ∧
      (n ≤ L → b'.count = min b.count n) ∧
      (L ≤ n → b.full = false → b'.readable = b.readable) := by
  have hd := hb.dlen; have hl := hb.len; have hcur := hb.cur
  by_cases h0 : n = b.length
  · refine ⟨b, by simp [resize, h0], List.prefix_refl _, ?_, fun _ _ => rfl⟩
    intro _
    have : b.count ≤ b.length := by unfold count; split <;> omega
    omega
  by_cases hg : n > b.length
  · refine ⟨⟨vecResize (fun _ => dflt) n b.data, n, b.current, false⟩, by simp [resize, h0, hg], ?_, by omega, ?_⟩
    · have : (⟨vecResize (fun _ => dflt) n b.data, n, b.current, false⟩ : CBuf α channels).readable
          = b.data.take b.current := by
        simp only [readable, count, vecResize, Bool.false_eq_true, if_false]
        rw [List.take_append_of_le_length (by simp; omega), List.take_take, Nat.min_eq_left (by omega)]
      rw [this]
      unfold readable count
      cases b.full with
      | true => simp only [if_true]; exact List.take_prefix_take_left (by omega)
      | false => exact List.prefix_refl _
    · intro _ hf
      simp only [readable, count, vecResize, hf, Bool.false_eq_true, if_false]
      rw [List.take_append_of_le_length (by simp; omega), List.take_take, Nat.min_eq_left (by omega)]
  · by_cases hc : b.current ≥ n
    · refine ⟨⟨vecResize (fun _ => dflt) n b.data, n, 0, true⟩, by simp [resize, h0, hg, hc], ?_, ?_, by omega⟩
      · simp only [readable, count, vecResize, if_true]
        rw [List.take_append_of_le_length (by simp; omega), List.take_take, Nat.min_self]
        cases b.full with
        | true => simp only [if_true]; exact List.take_prefix_take_left (by omega)
        | false => exact List.take_prefix_take_left hc
      · intro _
        unfold count
        cases b.full <;> simp <;> omega
    · refine ⟨⟨vecResize (fun _ => dflt) n b.data, n, b.current, b.full⟩, by simp [resize, h0, hg, hc], ?_, ?_, ?_⟩
      · simp only [readable, count, vecResize]
        cases b.full with
        | true =>
          simp only [if_true]
          rw [List.take_append_of_le_length (by simp; omega), List.take_take, Nat.min_self]
          exact List.take_prefix_take_left (by omega)
        | false =>
          simp only [Bool.false_eq_true, if_false]
          rw [List.take_append_of_le_length (by simp; omega), List.take_take, Nat.min_eq_left (by omega)]
          exact List.prefix_refl _
      · intro _
        unfold count
        cases b.full <;> simp <;> omega
      · omega

/-- Non-vacuity of `C06_resize_partial`: a wrapped buffer of length 3. -/
example : (⟨[fun _ => 4, fun _ => 2, fun _ => 3], 3, 1, true⟩ : CBuf Nat 1).Holds 3
    [fun _ => 1, fun _ => 2, fun _ => 3, fun _ => 4] := by
  constructor <;> first | rfl | decide | skip
  · simp
  · intro _; exact ⟨by decide, rfl⟩

/-- C06 violated, growing: a full buffer of length 3 that has just wrapped loses everything when it grows. -/
theorem C06_grow_violated :
    ∃ b b', run (0 : Nat) [.push (fun _ : Fin 1 => 1), .push (fun _ => 2), .push (fun _ => 3)]
        (construct 0 1 3) = .ret () b ∧ b.count = 3 ∧
      resize 0 4 b = .ret () b' ∧ b'.count = 0 :=
  ⟨⟨[fun _ => 1, fun _ => 2, fun _ => 3], 3, 0, true⟩, _, rfl, rfl, rfl, rfl⟩

/-- C06 violated, shrinking: after pushing 1,2,3 into a buffer of length 3, `resize(1)` keeps the *oldest*
    value 1 instead of the most recent value 3. -/
theorem C06_shrink_violated :
    ∃ b b', run (0 : Nat) [.push (fun _ : Fin 1 => 1), .push (fun _ => 2), .push (fun _ => 3)]
        (construct 0 1 3) = .ret () b ∧
      resize 0 1 b = .ret () b' ∧ b'.count = 1 ∧ at' 0 0 b' = .ret 1 b' :=
  ⟨⟨[fun _ => 1, fun _ => 2, fun _ => 3], 3, 0, true⟩, _, rfl, rfl, rfl, rfl⟩

/-- Precondition the code relies on: pushing into a buffer of length 0 is undefined behaviour
    (`likelihood_window` is bounded below by 1, xmmModelSharedParameters.cpp:54). -/
theorem C04_zero_length_push_is_ub {α : Type} (dflt v : α) :
    CBuf.push (channels := 1) (fun _ => v) (construct dflt 1 0) = .ub := by
  simp [CBuf.push, construct, vecResize]

end Xmm
