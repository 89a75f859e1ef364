import Verif.Spec.Phrase
import Mathlib.Tactic.Linarith
import Mathlib.Tactic.Ring
set_option linter.unusedTactic false
set_option linter.unreachableTactic false
namespace Xmm
variable {K : Type}

theorem flatten_length_uniform {d : Nat} {fs : List (List K)} (h : ∀ f ∈ fs, f.length = d) :
    fs.flatten.length = fs.length * d := by
  induction fs with
  | nil => simp
  | cons f fs ih =>
    simp only [List.flatten_cons, List.length_append, List.length_cons]
    rw [ih fun g hg => h g (List.mem_cons_of_mem _ hg), h f List.mem_cons_self]; ring

theorem flatten_getElem_uniform {d : Nat} {fs : List (List K)} (h : ∀ f ∈ fs, f.length = d) (t j : Nat)
    (ht : t < fs.length) (hj : j < d) : fs.flatten[t * d + j]? = (fs[t]?).bind (fun f => f[j]?) := by
  induction fs generalizing t with
  | nil => simp at ht
  | cons f fs ih =>
    have hf := h f List.mem_cons_self
    cases t with
    | zero => simp [List.getElem?_append, hf, hj]
    | succ t =>
      have ht' : t < fs.length := by simpa using ht
      have h1 := ih (fun g hg => h g (List.mem_cons_of_mem _ hg)) t ht'
      have h2 : (t + 1) * d + j = f.length + (t * d + j) := by rw [hf]; ring
      rw [h2, List.flatten_cons, List.getElem?_append_right (by omega)]
      simp only [Nat.add_sub_cancel_left, h1, List.getElem?_cons_succ]

/-- `ptr` is a block of capacity `max` frames of `d` values holding exactly `fs`. -/
structure Block (ptr : Ptr K) (d max : Nat) (fs : List (List K)) : Prop where
  uni : ∀ f ∈ fs, f.length = d
  le : fs.length ≤ max
  rep : (ptr = .null ∧ max = 0) ∨
    ∃ l, ptr = .cells l ∧ l.length = max * d ∧ l.take (fs.length * d) = fs.flatten.map some

namespace Block
variable {ptr : Ptr K} {d max : Nat} {fs : List (List K)}

theorem nil_of_null (d : Nat) : Block (.null : Ptr K) d 0 [] := ⟨by simp, by simp, Or.inl ⟨rfl, rfl⟩⟩

theorem clear (h : Block ptr d max fs) : Block ptr d max [] := by
  refine ⟨by simp, by simp, ?_⟩
  rcases h.rep with h1 | ⟨l, h1, h2, _⟩
  · exact Or.inl h1
  · exact Or.inr ⟨l, h1, h2, by simp⟩

theorem realloc (h : Block ptr d max fs) (extra : Nat) :
    ∃ ptr', ptr.reallocate (max * d) ((max + extra) * d) = some ptr' ∧ Block ptr' d (max + extra) fs := by
  rcases h.rep with ⟨rfl, rfl⟩ | ⟨l, rfl, h2, h3⟩
  · have : fs = [] := List.length_eq_zero_iff.1 (Nat.le_zero.1 h.le)
    subst this
    exact ⟨_, rfl, by simp, by simp, Or.inr ⟨_, rfl, by simp, by simp⟩⟩
  · have hn : (if (max + extra) * d > max * d then max * d else (max + extra) * d) = max * d := by
      split
      · rfl
      · rename_i hle
        have : max * d ≤ (max + extra) * d := Nat.mul_le_mul_right d (by omega)
        omega
    refine ⟨.cells (l.take (max * d) ++ List.replicate ((max + extra) * d - max * d) none), ?_, h.uni,
      by have := h.le; omega, Or.inr ⟨_, rfl, ?_, ?_⟩⟩
    · simp only [Ptr.reallocate, hn]
      rw [if_pos (by omega)]
    · have : max * d ≤ (max + extra) * d := Nat.mul_le_mul_right d (by omega)
      simp only [List.length_append, List.length_take, List.length_replicate, h2, Nat.min_self]
      omega
    · rw [← h3, List.take_of_length_le (l := l) (by omega)]
      apply List.take_append_of_le_length
      rw [h2]; exact Nat.mul_le_mul_right d h.le

theorem write (h : Block ptr d max fs) (hlt : fs.length < max) (obs : List K) (ho : obs.length = d) :
    ∃ ptr', ptr.write (fs.length * d) obs = some ptr' ∧ Block ptr' d max (fs ++ [obs]) := by
  rcases h.rep with ⟨rfl, rfl⟩ | ⟨l, rfl, h2, h3⟩
  · omega
  · have hle : fs.length * d + obs.length ≤ l.length := by
      rw [h2, ho]
      calc fs.length * d + d = (fs.length + 1) * d := by ring
        _ ≤ max * d := Nat.mul_le_mul_right d hlt
    refine ⟨.cells (l.take (fs.length * d) ++ obs.map some ++ l.drop (fs.length * d + obs.length)),
      by simp only [Ptr.write, if_pos hle], ?_, by simp; omega, Or.inr ⟨_, rfl, ?_, ?_⟩⟩
    · intro f hf
      simp only [List.mem_append, List.mem_singleton] at hf
      rcases hf with hf | rfl
      · exact h.uni f hf
      · exact ho
    · simp only [List.length_append, List.length_take, List.length_map, List.length_drop]
      omega
    · have hl : (List.take (fs.length * d) l ++ obs.map some).length = (fs ++ [obs]).length * d := by
        simp only [List.length_append, List.length_take, List.length_map, List.length_cons, List.length_nil]
        rw [Nat.min_eq_left (by omega), ho]; ring
      rw [← hl, List.take_left', h3]
      · simp
      · rfl

theorem read (h : Block ptr d max fs) (t j : Nat) (ht : t < fs.length) (hj : j < d) :
    ptr.read (t * d + j) = (fs[t]?).bind (fun f => f[j]?) := by
  have hlt : t * d + j < fs.length * d := by
    calc t * d + j < t * d + d := by omega
      _ = (t + 1) * d := by ring
      _ ≤ fs.length * d := Nat.mul_le_mul_right d ht
  rcases h.rep with ⟨rfl, rfl⟩ | ⟨l, rfl, h2, h3⟩
  · have := h.le; omega
  · have h4 : l[t * d + j]? = (l.take (fs.length * d))[t * d + j]? := by
      rw [List.getElem?_take_of_lt hlt]
    simp only [Ptr.read]
    rw [h4, h3, List.getElem?_map, flatten_getElem_uniform h.uni t j ht hj]
    cases (fs[t]?).bind (fun f => f[j]?) <;> simp

theorem read_isSome (h : Block ptr d max fs) (t j : Nat) (ht : t < fs.length) (hj : j < d) :
    ∃ f v, fs[t]? = some f ∧ f[j]? = some v ∧ ptr.read (t * d + j) = some v := by
  have hf : fs[t]? = some fs[t] := List.getElem?_eq_getElem ht
  have hl : fs[t].length = d := h.uni _ (List.getElem_mem ht)
  have hv : fs[t][j]? = some (fs[t][j]'(by omega)) := List.getElem?_eq_getElem (by omega)
  refine ⟨_, _, hf, hv, ?_⟩
  rw [h.read t j ht hj, hf]; exact hv

end Block

namespace Phrase
open PhraseSpec

/-- The phrase `p` represents the abstract phrase `s`. -/
structure Rep (p : Phrase K) (s : S K) : Prop where
  own : p.ownMemory = true
  bim : p.bimodal = s.bimodal
  dim : p.dimension = s.dim
  di : p.dimensionInput = s.di
  dmin : p.dimMin = if s.bimodal then 2 else 1
  diMin : p.diMin = s.diMin
  diMax : p.diMax = s.diMax
  nogarbage : p.data0.isGarbage = false
  uni : s.bimodal = false → Block p.data0 s.dim p.maxLength s.ins ∧ p.length = s.ins.length ∧ s.outs = []
  bi : s.bimodal = true → Block p.data0 s.di p.maxLength s.ins ∧ Block p.data1 (s.dim - s.di) p.maxLength s.outs ∧
    p.inputLength = s.ins.length ∧ p.outputLength = s.outs.length ∧
    p.length = min s.ins.length s.outs.length ∧ p.empty = (max s.ins.length s.outs.length == 0)

theorem rep_construct (b : Bool) : Rep (construct K true b) (PhraseSpec.new K b) := by
  cases b
  · constructor <;> simp [construct, PhraseSpec.new, Ptr.isGarbage, Block.nil_of_null]
  · constructor <;> simp [construct, PhraseSpec.new, Ptr.isGarbage, Block.nil_of_null]

theorem Rep.outDim_eq {p : Phrase K} {s : S K} (h : Rep p s) (hb : s.bimodal = true) (hc : s.Coherent) :
    p.outDim = s.dim - s.di := by
  have := hc hb
  unfold outDim
  rw [h.dim, h.di, if_pos (by omega)]

/-- reallocation preserves everything -/
theorem Rep.reallocateLength {p : Phrase K} {s : S K} (h : Rep p s) (hc : s.Coherent) :
    ∃ p', Phrase.reallocateLength p = .ret () p' ∧ Rep p' s ∧ p'.maxLength = p.maxLength + allocationBlockSize ∧
      p'.length = p.length ∧ p'.inputLength = p.inputLength ∧ p'.outputLength = p.outputLength := by
  cases hb : s.bimodal with
  | false =>
    obtain ⟨h1, h2, h3⟩ := h.uni hb
    obtain ⟨d0, e0, b0⟩ := h1.realloc allocationBlockSize
    have hpb : p.bimodal = false := by rw [h.bim, hb]
    refine ⟨{ p with data0 := d0, maxLength := p.maxLength + allocationBlockSize }, ?_, ?_, rfl, rfl, rfl, rfl⟩
    · simp [Phrase.reallocateLength, hpb, h.dim, e0, orUB]
    · refine ⟨h.own, h.bim, h.dim, h.di, h.dmin, h.diMin, h.diMax, ?_, fun _ => ⟨b0, h2, h3⟩, fun hb' => ?_⟩
      · rcases b0.rep with ⟨h1, _⟩ | ⟨l, h1, _⟩ <;> rw [h1] <;> rfl
      · rw [hb] at hb'; cases hb'
  | true =>
    obtain ⟨h1, h2, h3, h4, h5, h6⟩ := h.bi hb
    obtain ⟨d0, e0, b0⟩ := h1.realloc allocationBlockSize
    obtain ⟨d1, e1, b1⟩ := h2.realloc allocationBlockSize
    have hpb : p.bimodal = true := by rw [h.bim, hb]
    refine ⟨{ p with data0 := d0, data1 := d1, maxLength := p.maxLength + allocationBlockSize }, ?_, ?_, rfl, rfl,
      rfl, rfl⟩
    · simp [Phrase.reallocateLength, hpb, h.di, h.outDim_eq hb hc, e0, e1, orUB]
    · refine ⟨h.own, h.bim, h.dim, h.di, h.dmin, h.diMin, h.diMax, ?_, fun hb' => ?_, fun _ => ⟨b0, b1, h3, h4, h5, h6⟩⟩
      · rcases b0.rep with ⟨h1, _⟩ | ⟨l, h1, _⟩ <;> rw [h1] <;> rfl
      · rw [hb] at hb'; cases hb'

/-- make room if needed -/
theorem Rep.room {p : Phrase K} {s : S K} (h : Rep p s) (hc : s.Coherent) (len n : Nat)
    (hcn : n ≤ len) (hn : n ≤ p.maxLength) :
    ∃ p', ensureRoom len p = .ret () p' ∧ Rep p' s ∧
      n < p'.maxLength ∧ p'.length = p.length ∧ p'.inputLength = p.inputLength ∧ p'.outputLength = p.outputLength := by
  by_cases h1 : len ≥ p.maxLength ∨ p.maxLength = 0
  · obtain ⟨p', e, r, hm, hl⟩ := h.reallocateLength hc
    refine ⟨p', ?_, r, ?_, hl⟩
    · simp only [ensureRoom, Prog.bind_def, Prog.get_def, if_pos h1, e]
    · rw [hm]; simp [allocationBlockSize]; omega
  · exact ⟨p, by simp only [ensureRoom, Prog.bind_def, Prog.get_def, if_neg h1, Prog.pure_def], h, by omega,
      rfl, rfl, rfl⟩

theorem isGarbage_of_block {ptr : Ptr K} {d m : Nat} {fs : List (List K)} (h : Block ptr d m fs) :
    ptr.isGarbage = false := by
  rcases h.rep with ⟨h1, _⟩ | ⟨l, h1, _⟩ <;> rw [h1] <;> rfl

/-- One call: same outcome as the specification, and the representation is kept. -/
theorem Rep.step {p : Phrase K} {s : S K} (h : Rep p s) (hc : s.Coherent) (op : Op K) :
    ∃ p', Rep p' (s.step op).1 ∧ Phrase.step op p = match (s.step op).2 with
      | none => .ret () p'
      | some e => .throw e p := by
  cases op with
  | record obs =>
    cases hb : s.bimodal with
    | false =>
      have hpb : p.bimodal = false := by rw [h.bim, hb]
      obtain ⟨h1, h2, h3⟩ := h.uni hb
      by_cases ho : obs.length = s.dim
      · obtain ⟨p1, e1, r1, hm, hl, hil, hol⟩ := h.room hc p.length s.ins.length
          (by rw [h2]) h1.le
        obtain ⟨g1, g2, g3⟩ := r1.uni hb
        obtain ⟨d0, w0, b0⟩ := g1.write hm obs ho
        have hpb1 : p1.bimodal = false := by rw [r1.bim, hb]
        refine ⟨{ p1 with data0 := d0, inputLength := p1.inputLength + 1, length := p1.length + 1, empty := false },
          ?_, ?_⟩
        · simp only [S.step, hb, Bool.false_eq_true, if_false, ho, ne_eq, not_true]
          refine ⟨r1.own, by first | exact r1.bim | exact r1.bim.trans hb, r1.dim, r1.di, by first | exact r1.dmin | simpa [hb] using r1.dmin, r1.diMin, r1.diMax, isGarbage_of_block b0,
            fun _ => ⟨b0, ?_, g3⟩, fun hb' => ?_⟩
          · simp [g2]
          · simp at hb'
        · simp only [S.step, hb, Bool.false_eq_true, if_false, ho, ne_eq, not_true, Phrase.step, record,
            Prog.bind_def, Prog.get_def, h.own, Bool.not_true, hpb, Bool.false_and, h.dim, e1, hpb1]
          simp [g2, r1.dim, w0, orUB]
      · refine ⟨p, ?_, ?_⟩
        · simpa [S.step, hb, ho] using h
        · simp [S.step, hb, ho, Phrase.step, record, h.own, hpb, h.dim]
    | true =>
      have hpb : p.bimodal = true := by rw [h.bim, hb]
      have hcc := hc hb
      obtain ⟨h1, h2, h3, h4, h5, h6⟩ := h.bi hb
      by_cases hal : s.ins.length = s.outs.length
      · by_cases ho : obs.length = s.dim
        · obtain ⟨p1, e1, r1, hm, hl, hil, hol⟩ := h.room hc p.length s.ins.length
            (by rw [h5]; omega) h1.le
          obtain ⟨g1, g2, g3, g4, g5, g6⟩ := r1.bi hb
          obtain ⟨d0, w0, b0⟩ := g1.write hm (obs.take s.di) (by simp; omega)
          obtain ⟨d1, w1, b1⟩ := g2.write (by omega) (obs.drop s.di) (by simp; omega)
          have hpb1 : p1.bimodal = true := by rw [r1.bim, hb]
          refine ⟨{ p1 with data0 := d0, data1 := d1, inputLength := p1.inputLength + 1,
                            outputLength := p1.outputLength + 1, length := p1.length + 1, empty := false }, ?_, ?_⟩
          · simp only [S.step, hb, if_true, hal, ho, ne_eq, not_true, if_false]
            refine ⟨r1.own, by first | exact r1.bim | exact r1.bim.trans hb, r1.dim, r1.di, by first | exact r1.dmin | simpa [hb] using r1.dmin, r1.diMin, r1.diMax, isGarbage_of_block b0,
              fun hb' => ?_, fun _ => ⟨b0, b1, ?_, ?_, ?_, ?_⟩⟩
            · simp at hb'
            · simp [g3]
            · simp [g4]
            · simp [g5, hal]
            · simp
          · have hle : ¬ s.di > s.dim := by omega
            simp only [S.step, hb, if_true, hal, ho, ne_eq, not_true, if_false, Phrase.step, record,
              Prog.bind_def, Prog.get_def, h.own, Bool.not_true, hpb, h3, h4, h.dim, e1, hpb1,
              Bool.true_and, bne_self_eq_false, Bool.false_eq_true, r1.di, r1.dim, hle,
              r1.outDim_eq hb hc, g3, g4]
            rw [← hal] at w1 ⊢
            simp [w0, w1, orUB]
        · refine ⟨p, ?_, ?_⟩
          · simpa [S.step, hb, ho, hal] using h
          · simp [S.step, hb, ho, hal, Phrase.step, record, h.own, hpb, h.dim, h3, h4]
      · refine ⟨p, ?_, ?_⟩
        · simpa [S.step, hb, hal] using h
        · simp [S.step, hb, hal, Phrase.step, record, h.own, hpb, h3, h4]
  | recordInput obs =>
    cases hb : s.bimodal with
    | false =>
      have hpb : p.bimodal = false := by rw [h.bim, hb]
      exact ⟨p, by simpa [S.step, hb] using h, by simp [S.step, hb, Phrase.step, recordInput, h.own, hpb]⟩
    | true =>
      have hpb : p.bimodal = true := by rw [h.bim, hb]
      obtain ⟨h1, h2, h3, h4, h5, h6⟩ := h.bi hb
      by_cases ho : obs.length = s.di
      · obtain ⟨p1, e1, r1, hm, hl, hil, hol⟩ := h.room hc p.inputLength
          s.ins.length (by rw [h3]) h1.le
        obtain ⟨g1, g2, g3, g4, g5, g6⟩ := r1.bi hb
        obtain ⟨d0, w0, b0⟩ := g1.write hm obs ho
        have hpb1 : p1.bimodal = true := by rw [r1.bim, hb]
        refine ⟨{ p1 with data0 := d0, inputLength := p1.inputLength + 1,
                          length := min (p1.inputLength + 1) p1.outputLength, empty := false }, ?_, ?_⟩
        · simp only [S.step, hb, Bool.not_true, Bool.false_eq_true, if_false, ho, ne_eq, not_true]
          refine ⟨r1.own, by first | exact r1.bim | exact r1.bim.trans hb, r1.dim, r1.di, by first | exact r1.dmin | simpa [hb] using r1.dmin, r1.diMin, r1.diMax, isGarbage_of_block b0,
            fun hb' => ?_, fun _ => ⟨b0, g2, ?_, g4, ?_, ?_⟩⟩
          · simp at hb'
          · simp [g3]
          · simp [g3, g4]
          · simp only [List.length_append, List.length_cons, List.length_nil]
            symm; rw [beq_eq_false_iff_ne]; omega
        · simp only [S.step, hb, Bool.not_true, Bool.false_eq_true, if_false, ho, ne_eq, not_true, Phrase.step,
            recordInput, Prog.bind_def, Prog.get_def, h.own, hpb, h.di, e1, r1.di, g3]
          simp [w0, orUB, trim, hpb1]
      · refine ⟨p, ?_, ?_⟩
        · simpa [S.step, hb, ho] using h
        · simp [S.step, hb, ho, Phrase.step, recordInput, h.own, hpb, h.di]
  | recordOutput obs =>
    cases hb : s.bimodal with
    | false =>
      have hpb : p.bimodal = false := by rw [h.bim, hb]
      exact ⟨p, by simpa [S.step, hb] using h, by simp [S.step, hb, Phrase.step, recordOutput, h.own, hpb]⟩
    | true =>
      have hpb : p.bimodal = true := by rw [h.bim, hb]
      obtain ⟨h1, h2, h3, h4, h5, h6⟩ := h.bi hb
      by_cases ho : obs.length = s.dim - s.di
      · obtain ⟨p1, e1, r1, hm, hl, hil, hol⟩ := h.room hc p.outputLength
          s.outs.length (by rw [h4]) h2.le
        obtain ⟨g1, g2, g3, g4, g5, g6⟩ := r1.bi hb
        obtain ⟨d1, w1, b1⟩ := g2.write hm obs ho
        have hpb1 : p1.bimodal = true := by rw [r1.bim, hb]
        refine ⟨{ p1 with data1 := d1, outputLength := p1.outputLength + 1,
                          length := min p1.inputLength (p1.outputLength + 1), empty := false }, ?_, ?_⟩
        · simp only [S.step, hb, Bool.not_true, Bool.false_eq_true, if_false, ho, ne_eq, not_true]
          refine ⟨r1.own, by first | exact r1.bim | exact r1.bim.trans hb, r1.dim, r1.di, by first | exact r1.dmin | simpa [hb] using r1.dmin, r1.diMin, r1.diMax, r1.nogarbage,
            fun hb' => ?_, fun _ => ⟨g1, b1, g3, ?_, ?_, ?_⟩⟩
          · simp at hb'
          · simp [g4]
          · simp [g3, g4]
          · simp only [List.length_append, List.length_cons, List.length_nil]
            symm; rw [beq_eq_false_iff_ne]; omega
        · simp only [S.step, hb, Bool.not_true, Bool.false_eq_true, if_false, ho, ne_eq, not_true, Phrase.step,
            recordOutput, Prog.bind_def, Prog.get_def, h.own, hpb, h.outDim_eq hb hc, e1, r1.outDim_eq hb hc, g4]
          simp [w1, orUB, trim, hpb1]
      · refine ⟨p, ?_, ?_⟩
        · simpa [S.step, hb, ho] using h
        · simp [S.step, hb, ho, Phrase.step, recordOutput, h.own, hpb, h.outDim_eq hb hc]
  | clear =>
    refine ⟨{ p with length := 0, inputLength := 0, outputLength := 0, empty := true }, ?_, ?_⟩
    · refine ⟨h.own, (by first | exact h.bim | exact h.bim.trans hb), h.dim, h.di, h.dmin, h.diMin, h.diMax, h.nogarbage, fun hb => ?_, fun hb => ?_⟩
      · exact ⟨(h.uni hb).1.clear, rfl, rfl⟩
      · exact ⟨(h.bi hb).1.clear, (h.bi hb).2.1.clear, rfl, rfl, rfl, rfl⟩
    · simp [S.step, Phrase.step, Phrase.clear, h.own]
  | clearInput =>
    cases hb : s.bimodal with
    | false =>
      have hpb : p.bimodal = false := by rw [h.bim, hb]
      refine ⟨{ p with length := 0, inputLength := 0 }, ?_, ?_⟩
      · refine ⟨h.own, (by first | exact h.bim | exact h.bim.trans hb), h.dim, h.di, h.dmin, h.diMin, h.diMax, h.nogarbage, fun hb => ?_, fun hb' => ?_⟩
        · exact ⟨(h.uni hb).1.clear, rfl, (h.uni hb).2.2⟩
        · simp [S.step, hb] at hb'
      · simp [S.step, Phrase.step, Phrase.clearInput, h.own, hpb, trim]
    | true =>
      have hpb : p.bimodal = true := by rw [h.bim, hb]
      obtain ⟨h1, h2, h3, h4, h5, h6⟩ := h.bi hb
      refine ⟨{ p with inputLength := 0, length := min 0 p.outputLength, empty := max 0 p.outputLength == 0 }, ?_, ?_⟩
      · refine ⟨h.own, (by first | exact h.bim | exact h.bim.trans hb), h.dim, h.di, h.dmin, h.diMin, h.diMax, h.nogarbage, fun hb' => ?_, fun hb => ?_⟩
        · simp [S.step, hb] at hb'
        · exact ⟨h1.clear, h2, rfl, h4, by simp [S.step], by simp [S.step, h4]⟩
      · simp [S.step, Phrase.step, Phrase.clearInput, h.own, hpb, trim]
  | clearOutput =>
    cases hb : s.bimodal with
    | false =>
      have hpb : p.bimodal = false := by rw [h.bim, hb]
      refine ⟨{ p with length := 0, outputLength := 0 }, ?_, ?_⟩
      · simp only [S.step, hb, Bool.false_eq_true, if_false]
        refine ⟨h.own, (by first | exact h.bim | exact h.bim.trans hb), h.dim, h.di, ?_, h.diMin, h.diMax, h.nogarbage, fun _ => ?_, fun hb' => ?_⟩
        · simpa [hb] using h.dmin
        · exact ⟨(h.uni hb).1.clear, rfl, (h.uni hb).2.2⟩
        · simp at hb'
      · simp [S.step, Phrase.step, Phrase.clearOutput, h.own, hpb, trim]
    | true =>
      have hpb : p.bimodal = true := by rw [h.bim, hb]
      obtain ⟨h1, h2, h3, h4, h5, h6⟩ := h.bi hb
      refine ⟨{ p with outputLength := 0, length := min p.inputLength 0, empty := max p.inputLength 0 == 0 }, ?_, ?_⟩
      · simp only [S.step, hb, if_true]
        refine ⟨h.own, (by first | exact h.bim | exact h.bim.trans hb), h.dim, h.di, ?_, h.diMin, h.diMax, h.nogarbage, fun hb' => ?_, fun _ => ?_⟩
        · simpa [hb] using h.dmin
        · simp at hb'
        · exact ⟨h1, h2.clear, h3, rfl, by simp, by simp [h3]⟩
      · simp [S.step, Phrase.step, Phrase.clearOutput, h.own, hpb, trim]
  | setDimension d =>
    by_cases hd : d < (if s.bimodal then 2 else 1)
    · refine ⟨p, ?_, ?_⟩
      · simpa [S.step, hd] using h
      · simp [S.step, hd, Phrase.step, setDimension, h.dmin]
    · cases hb : s.bimodal with
      | false =>
        have hpb : p.bimodal = false := by rw [h.bim, hb]
        rw [hb] at hd
        refine ⟨{ p with dimension := d, length := 0, inputLength := 0, outputLength := 0, maxLength := 0,
                         empty := true, data0 := .null, columnNames := resizeNames d p.columnNames,
                         diMax := d - 1 }, ?_, ?_⟩
        · have hst : (s.step (.setDimension d)).1 =
              { s with dim := d, diMax := d - 1, ins := [], outs := [] } := by
            simp only [S.step, hb, hd, if_false]
          rw [hst]
          refine ⟨h.own, (by first | exact h.bim | exact h.bim.trans hb), rfl, h.di, ?_, h.diMin, rfl, rfl, fun _ => ?_, fun hb' => ?_⟩
          · simpa [hb] using h.dmin
          · exact ⟨Block.nil_of_null _, rfl, rfl⟩
          · simp [hb] at hb'
        · have hdm := h.dmin
          simp only [hb, Bool.false_eq_true, if_false] at hdm hd
          simp [S.step, hb, hd, Phrase.step, setDimension, hdm, resetData, hpb, h.nogarbage]
      | true =>
        have hpb : p.bimodal = true := by rw [h.bim, hb]
        rw [hb] at hd
        refine ⟨{ p with dimension := d, length := 0, inputLength := 0, outputLength := 0, maxLength := 0,
                         empty := true, data0 := .null, data1 := .null,
                         columnNames := resizeNames d p.columnNames, diMax := d - 1 }, ?_, ?_⟩
        · have hst : (s.step (.setDimension d)).1 =
              { s with dim := d, diMax := d - 1, ins := [], outs := [] } := by
            simp only [if_true] at hd
            simp only [S.step, hb, if_true, hd, if_false]
          rw [hst]
          refine ⟨h.own, (by first | exact h.bim | exact h.bim.trans hb), rfl, h.di, ?_, h.diMin, rfl, rfl, fun hb' => ?_, fun _ => ?_⟩
          · simpa [hb] using h.dmin
          · simp [hb] at hb'
          · exact ⟨Block.nil_of_null _, Block.nil_of_null _, rfl, rfl, rfl, rfl⟩
        · have hdm := h.dmin
          simp only [hb, if_true] at hdm hd
          simp [S.step, hb, hd, Phrase.step, setDimension, hdm, resetData, hpb, h.own, h.nogarbage]
  | setDimensionInput d =>
    by_cases hd : d < s.diMin ∨ s.diMax < d
    · refine ⟨p, ?_, ?_⟩
      · simpa [S.step, hd] using h
      · simp [S.step, hd, Phrase.step, setDimensionInput, h.diMin, h.diMax]
    · cases hb : s.bimodal with
      | false =>
        have hpb : p.bimodal = false := by rw [h.bim, hb]
        refine ⟨{ p with dimensionInput := d, length := 0, inputLength := 0, outputLength := 0, maxLength := 0,
                         empty := true, data0 := .null, columnNames := resizeNames p.dimension p.columnNames },
          ?_, ?_⟩
        · simp only [S.step, hd, if_false]
          refine ⟨h.own, (by first | exact h.bim | exact h.bim.trans hb), h.dim, rfl, h.dmin, h.diMin, h.diMax, rfl, fun _ => ?_, fun hb' => ?_⟩
          · exact ⟨Block.nil_of_null _, rfl, rfl⟩
          · simp [hb] at hb'
        · simp [S.step, hd, Phrase.step, setDimensionInput, h.diMin, h.diMax, resetData, hpb, h.nogarbage]
      | true =>
        have hpb : p.bimodal = true := by rw [h.bim, hb]
        refine ⟨{ p with dimensionInput := d, length := 0, inputLength := 0, outputLength := 0, maxLength := 0,
                         empty := true, data0 := .null, data1 := .null,
                         columnNames := resizeNames p.dimension p.columnNames }, ?_, ?_⟩
        · simp only [S.step, hd, if_false]
          refine ⟨h.own, (by first | exact h.bim | exact h.bim.trans hb), h.dim, rfl, h.dmin, h.diMin, h.diMax, rfl, fun hb' => ?_, fun _ => ?_⟩
          · simp [hb] at hb'
          · exact ⟨Block.nil_of_null _, Block.nil_of_null _, rfl, rfl, rfl, rfl⟩
        · simp [S.step, hd, Phrase.step, setDimensionInput, h.diMin, h.diMax, resetData, hpb, h.own, h.nogarbage]

/-- Whole histories. -/
theorem Rep.run {p : Phrase K} {s : S K} (h : Rep p s) (hc : s.Coherent) (ops : List (Op K))
    (ha : S.Admissible ops s) :
    ∃ p', Phrase.run ops p = some (p', (S.run ops s).2) ∧ Rep p' (S.run ops s).1 ∧ (S.run ops s).1.Coherent := by
  induction ops generalizing p s with
  | nil => exact ⟨p, rfl, h, hc⟩
  | cons op ops ih =>
    obtain ⟨p1, r1, e1⟩ := h.step hc op
    obtain ⟨hc1, ha1⟩ := ha
    cases hout : (s.step op).2 with
    | none =>
      rw [hout] at e1
      obtain ⟨p2, e2, r2, c2⟩ := ih r1 hc1 ha1
      refine ⟨p2, ?_, r2, c2⟩
      simp only [Phrase.run, e1, e2, S.run, hout, Option.map_some]
    | some e =>
      rw [hout] at e1
      -- a rejected call leaves the very same object
      have hs : (s.step op).1 = s := by
        revert hout
        cases op <;> simp only [S.step] <;> (repeat' split) <;> simp
      rw [hs] at ha1 hc1
      obtain ⟨p2, e2, r2, c2⟩ := ih h hc ha1
      refine ⟨p2, ?_, ?_, ?_⟩
      · simp only [Phrase.run, e1, e2, S.run, hout, hs, Option.map_some]
      · simpa only [S.run, hs] using r2
      · simpa only [S.run, hs] using c2

end Phrase
end Xmm
