import Verif.Spec.PhraseShared
import Verif.Props.Phrase
/- C101: a phrase in shared memory is a window on the arrays of its user. -/
namespace Xmm
open PhraseSpec Phrase
variable {K : Type}

/-- the pointer of a window -/
def Window.ptr (a : Window K) : Ptr K := match a with | none => .null | some m => .cells (m.1.map some)

/-- the phrase `p` implements `v` -/
structure SRep (p : Phrase K) (v : View K) : Prop where
  own : p.ownMemory = false
  bim : p.bimodal = v.bimodal
  dim : p.dimension = v.dim
  dimMin : p.dimMin = if v.bimodal then 2 else 1
  di : p.dimensionInput = v.di
  diMin : p.diMin = v.diMin
  diMax : p.diMax = v.diMax
  length : p.length = v.size
  inLen : p.inputLength = v.input.len
  outLen : p.outputLength = v.output.len
  empty : p.empty = !v.connected
  data0 : p.data0 = Window.ptr v.input
  data1 : p.data1 = if v.bimodal then Window.ptr v.output else .garbage
  uni : v.bimodal = false → v.output = none
  roomIn : ∀ m n, v.input = some (m, n) → n * v.inDim ≤ m.length
  roomOut : ∀ m n, v.output = some (m, n) → n * (v.dim - v.di) ≤ m.length

theorem SRep.new (b : Bool) : SRep (construct K false b) (View.new K b) := by
  cases b <;> constructor <;> simp [construct, View.new, View.size, Window.len, Window.ptr]

theorem poke_ptr (a : Window K) (i : Nat) (x : K) : poke i x (Window.ptr a) = Window.ptr (a.poke i x) := by
  cases a with
  | none => rfl
  | some m => simp [Window.ptr, Window.poke, poke, List.map_set]

theorem poke_len (a : Window K) (i : Nat) (x : K) : (a.poke i x).len = a.len := by
  cases a <;> rfl

theorem poke_room {a : Window K} {i : Nat} {x : K} {c : Nat} (h : ∀ m n, a = some (m, n) → n * c ≤ m.length) :
    ∀ m n, a.poke i x = some (m, n) → n * c ≤ m.length := by
  intro m n e
  cases a with
  | none => simp [Window.poke] at e
  | some w =>
    simp only [Window.poke, Option.map_some, Option.some.injEq, Prod.mk.injEq] at e
    rw [← e.1, ← e.2, List.length_set]
    exact h _ _ rfl

/-- every fair event does what the specification says -/
theorem SRep.step {p : Phrase K} {v : View K} (h : SRep p v) (op : SOp K) (hf : v.Fair op) :
    ∃ p', SRep p' (v.step op).1 ∧
      sstep op p = match (v.step op).2 with | none => .ret () p' | some e => .throw e p' := by
  obtain ⟨q1, q2, q3, q4, q5, q6, q7, q8, q9, q10, q11, q12, q13, q14, q15, q16⟩ := h
  have hs : SRep p v := ⟨q1, q2, q3, q4, q5, q6, q7, q8, q9, q10, q11, q12, q13, q14, q15, q16⟩
  have hcut : ∀ v' : View K, v'.bimodal = v.bimodal → v'.input = none → v'.output = none → v'.size = 0 := by
    intro v' _ h1 h2
    simp [View.size, h1, h2, Window.len]
  cases op with
  | call op =>
    by_cases hk : KeepsDims op
    · have := C15_shared_rejected p q1 op hk
      refine ⟨p, ?_, ?_⟩ <;> cases op <;> first | exact hk.elim | exact hs | exact this
    · cases op with
      | setDimension d =>
        have ho : v.output = none := hf
        simp only [View.step]
        by_cases hd : d < (if v.bimodal then 2 else 1)
        · rw [if_pos hd]
          exact ⟨p, hs, by simp [sstep, Phrase.step, setDimension, q4, hd]⟩
        · rw [if_neg hd]
          have hd' : ¬ d < p.dimMin := by rw [q4]; exact hd
          cases hb : v.bimodal with
          | false =>
            refine ⟨_, ?_, by simp only [sstep, Phrase.step, setDimension, Prog.bind_def, Prog.get_def, if_neg hd', Prog.set_def, resetData, q1, q2, hb]; simp; rfl⟩
            constructor <;> simp_all [View.cut, View.size, Window.len, Window.ptr]
          | true =>
            refine ⟨_, ?_, by simp only [sstep, Phrase.step, setDimension, Prog.bind_def, Prog.get_def, if_neg hd', Prog.set_def, resetData, q1, q2, hb]; simp [q13, hb, ho, Window.ptr, Ptr.isNull]; rfl⟩
            constructor <;> simp_all [View.cut, View.size, Window.len, Window.ptr]
      | setDimensionInput d =>
        have ho : v.output = none := hf
        simp only [View.step]
        by_cases hd : d < v.diMin ∨ v.diMax < d
        · rw [if_pos hd]
          exact ⟨p, hs, by simp [sstep, Phrase.step, setDimensionInput, q6, q7, hd]⟩
        · rw [if_neg hd]
          have hd' : ¬ (d < p.diMin ∨ p.diMax < d) := by rw [q6, q7]; exact hd
          cases hb : v.bimodal with
          | false =>
            refine ⟨_, ?_, by simp only [sstep, Phrase.step, setDimensionInput, Prog.bind_def, Prog.get_def, if_neg hd', Prog.set_def, resetData, q1, q2, hb]; simp; rfl⟩
            constructor <;> simp_all [View.cut, View.size, Window.len, Window.ptr]
          | true =>
            refine ⟨_, ?_, by simp only [sstep, Phrase.step, setDimensionInput, Prog.bind_def, Prog.get_def, if_neg hd', Prog.set_def, resetData, q1, q2, hb]; simp [q13, hb, ho, Window.ptr, Ptr.isNull]; rfl⟩
            constructor <;> simp_all [View.cut, View.size, Window.len, Window.ptr]
      | record o => exact (hk trivial).elim
      | recordInput o => exact (hk trivial).elim
      | recordOutput o => exact (hk trivial).elim
      | clear => exact (hk trivial).elim
      | clearInput => exact (hk trivial).elim
      | clearOutput => exact (hk trivial).elim
  | connect m n =>
    cases hb : v.bimodal with
    | true => exact ⟨p, by simpa [View.step, hb] using hs, by simp [sstep, connect, q1, q2, hb, View.step]⟩
    | false =>
      refine ⟨_, ?_, by simp [sstep, connect, q1, q2, hb, View.step]; rfl⟩
      have hf' : n * v.dim ≤ m.length := hf
      constructor <;> simp_all [View.step, View.size, Window.len, Window.ptr, View.inDim]
  | connectBoth m m' n =>
    cases hb : v.bimodal with
    | false => exact ⟨p, by simpa [View.step, hb] using hs, by simp [sstep, connectBoth, q1, q2, hb, View.step]⟩
    | true =>
      refine ⟨_, ?_, by simp [sstep, connectBoth, trim, q1, q2, hb, View.step]; rfl⟩
      obtain ⟨hf1, hf2⟩ : n * v.di ≤ m.length ∧ n * (v.dim - v.di) ≤ m'.length := hf
      constructor <;> simp_all [View.step, View.size, Window.len, Window.ptr, View.inDim]
  | connectInput m n =>
    cases hb : v.bimodal with
    | false => exact ⟨p, by simpa [View.step, hb] using hs, by simp [sstep, connectInput, q1, q2, hb, View.step]⟩
    | true =>
      refine ⟨_, ?_, by simp [sstep, connectInput, trim, q1, q2, hb, View.step]; rfl⟩
      have hf' : n * v.di ≤ m.length := hf
      constructor <;> simp_all [View.step, View.size, Window.len, Window.ptr, View.inDim]
  | connectOutput m n =>
    cases hb : v.bimodal with
    | false => exact ⟨p, by simpa [View.step, hb] using hs, by simp [sstep, connectOutput, q1, q2, hb, View.step]⟩
    | true =>
      refine ⟨_, ?_, by simp [sstep, connectOutput, trim, q1, q2, hb, View.step]; rfl⟩
      have hf' : n * (v.dim - v.di) ≤ m.length := hf
      constructor <;> simp_all [View.step, View.size, Window.len, Window.ptr, View.inDim]
  | disconnect =>
    refine ⟨_, ?_, by simp [sstep, disconnect, q1, View.step]; rfl⟩
    cases hb : v.bimodal <;> constructor <;> simp_all [View.step, View.cut, View.size, Window.len, Window.ptr]
  | pokeInput i x =>
    refine ⟨_, ?_, by simp [sstep, View.step]; rfl⟩
    have h15 := poke_room (i := i) (x := x) q15
    refine ⟨q1, q2, q3, q4, q5, q6, q7, ?_, ?_, q10, q11, ?_, q13, q14, h15, q16⟩
    · simpa [View.step, View.size, poke_len] using q8
    · simpa [View.step, poke_len] using q9
    · simp [View.step, q12, poke_ptr]
  | pokeOutput i x =>
    refine ⟨_, ?_, by simp [sstep, View.step]; rfl⟩
    have h16 := poke_room (i := i) (x := x) q16
    refine ⟨q1, q2, q3, q4, q5, q6, q7, ?_, q9, ?_, q11, q12, ?_, ?_, q15, h16⟩
    · simpa [View.step, View.size, poke_len] using q8
    · simpa [View.step, poke_len] using q10
    · cases hb : v.bimodal with
      | false => simp [View.step, q13, hb, poke]
      | true => simp [View.step, q13, hb, poke_ptr]
    · intro hb; simp [View.step, q14 hb, Window.poke]

theorem SRep.run : ∀ (ops : List (SOp K)) (p : Phrase K) (v : View K), SRep p v → v.Admissible ops →
    ∃ p', srun ops p = some (p', (View.run ops v).2) ∧ SRep p' (View.run ops v).1 := by
  intro ops
  induction ops with
  | nil => intro p v h _; exact ⟨p, rfl, h⟩
  | cons op ops ih =>
    intro p v h ha
    obtain ⟨p1, r1, e1⟩ := h.step op ha.1
    obtain ⟨p2, e2, r2⟩ := ih p1 _ r1 ha.2
    refine ⟨p2, ?_, r2⟩
    simp only [srun, e1, View.run]
    cases (v.step op).2 <;> simp [e2]
theorem Window.read_ptr (a : Window K) (i : Nat) : (Window.ptr a).read i = a.cell i := by
  cases a with
  | none => rfl
  | some m => simp only [Window.ptr, Ptr.read, Window.cell, List.getElem?_map, Option.bind_some]; cases m.1[i]? <;> rfl

/-- a cell that a frame needs is in the array -/
theorem Window.cell_some {a : Window K} {c : Nat} (h : ∀ m n, a = some (m, n) → n * c ≤ m.length) {t d : Nat}
    (ht : t < a.len) (hd : d < c) : ∃ x, a.cell (t * c + d) = some x := by
  cases a with
  | none => simp [Window.len] at ht
  | some w =>
    have h1 := h w.1 w.2 rfl
    simp only [Window.len, Option.map_some, Option.getD_some] at ht
    have h2 : t * c + d < w.1.length := by
      have : (t + 1) * c ≤ w.2 * c := Nat.mul_le_mul_right c ht
      rw [Nat.add_mul, Nat.one_mul] at this
      omega
    exact ⟨w.1[t * c + d], by simp [Window.cell, h2]⟩

theorem SRep.getValue {p : Phrase K} {v : View K} (h : SRep p v) (t d : Nat) :
    Phrase.getValue t d p = match v.value t d with | some x => .ret x p | none => .throw .outOfRange p := by
  obtain ⟨q1, q2, q3, q4, q5, q6, q7, q8, q9, q10, q11, q12, q13, q14, q15, q16⟩ := h
  simp only [Phrase.getValue, Prog.bind_def, Prog.get_def, q3, View.value]
  by_cases hd : v.dim ≤ d
  · simp [hd]
  · simp only [ge_iff_le, hd, if_false, q2]
    cases hb : v.bimodal with
    | false =>
      simp only [Bool.false_eq_true, if_false, q8, View.size, hb]
      by_cases ht : t < v.input.len
      · obtain ⟨x, hx⟩ := Window.cell_some (c := v.dim) (by simpa [View.inDim, hb] using q15) ht (not_le.1 hd)
        simp [ht, not_le.2 ht, q12, Window.read_ptr, hx, orUB]
      · simp [ht, not_lt.1 ht]
    | true =>
      simp only [if_true, q5, q9, q10]
      by_cases hi : d < v.di
      · simp only [hi, if_true]
        by_cases ht : t < v.input.len
        · obtain ⟨x, hx⟩ := Window.cell_some (c := v.di) (by simpa [View.inDim, hb] using q15) ht hi
          simp [ht, not_le.2 ht, q12, Window.read_ptr, hx, orUB]
        · simp [ht, not_lt.1 ht]
      · simp only [hi, if_false]
        by_cases ht : t < v.output.len
        · have hod : p.outDim = v.dim - v.di := by
            have : v.di ≤ v.dim := by omega
            simp [outDim, q3, q5, this]
          obtain ⟨x, hx⟩ := Window.cell_some (c := v.dim - v.di) (d := d - v.di) q16 ht (by omega)
          have he : t * p.outDim + d - v.di = t * (v.dim - v.di) + (d - v.di) := by rw [hod]; omega
          rw [if_neg (by omega), if_pos ht, he, q13, hb, if_pos rfl, Window.read_ptr, hx]
          rfl
        · simp [ht, not_lt.1 ht]

/-- **C101**: for every history of a phrase in shared memory — connecting, disconnecting and reconnecting arrays, attempts to
    record or clear, changes of dimension, writes of the user to their arrays — in which the arrays have room for the announced
    frames and no dimension changes while an output array is connected: there is no undefined behaviour, the calls throw exactly
    as specified, the phrase reports the specified number of frames and emptiness, and `getValue` returns, for every frame and
    column, the present content of the corresponding cell of the user's array, or throws `out_of_range` if there is none. -/
theorem C101_window (b : Bool) (ops : List (SOp K)) (ha : (View.new K b).Admissible ops) :
    ∃ p, srun ops (construct K false b) = some (p, ((View.new K b).run ops).2) ∧
      p.length = ((View.new K b).run ops).1.size ∧ p.empty = !((View.new K b).run ops).1.connected ∧
      p.inputLength = ((View.new K b).run ops).1.input.len ∧ p.outputLength = ((View.new K b).run ops).1.output.len ∧
      ∀ t d, Phrase.getValue t d p =
        match ((View.new K b).run ops).1.value t d with
        | some x => .ret x p
        | none => .throw .outOfRange p := by
  obtain ⟨p, e, h⟩ := SRep.run ops _ _ (SRep.new (K := K) b) ha
  exact ⟨p, e, h.length, h.empty, h.inLen, h.outLen, h.getValue⟩

/-- C101 (pointers): `getPointer(t)` of a unimodal phrase points to the cells of frame `t`, and `getPointer_input(t)`,
    `getPointer_output(t)` of a bimodal one to those of its modalities; they throw `out_of_range` from the first frame on that
    the phrase does not have. -/
theorem C101_pointers (b : Bool) (ops : List (SOp K)) (ha : (View.new K b).Admissible ops) (t : Nat) :
    ∃ p v, srun ops (construct K false b) = some (p, ((View.new K b).run ops).2) ∧ v = ((View.new K b).run ops).1 ∧
      (v.size ≤ t → Phrase.getPointer t p = .throw .outOfRange p ∧ Phrase.getPointerInput t p = .throw .outOfRange p ∧
        Phrase.getPointerOutput t p = .throw .outOfRange p) ∧
      (t < v.size → v.bimodal = false → ∃ o, Phrase.getPointer t p = .ret o p ∧
        ∀ d < v.dim, p.data0.read (o + d) = v.value t d ∧ (v.value t d).isSome = true) ∧
      (t < v.size → v.bimodal = true → v.di < v.dim → ∃ o o', Phrase.getPointerInput t p = .ret o p ∧
        Phrase.getPointerOutput t p = .ret o' p ∧
        (∀ d < v.di, p.data0.read (o + d) = v.value t d ∧ (v.value t d).isSome = true) ∧
        ∀ d < v.dim - v.di, p.data1.read (o' + d) = v.value t (v.di + d) ∧ (v.value t (v.di + d)).isSome = true) := by
  obtain ⟨p, e, h⟩ := SRep.run ops _ _ (SRep.new (K := K) b) ha
  generalize ((View.new K b).run ops).1 = v at *
  obtain ⟨q1, q2, q3, q4, q5, q6, q7, q8, q9, q10, q11, q12, q13, q14, q15, q16⟩ := h
  refine ⟨p, v, e, rfl, fun ht => ?_, fun ht hb => ?_, fun ht hb hdd => ?_⟩
  · simp [getPointer, getPointerInput, getPointerOutput, q8, ht]
  · refine ⟨t * v.dim, by simp [getPointer, q8, not_le.2 ht, q2, hb, q3], fun d hd => ?_⟩
    have ht' : t < v.input.len := by simpa [View.size, hb] using ht
    obtain ⟨x, hx⟩ := Window.cell_some (c := v.dim) (by simpa [View.inDim, hb] using q15) ht' hd
    simp [View.value, hb, ht', q12, Window.read_ptr, hx, hd]
  · have hod : p.outDim = v.dim - v.di := by simp [outDim, q3, q5, hdd.le]
    have ht1 : t < v.input.len := lt_of_lt_of_le ht (by simp [View.size, hb])
    have ht2 : t < v.output.len := lt_of_lt_of_le ht (by simp [View.size, hb])
    refine ⟨t * v.di, t * (v.dim - v.di), by simp [getPointerInput, q8, not_le.2 ht, q2, hb, q5],
      by simp [getPointerOutput, q8, not_le.2 ht, q2, hb, hod], fun d hd => ?_, fun d hd => ?_⟩
    · obtain ⟨x, hx⟩ := Window.cell_some (c := v.di) (by simpa [View.inDim, hb] using q15) ht1 hd
      have : ¬ v.dim ≤ d := by omega
      simp [View.value, hb, ht1, q12, Window.read_ptr, hx, hd, this]
    · obtain ⟨x, hx⟩ := Window.cell_some (c := v.dim - v.di) q16 ht2 hd
      have : ¬ v.dim ≤ v.di + d := by omega
      simp [View.value, hb, ht2, q13, Window.read_ptr, hx, this]

/-- C101 (own memory): a phrase that owns its memory refuses every array and `disconnect`, and is unchanged. -/
theorem C101_own_memory_refuses (p : Phrase K) (h : p.ownMemory = true) (m m' : List K) (n : Nat) :
    connect m n p = .throw .runtimeError p ∧ connectBoth m m' n p = .throw .runtimeError p ∧
      connectInput m n p = .throw .runtimeError p ∧ connectOutput m n p = .throw .runtimeError p ∧
      disconnect p = .throw .runtimeError p := by
  simp [connect, connectBoth, connectInput, connectOutput, disconnect, h]

/-- C101 (violated without the condition on dimensions): changing the dimension of a bimodal phrase in shared memory while an
    output array is connected deletes the user's array (xmmPhrase.cpp:571-576). -/
theorem C101_dimension_change_ub (ops : List (SOp K)) (ha : (View.new K true).Admissible ops)
    (ho : ((View.new K true).run ops).1.output ≠ none) (d : Nat) (hd : 2 ≤ d) :
    srun (ops ++ [.call (.setDimension d)]) (construct K false true) = none := by
  obtain ⟨p, e, h⟩ := SRep.run ops _ _ (SRep.new (K := K) true) ha
  have happ : ∀ (l : List (SOp K)) (q : Phrase K) (r), srun l q = some r →
      srun (l ++ [.call (.setDimension d)]) q = (srun [.call (.setDimension d)] r.1).map fun x => (x.1, r.2 ++ x.2) := by
    intro l
    induction l with
    | nil =>
      intro q r hr
      simp only [srun, Option.some.injEq] at hr
      subst hr
      simp
    | cons a l ih =>
      intro q r hr
      simp only [srun, List.cons_append] at hr ⊢
      cases hs : sstep a q with
      | ub => simp [hs] at hr
      | ret u q' =>
        simp only [hs, Option.map_eq_some_iff] at hr ⊢
        obtain ⟨r', h1, rfl⟩ := hr
        rw [ih q' r' h1]
        simp only [Option.map_map]; rfl
      | throw x q' =>
        simp only [hs, Option.map_eq_some_iff] at hr ⊢
        obtain ⟨r', h1, rfl⟩ := hr
        rw [ih q' r' h1]
        simp only [Option.map_map]; rfl
  have hb : ∀ (l : List (SOp K)) (v : View K), v.bimodal = true → (v.run l).1.bimodal = true := by
    intro l
    induction l with
    | nil => exact fun _ h => h
    | cons a l ih =>
      intro v hv
      refine ih _ ?_
      cases a with
      | call op => cases op <;> simp only [View.step] <;> (repeat' split) <;> simp_all [View.cut]
      | _ => simp_all [View.step, View.cut]
  rw [happ ops _ _ e]
  generalize hv : ((View.new K true).run ops).1 = v at *
  have hbv : v.bimodal = true := by rw [← hv]; exact hb ops _ (by simp [View.new])
  have h1 : ¬ d < p.dimMin := by rw [h.dimMin, hbv]; simpa using hd
  cases hout : v.output with
  | none => exact absurd hout ho
  | some w =>
    have : sstep (.call (.setDimension d)) p = .ub := by
      simp only [sstep, Phrase.step, setDimension, Prog.bind_def, Prog.get_def, if_neg h1, Prog.set_def, resetData, h.own, h.bim, hbv]
      simp [h.data1, hbv, hout, Window.ptr, Ptr.isNull]
    simp [srun, this]

/-! non-vacuity: a history with both modalities, a write through the user's pointer and a rejected recording -/

example : (View.new ℤ true).Admissible [.call (.setDimension 3), .call (.record [1, 2, 3]),
    .connectBoth [1, 2] [10, 20, 30, 40] 2, .pokeOutput 3 41, .connectInput [7] 1] := by
  refine ⟨rfl, trivial, ⟨by decide, by decide⟩, trivial, ?_, trivial⟩
  show 1 * 1 ≤ 1
  decide

example : ((View.new ℤ true).run [.call (.setDimension 3), .call (.record [1, 2, 3]),
    .connectBoth [1, 2] [10, 20, 30, 40] 2, .pokeOutput 3 41, .connectInput [7] 1]).1.value 1 2 = some 41 ∧
    ((View.new ℤ true).run [.call (.setDimension 3), .call (.record [1, 2, 3]),
    .connectBoth [1, 2] [10, 20, 30, 40] 2, .pokeOutput 3 41, .connectInput [7] 1]).1.size = 1 := by decide

example : srun [.connectOutput [(5 : ℤ)] 1, .call (.setDimension 4)] (construct ℤ false true) = none :=
  C101_dimension_change_ub [.connectOutput [5] 1] ⟨by show 1 * 1 ≤ 1; decide, trivial⟩ (by decide) 4 (by decide)

end Xmm
