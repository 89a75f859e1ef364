import Verif.Lemmas.Phrase
set_option linter.unusedSimpArgs false
/- C13–C16, C18: recording, reading and clearing phrases.  The expected behaviour is the list machine of
   Verif/Spec/Phrase.lean. -/
namespace Xmm
open PhraseSpec
variable {K : Type}

namespace Phrase

/-- what `getValue` must answer -/
def expectedRead (s : S K) (t d : Nat) (p : Phrase K) : Res (Phrase K) K :=
  match s.value t d with
  | some v => .ret v p
  | none => .throw .outOfRange p

theorem Rep.getValue {p : Phrase K} {s : S K} (h : Rep p s) (hc : s.Coherent) (t d : Nat) :
    Phrase.getValue t d p = expectedRead s t d p := by
  cases hb : s.bimodal with
  | false =>
    have hpb : p.bimodal = false := by rw [h.bim, hb]
    obtain ⟨h1, h2, _⟩ := h.uni hb
    by_cases hd : d < s.dim
    · by_cases ht : t < s.ins.length
      · obtain ⟨f, v, e1, e2, e3⟩ := h1.read_isSome t d ht hd
        have hd2 : ¬ s.dim ≤ d := by omega
        have ht2 : ¬ s.ins.length ≤ t := by omega
        simp [Phrase.getValue, expectedRead, S.value, hb, hpb, h.dim, h2, hd2, ht2, e1, e2, e3, orUB]
      · have : s.ins[t]? = none := by simp; omega
        have hd2 : ¬ s.dim ≤ d := by omega
        have ht2 : s.ins.length ≤ t := by omega
        simp [Phrase.getValue, expectedRead, S.value, hb, hpb, h.dim, h2, hd2, ht2, this]
    · have hv : (s.ins[t]?).bind (fun f => f[d]?) = none := by
        cases hf : s.ins[t]? with
        | none => rfl
        | some f =>
          have := h1.uni f (List.mem_of_getElem? hf)
          simp; omega
      have hd' : s.dim ≤ d := by omega
      simp [Phrase.getValue, expectedRead, S.value, hb, h.dim, hd', hv]
  | true =>
    have hpb : p.bimodal = true := by rw [h.bim, hb]
    have hcc := hc hb
    obtain ⟨h1, h2, h3, h4, h5, h6⟩ := h.bi hb
    by_cases hd : d < s.dim
    · have hd2 : ¬ s.dim ≤ d := by omega
      by_cases hdi : d < s.di
      · by_cases ht : t < s.ins.length
        · obtain ⟨f, v, e1, e2, e3⟩ := h1.read_isSome t d ht hdi
          have ht2 : ¬ s.ins.length ≤ t := by omega
          simp [Phrase.getValue, expectedRead, S.value, hb, hpb, h.dim, h.di, h3, hd2, hdi, ht2, e1, e2, e3, orUB]
        · have : s.ins[t]? = none := by simp; omega
          have ht2 : s.ins.length ≤ t := by omega
          simp [Phrase.getValue, expectedRead, S.value, hb, hpb, h.dim, h.di, h3, hd2, hdi, ht2, this]
      · by_cases ht : t < s.outs.length
        · obtain ⟨f, v, e1, e2, e3⟩ := h2.read_isSome t (d - s.di) ht (by omega)
          have ht2 : ¬ s.outs.length ≤ t := by omega
          have he : t * (s.dim - s.di) + d - s.di = t * (s.dim - s.di) + (d - s.di) := by omega
          simp [Phrase.getValue, expectedRead, S.value, hb, hpb, h.dim, h.di, h4, hd2, hdi, ht2, e1, e2, e3, orUB,
            h.outDim_eq hb hc, he]
        · have : s.outs[t]? = none := by simp; omega
          have ht2 : s.outs.length ≤ t := by omega
          simp [Phrase.getValue, expectedRead, S.value, hb, hpb, h.dim, h.di, h4, hd2, hdi, ht2, this]
    · have hdi : ¬ d < s.di := by omega
      have hv : (s.outs[t]?).bind (fun f => f[d - s.di]?) = none := by
        cases hf : s.outs[t]? with
        | none => rfl
        | some f =>
          have := h2.uni f (List.mem_of_getElem? hf)
          simp; omega
      have hd' : s.dim ≤ d := by omega
      simp [Phrase.getValue, expectedRead, S.value, hb, h.dim, hd', hdi, hv]

theorem Rep.size {p : Phrase K} {s : S K} (h : Rep p s) : p.length = s.size := by
  cases hb : s.bimodal with
  | false => simpa [S.size, hb] using (h.uni hb).2.1
  | true => simpa [S.size, hb] using (h.bi hb).2.2.2.2.1

end Phrase
open Phrase

theorem PhraseSpec.step_bimodal (s : S K) (op : Op K) : (s.step op).1.bimodal = s.bimodal := by
  cases op <;> simp only [S.step] <;> (repeat' split) <;> rfl

theorem run_bimodal (ops : List (Op K)) (s : S K) : (S.run ops s).1.bimodal = s.bimodal := by
  induction ops generalizing s with
  | nil => rfl
  | cons op ops ih => exact (ih _).trans (PhraseSpec.step_bimodal s op)

theorem Phrase.run_append (ops ops' : List (Op K)) (p : Phrase K) :
    Phrase.run (ops ++ ops') p = (Phrase.run ops p).bind fun r =>
      (Phrase.run ops' r.1).map fun r' => (r'.1, r.2 ++ r'.2) := by
  induction ops generalizing p with
  | nil =>
    simp only [List.nil_append, Phrase.run, Option.bind_some]
    cases Phrase.run ops' p <;> simp
  | cons op ops ih =>
    simp only [List.cons_append, Phrase.run]
    cases Phrase.step op p with
    | ub => rfl
    | ret a p1 =>
      simp only [ih]
      cases Phrase.run ops p1 with
      | none => rfl
      | some r => simp only [Option.bind_some, Option.map_some]; cases Phrase.run ops' r.1 <;> simp
    | throw e p1 =>
      simp only [ih]
      cases Phrase.run ops p1 with
      | none => rfl
      | some r => simp only [Option.bind_some, Option.map_some]; cases Phrase.run ops' r.1 <;> simp

/-- one call on a unimodal phrase: fields relevant to `empty()` -/
theorem unimodal_step_cases (p : Phrase K) (hb : p.bimodal = false) (op : Op K) :
    (∃ e, Phrase.step op p = .throw e p) ∨ Phrase.step op p = .ub ∨
    (∃ p', Phrase.step op p = .ret () p' ∧ p'.bimodal = false ∧
      (p'.empty = false ∧ p'.length ≠ 0 ∨ p'.empty = true ∧ p'.length = 0 ∨
        (op = .clearInput ∨ op = .clearOutput) ∧ p'.length = 0)) := by
  cases op with
  | record obs =>
    simp only [Phrase.step, record, Prog.bind_def, Prog.get_def, hb, Bool.false_and, Bool.false_eq_true, if_false]
    split
    · exact Or.inl ⟨_, rfl⟩
    · split
      · exact Or.inl ⟨_, rfl⟩
      · have hr : ensureRoom p.length p = .ub ∨ ∃ p1, ensureRoom p.length p = .ret () p1 ∧ p1.bimodal = false := by
          simp only [ensureRoom, Prog.bind_def, Prog.get_def]
          split
          · simp only [reallocateLength, Prog.bind_def, Prog.get_def, hb, Bool.false_eq_true, if_false, orUB]
            cases p.data0.reallocate (p.maxLength * p.dimension) ((p.maxLength + allocationBlockSize) * p.dimension) with
            | none => exact Or.inl rfl
            | some d0 => exact Or.inr ⟨_, rfl, by simp⟩
          · exact Or.inr ⟨p, rfl, hb⟩
        rcases hr with hr | ⟨p1, hr, hb1⟩
        · right; left; simp [hr]
        · simp only [Prog.bind_def, hr, Prog.get_def, hb1, Bool.false_eq_true, if_false, orUB]
          cases p1.data0.write (p1.length * p1.dimension) obs with
          | none => right; left; rfl
          | some d0 =>
            right; right
            exact ⟨_, rfl, by simp [hb1]⟩
  | recordInput obs =>
    left; simp only [Phrase.step, recordInput, Prog.bind_def, Prog.get_def, hb, Bool.not_false, if_true]
    split <;> exact ⟨_, rfl⟩
  | recordOutput obs =>
    left; simp only [Phrase.step, recordOutput, Prog.bind_def, Prog.get_def, hb, Bool.not_false, if_true]
    split <;> exact ⟨_, rfl⟩
  | clear =>
    simp only [Phrase.step, clear, Prog.bind_def, Prog.get_def]
    split
    · exact Or.inl ⟨_, rfl⟩
    · right; right; exact ⟨_, rfl, by simp [hb]⟩
  | clearInput =>
    simp only [Phrase.step, clearInput, Prog.bind_def, Prog.get_def, trim]
    split
    · exact Or.inl ⟨_, rfl⟩
    · right; right; exact ⟨_, rfl, by simp [hb]⟩
  | clearOutput =>
    simp only [Phrase.step, clearOutput, Prog.bind_def, Prog.get_def, trim]
    split
    · exact Or.inl ⟨_, rfl⟩
    · right; right; exact ⟨_, rfl, by simp [hb]⟩
  | setDimension d =>
    by_cases hd : d < p.dimMin
    · left; exact ⟨_, by simp [Phrase.step, setDimension, hd]; rfl⟩
    · by_cases hg : (p.ownMemory && p.data0.isGarbage) = true
      · right; left; simp only [Phrase.step, setDimension, resetData, Prog.bind_def, Prog.get_def, hd, if_false,
          Prog.set_def, hg, if_true, Prog.undef_def]
      · right; right
        refine ⟨{ p with dimension := d, length := 0, inputLength := 0, outputLength := 0, maxLength := 0,
                         empty := true, data0 := .null, columnNames := resizeNames d p.columnNames,
                         diMax := d - 1 }, ?_, by simp [hb]⟩
        simp only [Phrase.step, setDimension, resetData, Prog.bind_def, Prog.get_def, hd, if_false, Prog.set_def,
          hg, hb, Bool.false_eq_true, Prog.modify_def]
  | setDimensionInput d =>
    simp only [Phrase.step, setDimensionInput, resetData, Prog.bind_def, Prog.get_def]
    split
    · exact Or.inl ⟨_, rfl⟩
    · simp only [Prog.bind_def, Prog.get_def, Prog.set_def, hb, Bool.false_eq_true, if_false]
      split
      · right; left; rfl
      · right; right; exact ⟨_, rfl, by simp⟩

theorem unimodal_empty_run (ops : List (Op K)) (p q : Phrase K) (o : List (Option Exn))
    (h : Phrase.run ops p = some (q, o)) (hb : p.bimodal = false) (hi : p.empty = true → p.length = 0) :
    (q.empty = true → q.length = 0) ∧
    ((∀ op ∈ ops, op ≠ .clearInput ∧ op ≠ .clearOutput) → (p.length = 0 → p.empty = true) →
      (q.length = 0 → q.empty = true)) := by
  induction ops generalizing p o with
  | nil =>
    simp only [Phrase.run, Option.some.injEq, Prod.mk.injEq] at h
    obtain ⟨rfl, -⟩ := h
    exact ⟨hi, fun _ h => h⟩
  | cons op ops ih =>
    rcases unimodal_step_cases p hb op with ⟨e, hs⟩ | hs | ⟨p1, hs, hb1, hcases⟩
    · simp only [Phrase.run, hs, Option.map_eq_some_iff, Prod.mk.injEq] at h
      obtain ⟨r, hr, rfl, -⟩ := h
      obtain ⟨h1, h2⟩ := ih p r.2 hr hb hi
      exact ⟨h1, fun ho => h2 fun o ho' => ho o (List.mem_cons_of_mem _ ho')⟩
    · simp [Phrase.run, hs] at h
    · simp only [Phrase.run, hs, Option.map_eq_some_iff, Prod.mk.injEq] at h
      obtain ⟨r, hr, rfl, -⟩ := h
      obtain ⟨h1, h2⟩ := ih p1 r.2 hr hb1 (by
        intro he
        rcases hcases with ⟨c1, _⟩ | ⟨_, c2⟩ | ⟨_, c2⟩
        · simp [he] at c1
        · exact c2
        · exact c2)
      refine ⟨h1, fun ho _ => h2 (fun o ho' => ho o (List.mem_cons_of_mem _ ho')) ?_⟩
      intro hl
      rcases hcases with ⟨_, c1⟩ | ⟨c1, _⟩ | ⟨c1, _⟩
      · exact absurd hl c1
      · exact c1
      · obtain ⟨g1, g2⟩ := ho op List.mem_cons_self
        rcases c1 with c1 | c1
        · exact absurd c1 g1
        · exact absurd c1 g2

theorem record_not_empty (p : Phrase K) (obs : List K) (p' : Phrase K)
    (h : Phrase.step (.record obs) p = .ret () p') : p'.empty = false := by
  simp only [Phrase.step, record, Prog.bind_def, Prog.get_def] at h
  split at h
  · simp at h
  · split at h
    · simp at h
    · split at h
      · simp at h
      · simp only [Prog.bind_def, Prog.get_def] at h
        split at h
        · rename_i p1 _
          split at h
          · split at h
            · simp at h
            · cases h0 : p1.data0.write (p1.inputLength * p1.dimensionInput) (obs.take p1.dimensionInput) with
              | none => simp [orUB, h0] at h
              | some d0 =>
                cases h1 : p1.data1.write (p1.outputLength * p1.outDim) (obs.drop p1.dimensionInput) with
                | none => simp [orUB, h0, h1] at h
                | some d1 => simp [orUB, h0, h1] at h; rw [← h]
          · cases h0 : p1.data0.write (p1.length * p1.dimension) obs with
            | none => simp [orUB, h0] at h
            | some d0 => simp [orUB, h0] at h; rw [← h]
        · simp at h
        · simp at h

theorem PhraseSpec.admissible_unimodal (s : S K) (h : s.bimodal = false) (ops : List (Op K)) :
    S.Admissible ops s := by
  induction ops generalizing s with
  | nil => trivial
  | cons op ops ih =>
    have := (PhraseSpec.step_bimodal s op).trans h
    exact ⟨fun h' => absurd (this.symm.trans h') (by simp), ih _ this⟩

/-- a call that does not change dimensions -/
def KeepsDims : Op K → Prop
  | .setDimension _ => False
  | .setDimensionInput _ => False
  | _ => True

theorem PhraseSpec.step_dims (s : S K) (op : Op K) (h : KeepsDims op) :
    (s.step op).1.dim = s.dim ∧ (s.step op).1.di = s.di := by
  cases op <;> first | exact h.elim | (simp only [S.step]; (repeat' split) <;> simp)

theorem PhraseSpec.admissible_keepsDims (s : S K) (hc : s.Coherent) (ops : List (Op K))
    (h : ∀ op ∈ ops, KeepsDims op) : S.Admissible ops s := by
  induction ops generalizing s with
  | nil => trivial
  | cons op ops ih =>
    obtain ⟨h1, h2⟩ := PhraseSpec.step_dims s op (h _ List.mem_cons_self)
    have hb := PhraseSpec.step_bimodal s op
    have : (s.step op).1.Coherent := fun h' => by rw [h1, h2]; exact hc (hb ▸ h')
    exact ⟨this, ih _ this fun o ho => h o (List.mem_cons_of_mem _ ho)⟩

theorem PhraseSpec.new_coherent (b : Bool) : (PhraseSpec.new K b).Coherent := by
  cases b <;> simp [S.Coherent, PhraseSpec.new]

theorem Phrase.reach (b : Bool) (ops : List (Op K)) (ha : S.Admissible ops (PhraseSpec.new K b)) :
    ∃ p, Phrase.run ops (construct K true b) = some (p, (S.run ops (PhraseSpec.new K b)).2) ∧
      Rep p (S.run ops (PhraseSpec.new K b)).1 ∧ (S.run ops (PhraseSpec.new K b)).1.Coherent :=
  (rep_construct b).run (PhraseSpec.new_coherent b) ops ha

/-! ## C13 -/

/-- C13: after any history of calls on a new unimodal phrase (records of any size, clears, dimension changes), no
    undefined behaviour occurred, the exceptions are those of the specification, `size()` is the number of frames kept
    by the specification and `getValue` reads exactly them. -/
theorem C13_record_reads_back (ops : List (Op K)) :
    let s := (S.run ops (PhraseSpec.new K false)).1
    ∃ p, Phrase.run ops (construct K true false) = some (p, (S.run ops (PhraseSpec.new K false)).2) ∧
      p.length = s.ins.length ∧ p.dimension = s.dim ∧ ∀ t d, Phrase.getValue t d p = expectedRead s t d p := by
  obtain ⟨p, h1, h2, h3⟩ := Phrase.reach (K := K) false ops (PhraseSpec.admissible_unimodal _ rfl ops)
  refine ⟨p, h1, ?_, h2.dim, fun t d => h2.getValue h3 t d⟩
  have hb : (S.run ops (PhraseSpec.new K false)).1.bimodal = false := (run_bimodal ops _).trans rfl
  exact (h2.uni hb).2.1

/-- C13 (direct form): whatever happened before, after choosing a dimension and recording any number of observations of
    that dimension, `size()` is their number and `getValue(t, d)` is component `d` of the `t`-th observation. -/
theorem C13_records_after_dimension (before : List (Op K)) (dim : Nat) (hdim : 1 ≤ dim) (obs : List (List K))
    (hobs : ∀ o ∈ obs, o.length = dim) :
    ∃ p outcomes, Phrase.run (before ++ .setDimension dim :: obs.map .record) (construct K true false) =
        some (p, outcomes) ∧
      p.length = obs.length ∧
      ∀ t (ht : t < obs.length) d (hd : d < dim),
        Phrase.getValue t d p = .ret ((obs[t])[d]'(by rw [hobs _ (List.getElem_mem ht)]; exact hd)) p := by
  obtain ⟨p, h1, h2, h3, h4⟩ := C13_record_reads_back (K := K) (before ++ .setDimension dim :: obs.map .record)
  have hrun : ∀ (ops : List (Op K)) (s : S K) (ops' : List (Op K)),
      (S.run (ops ++ ops') s).1 = (S.run ops' (S.run ops s).1).1 := by
    intro ops
    induction ops with
    | nil => intros; rfl
    | cons op ops ih => intro s ops'; exact ih _ _
  have hrec : ∀ (obs : List (List K)) (s : S K), s.bimodal = false → (∀ o ∈ obs, o.length = s.dim) →
      (S.run (obs.map .record) s).1 = { s with ins := s.ins ++ obs } := by
    intro obs
    induction obs with
    | nil => intro s _ _; simp [S.run]
    | cons o obs ih =>
      intro s hb ho
      have hstep : (s.step (.record o)).1 = { s with ins := s.ins ++ [o] } := by
        simp [S.step, hb, ho o List.mem_cons_self]
      simp only [List.map_cons, S.run, hstep]
      refine (ih { s with ins := s.ins ++ [o] } hb (fun o' h' => ho o' (List.mem_cons_of_mem _ h'))).trans ?_
      simp
  have hb0 : ∀ (ops : List (Op K)) (s : S K), s.bimodal = false → (S.run ops s).1.bimodal = false := by
    intro ops
    induction ops with
    | nil => intro s h; exact h
    | cons op ops ih => intro s h; exact ih _ ((PhraseSpec.step_bimodal s op).trans h)
  set s0 := (S.run before (PhraseSpec.new K false)).1 with hs0
  have hb : s0.bimodal = false := hb0 _ _ rfl
  have hs : (S.run (before ++ .setDimension dim :: obs.map .record) (PhraseSpec.new K false)).1 =
      { s0 with dim := dim, diMax := dim - 1, ins := obs, outs := [] } := by
    rw [hrun, ← hs0]
    have : (s0.step (.setDimension dim)).1 = { s0 with dim := dim, diMax := dim - 1, ins := [], outs := [] } := by
      have hd0 : ¬ dim < 1 := by omega
      simp [S.step, hb, hd0]
    simp only [S.run, this]
    refine (hrec obs { s0 with dim := dim, diMax := dim - 1, ins := [], outs := [] } hb hobs).trans ?_
    simp
  rw [hs] at h2 h4
  refine ⟨p, _, h1, h2, fun t ht d hd => ?_⟩
  have hl := hobs _ (List.getElem_mem ht)
  have hv : S.value { s0 with dim := dim, diMax := dim - 1, ins := obs, outs := [] } t d =
      some ((obs[t])[d]'(by rw [hl]; exact hd)) := by
    simp [S.value, hb, List.getElem?_eq_getElem ht, List.getElem?_eq_getElem (l := obs[t]) (i := d) (by omega)]
  rw [h4, expectedRead, hv]

/-- non-vacuity: three frames of dimension 2 after an unrelated past -/
example : ∃ p outcomes, Phrase.run ([.record [(7 : ℤ)], .clear] ++ .setDimension 2 ::
      [[1, 2], [3, 4], [5, 6]].map .record) (construct ℤ true false) = some (p, outcomes) ∧ p.length = 3 ∧
      Phrase.getValue 1 1 p = .ret 4 p := by
  obtain ⟨p, o, h1, h2, h3⟩ := C13_records_after_dimension [.record [(7 : ℤ)], .clear] 2 (by omega)
    [[1, 2], [3, 4], [5, 6]] (by simp)
  exact ⟨p, o, h1, h2, h3 1 (by simp) 1 (by simp)⟩

/-! ## C14 -/

/-- C14: after any history on a new bimodal phrase in which the input dimension stays below the total dimension, no
    undefined behaviour occurred, exceptions are the specified ones, `size()` is the length of the shorter modality,
    and frame `t` pairs the `t`-th kept input with the `t`-th kept output. -/
theorem C14_bimodal_aligned (ops : List (Op K)) (ha : S.Admissible ops (PhraseSpec.new K true)) :
    let s := (S.run ops (PhraseSpec.new K true)).1
    ∃ p, Phrase.run ops (construct K true true) = some (p, (S.run ops (PhraseSpec.new K true)).2) ∧
      p.length = min s.ins.length s.outs.length ∧ p.inputLength = s.ins.length ∧ p.outputLength = s.outs.length ∧
      ∀ t (hi : t < s.ins.length) (ho : t < s.outs.length) d (_ : d < s.dim),
        ∃ v, Phrase.getValue t d p = .ret v p ∧ (s.ins[t] ++ s.outs[t])[d]? = some v := by
  obtain ⟨p, h1, h2, h3⟩ := Phrase.reach (K := K) true ops ha
  have hb : (S.run ops (PhraseSpec.new K true)).1.bimodal = true := (run_bimodal ops _).trans rfl
  obtain ⟨b0, b1, l0, l1, l2, _⟩ := h2.bi hb
  refine ⟨p, h1, l2, l0, l1, fun t hi ho d hd => ?_⟩
  have hcc := h3 hb
  generalize (S.run ops (PhraseSpec.new K true)).1 = s at *
  have hl0 := b0.uni _ (List.getElem_mem hi)
  have hl1 := b1.uni _ (List.getElem_mem ho)
  have hlt : d < (s.ins[t] ++ s.outs[t]).length := by rw [List.length_append, hl0, hl1]; omega
  refine ⟨(s.ins[t] ++ s.outs[t])[d], ?_, List.getElem?_eq_getElem hlt⟩
  have hv : s.value t d = some (s.ins[t] ++ s.outs[t])[d] := by
    rw [← List.getElem?_eq_getElem hlt]
    by_cases hdi : d < s.di
    · simp [S.value, hb, hdi, List.getElem?_eq_getElem hi, List.getElem?_append_left (l₁ := s.ins[t]) (i := d) (by omega)]
    · simp [S.value, hb, hdi, List.getElem?_eq_getElem ho,
        List.getElem?_append_right (l₁ := s.ins[t]) (i := d) (by omega), hl0]
  rw [h2.getValue h3, expectedRead, hv]

/-- The hypothesis of `C14_bimodal_aligned` holds for all recording and clearing histories at fixed dimensions. -/
theorem C14_admissible_fixed_dims (dim di : Nat) (h1 : 1 ≤ di) (h2 : di < dim) (ops : List (Op K))
    (h : ∀ op ∈ ops, KeepsDims op) :
    S.Admissible (.setDimension dim :: .setDimensionInput di :: ops) (PhraseSpec.new K true) := by
  have e1 : ((PhraseSpec.new K true).step (.setDimension dim)).1 = ⟨true, dim, 1, 1, dim - 1, [], []⟩ := by
    have : ¬ dim < 2 := by omega
    simp [S.step, PhraseSpec.new, this]
  have e2 : ((⟨true, dim, 1, 1, dim - 1, [], []⟩ : S K).step (.setDimensionInput di)).1 =
      ⟨true, dim, di, 1, dim - 1, [], []⟩ := by
    have : ¬ (di < 1 ∨ dim - 1 < di) := by omega
    simp only [S.step, this, if_false]
  refine ⟨?_, ?_, ?_⟩
  · rw [e1]; intro _; simp only; omega
  · rw [e1, e2]; intro _; simp only; omega
  · rw [e1, e2]
    exact PhraseSpec.admissible_keepsDims _ (fun _ => by simp only; omega) ops h

/-- non-vacuity: interleaved streams -/
example : S.Admissible [.setDimension 3, .setDimensionInput 1, .recordInput [(1 : ℤ)], .recordInput [2],
    .recordOutput [3, 4], .clearInput, .recordInput [9]] (PhraseSpec.new ℤ true) :=
  C14_admissible_fixed_dims 3 1 (by omega) (by omega) _ (by simp [KeepsDims])

theorem record_incoherent_ub (p : Phrase K) (obs : List K) (ho : p.ownMemory = true) (hb : p.bimodal = true)
    (hl : p.inputLength = p.outputLength) (hd : obs.length = p.dimension) (hdi : p.dimensionInput > p.dimension)
    (h0 : p.data0 = .null) (h1 : p.data1 = .null) (hm : p.maxLength = 0) :
    Phrase.step (.record obs) p = .ub := by
  simp only [Phrase.step, record, ensureRoom, reallocateLength, Prog.bind_def, Prog.get_def, ho, hb, hl, hd, hm, h0, h1,
    Ptr.reallocate, orUB, Bool.not_true, Bool.false_eq_true, if_false, bne_self_eq_false, Bool.and_false, ne_eq,
    not_true, or_true, if_true, Prog.pure_def, Prog.set_def, hdi, Prog.undef_def]

/-- What happens outside that hypothesis (a defect): lowering `dimension` below `dimension_input` is accepted, and the
    next record is undefined behaviour. -/
theorem C14_incoherent_dims_ub (dim di : Nat) (h1 : 2 ≤ dim) (h2 : dim < di) (obs : List K)
    (ho : obs.length = dim) :
    Phrase.run [.setDimension (di + 1), .setDimensionInput di, .setDimension dim, .record obs]
      (construct K true true) = none := by
  have e1 : Phrase.step (.setDimension (di + 1)) (construct K true true) =
      .ret () { construct K true true with dimension := di + 1, diMax := di,
                                           columnNames := resizeNames (di + 1) [] } := by
    have : ¬ di + 1 < 2 := by omega
    simp [Phrase.step, setDimension, construct, resetData, Ptr.isGarbage, this]
  have e2 : Phrase.step (.setDimensionInput di) { construct K true true with
      dimension := di + 1, diMax := di, columnNames := resizeNames (di + 1) [] } =
      .ret () { construct K true true with
        dimension := di + 1, diMax := di, dimensionInput := di,
        columnNames := resizeNames (di + 1) (resizeNames (di + 1) []) } := by
    have : ¬ di < 1 := by omega
    simp [Phrase.step, setDimensionInput, construct, resetData, Ptr.isGarbage, this]
  have e3 : Phrase.step (.setDimension dim) { construct K true true with
        dimension := di + 1, diMax := di, dimensionInput := di,
        columnNames := resizeNames (di + 1) (resizeNames (di + 1) []) } =
      .ret () { construct K true true with
        dimension := dim, diMax := dim - 1, dimensionInput := di,
        columnNames := resizeNames dim (resizeNames (di + 1) (resizeNames (di + 1) [])) } := by
    have : ¬ dim < 2 := by omega
    simp [Phrase.step, setDimension, construct, resetData, Ptr.isGarbage, this]
  simp only [Phrase.run, e1, e2, e3]
  rw [record_incoherent_ub _ obs rfl rfl rfl ho h2 rfl rfl rfl]
  rfl

example : Phrase.run [.setDimension 4, .setDimensionInput 3, .setDimension 2, .record [(1 : ℤ), 2]]
    (construct ℤ true true) = none := C14_incoherent_dims_ub 2 3 (by omega) (by omega) _ rfl

/-! ## C15 -/

/-- C15: in every reachable state, a call that throws leaves the phrase exactly as it was; and it throws exactly when
    the specification says so (wrong size, wrong modality, streams not aligned). -/
theorem C15_rejected_changes_nothing (b : Bool) (ops : List (Op K)) (ha : S.Admissible ops (PhraseSpec.new K b))
    (op : Op K) :
    let s := (S.run ops (PhraseSpec.new K b)).1
    ∃ p, (Phrase.run ops (construct K true b)).map Prod.fst = some p ∧
      match (s.step op).2 with
      | some e => Phrase.step op p = .throw e p
      | none => ∃ p', Phrase.step op p = .ret () p' := by
  obtain ⟨p, h1, h2, h3⟩ := Phrase.reach (K := K) b ops ha
  refine ⟨p, by rw [h1]; rfl, ?_⟩
  obtain ⟨p', _, e⟩ := h2.step h3 op
  cases ho : ((S.run ops (PhraseSpec.new K b)).1.step op).2 with
  | none => rw [ho] at e; exact ⟨p', e⟩
  | some x => rw [ho] at e; exact e

/-- C15 (wrong sizes spelled out): a record with the wrong number of values is always rejected. -/
theorem C15_wrong_size_rejected (p : Phrase K) (obs : List K) (h : obs.length ≠ p.dimension) :
    ∃ e, Phrase.step (.record obs) p = .throw e p := by
  simp only [Phrase.step, record, Prog.bind_def, Prog.get_def]
  split
  · exact ⟨_, rfl⟩
  · split
    · exact ⟨_, rfl⟩
    · exact ⟨_, rfl⟩

/-- C15 (shared memory): every recording or clearing call on a phrase that does not own its memory throws
    `runtime_error` and changes nothing. -/
theorem C15_shared_rejected (p : Phrase K) (h : p.ownMemory = false) (op : Op K) (hop : KeepsDims op) :
    Phrase.step op p = .throw .runtimeError p := by
  cases op <;> first
    | exact hop.elim
    | simp [Phrase.step, record, recordInput, recordOutput, clear, clearInput, clearOutput, h]

example : KeepsDims (.record [(1 : ℤ)]) ∧ (construct ℤ false true).ownMemory = false := ⟨trivial, rfl⟩

/-! ## C16 -/

/-- C16 (`getValue`): in every reachable state and for every argument, `getValue` either reads a recorded value or
    throws `out_of_range`; it throws exactly if the column is not below the dimension or the modality has no such
    frame. Never undefined behaviour. -/
theorem C16_getValue_in_bounds (b : Bool) (ops : List (Op K)) (ha : S.Admissible ops (PhraseSpec.new K b)) (t d : Nat) :
    let s := (S.run ops (PhraseSpec.new K b)).1
    ∃ p, (Phrase.run ops (construct K true b)).map Prod.fst = some p ∧
      Phrase.getValue t d p = expectedRead s t d p ∧
      (Phrase.getValue t d p = .throw .outOfRange p ↔
        d ≥ p.dimension ∨ t ≥ (if b = false then s.ins.length else if d < s.di then s.ins.length else s.outs.length)) := by
  obtain ⟨p, h1, h2, h3⟩ := Phrase.reach (K := K) b ops ha
  refine ⟨p, by rw [h1]; rfl, h2.getValue h3 t d, ?_⟩
  have hb : (S.run ops (PhraseSpec.new K b)).1.bimodal = b := (run_bimodal ops _).trans (by cases b <;> rfl)
  generalize (S.run ops (PhraseSpec.new K b)).1 = s at *
  rw [h2.getValue h3, h2.dim]
  have key : expectedRead s t d p = .throw .outOfRange p ↔ s.value t d = none := by
    unfold expectedRead
    cases s.value t d <;> simp
  rw [key]
  cases b with
  | false =>
    obtain ⟨b0, -, -⟩ := h2.uni hb
    simp only [S.value, hb, Bool.false_eq_true, if_false, if_true]
    by_cases ht : t < s.ins.length
    · have := b0.uni _ (List.getElem_mem ht)
      simp [List.getElem?_eq_getElem ht, this]; omega
    · simp [List.getElem?_eq_none (Nat.le_of_not_lt ht)]; omega
  | true =>
    obtain ⟨b0, b1, -⟩ := h2.bi hb
    have hcc := h3 hb
    simp only [S.value, hb, if_true, Bool.true_eq_false, if_false]
    by_cases hdi : d < s.di
    · simp only [hdi, if_true]
      by_cases ht : t < s.ins.length
      · have := b0.uni _ (List.getElem_mem ht)
        simp [List.getElem?_eq_getElem ht, this]; omega
      · simp [List.getElem?_eq_none (Nat.le_of_not_lt ht)]; omega
    · simp only [hdi, if_false]
      by_cases ht : t < s.outs.length
      · have := b1.uni _ (List.getElem_mem ht)
        simp [List.getElem?_eq_getElem ht, this]; omega
      · simp [List.getElem?_eq_none (Nat.le_of_not_lt ht)]; omega

/-- C16 (pointers, unimodal): `getPointer(t)` throws `out_of_range` exactly if `t ≥ size()`; otherwise the `dimension`
    cells behind the pointer hold the `t`-th frame. -/
theorem C16_getPointer (ops : List (Op K)) (t : Nat) :
    let s := (S.run ops (PhraseSpec.new K false)).1
    ∃ p, (Phrase.run ops (construct K true false)).map Prod.fst = some p ∧
      (t ≥ p.length → Phrase.getPointer t p = .throw .outOfRange p) ∧
      (t < p.length → ∃ off, Phrase.getPointer t p = .ret off p ∧
        ∀ d < p.dimension, ∃ v, p.data0.read (off + d) = some v ∧ s.value t d = some v) := by
  obtain ⟨p, h1, h2, h3⟩ := Phrase.reach (K := K) false ops (PhraseSpec.admissible_unimodal _ rfl ops)
  have hb : (S.run ops (PhraseSpec.new K false)).1.bimodal = false := (run_bimodal ops _).trans rfl
  have hpb := h2.bim.trans hb
  obtain ⟨b0, hl, -⟩ := h2.uni hb
  refine ⟨p, by rw [h1]; rfl, fun ht => by simp [Phrase.getPointer, ht], fun ht => ⟨t * p.dimension, ?_, ?_⟩⟩
  · simp [Phrase.getPointer, Nat.not_le.2 ht, hpb]
  · intro d hd
    rw [h2.dim] at hd ⊢
    obtain ⟨f, v, e1, e2, e3⟩ := b0.read_isSome t d (by omega) hd
    exact ⟨v, e3, by simp [S.value, hb, e1, e2]⟩

/-- C16 (pointers, bimodal): `getPointer_input/output(t)` throw `out_of_range` exactly if `t ≥ size()`; otherwise the
    cells behind the pointers hold the input and output parts of the `t`-th frame. -/
theorem C16_getPointer_bimodal (ops : List (Op K)) (ha : S.Admissible ops (PhraseSpec.new K true)) (t : Nat) :
    let s := (S.run ops (PhraseSpec.new K true)).1
    ∃ p, (Phrase.run ops (construct K true true)).map Prod.fst = some p ∧
      (t ≥ p.length → Phrase.getPointerInput t p = .throw .outOfRange p ∧
        Phrase.getPointerOutput t p = .throw .outOfRange p) ∧
      (t < p.length → ∃ offI offO, Phrase.getPointerInput t p = .ret offI p ∧
        Phrase.getPointerOutput t p = .ret offO p ∧
        (∀ d < s.di, ∃ v, p.data0.read (offI + d) = some v ∧ s.value t d = some v) ∧
        (∀ d < s.dim - s.di, ∃ v, p.data1.read (offO + d) = some v ∧ s.value t (s.di + d) = some v)) := by
  obtain ⟨p, h1, h2, h3⟩ := Phrase.reach (K := K) true ops ha
  have hb : (S.run ops (PhraseSpec.new K true)).1.bimodal = true := (run_bimodal ops _).trans rfl
  have hpb := h2.bim.trans hb
  obtain ⟨b0, b1, l0, l1, l2, -⟩ := h2.bi hb
  refine ⟨p, by rw [h1]; rfl, fun ht => ⟨by simp [getPointerInput, ht], by simp [getPointerOutput, ht]⟩,
    fun ht => ⟨t * p.dimensionInput, t * p.outDim, ?_, ?_, ?_, ?_⟩⟩
  · simp [getPointerInput, Nat.not_le.2 ht, hpb]
  · simp [getPointerOutput, Nat.not_le.2 ht, hpb]
  · intro d hd
    rw [h2.di]
    obtain ⟨f, v, e1, e2, e3⟩ := b0.read_isSome t d (by omega) hd
    exact ⟨v, e3, by simp [S.value, hb, hd, e1, e2]⟩
  · intro d hd
    rw [h2.outDim_eq hb h3]
    obtain ⟨f, v, e1, e2, e3⟩ := b1.read_isSome t d (by omega) hd
    exact ⟨v, e3, by simp [S.value, hb, e1, e2]⟩

/-! ## C18 -/

/-- C18 (bimodal): `empty()` exactly if neither modality holds data. -/
theorem C18_bimodal (ops : List (Op K)) (ha : S.Admissible ops (PhraseSpec.new K true)) :
    ∃ p, (Phrase.run ops (construct K true true)).map Prod.fst = some p ∧
      (p.empty = true ↔ p.inputLength = 0 ∧ p.outputLength = 0) := by
  obtain ⟨p, h1, h2, h3⟩ := Phrase.reach (K := K) true ops ha
  have hb : (S.run ops (PhraseSpec.new K true)).1.bimodal = true := (run_bimodal ops _).trans rfl
  obtain ⟨b0, b1, l0, l1, l2, l3⟩ := h2.bi hb
  refine ⟨p, by rw [h1]; rfl, ?_⟩
  rw [l3, l0, l1]
  simp

/-- The full statement for unimodal phrases fails: after any history, recording a frame and then calling
    `clearInput()` or `clearOutput()` gives a unimodal phrase with `size() == 0` but `empty()` false. -/
theorem C18_unimodal_violated (ops : List (Op K)) (obs : List K) (c : Op K) (hc : c = .clearInput ∨ c = .clearOutput)
    (hobs : obs.length = (S.run ops (PhraseSpec.new K false)).1.dim) :
    ∃ p o, Phrase.run (ops ++ [.record obs, c]) (construct K true false) = some (p, o) ∧
      p.length = 0 ∧ p.empty = false := by
  obtain ⟨p, h1, h2, h3⟩ := Phrase.reach (K := K) false ops (PhraseSpec.admissible_unimodal _ rfl ops)
  have hb : (S.run ops (PhraseSpec.new K false)).1.bimodal = false := run_bimodal ops _ |>.trans rfl
  generalize hs : S.run ops (PhraseSpec.new K false) = s at *
  obtain ⟨p1, r1, e1⟩ := h2.step h3 (.record obs)
  have ho : (s.1.step (.record obs)).2 = none := by simp [S.step, hb, hobs]
  have hb1 := (r1.bim.trans (PhraseSpec.step_bimodal s.1 _)).trans hb
  rw [ho] at e1
  have he := record_not_empty p obs p1 e1
  have hown := r1.own
  have e2 : ∃ p2, Phrase.step c p1 = .ret () p2 ∧ p2.length = 0 ∧ p2.empty = false := by
    rcases hc with rfl | rfl
    · exact ⟨{ p1 with length := 0, inputLength := 0 }, by simp [Phrase.step, clearInput, hown, hb1, trim], rfl, he⟩
    · exact ⟨{ p1 with length := 0, outputLength := 0 }, by simp [Phrase.step, clearOutput, hown, hb1, trim], rfl, he⟩
  obtain ⟨p2, e2, l2, em2⟩ := e2
  refine ⟨p2, s.2 ++ [none, none], ?_, l2, em2⟩
  rw [Phrase.run_append, h1]
  simp [Phrase.run, e1, e2]

/-- non-vacuity: a fresh phrase of dimension 1 -/
example : ([(1 : ℤ)]).length = (S.run [] (PhraseSpec.new ℤ false)).1.dim := rfl

/-- C18 (unimodal, proved part): `empty()` always implies `size() == 0`, and without `clearInput`/`clearOutput` the two
    agree.  Missing: histories with `clearInput` or `clearOutput`, for which agreement is false
    (`C18_unimodal_violated`). -/
theorem C18_unimodal_partial (ops : List (Op K)) :
    ∃ p, (Phrase.run ops (construct K true false)).map Prod.fst = some p ∧
      (p.empty = true → p.length = 0) ∧
      ((∀ op ∈ ops, op ≠ .clearInput ∧ op ≠ .clearOutput) → (p.empty = true ↔ p.length = 0)) := by
  obtain ⟨p, h1, h2, h3⟩ := Phrase.reach (K := K) false ops (PhraseSpec.admissible_unimodal _ rfl ops)
  refine ⟨p, by rw [h1]; rfl, ?_⟩
  obtain ⟨h4, h5⟩ := unimodal_empty_run ops (construct K true false) p _ h1 rfl (fun _ => rfl)
  exact ⟨h4, fun h => ⟨h4, h5 h (fun _ => rfl)⟩⟩

/-- non-vacuity of the second part -/
example : ∀ op ∈ [Op.record [(1 : ℤ)], .clear, .setDimension 3, .record [1, 2, 3]], op ≠ .clearInput ∧ op ≠ .clearOutput := by
  simp

end Xmm
