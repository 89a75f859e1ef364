import Verif.Model.PhraseHeap
import Verif.Props.Phrase
/- C17: copies of phrases. -/
namespace Xmm
open PhraseSpec Phrase
variable {K : Type}

namespace Heap

/-- the address is the block `n` -/
def _root_.Xmm.Addr.Is (a : Addr) (n : Nat) : Prop := a = .at n

theorem store_spec (h : Heap K) (a : Addr) (inPlace del : Bool) (p' : Ptr K) (hg : p'.isGarbage = false)
    (ha : ∀ n, a.Is n → n < h.next) :
    let r := h.store a inPlace del p'
    r.1.ptr r.2 = p' ∧ h.next ≤ r.1.next ∧
    (∀ n, n < h.next → ¬ a.Is n → r.1.cells n = h.cells n) ∧
    (∀ n, r.2.Is n → n < r.1.next ∧ (a.Is n ∨ h.next ≤ n)) := by
  have hfree : ∀ n, n < h.next → ¬ a.Is n → (h.free a).cells n = h.cells n := by
    intro n _ hn
    cases a with
    | null => rfl
    | wild => rfl
    | «at» m =>
      have : n ≠ m := fun e => hn (by rw [e]; rfl)
      simp [free, put, this]
  have hnext : (h.free a).next = h.next := by cases a <;> rfl
  cases p' with
  | garbage => simp [Ptr.isGarbage] at hg
  | null =>
    cases del
    · simp [store, ptr, Addr.Is]
    · simp only [store, if_true, ptr, hnext, le_refl, true_and]
      exact ⟨hfree, by simp [Addr.Is]⟩
  | cells l =>
    have halloc : let r := (h.free a).alloc l
        r.1.ptr r.2 = .cells l ∧ h.next ≤ r.1.next ∧
        (∀ n, n < h.next → ¬ a.Is n → r.1.cells n = h.cells n) ∧
        (∀ n, r.2.Is n → n < r.1.next ∧ (a.Is n ∨ h.next ≤ n)) := by
      refine ⟨by simp [alloc, ptr], by simp [alloc, hnext], ?_, ?_⟩
      · intro n hn ha'
        have : n ≠ h.next := by omega
        simp only [alloc, hnext, this, if_false]
        exact hfree n hn ha'
      · intro n hn
        simp only [alloc, Addr.Is, Addr.at.injEq, hnext] at hn ⊢
        omega
    cases inPlace
    · exact halloc
    · cases a with
      | null => exact halloc
      | wild => exact halloc
      | «at» m =>
        refine ⟨by simp [store, put, ptr], le_refl _, ?_, ?_⟩
        · intro n _ hn
          have : n ≠ m := fun e => hn (by rw [e]; rfl)
          simp [store, put, this]
        · intro n hn
          exact ⟨ha n hn, Or.inl hn⟩

theorem ptr_congr (h h' : Heap K) (a : Addr) (hc : ∀ n, a.Is n → h'.cells n = h.cells n) : h'.ptr a = h.ptr a := by
  cases a with
  | null => rfl
  | wild => rfl
  | «at» n => simp [ptr, hc n rfl]

end Heap

namespace HPhrase

/-- the block `n` belongs to the phrase -/
def Owns (o : HPhrase K) (n : Nat) : Prop := o.a0.Is n ∨ (o.hdr.bimodal = true ∧ o.a1.Is n)

/-- A well-formed phrase in the heap, holding the abstract phrase `s`. -/
structure Inv (h : Heap K) (o : HPhrase K) (s : S K) : Prop where
  rep : Rep (view h o) s
  alloc : ∀ n, o.Owns n → n < h.next
  ne : o.hdr.bimodal = true → ∀ n, o.a0.Is n → ¬ o.a1.Is n

theorem rep_forget_data1 {p : Phrase K} {s : S K} (h : Rep p s) (hb : p.bimodal = false) (d : Ptr K) :
    Rep { p with data1 := d } s :=
  ⟨h.own, h.bim, h.dim, h.di, h.dmin, h.diMin, h.diMax, h.nogarbage, h.uni,
    fun hb' => by rw [← h.bim, hb] at hb'; cases hb'⟩

theorem rep_garbage {p : Phrase K} {s : S K} (h : Rep p s) (hb : p.bimodal = true) : p.data1.isGarbage = false :=
  isGarbage_of_block (h.bi (h.bim.symm.trans hb)).2.1

/-- Two stores one after the other, into `a0` and `a1`. -/
theorem store2 (h : Heap K) (a0 a1 : Addr) (k0 d0 k1 d1 : Bool) (p : Phrase K) (s : S K) (hr : Rep p s)
    (h0 : ∀ n, a0.Is n → n < h.next) (h1 : ∀ n, p.bimodal = true → a1.Is n → n < h.next)
    (hne : p.bimodal = true → ∀ n, a0.Is n → ¬ a1.Is n) :
    let r0 := h.store a0 k0 d0 p.data0
    let r1 := r0.1.store a1 k1 d1 p.data1
    let res : Heap K × HPhrase K := if p.bimodal then (r1.1, ⟨p, r0.2, r1.2⟩) else (r0.1, ⟨p, r0.2, .wild⟩)
    Inv res.1 res.2 s ∧ h.next ≤ res.1.next ∧
      (∀ n, n < h.next → ¬ a0.Is n → ¬ (p.bimodal = true ∧ a1.Is n) → res.1.cells n = h.cells n) ∧
      (∀ n, res.2.Owns n → (a0.Is n ∨ p.bimodal = true ∧ a1.Is n) ∨ h.next ≤ n) := by
  obtain ⟨e0, m0, f0, g0⟩ := Heap.store_spec h a0 k0 d0 p.data0 hr.nogarbage h0
  intro r0 r1 res
  by_cases hb : p.bimodal = true
  · have hres : res = (r1.1, ⟨p, r0.2, r1.2⟩) := if_pos hb
    obtain ⟨e1, m1, f1, g1⟩ := Heap.store_spec r0.1 a1 k1 d1 p.data1 (rep_garbage hr hb)
      (fun n hn => lt_of_lt_of_le (h1 n hb hn) m0)
    have hptr0 : r1.1.ptr r0.2 = p.data0 := by
      rw [← e0]
      apply Heap.ptr_congr
      intro n hn
      obtain ⟨g, g'⟩ := g0 n hn
      refine f1 n g ?_
      rcases g' with g' | g'
      · exact hne hb n g'
      · intro hn'; have := h1 n hb hn'; omega
    rw [hres]
    refine ⟨⟨?_, ?_, ?_⟩, le_trans m0 m1, ?_, ?_⟩
    · have hv : view r1.1 ⟨p, r0.2, r1.2⟩ = p := by
        have e1' : r1.1.ptr r1.2 = p.data1 := e1
        simp only [view, hptr0, if_pos hb]
        rw [e1']
      rw [hv]; exact hr
    · intro n hn
      rcases hn with hn | ⟨_, hn⟩
      · exact lt_of_lt_of_le (g0 n hn).1 m1
      · exact (g1 n hn).1
    · intro _ n hn hn'
      rcases (g1 n hn').2 with g | g
      · rcases (g0 n hn).2 with g' | g'
        · exact hne hb n g' g
        · have := h1 n hb g; omega
      · have := (g0 n hn).1
        have : n < r0.1.next := this
        omega
    · intro n hn ha0 ha1
      have : ¬ a1.Is n := fun e => ha1 ⟨hb, e⟩
      exact (f1 n (lt_of_lt_of_le hn m0) this).trans (f0 n hn ha0)
    · intro n hn
      rcases hn with hn | ⟨_, hn⟩
      · rcases (g0 n hn).2 with g | g
        · exact Or.inl (Or.inl g)
        · exact Or.inr g
      · rcases (g1 n hn).2 with g | g
        · exact Or.inl (Or.inr ⟨hb, g⟩)
        · exact Or.inr (le_trans m0 g)
  · have hres : res = (r0.1, ⟨p, r0.2, .wild⟩) := if_neg hb
    have hb' : p.bimodal = false := by simpa using hb
    rw [hres]
    refine ⟨⟨?_, ?_, ?_⟩, m0, fun n hn ha0 _ => f0 n hn ha0, ?_⟩
    · have hv : view r0.1 ⟨p, r0.2, .wild⟩ = { p with data1 := .garbage } := by
        have e0' : r0.1.ptr r0.2 = p.data0 := e0
        simp only [view, hb', Bool.false_eq_true, if_false]
        rw [e0']
      rw [hv]; exact rep_forget_data1 hr hb' _
    · intro n hn
      rcases hn with hn | ⟨_, hn⟩
      · exact (g0 n hn).1
      · cases hn
    · intro h'; exact absurd h' hb
    · intro n hn
      rcases hn with hn | ⟨_, hn⟩
      · rcases (g0 n hn).2 with g | g
        · exact Or.inl (Or.inl g)
        · exact Or.inr g
      · cases hn

/-- One call: the object keeps representing what the specification says, and no block of anyone else changes. -/
theorem Inv.step {h : Heap K} {o : HPhrase K} {s : S K} (hi : Inv h o s) (hc : s.Coherent) (op : Op K) :
    ∃ h' o', HPhrase.step op h o = some (h', o', (s.step op).2) ∧ Inv h' o' (s.step op).1 ∧ h.next ≤ h'.next ∧
      (∀ n, n < h.next → ¬ o.Owns n → h'.cells n = h.cells n) ∧
      (∀ n, o'.Owns n → o.Owns n ∨ h.next ≤ n) := by
  obtain ⟨p', r', e⟩ := hi.rep.step hc op
  have hbo : o.hdr.bimodal = s.bimodal := hi.rep.bim
  have aux : ∀ (q : Phrase K) (s' : S K), Rep q s' → s'.bimodal = s.bimodal →
      let r := storeBack h o q
      Inv r.1 r.2 s' ∧ h.next ≤ r.1.next ∧ (∀ n, n < h.next → ¬ o.Owns n → r.1.cells n = h.cells n) ∧
      (∀ n, r.2.Owns n → o.Owns n ∨ h.next ≤ n) := by
    intro q s' hq hb
    have hqb : q.bimodal = o.hdr.bimodal := by rw [hq.bim, hb, hbo]
    obtain ⟨k1, k2, k3, k4⟩ := store2 h o.a0 o.a1 (q.maxLength == o.hdr.maxLength) true
      (q.maxLength == o.hdr.maxLength) false q s' hq
      (fun n hn => hi.alloc n (Or.inl hn)) (fun n hb hn => hi.alloc n (Or.inr ⟨hqb ▸ hb, hn⟩))
      (fun hb => hi.ne (hqb ▸ hb))
    refine ⟨k1, k2, fun n hn ho => k3 n hn (fun g => ho (Or.inl g)) (fun g => ho (Or.inr ⟨hqb ▸ g.1, g.2⟩)), ?_⟩
    intro n hn
    rcases k4 n hn with (g | g) | g
    · exact Or.inl (Or.inl g)
    · exact Or.inl (Or.inr ⟨hqb ▸ g.1, g.2⟩)
    · exact Or.inr g
  cases ho : (s.step op).2 with
  | none =>
    rw [ho] at e
    obtain ⟨k1, k2, k3, k4⟩ := aux p' _ r' (PhraseSpec.step_bimodal s op)
    exact ⟨_, _, by simp only [HPhrase.step, e], k1, k2, k3, k4⟩
  | some x =>
    rw [ho] at e
    have hs : (s.step op).1 = s := by
      revert ho
      cases op <;> simp only [S.step] <;> (repeat' split) <;> simp
    obtain ⟨k1, k2, k3, k4⟩ := aux (view h o) s hi.rep rfl
    rw [hs]
    exact ⟨_, _, by simp only [HPhrase.step, e], k1, k2, k3, k4⟩

/-- no block in common -/
def Sep (o1 o2 : HPhrase K) : Prop := ∀ n, o1.Owns n → ¬ o2.Owns n

theorem Inv.frame {h h' : Heap K} {o : HPhrase K} {s : S K} (hi : Inv h o s) (hn : h.next ≤ h'.next)
    (hc : ∀ n, o.Owns n → h'.cells n = h.cells n) : Inv h' o s := by
  have hv : view h' o = view h o := by
    simp only [view]
    rw [Heap.ptr_congr h h' o.a0 fun n hn => hc n (Or.inl hn)]
    by_cases hb : o.hdr.bimodal = true
    · rw [Heap.ptr_congr h h' o.a1 fun n hn => hc n (Or.inr ⟨hb, hn⟩)]
    · simp only [hb]
      rfl
  exact ⟨hv ▸ hi.rep, fun n ho => lt_of_lt_of_le (hi.alloc n ho) hn, hi.ne⟩

/-- the calls on one of the two phrases -/
def proj (b : Bool) (l : List (Bool × Op K)) : List (Op K) := (l.filter fun x => x.1 == b).map Prod.snd

/-- Two phrases without a common block: whatever the interleaving, each behaves as if it were alone. -/
theorem run2_independent (ops : List (Bool × Op K)) (h : Heap K) (o1 o2 : HPhrase K) (s1 s2 : S K)
    (h1 : Inv h o1 s1) (h2 : Inv h o2 s2) (hs : Sep o1 o2) (c1 : s1.Coherent) (c2 : s2.Coherent)
    (a1 : S.Admissible (proj true ops) s1) (a2 : S.Admissible (proj false ops) s2) :
    ∃ h' o1' o2' out, run2 ops h o1 o2 = some (h', o1', o2', out) ∧
      Inv h' o1' (S.run (proj true ops) s1).1 ∧ Inv h' o2' (S.run (proj false ops) s2).1 ∧ Sep o1' o2' ∧
      (S.run (proj true ops) s1).1.Coherent ∧ (S.run (proj false ops) s2).1.Coherent := by
  induction ops generalizing h o1 o2 s1 s2 with
  | nil => exact ⟨h, o1, o2, [], rfl, h1, h2, hs, c1, c2⟩
  | cons x ops ih =>
    obtain ⟨b, op⟩ := x
    cases b with
    | true =>
      have hp1 : proj true ((true, op) :: ops) = op :: proj true ops := by simp [proj]
      have hp2 : proj false ((true, op) :: ops) = proj false ops := by simp [proj]
      rw [hp1] at a1
      rw [hp2] at a2
      obtain ⟨h', o1', e, i1, m, f, g⟩ := h1.step c1 op
      have hs' : Sep o1' o2 := by
        intro n hn hn'
        rcases g n hn with g | g
        · exact hs n g hn'
        · have := h2.alloc n hn'; omega
      have i2 : Inv h' o2 s2 := h2.frame m fun n hn => f n (h2.alloc n hn) fun hn' => hs n hn' hn
      obtain ⟨h'', p1, p2, out, e2, r1, r2, r3, r4, r5⟩ := ih h' o1' o2 _ s2 i1 i2 hs' a1.1 c2 a1.2 a2
      refine ⟨h'', p1, p2, (s1.step op).2 :: out, by simp only [run2, e, e2, Option.map_some], ?_, ?_, r3, ?_, ?_⟩
      · rw [hp1]; exact r1
      · rw [hp2]; exact r2
      · rw [hp1]; exact r4
      · rw [hp2]; exact r5
    | false =>
      have hp1 : proj true ((false, op) :: ops) = proj true ops := by simp [proj]
      have hp2 : proj false ((false, op) :: ops) = op :: proj false ops := by simp [proj]
      rw [hp1] at a1
      rw [hp2] at a2
      obtain ⟨h', o2', e, i2, m, f, g⟩ := h2.step c2 op
      have hs' : Sep o1 o2' := by
        intro n hn hn'
        rcases g n hn' with g | g
        · exact hs n hn g
        · have := h1.alloc n hn; omega
      have i1 : Inv h' o1 s1 := h1.frame m fun n hn => f n (h1.alloc n hn) fun hn' => hs n hn hn'
      obtain ⟨h'', p1, p2, out, e2, r1, r2, r3, r4, r5⟩ := ih h' o1 o2' s1 _ i1 i2 hs' c1 a2.1 a1 a2.2
      refine ⟨h'', p1, p2, (s2.step op).2 :: out, by simp only [run2, e, e2, Option.map_some], ?_, ?_, r3, ?_, ?_⟩
      · rw [hp1]; exact r1
      · rw [hp2]; exact r2
      · rw [hp1]; exact r4
      · rw [hp2]; exact r5

end HPhrase

/-- copying a block keeps its frames -/
theorem Block.copyBlock {ptr : Ptr K} {d max : Nat} {fs : List (List K)} (h : Block ptr d max fs) (hm : 0 < max) :
    ∃ ptr', Phrase.copyBlock ptr (max * d) = some ptr' ∧ Block ptr' d max fs := by
  rcases h.rep with ⟨_, rfl⟩ | ⟨l, rfl, h2, h3⟩
  · omega
  · refine ⟨.cells (l.take (max * d)), by simp [Phrase.copyBlock, h2], h.uni, h.le, Or.inr ⟨_, rfl, ?_, ?_⟩⟩
    · simp [h2]
    · rw [List.take_of_length_le (l := l) (by omega)]; exact h3

theorem Phrase.Rep.copy {p : Phrase K} {s : S K} (h : Rep p s) (hc : s.Coherent) (hm : 0 < p.maxLength) :
    ∃ q, Phrase.copy p = some q ∧ Rep q s := by
  cases hb : s.bimodal with
  | false =>
    have hpb := h.bim.trans hb
    obtain ⟨b0, l, o⟩ := h.uni hb
    obtain ⟨d0, e0, c0⟩ := b0.copyBlock hm
    refine ⟨{ p with data0 := d0, data1 := .garbage }, ?_, ?_⟩
    · simp [Phrase.copy, h.own, hm, hpb, h.dim, e0]
    · exact ⟨h.own, h.bim, h.dim, h.di, h.dmin, h.diMin, h.diMax, isGarbage_of_block c0, fun _ => ⟨c0, l, o⟩,
        fun hb' => by rw [hb] at hb'; cases hb'⟩
  | true =>
    have hpb := h.bim.trans hb
    obtain ⟨b0, b1, l⟩ := h.bi hb
    obtain ⟨d0, e0, c0⟩ := b0.copyBlock hm
    obtain ⟨d1, e1, c1⟩ := b1.copyBlock hm
    refine ⟨{ p with data0 := d0, data1 := d1 }, ?_, ?_⟩
    · simp [Phrase.copy, h.own, hm, hpb, h.di, h.outDim_eq hb hc, e0, e1]
    · exact ⟨h.own, h.bim, h.dim, h.di, h.dmin, h.diMin, h.diMax, isGarbage_of_block c0,
        (fun hb' => by rw [hb] at hb'; cases hb'), fun _ => ⟨c0, c1, l⟩⟩

namespace HPhrase

theorem Inv.copy {h : Heap K} {o : HPhrase K} {s : S K} (hi : Inv h o s) (hc : s.Coherent)
    (hm : 0 < o.hdr.maxLength) :
    ∃ h' q, HPhrase.copy h o = some (h', q) ∧ Inv h' q s ∧ Inv h' o s ∧ Sep o q ∧ h.next ≤ h'.next ∧
      (∀ n, n < h.next → h'.cells n = h.cells n) := by
  obtain ⟨q, e, r⟩ := hi.rep.copy hc hm
  obtain ⟨k1, k2, k3, k4⟩ := store2 h .null .null false false false false q s r (by simp [Addr.Is])
    (by simp [Addr.Is]) (by simp [Addr.Is])
  have hfr : ∀ n, n < h.next → _ := fun n hn => k3 n hn (by simp [Addr.Is]) (by simp [Addr.Is])
  refine ⟨_, _, ?_, k1, hi.frame k2 (fun n hn => hfr n (hi.alloc n hn)), ?_, k2, hfr⟩
  · simp only [HPhrase.copy, e]
    by_cases hb : q.bimodal = true
    · simp only [hb, if_true]
    · simp only [hb]
      rfl
  · intro n hn hn'
    have := hi.alloc n hn
    rcases k4 n hn' with g | g
    · simp [Addr.Is] at g
    · omega

theorem inv_new (b : Bool) : Inv (Heap.empty K) (new K b) (PhraseSpec.new K b) := by
  have hv : view (Heap.empty K) (new K b) = construct K true b := by
    cases b <;> simp [view, new, construct, Heap.ptr]
  refine ⟨hv ▸ rep_construct b, ?_, ?_⟩
  · intro n hn; rcases hn with hn | ⟨_, hn⟩ <;> simp [new, Addr.Is] at hn
  · intro _ n hn; simp [new, Addr.Is] at hn

theorem Inv.alloc_pos {h : Heap K} {o : HPhrase K} {s : S K} (hi : Inv h o s) (hd : s.ins ≠ [] ∨ s.outs ≠ []) :
    0 < o.hdr.maxLength := by
  cases hb : s.bimodal with
  | false =>
    obtain ⟨b0, _, ho⟩ := hi.rep.uni hb
    have := b0.le
    have h1 : s.ins ≠ [] := by rcases hd with h | h; exact h; exact absurd ho h
    have := List.length_pos_iff.2 h1
    have hm : (view h o).maxLength = o.hdr.maxLength := rfl
    omega
  | true =>
    obtain ⟨b0, b1, _⟩ := hi.rep.bi hb
    have := b0.le
    have := b1.le
    have hm : (view h o).maxLength = o.hdr.maxLength := rfl
    rcases hd with h | h <;> have := List.length_pos_iff.2 h <;> omega

theorem Inv.free {h : Heap K} {o q : HPhrase K} {s : S K} (hi : Inv h o s) (hs : Sep o q) (a : Addr)
    (ha : ∀ n, a.Is n → q.Owns n) : Inv (h.free a) o s := by
  apply hi.frame
  · cases a <;> simp [Heap.free, Heap.put]
  · intro n hn
    cases a with
    | null => rfl
    | wild => rfl
    | «at» m =>
      have : n ≠ m := fun e => hs n hn (ha n (by rw [e]; rfl))
      simp [Heap.free, Heap.put, this]

end HPhrase

open HPhrase

/-- `p` shows exactly the content of `s` to its user. -/
def Reads (p : Phrase K) (s : S K) : Prop :=
  p.bimodal = s.bimodal ∧ p.dimension = s.dim ∧ p.dimensionInput = s.di ∧ p.length = s.size ∧
    ∀ t d, Phrase.getValue t d p = expectedRead s t d p

theorem reads_of_rep {p : Phrase K} {s : S K} (h : Rep p s) (hc : s.Coherent) : Reads p s :=
  ⟨h.bim, h.dim, h.di, h.size, h.getValue hc⟩

/-- C17 (copy construction): take any phrase built by an admissible history that holds data.  Its copy shows the same
    content, and whatever is then done to the source (`true`) and to the copy (`false`), in any interleaving, each shows
    exactly what its own calls put there.  The second phrase of `run2 before` is an unrelated bystander. -/
theorem C17_copy_independent (b : Bool) (before : List (Op K)) (later : List (Bool × Op K))
    (ha : S.Admissible before (PhraseSpec.new K b))
    (hdata : (S.run before (PhraseSpec.new K b)).1.ins ≠ [] ∨ (S.run before (PhraseSpec.new K b)).1.outs ≠ [])
    (a1 : S.Admissible (proj true later) (S.run before (PhraseSpec.new K b)).1)
    (a2 : S.Admissible (proj false later) (S.run before (PhraseSpec.new K b)).1) :
    let s := (S.run before (PhraseSpec.new K b)).1
    ∃ h o o0 out0 h' q, run2 (before.map (Prod.mk true)) (Heap.empty K) (HPhrase.new K b) (HPhrase.new K b) =
        some (h, o, o0, out0) ∧
      HPhrase.copy h o = some (h', q) ∧ Reads (view h' q) s ∧ Reads (view h' o) s ∧
      ∃ h'' o' q' out, run2 later h' o q = some (h'', o', q', out) ∧
        Reads (view h'' o') (S.run (proj true later) s).1 ∧ Reads (view h'' q') (S.run (proj false later) s).1 := by
  have hp : proj true (before.map (Prod.mk true)) = before := by
    have : (before.map (Prod.mk true)).filter (fun x => x.1 == true) = before.map (Prod.mk true) := by simp
    rw [proj, this]; simp [Function.comp_def]
  have hp' : proj false (before.map (Prod.mk true)) = [] := by simp [proj]
  obtain ⟨h, o, o0, out0, e0, i1, -, -, c1, -⟩ := run2_independent (before.map (Prod.mk true)) (Heap.empty K)
    (HPhrase.new K b) (HPhrase.new K b) _ _ (inv_new b) (inv_new b)
    (by intro n hn; rcases hn with hn | ⟨_, hn⟩ <;> simp [HPhrase.new, Addr.Is] at hn)
    (PhraseSpec.new_coherent b) (PhraseSpec.new_coherent b) (by rw [hp]; exact ha) (by rw [hp']; trivial)
  rw [hp] at i1 c1
  obtain ⟨h', q, e1, iq, io, sep, -⟩ := i1.copy c1 (i1.alloc_pos hdata)
  obtain ⟨h'', o', q', out, e2, r1, r2, -, c3, c4⟩ := run2_independent later h' o q _ _ io iq sep c1 c1 a1 a2
  exact ⟨h, o, o0, out0, h', q, e0, e1, reads_of_rep iq.rep c1, reads_of_rep io.rep c1, h'', o', q', out, e2,
    reads_of_rep r1.rep c3, reads_of_rep r2.rep c4⟩

/-- C17 (assignment): the same for `dst = src` between two own-memory phrases with arbitrary interleaved pasts. -/
theorem C17_assign_independent (b bd : Bool) (before : List (Bool × Op K)) (later : List (Bool × Op K))
    (ha : S.Admissible (proj true before) (PhraseSpec.new K b))
    (had : S.Admissible (proj false before) (PhraseSpec.new K bd))
    (hdata : (S.run (proj true before) (PhraseSpec.new K b)).1.ins ≠ [] ∨
      (S.run (proj true before) (PhraseSpec.new K b)).1.outs ≠ [])
    (a1 : S.Admissible (proj true later) (S.run (proj true before) (PhraseSpec.new K b)).1)
    (a2 : S.Admissible (proj false later) (S.run (proj true before) (PhraseSpec.new K b)).1) :
    let s := (S.run (proj true before) (PhraseSpec.new K b)).1
    ∃ h src dst out0 h' q, run2 before (Heap.empty K) (HPhrase.new K b) (HPhrase.new K bd) =
        some (h, src, dst, out0) ∧
      HPhrase.assign h dst src = some (h', q) ∧ Reads (view h' q) s ∧ Reads (view h' src) s ∧
      ∃ h'' o' q' out, run2 later h' src q = some (h'', o', q', out) ∧
        Reads (view h'' o') (S.run (proj true later) s).1 ∧ Reads (view h'' q') (S.run (proj false later) s).1 := by
  obtain ⟨h, o, d, out0, e0, i1, i2, hsep, c1, c2⟩ := run2_independent before (Heap.empty K)
    (HPhrase.new K b) (HPhrase.new K bd) _ _ (inv_new b) (inv_new bd)
    (by intro n hn; rcases hn with hn | ⟨_, hn⟩ <;> simp [HPhrase.new, Addr.Is] at hn)
    (PhraseSpec.new_coherent b) (PhraseSpec.new_coherent bd) ha had
  have hfree : Inv ((if d.hdr.bimodal then h.free d.a1 else h).free d.a0) o
      (S.run (proj true before) (PhraseSpec.new K b)).1 := by
    by_cases hb : d.hdr.bimodal = true
    · rw [if_pos hb]
      exact (i1.free hsep d.a1 (fun n hn => Or.inr ⟨hb, hn⟩)).free hsep d.a0 (fun n hn => Or.inl hn)
    · rw [if_neg hb]
      exact i1.free hsep d.a0 (fun n hn => Or.inl hn)
  obtain ⟨h', q, e1, iq, io, sep, -⟩ := hfree.copy c1 (i1.alloc_pos hdata)
  obtain ⟨h'', o', q', out, e2, r1, r2, -, c3, c4⟩ := run2_independent later h' o q _ _ io iq sep c1 c1 a1 a2
  refine ⟨h, o, d, out0, h', q, e0, ?_, reads_of_rep iq.rep c1, reads_of_rep io.rep c1, h'', o', q', out, e2,
    reads_of_rep r1.rep c3, reads_of_rep r2.rep c4⟩
  have g0 : (view h d).data0.isGarbage = false := i2.rep.nogarbage
  have g1 : (d.hdr.bimodal && (view h d).data1.isGarbage) = false := by
    by_cases hb : d.hdr.bimodal = true
    · have : (view h d).data1.isGarbage = false := rep_garbage i2.rep hb
      simp [this]
    · simp [hb]
  simp only [HPhrase.assign, g0, g1, Bool.or_self, Bool.false_eq_true, if_false]
  exact e1

/-- non-vacuity: two frames recorded, then both phrases recorded into and cleared in alternation -/
example : let before : List (Op ℤ) := [.record [1], .record [2]]
    let later : List (Bool × Op ℤ) := [(true, .record [3]), (false, .clear), (false, .record [9]), (true, .clear)]
    S.Admissible before (PhraseSpec.new ℤ false) ∧ (S.run before (PhraseSpec.new ℤ false)).1.ins = [[1], [2]] ∧
    S.Admissible (proj true later) (S.run before (PhraseSpec.new ℤ false)).1 ∧
    S.Admissible (proj false later) (S.run before (PhraseSpec.new ℤ false)).1 := by
  refine ⟨PhraseSpec.admissible_unimodal _ rfl _, rfl, PhraseSpec.admissible_unimodal _ ?_ _,
    PhraseSpec.admissible_unimodal _ ?_ _⟩ <;> exact run_bimodal _ _

/-- The full statement fails for a source without data (a defect): the copy of a phrase in which nothing was ever
    recorded has uninitialised data pointers; destroying it, or recording into it, is undefined behaviour. -/
theorem C17_empty_copy_violated (b : Bool) :
    ∃ q, Phrase.copy (construct K true b) = some q ∧ Phrase.destroy q = false ∧
      ∀ obs : List K, obs.length = q.dimension → Phrase.step (.record obs) q = .ub := by
  refine ⟨{ construct K true b with data0 := .garbage, data1 := .garbage }, by simp [Phrase.copy, construct], ?_, ?_⟩
  · simp [Phrase.destroy, construct, Ptr.isGarbage]
  · intro obs ho
    have ho' : obs.length = if b = true then 2 else 1 := ho
    simp [Phrase.step, record, construct, ho', ensureRoom, reallocateLength, Ptr.reallocate, orUB]

/-- Copying a phrase that does not own its memory is undefined behaviour. -/
theorem C17_shared_copy_violated (p : Phrase K) (h : p.ownMemory = false) : Phrase.copy p = none := by
  simp [Phrase.copy, h]

example : (construct ℤ false false).ownMemory = false := rfl

end Xmm
