import Verif.Spec.ClassSet
import Verif.Lemmas.StdMap
import Verif.Lemmas.Loop
import Verif.Props.HierClasses
import Verif.Model.GmmFilter
import Mathlib.Data.List.Nodup
/- C55: the set of classes of a model.  C54: queries during the training. -/
namespace Xmm
namespace ClassSet
open Prog (bind_def pure_def get_def set_def modify_def throw_def)
variable {C : Type}

/-- the classes of `M` are those of `p`, and the model is not training -/
structure Rep (p : String → Bool) (M : ClassSet C) : Prop where
  sorted : M.models.Sorted
  has : ∀ l, (SMap.find? l M.models).isSome = p l
  idle : M.training = false

theorem checkTraining_idle {M : ClassSet C} (h : M.training = false) : checkTraining M = .ret () M := by
  simp [checkTraining, h]

theorem sorted_of_keys {m m' : SMap String C} (h : m.Sorted) (hk : m'.map Prod.fst = m.map Prod.fst) : m'.Sorted := by
  unfold SMap.Sorted at *
  rw [← List.pairwise_map (f := Prod.fst) (R := (· < ·))] at *
  rw [hk]
  exact h

theorem find?_isSome_iff {m : SMap String C} {l : String} : (SMap.find? l m).isSome = decide (l ∈ m.map Prod.fst) := by
  have := SMap.mem_keys_iff (m := m) (k := l)
  unfold SMap.keys at this
  rw [Bool.eq_iff_iff, decide_eq_true_iff, this, Option.isSome_iff_exists]

theorem reset_ok (r : C → C) {p : String → Bool} {M : ClassSet C} (h : Rep p M) : ∃ M', reset r M = .ret () M' ∧ Rep p M' := by
  refine ⟨{ M with models := M.models.map fun lc => (lc.1, r lc.2) }, ?_, ?_⟩
  · simp [reset, bind_def, checkTraining_idle h.idle, modify_def]
  · have hk : (M.models.map fun lc => (lc.1, r lc.2)).map Prod.fst = M.models.map Prod.fst := by simp [Function.comp_def]
    refine ⟨sorted_of_keys h.sorted hk, fun l => ?_, h.idle⟩
    rw [find?_isSome_iff, hk, ← find?_isSome_iff]
    exact h.has l

theorem clear_ok (r : C → C) (M : ClassSet C) (h : M.training = false) : ∃ M', clear r M = .ret () M' ∧ Rep (fun _ => false) M' := by
  have h0 : Rep (fun _ => false) ({ M with models := [] } : ClassSet C) := ⟨SMap.sorted_nil, fun l => rfl, h⟩
  obtain ⟨M', h1, h2⟩ := reset_ok r h0
  refine ⟨M', ?_, h2⟩
  simp [clear, bind_def, modify_def, h1]

theorem removeClass_absent (r : C → C) {p : String → Bool} {M : ClassSet C} (h : Rep p M) {l : String} (hl : p l = false) : removeClass r l M = .throw .outOfRange M := by
  have : SMap.find? l M.models = none := by
    have := h.has l
    rw [hl] at this
    simpa using this
  simp [removeClass, bind_def, get_def, this, throw_def]

theorem removeClass_ok (r : C → C) {p : String → Bool} {M : ClassSet C} (h : Rep p M) {l : String} (hl : p l = true) :
    ∃ M', removeClass r l M = .ret () M' ∧ Rep (fun l' => if l = l' then false else p l') M' := by
  obtain ⟨c, hc⟩ : ∃ c, SMap.find? l M.models = some c := by
    have := h.has l
    rw [hl] at this
    exact Option.isSome_iff_exists.1 this
  have h0 : Rep (fun l' => if l = l' then false else p l') ({ M with models := SMap.erase l M.models } : ClassSet C) := by
    refine ⟨h.sorted.erase, fun l' => ?_, h.idle⟩
    show (SMap.find? l' (SMap.erase l M.models)).isSome = _
    rw [SMap.find?_erase h.sorted]
    by_cases he : l = l'
    · simp [he]
    · have he' : ¬ l' = l := fun h => he h.symm
      simp only [he, he', if_false]
      exact h.has l'
  obtain ⟨M', h1, h2⟩ := reset_ok r h0
  refine ⟨M', ?_, h2⟩
  simp [removeClass, bind_def, get_def, hc, set_def, h1]

/-- `addModelForClass` -/
theorem add_ok (fresh : String → C) (conf : String → C → C) (l : String) {p : String → Bool} {M : ClassSet C} (hs : M.models.Sorted) (h : ∀ l, (SMap.find? l M.models).isSome = p l) :
    ∃ M', addModelForClass fresh conf l M = .ret () M' ∧ M'.training = M.training ∧ M'.models.Sorted ∧
      ∀ l', (SMap.find? l' M'.models).isSome = (p l' || decide (l' = l)) := by
  have hi : ∃ c, SMap.find? l (SMap.insertNew l (fresh l) M.models) = some c := by
    rw [SMap.find?_insertNew]
    cases SMap.find? l M.models <;> simp
  obtain ⟨c, hc⟩ := hi
  refine ⟨{ M with models := SMap.assign l (conf l c) (SMap.insertNew l (fresh l) M.models) }, ?_, rfl, hs.insertNew.assign, fun l' => ?_⟩
  · simp [addModelForClass, modify_def, hc]
  · show (SMap.find? l' (SMap.assign l (conf l c) (SMap.insertNew l (fresh l) M.models))).isSome = _
    rw [SMap.find?_assign]
    by_cases he : l' = l
    · simp [he]
    · rw [SMap.find?_insertNew, ← h l']
      cases hh : SMap.find? l' M.models <;> simp [he]

theorem join_ok (r : C → C) (ok : String → Bool) {p : String → Bool} {M : ClassSet C} (hs : M.models.Sorted) (h : ∀ l, (SMap.find? l M.models).isSome = p l) :
    ∃ M', joinTraining r ok M = .ret () M' ∧ Rep (fun l => p l && ok l) M' := by
  have h0 : Rep (fun l => p l && ok l) ({ M with models := M.models.filter (fun lc => ok lc.1), training := false } : ClassSet C) := by
    refine ⟨List.Pairwise.filter _ hs, fun l => ?_, rfl⟩
    rw [← h l, find?_isSome_iff, find?_isSome_iff, Bool.eq_iff_iff]
    simp only [decide_eq_true_eq, Bool.and_eq_true, List.mem_map, List.mem_filter]
    constructor
    · rintro ⟨lc, ⟨h1, h2⟩, rfl⟩
      exact ⟨⟨lc, h1, rfl⟩, h2⟩
    · rintro ⟨⟨lc, h1, rfl⟩, h2⟩
      exact ⟨lc, ⟨h1, h2⟩, rfl⟩
  obtain ⟨M', h1, h2⟩ := reset_ok r h0
  refine ⟨M', ?_, h2⟩
  simp [joinTraining, bind_def, modify_def, h1]

theorem adds_ok (fresh : String → C) (conf : String → C → C) : ∀ (ls : List String) {p : String → Bool} {M : ClassSet C}, M.models.Sorted → (∀ l, (SMap.find? l M.models).isSome = p l) →
    ∃ M', (ls.foldlM (fun _ l => addModelForClass fresh conf l) () : Prog (ClassSet C) Unit) M = .ret () M' ∧ M'.training = M.training ∧ M'.models.Sorted ∧
      ∀ l', (SMap.find? l' M'.models).isSome = (p l' || decide (l' ∈ ls))
  | [], p, M, hs, h => ⟨M, by simp [pure_def], rfl, hs, fun l' => by simp [h l']⟩
  | l :: ls, p, M, hs, h => by
    obtain ⟨M1, h1, h2, h3, h4⟩ := add_ok fresh conf l hs h
    obtain ⟨M', g1, g2, g3, g4⟩ := adds_ok fresh conf ls h3 h4
    refine ⟨M', ?_, g2.trans h2, g3, fun l' => ?_⟩
    · rw [List.foldlM_cons, bind_def, h1]
      exact g1
    · rw [g4 l', Bool.or_assoc]
      congr 1
      simp

/-- a change of the classes that keeps the labels -/
theorem mapped_ok {M : ClassSet C} {p : String → Bool} (f : String × C → String × C) (hf : ∀ lc, (f lc).1 = lc.1) (hs : M.models.Sorted)
    (h : ∀ l, (SMap.find? l M.models).isSome = p l) : SMap.Sorted (M.models.map f) ∧ ∀ l, (SMap.find? l (M.models.map f)).isSome = p l := by
  have hk : (M.models.map f).map Prod.fst = M.models.map Prod.fst := by
    rw [List.map_map]
    apply List.map_congr_left
    intro lc _
    exact hf lc
  refine ⟨sorted_of_keys hs hk, fun l => ?_⟩
  rw [find?_isSome_iff, hk, ← find?_isSome_iff]
  exact h l

theorem train_ok (T : Kind C) (ls : List String) (ok : String → Bool) {p : String → Bool} {M : ClassSet C} (h : Rep p M) :
    ∃ M', train T.fresh T.conf T.trained T.reset ls ok M = .ret () M' ∧ Rep (fun l => if ls = [] then p l else decide (l ∈ ls) && ok l) M' := by
  unfold train
  by_cases he : ls = []
  · refine ⟨M, by simp [he, pure_def], ?_⟩
    simpa [he] using h
  · obtain ⟨M1, h1, h2⟩ := clear_ok T.reset M h.idle
    obtain ⟨M2, g1, g2, g3, g4⟩ := adds_ok (M := { M1 with training := true }) T.fresh T.conf ls h2.sorted h2.has
    obtain ⟨m1, m2⟩ := mapped_ok (fun lc => (lc.1, T.trained lc.2)) (fun _ => rfl) g3 g4
    obtain ⟨M3, j1, j2⟩ := join_ok (M := { M2 with models := M2.models.map fun lc => (lc.1, T.trained lc.2) }) T.reset ok m1 m2
    refine ⟨M3, ?_, ?_⟩
    · have : ls.isEmpty = false := by simpa using he
      rw [this]
      simp only [Bool.false_eq_true, if_false, bind_def, h1, modify_def, g1, j1]
    · simpa [he] using j2

theorem trainClass_ok (T : Kind C) (l : String) (ok : Bool) {p : String → Bool} {M : ClassSet C} (h : Rep p M) :
    ∃ M', trainClass T.fresh T.conf T.trained T.reset l ok M = .ret () M' ∧ Rep (fun l' => if l = l' then ok else p l') M' := by
  obtain ⟨M2, g1, g2, g3, g4⟩ := add_ok (M := { M with training := true }) T.fresh T.conf l h.sorted h.has
  obtain ⟨m1, m2⟩ := mapped_ok (fun lc => if lc.1 = l then (lc.1, T.trained lc.2) else lc) (fun lc => by split <;> rfl) g3 g4
  obtain ⟨M3, j1, j2⟩ := join_ok (M := { M2 with models := M2.models.map fun lc => if lc.1 = l then (lc.1, T.trained lc.2) else lc }) T.reset
    (fun l' => decide (l' ≠ l) || ok) m1 m2
  refine ⟨M3, ?_, ⟨j2.sorted, fun l' => ?_, j2.idle⟩⟩
  · simp only [trainClass, bind_def, modify_def, g1]
    exact j1
  · rw [j2.has l']
    by_cases he : l = l'
    · subst he
      simp
    · have he' : l' ≠ l := fun h => he h.symm
      simp [he, he']

/-- one call -/
theorem call_ok (T : Kind C) (op : SetOp) {p : String → Bool} {M : ClassSet C} (h : Rep p M) :
    ∃ M', (call T op M = .ret () M' ∨ (call T op M = .throw .outOfRange M' ∧ M' = M ∧ ∃ l, op = .removeClass l ∧ p l = false)) ∧ Rep (fun l => op.after l (p l)) M' := by
  cases op with
  | train ls failed =>
    obtain ⟨M', h1, h2⟩ := train_ok T ls (fun l => !failed l) h
    exact ⟨M', Or.inl h1, h2⟩
  | trainClass l fails =>
    obtain ⟨M', h1, h2⟩ := trainClass_ok T l (!fails) h
    exact ⟨M', Or.inl h1, h2⟩
  | removeClass l =>
    cases hp : p l with
    | false =>
      refine ⟨M, Or.inr ⟨removeClass_absent T.reset h hp, rfl, l, rfl, hp⟩, h.sorted, fun l' => ?_, h.idle⟩
      simp only [SetOp.after]
      by_cases he : l = l'
      · subst he; rw [h.has, hp]; simp
      · rw [h.has]; simp [he]
    | true =>
      obtain ⟨M', h1, h2⟩ := removeClass_ok T.reset h hp
      exact ⟨M', Or.inl h1, h2⟩
  | clear =>
    obtain ⟨M', h1, h2⟩ := clear_ok T.reset M h.idle
    exact ⟨M', Or.inl h1, h2⟩
  | reset =>
    obtain ⟨M', h1, h2⟩ := reset_ok T.reset h
    exact ⟨M', Or.inl h1, h2⟩

theorem history_rep (T : Kind C) : ∀ (ops : List SetOp) {p : String → Bool} {M : ClassSet C}, Rep p M →
    ∃ M', history T ops M = some M' ∧ Rep (fun l => ops.foldl (fun had op => op.after l had) (p l)) M'
  | [], p, M, h => ⟨M, rfl, h⟩
  | op :: ops, p, M, h => by
    obtain ⟨M1, h1, h2⟩ := call_ok T op h
    obtain ⟨M', g1, g2⟩ := history_rep T ops h2
    refine ⟨M', ?_, g2⟩
    rcases h1 with h1 | ⟨h1, -⟩
    · simp [history, h1, g1]
    · simp [history, h1, g1]

/-- the loop of `getIndex` -/
theorem indexFrom_ok {m : SMap String C} (hs : m.Sorted) (l : String) : ∀ i : Int,
    indexFrom l i m = if l ∈ m.map Prod.fst then i + 1 + ((m.map Prod.fst).filter (· < l)).length else -1 := by
  induction m with
  | nil => intro i; simp [indexFrom]
  | cons a m ih =>
    intro i
    obtain ⟨la, ca⟩ := a
    rw [SMap.sorted_cons] at hs
    unfold indexFrom
    by_cases he : la = l
    · subst he
      have hz : (List.map Prod.fst m).filter (· < la) = [] := by
        rw [List.filter_eq_nil_iff]
        intro x hx
        obtain ⟨lc, hlc, rfl⟩ := List.mem_map.1 hx
        rw [decide_eq_true_eq]
        exact not_lt_of_gt (hs.1 lc hlc)
      rw [if_pos rfl, if_pos (by simp), List.map_cons, List.filter_cons_of_neg (by rw [decide_eq_true_eq]; exact lt_irrefl _), hz]
      simp
    · have he' : l ≠ la := fun h => he h.symm
      rw [if_neg he, ih hs.2]
      by_cases hm : l ∈ m.map Prod.fst
      · have hlt : la < l := by
          obtain ⟨lc, hlc, rfl⟩ := List.mem_map.1 hm
          exact hs.1 lc hlc
        rw [if_pos hm, if_pos (by simp only [List.map_cons, List.mem_cons]; exact Or.inr hm)]
        simp only [List.map_cons, List.filter_cons, hlt, decide_true, if_true, List.length_cons]
        push_cast
        omega
      · rw [if_neg hm, if_neg (by simp only [List.map_cons, List.mem_cons, not_or]; exact ⟨he', hm⟩)]

/-- **C55** For every history of calls from an empty model: let `ls` be the list of the labels that the history leaves in the model, in label order.  `size` is its length,
    `hasClass` answers whether the label is in it, `getIndex` is the place of the label in it, or -1. -/
theorem C55_bookkeeping (T : Kind C) (ops : List SetOp) :
    ∃ (M : ClassSet C) (ls : List String), history T ops empty = some M ∧ ls.Pairwise (· < ·) ∧ (∀ l, l ∈ ls ↔ present ops l = true) ∧
      size M = .ret ls.length M ∧ (∀ l, hasClass l M = .ret (decide (l ∈ ls)) M) ∧
      (∀ (i : Nat) (l : String), ls[i]? = some l → getIndex l M = .ret i M) ∧ ∀ l, l ∉ ls → getIndex l M = .ret (-1) M := by
  obtain ⟨M, h1, h2⟩ := history_rep T ops (p := fun _ => false) (M := empty) ⟨SMap.sorted_nil, fun _ => rfl, rfl⟩
  have hmem : ∀ l, l ∈ M.models.map Prod.fst ↔ present ops l = true := by
    intro l
    have := h2.has l
    rw [find?_isSome_iff] at this
    rw [← decide_eq_true_iff (p := l ∈ M.models.map Prod.fst), this]
    rfl
  have hidx : ∀ l, getIndex l M = .ret (indexFrom l (-1) M.models) M := by
    intro l
    simp [getIndex, bind_def, checkTraining_idle h2.idle, get_def, pure_def]
  have hks : (M.models.map Prod.fst).Pairwise (· < ·) := SMap.keys_sorted h2.sorted
  refine ⟨M, M.models.map Prod.fst, h1, hks, hmem, by simp [size], fun l => ?_, fun i l hi => ?_, fun l hl => ?_⟩
  · simp [hasClass, bind_def, checkTraining_idle h2.idle, get_def, pure_def, find?_isSome_iff]
  · rw [hidx, indexFrom_ok h2.sorted, if_pos (List.mem_of_getElem? hi)]
    have hf : ∀ (ks : List String), ks.Pairwise (· < ·) → ∀ i : Nat, ks[i]? = some l → (ks.filter (· < l)).length = i := by
      intro ks
      induction ks with
      | nil => intro _ i hi; simp at hi
      | cons k ks ih =>
        intro hp i hi
        rw [List.pairwise_cons] at hp
        cases i with
        | zero =>
          simp only [List.getElem?_cons_zero, Option.some.injEq] at hi
          subst hi
          have : (k :: ks).filter (· < k) = [] := by
            rw [List.filter_eq_nil_iff]
            intro x hx
            rcases List.mem_cons.1 hx with rfl | hx
            · rw [decide_eq_true_eq]; exact lt_irrefl _
            · rw [decide_eq_true_eq]; exact not_lt_of_gt (hp.1 x hx)
          rw [this]; rfl
        | succ i =>
          simp only [List.getElem?_cons_succ] at hi
          have hlt := hp.1 l (List.mem_of_getElem? hi)
          rw [List.filter_cons_of_pos (by rw [decide_eq_true_eq]; exact hlt), List.length_cons, ih hp.2 i hi]
    rw [hf _ hks i hi]
    congr 1
    omega
  · rw [hidx, indexFrom_ok h2.sorted, if_neg hl]

/-- **C55** After every history, removing a class that is not in the model throws out_of_range and changes nothing; removing one that is there returns. -/
theorem C55_remove (T : Kind C) (ops : List SetOp) (l : String) :
    ∃ M : ClassSet C, history T ops empty = some M ∧
      (present ops l = false → call T (.removeClass l) M = .throw .outOfRange M) ∧
      (present ops l = true → ∃ M', call T (.removeClass l) M = .ret () M') := by
  obtain ⟨M, h1, h2⟩ := history_rep T ops (p := fun _ => false) (M := empty) ⟨SMap.sorted_nil, fun _ => rfl, rfl⟩
  refine ⟨M, h1, fun hp => removeClass_absent T.reset h2 hp, fun hp => ?_⟩
  obtain ⟨M', g1, -⟩ := removeClass_ok T.reset h2 hp
  exact ⟨M', g1⟩

/-- a history that leaves two classes: "b" cannot be trained, "c" is trained later, "d" is unknown -/
def someCalls : List SetOp := [.train ["a", "b"] (fun l => l = "b"), .trainClass "c" false, .removeClass "d", .reset]

example : present someCalls "a" = true ∧ present someCalls "b" = false ∧ present someCalls "c" = true ∧ present someCalls "d" = false := by decide +kernel

/-! ### Queries during the training -/

/-- **C54** `hasClass`, `getIndex` and `reset` of a model in training throw runtime_error and change nothing. -/
theorem C54_queries_partial {M : ClassSet C} (h : M.training = true) (r : C → C) (l : String) :
    hasClass l M = .throw .runtimeError M ∧ getIndex l M = .throw .runtimeError M ∧ reset r M = .throw .runtimeError M := by
  have hc : checkTraining M = .throw .runtimeError M := by simp [checkTraining, h]
  simp [hasClass, getIndex, reset, bind_def, hc]

/-- C54 is violated by `size`, which answers during the training. -/
theorem C54_size_violated {M : ClassSet C} (_ : M.training = true) : size M = .ret M.models.length M := rfl

/-- C54 is violated by `removeClass`: if the class is not (or no longer) in training, but the model is, the class is erased before runtime_error is thrown. -/
theorem C54_remove_violated {M : ClassSet C} (h : M.training = true) (r : C → C) (l : String) {c : C} (hc : SMap.find? l M.models = some c) :
    removeClass r l M = .throw .runtimeError { M with models := SMap.erase l M.models } := by
  simp [removeClass, bind_def, get_def, hc, set_def, reset, checkTraining, h]

example : ∃ M : ClassSet Nat, M.training = true ∧ M.models.Sorted ∧ SMap.find? "a" M.models = some 0 :=
  ⟨⟨[("a", 0), ("b", 1)], true⟩, rfl, List.pairwise_pair.2 (by decide +kernel), by decide +kernel⟩

end ClassSet

/-- **C54** `filter` of a GMM or of a hierarchical HMM in training, and `reset` of a hierarchical HMM, throw runtime_error and change nothing. -/
theorem C54_filter_partial {K : Type} [Field K] [LinearOrder K] (D : Dens K) (log exp : K → K) (x : List K) :
    (∀ M : GmmModel K, M.training = true → GmmModel.filter D log exp x M = .throw .runtimeError M) ∧
    (∀ M : HierHmm K, M.training = true → HierHmm.filter D log exp x M = .throw .runtimeError M ∧ HierHmm.reset M = .throw .runtimeError M) := by
  refine ⟨fun M h => ?_, fun M h => ⟨?_, ?_⟩⟩
  · simp [GmmModel.filter, GmmModel.checkTraining, Prog.bind_def, Prog.get_def, h, Prog.throw_def]
  · simp [HierHmm.filter, HierHmm.checkTraining, Prog.bind_def, Prog.get_def, h, Prog.throw_def]
  · simp [HierHmm.reset, HierHmm.checkTraining, Prog.bind_def, Prog.get_def, h, Prog.throw_def]

/-- C54 is violated by `reset` of a GMM: if the first class is in training, runtime_error is thrown after the results have been resized. -/
theorem C54_gmm_reset_violated {K : Type} [Field K] [LinearOrder K] (M : GmmModel K) (l : String) (c : Gmm K) (rest : SMap String (Gmm K)) (hm : M.models = (l, c) :: rest)
    (hn : M.nulls = []) (hc : c.training = true) :
    GmmModel.reset M = .throw .runtimeError
      { M with results := MultiRes.resetResults (M.models.length + M.nulls.length) M.bimodal M.dout M.mode M.results } := by
  have hr : Gmm.reset c = .throw .runtimeError c := by
    simp [Gmm.reset, Gmm.checkTraining, Prog.bind_def, Prog.get_def, hc, Prog.throw_def]
  simp [GmmModel.reset, Prog.bind_def, Prog.modify_def, Prog.get_def, hn, hm, Phrase.loop, List.range_succ_eq_map, List.foldlM_cons, GmmModel.onClass, hr]

end Xmm
