import Verif.Spec.ModelFile
import Verif.Props.HmmLoading
import Verif.Props.SharedLoading
import Verif.Props.Configuration
import Verif.Props.ModelJsonFail
/- C86: what loading any JSON does to a configuration and to a whole model. -/
namespace Xmm
open Prog

/-! ### Configurations -/

namespace Configuration
variable {P K : Type} [Field K] [JsonReal K] {T : ParamType P} {read : Nat → Json K → Prog P Unit} {good : Json K → P → Prop}

theorem within_inv {label : String} {f : Prog P Unit} {p : P} {c c' : Configuration P} (h : within label f p c = .ret () c') :
    ∃ p', f p = .ret () p' ∧ c' = { c with classParams := SMap.assign label p' c.classParams } := by
  unfold within at h
  split at h
  · rename_i hf
    injection h with _ h
    exact ⟨_, hf, h.symm⟩
  · cases h
  · cases h

theorem readClasses_ret {slot : String → Nat} {node : Json K} (hread : ∀ id j p p', read id j p = .ret () p' → good j p') :
    ∀ (labels : List String) (c c' : Configuration P), readClasses T slot read node labels c = .ret () c' →
      c'.base = c.base ∧ c'.multithreading = c.multithreading ∧ c'.estimator = c.estimator ∧
      ∀ l, if l ∈ labels then ∃ p j, SMap.find? l c'.classParams = some p ∧ node.getKey l = .ok j ∧ good j p
        else SMap.find? l c'.classParams = SMap.find? l c.classParams
  | [], c, c', h => by
    injection h with _ h
    subst h
    exact ⟨rfl, rfl, rfl, fun l => by simp⟩
  | label :: labels, c, c', h => by
    rw [readClasses] at h
    obtain ⟨j, ej, h⟩ := bindE_inv h
    rw [bind_def, get_def] at h
    simp only at h
    obtain ⟨_, c1, h1, h2⟩ := bind_inv h
    obtain ⟨p', hp, rfl⟩ := within_inv h1
    obtain ⟨q1, q2, q3, q4⟩ := readClasses_ret hread labels _ _ h2
    refine ⟨q1, q2, q3, fun l => ?_⟩
    have := q4 l
    by_cases hl : l ∈ labels
    · rw [if_pos hl] at this
      rw [if_pos (List.mem_cons_of_mem _ hl)]
      exact this
    · rw [if_neg hl] at this
      by_cases he : l = label
      · subst he
        rw [if_pos List.mem_cons_self]
        rw [SMap.find?_assign, if_pos rfl] at this
        exact ⟨p', j, this, ej, hread _ _ _ _ hp⟩
      · rw [SMap.find?_assign, if_neg he] at this
        rw [if_neg (by simp [he, hl])]
        exact this

theorem fromJson_ret {me tmp : Nat} {slot tslot : String → Nat} {root : Json K} {c c' : Configuration P}
    (hread : ∀ id j p p', read id j p = .ret () p' → good j p') (hcopy : ∀ i j p, good j p → good j (T.copy i p))
    (hassign : ∀ i j p q, good j p → good j (T.assignFrom i p q))
    (h : fromJson T me slot read tmp tslot root c = .ret () c') : c'.Described good root := by
  unfold fromJson at h
  split at h
  · rename_i t hr
    injection h with _ h
    subst h
    unfold readJson at hr
    obtain ⟨j, ej, hr⟩ := bindE_inv hr
    obtain ⟨_, c1, h1, hr1⟩ := bind_inv hr
    clear hr
    obtain ⟨j2, e2, hr2⟩ := bindE_inv hr1
    obtain ⟨z2, f2, hr3⟩ := bindE_inv hr2
    rw [bind_of_ret (modify_def _ _)] at hr3
    obtain ⟨j3, e3, hr4⟩ := bindE_inv hr3
    obtain ⟨z3, f3, hr5⟩ := bindE_inv hr4
    rw [bind_of_ret (modify_def _ _)] at hr5
    obtain ⟨node, e4, hr6⟩ := bindE_inv hr5
    obtain ⟨names, e5, hr7⟩ := bindE_inv hr6
    obtain ⟨q1, q2, q3, q4⟩ := readClasses_ret hread names _ _ hr7
    refine ⟨⟨j, ej, ?_⟩, ⟨j2, e2, ?_⟩, ⟨j3, e3, ?_⟩, node, names, e4, e5, fun l => ?_⟩
    · show good j (T.assignFrom me t.base c.base)
      apply hassign
      rw [q1]
      unfold editDefault at h1
      split at h1
      · rename_i hb
        injection h1 with _ h1
        subst h1
        exact hread _ _ _ _ hb
      · cases h1
      · cases h1
    · show j2.asInt = .ok t.multithreading
      rw [q2]
      exact f2
    · show j3.asInt = .ok t.estimator
      rw [q3]
      exact f3
    · show match SMap.find? l (copyMap T slot t.classParams) with | none => _ | some p => _
      rw [find?_copyMap]
      have := q4 l
      by_cases hl : l ∈ names
      · rw [if_pos hl] at this
        obtain ⟨p, j, p1, p2, p3⟩ := this
        rw [p1]
        exact ⟨hl, j, p2, hcopy _ _ _ p3⟩
      · rw [if_neg hl] at this
        rw [this]
        exact hl
  · cases h
  · cases h

end Configuration

section
variable {K : Type} [Field K] [LinearOrder K] [IsStrictOrderedRing K] [JsonReal K] (nar : K → K)

/-- C86 (GMM configurations, what is accepted): after `fromJson` of any JSON that returns, the configuration is that of the file: the default parameters and the parameters of every class are the values of
    the file, within their limits, the labels are those of the file.  The two modes are the numbers of the file; that they are modes is not checked (`C86_configuration_modes_violated`). -/
theorem C86_gmm_configuration_accepted_partial {tiny realMax : K} {me tmp : Nat} {slot tslot : String → Nat} {root : Json K} {c c' : Configuration (GmmAttrs K)}
    (h : Configuration.fromJson (GmmAttrs.type tiny realMax) me slot (fun id => GmmAttrs.fromJson id nar (id + 1) tiny realMax) tmp tslot root c = .ret () c') :
    c'.Described (fun j p => GmmAttrs.Described nar j tiny realMax p) root :=
  Configuration.fromJson_ret (fun _ _ _ _ h => C86_gmm_parameters_accepted nar h) (fun _ _ _ h => ⟨h.1, h.2, h.3, h.4, h.5, h.6, h.7, h.8⟩)
    (fun _ _ _ _ h => ⟨h.1, h.2, h.3, h.4, h.5, h.6, h.7, h.8⟩) h

/-- C86 (HMM configurations, what is accepted): likewise, except `hierarchical` of the parameters, which is not read (`C27_hmm_hierarchical_violated`). -/
theorem C86_hmm_configuration_accepted_partial {tiny realMax : K} {me tmp : Nat} {slot tslot : String → Nat} {root : Json K} {c c' : Configuration (HmmAttrs K)}
    (h : Configuration.fromJson (HmmAttrs.type tiny realMax) me slot (fun id => HmmAttrs.fromJson id nar (id + 1) tiny realMax) tmp tslot root c = .ret () c') :
    c'.Described (fun j p => HmmAttrs.Described nar j tiny realMax p) root :=
  Configuration.fromJson_ret (fun _ _ _ _ h => (C86_hmm_parameters_accepted_partial nar h).1)
    (fun _ _ _ h => ⟨h.1, h.2, h.3, h.4, h.5, h.6, h.7, h.8, h.9, h.10, h.11, h.12, h.13, h.14⟩)
    (fun _ _ _ _ h => ⟨h.1, h.2, h.3, h.4, h.5, h.6, h.7, h.8, h.9, h.10, h.11, h.12, h.13, h.14⟩) h

/-! ### Models -/

theorem ModelBody.readModels_ret {P C : Type} {readC : SharedView → Json K → Prog (ModelBody K P C) (String × C)} {copyC : C → C}
    (hC : ∀ sh j M a M', readC sh j M = .ret a M' → M' = M) {like : SharedView → Json K → C → Prop}
    (hl : ∀ sh j M l c M', readC sh j M = .ret (l, c) M' → like sh j (copyC c)) :
    ∀ (js : List (Json K)) (M M' : ModelBody K P C), readModels readC copyC js M = .ret () M' → M'.shared = M.shared ∧ M'.config = M.config ∧
      (∀ j ∈ js, labelOf j ≠ none) ∧ (SMap.Sorted M.models → SMap.Sorted M'.models) ∧
      ∀ l, match SMap.find? l M.models, classAt js l with
        | some c, _ => SMap.find? l M'.models = some c
        | none, none => SMap.find? l M'.models = none
        | none, some j => ∃ c, SMap.find? l M'.models = some c ∧ like M.view j c
  | [], M, M', h => by
    injection h with _ h
    subst h
    refine ⟨rfl, rfl, by simp, id, fun l => ?_⟩
    cases SMap.find? l M.models <;> simp [classAt]
  | j :: js, M, M', h => by
    rw [readModels] at h
    obtain ⟨lj, e1, h1⟩ := bindE_inv h
    obtain ⟨lab, e2, h2⟩ := bindE_inv h1
    rw [bind_of_ret (get_def M)] at h2
    obtain ⟨⟨l0, c⟩, M1, h3, h4⟩ := bind_inv h2
    obtain rfl := hC _ _ _ _ _ h3
    rw [bind_of_ret (set_def _ _)] at h4
    obtain ⟨q1, q2, q3, q4, q5⟩ := ModelBody.readModels_ret hC hl js _ _ h4
    have hlab : labelOf j = some lab := by simp only [labelOf, e1, e2]
    refine ⟨q1, q2, ?_, fun hs => q4 hs.insertNew, fun l => ?_⟩
    · intro j' hj'
      rcases List.mem_cons.1 hj' with rfl | hj'
      · rw [hlab]; simp
      · exact q3 j' hj'
    · have := q5 l
      simp only [SMap.find?_insertNew] at this
      have hcl : classAt (j :: js) l = if l = lab then some j else classAt js l := by
        unfold classAt
        rw [List.find?_cons, hlab]
        by_cases he : l = lab
        · simp [he]
        · have : ¬ (some lab = some l) := fun h => he (Option.some.inj h).symm
          simp [he, this]
      rw [hcl]
      by_cases he : l = lab
      · subst he
        rw [if_pos rfl]
        cases hf : SMap.find? l M1.models with
        | some c' =>
          simp only [hf, reduceCtorEq, and_false, if_false] at this
          exact this
        | none =>
          simp only [hf, and_self, if_true] at this
          exact ⟨_, this, hl _ _ _ _ _ _ h3⟩
      · rw [if_neg he]
        simp only [he, false_and, if_false] at this
        exact this

theorem ModelBody.readJson_ret {P C : Type} {readS : Json K → Prog (SharedParams K) Unit} {readP : Json K → Prog (Configuration P) Unit}
    {readC : SharedView → Json K → Prog (ModelBody K P C) (String × C)} {copyC : C → C} {root : Json K} {M M' : ModelBody K P C}
    (hC : ∀ sh j M a M', readC sh j M = .ret a M' → M' = M) {like : SharedView → Json K → C → Prop}
    (hl : ∀ sh j M l c M', readC sh j M = .ret (l, c) M' → like sh j (copyC c))
    (h : ModelBody.readJson readS readP readC copyC root M = .ret () M') :
    (∃ j, root.getKey "shared_parameters" = .ok j ∧ readS j M.shared = .ret () M'.shared) ∧
    (∃ j, root.getKey "configuration" = .ok j ∧ readP j M.config = .ret () M'.config) ∧ HasClasses root M'.models (like M'.view) := by
  unfold ModelBody.readJson at h
  obtain ⟨j1, e1, h1⟩ := bindE_inv h
  rw [bind_of_ret (get_def M)] at h1
  obtain ⟨s, M1, h2, h3⟩ := bind_inv h1
  obtain ⟨rfl, f1⟩ := build_inv h2
  rw [bind_of_ret (set_def _ _)] at h3
  obtain ⟨j2, e2, h4⟩ := bindE_inv h3
  rw [bind_of_ret (get_def _)] at h4
  obtain ⟨c, M2, h5, h6⟩ := bind_inv h4
  obtain ⟨rfl, f2⟩ := build_inv h5
  rw [bind_of_ret (set_def _ _)] at h6
  obtain ⟨j3, e3, h7⟩ := bindE_inv h6
  obtain ⟨q1, q2, q3, q4, q5⟩ := ModelBody.readModels_ret hC hl _ _ _ h7
  refine ⟨⟨j1, e1, q1 ▸ f1⟩, ⟨j2, e2, q2 ▸ f2⟩, j3, e3, q3, q4 List.Pairwise.nil, fun l => ?_⟩
  have hv : M'.view = ModelBody.view ⟨s, c, M'.models⟩ := by simp only [ModelBody.view, q1]
  have := q5 l
  simp only [SMap.find?] at this
  cases hc : classAt j3.elements l with
  | none => rw [hc] at this; simp only at this; rw [this]; trivial
  | some j =>
    rw [hc] at this
    simp only at this
    obtain ⟨c', p1, p2⟩ := this
    rw [p1]
    simp only
    rw [hv]
    exact p2

/-- C86 (GMMs, what is accepted): if the construction of a GMM from any JSON returns, its shared parameters and its configuration are those of the file, and it has classes exactly for the labels of the file;
    the class of a label is loaded from the first element of the file with this label (`Gmm.Loaded`), is not training and sees the shared parameters of the model.  (Loading into an existing model: `C91_gmm_loaded`.) -/
theorem C86_gmm_model_accepted_partial {alive : Nat → Bool} {ids : JsonIds} {tiny realMax z : K} {root : Json K} {B : GmmBody K}
    (h : GmmBody.ofJson alive ids nar tiny realMax z root = .ret () B) :
    (∃ j, root.getKey "shared_parameters" = .ok j ∧ B.shared.values.Described nar j realMax) ∧
    (∃ j, root.getKey "configuration" = .ok j ∧ B.config.Described (fun j p => GmmAttrs.Described nar j tiny realMax p) j) ∧
    HasClasses root B.models fun j m => m.Loaded nar j tiny realMax ∧ m.training = false ∧ m.bimodal = B.shared.bimodal.value ∧ m.dim = B.shared.dimension.value ∧
      m.di = B.shared.dimensionInput.value ∧ m.window = B.shared.window.value := by
  obtain ⟨⟨j1, e1, f1⟩, ⟨j2, e2, f2⟩, h3⟩ := ModelBody.readJson_ret
    (like := fun sh j (m : Gmm K) => m.Loaded nar j tiny realMax ∧ m.training = false ∧ m.bimodal = sh.bimodal ∧ m.dim = sh.dim ∧ m.di = sh.di ∧ m.window = sh.window)
    (fun sh j M a M' h => (Reads.gmm nar tiny realMax sh z j).ret h)
    (fun sh j M l m M' h => by
      obtain ⟨_, q2, _, q4, q5, q6, q7, _, q9, q10, q11, q12⟩ := C86_class_accepted_partial nar h
      exact ⟨Gmm.Loaded.copy nar ⟨q2, q4, ⟨q5, q6⟩, C86_class_components nar h⟩ z, rfl, q9, q10, q11, q12⟩) h
  exact ⟨⟨j1, e1, C86_shared_accepted_partial nar f1⟩, ⟨j2, e2, C86_gmm_configuration_accepted_partial nar f2⟩, h3⟩

theorem Hmm.Loaded.copy {tiny realMax : K} {root : Json K} {m : Hmm K} (h : m.Loaded nar root tiny realMax) (z : K) : (Hmm.copy z m).Loaded nar root tiny realMax := by
  refine ⟨h.parameters, h.hier, h.n_pos, h.gaussians_pos, h.ergodic, h.leftRight, h.transition, h.exit, h.exitFile, ?_⟩
  obtain ⟨js, r1, r2, r3, r4, r5⟩ := h.states
  refine ⟨js, r1, r2, by simpa [Hmm.copy] using r3, fun i j hj => ?_, fun i s hi hs => ?_⟩
  · obtain ⟨s, v1, v2⟩ := r4 i j hj
    exact ⟨Gmm.copy z s, by simp [Hmm.copy, v1], v2.copy nar z⟩
  · simp only [Hmm.copy, List.getElem?_map, Option.map_eq_some_iff] at hs
    obtain ⟨s0, v1, rfl⟩ := hs
    exact r5 i s0 hi v1

theorem prog_mapM_inv {σ α β : Type} {f : α → Prog σ β} (hf : ∀ a, (f a).Reads) : ∀ (l : List α) (r : List β) (s s' : σ), l.mapM f s = .ret r s' →
    s' = s ∧ r.length = l.length ∧ ∀ (i : Nat) b, r[i]? = some b → ∃ a, l[i]? = some a ∧ f a s = .ret b s := by
  have key : ∀ (l : List α) (acc r : List β) (s s' : σ), List.mapM.loop f l acc s = .ret r s' →
      s' = s ∧ ∃ t, r = acc.reverse ++ t ∧ t.length = l.length ∧ ∀ (i : Nat) b, t[i]? = some b → ∃ a, l[i]? = some a ∧ f a s = .ret b s := by
    intro l
    induction l with
    | nil =>
      intro acc r s s' h
      injection h with h1 h2
      exact ⟨h2.symm, [], by simp [← h1], rfl, by simp⟩
    | cons a l ih =>
      intro acc r s s' h
      rw [List.mapM.loop] at h
      obtain ⟨b, s1, h1, h2⟩ := bind_inv h
      obtain rfl := (hf a).ret h1
      obtain ⟨q1, t, q2, q3, q4⟩ := ih _ _ _ _ h2
      refine ⟨q1, b :: t, by simp [q2], by simp [q3], fun i c hc => ?_⟩
      cases i with
      | zero => simp only [List.getElem?_cons_zero, Option.some.injEq] at hc; subst hc; exact ⟨a, rfl, h1⟩
      | succ i => exact q4 i c hc
  intro l r s s' h
  obtain ⟨q1, t, q2, q3, q4⟩ := key l [] r s s' h
  simp only [List.reverse_nil, List.nil_append] at q2
  subst q2
  exact ⟨q1, q3, q4⟩

theorem readRows_ret {σ : Type} {n : Nat} {node : Json K} {rows : List (List K)} {s s' : σ} (h : HierBody.readRows n node s = .ret rows s') :
    s' = s ∧ rows.length = n ∧ (∀ r ∈ rows, r.length = n) ∧
      ∀ (i : Nat) (r : List K), rows[i]? = some r → ∃ l, node.getIndex i = .ok (.arr l) ∧ l.map Json.asReal = r.map .ok := by
  obtain ⟨q1, q2, q3⟩ := prog_mapM_inv (fun i => Reads.bind (Reads.lift _) fun _ => Reads.vector _ _ _) _ _ _ _ h
  have hlen : (Gauss.resize n ([] : List K)).length = n := by simp [Gauss.resize]
  have key : ∀ (i : Nat) (r : List K), rows[i]? = some r → r.length = n ∧ ∃ l, node.getIndex i = .ok (.arr l) ∧ l.map Json.asReal = r.map .ok := by
    intro i r hr
    obtain ⟨a, ha, hf⟩ := q3 i r hr
    obtain ⟨hi, rfl⟩ := List.getElem?_eq_some_iff.1 ha
    simp only [List.length_range] at hi
    simp only [List.getElem_range] at hf
    obtain ⟨j, ej, hf⟩ := bindE_inv hf
    obtain ⟨_, p2, p3⟩ := Gauss.readVector_ret hf
    obtain ⟨l, rfl, p4⟩ := p3 hlen.symm (by omega)
    exact ⟨p2.trans hlen, l, ej, p4⟩
  refine ⟨q1, by simpa using q2, fun r hr => ?_, fun i r hr => (key i r hr).2⟩
  obtain ⟨i, hi⟩ := List.mem_iff_getElem?.1 hr
  exact (key i r hi).1

/-- C86 (hierarchical HMMs, what is accepted): likewise (`Hmm.Loaded`); moreover, the prior, the transition and the exit probabilities between classes are those of the file, one for each class, resp. each two classes.
    (What is not so: rows of "transition" beyond the number of classes are ignored.) -/
theorem C86_hmm_model_accepted_partial {alive : Nat → Bool} {ids : JsonIds} {tiny realMax z : K} {root : Json K} {M : HierBody K} {B : ModelBody K (HmmAttrs K) (Hmm K)}
    (h : HierBody.ofJson alive ids nar tiny realMax z root = .ret M B) :
    (∃ j, root.getKey "shared_parameters" = .ok j ∧ M.body.shared.values.Described nar j realMax) ∧
    (∃ j, root.getKey "configuration" = .ok j ∧ M.body.config.Described (fun j p => HmmAttrs.Described nar j tiny realMax p) j) ∧
    (HasClasses root M.body.models fun j m => m.Loaded nar j tiny realMax ∧ m.training = false ∧ m.bimodal = M.body.shared.bimodal.value ∧ m.dim = M.body.shared.dimension.value ∧
      m.di = M.body.shared.dimensionInput.value ∧ m.window = M.body.shared.window.value) ∧
    M.training = false ∧
    M.prior.length = M.body.models.length ∧ M.exitTrans.length = M.body.models.length ∧ M.trans.length = M.body.models.length ∧ (∀ r ∈ M.trans, r.length = M.body.models.length) ∧
    (M.body.models ≠ [] → HoldsArray root "prior" M.prior ∧ HoldsArray root "exit_transition" M.exitTrans) ∧ HoldsRows root "transition" M.trans := by
  unfold HierBody.ofJson at h
  obtain ⟨_, M1, h0, h1⟩ := bind_inv h
  obtain ⟨⟨j1, e1, f1⟩, ⟨j2, e2, f2⟩, h3⟩ := ModelBody.readJson_ret
    (like := fun sh j (m : Hmm K) => m.Loaded nar j tiny realMax ∧ m.training = false ∧ m.bimodal = sh.bimodal ∧ m.dim = sh.dim ∧ m.di = sh.di ∧ m.window = sh.window)
    (fun sh j M a M' h => (Reads.hmm nar tiny realMax sh z j).ret h)
    (fun sh j M l m M' h => by
      obtain ⟨_, q2, _, q4, q5, q6, q7⟩ := C86_hmm_class_constructed_partial nar h
      exact ⟨q2.copy nar z, rfl, q4, q5, q6, q7⟩) h0
  rw [bind_of_ret (get_def M1)] at h1
  obtain ⟨k1, g1, h2⟩ := bindE_inv h1
  obtain ⟨prior, M2, i1, h4⟩ := bind_inv h2
  obtain rfl := (Reads.vector _ _ _).ret i1
  obtain ⟨k2, g2, h5⟩ := bindE_inv h4
  obtain ⟨trans, M3, i2, h6⟩ := bind_inv h5
  obtain ⟨rfl, r1, r2, r3⟩ := readRows_ret i2
  obtain ⟨k3, g3, h7⟩ := bindE_inv h6
  obtain ⟨exitT, M4, i3, h8⟩ := bind_inv h7
  obtain rfl := (Reads.vector _ _ _).ret i3
  injection h8 with h8 _
  subst h8
  have hlen : ∀ n, (Gauss.resize n ([] : List K)).length = n := by simp [Gauss.resize]
  obtain ⟨_, p2, p3⟩ := Gauss.readVector_ret i1
  obtain ⟨_, x2, x3⟩ := Gauss.readVector_ret i3
  refine ⟨⟨j1, e1, C86_shared_accepted_partial nar f1⟩, ⟨j2, e2, C86_hmm_configuration_accepted_partial nar f2⟩, h3, rfl, p2.trans (hlen _), x2.trans (hlen _), r1, r2, fun hne => ?_, k2, g2, r3⟩
  have hn := fun h0 => hne (List.length_eq_zero_iff.1 h0)
  obtain ⟨l1, rfl, p4⟩ := p3 (hlen _).symm hn
  obtain ⟨l3, rfl, x4⟩ := x3 (hlen _).symm hn
  exact ⟨⟨l1, g1, p4⟩, l3, g3, x4⟩

end
end Xmm
