import Verif.Props.Configuration
import Mathlib.Data.Rat.Lemmas
import Mathlib.Algebra.Order.Ring.Rat
/-
C28: theorems.
-/
namespace Xmm
open Configuration
variable {K : Type} [Field K] [LinearOrder K] {tiny realMax : K}

/-- the defaults of a new configuration of a GMM -/
def gmmDefaults : GmmValues K := ⟨10, 1 / 100, 1 / 1000, 0⟩
/-- the defaults of a new configuration of a HMM: 10 states, 1 Gaussian, full covariance, left-right, full regression, hierarchical -/
def hmmDefaults : HmmValues K := ⟨10, 1, 1 / 100, 1 / 1000, 0, 1, 0, true⟩

/-- **C28, GMM.**  After every history of edits of the defaults, edits of `configuration[l]`, accesses and resets, on a new configuration: the defaults, the answer of `includes`,
    the parameters read from `configuration[l]` and those handed to a class by the training are those of the specification. -/
theorem C28_gmm (me : Nat) (slot : String → Nat) (ops : List (ConfigOp (GmmEdit K))) :
    ∃ c, history (GmmAttrs.type tiny realMax) me slot GmmEdit.run ops (fresh (GmmAttrs.type tiny realMax) me) = some c ∧
      ∃ s, s = ConfigSpec.after (GmmEdit.apply tiny realMax) gmmDefaults ops ∧ c.base.values = s.default ∧ ∀ l,
        includes l c = .ret (s.own l).isSome c ∧ (paramsFor l c).values = s.effective l ∧
        ∃ p c', index (GmmAttrs.type tiny realMax) slot l c = .ret p c' ∧ p.values = s.effective l := by
  obtain ⟨c, h1, h2⟩ := Means.history (GmmAttrs.laws tiny realMax) ops (me := me) (slot := slot) (Means.fresh (GmmAttrs.laws tiny realMax))
  refine ⟨c, h1, _, rfl, h2.base, fun l => ⟨h2.includes l, (h2.paramsFor (GmmAttrs.laws tiny realMax) l).2, ?_⟩⟩
  obtain ⟨p, c', i1, -, i3, -⟩ := h2.index (GmmAttrs.laws tiny realMax) l
  exact ⟨p, c', i1, i3⟩

/-- **C28, GMM, copies.**  A copy or an assigned copy of a configuration, further edited, behaves as the original would under the same calls; the calls act on the copy only
    (`history` is run on the copy with its own objects). -/
theorem C28_gmm_copy (me me' : Nat) (slot slot' : String → Nat) (ops ops' : List (ConfigOp (GmmEdit K))) (dst : Configuration (GmmAttrs K)) :
    ∃ c, history (GmmAttrs.type tiny realMax) me slot GmmEdit.run ops (fresh (GmmAttrs.type tiny realMax) me) = some c ∧
      ∀ d, d = copy (GmmAttrs.type tiny realMax) me' slot' c ∨ d = assignFrom (GmmAttrs.type tiny realMax) me' slot' c dst →
        ∃ d', history (GmmAttrs.type tiny realMax) me' slot' GmmEdit.run ops' d = some d' ∧
          ∃ s, s = ConfigSpec.after (GmmEdit.apply tiny realMax) gmmDefaults (ops ++ ops') ∧ d'.base.values = s.default ∧ ∀ l,
            includes l d' = .ret (s.own l).isSome d' ∧ (paramsFor l d').values = s.effective l := by
  have L := GmmAttrs.laws tiny realMax
  obtain ⟨c, h1, h2⟩ := Means.history L ops (me := me) (slot := slot) (Means.fresh L)
  refine ⟨c, h1, fun d hd => ?_⟩
  have hm : Means GmmAttrs.values Eq (GmmAttrs.Good tiny realMax) me' slot' d (ConfigSpec.after (GmmEdit.apply tiny realMax) gmmDefaults ops) := by
    rcases hd with rfl | rfl
    · exact h2.copy L me' slot'
    · exact h2.assignFrom L id me' slot' dst
  obtain ⟨d', g1, g2⟩ := hm.history L ops'
  refine ⟨d', g1, _, rfl, ?_, fun l => ?_⟩
  · rw [ConfigSpec.after, List.foldl_append]; exact g2.base
  · rw [ConfigSpec.after, List.foldl_append]; exact ⟨g2.includes l, (g2.paramsFor L l).2⟩

/-- a call on the parameters of a class or on the defaults keeps the two other members of the configuration -/
theorem Configuration.call_flags {P E : Type} (T : ParamType P) (me : Nat) (slot : String → Nat) (run : Nat → E → Prog P Unit) (op : ConfigOp E)
    (c c' : Configuration P) (h : (call T me slot run op c).stateAfter = some c') : c'.multithreading = c.multithreading ∧ c'.estimator = c.estimator := by
  have hi : ∀ l, ∃ p d, index T slot l c = .ret p d ∧ d.multithreading = c.multithreading ∧ d.estimator = c.estimator := by
    intro l
    simp only [index, Prog.bind_def, Prog.get_def]
    cases hf : SMap.find? l c.classParams with
    | some p => exact ⟨p, c, rfl, rfl, rfl⟩
    | none => exact ⟨_, _, rfl, rfl, rfl⟩
  cases op with
  | default e =>
    simp only [call, editDefault] at h
    cases hf : run me e c.base <;> simp only [hf, Res.stateAfter] at h
    · injection h with h; subst h; exact ⟨rfl, rfl⟩
    · injection h with h; subst h; exact ⟨rfl, rfl⟩
    · cases h
  | label l e =>
    obtain ⟨p, d, h1, h2, h3⟩ := hi l
    simp only [call, edit, Prog.bind_def, h1, within] at h
    cases hf : run (slot l) e p <;> simp only [hf, Res.stateAfter] at h
    · injection h with h; subst h; exact ⟨h2, h3⟩
    · injection h with h; subst h; exact ⟨h2, h3⟩
    · cases h
  | access l =>
    obtain ⟨p, d, h1, h2, h3⟩ := hi l
    simp only [call, Prog.bind_def, h1, Prog.pure_def, Res.stateAfter] at h
    injection h with h; subst h; exact ⟨h2, h3⟩
  | reset =>
    simp only [call, resetAll, Prog.modify_def, Res.stateAfter] at h
    injection h with h; subst h; exact ⟨rfl, rfl⟩
  | resetLabel l =>
    simp only [call, resetLabel, Prog.bind_def, Prog.get_def] at h
    cases hf : SMap.find? l c.classParams <;> simp only [hf, Prog.pure_def, Prog.set_def, Res.stateAfter] at h
    · injection h with h; subst h; exact ⟨rfl, rfl⟩
    · injection h with h; subst h; exact ⟨rfl, rfl⟩

/-- **C28, copies, GMM and HMM.**  A copy or an assigned copy has the multithreading mode and the regression estimator of the source; no edit of parameters changes them. -/
theorem C28_copy_flags {P E : Type} (T : ParamType P) (me me' : Nat) (slot slot' : String → Nat) (run : Nat → E → Prog P Unit) (ops : List (ConfigOp E))
    (c dst d d' : Configuration P) (hd : d = copy T me' slot' c ∨ d = assignFrom T me' slot' c dst) (h : history T me slot run ops d = some d') :
    d'.multithreading = c.multithreading ∧ d'.estimator = c.estimator := by
  have key : ∀ (ops : List (ConfigOp E)) (a b : Configuration P), history T me slot run ops a = some b →
      b.multithreading = a.multithreading ∧ b.estimator = a.estimator := by
    intro ops
    induction ops with
    | nil => intro a b h; simp only [history, Option.some.injEq] at h; subst h; exact ⟨rfl, rfl⟩
    | cons op ops ih =>
      intro a b h
      simp only [history] at h
      cases hc : (call T me slot run op a).stateAfter with
      | none => rw [hc] at h; cases h
      | some a' =>
        rw [hc] at h
        obtain ⟨h1, h2⟩ := ih a' b h
        obtain ⟨h3, h4⟩ := call_flags T me slot run op a a' hc
        exact ⟨h1.trans h3, h2.trans h4⟩
  obtain ⟨h1, h2⟩ := key ops d d' h
  rcases hd with rfl | rfl
  · exact ⟨h1, h2⟩
  · exact ⟨h1, h2⟩

/-- **C28 (partial), HMM.**  As for a GMM, except for the parameter `hierarchical` of `configuration[l]` (theorem `C28_hierarchical_violated`). -/
theorem C28_hmm_partial (me : Nat) (slot : String → Nat) (ops : List (ConfigOp (HmmEdit K))) :
    ∃ c, history (HmmAttrs.type tiny realMax) me slot HmmEdit.run ops (fresh (HmmAttrs.type tiny realMax) me) = some c ∧
      ∃ s, s = ConfigSpec.after (HmmEdit.apply tiny realMax) hmmDefaults ops ∧ c.base.values = s.default ∧ ∀ l,
        includes l c = .ret (s.own l).isSome c ∧ (paramsFor l c).values.Same (s.effective l) ∧
        ∃ p c', index (HmmAttrs.type tiny realMax) slot l c = .ret p c' ∧ p.values.Same (s.effective l) := by
  obtain ⟨c, h1, h2⟩ := Means.history (HmmAttrs.laws tiny realMax) ops (me := me) (slot := slot) (Means.fresh (HmmAttrs.laws tiny realMax))
  refine ⟨c, h1, _, rfl, h2.base, fun l => ⟨h2.includes l, (h2.paramsFor (HmmAttrs.laws tiny realMax) l).2, ?_⟩⟩
  obtain ⟨p, c', i1, -, i3, -⟩ := h2.index (HmmAttrs.laws tiny realMax) l
  exact ⟨p, c', i1, i3⟩

/-- **C28 (violated), HMM.**  After every history that ends with a non-hierarchical default and no parameters of its own for `l`, `configuration[l]` is hierarchical. -/
theorem C28_hierarchical_violated (me : Nat) (slot : String → Nat) (ops : List (ConfigOp (HmmEdit K))) (l : String)
    (hd : (ConfigSpec.after (HmmEdit.apply tiny realMax) hmmDefaults ops).default.hierarchical = false)
    (hl : (ConfigSpec.after (HmmEdit.apply tiny realMax) hmmDefaults ops).own l = none) :
    ∃ c p c', history (HmmAttrs.type tiny realMax) me slot HmmEdit.run ops (fresh (HmmAttrs.type tiny realMax) me) = some c ∧
      c.base.values.hierarchical = false ∧ index (HmmAttrs.type tiny realMax) slot l c = .ret p c' ∧ p.values.hierarchical = true := by
  obtain ⟨c, h1, h2⟩ := Means.history (HmmAttrs.laws tiny realMax) ops (me := me) (slot := slot) (Means.fresh (HmmAttrs.laws tiny realMax))
  have hn : SMap.find? l c.classParams = none := by
    cases hf : SMap.find? l c.classParams with
    | none => rfl
    | some p =>
      obtain ⟨-, v, hv, -⟩ := h2.some l p hf
      have hl' : (List.foldl (ConfigSpec.step (HmmEdit.apply tiny realMax)) ⟨hmmDefaults, fun _ => none⟩ ops).own l = none := hl
      have hv' : (List.foldl (ConfigSpec.step (HmmEdit.apply tiny realMax)) ⟨hmmDefaults, fun _ => none⟩ ops).own l = some v := hv
      rw [hl'] at hv'
      cases hv'
  have hd' : c.base.values.hierarchical = false := by rw [h2.base]; exact hd
  refine ⟨c, HmmAttrs.assignFrom (slot l) c.base (HmmAttrs.fresh (slot l) tiny realMax),
    { c with classParams := SMap.assign l (HmmAttrs.assignFrom (slot l) c.base (HmmAttrs.fresh (slot l) tiny realMax)) c.classParams }, h1, hd', ?_, ?_⟩
  · simp [index, hn]
    exact ⟨rfl, rfl⟩
  · rfl

/-! ### Training -/

/-- How a class keeps its parameters: `get`, and `put` by the assignment of xmmModel.hpp:591-595; training and reset leave them (no assignment to `parameters` in
    xmmGmmSingleClass.cpp and xmmHmmSingleClass.cpp outside constructors and `operator=`). -/
structure Keeps {C P : Type} (T : ParamType P) (id : String → Nat) (c : Configuration P) (kind : ClassSet.Kind C) (get : C → P) : Prop where
  conf : ∀ l x, get (kind.conf l x) = T.assignFrom (id l) (paramsFor l c) (get x)
  trained : ∀ x, get (kind.trained x) = get x
  reset : ∀ x, get (kind.reset x) = get x

section
variable {C : Type}

/-- **C28, training, GMM.**  After every history of edits, `train(set)` (from any state of the model that is not in training) leaves only classes with the parameters that apply to their
    label; `train(set, l)` does so for the class `l` and keeps the parameters of the other classes. -/
theorem C28_gmm_training (me : Nat) (slot id : String → Nat) (ops : List (ConfigOp (GmmEdit K))) :
    ∃ c, history (GmmAttrs.type tiny realMax) me slot GmmEdit.run ops (fresh (GmmAttrs.type tiny realMax) me) = some c ∧
      ∀ (kind : ClassSet.Kind C) (get : C → GmmAttrs K), Keeps (GmmAttrs.type tiny realMax) id c kind get → ∀ M : ClassSet C, M.training = false → M.models.Sorted →
        (∀ ls ok, ls ≠ [] → ∃ M', ClassSet.train kind.fresh kind.conf kind.trained kind.reset ls ok M = .ret () M' ∧
          ∀ l x, SMap.find? l M'.models = some x → (get x).values = (ConfigSpec.after (GmmEdit.apply tiny realMax) gmmDefaults ops).effective l) ∧
        ∀ l ok, ∃ M', ClassSet.trainClass kind.fresh kind.conf kind.trained kind.reset l ok M = .ret () M' ∧
          (∀ x, SMap.find? l M'.models = some x → (get x).values = (ConfigSpec.after (GmmEdit.apply tiny realMax) gmmDefaults ops).effective l) ∧
          ∀ l', l' ≠ l → ∀ x, SMap.find? l' M'.models = some x → ∃ y, SMap.find? l' M.models = some y ∧ get x = get y := by
  have L := GmmAttrs.laws tiny realMax
  obtain ⟨c, h1, h2⟩ := Means.history L ops (me := me) (slot := slot) (Means.fresh L)
  refine ⟨c, h1, fun kind get hk M hM hs => ⟨fun ls ok hls => ?_, fun l ok => ?_⟩⟩
  · obtain ⟨M', g1, g2⟩ := ClassSet.train_classes kind ls hls ok hM
    refine ⟨M', g1, fun l x hx => ?_⟩
    obtain ⟨y, rfl⟩ := g2 l x hx
    rw [hk.reset, hk.trained, hk.conf]
    exact (h2.paramsFor L l).2
  · obtain ⟨M', g1, g2, g3⟩ := ClassSet.trainClass_classes kind l ok hs
    refine ⟨M', g1, fun x hx => ?_, fun l' hl x hx => ?_⟩
    · obtain ⟨y, rfl⟩ := g2 x hx
      rw [hk.reset, hk.trained, hk.conf]
      exact (h2.paramsFor L l).2
    · obtain ⟨y, hy, rfl⟩ := g3 l' hl x hx
      exact ⟨y, hy, hk.reset y⟩

/-- **C28, training, HMM.**  The same; `hierarchical` is not a parameter that a class reads (the model writes its own flag into the classes, see Model/HierHmm.lean). -/
theorem C28_hmm_training (me : Nat) (slot id : String → Nat) (ops : List (ConfigOp (HmmEdit K))) :
    ∃ c, history (HmmAttrs.type tiny realMax) me slot HmmEdit.run ops (fresh (HmmAttrs.type tiny realMax) me) = some c ∧
      ∀ (kind : ClassSet.Kind C) (get : C → HmmAttrs K), Keeps (HmmAttrs.type tiny realMax) id c kind get → ∀ M : ClassSet C, M.training = false → M.models.Sorted →
        (∀ ls ok, ls ≠ [] → ∃ M', ClassSet.train kind.fresh kind.conf kind.trained kind.reset ls ok M = .ret () M' ∧
          ∀ l x, SMap.find? l M'.models = some x → (get x).values.Same ((ConfigSpec.after (HmmEdit.apply tiny realMax) hmmDefaults ops).effective l)) ∧
        ∀ l ok, ∃ M', ClassSet.trainClass kind.fresh kind.conf kind.trained kind.reset l ok M = .ret () M' ∧
          (∀ x, SMap.find? l M'.models = some x → (get x).values.Same ((ConfigSpec.after (HmmEdit.apply tiny realMax) hmmDefaults ops).effective l)) ∧
          ∀ l', l' ≠ l → ∀ x, SMap.find? l' M'.models = some x → ∃ y, SMap.find? l' M.models = some y ∧ get x = get y := by
  have L := HmmAttrs.laws tiny realMax
  obtain ⟨c, h1, h2⟩ := Means.history L ops (me := me) (slot := slot) (Means.fresh L)
  have hp : ∀ l x, (HmmAttrs.assignFrom (id l) (paramsFor l c) x).values.Same ((ConfigSpec.after (HmmEdit.apply tiny realMax) hmmDefaults ops).effective l) := by
    intro l x
    obtain ⟨⟨i, hg⟩, hsim⟩ := h2.paramsFor L l
    exact L.trans (L.assign (id := id l) x hg).2 hsim
  refine ⟨c, h1, fun kind get hk M hM hs => ⟨fun ls ok hls => ?_, fun l ok => ?_⟩⟩
  · obtain ⟨M', g1, g2⟩ := ClassSet.train_classes kind ls hls ok hM
    refine ⟨M', g1, fun l x hx => ?_⟩
    obtain ⟨y, rfl⟩ := g2 l x hx
    rw [hk.reset, hk.trained, hk.conf]
    exact hp l _
  · obtain ⟨M', g1, g2, g3⟩ := ClassSet.trainClass_classes kind l ok hs
    refine ⟨M', g1, fun x hx => ?_, fun l' hl x hx => ?_⟩
    · obtain ⟨y, rfl⟩ := g2 x hx
      rw [hk.reset, hk.trained, hk.conf]
      exact hp l _
    · obtain ⟨y, hy, rfl⟩ := g3 l' hl x hx
      exact ⟨y, hy, hk.reset y⟩
end

/-! ### Concrete cases -/

/-- "a" gets 3 Gaussians, then the default is 5 and "b" gets the diagonal mode; 0 Gaussians is refused; "c" has its own parameters and loses them. -/
def someEdits : List (ConfigOp (GmmEdit ℚ)) :=
  [.label "a" (.gaussians 3), .default (.gaussians 5), .label "b" (.covMode 1), .label "b" (.gaussians 0), .label "c" (.gaussians 7), .resetLabel "c"]

example : ((ConfigSpec.after (GmmEdit.apply (0 : ℚ) 100) gmmDefaults someEdits).effective "a").gaussians = 3 ∧
    ((ConfigSpec.after (GmmEdit.apply (0 : ℚ) 100) gmmDefaults someEdits).effective "b").gaussians = 5 ∧
    ((ConfigSpec.after (GmmEdit.apply (0 : ℚ) 100) gmmDefaults someEdits).effective "b").covMode = 1 ∧
    ((ConfigSpec.after (GmmEdit.apply (0 : ℚ) 100) gmmDefaults someEdits).effective "c").gaussians = 5 ∧
    (ConfigSpec.after (GmmEdit.apply (0 : ℚ) 100) gmmDefaults someEdits).own "c" = none := by decide +kernel

example : (ConfigSpec.after (HmmEdit.apply (0 : ℚ) 100) hmmDefaults [.default (.hierarchical false)]).default.hierarchical = false ∧
    (ConfigSpec.after (HmmEdit.apply (0 : ℚ) 100) hmmDefaults [.default (.hierarchical false)]).own "a" = none := by decide +kernel

/-- a type of classes that keeps its parameters: the parameters alone -/
example (id : String → Nat) (c : Configuration (GmmAttrs ℚ)) :
    Keeps (GmmAttrs.type (0 : ℚ) 100) id c
      ⟨fun l => GmmAttrs.fresh (id l) 0 100, fun l x => GmmAttrs.assignFrom (id l) (paramsFor l c) x, fun x => x, fun x => x⟩ (fun x : GmmAttrs ℚ => x) :=
  ⟨fun _ _ => rfl, fun _ => rfl, fun _ => rfl⟩

end Xmm
