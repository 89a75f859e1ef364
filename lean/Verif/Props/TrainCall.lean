import Verif.Spec.TrainCall
import Verif.Props.SharedHistory
import Verif.Props.ClassSet
set_option linter.unusedSimpArgs false
set_option linter.unusedSectionVars false
/- C92: what a call of `train` does to the classes and the shared parameters, and what is left when it throws. -/
namespace Xmm
open Prog (bind_def pure_def get_def set_def modify_def throw_def)
open SharedSpec

namespace SharedParams
variable {K : Type} {alive : Nat → Bool} {me : Nat}

/-- the lower limit of the input dimension -/
def InputLimit (s : SharedParams K) : Prop := s.bimodal.value = true → s.dimensionInput.limitMin = 1

variable [LT K] [DecidableLT K]

theorem InputLimit.step {s s' : SharedParams K} (hw : WInv me s) (hs : InputLimit s) (op : Op K) (h : (call alive me op s).stateAfter = some s') : InputLimit s' := by
  have hb := hw.bound
  have hone : 1 ≤ s.dimension.value := by
    refine le_trans ?_ hw.le
    rw [hw.lo]; split <;> omega
  cases op with
  | bimodal b =>
    simp only [call] at h
    rw [setBimodal_eq hb] at h
    have hb1 : Bound me ({ s with bimodal := { s.bimodal with value := b, changed := true } } : SharedParams K) :=
      ⟨hb.bimodal, hb.dimension, hb.input, hb.columns, hb.emMin, hb.emMax, hb.percent, hb.window⟩
    cases b with
    | true =>
      rw [bimodalChanged_on hb1 rfl (by simp only [hw.hi, uintMax]; omega)] at h
      simp only at h
      by_cases h1 : 1 ≤ s.dimensionInput.value
      · rw [if_pos h1] at h
        simp only [Res.stateAfter, Option.some.injEq] at h
        subst h
        exact fun _ => rfl
      · rw [if_neg h1] at h
        by_cases h2 : 1 ≤ (if s.dimension.value < 2 then 1 else s.dimensionInput.limitMax)
        · rw [if_pos h2] at h
          simp only [Res.stateAfter, Option.some.injEq] at h
          subst h
          exact fun _ => rfl
        · rw [if_neg h2] at h
          simp only [Res.stateAfter, Option.some.injEq] at h
          subst h
          exact fun _ => rfl
    | false =>
      rw [bimodalChanged_off hb1 rfl hone] at h
      simp only at h
      by_cases h1 : s.dimensionInput.limitMin = 0
      · rw [if_pos h1] at h
        simp only [Res.stateAfter, Option.some.injEq] at h
        subst h
        exact fun hc => absurd hc (by simp)
      · rw [if_neg h1] at h
        simp only [Res.stateAfter, Option.some.injEq] at h
        subst h
        exact fun hc => absurd hc (by simp)
  | dimension n =>
    simp only [call] at h
    rw [setDimension_eq hb] at h
    split at h <;> simp only [Res.stateAfter, Option.some.injEq] at h <;> subst h <;> exact hs
  | dimensionInput n =>
    simp only [call] at h
    rw [setDimensionInput_eq hb] at h
    split at h <;> simp only [Res.stateAfter, Option.some.injEq] at h <;> subst h <;> exact hs
  | columnNames n =>
    simp only [call] at h
    rw [setColumnNames_eq hb] at h
    split at h <;> simp only [Res.stateAfter, Option.some.injEq] at h <;> subst h <;> exact hs
  | emMin n =>
    simp only [call] at h
    rw [setEmMin_eq hb] at h
    split at h <;> simp only [Res.stateAfter, Option.some.injEq] at h <;> subst h <;> exact hs
  | emMax n =>
    simp only [call] at h
    rw [setEmMax_eq hb] at h
    split at h <;> simp only [Res.stateAfter, Option.some.injEq] at h <;> subst h <;> exact hs
  | percentChg n =>
    simp only [call] at h
    rw [setPercentChg_eq hb] at h
    split at h <;> simp only [Res.stateAfter, Option.some.injEq] at h <;> subst h <;> exact hs
  | window n =>
    simp only [call] at h
    rw [setWindow_eq hb] at h
    split at h <;> simp only [Res.stateAfter, Option.some.injEq] at h <;> subst h <;> exact hs

theorem reached_limits [Field K] {realMax : K} {ok : SharedValues K → Op K → Prop} {s : SharedParams K} (h : After alive me ok (fresh me realMax) s) :
    WInv me s ∧ InputLimit s := by
  refine ⟨(fresh_WInv me realMax).after h, ?_⟩
  induction h with
  | start => exact fun hc => absurd hc (by simp [fresh])
  | step h1 _ h ih => exact InputLimit.step ((fresh_WInv me realMax).after h1) ih _ h

end SharedParams

namespace TrainableModel
open SharedParams
variable {C K : Type} {alive : Nat → Bool} {me : Nat}

/-- `shared_parameters->dimension.set(n)` -/
theorem dimension_ok {sh : SharedParams K} (hb : Bound me sh) {n : Nat} (h : sh.dimension.limitMin ≤ n ∧ n ≤ sh.dimension.limitMax) :
    ∃ sh1, setDimension alive me n sh = .ret () sh1 ∧ Bound me sh1 ∧ sh1.dimensionInput.limitMin = sh.dimensionInput.limitMin ∧
      sh1.dimensionInput.limitMax = uintPred n ∧ sh1.columnNames.size = n ∧ sh1.bimodal = sh.bimodal ∧
      sh1.values = { sh.values with dimension := n, columnNames := resized n sh.values.columnNames } := by
  have h1 := setDimension_eq (alive := alive) hb n
  rw [if_pos h] at h1
  exact ⟨_, h1, ⟨hb.bimodal, hb.dimension, hb.input, hb.columns, hb.emMin, hb.emMax, hb.percent, hb.window⟩, rfl, rfl, rfl, rfl, rfl⟩

theorem input_ok {sh : SharedParams K} (hb : Bound me sh) {n : Nat} (h : sh.dimensionInput.limitMin ≤ n ∧ n ≤ sh.dimensionInput.limitMax) :
    ∃ sh1, setDimensionInput alive me n sh = .ret () sh1 ∧ Bound me sh1 ∧ sh1.columnNames.size = sh.columnNames.size ∧
      sh1.values = { sh.values with dimensionInput := n } := by
  have h1 := setDimensionInput_eq (alive := alive) hb n
  rw [if_pos h] at h1
  exact ⟨_, h1, ⟨hb.bimodal, hb.dimension, hb.input, hb.columns, hb.emMin, hb.emMax, hb.percent, hb.window⟩, rfl, rfl⟩

theorem columns_ok {sh : SharedParams K} (hb : Bound me sh) {c : List String} (h : c.length = sh.columnNames.size) :
    ∃ sh1, setColumnNames alive me c sh = .ret () sh1 ∧ sh1.values = { sh.values with columnNames := c } := by
  have h1 := setColumnNames_eq (alive := alive) hb c
  rw [if_neg (by simp [h])] at h1
  exact ⟨_, h1, rfl⟩

/-- the parameters of a fitting training set are adopted -/
theorem adopt_fits {t : TrainableModel C K} (hw : WInv me t.shared) (hl : InputLimit t.shared) {s : SetView} (hs : s.Ok) (hf : s.Fits t.shared.bimodal.value) :
    ∃ sh, adopt alive me s t = .ret () { t with shared := sh } ∧ sh.values = s.adoptedBy t.shared.values := by
  have hup : uintPred s.dim = s.dim - 1 := by have := hs.pos; unfold uintPred; rw [if_neg (by omega)]
  obtain ⟨s1, h1, b1, lo1, hi1, c1, m1, v1⟩ := dimension_ok (alive := alive) hw.bound (n := s.dim) (by
    rw [hw.lo, hw.hi]
    refine ⟨?_, hs.max⟩
    by_cases h : t.shared.bimodal.value = true
    · rw [if_pos h]; have := hf h; omega
    · rw [if_neg h]; exact hs.pos)
  by_cases h : t.shared.bimodal.value = true
  · have hf := hf h
    obtain ⟨s2, h2, b2, c2, v2⟩ := input_ok (alive := alive) b1 (n := s.di) (by rw [lo1, hl h, hi1]; omega)
    obtain ⟨s3, h3, v3⟩ := columns_ok (alive := alive) b2 (c := s.columns) (by rw [c2, c1, hs.columns])
    refine ⟨s3, ?_, ?_⟩
    · unfold adopt
      simp only [bind_def, onShared, h1, get_def, m1, h, if_true, h2, h3]
    · rw [v3, v2, v1]
      simp [SharedParams.values, SetView.adoptedBy, h]
  · obtain ⟨s3, h3, v3⟩ := columns_ok (alive := alive) b1 (c := s.columns) (by rw [c1, hs.columns])
    refine ⟨s3, ?_, ?_⟩
    · unfold adopt
      simp only [bind_def, onShared, h1, get_def, m1, h, if_false, pure_def, Bool.false_eq_true, h3]
    · rw [v3, v1]
      simp [SharedParams.values, SetView.adoptedBy, h]

/-- the parameters of a training set that does not fit: the exception leaves the dimensions as they were, or with the new dimension and the old input dimension -/
theorem adopt_throws {t : TrainableModel C K} (hw : WInv me t.shared) (hl : InputLimit t.shared) {s : SetView} (hs : s.Ok) (hf : ¬ s.Fits t.shared.bimodal.value) :
    ∃ sh, adopt alive me s t = .throw .domainError { t with shared := sh } ∧ sh.values.bimodal = true ∧ sh.values.dimensionInput = t.shared.values.dimensionInput ∧
      sh.values.dimension = if 2 ≤ s.dim then s.dim else t.shared.values.dimension := by
  have hup : uintPred s.dim = s.dim - 1 := by have := hs.pos; unfold uintPred; rw [if_neg (by omega)]
  unfold SetView.Fits at hf
  rw [Classical.not_imp] at hf
  obtain ⟨h, hf⟩ := hf
  by_cases h2 : 2 ≤ s.dim
  · obtain ⟨s1, h1, b1, lo1, hi1, c1, m1, v1⟩ := dimension_ok (alive := alive) hw.bound (n := s.dim) (by rw [hw.lo, hw.hi, if_pos h]; exact ⟨h2, hs.max⟩)
    have h3 := setDimensionInput_eq (alive := alive) b1 s.di
    rw [if_neg (by rw [lo1, hl h, hi1]; omega)] at h3
    refine ⟨s1, ?_, ?_, ?_, ?_⟩
    · unfold adopt
      simp only [bind_def, onShared, h1, get_def, m1, h, if_true, h3]
    · rw [v1]; exact h
    · rw [v1]
    · rw [v1, if_pos h2]
  · have h1 := setDimension_eq (alive := alive) hw.bound s.dim
    rw [hw.lo, if_pos h, hw.hi, if_neg (by omega)] at h1
    refine ⟨t.shared, ?_, h, rfl, by rw [if_neg h2]⟩
    unfold adopt
    simp only [bind_def, onShared, h1]

theorem cancelTraining_ok (r : C → C) (t : TrainableModel C K) (hm : t.set.models.Sorted) :
    ∃ M, cancelTraining r t = .ret () { t with set := M } ∧ M.training = false ∧ M.models.Sorted := by
  unfold cancelTraining
  rw [bind_def, get_def]
  simp only
  by_cases h : t.set.training = true
  · obtain ⟨M, h1, h2⟩ := ClassSet.join_ok r (fun _ => true) (p := fun l => (SMap.find? l t.set.models).isSome) hm fun _ => rfl
    refine ⟨M, ?_, h2.idle, h2.sorted⟩
    rw [if_pos h]
    simp only [onSet, h1]
  · exact ⟨t.set, by rw [if_neg h]; rfl, by simpa using h, hm⟩

theorem clear_ok (r : C → C) (t : TrainableModel C K) (hm : t.set.models.Sorted) :
    ∃ M, clear r t = .ret () { t with set := M } ∧ M.training = false ∧ M.models = [] := by
  obtain ⟨M, h1, h2, _⟩ := cancelTraining_ok r t hm
  refine ⟨⟨[], false⟩, ?_, rfl, rfl⟩
  unfold clear
  rw [bind_def, h1]
  simp [onSet, ClassSet.clear, ClassSet.reset, ClassSet.checkTraining, bind_def, modify_def, h2]

/-- the beginning of `train(trainingSet)` -/
theorem train_begins (T : ClassSet.Kind C) {t : TrainableModel C K} (hm : t.set.models.Sorted) {s : SetView} (hs : s.Ok) (ok : String → Bool) :
    train alive me T.fresh T.conf T.trained T.reset s ok t =
      ((do
        adopt alive me s
        onSet (s.labels.foldlM (fun _ l => ClassSet.addModelForClass T.fresh T.conf l) ())
        onSet (Prog.modify fun M => { M with models := M.models.map fun lc => (lc.1, T.trained lc.2) })
        onSet (ClassSet.joinTraining T.reset ok)) : Prog (TrainableModel C K) Unit) { t with set := ⟨[], true⟩ } := by
  unfold train
  rw [if_neg (by simpa using hs.labels)]
  obtain ⟨M, h1, h2, h3⟩ := cancelTraining_ok T.reset t hm
  obtain ⟨M', g1, g2, g3⟩ := clear_ok T.reset { t with set := M } h3
  rw [bind_def, h1]
  simp only
  rw [bind_def, g1]
  simp only
  rw [bind_def]
  simp only [onSet, modify_def, g3]

variable [Field K] [LT K] [DecidableLT K] {realMax : K}

/-- C92 (accepted): a model whose parameters were changed in any way before, in training or not, that is called to train with a training set that fits its modality, adopts the dimensions
    and the column names of the set, has exactly the classes of the set that could be trained, and is ready for use.  Its other parameters are unchanged. -/
theorem C92_train_accepted (T : ClassSet.Kind C) {t : TrainableModel C K} (ht : t.Reached alive me realMax) {s : SetView} (hs : s.Ok) (hf : s.Fits t.shared.values.bimodal)
    (ok : String → Bool) :
    ∃ t', train alive me T.fresh T.conf T.trained T.reset s ok t = .ret () t' ∧ t'.shared.values = s.adoptedBy t.shared.values ∧
      t'.set.Exactly fun l => l ∈ s.labels ∧ ok l = true := by
  obtain ⟨hw, hl⟩ := reached_limits ht.1
  rw [train_begins T ht.2 hs ok]
  obtain ⟨sh, h1, h2⟩ := adopt_fits (alive := alive) (t := { t with set := ⟨[], true⟩ }) hw hl hs hf
  obtain ⟨M2, g1, g2, g3, g4⟩ := ClassSet.adds_ok (M := ⟨[], true⟩) (p := fun _ => false) T.fresh T.conf s.labels SMap.sorted_nil (fun _ => rfl)
  obtain ⟨m1, m2⟩ := ClassSet.mapped_ok (fun lc => (lc.1, T.trained lc.2)) (fun _ => rfl) g3 g4
  obtain ⟨M3, j1, j2⟩ := ClassSet.join_ok (M := { M2 with models := M2.models.map fun lc => (lc.1, T.trained lc.2) }) T.reset ok m1 m2
  refine ⟨⟨M3, sh⟩, ?_, h2, j2.sorted, fun l => ?_, j2.idle⟩
  · rw [bind_def, h1]
    simp only [bind_def, onSet, g1, modify_def, j1]
  · have := j2.has l
    rw [← Option.isSome_iff_exists, this]
    simp

/-- C92 (violated): a bimodal model that is called to train with a training set without input or without output, for example a unimodal one, throws std::domain_error; by then it has lost
    all its classes, it stays in training, so that hasClass, getIndex, reset, and likewise filter and toJson, throw std::runtime_error, and it may have a dimension that is not above its
    input dimension. -/
theorem C92_train_refused_violated (T : ClassSet.Kind C) {t : TrainableModel C K} (ht : t.Reached alive me realMax) {s : SetView} (hs : s.Ok)
    (hf : ¬ s.Fits t.shared.values.bimodal) (ok : String → Bool) :
    ∃ t', train alive me T.fresh T.conf T.trained T.reset s ok t = .throw .domainError t' ∧ t'.set.models = [] ∧ t'.set.training = true ∧
      (∀ l, ClassSet.hasClass l t'.set = .throw .runtimeError t'.set ∧ ClassSet.getIndex l t'.set = .throw .runtimeError t'.set) ∧
      ClassSet.reset T.reset t'.set = .throw .runtimeError t'.set ∧
      t'.shared.values.dimensionInput = t.shared.values.dimensionInput ∧
      t'.shared.values.dimension = if 2 ≤ s.dim then s.dim else t.shared.values.dimension := by
  obtain ⟨hw, hl⟩ := reached_limits ht.1
  rw [train_begins T ht.2 hs ok]
  obtain ⟨sh, h1, h2, h3, h4⟩ := adopt_throws (alive := alive) (t := { t with set := ⟨[], true⟩ }) hw hl hs hf
  refine ⟨⟨⟨[], true⟩, sh⟩, ?_, rfl, rfl, fun l => ⟨?_, ?_⟩, ?_, h3, h4⟩
  · rw [bind_def, h1]
  · exact (ClassSet.C54_queries_partial (M := (⟨[], true⟩ : ClassSet C)) rfl T.reset l).1
  · exact (ClassSet.C54_queries_partial (M := (⟨[], true⟩ : ClassSet C)) rfl T.reset l).2.1
  · exact (ClassSet.C54_queries_partial (M := (⟨[], true⟩ : ClassSet C)) rfl T.reset "").2.2

/-- C92: `cancelTraining()` or `clear()` bring a model that was left in training by an exception back to use; `clear()` removes its classes, `cancelTraining()` none. -/
theorem C92_recovers (r : C → C) {t : TrainableModel C K} (hm : t.set.models.Sorted) :
    (∃ M, cancelTraining r t = .ret () { t with set := M } ∧ M.Exactly fun l => ∃ c, SMap.find? l t.set.models = some c) ∧
    (∃ M, clear r t = .ret () { t with set := M } ∧ M.Exactly fun _ => False) := by
  constructor
  · unfold cancelTraining
    rw [bind_def, get_def]
    simp only
    by_cases h : t.set.training = true
    · obtain ⟨M, h1, h2⟩ := ClassSet.join_ok r (fun _ => true) (p := fun l => (SMap.find? l t.set.models).isSome) hm fun _ => rfl
      refine ⟨M, ?_, h2.sorted, fun l => ?_, h2.idle⟩
      · rw [if_pos h]
        simp only [onSet, h1]
      · rw [← Option.isSome_iff_exists, h2.has l, ← Option.isSome_iff_exists]
        simp
    · exact ⟨t.set, by rw [if_neg h]; rfl, hm, fun _ => Iff.rfl, by simpa using h⟩
  · obtain ⟨M, h1, h2, h3⟩ := clear_ok r t hm
    exact ⟨M, h1, by rw [h3]; exact SMap.sorted_nil, fun l => by simp [h3, SMap.find?], h2⟩

/-- C92 (one class, refused): with an unknown label std::out_of_range is thrown, and for a model with classes, other dimensions than those of the model give std::runtime_error; nothing is
    changed. -/
theorem C92_class_refused (T : ClassSet.Kind C) {t : TrainableModel C K} (ht : t.set.training = false) {s : SetView} (label : String) (ok : Bool) :
    (label ∉ s.labels → trainClass alive me T.fresh T.conf T.trained T.reset s label ok t = .throw .outOfRange t) ∧
    (label ∈ s.labels → t.set.models ≠ [] →
      s.dim ≠ t.shared.values.dimension ∨ (t.shared.values.bimodal = true ∧ s.di ≠ t.shared.values.dimensionInput) →
      trainClass alive me T.fresh T.conf T.trained T.reset s label ok t = .throw .runtimeError t) := by
  constructor
  · intro h
    unfold trainClass
    rw [if_pos h]
    rfl
  · intro h hm hd
    unfold trainClass
    rw [if_neg (by simpa using h), bind_def]
    have hc : cancelClass T.reset label t = .ret () t := by
      unfold cancelClass
      simp [bind_def, get_def, ht, pure_def]
    rw [hc]
    simp only
    rw [bind_def, get_def]
    simp only
    rw [if_pos ⟨List.length_pos_iff.2 hm, hd.imp (fun h => fun h' => h h'.symm) fun h => ⟨h.1, fun h' => h.2 h'.symm⟩⟩]
    rfl

/-- the beginning of `train(trainingSet, label)` -/
theorem trainClass_begins (T : ClassSet.Kind C) {t : TrainableModel C K} (hi : t.set.training = false) {s : SetView} {label : String} (hl : label ∈ s.labels)
    (hd : t.set.models = [] ∨ (s.dim = t.shared.values.dimension ∧ (t.shared.values.bimodal = true → s.di = t.shared.values.dimensionInput))) (ok : Bool) :
    trainClass alive me T.fresh T.conf T.trained T.reset s label ok t =
      ((do
        adopt alive me s
        onSet (ClassSet.addModelForClass T.fresh T.conf label)
        onSet (Prog.modify fun M => { M with models := M.models.map fun lc => if lc.1 = label then (lc.1, T.trained lc.2) else lc })
        onSet (ClassSet.joinTraining T.reset fun l => decide (l ≠ label) || ok)) : Prog (TrainableModel C K) Unit) { t with set := { t.set with training := true } } := by
  unfold trainClass
  rw [if_neg (by simpa using hl), bind_def]
  have hc : cancelClass T.reset label t = .ret () t := by
    unfold cancelClass
    simp [bind_def, get_def, hi, pure_def]
  rw [hc]
  simp only
  rw [bind_def, get_def]
  simp only
  rw [if_neg (by
    rintro ⟨h1, h2⟩
    rcases hd with hd | ⟨h3, h4⟩
    · simp [hd] at h1
    · rcases h2 with h2 | ⟨h2, h5⟩
      · exact h2 h3.symm
      · exact h5 (h4 h2).symm)]
  rw [bind_def]
  simp only [onSet, modify_def]

/-- C92 (one class, accepted): a model without classes that fits the modality, or a model with classes and the dimensions of the set, gets the class of the label if it can be trained and loses it
    otherwise; the other classes stay, the model has the parameters of the set and is ready for use. -/
theorem C92_class_accepted (T : ClassSet.Kind C) {t : TrainableModel C K} (ht : t.Reached alive me realMax) (hi : t.set.training = false) {s : SetView} (hs : s.Ok)
    (hf : s.Fits t.shared.values.bimodal) {label : String} (hl : label ∈ s.labels)
    (hd : t.set.models = [] ∨ (s.dim = t.shared.values.dimension ∧ (t.shared.values.bimodal = true → s.di = t.shared.values.dimensionInput))) (ok : Bool) :
    ∃ t', trainClass alive me T.fresh T.conf T.trained T.reset s label ok t = .ret () t' ∧ t'.shared.values = s.adoptedBy t.shared.values ∧
      t'.set.Exactly fun l => if l = label then ok = true else ∃ c, SMap.find? l t.set.models = some c := by
  obtain ⟨hw, hlim⟩ := reached_limits ht.1
  rw [trainClass_begins T hi hl hd ok]
  obtain ⟨sh, h1, h2⟩ := adopt_fits (alive := alive) (t := { t with set := { t.set with training := true } }) hw hlim hs hf
  obtain ⟨M2, g1, g2, g3, g4⟩ := ClassSet.add_ok (M := { t.set with training := true }) (p := fun l => (SMap.find? l t.set.models).isSome) T.fresh T.conf label ht.2 (fun _ => rfl)
  obtain ⟨m1, m2⟩ := ClassSet.mapped_ok (fun lc => if lc.1 = label then (lc.1, T.trained lc.2) else lc) (fun lc => by split <;> rfl) g3 g4
  obtain ⟨M3, j1, j2⟩ := ClassSet.join_ok (M := { M2 with models := M2.models.map fun lc => if lc.1 = label then (lc.1, T.trained lc.2) else lc }) T.reset
    (fun l' => decide (l' ≠ label) || ok) m1 m2
  refine ⟨⟨M3, sh⟩, ?_, h2, j2.sorted, fun l => ?_, j2.idle⟩
  · rw [bind_def, h1]
    simp only [bind_def, onSet, g1, modify_def]
    rw [j1]
  · rw [← Option.isSome_iff_exists, j2.has l, ← Option.isSome_iff_exists]
    by_cases he : l = label
    · subst he
      simp
    · have he' : ¬ label = l := fun h => he h.symm
      simp [he, he']

/-- C92 (one class, violated): a bimodal model without classes that is called to train one class with a training set without input or without output throws std::domain_error and stays in
    training. -/
theorem C92_class_refused_violated (T : ClassSet.Kind C) {t : TrainableModel C K} (ht : t.Reached alive me realMax) (hi : t.set.training = false) (hm : t.set.models = []) {s : SetView}
    (hs : s.Ok) (hf : ¬ s.Fits t.shared.values.bimodal) {label : String} (hl : label ∈ s.labels) (ok : Bool) :
    ∃ t', trainClass alive me T.fresh T.conf T.trained T.reset s label ok t = .throw .domainError t' ∧ t'.set.models = [] ∧ t'.set.training = true := by
  obtain ⟨hw, hlim⟩ := reached_limits ht.1
  rw [trainClass_begins T hi hl (.inl hm) ok]
  obtain ⟨sh, h1, _⟩ := adopt_throws (alive := alive) (t := { t with set := { t.set with training := true } }) hw hlim hs hf
  refine ⟨⟨{ t.set with training := true }, sh⟩, ?_, hm, rfl⟩
  rw [bind_def, h1]

/-- a bimodal model of dimension 4, with 3 dimensions of input and the classes a and c -/
theorem reached_example : ∃ t : TrainableModel Nat ℚ, t.Reached (fun _ => true) 0 1000 ∧ t.set = ⟨[("a", 0), ("c", 1)], false⟩ ∧ t.shared.values.bimodal = true ∧
    t.shared.values.dimension = 4 ∧ t.shared.values.dimensionInput = 3 := by
  have step : ∀ {s : SharedParams ℚ} (op : SharedSpec.Op ℚ), SharedSpec.After (fun _ => true) 0 SharedSpec.anyCall (SharedParams.fresh 0 1000) s →
      ∀ s', SharedSpec.call (fun _ => true) 0 op s = .ret () s' → SharedSpec.After (fun _ => true) 0 SharedSpec.anyCall (SharedParams.fresh 0 1000) s' :=
    fun op h s' h' => .step h trivial (by rw [h']; rfl)
  have h1 := step (.bimodal true) .start _ (by rfl)
  have h2 := step (.dimension 4) h1 _ (by rfl)
  have h3 := step (.dimensionInput 3) h2 _ (by rfl)
  have hm : SMap.Sorted [("a", 0), ("c", 1)] := by unfold SMap.Sorted; decide
  exact ⟨⟨⟨[("a", 0), ("c", 1)], false⟩, _⟩, ⟨h3, hm⟩, rfl, rfl, rfl, rfl⟩

def twoClasses : ClassSet.Kind Nat := ⟨fun _ => 0, fun _ c => c, fun c => c + 1, fun c => c⟩

/-- C92, in one case: that model, called with a training set of two input and one output columns and the classes a and b, of which b cannot be trained, has the class a only and the dimensions
    3 and 2; called with a unimodal set of two columns it throws, has no class left, stays in training, and has the dimension 2 with 3 dimensions of input. -/
theorem C92_example : ∃ t : TrainableModel Nat ℚ, t.Reached (fun _ => true) 0 1000 ∧
    (∃ t', train (fun _ => true) 0 twoClasses.fresh twoClasses.conf twoClasses.trained twoClasses.reset ⟨["a", "b"], 3, 2, ["x", "y", "z"]⟩ (fun l => l = "a") t = .ret () t' ∧
      (∀ l, (∃ c, SMap.find? l t'.set.models = some c) ↔ l = "a") ∧ t'.set.training = false ∧ t'.shared.values.dimension = 3 ∧ t'.shared.values.dimensionInput = 2) ∧
    ∃ t', train (fun _ => true) 0 twoClasses.fresh twoClasses.conf twoClasses.trained twoClasses.reset ⟨["a"], 2, 0, ["x", "y"]⟩ (fun _ => true) t = .throw .domainError t' ∧
      t'.set.models = [] ∧ t'.set.training = true ∧ t'.shared.values.dimension = 2 ∧ t'.shared.values.dimensionInput = 3 := by
  obtain ⟨t, ht, hs, hb, hd, hi⟩ := reached_example
  refine ⟨t, ht, ?_, ?_⟩
  · obtain ⟨t', h1, h2, h3⟩ := C92_train_accepted twoClasses ht (s := ⟨["a", "b"], 3, 2, ["x", "y", "z"]⟩) ⟨by simp, by decide, by decide, rfl⟩ (fun _ => by decide) (fun l => l = "a")
    refine ⟨t', h1, fun l => ?_, h3.idle, by rw [h2]; rfl, by rw [h2]; simp [SetView.adoptedBy, hb]⟩
    rw [h3.has]
    simp only [List.mem_cons, List.not_mem_nil, or_false, decide_eq_true_eq]
    exact ⟨fun h => h.2, fun h => ⟨.inl h, h⟩⟩
  · obtain ⟨t', h1, h2, h3, _, _, h4, h5⟩ := C92_train_refused_violated twoClasses ht (s := ⟨["a"], 2, 0, ["x", "y"]⟩) ⟨by simp, by decide, by decide, rfl⟩
      (by rw [hb]; intro h; exact absurd (h rfl).1 (by decide)) (fun _ => true)
    exact ⟨t', h1, h2, h3, h5, h4.trans hi⟩

/-- the hypotheses of the theorems about one class are met by the same model: with the dimensions 4 and 3 the class b is added; without classes a unimodal set is refused too late -/
example : ∃ t : TrainableModel Nat ℚ, t.Reached (fun _ => true) 0 1000 ∧
    (∃ t', trainClass (fun _ => true) 0 twoClasses.fresh twoClasses.conf twoClasses.trained twoClasses.reset ⟨["a", "b"], 4, 3, ["w", "x", "y", "z"]⟩ "b" true t = .ret () t' ∧
      ∀ l, (∃ c, SMap.find? l t'.set.models = some c) ↔ l = "a" ∨ l = "b" ∨ l = "c") ∧
    trainClass (fun _ => true) 0 twoClasses.fresh twoClasses.conf twoClasses.trained twoClasses.reset ⟨["a", "b"], 4, 2, ["w", "x", "y", "z"]⟩ "b" true t = .throw .runtimeError t ∧
    ∃ t', trainClass (fun _ => true) 0 twoClasses.fresh twoClasses.conf twoClasses.trained twoClasses.reset ⟨["a"], 1, 0, ["x"]⟩ "a" true { t with set := ⟨[], false⟩ } =
      .throw .domainError t' ∧ t'.set.training = true := by
  obtain ⟨t, ht, hs, hb, hd, hi⟩ := reached_example
  refine ⟨t, ht, ?_, ?_, ?_⟩
  · obtain ⟨t', h1, _, h3⟩ := C92_class_accepted twoClasses ht (by rw [hs]) (s := ⟨["a", "b"], 4, 3, ["w", "x", "y", "z"]⟩) ⟨by simp, by decide, by decide, rfl⟩
      (fun _ => by decide) (label := "b") (by simp) (.inr ⟨hd.symm, fun _ => hi.symm⟩) true
    refine ⟨t', h1, fun l => ?_⟩
    rw [h3.has, hs]
    by_cases h : l = "b"
    · simp [h]
    · have e1 : ("a" = l) = (l = "a") := propext ⟨Eq.symm, Eq.symm⟩
      have e2 : ("c" = l) = (l = "c") := propext ⟨Eq.symm, Eq.symm⟩
      by_cases h1 : l = "a"
      · simp [h1, SMap.find?]
      · by_cases h2 : l = "c"
        · simp [h2, SMap.find?]
        · simp [h, h1, h2, SMap.find?, e1, e2]
  · exact (C92_class_refused twoClasses (by rw [hs]) "b" true).2 (by simp) (by rw [hs]; simp) (.inr ⟨hb, by rw [hi]; decide⟩)
  · obtain ⟨t', h1, _, h3⟩ := C92_class_refused_violated twoClasses (t := { t with set := ⟨[], false⟩ }) ⟨ht.1, SMap.sorted_nil⟩ rfl rfl (s := ⟨["a"], 1, 0, ["x"]⟩)
      ⟨by simp, by decide, by decide, rfl⟩ (by rw [hb]; intro h; exact absurd (h rfl).1 (by decide)) (label := "a") (by simp) true
    exact ⟨t', h1, h3⟩

end TrainableModel
end Xmm
