import Verif.Spec.Configuration
import Verif.Spec.ClassSet
import Verif.Lemmas.StdMap
import Verif.Props.ClassParams
import Verif.Props.ClassSet
/-
C28: what a configuration means after every history of calls, and the parameters used by the training.
-/
namespace Xmm
open Prog (bind_def pure_def get_def set_def modify_def throw_def)

/-- What is needed of a type of class parameters: `sim` says which parameters an assignment transfers, `Good id p` that `p` is an object `id` with the documented limits and
    its own callbacks. -/
structure ParamLaws {P V E : Type} (T : ParamType P) (val : P → V) (run : Nat → E → Prog P Unit) (apply : E → V → V) (sim : V → V → Prop) (Good : Nat → P → Prop) : Prop where
  fresh : ∀ id, Good id (T.fresh id)
  assign : ∀ {id a src} dst, Good a src → Good id (T.assignFrom id src dst) ∧ sim (val (T.assignFrom id src dst)) (val src)
  copy : ∀ {id a src}, Good a src → Good id (T.copy id src) ∧ val (T.copy id src) = val src
  run : ∀ {id p}, Good id p → ∀ e, ∃ p', (run id e p).stateAfter = some p' ∧ Good id p' ∧ val p' = apply e (val p)
  refl : ∀ v, sim v v
  trans : ∀ {u v w}, sim u v → sim v w → sim u w
  apply : ∀ e {v w}, sim v w → sim (apply e v) (apply e w)

namespace Configuration
variable {P V E : Type} {T : ParamType P} {val : P → V} {run : Nat → E → Prog P Unit} {apply : E → V → V} {sim : V → V → Prop} {Good : Nat → P → Prop}
  {me : Nat} {slot : String → Nat}

/-- the configuration `c` means `s` -/
structure Means (val : P → V) (sim : V → V → Prop) (Good : Nat → P → Prop) (me : Nat) (slot : String → Nat) (c : Configuration P) (s : ConfigSpec V) : Prop where
  sorted : c.classParams.Sorted
  goodBase : Good me c.base
  base : val c.base = s.default
  none : ∀ l, SMap.find? l c.classParams = .none → s.own l = .none
  some : ∀ l p, SMap.find? l c.classParams = .some p → Good (slot l) p ∧ ∃ v, s.own l = .some v ∧ sim (val p) v

/-- giving a label its own parameters -/
theorem Means.give (L : ParamLaws T val run apply sim Good) {c : Configuration P} {s : ConfigSpec V} (h : Means val sim Good me slot c s) {l : String} {p : P} {v : V}
    (hp : Good (slot l) p) (hv : sim (val p) v) :
    Means val sim Good me slot { c with classParams := SMap.assign l p c.classParams } (s.give l v) := by
  refine ⟨h.sorted.assign, h.goodBase, h.base, fun l' hn => ?_, fun l' p' hs => ?_⟩
  · rw [SMap.find?_assign] at hn
    by_cases he : l' = l
    · simp [he] at hn
    · rw [if_neg he] at hn
      simp [ConfigSpec.give, he, h.none l' hn]
  · rw [SMap.find?_assign] at hs
    by_cases he : l' = l
    · subst he
      simp only [if_pos, Option.some.injEq] at hs
      subst hs
      exact ⟨hp, v, by simp [ConfigSpec.give], hv⟩
    · rw [if_neg he] at hs
      obtain ⟨h1, w, h2, h3⟩ := h.some l' p' hs
      exact ⟨h1, w, by simp [ConfigSpec.give, he, h2], h3⟩

/-- `configuration[l]` -/
theorem Means.index (L : ParamLaws T val run apply sim Good) {c : Configuration P} {s : ConfigSpec V} (h : Means val sim Good me slot c s) (l : String) :
    ∃ p c', index T slot l c = .ret p c' ∧ Good (slot l) p ∧ sim (val p) (s.effective l) ∧ Means val sim Good me slot c' (s.give l (s.effective l)) ∧
      SMap.find? l c'.classParams = .some p := by
  cases hf : SMap.find? l c.classParams with
  | some p =>
    obtain ⟨h1, v, h2, h3⟩ := h.some l p hf
    have he : s.effective l = v := by simp [ConfigSpec.effective, h2]
    refine ⟨p, c, by simp [Configuration.index, hf], h1, by rw [he]; exact h3, ?_, hf⟩
    have : s.give l v = s := by
      have : (fun l' => if l' = l then .some v else s.own l') = s.own := by
        funext l'
        by_cases hl : l' = l
        · rw [if_pos hl, hl, h2]
        · rw [if_neg hl]
      rw [ConfigSpec.give, this]
    rw [he, this]
    exact h
  | none =>
    have he : s.effective l = val c.base := by simp [ConfigSpec.effective, h.none l hf, h.base]
    obtain ⟨h1, h2⟩ := L.assign (id := slot l) (T.fresh (slot l)) h.goodBase
    rw [he]
    exact ⟨_, _, by simp [Configuration.index, hf], h1, h2, h.give L h1 h2, by simp [SMap.find?_assign]⟩

/-- one call -/
theorem Means.call (L : ParamLaws T val run apply sim Good) {c : Configuration P} {s : ConfigSpec V} (h : Means val sim Good me slot c s) (op : ConfigOp E) :
    ∃ c', (Configuration.call T me slot run op c).stateAfter = .some c' ∧ Means val sim Good me slot c' (s.step apply op) := by
  cases op with
  | default e =>
    obtain ⟨p', h1, h2, h3⟩ := L.run h.goodBase e
    refine ⟨{ c with base := p' }, ?_, h.sorted, h2, by rw [h3, h.base]; rfl, h.none, h.some⟩
    simp only [Configuration.call, editDefault]
    cases hr : run me e c.base with
    | ret a q => rw [hr] at h1; simp only [Res.stateAfter, Option.some.injEq] at h1; subst h1; rfl
    | throw x q => rw [hr] at h1; simp only [Res.stateAfter, Option.some.injEq] at h1; subst h1; rfl
    | ub => rw [hr] at h1; simp [Res.stateAfter] at h1
  | label l e =>
    obtain ⟨p, c1, i1, i2, i3, i4, i5⟩ := h.index L l
    obtain ⟨p', h1, h2, h3⟩ := L.run i2 e
    refine ⟨{ c1 with classParams := SMap.assign l p' c1.classParams }, ?_, ?_⟩
    · rw [Configuration.call, edit, bind_of_ret i1]
      unfold within
      cases hr : run (slot l) e p with
      | ret a q => rw [hr] at h1; simp only [Res.stateAfter, Option.some.injEq] at h1; subst h1; rfl
      | throw x q => rw [hr] at h1; simp only [Res.stateAfter, Option.some.injEq] at h1; subst h1; rfl
      | ub => rw [hr] at h1; simp [Res.stateAfter] at h1
    · have hg := i4.give L h2 (v := apply e (s.effective l)) (by rw [h3]; exact L.apply e i3)
      have : (s.give l (s.effective l)).give l (apply e (s.effective l)) = s.step apply (.label l e) := by
        simp only [ConfigSpec.give, ConfigSpec.step, ConfigSpec.mk.injEq, true_and]
        funext l'
        by_cases hl : l' = l <;> simp [hl]
      rw [← this]
      exact hg
  | access l =>
    obtain ⟨p, c1, i1, i2, i3, i4, i5⟩ := h.index L l
    exact ⟨c1, by simp [Configuration.call, bind_def, i1, pure_def, Res.stateAfter], i4⟩
  | reset =>
    exact ⟨{ c with classParams := [] }, rfl, SMap.sorted_nil, h.goodBase, h.base, fun _ _ => rfl, fun l p hp => by simp [SMap.find?] at hp⟩
  | resetLabel l =>
    cases hf : SMap.find? l c.classParams with
    | none =>
      refine ⟨c, by simp [Configuration.call, resetLabel, hf, Res.stateAfter], h.sorted, h.goodBase, h.base, fun l' hl => ?_, fun l' p hl => ?_⟩
      · show (if l' = l then .none else s.own l') = _
        by_cases he : l' = l <;> simp [he, h.none l' hl]
      · have he : l' ≠ l := by rintro rfl; rw [hf] at hl; cases hl
        obtain ⟨h1, v, h2, h3⟩ := h.some l' p hl
        exact ⟨h1, v, by simp [ConfigSpec.step, he, h2], h3⟩
    | some q =>
      refine ⟨{ c with classParams := SMap.erase l c.classParams }, by simp [Configuration.call, resetLabel, hf, Res.stateAfter], h.sorted.erase, h.goodBase, h.base,
        fun l' hl => ?_, fun l' p hl => ?_⟩
      · show (if l' = l then .none else s.own l') = _
        by_cases he : l' = l
        · rw [if_pos he]
        · rw [SMap.find?_erase h.sorted, if_neg he] at hl
          rw [if_neg he, h.none l' hl]
      · rw [SMap.find?_erase h.sorted] at hl
        by_cases he : l' = l
        · simp [he] at hl
        · rw [if_neg he] at hl
          obtain ⟨h1, v, h2, h3⟩ := h.some l' p hl
          exact ⟨h1, v, by simp [ConfigSpec.step, he, h2], h3⟩

theorem Means.history (L : ParamLaws T val run apply sim Good) : ∀ (ops : List (ConfigOp E)) {c : Configuration P} {s : ConfigSpec V}, Means val sim Good me slot c s →
    ∃ c', Configuration.history T me slot run ops c = .some c' ∧ Means val sim Good me slot c' (ops.foldl (ConfigSpec.step apply) s)
  | [], c, s, h => ⟨c, rfl, h⟩
  | op :: ops, c, s, h => by
    obtain ⟨c1, h1, h2⟩ := h.call L op
    obtain ⟨c', g1, g2⟩ := Means.history L ops h2
    exact ⟨c', by simp [Configuration.history, h1, g1], g2⟩

theorem Means.fresh (L : ParamLaws T val run apply sim Good) : Means val sim Good me slot (fresh T me) ⟨val (T.fresh me), fun _ => Option.none⟩ :=
  ⟨SMap.sorted_nil, L.fresh me, rfl, fun _ _ => rfl, fun l p hp => by simp [Configuration.fresh, SMap.find?] at hp⟩

theorem Means.paramsFor (L : ParamLaws T val run apply sim Good) {c : Configuration P} {s : ConfigSpec V} (h : Means val sim Good me slot c s) (l : String) :
    (∃ id, Good id (paramsFor l c)) ∧ sim (val (paramsFor l c)) (s.effective l) := by
  unfold Configuration.paramsFor
  cases hf : SMap.find? l c.classParams with
  | none =>
    have he : s.effective l = val c.base := by simp [ConfigSpec.effective, h.none l hf, h.base]
    exact ⟨⟨me, h.goodBase⟩, by rw [he]; exact L.refl _⟩
  | some p =>
    obtain ⟨h1, v, h2, h3⟩ := h.some l p hf
    exact ⟨⟨_, h1⟩, by simpa [ConfigSpec.effective, h2] using h3⟩

theorem Means.includes {c : Configuration P} {s : ConfigSpec V} (h : Means val sim Good me slot c s) (l : String) :
    includes l c = .ret (s.own l).isSome c := by
  unfold Configuration.includes
  cases hf : SMap.find? l c.classParams with
  | none => rw [h.none l hf]; rfl
  | some p =>
    obtain ⟨-, v, h2, -⟩ := h.some l p hf
    rw [h2]; rfl

theorem find?_copyMap (l : String) : ∀ m : SMap String P, SMap.find? l (copyMap T slot m) = (SMap.find? l m).map (T.copy (slot l))
  | [] => rfl
  | (k, p) :: m => by
    simp only [copyMap, List.map_cons, SMap.find?]
    by_cases h : l = k
    · subst h; simp
    · simp only [h, if_false]; exact find?_copyMap l m

theorem sorted_copyMap {m : SMap String P} (h : m.Sorted) : SMap.Sorted (copyMap T slot m) :=
  ClassSet.sorted_of_keys h (by simp [copyMap, List.map_map])

/-- copying a configuration: the copy (another object, with other class parameter objects) means the same -/
theorem Means.copy (L : ParamLaws T val run apply sim Good) {c : Configuration P} {s : ConfigSpec V} (h : Means val sim Good me slot c s) (me' : Nat) (slot' : String → Nat) :
    Means val sim Good me' slot' (copy T me' slot' c) s := by
  refine ⟨sorted_copyMap h.sorted, (L.copy h.goodBase).1, (L.copy h.goodBase).2.trans h.base, fun l hl => ?_, fun l p hl => ?_⟩
  · rw [Configuration.copy, find?_copyMap, Option.map_eq_none_iff] at hl
    exact h.none l hl
  · rw [Configuration.copy, find?_copyMap, Option.map_eq_some_iff] at hl
    obtain ⟨q, hq, rfl⟩ := hl
    obtain ⟨h1, v, h2, h3⟩ := h.some l q hq
    exact ⟨(L.copy h1).1, v, h2, by rw [(L.copy h1).2]; exact h3⟩

/-- assigning a configuration, if the assignment of parameters transfers all of them -/
theorem Means.assignFrom (L : ParamLaws T val run apply sim Good) (hsim : ∀ {v w}, sim v w → v = w) {c : Configuration P} {s : ConfigSpec V}
    (h : Means val sim Good me slot c s) (me' : Nat) (slot' : String → Nat) (dst : Configuration P) :
    Means val sim Good me' slot' (assignFrom T me' slot' c dst) s := by
  obtain ⟨a1, a2⟩ := L.assign (id := me') dst.base h.goodBase
  refine ⟨sorted_copyMap h.sorted, a1, (hsim a2).trans h.base, fun l hl => ?_, fun l p hl => ?_⟩
  · rw [Configuration.assignFrom, find?_copyMap, Option.map_eq_none_iff] at hl
    exact h.none l hl
  · rw [Configuration.assignFrom, find?_copyMap, Option.map_eq_some_iff] at hl
    obtain ⟨q, hq, rfl⟩ := hl
    obtain ⟨h1, v, h2, h3⟩ := h.some l q hq
    exact ⟨(L.copy h1).1, v, h2, by rw [(L.copy h1).2]; exact h3⟩

end Configuration

/-! ### The two types of models -/

section
variable {K : Type} [Field K] [LinearOrder K] (tiny realMax : K)

/-- a parameter object `id` with the documented limits and its own callbacks -/
def GmmAttrs.Good (id : Nat) (p : GmmAttrs K) : Prop := p.Own id ∧ p.Limits tiny realMax
@[inherit_doc GmmAttrs.Good]
def HmmAttrs.Good (id : Nat) (p : HmmAttrs K) : Prop := p.Own id ∧ p.Limits tiny realMax

theorem stateAfter_ite {σ : Type} {c : Prop} [Decidable c] {a b : σ} {e : Exn} :
    (if c then (.ret () a : Res σ Unit) else .throw e b).stateAfter = some (if c then a else b) := by
  by_cases h : c <;> simp [h, Res.stateAfter]

theorem GmmAttrs.laws : ParamLaws (GmmAttrs.type tiny realMax) GmmAttrs.values GmmEdit.run (GmmEdit.apply tiny realMax) Eq (GmmAttrs.Good tiny realMax) where
  fresh id := ⟨⟨rfl, rfl, rfl, rfl⟩, ⟨rfl, rfl⟩, ⟨rfl, rfl⟩, ⟨rfl, rfl⟩, ⟨rfl, rfl⟩⟩
  assign _ h := ⟨⟨⟨rfl, rfl, rfl, rfl⟩, h.2⟩, rfl⟩
  copy h := ⟨⟨⟨rfl, rfl, rfl, rfl⟩, h.2⟩, rfl⟩
  run {id p} h e := by
    obtain ⟨⟨o1, o2, o3, o4⟩, l1, l2, l3, l4⟩ := h
    cases e with
    | gaussians n =>
      refine ⟨_, by rw [GmmEdit.run, setGaussians_eq o1, stateAfter_ite, l1.1, l1.2], ?_⟩
      by_cases hc : 1 ≤ n ∧ n ≤ uintMax
      · simp only [hc, and_self, if_true]
        exact ⟨⟨⟨o1, o2, o3, o4⟩, l1, l2, l3, l4⟩, by simp [GmmEdit.apply, Count, hc, GmmAttrs.values]⟩
      · simp only [hc, if_false]
        exact ⟨⟨⟨o1, o2, o3, o4⟩, l1, l2, l3, l4⟩, by simp [GmmEdit.apply, Count, hc]⟩
    | relReg x =>
      refine ⟨_, by rw [GmmEdit.run, setRelReg_eq o2, stateAfter_ite, l2.1, l2.2], ?_⟩
      by_cases hc : tiny ≤ x ∧ x ≤ realMax
      · simp only [hc, and_self, if_true]
        exact ⟨⟨⟨o1, o2, o3, o4⟩, l1, l2, l3, l4⟩, by simp [GmmEdit.apply, Regularization, hc, GmmAttrs.values]⟩
      · simp only [hc, if_false]
        exact ⟨⟨⟨o1, o2, o3, o4⟩, l1, l2, l3, l4⟩, by simp [GmmEdit.apply, Regularization, hc]⟩
    | absReg x =>
      refine ⟨_, by rw [GmmEdit.run, setAbsReg_eq o3, stateAfter_ite, l3.1, l3.2], ?_⟩
      by_cases hc : tiny ≤ x ∧ x ≤ realMax
      · simp only [hc, and_self, if_true]
        exact ⟨⟨⟨o1, o2, o3, o4⟩, l1, l2, l3, l4⟩, by simp [GmmEdit.apply, Regularization, hc, GmmAttrs.values]⟩
      · simp only [hc, if_false]
        exact ⟨⟨⟨o1, o2, o3, o4⟩, l1, l2, l3, l4⟩, by simp [GmmEdit.apply, Regularization, hc]⟩
    | covMode m =>
      refine ⟨_, by rw [GmmEdit.run, setCovMode_eq o4, stateAfter_ite, l4.1, l4.2], ?_⟩
      by_cases hc : 0 ≤ m ∧ m ≤ 1
      · simp only [hc, and_self, if_true]
        exact ⟨⟨⟨o1, o2, o3, o4⟩, l1, l2, l3, l4⟩, by simp [GmmEdit.apply, hc, GmmAttrs.values]⟩
      · simp only [hc, if_false]
        exact ⟨⟨⟨o1, o2, o3, o4⟩, l1, l2, l3, l4⟩, by simp [GmmEdit.apply, hc]⟩
  refl _ := rfl
  trans h g := h.trans g
  apply e v w h := by rw [h]

/-- the same parameters, except perhaps `hierarchical` -/
def HmmValues.Same (v w : HmmValues K) : Prop := v = { w with hierarchical := v.hierarchical }

theorem HmmAttrs.laws : ParamLaws (HmmAttrs.type tiny realMax) HmmAttrs.values HmmEdit.run (HmmEdit.apply tiny realMax) HmmValues.Same (HmmAttrs.Good tiny realMax) where
  fresh id := ⟨⟨rfl, rfl, rfl, rfl, rfl, rfl, rfl, rfl⟩, ⟨rfl, rfl⟩, ⟨rfl, rfl⟩, ⟨rfl, rfl⟩, ⟨rfl, rfl⟩, ⟨rfl, rfl⟩, ⟨rfl, rfl⟩, ⟨rfl, rfl⟩⟩
  assign _ h := ⟨⟨⟨rfl, rfl, rfl, rfl, rfl, rfl, rfl, rfl⟩, h.2⟩, rfl⟩
  copy h := ⟨⟨⟨rfl, rfl, rfl, rfl, rfl, rfl, rfl, rfl⟩, h.2⟩, rfl⟩
  run {id p} h e := by
    obtain ⟨⟨o0, o1, o2, o3, o4, o5, o6, o7⟩, l0, l1, l2, l3, l4, l5, l6⟩ := h
    cases e with
    | states n =>
      refine ⟨_, by rw [HmmEdit.run, setStates_eq o0, stateAfter_ite, l0.1, l0.2], ?_⟩
      by_cases hc : 1 ≤ n ∧ n ≤ uintMax
      · simp only [hc, and_self, if_true]
        exact ⟨⟨⟨o0, o1, o2, o3, o4, o5, o6, o7⟩, l0, l1, l2, l3, l4, l5, l6⟩, by simp [HmmEdit.apply, Count, hc, HmmAttrs.values]⟩
      · simp only [hc, if_false]
        exact ⟨⟨⟨o0, o1, o2, o3, o4, o5, o6, o7⟩, l0, l1, l2, l3, l4, l5, l6⟩, by simp [HmmEdit.apply, Count, hc]⟩
    | gaussians n =>
      refine ⟨_, by rw [HmmEdit.run, setGaussians_eq o1, stateAfter_ite, l1.1, l1.2], ?_⟩
      by_cases hc : 1 ≤ n ∧ n ≤ uintMax
      · simp only [hc, and_self, if_true]
        exact ⟨⟨⟨o0, o1, o2, o3, o4, o5, o6, o7⟩, l0, l1, l2, l3, l4, l5, l6⟩, by simp [HmmEdit.apply, Count, hc, HmmAttrs.values]⟩
      · simp only [hc, if_false]
        exact ⟨⟨⟨o0, o1, o2, o3, o4, o5, o6, o7⟩, l0, l1, l2, l3, l4, l5, l6⟩, by simp [HmmEdit.apply, Count, hc]⟩
    | relReg x =>
      refine ⟨_, by rw [HmmEdit.run, setRelReg_eq o2, stateAfter_ite, l2.1, l2.2], ?_⟩
      by_cases hc : tiny ≤ x ∧ x ≤ realMax
      · simp only [hc, and_self, if_true]
        exact ⟨⟨⟨o0, o1, o2, o3, o4, o5, o6, o7⟩, l0, l1, l2, l3, l4, l5, l6⟩, by simp [HmmEdit.apply, Regularization, hc, HmmAttrs.values]⟩
      · simp only [hc, if_false]
        exact ⟨⟨⟨o0, o1, o2, o3, o4, o5, o6, o7⟩, l0, l1, l2, l3, l4, l5, l6⟩, by simp [HmmEdit.apply, Regularization, hc]⟩
    | absReg x =>
      refine ⟨_, by rw [HmmEdit.run, setAbsReg_eq o3, stateAfter_ite, l3.1, l3.2], ?_⟩
      by_cases hc : tiny ≤ x ∧ x ≤ realMax
      · simp only [hc, and_self, if_true]
        exact ⟨⟨⟨o0, o1, o2, o3, o4, o5, o6, o7⟩, l0, l1, l2, l3, l4, l5, l6⟩, by simp [HmmEdit.apply, Regularization, hc, HmmAttrs.values]⟩
      · simp only [hc, if_false]
        exact ⟨⟨⟨o0, o1, o2, o3, o4, o5, o6, o7⟩, l0, l1, l2, l3, l4, l5, l6⟩, by simp [HmmEdit.apply, Regularization, hc]⟩
    | covMode m =>
      refine ⟨_, by rw [HmmEdit.run, setCovMode_eq o4, stateAfter_ite, l4.1, l4.2], ?_⟩
      by_cases hc : 0 ≤ m ∧ m ≤ 1
      · simp only [hc, and_self, if_true]
        exact ⟨⟨⟨o0, o1, o2, o3, o4, o5, o6, o7⟩, l0, l1, l2, l3, l4, l5, l6⟩, by simp [HmmEdit.apply, hc, HmmAttrs.values]⟩
      · simp only [hc, if_false]
        exact ⟨⟨⟨o0, o1, o2, o3, o4, o5, o6, o7⟩, l0, l1, l2, l3, l4, l5, l6⟩, by simp [HmmEdit.apply, hc]⟩
    | transMode m =>
      refine ⟨_, by rw [HmmEdit.run, setTransMode_eq o5, stateAfter_ite, l5.1, l5.2], ?_⟩
      by_cases hc : 0 ≤ m ∧ m ≤ 1
      · simp only [hc, and_self, if_true]
        exact ⟨⟨⟨o0, o1, o2, o3, o4, o5, o6, o7⟩, l0, l1, l2, l3, l4, l5, l6⟩, by simp [HmmEdit.apply, hc, HmmAttrs.values]⟩
      · simp only [hc, if_false]
        exact ⟨⟨⟨o0, o1, o2, o3, o4, o5, o6, o7⟩, l0, l1, l2, l3, l4, l5, l6⟩, by simp [HmmEdit.apply, hc]⟩
    | regEstimator m =>
      refine ⟨_, by rw [HmmEdit.run, setRegEstimator_eq o6, stateAfter_ite, l6.1, l6.2], ?_⟩
      by_cases hc : 0 ≤ m ∧ m ≤ 2
      · simp only [hc, and_self, if_true]
        exact ⟨⟨⟨o0, o1, o2, o3, o4, o5, o6, o7⟩, l0, l1, l2, l3, l4, l5, l6⟩, by simp [HmmEdit.apply, hc, HmmAttrs.values]⟩
      · simp only [hc, if_false]
        exact ⟨⟨⟨o0, o1, o2, o3, o4, o5, o6, o7⟩, l0, l1, l2, l3, l4, l5, l6⟩, by simp [HmmEdit.apply, hc]⟩
    | hierarchical b =>
      refine ⟨_, by rw [HmmEdit.run, setHierarchical_eq o7, Res.stateAfter], ?_⟩
      exact ⟨⟨⟨o0, o1, o2, o3, o4, o5, o6, o7⟩, l0, l1, l2, l3, l4, l5, l6⟩, by simp [HmmEdit.apply, HmmAttrs.values]⟩
  refl _ := rfl
  trans {u v w} h g := by
    obtain ⟨u1, u2, u3, u4, u5, u6, u7, u8⟩ := u
    obtain ⟨v1, v2, v3, v4, v5, v6, v7, v8⟩ := v
    simp only [HmmValues.Same, HmmValues.mk.injEq] at *
    exact ⟨h.1.trans g.1, h.2.1.trans g.2.1, h.2.2.1.trans g.2.2.1, h.2.2.2.1.trans g.2.2.2.1, h.2.2.2.2.1.trans g.2.2.2.2.1,
      h.2.2.2.2.2.1.trans g.2.2.2.2.2.1, h.2.2.2.2.2.2.1.trans g.2.2.2.2.2.2.1, trivial⟩
  apply e {v w} h := by
    obtain ⟨v1, v2, v3, v4, v5, v6, v7, v8⟩ := v
    obtain ⟨w1, w2, w3, w4, w5, w6, w7, w8⟩ := w
    simp only [HmmValues.Same, HmmValues.mk.injEq] at h
    obtain ⟨rfl, rfl, rfl, rfl, rfl, rfl, rfl, -⟩ := h
    cases e <;> simp only [HmmEdit.apply, HmmValues.Same] <;> split <;> rfl
end

namespace ClassSet
variable {C : Type}

theorem find?_add (fresh : String → C) (conf : String → C → C) (l : String) (M : ClassSet C) :
    ∃ M', addModelForClass fresh conf l M = .ret () M' ∧ M'.training = M.training ∧ (M.models.Sorted → M'.models.Sorted) ∧ (∃ y, SMap.find? l M'.models = some (conf l y)) ∧
      ∀ l', l' ≠ l → SMap.find? l' M'.models = SMap.find? l' M.models := by
  have hi : ∃ c, SMap.find? l (SMap.insertNew l (fresh l) M.models) = some c := by
    rw [SMap.find?_insertNew]
    cases SMap.find? l M.models <;> simp
  obtain ⟨c, hc⟩ := hi
  refine ⟨{ M with models := SMap.assign l (conf l c) (SMap.insertNew l (fresh l) M.models) }, by simp [addModelForClass, modify_def, hc], rfl, fun hs => hs.insertNew.assign,
    ⟨c, by simp [SMap.find?_assign]⟩, fun l' hl => ?_⟩
  show SMap.find? l' (SMap.assign l (conf l c) (SMap.insertNew l (fresh l) M.models)) = _
  rw [SMap.find?_assign, if_neg hl, SMap.find?_insertNew]
  cases SMap.find? l' M.models <;> simp [hl]

theorem find?_adds (fresh : String → C) (conf : String → C → C) : ∀ (ls : List String) (M : ClassSet C),
    ∃ M', (ls.foldlM (fun _ l => addModelForClass fresh conf l) () : Prog (ClassSet C) Unit) M = .ret () M' ∧ M'.training = M.training ∧ (M.models.Sorted → M'.models.Sorted) ∧
      (∀ l ∈ ls, ∃ y, SMap.find? l M'.models = some (conf l y)) ∧ ∀ l, l ∉ ls → SMap.find? l M'.models = SMap.find? l M.models
  | [], M => ⟨M, by simp [pure_def], rfl, id, fun l hl => by simp at hl, fun l _ => rfl⟩
  | l :: ls, M => by
    obtain ⟨M1, h1, h2, h3, h4, h5⟩ := find?_add fresh conf l M
    obtain ⟨M', g1, g2, g3, g4, g5⟩ := find?_adds fresh conf ls M1
    refine ⟨M', ?_, g2.trans h2, fun hs => g3 (h3 hs), fun l' hl => ?_, fun l' hl => ?_⟩
    · rw [List.foldlM_cons, bind_def, h1]
      exact g1
    · by_cases hm : l' ∈ ls
      · exact g4 l' hm
      · obtain rfl : l' = l := (List.mem_cons.1 hl).resolve_right hm
        rw [g5 _ hm]
        exact h4
    · rw [List.mem_cons, not_or] at hl
      rw [g5 l' hl.2, h5 l' hl.1]

theorem find?_mapped {C' : Type} (f : String → C → C') (l : String) : ∀ m : SMap String C, SMap.find? l (m.map fun lc => (lc.1, f lc.1 lc.2)) = (SMap.find? l m).map (f l)
  | [] => rfl
  | (k, c) :: m => by
    simp only [List.map_cons, SMap.find?]
    by_cases h : l = k
    · subst h; simp
    · simp only [h, if_false]; exact find?_mapped f l m

theorem find?_filtered {m : SMap String C} (hs : m.Sorted) (ok : String → Bool) {l : String} {c : C} (h : SMap.find? l (m.filter fun lc => ok lc.1) = some c) :
    SMap.find? l m = some c := by
  have hs' : SMap.Sorted (m.filter fun lc => ok lc.1) := List.Pairwise.filter _ hs
  rw [← SMap.mem_iff_find? hs'] at h
  rw [← SMap.mem_iff_find? hs]
  exact List.mem_of_mem_filter h

/-- every class left by `train` was configured, then trained and reset -/
theorem train_classes (T : Kind C) (ls : List String) (hls : ls ≠ []) (ok : String → Bool) {M : ClassSet C} (hm : M.training = false) :
    ∃ M', train T.fresh T.conf T.trained T.reset ls ok M = .ret () M' ∧
      ∀ l c, SMap.find? l M'.models = some c → ∃ y, c = T.reset (T.trained (T.conf l y)) := by
  obtain ⟨M2, g1, g2, g3, g4, g5⟩ := find?_adds T.fresh T.conf ls (⟨[], true⟩ : ClassSet C)
  refine ⟨⟨(((M2.models.map fun lc => (lc.1, T.trained lc.2)).filter fun lc => ok lc.1).map fun lc => (lc.1, T.reset lc.2)), false⟩, ?_, fun l c hc => ?_⟩
  · have he : ls.isEmpty = false := by simpa using hls
    unfold train
    rw [he]
    simp [bind_def, clear, modify_def, reset, checkTraining, hm, g1, joinTraining]
  · have hs2 := g3 SMap.sorted_nil
    have hs3 : SMap.Sorted (M2.models.map fun lc => (lc.1, T.trained lc.2)) := sorted_of_keys hs2 (by simp [List.map_map])
    simp only at hc
    rw [find?_mapped (fun _ => T.reset), Option.map_eq_some_iff] at hc
    obtain ⟨c1, h1, rfl⟩ := hc
    have h2 := find?_filtered hs3 ok h1
    rw [find?_mapped (fun _ => T.trained), Option.map_eq_some_iff] at h2
    obtain ⟨c2, h3, rfl⟩ := h2
    by_cases hl : l ∈ ls
    · obtain ⟨y, hy⟩ := g4 l hl
      rw [hy, Option.some.injEq] at h3
      exact ⟨y, by rw [h3]⟩
    · rw [g5 l hl] at h3
      simp [SMap.find?] at h3

/-- `train(set, label)`: the class `label` was configured, then trained and reset; the other classes are reset. -/
theorem trainClass_classes (T : Kind C) (label : String) (ok : Bool) {M : ClassSet C} (hs : M.models.Sorted) :
    ∃ M', trainClass T.fresh T.conf T.trained T.reset label ok M = .ret () M' ∧
      (∀ c, SMap.find? label M'.models = some c → ∃ y, c = T.reset (T.trained (T.conf label y))) ∧
      ∀ l, l ≠ label → ∀ c, SMap.find? l M'.models = some c → ∃ y, SMap.find? l M.models = some y ∧ c = T.reset y := by
  obtain ⟨M2, g1, g2, g3, g4, g5⟩ := find?_add T.fresh T.conf label ({ M with training := true } : ClassSet C)
  have hmap : (fun lc : String × C => if lc.1 = label then (lc.1, T.trained lc.2) else lc) =
      fun lc => (lc.1, (fun l c => if l = label then T.trained c else c) lc.1 lc.2) := by
    funext lc
    by_cases h : lc.1 = label <;> simp [h]
  have hs3 : SMap.Sorted (M2.models.map fun lc => (lc.1, (fun l c => if l = label then T.trained c else c) lc.1 lc.2)) := sorted_of_keys (g3 hs) (by simp [List.map_map])
  refine ⟨⟨(((M2.models.map fun lc => if lc.1 = label then (lc.1, T.trained lc.2) else lc).filter fun lc => decide (lc.1 ≠ label) || ok).map fun lc => (lc.1, T.reset lc.2)), false⟩, ?_, ?_, ?_⟩
  · simp [trainClass, bind_def, modify_def, reset, checkTraining, g1, joinTraining]
  · intro c hc
    simp only at hc
    rw [hmap, find?_mapped (fun _ => T.reset), Option.map_eq_some_iff] at hc
    obtain ⟨c1, h1, rfl⟩ := hc
    have h2 := find?_filtered hs3 (fun l => decide (l ≠ label) || ok) h1
    rw [find?_mapped (fun l c => if l = label then T.trained c else c), Option.map_eq_some_iff] at h2
    obtain ⟨c2, h3, rfl⟩ := h2
    obtain ⟨y, hy⟩ := g4
    rw [hy, Option.some.injEq] at h3
    exact ⟨y, by simp [h3]⟩
  · intro l hl c hc
    simp only at hc
    rw [hmap, find?_mapped (fun _ => T.reset), Option.map_eq_some_iff] at hc
    obtain ⟨c1, h1, rfl⟩ := hc
    have h2 := find?_filtered hs3 (fun l => decide (l ≠ label) || ok) h1
    rw [find?_mapped (fun l c => if l = label then T.trained c else c), Option.map_eq_some_iff] at h2
    obtain ⟨c2, h3, rfl⟩ := h2
    rw [g5 l hl] at h3
    exact ⟨c2, h3, by simp [hl]⟩

end ClassSet
end Xmm
