import Verif.Spec.GaussianJson
import Verif.Props.GaussianAttributes
import Verif.Props.Json
import Verif.Props.SharedJson
import Mathlib.Tactic.NormNum
set_option linter.unusedSimpArgs false
set_option linter.unusedSectionVars false
/- C33: JSON of a Gaussian distribution; C80: copies. -/
namespace Xmm
open Prog (bind_def pure_def get_def set_def modify_def throw_def undef_def)
namespace Gauss

section
variable {K : Type} [Field K]

theorem readVector_ok {σ : Type} (a tgt : List K) (n : Nat) (hn : n = a.length) (h : tgt.length = n) (s : σ) :
    readVector (vector2json (realCodec K) a) n tgt s = .ret a s := by
  subst hn
  rw [readVector, C12_round_trip_real a tgt h]

theorem readVector_zero {σ : Type} (node : Json K) (tgt : List K) (s : σ) : readVector node 0 tgt s = .ret tgt s := rfl

theorem readVector_bad {σ : Type} (a tgt : List K) (n : Nat) (hn : n ≠ 0) (h : a.length ≠ n) (s : σ) :
    readVector (vector2json (realCodec K) a) n tgt s = .throw .jsonValueError s := by
  simp [readVector, json2vector, hn, json2array, vector2json, h]

variable [DecidableEq K] [JsonReal K]

theorem modeOf_code (m : CovMode) : modeOf (modeCode m) = .ok m := by cases m <;> rfl

theorem asInt_code (m : CovMode) : (Json.int (modeCode m) : Json K).asInt = .ok (modeCode m) := by
  cases m <;> simp [Json.asInt, modeCode]

/-- the part of the constructor that reads the vectors, after the header -/
theorem ofJson_toJson {σ : Type} (g : Gauss K) (h1 : g.dim ≤ uintMax) (h2 : g.di ≤ uintMax) (s : σ) :
    (ofJson g.toJson : Prog σ (Gauss K)) s =
      (let e : Gauss K := allocate ⟨g.bimodal, g.dim, 0, g.di, uintMax, g.mode, [], [], [], 0, [], 0, []⟩
       (do
        let mean ← readVector (vector2json (realCodec K) g.mean) e.dim e.mean
        let cov ← readVector (vector2json (realCodec K) g.cov) (e.dim * e.dim) e.cov
        let inv ← readVector (vector2json (realCodec K) g.inv) (e.dim * e.dim) e.inv
        let invIn ← readVector (vector2json (realCodec K) g.invIn) (e.di * e.di) e.invIn
        pure { e with mean := mean, cov := cov, inv := inv, det := g.det, invIn := invIn, detIn := g.detIn } : Prog σ (Gauss K)) s) := by
  have o : ∀ d, g.toJson.getOr "bimodal" d = .ok (.bool g.bimodal) ∧ g.toJson.getOr "dimension" d = .ok (.int (sint g.dim)) ∧
      g.toJson.getOr "dimension_input" d = .ok (.int (sint g.di)) ∧ g.toJson.getOr "covariance_determinant" d = .ok (.real g.det) ∧
      g.toJson.getOr "covariance_determinant_input" d = .ok (.real g.detIn) := fun d => by
    simp [toJson, Json.getOr, Json.member, List.find?]
  have k : g.toJson.getKey "covariance_mode" = .ok (.int (modeCode g.mode)) ∧ g.toJson.getKey "mean" = .ok (vector2json (realCodec K) g.mean) ∧
      g.toJson.getKey "covariance" = .ok (vector2json (realCodec K) g.cov) ∧
      g.toJson.getKey "inverse_covariance" = .ok (vector2json (realCodec K) g.inv) ∧
      g.toJson.getKey "inverse_covariance_input" = .ok (vector2json (realCodec K) g.invIn) := by
    simp [toJson, Json.getKey, Json.member, List.find?]
  obtain ⟨k1, k2, k3, k4, k5⟩ := k
  simp only [ofJson, (o _).1, (o _).2.1, (o _).2.2.1, (o _).2.2.2.1, (o _).2.2.2.2, k1, k2, k3, k4, k5, liftE, bind_def, pure_def, Json.asBool,
    SharedParams.asInt_sint h1, SharedParams.asInt_sint h2, SharedParams.uint_sint h1, SharedParams.uint_sint h2, asInt_code, modeOf_code, Json.asReal]


/-- what a distribution is after its JSON has been read -/
def reloaded (g : Gauss K) : Gauss K := { g with dimMin := 0, diMax := uintMax, outCov := [] }

/-- reading back the JSON of a distribution stored in Full mode, or of one dimension -/
theorem ofJson_ok {σ : Type} (g : Gauss K) (hp : g.Plain) (hm : g.mode = .full ∨ g.dim = 1) (s : σ) :
    (ofJson g.toJson : Prog σ (Gauss K)) s = .ret g.reloaded s := by
  obtain ⟨b, dim, dmin, di, dmax, mode, mean, cov, inv, det, invIn, detIn, outCov⟩ := g
  obtain ⟨h1, h2, h3, h4, h5, h6, h7, h8⟩ := hp
  rw [ofJson_toJson _ h1 h2]
  simp only at h1 h2 h3 h4 h5 h6 h7 h8 hm
  have hc : cov.length = dim * dim ∧ inv.length = dim * dim := by
    cases mode with
    | full => exact ⟨h4, h5⟩
    | diagonal =>
      obtain h | h := hm
      · cases h
      · subst h; exact ⟨h4, h5⟩
  cases b with
  | false =>
    obtain ⟨rfl, rfl⟩ := h7 rfl
    cases mode with
    | full =>
      simp only [allocate, bind_def]
      rw [readVector_ok _ _ _ h3.symm (by simp [resize_length])]
      simp only []
      rw [readVector_ok _ _ _ hc.1.symm (by simp [resize_length])]
      simp only []
      rw [readVector_ok _ _ _ hc.2.symm (by simp [resize_length])]
      simp only [Nat.mul_zero, readVector_zero]
      rfl
    | diagonal =>
      obtain rfl : dim = 1 := by simpa using hm
      simp only [allocate, bind_def]
      rw [readVector_ok _ _ _ h3.symm (by simp [resize_length])]
      simp only []
      rw [readVector_ok _ _ _ hc.1.symm (by simp [resize_length])]
      simp only []
      rw [readVector_ok _ _ _ hc.2.symm (by simp [resize_length])]
      simp only [Nat.mul_zero, readVector_zero]
      rfl
  | true =>
    cases mode with
    | full =>
      simp only [allocate, bind_def]
      rw [readVector_ok _ _ _ h3.symm (by simp [resize_length])]
      simp only []
      rw [readVector_ok _ _ _ hc.1.symm (by simp [resize_length])]
      simp only []
      rw [readVector_ok _ _ _ hc.2.symm (by simp [resize_length])]
      simp only []
      rw [readVector_ok _ _ _ (h6 rfl).symm (by simp [resize_length])]
      rfl
    | diagonal =>
      obtain rfl : dim = 1 := by simpa using hm
      simp at h8

/-- reading back the JSON of a distribution of two dimensions or more stored in Diagonal mode -/
theorem ofJson_diagonal {σ : Type} (g : Gauss K) (hp : g.Plain) (hm : g.mode = .diagonal) (hd : 2 ≤ g.dim) (s : σ) :
    (ofJson g.toJson : Prog σ (Gauss K)) s = .throw .jsonValueError s := by
  obtain ⟨b, dim, dmin, di, dmax, mode, mean, cov, inv, det, invIn, detIn, outCov⟩ := g
  obtain ⟨h1, h2, h3, h4, h5, h6, h7, h8⟩ := hp
  rw [ofJson_toJson _ h1 h2]
  simp only at h1 h2 h3 h4 h5 h6 h7 h8 hm hd
  subst hm
  simp only [allocate, bind_def]
  rw [readVector_ok _ _ _ h3.symm (by simp [resize_length])]
  simp only []
  have h9 : dim * 2 ≤ dim * dim := Nat.mul_le_mul_left _ hd
  simp only at h4
  rw [readVector_bad _ _ _ (by omega) (by omega)]

/-- reading back the JSON of a unimodal distribution whose input dimension has been set -/
theorem ofJson_unimodal {σ : Type} (g : Gauss K) (h1 : g.dim ≤ uintMax) (h2 : g.di ≤ uintMax) (h3 : g.mean.length = g.dim)
    (h4 : g.cov.length = g.dim * g.dim) (h5 : g.inv.length = g.dim * g.dim) (hm : g.mode = .full) (hb : g.bimodal = false) (hd : 1 ≤ g.di)
    (hi : g.invIn = []) (s : σ) :
    (ofJson g.toJson : Prog σ (Gauss K)) s = .throw .jsonValueError s := by
  obtain ⟨b, dim, dmin, di, dmax, mode, mean, cov, inv, det, invIn, detIn, outCov⟩ := g
  rw [ofJson_toJson _ h1 h2]
  simp only at h1 h2 h3 h4 h5 hm hd hb hi
  subst hm; subst hb; subst hi
  simp only [allocate, bind_def]
  rw [readVector_ok _ _ _ h3.symm (by simp [resize_length])]
  simp only []
  rw [readVector_ok _ _ _ h4.symm (by simp [resize_length])]
  simp only []
  rw [readVector_ok _ _ _ h5.symm (by simp [resize_length])]
  simp only []
  have : 0 < di * di := Nat.mul_pos hd hd
  rw [readVector_bad _ _ _ (by omega) (by simpa using (by omega : ¬ 0 = di * di))]

end

/-! ### what depends only on the restored parameters -/

section
variable {F : Type}

/-- the outcome does not depend on the state, which is left alone -/
def Quiet {σ α : Type} (p : Prog σ α) : Prop :=
  ∃ o : Option (Except Exn α), ∀ s, p s = match o with | some (.ok a) => .ret a s | some (.error e) => .throw e s | none => .ub

theorem Quiet.pure {σ α : Type} (a : α) : Quiet (Pure.pure a : Prog σ α) := ⟨some (.ok a), fun _ => rfl⟩
theorem Quiet.throw {σ α : Type} (e : Exn) : Quiet (Prog.throw e : Prog σ α) := ⟨some (.error e), fun _ => rfl⟩
theorem Quiet.undef {σ α : Type} : Quiet (Prog.undef : Prog σ α) := ⟨none, fun _ => rfl⟩

theorem Quiet.bind {σ α β : Type} {p : Prog σ α} {f : α → Prog σ β} (hp : Quiet p) (hf : ∀ a, Quiet (f a)) : Quiet (p >>= f) := by
  obtain ⟨o, h⟩ := hp
  match o, h with
  | some (.ok a), h =>
    obtain ⟨o', h'⟩ := hf a
    exact ⟨o', fun s => by rw [bind_def, h s]; exact h' s⟩
  | some (.error e), h => exact ⟨some (.error e), fun s => by rw [bind_def, h s]⟩
  | none, h => exact ⟨none, fun s => by rw [bind_def, h s]⟩

theorem Quiet.rd {σ : Type} (l : List F) (i : Nat) : Quiet (rd l i : Prog σ F) := by
  unfold Gauss.rd
  split
  · exact Quiet.pure _
  · exact Quiet.undef

theorem Quiet.loop {σ α : Type} (n : Nat) (a : α) (body : α → Nat → Prog σ α) (h : ∀ a t, Quiet (body a t)) : Quiet (Phrase.loop n a body) := by
  induction n with
  | zero => exact Quiet.pure _
  | succ n ih =>
    have e : Phrase.loop (n + 1) a body = (Phrase.loop n a body >>= fun a => body a n) := funext fun s => by rw [loop_succ]; rfl
    rw [e]
    exact Quiet.bind ih fun a => h a n

theorem Quiet.mapMLoop {σ α β : Type} (f : α → Prog σ β) (h : ∀ a, Quiet (f a)) : ∀ (l : List α) (acc : List β), Quiet (List.mapM.loop f l acc)
  | [], _ => Quiet.pure _
  | a :: l, acc => Quiet.bind (h a) fun b => Quiet.mapMLoop f h l (b :: acc)

theorem Quiet.mapM {σ α β : Type} (l : List α) (f : α → Prog σ β) (h : ∀ a, Quiet (f a)) : Quiet (l.mapM f) := Quiet.mapMLoop f h l []

theorem Quiet.diff {σ : Type} (A : Arith F) (x m : List F) (i j : Nat) : Quiet (Gauss.diff A x m i j : Prog σ F) :=
  Quiet.bind (Quiet.rd _ _) fun _ => Quiet.bind (Quiet.rd _ _) fun _ => Quiet.pure _

theorem Quiet.outDim {σ : Type} (g : Gauss F) : Quiet (Gauss.outDim g : Prog σ Nat) := by
  unfold Gauss.outDim
  split
  · exact Quiet.undef
  · exact Quiet.pure _

theorem Quiet.ite {σ α : Type} {c : Prop} [Decidable c] {p q : Prog σ α} (hp : Quiet p) (hq : Quiet q) : Quiet (if c then p else q) := by
  split
  · exact hp
  · exact hq

/-- run on two states, a program that starts by reading its state and is quiet afterwards -/
theorem Quiet.answer {σ α : Type} (f : σ → Prog σ α) (s s' : σ) (h : f s = f s') (hq : Quiet (f s)) :
    ((Prog.get >>= f) s').answer = ((Prog.get >>= f) s).answer := by
  obtain ⟨o, ho⟩ := hq
  simp only [bind_def, get_def]
  rw [← h, ho s', ho s]
  match o with
  | some (.ok a) => rfl
  | some (.error e) => rfl
  | none => rfl

theorem Quiet.distance (A : Arith F) (g : Gauss F) (x : List F) : Quiet (Gauss.distance A g x) := by
  unfold Gauss.distance
  split
  · exact Quiet.loop _ _ _ fun _ _ => Quiet.bind (Quiet.loop _ _ _ fun _ _ => Quiet.bind (Quiet.rd _ _) fun _ =>
      Quiet.bind (Quiet.diff _ _ _ _ _) fun _ => Quiet.pure _) fun _ => Quiet.bind (Quiet.diff _ _ _ _ _) fun _ => Quiet.pure _
  · exact Quiet.loop _ _ _ fun _ _ => Quiet.bind (Quiet.rd _ _) fun _ => Quiet.bind (Quiet.diff _ _ _ _ _) fun _ =>
      Quiet.bind (Quiet.diff _ _ _ _ _) fun _ => Quiet.pure _

theorem Quiet.distanceInput (A : Arith F) (g : Gauss F) (x : List F) : Quiet (Gauss.distanceInput A g x) := by
  unfold Gauss.distanceInput
  split
  · exact Quiet.loop _ _ _ fun _ _ => Quiet.bind (Quiet.loop _ _ _ fun _ _ => Quiet.bind (Quiet.rd _ _) fun _ =>
      Quiet.bind (Quiet.diff _ _ _ _ _) fun _ => Quiet.pure _) fun _ => Quiet.bind (Quiet.diff _ _ _ _ _) fun _ => Quiet.pure _
  · exact Quiet.loop _ _ _ fun _ _ => Quiet.bind (Quiet.rd _ _) fun _ => Quiet.bind (Quiet.diff _ _ _ _ _) fun _ =>
      Quiet.bind (Quiet.diff _ _ _ _ _) fun _ => Quiet.pure _

theorem Quiet.distanceBimodal (A : Arith F) (g : Gauss F) (x y : List F) : Quiet (Gauss.distanceBimodal A g x y) := by
  unfold Gauss.distanceBimodal
  split
  · exact Quiet.loop _ _ _ fun _ _ => Quiet.bind (Quiet.loop _ _ _ fun _ _ => Quiet.bind (Quiet.rd _ _) fun _ =>
      Quiet.bind (Quiet.diff _ _ _ _ _) fun _ => Quiet.pure _) fun _ =>
      Quiet.bind (Quiet.loop _ _ _ fun _ _ => Quiet.bind (Quiet.rd _ _) fun _ =>
      Quiet.bind (Quiet.diff _ _ _ _ _) fun _ => Quiet.pure _) fun _ =>
      Quiet.ite (Quiet.bind (Quiet.diff _ _ _ _ _) fun _ => Quiet.pure _) (Quiet.bind (Quiet.diff _ _ _ _ _) fun _ => Quiet.pure _)
  · exact Quiet.bind (Quiet.loop _ _ _ fun _ _ => Quiet.bind (Quiet.rd _ _) fun _ => Quiet.bind (Quiet.diff _ _ _ _ _) fun _ =>
      Quiet.bind (Quiet.diff _ _ _ _ _) fun _ => Quiet.pure _) fun _ =>
      Quiet.loop _ _ _ fun _ _ => Quiet.bind (Quiet.rd _ _) fun _ => Quiet.bind (Quiet.diff _ _ _ _ _) fun _ =>
      Quiet.bind (Quiet.diff _ _ _ _ _) fun _ => Quiet.pure _

/-- the likelihoods of a restored distribution are those of the original -/
theorem Restored.likelihood (A : Arith F) {g g' : Gauss F} (h : Restored g g') (x : List F) :
    (Gauss.likelihood A x g').answer = (Gauss.likelihood A x g).answer := by
  obtain ⟨h1, h2, h3, h4, h5, h6, h7, h8, h9, h10⟩ := h
  refine Quiet.answer _ g g' ?_ ?_
  · simp only [Gauss.distance, h2, h4, h5, h7, h8]
  · exact Quiet.ite (Quiet.throw _) (Quiet.bind (Quiet.distance A g x) fun _ => Quiet.pure _)

theorem Restored.likelihoodInput (A : Arith F) {g g' : Gauss F} (h : Restored g g') (x : List F) :
    (Gauss.likelihoodInput A x g').answer = (Gauss.likelihoodInput A x g).answer := by
  obtain ⟨h1, h2, h3, h4, h5, h6, h7, h8, h9, h10⟩ := h
  refine Quiet.answer _ g g' ?_ ?_
  · simp only [Gauss.distanceInput, h1, h3, h4, h5, h7, h9, h10]
  · exact Quiet.ite (Quiet.throw _) (Quiet.ite (Quiet.throw _) (Quiet.bind (Quiet.distanceInput A g x) fun _ => Quiet.pure _))

theorem Restored.likelihoodBimodal (A : Arith F) {g g' : Gauss F} (h : Restored g g') (x y : List F) :
    (Gauss.likelihoodBimodal A x y g').answer = (Gauss.likelihoodBimodal A x y g).answer := by
  obtain ⟨h1, h2, h3, h4, h5, h6, h7, h8, h9, h10⟩ := h
  refine Quiet.answer _ g g' ?_ ?_
  · simp only [Gauss.distanceBimodal, Gauss.outDim, h1, h2, h3, h4, h5, h7, h8]
  · exact Quiet.ite (Quiet.throw _) (Quiet.ite (Quiet.throw _) (Quiet.bind (Quiet.outDim g) fun _ =>
      Quiet.bind (Quiet.distanceBimodal A g x y) fun _ => Quiet.pure _))

theorem Restored.regression [Field F] {g g' : Gauss F} (h : Restored g g') (x : List F) :
    (Gauss.regression x g').answer = (Gauss.regression x g).answer := by
  obtain ⟨h1, h2, h3, h4, h5, h6, h7, h8, h9, h10⟩ := h
  refine Quiet.answer _ g g' ?_ ?_
  · simp only [Gauss.outDim, h1, h2, h3, h4, h5, h6, h9]
  · refine Quiet.ite (Quiet.throw _) (Quiet.bind (Quiet.outDim g) fun _ => ?_)
    split
    · exact Quiet.mapM _ _ fun _ => Quiet.bind (Quiet.rd _ _) fun _ => Quiet.loop _ _ _ fun _ _ =>
        Quiet.bind (Quiet.loop _ _ _ fun _ _ => Quiet.bind (Quiet.rd _ _) fun _ => Quiet.bind (Quiet.rd _ _) fun _ =>
          Quiet.bind (Quiet.rd _ _) fun _ => Quiet.pure _) fun _ => Quiet.bind (Quiet.rd _ _) fun _ => Quiet.pure _
    · exact Quiet.mapM _ _ fun _ => Quiet.rd _ _

end
end Gauss

namespace GaussObj
variable {K : Type} [Field K] [DecidableEq K] [JsonReal K]

theorem fromJson_eq (tmp : Nat) (root : Json K) (s : GaussObj K) :
    fromJson tmp root s = match (Gauss.ofJson root : Prog (GaussObj K) (Gauss K)) s with
      | .ret g _ => .ret () ⟨g, some tmp, some tmp, some tmp⟩
      | .throw e s' => .throw e s'
      | .ub => .ub := by
  simp only [fromJson, ofJson, bind_def, modify_def, assignFrom]
  cases (Gauss.ofJson root : Prog (GaussObj K) (Gauss K)) s <;> rfl

/-- C33 (round trip): the JSON of a distribution stored in Full mode, or of dimension 1, read into any distribution, restores the modality, the dimensions, the mode, the
    mean, the covariance, the inverse and the determinants; all the likelihoods and the regression answer as those of the original.  (Missing: Diagonal mode in two
    dimensions or more, the conditional output covariance, and the limits of the dimensions — see below.) -/
theorem C33_round_trip_partial (g : Gauss K) (hp : g.Plain) (hm : g.mode = .full ∨ g.dim = 1) (tmp : Nat) (s : GaussObj K) :
    ∃ s', fromJson tmp g.toJson s = .ret () s' ∧ g.Restored s'.g ∧
      (∀ A x, (Gauss.likelihood A x s'.g).answer = (Gauss.likelihood A x g).answer) ∧
      (∀ A x, (Gauss.likelihoodInput A x s'.g).answer = (Gauss.likelihoodInput A x g).answer) ∧
      (∀ A x y, (Gauss.likelihoodBimodal A x y s'.g).answer = (Gauss.likelihoodBimodal A x y g).answer) ∧
      ∀ x, (Gauss.regression x s'.g).answer = (Gauss.regression x g).answer := by
  have hr : g.Restored g.reloaded := ⟨rfl, rfl, rfl, rfl, rfl, rfl, rfl, rfl, rfl, rfl⟩
  refine ⟨⟨g.reloaded, some tmp, some tmp, some tmp⟩, ?_, hr, fun A x => hr.likelihood A x, fun A x => hr.likelihoodInput A x,
    fun A x y => hr.likelihoodBimodal A x y, fun x => hr.regression x⟩
  rw [fromJson_eq, Gauss.ofJson_ok g hp hm]

/-- C33 (false in Diagonal mode): for every distribution of two dimensions or more stored in Diagonal mode, reading its own JSON throws and leaves the target
    unchanged. -/
theorem C33_diagonal_violated (g : Gauss K) (hp : g.Plain) (hm : g.mode = .diagonal) (hd : 2 ≤ g.dim) (tmp : Nat) (s : GaussObj K) :
    fromJson tmp g.toJson s = .throw .jsonValueError s := by
  rw [fromJson_eq, Gauss.ofJson_diagonal g hp hm hd]

/-- C33 (false for a unimodal distribution whose `dimension_input` has been set): its own JSON is rejected. -/
theorem C33_unimodal_input_violated (g : Gauss K) (h1 : g.dim ≤ uintMax) (h2 : g.di ≤ uintMax) (h3 : g.mean.length = g.dim)
    (h4 : g.cov.length = g.dim * g.dim) (h5 : g.inv.length = g.dim * g.dim) (hm : g.mode = .full) (hb : g.bimodal = false) (hd : 1 ≤ g.di)
    (hi : g.invIn = []) (tmp : Nat) (s : GaussObj K) : fromJson tmp g.toJson s = .throw .jsonValueError s := by
  rw [fromJson_eq, Gauss.ofJson_unimodal g h1 h2 h3 h4 h5 hm hb hd hi]

/-- C33 (false for the conditional output covariance): it is written, but after reading it is empty. -/
theorem C33_output_covariance_violated (g : Gauss K) (hp : g.Plain) (hm : g.mode = .full) (tmp : Nat) (s s' : GaussObj K)
    (h : fromJson tmp g.toJson s = .ret () s') :
    g.toJson.getKey "output_covariance" = .ok (vector2json (realCodec K) g.outCov) ∧ s'.g.outCov = [] := by
  refine ⟨by simp [Gauss.toJson, Json.getKey, Json.member, List.find?], ?_⟩
  rw [fromJson_eq, Gauss.ofJson_ok g hp (.inl hm)] at h
  simp only [Res.ret.injEq, true_and] at h
  rw [← h]; rfl

/-- what `fromJson` leaves: no limits on the dimensions, and callbacks bound to the temporary -/
theorem fromJson_loaded (tmp : Nat) (root : Json K) (s s' : GaussObj K) (h : fromJson tmp root s = .ret () s') :
    s'.onDim = some tmp ∧ s'.onDi = some tmp ∧ s'.onMode = some tmp := by
  rw [fromJson_eq] at h
  cases h' : (Gauss.ofJson root : Prog (GaussObj K) (Gauss K)) s with
  | ret g t => rw [h'] at h; simp only [Res.ret.injEq, true_and] at h; rw [← h]; exact ⟨rfl, rfl, rfl⟩
  | throw e t => rw [h'] at h; cases h
  | ub => rw [h'] at h; cases h

end GaussObj
end Xmm
