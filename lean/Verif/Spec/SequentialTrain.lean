import Verif.Model.SequentialTrain
import Verif.Spec.FlatTrain
/- What training in the multithreading mode Sequential on a recording session must do. -/
namespace Xmm
open TS

/-- The program of the user: a new training set, the calls `ops` on it (exceptions are caught), then `train` of a model.  A call that is not defined makes the program undefined. -/
def recordThen {σ : Type} (f : Format) (i : Nat) (ops : List (RecOp ℝ String)) (w0 : World ℝ String) (train : World ℝ String → TSet String → Prog σ Unit) : Prog σ Unit := fun M =>
  match openSet i f.bimodal f.dim f.di w0 with
  | .ret _ w1 =>
    match recRun i ops w1 with
    | some (w, _) =>
      match w.sets i with
      | some t => train w t M
      | none => .ub
    | none => .ub
  | _ => .ub

/-- a recording session, then training in the mode Sequential, for a mixture model -/
noncomputable def recordAndTrainSequential (S : GmmSettings ℝ) (D : Dens ℝ) (log : ℝ → ℝ) (C : Compare ℝ) (cancel : String → Nat → Bool) (f : Format) (i : Nat)
    (ops : List (RecOp ℝ String)) (w0 : World ℝ String) : Prog (GmmModel ℝ) Unit :=
  recordThen f i ops w0 fun w t => GmmModel.trainSequential S D log Real.sqrt C cancel w t

/-- a recording session, then training in the mode Sequential, for a model of several hidden Markov models -/
noncomputable def recordAndTrainHmmSequential (z : ℝ) (D : Dens ℝ) (log : ℝ → ℝ) (C : Compare ℝ) (P : EmParams) (cancel : String → Nat → Bool)
    (f : Format) (i : Nat) (ops : List (RecOp ℝ String)) (w0 : World ℝ String) : Prog (HierHmm ℝ) Unit :=
  recordThen f i ops w0 fun w t => HierHmm.trainSequential z D log Real.sqrt C P KData.deviation cancel w t

/-- the training of the mixture `l` alone on its own takes is done, and yields the class `m` -/
def GmmModel.Done (S : GmmSettings ℝ) (D : Dens ℝ) (log : ℝ → ℝ) (C : Compare ℝ) (cancel : String → Nat → Bool) (f : Format) (τ : Takes ℝ String) (l : String) (m : Gmm ℝ) : Prop :=
  ∃ tr, trainedAlone S D log C (cancel l) f l (Takes.data f τ l) = .ret tr m ∧ tr.status = .done

/-- The classes are the labels of the takes, and each of them is what its training alone on its own takes has left, whether it is done or not. -/
structure GmmModel.EachTrained (S : GmmSettings ℝ) (D : Dens ℝ) (log : ℝ → ℝ) (C : Compare ℝ) (cancel : String → Nat → Bool) (f : Format) (τ : Takes ℝ String)
    (M : GmmModel ℝ) : Prop where
  labels : ∀ l, l ∈ SMap.keys M.models ↔ ∃ e ∈ τ, e.2.1 = l
  each : ∀ lc ∈ M.models, ∃ tr, trainedAlone S D log C (cancel lc.1) f lc.1 (Takes.data f τ lc.1) = .ret tr lc.2 ∧ ∃ k, OneOutcome tr.events k tr.status

/-- The classes are the labels of the takes, and each of them is what its training alone on its own takes has left, whether it is done or not. -/
structure HierHmm.EachTrained (z : ℝ) (D : Dens ℝ) (log : ℝ → ℝ) (C : Compare ℝ) (P : EmParams) (cancel : String → Nat → Bool) (f : Format) (τ : Takes ℝ String)
    (conf : String → HmmParams ℝ) (window : Nat) (M : HierHmm ℝ) : Prop where
  labels : ∀ l, l ∈ SMap.keys M.models ↔ ∃ e ∈ τ, e.2.1 = l
  each : ∀ lc ∈ M.models, ∃ tr, Hmm.trainedAlone D log C P (cancel lc.1) (Hmm.fresh f window (conf lc.1) z) (Takes.data f τ lc.1) = .ret tr lc.2 ∧ ∃ k, OneOutcome tr.events k tr.status

end Xmm
