import Verif.Model.GmmTrain
import Verif.Spec.Takes
import Verif.Spec.GmmInit
import Verif.Spec.Recognition
import Verif.Spec.Training
/- What training a mixture model on a recording session must do. -/
namespace Xmm
open TS

/-- the standard deviation of each dimension over all frames -/
noncomputable def KData.deviation (data : KData ℝ) : List ℝ := (List.range data.dim).map fun d => Real.sqrt (GmmSpec.covariance data.frames d d)

/-- the training data of a class: the complete frames of its takes, in the order of their numbers -/
def Takes.data (f : Format) (τ : Takes ℝ String) (l : String) : KData ℝ := ⟨f.dim, (τ.ofClass l).frames⟩

/-- settings that the attributes admit -/
structure GmmSettings.Valid (S : GmmSettings ℝ) : Prop where
  window : 1 ≤ S.window
  minIter : 1 ≤ S.em.minIter
  gaussians : ∀ l, 1 ≤ S.gaussians l
  absReg : ∀ l, 1 / 10 ^ 9 ≤ S.absReg l

/-- The class `l` trained alone on its own takes: the final state of the training and of the class. -/
noncomputable def trainedAlone (S : GmmSettings ℝ) (D : Dens ℝ) (log : ℝ → ℝ) (C : Compare ℝ) (cancel : Nat → Bool) (f : Format) (l : String) (data : KData ℝ) :
    Res (Gmm ℝ) (Trainer ℝ) :=
  (Gmm.trainee D log Real.sqrt data.deviation data).train C S.em cancel (GmmModel.newClass S f.bimodal f.dim f.di l)

/-- The program of the user: a new training set, the calls `ops` on it (exceptions are caught), then `train` on the model `M`.  A call that is not defined makes the program undefined. -/
def recordAndTrain {K : Type} [Field K] [LinearOrder K] (S : GmmSettings K) (D : Dens K) (log sqrt : K → K) (C : Compare K) (cancel : String → Nat → Bool)
    (f : Format) (i : Nat) (ops : List (RecOp K String)) (w0 : World K String) : Prog (GmmModel K) Unit := fun M =>
  match openSet i f.bimodal f.dim f.di w0 with
  | .ret _ w1 =>
    match recRun i ops w1 with
    | some (w, _) =>
      match w.sets i with
      | some t => GmmModel.train S D log sqrt C cancel w t M
      | none => .ub
    | none => .ub
  | _ => .ub

/-- every class has a take with at least one complete frame -/
def Takes.Filled (τ : Takes ℝ String) : Prop := ∀ e ∈ τ, ∃ e' ∈ τ, e'.2.1 = e.2.1 ∧ e'.2.2.frames ≠ []

/-- The classes of the trained model: those whose training is done, each one being the class trained alone on its own takes.  A class is missing only if
    its training was cancelled, or if the log-likelihoods of its last two iterations are both 0. -/
structure TrainedOn (S : GmmSettings ℝ) (D : Dens ℝ) (log : ℝ → ℝ) (C : Compare ℝ) (cancel : String → Nat → Bool) (f : Format) (τ : Takes ℝ String)
    (M' : GmmModel ℝ) : Prop where
  known : ∀ l ∈ SMap.keys M'.models, ∃ e ∈ τ, e.2.1 = l
  each : ∀ l, (∃ e ∈ τ, e.2.1 = l) → ∃ tr m, trainedAlone S D log C (cancel l) f l (Takes.data f τ l) = .ret tr m ∧
    (∃ k, OneOutcome tr.events k tr.status) ∧
    (tr.status = .done ∧ (∃ m', (l, m') ∈ M'.models ∧ Gmm.SameModel m m') ∨
      l ∉ SMap.keys M'.models ∧ (tr.status = .cancel ∧ (∃ k, cancel l k = true) ∨
        tr.status = .error ∧ ∃ pre m'', Gmm.trainRun D log Real.sqrt (Takes.data f τ l).deviation (Takes.data f τ l) tr.updates
          (GmmModel.newClass S f.bimodal f.dim f.di l) = .ret (pre ++ [0, 0]) m''))

/-- an observation with at least the values that recognition reads -/
def TS.Format.Sample (f : Format) (x : List ℝ) : Prop := if f.bimodal then f.di ≤ x.length else f.dim ≤ x.length

end Xmm
