import Verif.Model.Retrain
import Verif.Spec.SequentialTrain
/- What training one class of a mixture model on a recording session must do. -/
namespace Xmm
open TS

/-- a recording session, then `train(set, label)` -/
noncomputable def recordAndTrainClass (S : GmmSettings ℝ) (D : Dens ℝ) (log : ℝ → ℝ) (C : Compare ℝ) (cancel : Nat → Bool) (f : Format) (i : Nat)
    (ops : List (RecOp ℝ String)) (w0 : World ℝ String) (label : String) : Prog (GmmModel ℝ) Unit :=
  recordThen f i ops w0 fun w t => GmmModel.trainLabel S D log Real.sqrt C cancel w t label

/-- a recording session, then `train(set, label)` for the labels `ls`, one after the other; nobody cancels -/
noncomputable def recordAndTrainClasses (S : GmmSettings ℝ) (D : Dens ℝ) (log : ℝ → ℝ) (C : Compare ℝ) (f : Format) (i : Nat)
    (ops : List (RecOp ℝ String)) (w0 : World ℝ String) (ls : List String) : Prog (GmmModel ℝ) Unit :=
  recordThen f i ops w0 fun w t => ls.foldlM (fun _ l => GmmModel.trainLabel S D log Real.sqrt C (fun _ => false) w t l) ()

/-- A model that can be used, or has not been trained: no class is training, every class can recognise, has the format `f` and the length `window` of the likelihood window (which are
    parameters that the classes share). -/
structure GmmModel.Holds (M : GmmModel ℝ) (f : Format) (window : Nat) : Prop where
  idle : M.training = false
  nulls : M.nulls = []
  sorted : SMap.Sorted M.models
  bimodal : M.bimodal = f.bimodal
  cls : ∀ lc ∈ M.models, lc.2.CanFilter ∧ lc.2.bimodal = f.bimodal ∧ lc.2.dim = f.dim ∧ lc.2.di = f.di ∧ lc.2.window = window
  mode : f.bimodal = true → ∀ lc ∈ M.models, lc.2.mode = M.mode
  buf : ∀ lc ∈ M.models, ∃ w hist, Logs lc.2.buf w hist

/-- What `train(set, label)` must give: the class `label` is the one that would be trained alone on its own takes, if its training is done, and does not exist otherwise; every other class
    remains, with its parameters. -/
structure GmmModel.ClassReplaced (S : GmmSettings ℝ) (D : Dens ℝ) (log : ℝ → ℝ) (C : Compare ℝ) (cancel : Nat → Bool) (f : Format) (τ : Takes ℝ String) (label : String)
    (M M' : GmmModel ℝ) : Prop where
  others : ∀ l ≠ label, (∀ m', (l, m') ∈ M'.models → ∃ m, (l, m) ∈ M.models ∧ Gmm.SameModel m m') ∧ (∀ m, (l, m) ∈ M.models → ∃ m', (l, m') ∈ M'.models ∧ Gmm.SameModel m m')
  replaced : ∃ tr m, trainedAlone S D log C cancel f label (Takes.data f τ label) = .ret tr m ∧ (∃ k, OneOutcome tr.events k tr.status) ∧
    (tr.status = .done ∧ (∃ m', (label, m') ∈ M'.models ∧ Gmm.SameModel m m') ∨
      label ∉ SMap.keys M'.models ∧ (tr.status = .cancel ∧ (∃ k, cancel k = true) ∨
        tr.status = .error ∧ ∃ pre m'', Gmm.trainRun D log Real.sqrt (Takes.data f τ label).deviation (Takes.data f τ label) tr.updates
          (GmmModel.newClass S f.bimodal f.dim f.di label) = .ret (pre ++ [0, 0]) m''))

end Xmm
