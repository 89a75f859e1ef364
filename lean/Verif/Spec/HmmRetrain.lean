import Verif.Model.HmmRetrain
import Verif.Spec.HmmTrain
import Verif.Spec.SequentialTrain
/- What training one class of a hierarchical hidden Markov model on a recording session must do. -/
namespace Xmm
open TS

/-- a recording session, then `train(set, label)` -/
noncomputable def recordAndTrainHmmClass (z : ℝ) (D : Dens ℝ) (log : ℝ → ℝ) (C : Compare ℝ) (P : EmParams) (cancel : Nat → Bool) (f : Format) (i : Nat)
    (ops : List (RecOp ℝ String)) (w0 : World ℝ String) (label : String) : Prog (HierHmm ℝ) Unit :=
  recordThen f i ops w0 fun w t => HierHmm.trainLabel z D log Real.sqrt C P KData.deviation cancel w t label

/-- a recording session, then `train(set, label)` for the labels `ls`, one after the other; nobody cancels -/
noncomputable def recordAndTrainHmmClasses (z : ℝ) (D : Dens ℝ) (log : ℝ → ℝ) (C : Compare ℝ) (P : EmParams) (f : Format) (i : Nat)
    (ops : List (RecOp ℝ String)) (w0 : World ℝ String) (ls : List String) : Prog (HierHmm ℝ) Unit :=
  recordThen f i ops w0 fun w t => ls.foldlM (fun _ l => HierHmm.trainLabel z D log Real.sqrt C P KData.deviation (fun _ => false) w t l) ()

/-- A hierarchical model that can be used, or has not been trained: no class is training, every class can recognise, is LeftRight and is left from its last state only, with probability 1/10; the
    classes have the format `f` and the length of the likelihood window of the model (which are parameters that the classes share). -/
structure HierHmm.Holds (M : HierHmm ℝ) (f : Format) : Prop where
  idle : M.training = false
  hier : M.hier = true
  nulls : M.nulls = []
  sorted : SMap.Sorted M.models
  top : M.Top
  bimodal : M.bimodal = f.bimodal
  di : M.bimodal = false → M.di = 0
  cls : ∀ lc ∈ M.models, lc.2.InHierarchy ∧ lc.2.bimodal = f.bimodal ∧ lc.2.dim = f.dim ∧ lc.2.di = f.di ∧ lc.2.window = M.window ∧ lc.2.ergodic = false
  exits : ∀ lc ∈ M.models, lc.2.exitP = (List.range lc.2.n).map fun k => if k + 1 = lc.2.n then 1 / 10 else 0
  mode : f.bimodal = true → ∀ lc ∈ M.models, lc.2.mode = M.mode
  buf : ∀ lc ∈ M.models, ∃ w hist, Logs lc.2.buf w hist

/-- What `train(set, label)` must give: the class `label` is the one that would be trained alone on its own takes, if its training is done, and does not exist otherwise; every other class
    remains, with its parameters. -/
structure HierHmm.ClassReplaced (z : ℝ) (D : Dens ℝ) (log : ℝ → ℝ) (C : Compare ℝ) (P : EmParams) (cancel : Nat → Bool) (f : Format) (τ : Takes ℝ String) (label : String)
    (M M' : HierHmm ℝ) : Prop where
  others : ∀ l ≠ label, (∀ m', (l, m') ∈ M'.models → ∃ m, (l, m) ∈ M.models ∧ Hmm.SameClass m m') ∧ (∀ m, (l, m) ∈ M.models → ∃ m', (l, m') ∈ M'.models ∧ Hmm.SameClass m m')
  replaced : ∃ tr m, Hmm.trainedAlone D log C P cancel (Hmm.fresh f M.window (M.conf label) z) (Takes.data f τ label) = .ret tr m ∧ (∃ k, OneOutcome tr.events k tr.status) ∧
    (tr.status = .done ∧ (∃ m', (label, m') ∈ M'.models ∧ Hmm.SameClass m m') ∨
      label ∉ SMap.keys M'.models ∧ (tr.status = .cancel ∧ (∃ k, cancel k = true) ∨
        tr.status = .error ∧ ∃ pre m'', Hmm.iterations D log C P tr.updates (Takes.data f τ label) (Hmm.fresh f M.window (M.conf label) z) = .ret (pre ++ [0, 0]) m''))

/-- the exit probabilities of a class of `n` states that is left from the last state, and from the state that was the last one of `k` states -/
noncomputable def Hmm.twoExits (n k : Nat) : List ℝ := (List.range n).map fun j => if j + 1 = n ∨ j + 1 = k then 1 / 10 else 0

end Xmm
