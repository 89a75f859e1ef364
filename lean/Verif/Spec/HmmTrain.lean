import Verif.Model.HmmTrain
import Verif.Spec.GmmTrain
import Verif.Spec.HierHmm
import Verif.Spec.HmmInit
/- What training a hierarchical hidden Markov model on a recording session must do. -/
namespace Xmm
open TS

/-- the settings of a model of several hidden Markov models whose classes are LeftRight, as the attributes admit them -/
structure HierHmm.Settings (M : HierHmm ℝ) (P : EmParams) : Prop where
  window : 1 ≤ M.window
  minIter : 1 ≤ P.minIter
  states : ∀ l, 1 ≤ (M.conf l).n
  gaussians : ∀ l, 1 ≤ (M.conf l).gaussians
  absReg : ∀ l, 1 / 10 ^ 9 ≤ (M.conf l).absReg
  leftRight : ∀ l, (M.conf l).ergodic = false

/-- the parameters of a hierarchy of `n` classes that nobody has changed: the classes are equally likely, each of them is followed by every class with the same probability, and the sequence ends
    with probability 1/10 -/
structure HierHmm.UniformAt (n : Nat) (M : HierHmm ℝ) : Prop where
  prior : M.prior = List.replicate n (1 / (n : ℝ))
  trans : M.trans = List.replicate n (List.replicate n (1 / (n : ℝ)))
  exitTrans : M.exitTrans = List.replicate n (1 / 10)

/-- A new class with the parameters `p`, in a hierarchy: it can be left from its last state only, with probability 1/10.  `z` are the members that are not initialised. -/
noncomputable def Hmm.fresh (f : Format) (window : Nat) (p : HmmParams ℝ) (z : ℝ) : Hmm ℝ :=
  { n := p.n, gaussians := p.gaussians, ergodic := p.ergodic, est := p.est, absReg := p.absReg, relReg := p.relReg, mode := p.mode,
    bimodal := f.bimodal, dim := f.dim, di := f.di, window := window, sts := [], prior := [], trans := [],
    alpha := List.replicate 10 0, prevAlpha := List.replicate 10 0, beta := List.replicate 10 0, prevBeta := List.replicate 10 0, alpha0 := [], alpha1 := [], alpha2 := [],
    exitP := (List.range p.n).map fun k => if k + 1 = p.n then 1 / 10 else 0, hier := true, started := false, training := true, winMin := 0, winMax := 0, winNorm := z,
    buf := CBuf.construct 0 1 1, instant := z, logLik := z, progress := z, exitLik := z, exitRatio := z, likeliest := 0, outVals := [], outCov := [] }

/-- The class `l` trained alone on its own takes: the final state of the training and of the class. -/
noncomputable def Hmm.trainedAlone (D : Dens ℝ) (log : ℝ → ℝ) (C : Compare ℝ) (P : EmParams) (cancel : Nat → Bool) (m : Hmm ℝ) (data : KData ℝ) : Res (Hmm ℝ) (Trainer ℝ) :=
  (Hmm.trainee D log Real.sqrt C P KData.deviation data).train C P cancel m

/-- `k` iterations and their log-likelihoods -/
noncomputable def Hmm.emRun (D : Dens ℝ) (log : ℝ → ℝ) (data : KData ℝ) : Nat → Prog (Hmm ℝ) (List ℝ)
  | 0 => pure []
  | k + 1 => do
    let ls ← Hmm.emRun D log data k
    let l ← Hmm.emUpdate D log data
    pure (ls ++ [l])

/-- The log-likelihoods of the first `k` iterations of the training of a class, alone. -/
noncomputable def Hmm.iterations (D : Dens ℝ) (log : ℝ → ℝ) (C : Compare ℝ) (P : EmParams) (k : Nat) (data : KData ℝ) : Prog (Hmm ℝ) (List ℝ) := do
  Hmm.allocate
  Hmm.emInit D log Real.sqrt C P KData.deviation data
  Hmm.emRun D log data k

/-- The program of the user: a new training set, the calls `ops` on it (exceptions are caught), then `train` on the model `M`.  A call that is not defined makes the program
    undefined. -/
noncomputable def recordAndTrainHmm (z : ℝ) (D : Dens ℝ) (log : ℝ → ℝ) (C : Compare ℝ) (P : EmParams) (cancel : String → Nat → Bool)
    (f : Format) (i : Nat) (ops : List (RecOp ℝ String)) (w0 : World ℝ String) : Prog (HierHmm ℝ) Unit := fun M =>
  match openSet i f.bimodal f.dim f.di w0 with
  | .ret _ w1 =>
    match recRun i ops w1 with
    | some (w, _) =>
      match w.sets i with
      | some t => HierHmm.trainSet z D log Real.sqrt C P KData.deviation cancel w t M
      | none => .ub
    | none => .ub
  | _ => .ub

/-- every class has a take with at least as many complete frames as the class has states, and less than 10^90 frames in all -/
def Takes.LongEnough (τ : Takes ℝ String) (states : String → Nat) : Prop :=
  ∀ e ∈ τ, (∃ e' ∈ τ, e'.2.1 = e.2.1 ∧ states e.2.1 ≤ e'.2.2.frames.length) ∧ ((τ.ofClass e.2.1).frames.flatten).length ≤ 10 ^ 90

/-- The classes of the trained model: those whose training is done, each one being the class trained alone on its own takes.  A class is missing only if
    its training was cancelled, or if the log-likelihoods of its last two iterations are both 0. -/
structure HierHmm.TrainedOn (z : ℝ) (D : Dens ℝ) (log : ℝ → ℝ) (C : Compare ℝ) (P : EmParams) (cancel : String → Nat → Bool) (f : Format) (τ : Takes ℝ String)
    (conf : String → HmmParams ℝ) (window : Nat) (M' : HierHmm ℝ) : Prop where
  known : ∀ l ∈ SMap.keys M'.models, ∃ e ∈ τ, e.2.1 = l
  each : ∀ l, (∃ e ∈ τ, e.2.1 = l) → ∃ tr m, Hmm.trainedAlone D log C P (cancel l) (Hmm.fresh f window (conf l) z) (Takes.data f τ l) = .ret tr m ∧
    (∃ k, OneOutcome tr.events k tr.status) ∧
    (tr.status = .done ∧ (∃ m', (l, m') ∈ M'.models ∧ Hmm.SameClass m m') ∨
      l ∉ SMap.keys M'.models ∧ (tr.status = .cancel ∧ (∃ k, cancel l k = true) ∨
        tr.status = .error ∧ ∃ pre m'', Hmm.iterations D log C P tr.updates (Takes.data f τ l) (Hmm.fresh f window (conf l) z) = .ret (pre ++ [0, 0]) m''))

end Xmm
