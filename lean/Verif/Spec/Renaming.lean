import Verif.Spec.GmmTrain
import Verif.Spec.HierHmm
/- Other names for the classes. -/
namespace Xmm
open TS

/-- the same call with other names of the classes -/
def TS.RecOp.rename {K : Type} (ρ : String → String) : RecOp K String → RecOp K String
  | .add k l => .add k (ρ l)
  | .relabel k l => .relabel k (ρ l)
  | .removeClass l => .removeClass (ρ l)
  | op => op

/-- the settings of the class `ρ l` in `T` are those of the class `l` in `S` -/
structure GmmSettings.Renamed (ρ : String → String) (S T : GmmSettings ℝ) : Prop where
  window : T.window = S.window
  em : T.em = S.em
  gaussians : ∀ l, T.gaussians (ρ l) = S.gaussians l
  relReg : ∀ l, T.relReg (ρ l) = S.relReg l
  absReg : ∀ l, T.absReg (ρ l) = S.absReg l
  mode : ∀ l, T.mode (ρ l) = S.mode l

/-- the classes of `N` are those of `M` with other names -/
structure GmmModel.RenamedAs (ρ : String → String) (M N : GmmModel ℝ) : Prop where
  bimodal : N.bimodal = M.bimodal
  mode : N.mode = M.mode
  est : N.est = M.est
  fwd : ∀ lc ∈ M.models, ∃ m, (ρ lc.1, m) ∈ N.models ∧ Gmm.SameModel lc.2 m
  bwd : ∀ lc ∈ N.models, ∃ l m, (l, m) ∈ M.models ∧ ρ l = lc.1

/-- what a model reports for a class: its label, its likelihood, the normalised one, its smoothed log-likelihood and the normalised smoothed likelihood -/
structure ClassReport where
  label : String
  inst : ℝ
  instNorm : ℝ
  smoothedLog : ℝ
  smoothedNorm : ℝ

/-- the report with another name of the class -/
def ClassReport.rename (ρ : String → String) (e : ClassReport) : ClassReport := { e with label := ρ e.label }

/-- the reports for all classes -/
def GmmModel.report (M : GmmModel ℝ) : List ClassReport := (List.range M.models.length).map fun i =>
  ⟨(SMap.keys M.models).getD i "", M.results.inst.getD i 0, M.results.instNorm.getD i 0, M.results.smoothedLog.getD i 0, M.results.smoothedNorm.getD i 0⟩

/-- one class is strictly likelier than all others -/
def NoTie (r : List ClassReport) : Prop := ∃ e ∈ r, ∀ e' ∈ r, e' = e ∨ e'.smoothedLog < e.smoothedLog

namespace HierHmm

/-- the prior probability of the class `l` -/
def priorOf (M : HierHmm ℝ) (l : String) : ℝ := M.prior.getD ((SMap.keys M.models).idxOf l) 0

/-- the probability of going from the class `l` to the class `k` -/
def transOf (M : HierHmm ℝ) (l k : String) : ℝ := (M.trans.getD ((SMap.keys M.models).idxOf l) []).getD ((SMap.keys M.models).idxOf k) 0

/-- the probability of going back to the root when leaving the class `l` -/
def exitOf (M : HierHmm ℝ) (l : String) : ℝ := M.exitTrans.getD ((SMap.keys M.models).idxOf l) 0

/-- The hierarchy and the classes of `N` are those of `M` with other names.  (The last likelihood is remembered by ergodic classes, C48.) -/
structure RenamedAs (ρ : String → String) (M N : HierHmm ℝ) : Prop where
  bimodal : N.bimodal = M.bimodal
  mode : N.mode = M.mode
  est : N.est = M.est
  prior : ∀ l ∈ SMap.keys M.models, N.priorOf (ρ l) = M.priorOf l
  trans : ∀ l ∈ SMap.keys M.models, ∀ k ∈ SMap.keys M.models, N.transOf (ρ l) (ρ k) = M.transOf l k
  exits : ∀ l ∈ SMap.keys M.models, N.exitOf (ρ l) = M.exitOf l
  fwd : ∀ lc ∈ M.models, ∃ n, (ρ lc.1, n) ∈ N.models ∧ Hmm.SameClass lc.2 n ∧ (lc.2.ergodic = true → n.instant = lc.2.instant)
  bwd : ∀ lc ∈ N.models, ∃ l m, (l, m) ∈ M.models ∧ ρ l = lc.1

/-- the reports for all classes -/
def report (M : HierHmm ℝ) : List ClassReport := (List.range M.models.length).map fun i =>
  ⟨(SMap.keys M.models).getD i "", M.results.inst.getD i 0, M.results.instNorm.getD i 0, M.results.smoothedLog.getD i 0, M.results.smoothedNorm.getD i 0⟩

end HierHmm

end Xmm
