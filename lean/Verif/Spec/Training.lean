import Verif.Model.Training
import Mathlib.Algebra.Order.Group.Abs
/-
What the training of one class must do, in terms of the events that the listeners receive.
-/
namespace Xmm

/-- `k` events Run, with increasing numbers of iterations from 1, then one last event -/
def OneOutcome (evs : List TrainEvent) (k : Nat) (last : Status) : Prop :=
  evs.length = k + 1 ∧ (∀ i < k, ∃ e, evs[i]? = some e ∧ e.status = .run ∧ e.iterations = i + 1) ∧ ∃ e, evs[k]? = some e ∧ e.status = last

/-- the outcomes of the training of a class -/
def Status.Final (s : Status) : Prop := s = .done ∨ s = .error ∨ s = .cancel

/-- the number of iterations of a training that nothing disturbs, if it does not stop by convergence -/
def EmParams.limit (P : EmParams) : Nat := min P.maxIter 1000

/-- a training that nothing disturbs: no cancellation, no exception, no undefined number -/
structure EmEnv.Quiet {V : Type} (E : EmEnv V) : Prop where
  init : E.init = true
  update : ∀ k, ∃ v, E.update k = some v
  cancel : ∀ k, E.cancel k = false
  nan : ∀ l o, E.isNan l o = false

/-- `v` is the log-likelihood after `k` iterations; before the first one it is the lowest number -/
def EmEnv.At {V : Type} (E : EmEnv V) (k : Nat) (v : V) : Prop := if k = 0 then v = E.lowest else E.update (k - 1) = some v

/-- the log-likelihood has hardly changed in the iteration number `k` (`close`: by at most `em_algorithm_percent_chg` per cent) -/
def EmEnv.Converged {V : Type} (E : EmEnv V) (k : Nat) : Prop := ∃ l o, E.At k l ∧ E.At (k - 1) o ∧ E.close l o = true

/-- of the log-likelihoods `ls` of the iterations, that of the iteration number `k` (the first one has number 1) differs from the one before by at most `pct` per cent; before the first
    one it is `lowest` -/
def SmallChange {K : Type} [Field K] [LinearOrder K] (lowest pct : K) (ls : List K) (k : Nat) : Prop :=
  ∃ l o, (lowest :: ls)[k]? = some l ∧ (lowest :: ls)[k - 1]? = some o ∧ l ≠ 0 ∧ |l - o| ≤ pct / 100 * |l|

/-- the training is done after `k` iterations, of log-likelihoods `ls`: with a maximum number of iterations that is not below the minimum, `k` is that number (1000 at most); otherwise `k`
    is the first number, from the minimum on, of an iteration with a small change (and 1000 if there is none before) -/
def EmParams.StopsAt {K : Type} [Field K] [LinearOrder K] (P : EmParams) (lowest pct : K) (ls : List K) (k : Nat) : Prop :=
  (P.minIter ≤ P.maxIter → k = min P.maxIter 1000) ∧
  (P.maxIter < P.minIter → (k = 1000 ∨ (P.minIter ≤ k ∧ SmallChange lowest pct ls k)) ∧ ∀ j < k, P.minIter ≤ j → ¬ SmallChange lowest pct ls j)

end Xmm
