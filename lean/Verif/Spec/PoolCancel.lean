import Verif.Model.PoolCancel
import Verif.Spec.Pool
/-
What cancelling a training must do.
-/
namespace Xmm
namespace Canceller

/-- `cancelTraining()` is called in the state `s` -/
def calls (s : Pool) : Canceller := ⟨s, .enter, [], []⟩

/-- `cancelTraining(l)` is called in the state `s` -/
def callsOne (l : String) (s : Pool) : Canceller := ⟨s, .one l, [], []⟩

/-- The states that the steps allowed by `ok` lead to, in any order -/
inductive Reach (ok : Canceller → Act → Prop) (c₀ : Canceller) : Canceller → Prop
  | refl : Reach ok c₀ c₀
  | step {c c' : Canceller} {a : Act} : Reach ok c₀ c → ok c a → c.act a = some c' → Reach ok c₀ c'

/-- All orders of the steps; `compare_exchange_weak` does not fail spuriously. -/
def Strong (c : Canceller) (a : Act) : Prop := (∀ w, a = .cancel w → w = false) ∧ ∀ b, a = .other b → Pool.Strong c.pool b

/-- The same, and the last class in training does not end before the request to cancel is registered. -/
def InTime (c : Canceller) (a : Act) : Prop :=
  Strong c a ∧ ∀ l st, a = .other (.final l st) → c.pool.cancelRequired = true ∨ 1 < c.pool.still

/-- The same for `cancelTraining(l)`: during the call the class `l` does not fail, and no class ends its training as the last one, except the class `l` after the request. -/
def InTimeOne (l : String) (c : Canceller) (a : Act) : Prop :=
  Strong c a ∧ a ≠ .fails l ∧ ∀ m st, a = .other (.final m st) → 1 < c.pool.still ∨ (m = l ∧ c.pool.cancelRequired = true)

end Canceller
end Xmm
