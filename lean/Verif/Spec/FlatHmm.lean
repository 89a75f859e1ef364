import Verif.Spec.HierHmm
/- A model of several hidden Markov models that is not hierarchical. -/
namespace Xmm
variable {K : Type} [Field K] [LinearOrder K]

/-- each number twice -/
def HierSpec.twice (l : List K) : List K := l.flatMap fun x => [x, x]

/-- A trained model whose parameter `hierarchical` is false: every class could be used on its own, and has the dimensions of the model.  An
    ergodic class must have been reset since its training with that parameter (see `C85_ergodic_ub`). -/
structure HierHmm.FlatTrained (M : HierHmm K) : Prop where
  idle : M.training = false
  flat : M.hier = false
  nulls : M.nulls = []
  sorted : SMap.Sorted M.models
  cls : ∀ lc ∈ M.models, ({ lc.2 with hier := false } : Hmm K).Usable ∧ lc.2.bimodal = M.bimodal ∧ lc.2.dim - lc.2.di = M.dim - M.di ∧
    (lc.2.ergodic = true → lc.2.hier = false)
  mode : M.bimodal = true → ∀ lc ∈ M.models, lc.2.mode = M.mode

end Xmm
