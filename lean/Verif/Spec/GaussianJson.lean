import Verif.Model.GaussianJson
/- What it means for a distribution to have been restored. -/
namespace Xmm

/-- the outcome of a call without the state of the object -/
def Res.answer {σ α : Type} : Res σ α → Option (Except Exn α)
  | .ret a _ => some (.ok a)
  | .throw e _ => some (.error e)
  | .ub => none

namespace Gauss
variable {F : Type}

/-- the parameters and the cached quantities that the likelihoods and the regression use are the same -/
structure Restored (g g' : Gauss F) : Prop where
  bimodal : g'.bimodal = g.bimodal
  dim : g'.dim = g.dim
  di : g'.di = g.di
  mode : g'.mode = g.mode
  mean : g'.mean = g.mean
  cov : g'.cov = g.cov
  inv : g'.inv = g.inv
  det : g'.det = g.det
  invIn : g'.invIn = g.invIn
  detIn : g'.detIn = g.detIn

/-- a distribution as the library keeps it: vectors of the sizes given by the dimensions and the mode, dimensions of type `unsigned int`, and nothing about an
    input when it is unimodal -/
structure Plain (g : Gauss F) : Prop where
  dim : g.dim ≤ uintMax
  di : g.di ≤ uintMax
  mean : g.mean.length = g.dim
  cov : g.cov.length = (match g.mode with | .full => g.dim * g.dim | .diagonal => g.dim)
  inv : g.inv.length = (match g.mode with | .full => g.dim * g.dim | .diagonal => g.dim)
  invIn : g.bimodal = true → g.invIn.length = (match g.mode with | .full => g.di * g.di | .diagonal => g.di)
  none : g.bimodal = false → g.di = 0 ∧ g.invIn = []
  pos : (if g.bimodal then 2 else 1) ≤ g.dim

end Gauss
end Xmm
