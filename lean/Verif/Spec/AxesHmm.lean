import Verif.Spec.Axes
import Verif.Spec.HmmInit
/- The same data in other axes, for hidden Markov models. -/
namespace Xmm

/-- `m'` is the hidden Markov model `m` in the new axes: the same start and transition probabilities, and each state is the mixture of the same state of `m` in the new axes.  Only
    working variables may differ otherwise. -/
structure NewAxes.CarriesHmm {d : Nat} (A : NewAxes d) (m m' : Hmm ℝ) : Prop where
  dim : m.dim = d
  same : m' = { m with sts := m'.sts, prior := m'.prior, alpha := m'.alpha, prevAlpha := m'.prevAlpha, beta := m'.beta, prevBeta := m'.prevBeta }
  start : HmmSpec.start m' = HmmSpec.start m
  size : m'.sts.length = m.sts.length
  state : ∀ (i : Nat) (s s' : Gmm ℝ), m.sts[i]? = some s → m'.sts[i]? = some s' → A.Carries s s'

/-- the mixtures trained to initialise the states do not depend on the origin: for each state, k-means leaves no center without frames -/
def Hmm.Steady (m : Hmm ℝ) (data : KData ℝ) : Prop := ∀ n < m.n, (Hmm.tmpGmm m).Steady (HmmSpec.segments data m.n n)

end Xmm
