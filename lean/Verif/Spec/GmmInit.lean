import Verif.Model.GmmInit
import Verif.Spec.Recognition
import Verif.Spec.KMeans
/- What the initialisation of a mixture must compute. -/
namespace Xmm.GmmSpec
variable {K : Type} [Field K] [LinearOrder K]

/-- segment number `n` when every phrase is cut in `parts` segments of equal length (the remaining frames are left out) -/
def segmentOf (data : KData K) (parts n : Nat) : List (List K) :=
  data.phrases.flatMap fun p => (p.drop (n * (p.length / parts))).take (p.length / parts)

/-- average of `f` over some frames -/
def average (l : List (List K)) (f : List K → K) : K := (l.map f).sum / (l.length : K)

/-- covariance of dimensions `i` and `j` over some frames -/
def covariance (l : List (List K)) (i j : Nat) : K :=
  average l fun x => (x.getD i 0 - average l fun y => y.getD i 0) * (x.getD j 0 - average l fun y => y.getD j 0)

end Xmm.GmmSpec

namespace Xmm

/-- the parameters with which a mixture can be allocated: those that the attributes admit -/
structure Gmm.Admissible {K : Type} (m : Gmm K) : Prop where
  gaussians : 1 ≤ m.gaussians
  dim : (if m.bimodal then 2 else 1) ≤ m.dim
  di : m.di ≤ (if m.bimodal then m.dim - 1 else 0)

/-- a training set that fits the mixture: at least one frame, every frame and the standard deviation have its dimension -/
structure Gmm.Fed (m : Gmm ℝ) (sd : List ℝ) (data : KData ℝ) : Prop where
  dim : data.dim = m.dim
  frame : ∀ x ∈ data.frames, x.length = m.dim
  some : data.frames ≠ []
  sd : sd.length = m.dim

/-- some phrase has at least as many frames as there are components -/
def Gmm.LongPhrase (m : Gmm ℝ) (data : KData ℝ) : Prop := ∃ p ∈ data.phrases, m.gaussians ≤ p.length

/-- The mixture `m'` is `m` initialised with the training set: the components have the same weight; their means are the centers that
    k-means finds from the segments of the first phrase; the covariance of component `c` is that of the segments number `c` of all
    phrases (in Diagonal mode only the variances), plus the regularisation on the diagonal. -/
structure Gmm.Initialised (m : Gmm ℝ) (sd : List ℝ) (data : KData ℝ) (m' : Gmm ℝ) : Prop where
  same : m' = { m with reg := m'.reg, coeffs := m'.coeffs, comps := m'.comps }
  reg : ∀ i < m.dim, m'.reg.getD i 0 = max m.absReg (m.relReg * sd.getD i 0)
  coeffs : m'.coeffs = List.replicate m.gaussians (1 / (m.gaussians : ℝ))
  mean : ∃ cs, KMeans.IsClustering (1 / 10 ^ 20) m.gaussians 50 m.dim data.frames
      (KMeans.segmentMean (data.phrases.headD []) ((data.phrases.headD []).length / m.gaussians)) cs ∧
    ∀ c g', m'.comps[c]? = some g' → ∀ d < m.dim, g'.mean.getD d 0 = KMeans.center cs m.dim c d
  cov : ∀ c g', m'.comps[c]? = some g' → ∀ i < m.dim, ∀ j < m.dim, g'.covAt i j =
    (if m.mode = .diagonal ∧ i ≠ j then 0 else GmmSpec.covariance (GmmSpec.segmentOf data m.gaussians c) i j) +
    (if i = j then max m.absReg (m.relReg * sd.getD i 0) else 0)

end Xmm
