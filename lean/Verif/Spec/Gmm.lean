import Verif.Model.Gmm
import Verif.Spec.Gaussian
import Mathlib.Algebra.BigOperators.Intervals
/- The quantities of the expectation-maximisation algorithm for mixtures. -/
namespace Xmm.GmmSpec
variable {K : Type} [Field K] [LinearOrder K]

/-- weight times density of component `c`, or 1e-100 if that is zero -/
def score (w d : Nat → K) (c : Nat) : K := if w c * d c = 0 then 1 / 10 ^ 100 else w c * d c

/-- responsibility of component `c` among `n` -/
def resp (n : Nat) (w d : Nat → K) (c : Nat) : K := score w d c / ∑ j ∈ Finset.range n, score w d j

/-- sum over the frames of `f`, weighted by the responsibilities of component `c` -/
def wsum (n : Nat) (w : Nat → K) (dens : List K → Nat → K) (frames : List (List K)) (c : Nat) (f : List K → K) : K :=
  (frames.map fun x => resp n w (dens x) c * f x).sum

/-- weighted average of `f` over the frames -/
def wavg (n : Nat) (w : Nat → K) (dens : List K → Nat → K) (frames : List (List K)) (c : Nat) (f : List K → K) : K :=
  wsum n w dens frames c f / wsum n w dens frames c fun _ => 1

/-- weighted mean of dimension `k` -/
def wmean (n : Nat) (w : Nat → K) (dens : List K → Nat → K) (frames : List (List K)) (c k : Nat) : K :=
  wavg n w dens frames c fun x => x.getD k 0

/-- weighted covariance of dimensions `i` and `j` -/
def wcov (n : Nat) (w : Nat → K) (dens : List K → Nat → K) (frames : List (List K)) (c i j : Nat) : K :=
  wavg n w dens frames c fun x =>
    (x.getD i 0 - wmean n w dens frames c i) * (x.getD j 0 - wmean n w dens frames c j)

/-- the coefficients of a mixture, by numbers -/
def weights (m : Gmm K) (c : Nat) : K := m.coeffs.getD c 0

/-- `dens x c` is what the likelihood function of component `c` answers for the frame `x` -/
def Densities (D : Dens K) (m : Gmm K) (frames : List (List K)) (dens : List K → Nat → K) : Prop :=
  ∀ x ∈ frames, ∀ c, ∀ g, m.comps[c]? = some g →
    (if m.bimodal then D.bimodal (x.take m.di) (x.drop m.di) else D.joint x) g = .ret (dens x c) g

end Xmm.GmmSpec

namespace Xmm
variable {K : Type} [Field K] [LinearOrder K]

/-- The likelihood functions are defined on a distribution with non-zero determinant and never answer less than 1e-180. -/
structure Dens.Sound (D : Dens K) : Prop where
  joint : ∀ g : Gauss K, g.WF → ∀ obs : List K, g.dim ≤ obs.length → g.det ≠ 0 →
    ∃ p, D.joint obs g = .ret p g ∧ 1 / 10 ^ 180 ≤ p
  input : ∀ g : Gauss K, g.WF → g.bimodal = true → ∀ x : List K, g.di ≤ x.length → g.detIn ≠ 0 →
    ∃ p, D.input x g = .ret p g ∧ 1 / 10 ^ 180 ≤ p
  bimodal : ∀ g : Gauss K, g.WF → g.bimodal = true → ∀ x y : List K, g.di ≤ x.length → g.dim - g.di ≤ y.length → g.det ≠ 0 →
    ∃ p, D.bimodal x y g = .ret p g ∧ 1 / 10 ^ 180 ≤ p

/-- sizes and dimensions of a mixture after `allocate()` -/
structure Gmm.WF (m : Gmm K) : Prop where
  pos : 1 ≤ m.gaussians
  comps : m.comps.length = m.gaussians
  coeffs : m.coeffs.length = m.gaussians
  beta : m.beta.length = m.gaussians
  comp : ∀ g ∈ m.comps, g.WF ∧ g.dim = m.dim ∧ g.di = m.di ∧ g.mode = m.mode ∧ g.bimodal = m.bimodal

/-- a probability distribution -/
def IsDistribution (w : List K) : Prop := (∀ x ∈ w, 0 ≤ x) ∧ w.sum = 1

/-- a mixture on which the likelihood is defined: the coefficients are a probability distribution and the covariances have
    been inverted -/
structure Gmm.Ready (m : Gmm K) : Prop where
  wf : m.WF
  coeffs : IsDistribution m.coeffs
  det : ∀ g ∈ m.comps, g.det ≠ 0 ∧ (g.bimodal = true → g.detIn ≠ 0)

/-- every frame has the dimension of the model, and there is one -/
structure Gmm.Trains (m : Gmm K) (data : KData K) : Prop where
  frame : ∀ x ∈ data.frames, x.length = m.dim
  some : data.frames ≠ []
  reg : m.reg.length = m.dim

/-- `m'` has the parameters that one step of expectation-maximisation with diagonal regularisation prescribes: the coefficient of a
    component is its average responsibility, its mean the weighted mean, its covariance the weighted covariance (in
    Diagonal mode only the variances) plus the regularisation on the diagonal.  Nothing else changes. -/
structure Gmm.Updated (m : Gmm K) (frames : List (List K)) (dens : List K → Nat → K) (m' : Gmm K) : Prop where
  wf : m'.WF
  same : m' = { m with coeffs := m'.coeffs, comps := m'.comps }
  coeff : ∀ c < m.gaussians, m'.coeffs.getD c 0 =
    GmmSpec.wsum m.gaussians (GmmSpec.weights m) dens frames c (fun _ => 1) / (frames.length : K)
  mean : ∀ c g', m'.comps[c]? = some g' → ∀ k < m.dim, g'.mean.getD k 0 =
    GmmSpec.wmean m.gaussians (GmmSpec.weights m) dens frames c k
  cov : ∀ c g', m'.comps[c]? = some g' → ∀ i < m.dim, ∀ j < m.dim, g'.covAt i j =
    (if m.mode = .diagonal ∧ i ≠ j then 0 else GmmSpec.wcov m.gaussians (GmmSpec.weights m) dens frames c i j) +
    (if i = j then m.reg.getD i 0 else 0)

end Xmm
