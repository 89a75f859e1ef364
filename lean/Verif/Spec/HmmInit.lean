import Verif.Spec.GmmInit
import Verif.Spec.HierHmm
import Verif.Model.ClassTraining
/- What the initialisation of a hidden Markov model must compute. -/
namespace Xmm
open GmmSpec

/-- a training set that fits the model: at least one frame, all frames have its dimension -/
structure Hmm.Fed (m : Hmm ℝ) (data : KData ℝ) : Prop where
  dim : data.dim = m.dim
  frame : ∀ x ∈ data.frames, x.length = m.dim
  some : data.frames ≠ []

/-- some phrase has at least as many frames as there are states -/
def Hmm.LongPhrase (m : Hmm ℝ) (data : KData ℝ) : Prop := ∃ p ∈ data.phrases, m.n ≤ p.length

/-- the training set of state `n` of `N`: the phrases with at least `N` frames are cut in `N` segments of equal length, the largest possible;
    frames `n * len, ..., n * len + len - 1` of each of them -/
def HmmSpec.segments (data : KData ℝ) (N n : Nat) : KData ℝ :=
  { dim := data.dim
    phrases := (data.phrases.filter fun p => N ≤ p.length).map fun p => (List.range (p.length / N)).map fun k => p.getD (n * (p.length / N) + k) [] }

/-- The model `m'` is `m` (allocated) initialised with the training set.  Every phrase is cut in as many segments of equal length as there are
    states.  The components of state `n` have the same weight, and the means and covariances of the mixture `g n` trained on the
    segments number `n`.  The transition probabilities are those by default. -/
structure Hmm.Initialised (m : Hmm ℝ) (g : Nat → Gmm ℝ) (m' : Hmm ℝ) : Prop where
  same : m' = { m with trans := m'.trans, prior := m'.prior, sts := m'.sts }
  sizes : m'.sts.length = m.n ∧ (∀ s ∈ m'.sts, s.comps.length = m.gaussians) ∧ ∀ n < m.n, (g n).comps.length = m.gaussians
  coeffs : ∀ s ∈ m'.sts, s.coeffs = List.replicate m.gaussians (1 / (m.gaussians : ℝ))
  comp : ∀ (n : Nat) (s : Gmm ℝ), m'.sts[n]? = some s → ∀ (c : Nat) (d e : Gauss ℝ), s.comps[c]? = some d → (g n).comps[c]? = some e → d.mean = e.mean ∧ d.cov = e.cov
  ergodic : m.ergodic = true → ∀ i < m.n, HmmSpec.start m' i = 1 / (m.n : ℝ) ∧ ∀ j < m.n, HmmSpec.step m' i j = 1 / (m.n : ℝ)
  leftRight : m.ergodic = false → ∀ i < m.n, ∀ j < m.n, HmmSpec.step m' i j =
    if i = m.n - 1 then (if j = i then 1 else 0) else if j = i ∨ j = i + 1 then 1 / 2 else 0

end Xmm
