import Verif.Spec.GmmInit
import Mathlib.Data.Real.Sqrt
import Mathlib.Logic.Equiv.Defs
import Mathlib.Data.List.OfFn
/- The same data in other axes: the columns in another order, some of them with the opposite sign, and another origin. -/
namespace Xmm

/-- a change of axes in dimension `d`: column `k` of the new frames is column `axis k` of the old ones, multiplied by `sign k` (1 or -1), plus `shift k` -/
structure NewAxes (d : Nat) where
  axis : Fin d ≃ Fin d
  sign : Fin d → ℝ
  shift : Fin d → ℝ
  unit : ∀ k, sign k = 1 ∨ sign k = -1

namespace NewAxes
variable {d : Nat} (A : NewAxes d)

/-- a frame in the new axes -/
def frame (x : List ℝ) : List ℝ := List.ofFn fun k => A.sign k * x.getD (A.axis k).val 0 + A.shift k

/-- a training set in the new axes -/
def data (s : KData ℝ) : KData ℝ where
  dim := s.dim
  phrases := s.phrases.map fun p => p.map A.frame

/-- the standard deviations in the new order -/
def spread (sd : List ℝ) : List ℝ := List.ofFn fun k => sd.getD (A.axis k).val 0

/-- `m'` is the mixture `m` in the new axes: the same weights; the means are moved as the frames are; the covariances are those of the moved columns, and so is the
    regularisation -/
structure Carries (m m' : Gmm ℝ) : Prop where
  dim : m.dim = d
  same : m' = { m with coeffs := m'.coeffs, beta := m'.beta, comps := m'.comps, reg := m'.reg }
  size : m'.comps.length = m.comps.length
  coeffs : m'.coeffs = m.coeffs
  reg : ∀ k : Fin d, m'.reg.getD k.val 0 = m.reg.getD (A.axis k).val 0
  mean : ∀ (c : Nat) (g g' : Gauss ℝ), m.comps[c]? = some g → m'.comps[c]? = some g' →
    ∀ k : Fin d, g'.mean.getD k.val 0 = A.sign k * g.mean.getD (A.axis k).val 0 + A.shift k
  cov : ∀ (c : Nat) (g g' : Gauss ℝ), m.comps[c]? = some g → m'.comps[c]? = some g' →
    ∀ i j : Fin d, g'.covAt i.val j.val = A.sign i * A.sign j * g.covAt (A.axis i).val (A.axis j).val

/-- the columns of the input modality (the first `di`) stay in the input modality -/
def KeepsInput (di : Nat) : Prop := ∀ k : Fin d, k.val < di ↔ (A.axis k).val < di

/-- an observation of the input modality in the new axes -/
def input (di : Nat) (x : List ℝ) : List ℝ := (A.frame x).take di

/-- The output predicted by `m'` is the one predicted by `m`, in the new axes: the values are moved as the frames are, the covariances are those of the moved columns.  Column `k` of
    the frames is element `k - di` of the output. -/
structure CarriesOutput (di : Nat) (m m' : Gmm ℝ) : Prop where
  sizes : m.outVals.length = d - di ∧ m'.outVals.length = d - di ∧ m'.outCov.length = m.outCov.length
  vals : ∀ k : Fin d, di ≤ k.val → m'.outVals.getD (k.val - di) 0 = A.sign k * m.outVals.getD ((A.axis k).val - di) 0 + A.shift k
  full : m.mode = .full → m.outCov.length = (d - di) * (d - di) ∧ ∀ i j : Fin d, di ≤ i.val → di ≤ j.val → m'.outCov.getD ((i.val - di) * (d - di) + (j.val - di)) 0 =
    A.sign i * A.sign j * m.outCov.getD (((A.axis i).val - di) * (d - di) + ((A.axis j).val - di)) 0
  diagonal : m.mode = .diagonal → m.outCov.length = d - di ∧ ∀ k : Fin d, di ≤ k.val → m'.outCov.getD (k.val - di) 0 = m.outCov.getD ((A.axis k).val - di) 0

end NewAxes

/-- the standard deviation of each of the `d` columns -/
noncomputable def deviations (d : Nat) (frames : List (List ℝ)) : List ℝ := List.ofFn fun k : Fin d => Real.sqrt (GmmSpec.covariance frames k.val k.val)

/-- During the iterations of k-means, every center is the nearest center of some frame. -/
def KMeans.NoneIdle (threshold : ℝ) (clusters maxIter dim : Nat) (frames : List (List ℝ)) (init : Nat → Nat → ℝ) : Prop :=
  ∀ (n : Nat) (cs : Nat → List ℝ), n ≤ maxIter → (∀ k < clusters, ∀ d < dim, center (cs 0) dim k d = init k d) →
    (∀ i < n, ∀ k < clusters, ∀ d < dim, center (cs (i + 1)) dim k d =
      if members clusters dim (cs i) frames k = [] then 0 else meanOf (members clusters dim (cs i) frames k) d) →
    (∀ i, i + 1 < n → ¬ Converged threshold clusters dim (cs i) (cs (i + 1))) →
    ∀ i < n, ∀ k < clusters, members clusters dim (cs i) frames k ≠ []

/-- the training does not depend on the origin: the first phrase has as many frames as there are components, and k-means leaves no center without frames -/
structure Gmm.Steady (m : Gmm ℝ) (data : KData ℝ) : Prop where
  first : m.gaussians ≤ (data.phrases.headD []).length
  busy : KMeans.NoneIdle (1 / 10 ^ 20) m.gaussians 50 m.dim data.frames
    (KMeans.segmentMean (data.phrases.headD []) ((data.phrases.headD []).length / m.gaussians))

end Xmm
