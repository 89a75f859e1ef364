import Verif.Model.GmmFilter
import Verif.Spec.Gmm
import Verif.Props.CircularBuffer
/- What recognition and regression compute. -/
namespace Xmm
variable {K : Type} [Field K] [LinearOrder K]

/-- the buffer has seen exactly the values `hist` since it was cleared -/
def Logs (b : CBuf K 1) (w : Nat) (hist : List K) : Prop := b.Holds w (hist.map fun l _ => l)

/-- a buffer whose vector has the declared length -/
def BufOk (b : CBuf K 1) : Prop := b.data.length = b.length

namespace RecSpec

/-- the average of the last `w` numbers (of all of them if there are fewer) -/
def avgLast (w : Nat) (l : List K) : K := (CBufSpec.lastN w l).sum / ((CBufSpec.lastN w l).length : K)

/-- the likelihood of a mixture: weights times densities -/
def mixture (n : Nat) (w d : Nat → K) : K := ∑ c ∈ Finset.range n, w c * d c

/-- the posterior probability of component `c` -/
def share (n : Nat) (w d : Nat → K) (c : Nat) : K := w c * d c / mixture n w d

/-- `d c` is what the likelihood function of component `c` answers for an observation: of the whole frame, or of the input
    in a bimodal model -/
def ObsDensities (D : Dens K) (m : Gmm K) (x : List K) (d : Nat → K) : Prop :=
  ∀ (c : Nat) (g : Gauss K), m.comps[c]? = some g → (if m.bimodal then D.input x else D.joint x) g = .ret (d c) g

/-- `y c` is the output predicted by component `c` -/
def Predictions (m : Gmm K) (x : List K) (y : Nat → List K) : Prop :=
  ∀ (c : Nat) (g : Gauss K), m.comps[c]? = some g → Gauss.regression x g = .ret (y c) g

end RecSpec

/-- a mixture that can be used for recognition: ready, not training, each component having an output covariance of
    the right size if the model is bimodal -/
structure Gmm.CanFilter (m : Gmm K) : Prop where
  ready : m.Ready
  idle : m.training = false
  window : 1 ≤ m.window
  out : m.bimodal = true → ∀ g ∈ m.comps, g.outCov.length = outCells m.mode (m.dim - m.di)

/-- each component of a bimodal mixture has an output covariance of the right size -/
def Gmm.Outputs (m : Gmm K) : Prop := m.bimodal = true → ∀ g ∈ m.comps, g.outCov.length = outCells m.mode (m.dim - m.di)

/-- The effect of `filter(x)`: `hist` are the logs of the likelihoods since `reset()`, `d` the densities of the components,
    `y` their predictions. -/
structure Gmm.Filtered (m : Gmm K) (log : K → K) (hist : List K) (d : Nat → K) (y : Nat → List K) (m' : Gmm K) : Prop where
  same : m' = { m with beta := m'.beta, buf := m'.buf, instant := m'.instant, logLik := m'.logLik,
                       outVals := m'.outVals, outCov := m'.outCov }
  beta : m'.beta = (List.range m.gaussians).map (RecSpec.share m.gaussians (GmmSpec.weights m) d)
  instant : m'.instant = RecSpec.mixture m.gaussians (GmmSpec.weights m) d
  logLik : m'.logLik = RecSpec.avgLast m.window (hist ++ [log (RecSpec.mixture m.gaussians (GmmSpec.weights m) d)])
  unimodal : m.bimodal = false → m'.outVals = m.outVals ∧ m'.outCov = m.outCov
  outVals : m.bimodal = true → m'.outVals = (List.range (m.dim - m.di)).map fun k =>
    ∑ c ∈ Finset.range m.gaussians, RecSpec.share m.gaussians (GmmSpec.weights m) d c * (y c).getD k 0
  outCov : m.bimodal = true → m'.outCov = (List.range (outCells m.mode (m.dim - m.di))).map fun k =>
    ∑ c ∈ Finset.range m.gaussians, RecSpec.share m.gaussians (GmmSpec.weights m) d c ^ 2 *
      ((m.comps[c]?.map fun g => g.outCov.getD k 0).getD 0)

end Xmm

namespace Xmm.Gmm
variable {K : Type} [Field K] [LinearOrder K]

/-- `filter` on each observation of a stream; the list of the returned likelihoods -/
def filterAll (D : Dens K) (log : K → K) : List (List K) → Prog (Gmm K) (List K)
  | [] => pure []
  | x :: xs => do
    let p ← filter D log x
    let ps ← filterAll D log xs
    pure (p :: ps)

/-- `m'` has the parameters of `m`; what recognition writes (weights, buffer, results) and the regularisation used by training may differ -/
def SameModel (m m' : Gmm K) : Prop :=
  m' = { m with beta := m'.beta, reg := m'.reg, buf := m'.buf, instant := m'.instant, logLik := m'.logLik,
                outVals := m'.outVals, outCov := m'.outCov }

/-- an observation of the size that the model reads -/
def Fits (m : Gmm K) (x : List K) : Prop := if m.bimodal then m.di ≤ x.length else m.dim ≤ x.length

end Xmm.Gmm

namespace Xmm
variable {K : Type} [Field K] [LinearOrder K]

/-- the result vectors have one element per class, as after `reset()` -/
structure MultiRes.Sized (r : MultiRes K) (n : Nat) : Prop where
  inst : r.inst.length = n
  instNorm : r.instNorm.length = n
  smoothed : r.smoothed.length = n
  smoothedNorm : r.smoothedNorm.length = n
  smoothedLog : r.smoothedLog.length = n

/-- What the results of a model must be, given the results of its classes in the order of their labels: the likelihoods, the likelihoods
    divided by their sum, and the first label whose smoothed log-likelihood is the greatest. -/
structure MultiRes.Summary (exp : K → K) (cls : List (String × ClassRes K)) (r : MultiRes K) : Prop where
  inst : r.inst = cls.map fun c => c.2.instant
  smoothedLog : r.smoothedLog = cls.map fun c => c.2.logLik
  smoothed : r.smoothed = cls.map fun c => exp c.2.logLik
  instNorm : r.instNorm = cls.map fun c => c.2.instant / (cls.map fun c => c.2.instant).sum
  smoothedNorm : r.smoothedNorm = cls.map fun c => exp c.2.logLik / (cls.map fun c => exp c.2.logLik).sum
  likeliest : cls ≠ [] → ∃ before c after, cls = before ++ c :: after ∧ r.likeliest = c.1 ∧
    (∀ b ∈ before, b.2.logLik < c.2.logLik) ∧ ∀ a ∈ after, a.2.logLik ≤ c.2.logLik

end Xmm

namespace Xmm
variable {K : Type} [Field K] [LinearOrder K]

/-- A trained model after `reset()`: no class is training, every class can filter and has the dimensions of the model, the result vectors
    have one element per class.  `mode`: the covariance mode of a bimodal class is the default one. -/
structure GmmModel.Usable (M : GmmModel K) : Prop where
  idle : M.training = false
  nulls : M.nulls = []
  sorted : SMap.Sorted M.models
  sized : M.results.Sized M.models.length
  cls : ∀ lc ∈ M.models, lc.2.CanFilter ∧ lc.2.bimodal = M.bimodal ∧ lc.2.dim - lc.2.di = M.dout
  mode : M.bimodal = true → ∀ lc ∈ M.models, lc.2.mode = M.mode
  buf : ∀ lc ∈ M.models, ∃ hist, Logs lc.2.buf lc.2.window hist

/-- value `k` of the output of class number `i` -/
def RecSpec.outVal (cls : List (String × ClassRes K)) (i k : Nat) : K := (cls[i]?.map fun c => c.2.outVals.getD k 0).getD 0

/-- cell `k` of the output covariance of class number `i` -/
def RecSpec.outVar (cls : List (String × ClassRes K)) (i k : Nat) : K := (cls[i]?.map fun c => c.2.outCov.getD k 0).getD 0

/-- What the output of a bimodal model must be: that of the likeliest class, or the average of those of the classes weighted by
    the normalised smoothed likelihoods. -/
def GmmModel.OutputsOf (M : GmmModel K) : Prop :=
  match M.est with
  | .likeliest => ∃ c, (M.results.likeliest, c) ∈ M.models ∧ M.results.outVals = c.outVals ∧ M.results.outCov = c.outCov
  | .mixture =>
    (M.results.outVals = (List.range M.dout).map fun k =>
      ∑ i ∈ Finset.range M.models.length, M.results.smoothedNorm.getD i 0 * RecSpec.outVal M.classes i k) ∧
    (M.results.outCov = (List.range (outCells M.mode M.dout)).map fun k =>
      ∑ i ∈ Finset.range M.models.length, M.results.smoothedNorm.getD i 0 * RecSpec.outVar M.classes i k)

end Xmm
