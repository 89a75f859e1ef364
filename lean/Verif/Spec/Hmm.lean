import Verif.Model.Hmm
import Verif.Spec.Recognition
import Mathlib.Data.Fintype.BigOperators
/- Hidden Markov models: start and transition probabilities, sums over state paths. -/
namespace Xmm
variable {K : Type} [Field K] [LinearOrder K]

namespace HmmSpec

/-- the probability of starting in state `i`: a left-right model starts in the first state -/
def start (m : Hmm K) (i : Nat) : K := if m.ergodic then m.prior.getD i 0 else if i = 0 then 1 else 0

/-- the probability of going from state `i` to state `j`.  A left-right model stays, or goes to the next state (the first one comes
    after the last one). -/
def step (m : Hmm K) (i j : Nat) : K :=
  if m.ergodic then m.trans.getD (i * m.n + j) 0
  else (if j = i then m.trans.getD (i * 2) 0 else 0) + (if j = (i + 1) % m.n then m.trans.getD (i * 2 + 1) 0 else 0)

/-- the joint probability of the states `s` and the observations: `b t i` is the likelihood of observation number `t` in state `i` -/
def pathWeight {n : Nat} (start : Nat → K) (step : Nat → Nat → K) (b : Nat → Nat → K) {T : Nat} (s : Fin (T + 1) → Fin n) : K :=
  start (s 0) * (∏ t : Fin T, step (s t.castSucc) (s t.succ)) * ∏ t : Fin (T + 1), b t (s t)

/-- the likelihood of the first `T + 1` observations: the sum over all paths of `n` states -/
def total (n : Nat) (start : Nat → K) (step : Nat → Nat → K) (b : Nat → Nat → K) (T : Nat) : K :=
  ∑ s : Fin (T + 1) → Fin n, pathWeight start step b s

/-- the part of it in which the last state is `j` -/
def endingIn (n : Nat) (start : Nat → K) (step : Nat → Nat → K) (b : Nat → Nat → K) (T : Nat) (j : Nat) : K :=
  ∑ s : Fin (T + 1) → Fin n, if (s (Fin.last T) : Nat) = j then pathWeight start step b s else 0

/-- `b i` is the likelihood of the observation `x` (of its input part, in a bimodal model) in state `i` -/
def Emits (D : Dens K) (m : Hmm K) (x : List K) (b : Nat → K) : Prop :=
  ∀ (i : Nat) (s : Gmm K), m.sts[i]? = some s →
    ∃ d, RecSpec.ObsDensities D s x d ∧ b i = RecSpec.mixture s.gaussians (GmmSpec.weights s) d

end HmmSpec

/-- sizes and dimensions of a hidden Markov model after `allocate()` -/
structure Hmm.WF (m : Hmm K) : Prop where
  pos : 1 ≤ m.n
  sts : m.sts.length = m.n
  prior : m.ergodic = true → m.prior.length = m.n
  trans : m.trans.length = if m.ergodic then m.n * m.n else m.n * 2
  state : ∀ s ∈ m.sts, s.gaussians = m.gaussians ∧ s.mode = m.mode ∧ s.bimodal = m.bimodal ∧ s.dim = m.dim ∧ s.di = m.di

/-- The transition probabilities out of each state are not negative and sum to at least 1/20.  (They sum to 1 after training, but
    `reset()` sets that from the last state to the first one to 1/20.) -/
structure Hmm.Chain (m : Hmm K) : Prop where
  start_nonneg : ∀ i < m.n, 0 ≤ HmmSpec.start m i
  start_sum : ∑ i ∈ Finset.range m.n, HmmSpec.start m i = 1
  step_nonneg : ∀ i < m.n, ∀ j < m.n, 0 ≤ HmmSpec.step m i j
  step_sum : ∀ i < m.n, 1 / 20 ≤ ∑ j ∈ Finset.range m.n, HmmSpec.step m i j

/-- a hidden Markov model that can be used for recognition: each state is a mixture that can filter, with a buffer of some length -/
structure Hmm.CanFilter (m : Hmm K) : Prop where
  wf : m.WF
  chain : m.Chain
  idle : m.training = false
  window : 1 ≤ m.window
  state : ∀ s ∈ m.sts, s.CanFilter ∧ ∃ w hist, Logs s.buf w hist

/-- an observation of the size that the model reads -/
def Hmm.Fits (m : Hmm K) (x : List K) : Prop := if m.bimodal then m.di ≤ x.length else m.dim ≤ x.length


namespace HmmSpec

/-- the probability of state `i` after the last observation (in a hierarchical model: of being in it and staying in the class or
    having entered it by going on to another one) -/
def occ (m : Hmm K) (i : Nat) : K := if m.hier then m.alpha0.getD i 0 + m.alpha1.getD i 0 else m.alpha.getD i 0

/-- the joint probability of being in state `j` after the next observation and of that observation, whose likelihood in each
    state is `b` -/
def weight (m : Hmm K) (b : Nat → K) (j : Nat) : K :=
  (if m.started then ∑ i ∈ Finset.range m.n, m.alpha.getD i 0 * step m i j else start m j) * b j

/-- the likelihood of the next observation -/
def evidence (m : Hmm K) (b : Nat → K) : K := ∑ j ∈ Finset.range m.n, weight m b j

/-- `v i` and `c i` are the output predicted by state `i` and its covariance -/
def Predicts (D : Dens K) (m : Hmm K) (x : List K) (v c : Nat → List K) : Prop :=
  ∀ (i : Nat) (s : Gmm K), m.sts[i]? = some s → ∃ d y, RecSpec.ObsDensities D s x d ∧ RecSpec.Predictions s x y ∧
    (v i = (List.range (m.dim - m.di)).map fun k =>
      ∑ j ∈ Finset.range s.gaussians, RecSpec.share s.gaussians (GmmSpec.weights s) d j * (y j).getD k 0) ∧
    (c i = (List.range (outCells m.mode (m.dim - m.di))).map fun k => ∑ j ∈ Finset.range s.gaussians,
      RecSpec.share s.gaussians (GmmSpec.weights s) d j ^ 2 * ((s.comps[j]?.map fun g => g.outCov.getD k 0).getD 0))

/-- `i` is the first state of greatest probability -/
def IsLikeliest (m : Hmm K) (i : Nat) : Prop :=
  i < m.n ∧ (∀ j < m.n, occ m j ≤ occ m i) ∧ ∀ j < i, occ m j < occ m i

/-- the window of states around the likeliest one -/
structure Windowed (m : Hmm K) : Prop where
  likeliest : IsLikeliest m m.likeliest
  lo : m.winMin = m.likeliest - m.n / 2
  hi : m.winMax = min (m.likeliest + m.n / 2) m.n
  norm : m.winNorm = ∑ i ∈ Finset.Ico m.winMin m.winMax, occ m i

/-- the weight of state `i` in the output -/
def outWeight (m : Hmm K) (i : Nat) : K :=
  match m.est with
  | .full => occ m i
  | .windowed => if m.winMin ≤ i ∧ i < m.winMax then occ m i / (if m.winNorm ≤ 0 then 1 else m.winNorm) else 0
  | .likeliest => if i = m.likeliest then 1 else 0

/-- the weight of state `i` in the covariance of the output -/
def covWeight (m : Hmm K) (i : Nat) : K :=
  match m.est with
  | .full => occ m i * occ m i
  | .windowed => if m.winMin ≤ i ∧ i < m.winMax then occ m i * occ m i / (if m.winNorm ≤ 0 then 1 else m.winNorm) else 0
  | .likeliest => 0

end HmmSpec

/-- the same mixtures, ready to filter; what recognition writes in them may differ -/
def SameStates (l l' : List (Gmm K)) : Prop :=
  l'.length = l.length ∧ ∀ (i : Nat) (s s' : Gmm K), l[i]? = some s → l'[i]? = some s' →
    Gmm.SameModel s s' ∧ s'.CanFilter ∧ ∃ w hist, Logs s'.buf w hist

/-- one forward variable per state -/
def Hmm.Sized (m : Hmm K) : Prop :=
  if m.hier then m.alpha0.length = m.n ∧ m.alpha1.length = m.n ∧ m.alpha2.length = m.n else m.alpha.length = m.n

namespace Hmm

/-- `filter` on each observation of a stream; the list of the returned likelihoods -/
def filterAll (D : Dens K) (log : K → K) : List (List K) → Prog (Hmm K) (List K)
  | [] => pure []
  | x :: xs => do
    let p ← filter D log x
    let ps ← filterAll D log xs
    pure (p :: ps)

/-- `m'` has the parameters of `m`; what recognition writes may differ -/
def SameModel (m m' : Hmm K) : Prop :=
  m' = { m with
    sts := m'.sts, alpha := m'.alpha, prevAlpha := m'.prevAlpha, started := m'.started, winMin := m'.winMin, winMax := m'.winMax,
    winNorm := m'.winNorm, buf := m'.buf, instant := m'.instant, logLik := m'.logLik, progress := m'.progress,
    likeliest := m'.likeliest, outVals := m'.outVals, outCov := m'.outCov } ∧ SameStates m.sts m'.sts

/-- The effect of `filter(x)` on a model that is not part of a hierarchy: `b` are the likelihoods of the observation in the states, `hist` the
    logs of the likelihoods since `reset()`, `v` and `c` the outputs predicted by the states and their covariances. -/
structure Filtered (m : Hmm K) (log : K → K) (hist : List K) (b : Nat → K) (v c : Nat → List K) (m' : Hmm K) : Prop where
  same : m.SameModel m'
  started : m'.started = true
  alpha : m'.alpha = (List.range m.n).map fun j => HmmSpec.weight m b j / HmmSpec.evidence m b
  instant : m'.instant = HmmSpec.evidence m b
  logLik : m'.logLik = RecSpec.avgLast m.window (hist ++ [log (HmmSpec.evidence m b)])
  windowed : HmmSpec.Windowed m'
  progress : m'.progress = (∑ i ∈ Finset.Ico m'.winMin m'.winMax, HmmSpec.occ m' i * (i : K) / m'.winNorm) /
    (if m.n - 1 = 0 then 1 else ((m.n - 1 : Nat) : K))
  unimodal : m.bimodal = false → m'.outVals = m.outVals ∧ m'.outCov = m.outCov
  outVals : m.bimodal = true → m'.outVals = (List.range (m.dim - m.di)).map fun k =>
    ∑ i ∈ Finset.range m.n, HmmSpec.outWeight m' i * (v i).getD k 0
  outCov : m.bimodal = true → m'.outCov = (List.range (outCells m.mode (m.dim - m.di))).map fun k =>
    ∑ i ∈ Finset.range m.n, HmmSpec.covWeight m' i * (c i).getD k 0

end Hmm

/-- What recognition assumes: the model can filter, it is not part of a hierarchy, and the buffer and (if it is ergodic) the state
    probabilities have been allocated. -/
structure Hmm.Usable (m : Hmm K) : Prop where
  can : m.CanFilter
  flat : m.hier = false
  buf : BufOk m.buf
  alpha : m.ergodic = true → m.alpha.length = m.n

/-- The start probabilities are a distribution, and so are the transition probabilities out of each state. -/
structure Hmm.Stochastic (m : Hmm K) : Prop where
  start_nonneg : ∀ i < m.n, 0 ≤ HmmSpec.start m i
  start_sum : ∑ i ∈ Finset.range m.n, HmmSpec.start m i = 1
  step_nonneg : ∀ i < m.n, ∀ j < m.n, 0 ≤ HmmSpec.step m i j
  step_sum : ∀ i < m.n, ∑ j ∈ Finset.range m.n, HmmSpec.step m i j = 1

/-- parameters accepted by the attributes: at least one state and one component; the dimensions of a Gaussian distribution -/
structure Hmm.Admissible (m : Hmm K) : Prop where
  n : 1 ≤ m.n
  gaussians : 1 ≤ m.gaussians
  dim : (if m.bimodal then 2 else 1) ≤ m.dim
  di : m.di ≤ (if m.bimodal then m.dim - 1 else 0)

end Xmm
