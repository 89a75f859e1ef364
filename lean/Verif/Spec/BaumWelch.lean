import Verif.Model.BaumWelch
import Verif.Spec.Hmm
/- Posterior probabilities of states and transitions, given a sequence of observations. -/
namespace Xmm
variable {K : Type} [Field K] [LinearOrder K]

namespace HmmSpec

/-- the part of the likelihood of `T + 1` observations in which state number `t` is `i` -/
def atState (n : Nat) (start : Nat → K) (step : Nat → Nat → K) (b : Nat → Nat → K) (T t i : Nat) : K :=
  ∑ s : Fin (T + 1) → Fin n, if (s (Fin.ofNat (T + 1) t) : Nat) = i then pathWeight start step b s else 0

/-- the part in which state number `t` is `i` and the next one is `j` -/
def atStates (n : Nat) (start : Nat → K) (step : Nat → Nat → K) (b : Nat → Nat → K) (T t i j : Nat) : K :=
  ∑ s : Fin (T + 1) → Fin n, if (s (Fin.ofNat (T + 1) t) : Nat) = i ∧ (s (Fin.ofNat (T + 1) (t + 1)) : Nat) = j then
    pathWeight start step b s else 0

/-- the posterior probability that state number `t` is `i` -/
def post (n : Nat) (start : Nat → K) (step : Nat → Nat → K) (b : Nat → Nat → K) (T t i : Nat) : K :=
  atState n start step b T t i / total n start step b T

/-- the posterior probability of a transition from `i` to `j` after state number `t` -/
def postStep (n : Nat) (start : Nat → K) (step : Nat → Nat → K) (b : Nat → Nat → K) (T t i j : Nat) : K :=
  atStates n start step b T t i j / total n start step b T

/-- `d i x c` is what the likelihood function of component `c` of state `i` answers for the frame `x` -/
def Observes (D : Dens K) (m : Hmm K) (frames : List (List K)) (d : Nat → List K → Nat → K) : Prop :=
  ∀ (i : Nat) (s : Gmm K), m.sts[i]? = some s → GmmSpec.Densities D s frames (d i)

/-- the coefficient of component `c` of state `i` -/
def coeff (m : Hmm K) (i c : Nat) : K := (m.sts[i]?.map fun s => GmmSpec.weights s c).getD 0

/-- the likelihood of the frame `x` in state `i`: that of its mixture -/
def likOf (m : Hmm K) (d : Nat → List K → Nat → K) (x : List K) (i : Nat) : K := RecSpec.mixture m.gaussians (coeff m i) (d i x)

/-- the likelihood of frame number `t` in state `i` -/
def likAt (m : Hmm K) (d : Nat → List K → Nat → K) (frames : List (List K)) (t i : Nat) : K := likOf m d (frames.getD t []) i

/-- the posterior probability of state `i` at frame `t` of a phrase -/
def gammaOf (m : Hmm K) (d : Nat → List K → Nat → K) (frames : List (List K)) (t i : Nat) : K :=
  post m.n (start m) (step m) (likAt m d frames) (frames.length - 1) t i

/-- the posterior probability of a transition from state `i` to state `j` after frame `t` of a phrase -/
def xiOf (m : Hmm K) (d : Nat → List K → Nat → K) (frames : List (List K)) (t i j : Nat) : K :=
  postStep m.n (start m) (step m) (likAt m d frames) (frames.length - 1) t i j

/-- the posterior probability of component `c` of state `i` at frame `t` of a phrase: that of the state, times the
    responsibility of the component -/
def gammaMix (m : Hmm K) (d : Nat → List K → Nat → K) (frames : List (List K)) (t i c : Nat) : K :=
  gammaOf m d frames t i * RecSpec.share m.gaussians (coeff m i) (d i (frames.getD t [])) c

end HmmSpec

namespace WSpec
variable {ι : Type}

/-- the total weight of component `c` over the cases `l` -/
def mass (l : List ι) (w : ι → Nat → K) (c : Nat) : K := (l.map fun p => w p c).sum

/-- the average of `f` with the weights of component `c`; 0 if they sum to 0 -/
def avg (l : List ι) (w : ι → Nat → K) (c : Nat) (f : ι → K) : K :=
  if 0 < mass l w c then (l.map fun p => w p c * f p).sum / mass l w c else 0

/-- the weighted mean of coordinate `k` -/
def mean (l : List ι) (w : ι → Nat → K) (x : ι → List K) (c k : Nat) : K := avg l w c fun p => (x p).getD k 0

/-- the weighted covariance of coordinates `i` and `j` -/
def cov (l : List ι) (w : ι → Nat → K) (x : ι → List K) (c i j : Nat) : K :=
  avg l w c fun p => ((x p).getD i 0 - mean l w x c i) * ((x p).getD j 0 - mean l w x c j)

/-- the share of component `c` in the total weight; uniform if that is 0 -/
def coeff (l : List ι) (w : ι → Nat → K) (n c : Nat) : K :=
  if 0 < ∑ j ∈ Finset.range n, mass l w j then mass l w c / ∑ j ∈ Finset.range n, mass l w j else 1 / (n : K)

end WSpec

/-- `m'` is the mixture `m` re-estimated on the cases `l` with the observations `x` and the weights `w` of the components: coefficients,
    means, covariances (only the variances in Diagonal mode) with the regularisation added on the diagonal.  Nothing else changes. -/
structure Gmm.Fitted {ι : Type} (l : List ι) (w : ι → Nat → K) (x : ι → List K) (m m' : Gmm K) : Prop where
  same : m' = { m with coeffs := m'.coeffs, comps := m'.comps }
  coeff : ∀ c < m.gaussians, m'.coeffs.getD c 0 = WSpec.coeff l w m.gaussians c
  mean : ∀ c g', m'.comps[c]? = some g' → ∀ k < m.dim, g'.mean.getD k 0 = WSpec.mean l w x c k
  cov : ∀ c g', m'.comps[c]? = some g' → ∀ i < m.dim, ∀ j < m.dim, g'.covAt i j =
    (if m.mode = .diagonal ∧ i ≠ j then 0 else WSpec.cov l w x c i j) + (if i = j then m.reg.getD i 0 else 0)

/-- the stored inverses and determinants of the components are those of their covariances, and have just been computed from them -/
def Gmm.Inverted (m : Gmm K) : Prop := ∀ g ∈ m.comps, g.precision * g.sigma = 1 ∧ g.det = g.sigma.det ∧ ∃ g0 : Gauss K, g0.WF ∧ Gauss.updateInverseCovariance g0 = .ret () g

/-- the destinations stored for state `i`: all states, or the state itself and the next one (if there is one) -/
def Hmm.dests (m : Hmm K) (i : Nat) : List Nat :=
  if m.ergodic then List.range m.n else if i < m.n - 1 then [i, i + 1] else [i]

/-- the variables stored for a phrase are the posterior probabilities -/
structure EStep.Exact (m : Hmm K) (d : Nat → List K → Nat → K) (frames : List (List K)) (e : EStep K) : Prop where
  len : e.len = frames.length
  gamma : e.gamma = (List.range frames.length).map fun t => (List.range m.n).map fun i => HmmSpec.gammaOf m d frames t i
  gmix : e.gmix = (List.range frames.length).map fun t => (List.range m.n).map fun i => (List.range m.gaussians).map fun c =>
    HmmSpec.gammaMix m d frames t i c
  eps : e.eps = (List.range (frames.length - 1)).map fun t => (List.range m.n).map fun i => (m.dests i).map fun j =>
    HmmSpec.xiOf m d frames t i j

/-- A hidden Markov model during training: each state is a mixture on which the likelihood is defined, the variables have
    been allocated, the start probabilities are a distribution, the transition probabilities are not negative, those out of
    a state are not negligible, and a LeftRight model does not go back from the last state to the first one. -/
structure Hmm.InTraining (m : Hmm K) : Prop where
  wf : m.WF
  ready : ∀ s ∈ m.sts, s.Ready
  alpha : m.alpha.length = m.n
  beta : m.beta.length = m.n
  start_nonneg : ∀ i < m.n, 0 ≤ HmmSpec.start m i
  start_sum : ∑ i ∈ Finset.range m.n, HmmSpec.start m i = 1
  step_nonneg : ∀ i < m.n, ∀ j < m.n, 0 ≤ HmmSpec.step m i j
  step_sum : ∀ i < m.n, 1 / 10 ^ 100 ≤ ∑ j ∈ Finset.range m.n, HmmSpec.step m i j
  last : m.ergodic = false → m.trans.getD (m.n * 2 - 1) 0 = 0

namespace HmmSpec

/-- the frames of the training set: phrase and number in the phrase -/
def positions (phrases : List (List (List K))) : List (List (List K) × Nat) :=
  phrases.flatMap fun fr => (List.range fr.length).map fun t => (fr, t)

/-- the frame at a position -/
def frameAt (p : List (List K) × Nat) : List K := p.1.getD p.2 []

/-- the expected number of frames in state `i` -/
def visits (m : Hmm K) (d : Nat → List K → Nat → K) (phrases : List (List (List K))) (i : Nat) : K :=
  ((positions phrases).map fun p => gammaOf m d p.1 p.2 i).sum

/-- the expected number of transitions from `i` to `j` -/
def moves (m : Hmm K) (d : Nat → List K → Nat → K) (phrases : List (List (List K))) (i j : Nat) : K :=
  (phrases.map fun fr => ∑ t ∈ Finset.range (fr.length - 1), xiOf m d fr t i j).sum

/-- the log-likelihood of the training set: sum over the phrases with frames -/
def logTotal (log : K → K) (m : Hmm K) (d : Nat → List K → Nat → K) (phrases : List (List (List K))) : K :=
  ((phrases.filter (fun fr => fr ≠ [])).map fun fr => log (total m.n (start m) (step m) (likAt m d fr) (fr.length - 1))).sum

/-- the number of phrases with frames -/
def filled (phrases : List (List (List K))) : Nat := phrases.countP fun fr => fr ≠ []

/-- the re-estimated transition probability, before normalisation: expected number of transitions over expected number of
    frames, with the regularisation of the code (1e-5 for each stored transition of a LeftRight model and each phrase, twice for the
    last state, and 2e-5 in the denominator) -/
def newStep (m : Hmm K) (d : Nat → List K → Nat → K) (phrases : List (List (List K))) (i j : Nat) : K :=
  if m.ergodic then moves m d phrases i j / (visits m d phrases i + 2 / 10 ^ 5)
  else if j = i then (moves m d phrases i j + (filled phrases : K) * (if i + 1 < m.n then 1 / 10 ^ 5 else 2 / 10 ^ 5)) /
    (visits m d phrases i + 2 / 10 ^ 5)
  else if j = i + 1 then (moves m d phrases i j + (filled phrases : K) * (1 / 10 ^ 5)) / (visits m d phrases i + 2 / 10 ^ 5)
  else 0

end HmmSpec

/-- `m'` is `m` re-estimated on the phrases: the mixture of each state with the posterior probabilities of its components, the start
    probabilities of an Ergodic model (mean posterior probabilities of the first frames) and the transition probabilities.  Nothing else
    changes but the forward and backward variables. -/
structure Hmm.Reestimated (m : Hmm K) (phrases : List (List (List K))) (d : Nat → List K → Nat → K) (m' : Hmm K) : Prop where
  same : m' = {
    m with sts := m'.sts, prior := m'.prior, trans := m'.trans, alpha := m'.alpha, prevAlpha := m'.prevAlpha, beta := m'.beta, prevBeta := m'.prevBeta }
  state : ∀ i s s', m.sts[i]? = some s → m'.sts[i]? = some s' →
    Gmm.Fitted (HmmSpec.positions phrases) (fun p => HmmSpec.gammaMix m d p.1 p.2 i) HmmSpec.frameAt s s'
  prior : m.ergodic = true → ∀ i < m.n, m'.prior.getD i 0 = (phrases.map fun fr => HmmSpec.gammaOf m d fr 0 i).sum / (phrases.length : K)
  prior_same : m.ergodic = false → m'.prior = m.prior
  step : ∀ i < m.n, ∀ j < m.n, HmmSpec.step m' i j = HmmSpec.newStep m d phrases i j

/-- the training data fit the model: every frame has its dimension, there is a phrase, and the phrases of an Ergodic model
    are not empty; the regularisation of the states is at least 1e-9 -/
structure Hmm.Trains (m : Hmm K) (data : KData K) : Prop where
  frame : ∀ x ∈ data.frames, x.length = m.dim
  some : data.frames ≠ []
  filled : m.ergodic = true → ∀ fr ∈ data.phrases, fr ≠ []
  regLen : ∀ s ∈ m.sts, s.reg.length = m.dim
  reg : ∀ s ∈ m.sts, ∀ i < m.dim, 1 / 10 ^ 9 ≤ s.reg.getD i 0

end Xmm
