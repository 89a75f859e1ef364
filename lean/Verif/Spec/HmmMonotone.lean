import Verif.Spec.BaumWelch
import Verif.Spec.EmMonotone
/- What an iteration of the Baum-Welch algorithm may lose: the effect of the regularisation, of the floor of the likelihoods, and of the frames that end a phrase. -/
namespace Xmm.Hmm
open HmmSpec

/-- the normal density of component `c` of state `i` at the frame `x` -/
noncomputable def pdf (m : Hmm ℝ) (i : Nat) (x : List ℝ) (c : Nat) : ℝ :=
  match m.sts[i]? with
  | some s => s.pdf x c
  | none => 0

/-- the density never less than 1e-180, as `likelihood` reports it -/
noncomputable def floored (m : Hmm ℝ) (i : Nat) (x : List ℝ) (c : Nat) : ℝ := max likelihoodFloor (m.pdf i x c)

/-- the log-likelihood of the phrases -/
noncomputable def logLikelihood (m : Hmm ℝ) (phrases : List (List (List ℝ))) : ℝ := logTotal Real.log m m.floored phrases

/-- a hidden Markov model during its training on `data`: moreover the inverses are up to date and the covariances are regularised -/
structure Learning (m : Hmm ℝ) (data : KData ℝ) : Prop where
  training : m.InTraining
  trains : m.Trains data
  comp : ∀ s ∈ m.sts, ∀ g ∈ s.comps, g.UpToDate ∧ g.AtLeast s.reg

/-- the part of the regularisation in the covariance of component `c` of state `i` -/
noncomputable def regPart (m : Hmm ℝ) (i c : Nat) : ℝ :=
  match m.sts[i]? with
  | some s => s.regPart c
  | none => 0

/-- the expected number of frames observed in component `c` of state `i` -/
noncomputable def observedIn (m : Hmm ℝ) (phrases : List (List (List ℝ))) (i c : Nat) : ℝ :=
  WSpec.mass (positions phrases) (fun p => gammaMix m m.floored p.1 p.2 i) c

/-- half of the decrease of the part of the regularisation, over the components, for each frame observed there -/
noncomputable def regLoss (m m' : Hmm ℝ) (phrases : List (List (List ℝ))) : ℝ :=
  1 / 2 * ∑ i ∈ Finset.range m.n, ∑ c ∈ Finset.range m.gaussians, m.observedIn phrases i c * (m.regPart i c - m'.regPart i c)

/-- what the floor adds to the densities; zero if none is below 1e-180 -/
noncomputable def floorPart (m : Hmm ℝ) (phrases : List (List (List ℝ))) : ℝ :=
  ((positions phrases).map fun p => ∑ i ∈ Finset.range m.n, ∑ c ∈ Finset.range m.gaussians,
    gammaMix m m.floored p.1 p.2 i c * (Real.log (m.floored i (frameAt p) c) - Real.log (m.pdf i (frameAt p) c))).sum

/-- the expected number of transitions out of state `i` -/
noncomputable def leaving (m : Hmm ℝ) (phrases : List (List (List ℝ))) (i : Nat) : ℝ := ∑ j ∈ Finset.range m.n, moves m m.floored phrases i j

/-- The effect of the denominators of the new transition probabilities: the sum of those out of state `i` is about the expected number of transitions out of it over the
    expected number of frames in it, and the frames that end a phrase have no transition.  `∑ j, step m i j` is the sum before the iteration. -/
noncomputable def rowLoss (m : Hmm ℝ) (phrases : List (List (List ℝ))) : ℝ :=
  ∑ i ∈ Finset.range m.n, m.leaving phrases i *
    (Real.log (∑ j ∈ Finset.range m.n, step m i j) - Real.log (m.leaving phrases i / (visits m m.floored phrases i + 2 / 10 ^ 5)))

end Xmm.Hmm
