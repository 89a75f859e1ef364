import Verif.Model.Gmm
import Verif.Spec.Hmm
/-
Observations with samples that are no numbers.

Only unimodal models are considered: they give the observation to the likelihood functions and use it for nothing else.  The observations of the models are
therefore lists of words, and a function tells which `double` each word stands for.
-/
namespace Xmm

/-- NaN or an infinity -/
def Fl.Broken : Fl → Prop
  | .fin _ => False
  | _ => True

/-- What IEEE 754 says about operands that are NaN or infinite, for every rounding of the other results: the result of `+`, `-`, `*` is not finite if an operand
    is not; `exp` of such a number is 0 or not finite; such a number divided by another one is not finite; 0 divided by anything is 0 or not finite. -/
structure Gauss.Arith.Propagates (A : Gauss.Arith Fl) : Prop extends A.Ieee where
  add_left : ∀ a b, a.Broken → (A.add a b).Broken
  add_right : ∀ a b, b.Broken → (A.add a b).Broken
  sub_left : ∀ a b, a.Broken → (A.sub a b).Broken
  mul_left : ∀ a b, a.Broken → (A.mul a b).Broken
  mul_right : ∀ a b, b.Broken → (A.mul a b).Broken
  exp : ∀ a, a.Broken → A.exp a = .fin 0 ∨ (A.exp a).Broken
  div_left : ∀ a b, a.Broken → (A.div a b).Broken
  zero_div : ∀ b, A.div (.fin 0) b = .fin 0 ∨ (A.div (.fin 0) b).Broken

/-- one of the first `n` samples is not a number -/
def BrokenBelow (n : Nat) (obs : List Fl) : Prop := ∃ i < n, ∃ a, obs[i]? = some a ∧ a.Broken

/-- The likelihood functions of xmmGaussianDistribution.cpp:175-296 without rounding, for observations given as words: `read w` is the `double` that the word `w`
    stands for. -/
noncomputable def Dens.reading (read : ℝ → Fl) : Dens ℝ where
  joint obs := Dens.onReals (Gauss.likelihood Fl.exact (obs.map read))
  input obs := Dens.onReals (Gauss.likelihoodInput Fl.exact (obs.map read))
  bimodal x y := Dens.onReals (Gauss.likelihoodBimodal Fl.exact (x.map read) (y.map read))

/-- the weight of state `j` before the next observation: by the start probabilities if there was none, by one transition from the last state otherwise -/
def HmmSpec.foreseen {K : Type} [Field K] (m : Hmm K) (j : Nat) : K :=
  if m.started then ∑ i ∈ Finset.range m.n, m.alpha.getD i 0 * HmmSpec.step m i j else HmmSpec.start m j

end Xmm
