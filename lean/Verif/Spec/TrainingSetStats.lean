import Verif.Spec.Phrase
import Mathlib.Algebra.BigOperators.Group.Finset.Basic
/- Reference notions for the statistics of a training set: a phrase of the set is known by the sequence of its frames
   (`PhraseSpec.S`); the set is the list `refs` of the phrases it holds. -/
namespace Xmm.TSStatsSpec
open PhraseSpec
variable {K : Type}

/-- number of frames of the set -/
def frames (s : Nat → S K) (refs : List Nat) : Nat := (refs.map fun r => (s r).size).sum

/-- sum of `f v` over all values `v` of column `d`, over all frames of all phrases -/
def colSum [AddCommMonoid K] (s : Nat → S K) (refs : List Nat) (d : Nat) (f : K → K) : K :=
  (refs.map fun r => ∑ t ∈ Finset.range (s r).size, f (((s r).value t d).getD 0)).sum

end Xmm.TSStatsSpec
