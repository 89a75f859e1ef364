import Verif.Spec.Phrase
import Verif.Model.PhraseJson
import Verif.Spec.GaussianJson
/-
What a user expects of a phrase written to JSON and read back.
-/
namespace Xmm.PhraseSpec
variable {K : Type}

/-- What a file can hold of a phrase: the frames that are complete in both modalities.  The input dimension of the reloaded
    phrase is limited by its dimension (and is 0 for a unimodal phrase). -/
def S.saved (s : S K) : S K :=
  { s with diMin := if s.bimodal then 1 else 0, diMax := if s.bimodal then s.dim - 1 else 0,
           ins := s.ins.take s.size, outs := s.outs.take s.size }

/-- the sizes fit in the integers of the file -/
def S.Fits (s : S K) : Prop := s.dim ≤ uintMax ∧ s.size ≤ uintMax

end Xmm.PhraseSpec
