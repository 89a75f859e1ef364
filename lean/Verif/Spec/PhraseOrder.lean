import Verif.Model.KMeans
import Mathlib.Data.List.Perm.Basic
/- The same phrases in another order. -/
namespace Xmm
variable {K : Type}

/-- the same phrases, in any order -/
structure KData.Shuffled (data data' : KData K) : Prop where
  dim : data'.dim = data.dim
  perm : data'.phrases.Perm data.phrases

/-- the same phrases in another order, with the same first phrase -/
structure KData.Reordered (data data' : KData K) : Prop extends data.Shuffled data' where
  first : data'.phrases.head? = data.phrases.head?

/-- the same phrases in another order; among those that have a frame for every state, the first is the same -/
structure KData.ReorderedFor (states : Nat) (data data' : KData K) : Prop extends data.Shuffled data' where
  first : (data'.phrases.filter fun p => states ≤ p.length).head? = (data.phrases.filter fun p => states ≤ p.length).head?

end Xmm
