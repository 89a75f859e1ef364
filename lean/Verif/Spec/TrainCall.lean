import Verif.Model.TrainCall
import Verif.Spec.SharedParams
import Verif.Spec.ClassSet
/- What a call of `train` should do, for C92. -/
namespace Xmm
variable {C K : Type}

/-- a non-empty training set: the dimension fits its type, there is one name for each column -/
structure SetView.Ok (s : SetView) : Prop where
  labels : s.labels ≠ []
  pos : 1 ≤ s.dim
  max : s.dim ≤ uintMax
  columns : s.columns.length = s.dim

/-- a model with this modality can adopt the dimensions of the training set: a bimodal model needs at least one dimension for the input and one for the output -/
def SetView.Fits (bimodal : Bool) (s : SetView) : Prop := bimodal = true → 1 ≤ s.di ∧ s.di < s.dim

/-- the shared parameters of a model that has adopted those of the training set -/
def SetView.adoptedBy (s : SetView) (v : SharedValues K) : SharedValues K :=
  { v with dimension := s.dim, columnNames := s.columns, dimensionInput := if v.bimodal then s.di else v.dimensionInput }

/-- a model whose shared parameters are those of a new model after any calls of their setters (exceptions being caught); it is not assumed that it has no classes, nor that it is not
    in training -/
def TrainableModel.Reached [Field K] [LT K] [DecidableLT K] (alive : Nat → Bool) (me : Nat) (realMax : K) (t : TrainableModel C K) : Prop :=
  SharedSpec.After alive me SharedSpec.anyCall (SharedParams.fresh me realMax) t.shared ∧ t.set.models.Sorted

/-- the model is not in training and has exactly the classes of `p`, each label once, in increasing order -/
structure ClassSet.Exactly (p : String → Prop) (M : ClassSet C) : Prop where
  sorted : M.models.Sorted
  has : ∀ l, (∃ c, SMap.find? l M.models = some c) ↔ p l
  idle : M.training = false

end Xmm
