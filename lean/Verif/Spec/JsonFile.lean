import Verif.Model.SharedParams
/- What a JSON file says, for C86. -/
namespace Xmm
variable {K : Type}

/-- the member `key` of the file is the array of the numbers `v` -/
def HoldsArray [Field K] (root : Json K) (key : String) (v : List K) : Prop :=
  ∃ l, root.getKey key = .ok (.arr l) ∧ l.map Json.asReal = v.map .ok

/-- the member `key` of the file, or `dflt` if there is none, reads as the unsigned number `n` -/
def HoldsSize [JsonReal K] (root : Json K) (key : String) (dflt : Int) (n : Nat) : Prop :=
  ∃ j z, root.getOr key (.int dflt) = .ok j ∧ j.asInt = .ok z ∧ n = uint z

/-- the member `bimodal` of the file, or `false` if there is none -/
def HoldsMode [Zero K] [DecidableEq K] (root : Json K) (b : Bool) : Prop :=
  ∃ j, root.getOr "bimodal" (.bool false) = .ok j ∧ j.asBool = .ok b

end Xmm
