import Verif.Model.ModelCopy
/- Which model an operation is about. -/
namespace Xmm.Copies
variable {M : Type}

/-- the model that the operation changes -/
def Op.target : Op M → Nat
  | .create i _ _ => i
  | .copyConstruct _ dst => dst
  | .assign dst _ => dst
  | .params i _ => i
  | .train i _ => i
  | .trainClass i _ _ => i
  | .call i _ => i
  | .destroy i => i

/-- the operation constructs the model number `i`, or assigns another model to it -/
def Op.replaces (i : Nat) : Op M → Prop
  | .create j _ _ => j = i
  | .copyConstruct _ dst => dst = i
  | .assign dst _ => dst = i
  | _ => False

/-- the model number `j` is made a copy of the model number `i` -/
inductive Op.IsCopy (i j : Nat) : Op M → Prop
  | construct : IsCopy i j (.copyConstruct i j)
  | assign : IsCopy i j (.assign j i)

/-- the change of `likelihood_window` -/
def setWindow (n : Nat) (v : SharedView) : SharedView := { v with window := n }

end Xmm.Copies
