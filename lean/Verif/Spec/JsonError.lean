import Verif.Model.JsonError
/- What the message of a JSON exception should say, for C93. -/
namespace Xmm

/-- how an exception comes about -/
inductive JsonError.Origin where
  /-- it is thrown at a node -/
  | thrown (kind : JsonErrorType) (node : String)
  /-- it is caught, and thrown again from an enclosing node -/
  | rethrown (from_ : JsonError.Origin) (node : String)
  /-- it is copied, as `throw e` does with a caught exception `e` -/
  | copied (from_ : JsonError.Origin)

namespace JsonError.Origin

/-- the exception of that origin -/
def exception : JsonError.Origin → JsonError
  | thrown k n => .new k n
  | rethrown o n => (exception o).within n
  | copied o => (exception o).copy

/-- its type -/
def kind : JsonError.Origin → JsonErrorType
  | thrown k _ => k
  | rethrown o _ => kind o
  | copied o => kind o

/-- the nodes, innermost first -/
def path : JsonError.Origin → List String
  | thrown _ n => [n]
  | rethrown o n => path o ++ [n]
  | copied o => path o

/-- the documented message: the kind of error and the nodes -/
def message (o : JsonError.Origin) : String :=
  (match o.kind with
    | .missingNode => "Json Structure Error: Missing Node"
    | .typeError => "Json Structure Error: Type Error"
    | .valueError => "Json Structure Error: Value Error") ++ " (root" ++ String.join (o.path.map fun n => " > " ++ n) ++ ")"

end JsonError.Origin
end Xmm
