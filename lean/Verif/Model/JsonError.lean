import Verif.Model.Cpp
/-
`JsonException`, src/core/common/xmmJson.hpp:127-227, the exception that every reader of JSON throws.  The text of a `std::string` lives in storage that its destructor frees (for a short text, in the
object itself); a `const char*` obtained by `c_str()` points into that storage.
-/
namespace Xmm

/-- `JsonErrorType`, src/core/common/xmmJson.hpp:132-147 -/
inductive JsonErrorType where
  | missingNode | typeError | valueError
  deriving DecidableEq, Repr

/-- `JsonException`: `errorType_` and `nodename_`, src/core/common/xmmJson.hpp:217-226 -/
structure JsonError where
  kind : JsonErrorType
  nodes : List String
  deriving DecidableEq, Repr

/-- The texts of the strings of the program; `none` once the string is destroyed.  The index is the address. -/
abbrev Texts := List (Option String)

namespace JsonError

/-- `JsonException(errorType, nodename)`, src/core/common/xmmJson.hpp:154-157 -/
def new (t : JsonErrorType) (node : String := "") : JsonError := ⟨t, [node]⟩

/-- `JsonException(src, nodename)`, src/core/common/xmmJson.hpp:164-167 -/
def within (src : JsonError) (node : String) : JsonError := ⟨src.kind, src.nodes ++ [node]⟩

/-- the copy constructor, src/core/common/xmmJson.hpp:173-174, and the assignment to `dst`, lines 180-186 -/
def copy (src : JsonError) : JsonError := ⟨src.kind, src.nodes⟩
@[inherit_doc copy]
def assign (_dst src : JsonError) : JsonError := { kind := src.kind, nodes := src.nodes }

/-- the switch of `what`, src/core/common/xmmJson.hpp:194-210; the default case is not reached -/
def title : JsonErrorType → String
  | .missingNode => "Json Structure Error: Missing Node"
  | .typeError => "Json Structure Error: Type Error"
  | .valueError => "Json Structure Error: Value Error"

/-- a local `std::string` with this text -/
def allocate (text : String) : Prog Texts Nat := do
  let m ← Prog.get
  Prog.set (m ++ [some text])
  pure m.length

/-- `message += text` -/
def append (p : Nat) (text : String) : Prog Texts Unit := do
  let m ← Prog.get
  match m[p]? with
  | some (some old) => Prog.set (m.set p (some (old ++ text)))
  | _ => Prog.undef

/-- the destructor of the string at `p` -/
def free (p : Nat) : Prog Texts Unit := Prog.modify fun m => m.set p none

/-- `what()` up to its last line: the local string, src/core/common/xmmJson.hpp:193-213 -/
def build (e : JsonError) : Prog Texts Nat := do
  let message ← allocate (title e.kind)
  append message " (root"
  e.nodes.foldlM (fun _ node => append message (" > " ++ node)) ()
  append message ")"
  pure message

/-- `what()`, src/core/common/xmmJson.hpp:192-215: the pointer that is returned; `message` is destroyed on return -/
def what (e : JsonError) : Prog Texts Nat := do
  let message ← build e
  free message
  pure message

/-- Reading the characters at `p`, as `std::cout << e.what()` does. -/
def read (p : Nat) : Prog Texts String := do
  let m ← Prog.get
  match m[p]? with
  | some (some text) => pure text
  | _ => Prog.undef

end JsonError
end Xmm
