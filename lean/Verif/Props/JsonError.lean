import Verif.Spec.JsonError
/- C93: the message of a JSON exception. -/
namespace Xmm
namespace JsonError
open Prog (bind_def pure_def get_def set_def modify_def throw_def undef_def)

theorem origin_kind (o : Origin) : o.exception.kind = o.kind ∧ o.exception.nodes = o.path := by
  induction o with
  | thrown k n => exact ⟨rfl, rfl⟩
  | rethrown o n ih => exact ⟨ih.1, by simp [Origin.exception, within, Origin.path, ih.2]⟩
  | copied o ih => exact ih

theorem append_ok (m : Texts) (old text : String) :
    append m.length text (m ++ [some old]) = .ret () (m ++ [some (old ++ text)]) := by
  simp [append, bind_def, get_def, set_def]

theorem appends_ok (m : Texts) : ∀ (nodes : List String) (old : String),
    (nodes.foldlM (fun _ node => append m.length (" > " ++ node)) ()) (m ++ [some old]) =
      (.ret () (m ++ [some (old ++ String.join (nodes.map fun n => " > " ++ n))]) : Res Texts Unit)
  | [], old => by simp [List.foldlM, pure_def]
  | n :: nodes, old => by
    rw [List.foldlM_cons, bind_def, append_ok]
    simp only
    rw [appends_ok m nodes]
    simp [String.append_assoc]

theorem build_eq (e : JsonError) (m : Texts) :
    build e m = .ret m.length (m ++ [some (title e.kind ++ " (root" ++ String.join (e.nodes.map fun n => " > " ++ n) ++ ")")]) := by
  simp only [build, allocate, bind_def, get_def, set_def, pure_def]
  rw [append_ok]
  simp only
  rw [appends_ok]
  simp only
  rw [append_ok]

/-- C93 (partial): the text that `what()` builds is the documented message, with the kind of the error and all the nodes, however often the exception was caught, thrown again from an
    enclosing node, and copied.  Missing: the caller cannot read it, see `C93_what_ub`. -/
theorem C93_message_partial (o : Origin) (m : Texts) :
    (do let p ← build o.exception; read p : Prog Texts String) m = .ret o.message (m ++ [some o.message]) := by
  rw [bind_def, build_eq]
  obtain ⟨h1, h2⟩ := origin_kind o
  have e : title o.exception.kind ++ " (root" ++ String.join (o.exception.nodes.map fun n => " > " ++ n) ++ ")" = o.message := by
    rw [h1, h2]
    unfold Origin.message title
    rfl
  simp [read, bind_def, get_def, pure_def, e]

/-- C93 is violated by every JSON exception: reading the message that `what()` returns, as every handler does, is undefined behaviour, because the string was destroyed when `what()`
    returned. -/
theorem C93_what_ub (o : Origin) (m : Texts) : (do let p ← what o.exception; read p : Prog Texts String) m = .ub := by
  simp only [what, bind_def, build_eq, free, modify_def, pure_def]
  simp [read, bind_def, get_def, undef_def]

/-- a text that is not destroyed can be read: the model does not make every reading undefined -/
example : (do let p ← allocate "abc"; append p "d"; read p : Prog Texts String) [] = .ret "abcd" [some "abcd"] := by decide +kernel

/-- the message of a type error in the node `mean` of the node `components` -/
example : (Origin.rethrown (.copied (.thrown .typeError "mean")) "components").message = "Json Structure Error: Type Error (root > mean > components)" := by decide +kernel

end JsonError
end Xmm
