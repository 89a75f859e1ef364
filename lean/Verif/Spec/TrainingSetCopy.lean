import Verif.Spec.TrainingSet
/-
Independence of two training sets: what a user can see of one of them, and calls made through one of them.
-/
namespace Xmm.TS
variable {K L : Type} [LinearOrder L]

/-- `getPhrasesOfClass(l)` returns a set that holds the phrase `r` at index `k` -/
def TSet.InClass (t : TSet L) (l : L) (k : Int) (r : Nat) : Prop :=
  ∃ s, t.subs.find? l = some s ∧ s.phrases.find? k = some r

/-- Everything that can be read from training set `j` is the same in the two worlds: attributes, phrases (the same
    objects, with the same content and labels), labels and classes. -/
structure SameView (w w' : World K L) (j : Nat) (t t' : TSet L) : Prop where
  before : w.sets j = some t
  after : w'.sets j = some t'
  own : t'.own = t.own
  bimodal : t'.bimodal = t.bimodal
  dims : t'.dims = t.dims
  cols : t'.cols = t.cols
  phrases : t'.phrases = t.phrases
  content : ∀ k r, t.Holds k r → (w'.obj r).ph = (w.obj r).ph ∧ (w'.obj r).label = (w.obj r).label
  labels : ∀ l, l ∈ t'.labels.keys ↔ l ∈ t.labels.keys
  classes : ∀ l k r, t'.InClass l k r ↔ t.InClass l k r

/-- A call made through one training set: on the set itself, or on a phrase obtained from it by its index. -/
inductive SideOp (K L : Type) where
  | addLabel (k : Int) (l : L)
  | addCopy (k : Int) (p : Phrase K) (l : L)
  | remove (k : Int)
  | removeClass (l : L)
  | clear
  | setDim (d : Nat)
  | setDi (d : Nat)
  | setCols (c : List String)
  | phrase (k : Int) (op : Phrase.Op K)
  | relabel (k : Int) (l : L)

/-- The call of the whole-program model, for training set `i`; `none` if there is no phrase at this index. -/
def SideOp.toOp (w : World K L) (i : Nat) : SideOp K L → Option (Op K L)
  | .addLabel k l => some (.addLabel i k l)
  | .addCopy k p l => some (.addCopy i k p l)
  | .remove k => some (.remove i k)
  | .removeClass l => some (.removeClass i l)
  | .clear => some (.clear i)
  | .setDim d => some (.setDim i d)
  | .setDi d => some (.setDi i d)
  | .setCols c => some (.setCols i c)
  | .phrase k op => ((w.sets i).bind fun t => t.phrases.find? k).map fun r => .phraseOp r op
  | .relabel k l => ((w.sets i).bind fun t => t.phrases.find? k).map fun r => .relabel r l

/-- In the world `w`, any interleaving `ops` of calls made through the training sets `a` (tag `true`) and `b` (tag
    `false`): each call leaves everything that can be read from the other training set as it was.  Calls that add, remove
    or relabel phrases are only made while the input dimensions are below the dimensions (see C21).  Undefined behaviour
    ends the history (see C13 - C17 for the phrases). -/
def Independent [Inhabited L] (a b : Nat) : List (Bool × SideOp K L) → World K L → Prop
  | [], _ => True
  | (side, op) :: ops, w =>
    match op.toOp w (if side then a else b) with
    | none => Independent a b ops w
    | some o =>
      (o.updates = true → w.Coherent) →
      match step o w with
      | .ret _ w' | .throw _ w' =>
        (∃ t t', SameView w w' (if side then b else a) t t') ∧ Independent a b ops w'
      | .ub => True

end Xmm.TS
