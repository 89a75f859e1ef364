import Verif.Model.Takes
import Verif.Spec.Phrase
/-
What a user of a training set has in mind during a recording session: numbered takes, each with a label and the frames recorded so far.
-/
namespace Xmm.TS
variable {K L : Type} [LinearOrder L]

/-- a numbered collection of labelled recordings -/
abbrev Takes (K L : Type) := SMap Int (L × PhraseSpec.S K)

/-- the dimensions of a session -/
structure Format where
  bimodal : Bool
  dim : Nat
  di : Nat

/-- both modalities have at least one dimension -/
def Format.Valid (f : Format) : Prop := if f.bimodal then 1 ≤ f.di ∧ f.di < f.dim else f.di = 0 ∧ 1 ≤ f.dim

/-- a recording without frames -/
def Format.blank (f : Format) : PhraseSpec.S K :=
  ⟨f.bimodal, f.dim, f.di, if f.bimodal then 1 else 0, f.dim - 1, [], []⟩

/-- the frames of a recording that are complete: in bimodal mode an input frame followed by the output frame with the same number -/
def _root_.Xmm.PhraseSpec.S.frames (s : PhraseSpec.S K) : List (List K) :=
  if s.bimodal then List.zipWith (· ++ ·) s.ins s.outs else s.ins

/-- change one take -/
def Takes.change (k : Int) (g : L × PhraseSpec.S K → L × PhraseSpec.S K) (τ : Takes K L) : Takes K L :=
  τ.map fun e => if e.1 = k then (e.1, g e.2) else e

/-- effect of a call and the exception it raises -/
def Takes.step (f : Format) (τ : Takes K L) : RecOp K L → Takes K L × Option Exn
  | .add k l => (SMap.assign k (l, f.blank) τ, none)
  | .call k op => (τ.change k fun e => (e.1, (e.2.step op).1), (SMap.find? k τ).bind fun e => (e.2.step op).2)
  | .relabel k l => (τ.change k fun e => (l, e.2), none)
  | .remove k => (SMap.erase k τ, none)
  | .removeClass l => (τ.filter fun e => decide (e.2.1 ≠ l), none)
  | .clear => ([], none)

/-- a whole session -/
def Takes.run (f : Format) : List (RecOp K L) → Takes K L → Takes K L × List (Option Exn)
  | [], τ => (τ, [])
  | op :: ops, τ =>
    let r := τ.step f op
    let r' := Takes.run f ops r.1
    (r'.1, r.2 :: r'.2)

/-- records or clears (the dimensions of a phrase are those of its training set) -/
def _root_.Xmm.Phrase.Op.IsData : Phrase.Op K → Prop
  | .setDimension _ => False
  | .setDimensionInput _ => False
  | _ => True

/-- Only phrases that exist are used, and their dimensions are left alone. -/
def Takes.Fair (τ : Takes K L) : RecOp K L → Prop
  | .call k op => k ∈ SMap.keys τ ∧ op.IsData
  | .relabel k _ => k ∈ SMap.keys τ
  | _ => True

/-- every call of the session is fair -/
def Takes.Admissible (f : Format) : List (RecOp K L) → Takes K L → Prop
  | [], _ => True
  | op :: ops, τ => τ.Fair op ∧ Takes.Admissible f ops (τ.step f op).1

/-- the takes with label `l`, in the order of their numbers -/
def Takes.ofClass (l : L) (τ : Takes K L) : Takes K L := τ.filter fun e => decide (e.2.1 = l)

/-- the recordings -/
def Takes.frames (τ : Takes K L) : List (List (List K)) := τ.map fun e => e.2.2.frames

/-- The training set `t` of the world `w` shows the takes `τ`: the same numbers, `labels()` are the labels of the takes, and for each of them
    `getPhrasesOfClass` gives a set with the dimension of the session that holds the takes with that label, and from which one reads
    the frames that were recorded. -/
structure Presents (f : Format) (w : World K L) (t : TSet L) (τ : Takes K L) : Prop where
  dims : t.bimodal = f.bimodal ∧ t.dims.dim = f.dim ∧ t.dims.di = f.di
  numbers : SMap.keys t.phrases = SMap.keys τ
  labels : ∀ l, l ∈ SMap.keys t.labels ↔ ∃ e ∈ τ, e.2.1 = l
  sorted : SMap.Sorted t.labels
  noClass : ∀ l, l ∉ SMap.keys t.labels → SMap.find? l t.subs = none
  ofClass : ∀ l ∈ SMap.keys t.labels, ∃ s, SMap.find? l t.subs = some s ∧ s.dims.dim = f.dim ∧
    SMap.keys s.phrases = SMap.keys (τ.ofClass l) ∧
    TSStats.allFrames (s.phrases.map Prod.snd) w.store = .ret (τ.ofClass l).frames w.store

end Xmm.TS
