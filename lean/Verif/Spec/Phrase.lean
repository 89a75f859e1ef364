import Verif.Model.Phrase
/-
What a user expects of a phrase: two lists of recorded frames, without any memory management.
-/
namespace Xmm.PhraseSpec

/-- Abstract phrase in own memory.  In unimodal mode the frames are in `ins`. -/
structure S (K : Type) where
  bimodal : Bool
  dim : Nat
  di : Nat
  diMin : Nat
  diMax : Nat
  ins : List (List K)
  outs : List (List K)

variable {K : Type}

/-- a new phrase -/
def new (K : Type) (bimodal : Bool) : S K :=
  if bimodal then ⟨true, 2, 1, 1, 2, [], []⟩ else ⟨false, 1, 0, 0, 0, [], []⟩

/-- number of frames: the shorter modality -/
def S.size (s : S K) : Nat := if s.bimodal then min s.ins.length s.outs.length else s.ins.length

/-- Effect of a call, and the exception it raises, if any. A raised exception changes nothing. -/
def S.step (s : S K) : Phrase.Op K → S K × Option Exn
  | .record obs =>
    if s.bimodal then
      if s.ins.length ≠ s.outs.length then (s, some .runtimeError)
      else if obs.length ≠ s.dim then (s, some .invalidArgument)
      else ({ s with ins := s.ins ++ [obs.take s.di], outs := s.outs ++ [obs.drop s.di] }, none)
    else if obs.length ≠ s.dim then (s, some .invalidArgument)
    else ({ s with ins := s.ins ++ [obs] }, none)
  | .recordInput obs =>
    if !s.bimodal then (s, some .runtimeError)
    else if obs.length ≠ s.di then (s, some .invalidArgument)
    else ({ s with ins := s.ins ++ [obs] }, none)
  | .recordOutput obs =>
    if !s.bimodal then (s, some .runtimeError)
    else if obs.length ≠ s.dim - s.di then (s, some .invalidArgument)
    else ({ s with outs := s.outs ++ [obs] }, none)
  | .clear => ({ s with ins := [], outs := [] }, none)
  | .clearInput => ({ s with ins := [] }, none)
  | .clearOutput => (if s.bimodal then { s with outs := [] } else { s with ins := [] }, none)
  | .setDimension d =>
    if d < (if s.bimodal then 2 else 1) then (s, some .domainError)
    else ({ s with dim := d, diMax := d - 1, ins := [], outs := [] }, none)
  | .setDimensionInput d =>
    if d < s.diMin ∨ s.diMax < d then (s, some .domainError)
    else ({ s with di := d, ins := [], outs := [] }, none)

/-- A whole history. -/
def S.run : List (Phrase.Op K) → S K → S K × List (Option Exn)
  | [], s => (s, [])
  | op :: ops, s =>
    let r := s.step op
    let r' := S.run ops r.1
    (r'.1, r.2 :: r'.2)

/-- both modalities have at least one dimension -/
def S.Coherent (s : S K) : Prop := s.bimodal = true → 1 ≤ s.di ∧ s.di < s.dim

/-- The history never makes the input dimension reach the total dimension (always true in unimodal mode). -/
def S.Admissible : List (Phrase.Op K) → S K → Prop
  | [], _ => True
  | op :: ops, s => (s.step op).1.Coherent ∧ S.Admissible ops (s.step op).1

/-- The value at frame `t`, column `d`, `none` if there is none: columns `0 … di-1` are the input modality, the
    following ones the output modality. -/
def S.value (s : S K) (t d : Nat) : Option K :=
  if s.bimodal then
    if d < s.di then (s.ins[t]?).bind (fun f => f[d]?) else (s.outs[t]?).bind (fun f => f[d - s.di]?)
  else (s.ins[t]?).bind (fun f => f[d]?)

end Xmm.PhraseSpec
