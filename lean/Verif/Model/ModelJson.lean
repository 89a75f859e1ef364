import Verif.Model.GaussianJson
import Verif.Model.HierHmm
import Verif.Model.Configuration
/-
Model of the JSON input and output of the classes and of the models: src/core/model/xmmModelSingleClass.cpp, src/models/gmm/xmmGmmSingleClass.cpp, xmmGmm.cpp,
src/models/hmm/xmmHmmSingleClass.cpp, xmmHierarchicalHmm.cpp, src/core/model/xmmModel.hpp.

The objects of Verif/Model/Gmm.lean and Hmm.lean hold the values of the attributes of `parameters` and of `shared_parameters`; the attribute objects are built where JSON is
read.  Conventions as in Model/SharedParams.lean (`nar` converts a `double` to `float`, `tiny` is 1e-20, `realMax` the largest `double`).  Members that a
constructor does not initialise have the value `z`.
-/
namespace Xmm
open Gauss (resize readVector)

/-- `for (auto p : node)`: the values that jsoncpp's iterators visit, json_value.cpp:1343-1409; none if the node is neither an array nor an object -/
def Json.elements {K : Type} : Json K → List (Json K)
  | .arr l => l
  | .obj m => m.map Prod.snd
  | _ => []

/-- a call of `f` on the object `t`, which is not the state: the object after the call -/
def Prog.build {σ τ : Type} (f : Prog τ Unit) (t : τ) : Prog σ τ := fun s =>
  match f t with
  | .ret _ t' => .ret t' s
  | .throw e _ => .throw e s
  | .ub => .ub

/-- a call of `f` on the object `t`, which is not the state: the result of the call -/
def Prog.apart {σ τ α : Type} (f : Prog τ α) (t : τ) : Prog σ α := fun s =>
  match f t with
  | .ret a _ => .ret a s
  | .throw e _ => .throw e s
  | .ub => .ub

/-- what a class reads of `shared_parameters` -/
structure SharedView where
  bimodal : Bool
  dim : Nat
  di : Nat
  window : Nat

/-- the covariance mode of a code accepted by the attribute (0 or 1), xmmGaussianDistribution.hpp:85-94 -/
def covModeOf (code : Int) : CovMode := if code = 0 then .full else .diagonal

section
variable {K : Type}

/-- an attribute with the value `x`; `toJson` only reads the value -/
def Attr.holding {α : Type} (x : α) : Attr α := ⟨x, x, x, false, none⟩

/-! ### Single-class GMM -/
namespace Gmm

/-- `parameters` -/
def attrs (m : Gmm K) : GmmAttrs K :=
  ⟨false, .holding m.gaussians, .holding m.relReg, .holding m.absReg, .holding (Gauss.modeCode m.mode)⟩

variable [Field K] [LinearOrder K] [JsonReal K]

/-- `toJson` of a class whose label is `label`, xmmGmmSingleClass.cpp:96-107 and xmmModelSingleClass.cpp:233-238 -/
def toJson (label : String) : Prog (Gmm K) (Json K) := do
  checkTraining
  let m ← Prog.get
  let comps ← (List.range m.gaussians).mapM fun c => do
    let g ← Gauss.rd m.comps c
    pure g.toJson
  pure (.obj
    [("label", .str label),
     ("mixture_coeffs", vector2json (realCodec K) m.coeffs),
     ("parameters", m.attrs.toJson),
     ("components", .arr comps)])

/-- a class before its parameters are read: the constructor of the base class from JSON does not resize the buffer, xmmModelSingleClass.cpp:67-81 -/
def unread (sh : SharedView) (z : K) (p : GmmAttrs K) : Gmm K :=
  { gaussians := p.gaussians.value, mode := covModeOf p.covMode.value, absReg := p.absReg.value, relReg := p.relReg.value,
    bimodal := sh.bimodal, dim := sh.dim, di := sh.di, window := sh.window, comps := [], coeffs := [], beta := [], reg := [], training := false,
    buf := CBuf.construct 0 1 1, instant := z, logLik := z, outVals := [], outCov := [] }

/-- `for (auto p : root["components"]) components[c++].fromJson(p)`, xmmGmmSingleClass.cpp:57-60 -/
def readComponents : List (Json K) → Nat → Prog (Gmm K) Unit
  | [], _ => pure ()
  | j :: js, c => do
    let m ← Prog.get
    if c < m.comps.length then do
      let g ← Gauss.ofJson j
      Prog.set { m with comps := m.comps.set c g }
      readComponents js (c + 1)
    else Prog.undef

/-- the reading of `mixture_coeffs`, xmmGmmSingleClass.cpp:54-55 -/
def readCoeffs (node : Json K) : Prog (Gmm K) Unit := do
  let m ← Prog.get
  let c ← readVector node m.gaussians m.coeffs
  Prog.set { m with coeffs := c }

/-- the body of the JSON constructor after the parameters have been read, xmmGmmSingleClass.cpp:52-63 -/
def readBody (root : Json K) : Prog (Gmm K) Unit := do
  allocate
  let j ← liftE (root.getKey "mixture_coeffs")
  readCoeffs j
  let j ← liftE (root.getKey "components")
  readComponents j.elements 0
  updateInverseCovariances

variable (nar : K → K) (tiny realMax : K)

/-- `parameters.fromJson(root["parameters"])` on default-constructed parameters, xmmGmmSingleClass.cpp:50 -/
def readAttrs {σ : Type} (root : Json K) : Prog σ (GmmAttrs K) := do
  let j ← liftE (root.getKey "parameters")
  Prog.build (GmmAttrs.fromJson 0 nar 1 tiny realMax j) (GmmAttrs.fresh 0 tiny realMax)

/-- JSON constructor, xmmGmmSingleClass.cpp:47-64: the label and the class -/
def ofJson {σ : Type} (sh : SharedView) (z : K) (root : Json K) : Prog σ (String × Gmm K) := do
  let j ← liftE (root.getKey "label")
  let label ← liftE j.asString
  let p ← readAttrs nar tiny realMax root
  let m ← Prog.build (readBody root) (unread sh z p)
  pure (label, m)

/-- `operator=`, xmmGmmSingleClass.cpp:66-75 and xmmModelSingleClass.cpp:83-99: the buffer, the results and `current_regularization` of the target are kept -/
def assignFrom (src : Gmm K) : Prog (Gmm K) Unit := do
  let dst ← Prog.get
  if dst.training || src.training then Prog.throw .runtimeError
  else Prog.set { dst with
      gaussians := src.gaussians, mode := src.mode, absReg := src.absReg, relReg := src.relReg, bimodal := src.bimodal, dim := src.dim, di := src.di,
      window := src.window, comps := src.comps, coeffs := src.coeffs, beta := resize src.gaussians dst.beta, training := false }

/-- `fromJson`, xmmGmmSingleClass.cpp:109-117: a temporary with the same `shared_parameters` is built and assigned.  The result is the new label. -/
def fromJson (z : K) (root : Json K) : Prog (Gmm K) String := do
  checkTraining
  let m ← Prog.get
  let t ← ofJson nar tiny realMax ⟨m.bimodal, m.dim, m.di, m.window⟩ z root
  assignFrom t.2
  pure t.1

/-- copy constructor, xmmGmmSingleClass.cpp:39-45 and xmmModelSingleClass.cpp:54-65 (the source is not training): the buffer has the default length, the results are
    not copied; `current_regularization` is not copied either -/
def copy (z : K) (src : Gmm K) : Gmm K :=
  { src with beta := resize src.gaussians [], reg := [], training := false, buf := CBuf.construct 0 1 1, instant := z, logLik := z, outVals := [], outCov := [] }

end Gmm

/-! ### Single-class HMM -/
namespace Hmm

/-- codes of the enumerations of xmmHmmParameters.hpp:53-83 -/
def transCode (ergodic : Bool) : Int := if ergodic then 0 else 1
@[inherit_doc transCode]
def estCode : RegEst → Int
  | .full => 0
  | .windowed => 1
  | .likeliest => 2
@[inherit_doc transCode]
def estOf (code : Int) : RegEst := if code = 0 then .full else if code = 1 then .windowed else .likeliest

/-- `parameters`; `h` is `parameters.hierarchical`, which a class does not use -/
def attrs (h : Bool) (m : Hmm K) : HmmAttrs K :=
  ⟨false, .holding m.n, .holding m.gaussians, .holding m.relReg, .holding m.absReg, .holding (Gauss.modeCode m.mode), .holding (transCode m.ergodic),
   .holding (estCode m.est), .holding h⟩

variable [Field K] [LinearOrder K] [JsonReal K]

/-- `states[s].toJson()`; the label of a state is empty -/
def stateJson (m : Hmm K) (s : Nat) : Prog (Hmm K) (Json K) := do
  let st ← Gauss.rd m.sts s
  Prog.apart (Gmm.toJson "") st

/-- `toJson` of a class whose label is `label`, xmmHmmSingleClass.cpp:1322-1337 -/
def toJson (h : Bool) (label : String) : Prog (Hmm K) (Json K) := do
  checkTraining
  let m ← Prog.get
  let sts ← (List.range m.n).mapM (stateJson m)
  pure (.obj (
    [("label", .str label),
     ("parameters", (m.attrs h).toJson)] ++
    (if m.ergodic then [("prior", vector2json (realCodec K) m.prior)] else []) ++
    [("transition", vector2json (realCodec K) m.trans),
     ("exitProbabilities", vector2json (realCodec K) m.exitP),
     ("states", .arr sts)]))

/-- a class before its parameters are read, xmmHmmSingleClass.cpp:52-54 -/
def unread (sh : SharedView) (z : K) (p : HmmAttrs K) : Hmm K :=
  { n := p.states.value, gaussians := p.gaussians.value, ergodic := decide (p.transMode.value = 0), est := estOf p.regEstimator.value,
    absReg := p.absReg.value, relReg := p.relReg.value, mode := covModeOf p.covMode.value,
    bimodal := sh.bimodal, dim := sh.dim, di := sh.di, window := sh.window, sts := [], prior := [], trans := [],
    alpha := [], prevAlpha := [], beta := [], prevBeta := [], alpha0 := [], alpha1 := [], alpha2 := [],
    exitP := [], hier := true, started := false, training := false, winMin := 0, winMax := 0, winNorm := z, buf := CBuf.construct 0 1 1,
    instant := z, logLik := z, progress := z, exitLik := z, exitRatio := z, likeliest := 0, outVals := [], outCov := [] }

variable (nar : K → K) (tiny realMax : K)

/-- `for (auto p : root["states"]) states[s++].fromJson(p)`, xmmHmmSingleClass.cpp:72-75 -/
def readStates (z : K) : List (Json K) → Nat → Prog (Hmm K) Unit
  | [], _ => pure ()
  | j :: js, s => do
    let _ ← onState s (Gmm.fromJson nar tiny realMax z j)
    readStates z js (s + 1)

/-- the reading of `prior` and `transition`, xmmHmmSingleClass.cpp:59-66 -/
def readTransitions (root : Json K) : Prog (Hmm K) Unit := do
  let m ← Prog.get
  if m.ergodic then do
    let j ← liftE (root.getKey "prior")
    let p ← readVector j m.n m.prior
    let j ← liftE (root.getKey "transition")
    let t ← readVector j (m.n * m.n) m.trans
    Prog.set { m with prior := p, trans := t }
  else do
    let j ← liftE (root.getKey "transition")
    let t ← readVector j (2 * m.n) m.trans
    Prog.set { m with trans := t }

/-- the reading of `exitProbabilities`, xmmHmmSingleClass.cpp:67-70 -/
def readExit (root : Json K) : Prog (Hmm K) Unit := do
  let m ← Prog.get
  let e ← liftE (root.member "exitProbabilities")
  match e with
  | none => pure ()
  | some j => do
    let e ← readVector j m.n m.exitP
    Prog.set { m with exitP := e }

/-- the body of the JSON constructor after the parameters have been read, xmmHmmSingleClass.cpp:57-75 -/
def readBody (z : K) (root : Json K) : Prog (Hmm K) Unit := do
  allocate
  readTransitions root
  readExit root
  let j ← liftE (root.getKey "states")
  readStates nar tiny realMax z j.elements 0

/-- `parameters.fromJson(root["parameters"])` on default-constructed parameters, xmmHmmSingleClass.cpp:55 -/
def readAttrs {σ : Type} (root : Json K) : Prog σ (HmmAttrs K) := do
  let j ← liftE (root.getKey "parameters")
  Prog.build (HmmAttrs.fromJson 0 nar 1 tiny realMax j) (HmmAttrs.fresh 0 tiny realMax)

/-- JSON constructor, xmmHmmSingleClass.cpp:52-76: the label and the class -/
def ofJson {σ : Type} (sh : SharedView) (z : K) (root : Json K) : Prog σ (String × Hmm K) := do
  let j ← liftE (root.getKey "label")
  let label ← liftE j.asString
  let p ← readAttrs nar tiny realMax root
  let m ← Prog.build (readBody nar tiny realMax z root) (unread sh z p)
  pure (label, m)

/-- copy constructor, xmmHmmSingleClass.cpp:38-50 and xmmModelSingleClass.cpp:54-65 (the source is not training): the states are copied with their copy constructor;
    `alpha_h`, the buffer, the results and the window of states are not copied -/
def copy (z : K) (src : Hmm K) : Hmm K :=
  { src with
    sts := src.sts.map (Gmm.copy z)
    alpha := resize src.n [], prevAlpha := resize src.n [], beta := resize src.n [], prevBeta := resize src.n [], alpha0 := [], alpha1 := [], alpha2 := []
    started := false, training := false, winMin := 0, winMax := 0, winNorm := z, buf := CBuf.construct 0 1 1, instant := z, logLik := z, progress := z,
    exitLik := z, exitRatio := z, likeliest := 0, outVals := [], outCov := [] }

end Hmm

/-! ### Models -/

/-- The members of `Model` that are saved, xmmModel.hpp:605-640: `P` are the parameters of a class, `C` is the type of the classes. -/
structure ModelBody (K P C : Type) where
  shared : SharedParams K
  config : Configuration P
  models : SMap String C

namespace ModelBody
variable {P C : Type}

/-- what the classes see of the shared parameters -/
def view (M : ModelBody K P C) : SharedView := ⟨M.shared.bimodal.value, M.shared.dimension.value, M.shared.dimensionInput.value, M.shared.window.value⟩

/-- `toJson`, xmmModel.hpp:432-443; `writeP` and `writeC label` write the parameters and the class `label` -/
def toJson (writeP : P → Json K) (writeC : String → Prog C (Json K)) : Prog (ModelBody K P C) (Json K) := do
  let M ← Prog.get
  let sh ← Prog.apart SharedParams.toJson M.shared
  let cls ← M.models.mapM fun lc => Prog.apart (writeC lc.1) lc.2
  pure (.obj
    [("shared_parameters", sh),
     ("configuration", Configuration.toJson writeP M.config),
     ("models", .arr cls)])

variable [JsonReal K]

/-- the loop over the classes, xmmModel.hpp:112-119: `insert` keeps the first class of a label; the class inserted is a copy of the one constructed -/
def readModels (readC : SharedView → Json K → Prog (ModelBody K P C) (String × C)) (copyC : C → C) : List (Json K) → Prog (ModelBody K P C) Unit
  | [] => pure ()
  | j :: js => do
    let l ← liftE (j.getKey "label")
    let l ← liftE l.asString
    let M ← Prog.get
    let c ← readC M.view j
    Prog.set { M with models := SMap.insertNew l (copyC c.2) M.models }
    readModels readC copyC js

/-- The JSON constructor of `Model`, xmmModel.hpp:103-120, on default-constructed members: `readS` and `readP` are `fromJson` of the shared parameters and of the
    configuration. -/
def readJson (readS : Json K → Prog (SharedParams K) Unit) (readP : Json K → Prog (Configuration P) Unit)
    (readC : SharedView → Json K → Prog (ModelBody K P C) (String × C)) (copyC : C → C) (root : Json K) : Prog (ModelBody K P C) Unit := do
  let j ← liftE (root.getKey "shared_parameters")
  let M ← Prog.get
  let s ← Prog.build (readS j) M.shared
  Prog.set { M with shared := s }
  let j ← liftE (root.getKey "configuration")
  let M ← Prog.get
  let c ← Prog.build (readP j) M.config
  Prog.set { M with config := c, models := [] }
  let j ← liftE (root.getKey "models")
  readModels readC copyC j.elements

end ModelBody

/-- The identities of the objects that take part in the construction of a model from JSON: the shared parameters, the configuration and its elements, and the temporaries
    of the two `fromJson`. -/
structure JsonIds where
  shared : Nat
  sharedTmp : Nat
  config : Nat
  slot : String → Nat
  configTmp : Nat
  slotTmp : String → Nat

section
variable [Field K] [LinearOrder K] [JsonReal K] (alive : Nat → Bool) (ids : JsonIds) (nar : K → K) (tiny realMax : K)

/-- `GMM`: what is saved of it -/
abbrev GmmBody (K : Type) := ModelBody K (GmmAttrs K) (Gmm K)

/-- `GMM::toJson`, inherited from `Model` -/
def GmmBody.toJson : Prog (GmmBody K) (Json K) := ModelBody.toJson GmmAttrs.toJson Gmm.toJson

/-- the JSON constructor of `GMM`, xmmGmm.cpp:42 -/
def GmmBody.ofJson (z : K) (root : Json K) : Res (GmmBody K) Unit :=
  ModelBody.readJson (SharedParams.fromJson alive nar ids.sharedTmp realMax)
    (Configuration.fromJson (GmmAttrs.type tiny realMax) ids.config ids.slot (fun id => GmmAttrs.fromJson id nar (id + 1) tiny realMax) ids.configTmp ids.slotTmp)
    (fun sh => Gmm.ofJson nar tiny realMax sh z) (Gmm.copy z) root
    ⟨SharedParams.fresh ids.shared realMax, Configuration.fresh (GmmAttrs.type tiny realMax) ids.config, []⟩

/-- `HierarchicalHMM`: what is saved of it; `training` is `is_training_` -/
structure HierBody (K : Type) where
  body : ModelBody K (HmmAttrs K) (Hmm K)
  prior : List K
  trans : List (List K)
  exitTrans : List K
  training : Bool

namespace HierBody

/-- `toJson`, xmmHierarchicalHmm.cpp:499-518; `h` is `parameters.hierarchical` of the classes -/
def toJson (h : Bool) : Prog (HierBody K) (Json K) := do
  let M ← Prog.get
  if M.training then Prog.throw .runtimeError
  else do
    let j ← Prog.apart (ModelBody.toJson HmmAttrs.toJson (Hmm.toJson h)) M.body
    let rows ← (List.range M.body.models.length).mapM fun i => do
      let row ← Gauss.rd M.trans i
      pure (vector2json (realCodec K) row)
    match j with
    | .obj m => pure (.obj (m ++
        [("prior", vector2json (realCodec K) M.prior),
         ("transition", .arr rows),
         ("exit_transition", vector2json (realCodec K) M.exitTrans)]))
    | _ => Prog.undef

/-- `root["transition"][i]` for each class, xmmHierarchicalHmm.cpp:55-58 -/
def readRows {σ : Type} (n : Nat) (node : Json K) : Prog σ (List (List K)) :=
  (List.range n).mapM fun i => do
    let j ← liftE (node.getIndex i)
    readVector j n (resize n [])

/-- the JSON constructor, xmmHierarchicalHmm.cpp:50-62 -/
def ofJson (z : K) (root : Json K) : Res (ModelBody K (HmmAttrs K) (Hmm K)) (HierBody K) := (do
  ModelBody.readJson (SharedParams.fromJson alive nar ids.sharedTmp realMax)
    (Configuration.fromJson (HmmAttrs.type tiny realMax) ids.config ids.slot (fun id => HmmAttrs.fromJson id nar (id + 1) tiny realMax) ids.configTmp ids.slotTmp)
    (fun sh => Hmm.ofJson nar tiny realMax sh z) (Hmm.copy z) root
  let M ← Prog.get
  let n := M.models.length
  let j ← liftE (root.getKey "prior")
  let prior ← readVector j n (resize n [])
  let j ← liftE (root.getKey "transition")
  let trans ← readRows n j
  let j ← liftE (root.getKey "exit_transition")
  let exitTrans ← readVector j n (resize n [])
  pure ⟨M, prior, trans, exitTrans, false⟩ : Prog (ModelBody K (HmmAttrs K) (Hmm K)) (HierBody K))
    ⟨SharedParams.fresh ids.shared realMax, Configuration.fresh (HmmAttrs.type tiny realMax) ids.config, []⟩

end HierBody
end
end
end Xmm
