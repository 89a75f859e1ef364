import Verif.Model.Hmm
/-
Model of src/models/hmm/xmmHierarchicalHmm.hpp / .cpp: hidden Markov models of several classes, filtered independently or as one hierarchical
model, with the members inherited from `Model` (src/core/model/xmmModel.hpp) that manage the set of classes.  Threads are not modelled here: the
functions run when no training is in progress, and a training is the replacement of each class by what its training made of it.
-/
namespace Xmm
open Phrase (loop)
open Gauss (rd resize)

namespace Hmm
variable {K : Type} [Field K] [LinearOrder K]

/-- `alpha_h[e]` -/
def alphaOf (m : Hmm K) : Nat → List K
  | 0 => m.alpha0
  | 1 => m.alpha1
  | _ => m.alpha2

/-- The likelihood of an observation in state `i`: `states[i].obsProb_input(x)` or `obsProb(x)`, xmmHierarchicalHmm.cpp:166-174, 181-187,
    286-291; `bimodal` is the one of the model. -/
def hierProb {σ : Type} (D : Dens K) (bimodal : Bool) (m : Hmm K) (x : List K) (i : Nat) : Prog σ K := do
  let s ← rd m.sts i
  if bimodal then Gmm.obsProbSum s (Gmm.obsProbInput D s x) else Gmm.obsProbSum s (Gmm.obsProb D s x)

/-- One state of an ergodic class in `forward_init`, xmmHierarchicalHmm.cpp:165-177: the likelihood is added to the previous `instant_likelihood`. -/
def hierInitState (D : Dens K) (bimodal : Bool) (x : List K) (i : Nat) : Prog (Hmm K) Unit := do
  let m ← Prog.get
  let w ← rd m.prior i
  let b ← hierProb D bimodal m x i
  let _ ← rd m.alpha0 i
  Prog.set { m with alpha0 := m.alpha0.set i (w * b), instant := m.instant + w * b }

/-- The part of `forward_init` on class number `c`, xmmHierarchicalHmm.cpp:152-189; `prior` is the vector of the model, the result the
    `instant_likelihood` of the class. -/
def hierInit (D : Dens K) (bimodal : Bool) (prior : List K) (c : Nat) (x : List K) : Prog (Hmm K) K := do
  Prog.modify fun m => { m with
    alpha0 := List.replicate m.n 0
    alpha1 := List.replicate m.n 0
    alpha2 := List.replicate m.n 0 }
  let m ← Prog.get
  if m.ergodic then
    loop m.n () (fun _ i => hierInitState D bimodal x i)
    let m ← Prog.get
    pure m.instant
  else do
    let p ← rd prior c
    let _ ← rd m.alpha0 0
    let b ← hierProb D bimodal m x 0
    Prog.set { m with alpha0 := m.alpha0.set 0 (p * b), instant := p * b }
    pure (p * b)

/-- `for (k = 0; k < n; k++) l[k] /= z` -/
def divideList {σ : Type} (n : Nat) (z : K) (l : List K) : Prog σ (List K) :=
  loop n l (fun l k => do
    let a ← rd l k
    pure (l.set k (a / z)))

/-- The normalisation of the forward variables of a class, xmmHierarchicalHmm.cpp:194-199 = 318-323. -/
def hierDivide (z : K) : Prog (Hmm K) Unit := do
  let m ← Prog.get
  let a0 ← divideList m.n z m.alpha0
  let a1 ← divideList m.n z m.alpha1
  let a2 ← divideList m.n z m.alpha2
  Prog.set { m with alpha0 := a0, alpha1 := a1, alpha2 := a2 }

/-- `transition[t] / (1 - exit_probabilities_[j]) * alpha_h[0][j]`, xmmHierarchicalHmm.cpp:232-235, 264-269 -/
def hierTerm {σ : Type} (m : Hmm K) (t j : Nat) : Prog σ K := do
  let a ← rd m.trans t
  let e ← rd m.exitP j
  let α ← rd m.alpha0 j
  pure (a / (1 - e) * α)

/-- `front[k]` of an ergodic class, xmmHierarchicalHmm.cpp:230-246: `entry s` is what enters the class from class number `s`, `classes` their number. -/
def hierFrontErgodic {σ : Type} (m : Hmm K) (classes : Nat) (entry : Nat → Prog σ K) (k : Nat) : Prog σ K := do
  let v ← loop m.n 0 (fun acc j => do
    let y ← hierTerm m (j * m.n + k) j
    pure (acc + y))
  loop classes v (fun acc s => do
    let p ← rd m.prior k
    let y ← entry s
    pure (acc + p * y))

/-- `front[k]` of a left-right class, xmmHierarchicalHmm.cpp:248-270. -/
def hierFrontLeftRight {σ : Type} (m : Hmm K) (classes : Nat) (entry : Nat → Prog σ K) (k : Nat) : Prog σ K :=
  if k = 0 then do
    let a ← rd m.trans 0
    let α ← rd m.alpha0 0
    loop classes (a * α) (fun acc s => do
      let y ← entry s
      pure (acc + y))
  else do
    let y ← hierTerm m (k * 2) k
    let y' ← hierTerm m ((k - 1) * 2 + 1) (k - 1)
    pure (0 + y + y')

/-- `front[k]`, xmmHierarchicalHmm.cpp:228-270 -/
def hierFrontAt {σ : Type} (m : Hmm K) (classes : Nat) (entry : Nat → Prog σ K) (k : Nat) : Prog σ K :=
  if m.ergodic then hierFrontErgodic m classes entry k else hierFrontLeftRight m classes entry k

/-- `front`, xmmHierarchicalHmm.cpp:224-270. -/
def hierFront {σ : Type} (m : Hmm K) (classes : Nat) (entry : Nat → Prog σ K) : Prog σ (List K) :=
  loop m.n (List.replicate m.n 0) (fun front k => do
    let v ← hierFrontAt m classes entry k
    let _ ← rd front k
    pure (front.set k v))

/-- One state in the second part of `forward_update`, xmmHierarchicalHmm.cpp:285-307; `xt` is the exit transition probability of
    the class, `acc` is `norm_const`. -/
def hierState (D : Dens K) (bimodal : Bool) (x : List K) (xt : K) (front : List K) (acc : K) (k : Nat) : Prog (Hmm K) K := do
  let m ← Prog.get
  let b ← hierProb D bimodal m x k
  let f ← rd front k
  let e ← rd m.exitP k
  let tmp := b * f
  let _ ← rd m.alpha2 k
  let _ ← rd m.alpha1 k
  let _ ← rd m.alpha0 k
  Prog.set { m with
    alpha2 := m.alpha2.set k (xt * e * tmp)
    alpha1 := m.alpha1.set k ((1 - xt) * e * tmp)
    alpha0 := m.alpha0.set k ((1 - e) * tmp)
    exitLik := m.exitLik + ((1 - xt) * e * tmp + xt * e * tmp)
    instant := m.instant + ((1 - e) * tmp + (1 - xt) * e * tmp + xt * e * tmp) }
  pure (acc + tmp)

/-- `alpha_h` of a left-right class is set to 0, xmmHierarchicalHmm.cpp:272-276. -/
def hierZero (m : Hmm K) : Hmm K :=
  if m.ergodic then m
  else { m with alpha0 := m.alpha0.map fun _ => 0, alpha1 := m.alpha1.map fun _ => 0, alpha2 := m.alpha2.map fun _ => 0 }

/-- The part of `forward_update` on one class, xmmHierarchicalHmm.cpp:220-313; the result is the sum of the values added to `norm_const`.
    (In /repo one variable accumulates them over the classes.) -/
def hierUpdate (D : Dens K) (bimodal : Bool) (exitTrans : List K) (c classes : Nat) (entry : Nat → Prog (Hmm K) K) (x : List K) :
    Prog (Hmm K) K := do
  let m ← Prog.get
  let front ← hierFront m classes entry
  Prog.set { hierZero m with exitLik := 0, instant := 0 }
  let z ← loop m.n 0 (fun acc k => do
    let xt ← rd exitTrans c
    hierState D bimodal x xt front acc k)
  Prog.modify fun m => { m with exitRatio := m.exitLik / m.instant }
  pure z

/-- `sum_k alpha_h[e][k]`, xmmHierarchicalHmm.cpp:343-350 -/
def sumAlpha {σ : Type} (e : Nat) (m : Hmm K) : Prog σ K :=
  loop m.n 0 (fun acc k => do
    let a ← rd (m.alphaOf e) k
    pure (acc + a))

end Hmm

/-- The attributes of `ClassParameters<HMM>` copied to a class, xmmHmmParameters.hpp:95-210 (`hierarchical` is read from the configuration of
    the model). -/
structure HmmParams (K : Type) where
  n : Nat
  gaussians : Nat
  ergodic : Bool
  est : RegEst
  absReg : K
  relReg : K
  mode : CovMode

/-- `HierarchicalHMM`, xmmHierarchicalHmm.hpp:48-310, and the members inherited from `Model`: `conf l` are the parameters that `configuration` gives
    to the class `l`; `hier`, `mode`, `est` are `configuration.hierarchical`, `covariance_mode` and `multiClass_regression_estimator`;
    `bimodal`, `dim`, `di`, `window` are `shared_parameters`; `front1`, `front2` are `frontier_v1_`, `frontier_v2_`; `started` is `forward_initialized_`.
    `nulls` are the classes that `models[label]` has created with null `shared_parameters` (see `GmmModel`). -/
structure HierHmm (K : Type) where
  models : SMap String (Hmm K)
  nulls : List String
  prior : List K
  exitTrans : List K
  trans : List (List K)
  front1 : List K
  front2 : List K
  started : Bool
  training : Bool
  conf : String → HmmParams K
  hier : Bool
  mode : CovMode
  est : Estimator
  bimodal : Bool
  dim : Nat
  di : Nat
  window : Nat
  results : MultiRes K

namespace HierHmm
variable {K : Type} [Field K] [LinearOrder K]

/-- labels and results of the classes in the order of `models` -/
def classes (M : HierHmm K) : List (String × ClassRes K) := M.models.map fun lc => (lc.1, lc.2.results)

/-- call of a function that only changes `results` -/
def onResults {α : Type} (f : Prog (MultiRes K) α) : Prog (HierHmm K) α := fun M =>
  match f M.results with
  | .ret a r => .ret a { M with results := r }
  | .throw e r => .throw e { M with results := r }
  | .ub => .ub

/-- call of a member function of class number `i` of `models` -/
def onClass {α : Type} (i : Nat) (f : Prog (Hmm K) α) : Prog (HierHmm K) α := fun M =>
  match M.models[i]? with
  | none => .ub
  | some lc => match f lc.2 with
    | .ret a c => .ret a { M with models := M.models.set i (lc.1, c) }
    | .throw e c => .throw e { M with models := M.models.set i (lc.1, c) }
    | .ub => .ub

/-- `checkTraining()`, xmmModel.hpp:552-556 (`is_joining_` is false outside `joinTraining`). -/
def checkTraining : Prog (HierHmm K) Unit := do
  let M ← Prog.get
  if M.training then Prog.throw .runtimeError else pure ()

/-- `size()`, xmmModel.hpp:172-174. -/
def size (M : HierHmm K) : Nat := M.models.length + M.nulls.length

/-! ### Parameters of the hierarchy -/

/-- `DEFAULT_EXITTRANSITION()`, xmmHierarchicalHmm.hpp:52. -/
def defaultExitTransition : K := 1 / 10

/-- `updatePrior()`, xmmHierarchicalHmm.cpp:121-123. -/
def updatePrior (M : HierHmm K) : HierHmm K := { M with prior := List.replicate M.size (1 / (M.size : K)) }

/-- `updateTransition()`, xmmHierarchicalHmm.cpp:125-133. -/
def updateTransition (M : HierHmm K) : HierHmm K :=
  { M with
    exitTrans := List.replicate M.size defaultExitTransition
    trans := List.replicate M.size (List.replicate M.size (1 / (M.size : K))) }

/-- `updateExitProbabilities()`, xmmHierarchicalHmm.cpp:135-139. -/
def updateExitProbabilities : Prog (HierHmm K) Unit := do
  let M ← Prog.get
  if M.nulls ≠ [] then Prog.undef
  else loop M.models.length () (fun _ i => onClass i Hmm.updateExitProbabilities)

/-- `updateTransitionParameters()`, xmmHierarchicalHmm.cpp:110-119. -/
def updateTransitionParameters : Prog (HierHmm K) Unit := do
  let M ← Prog.get
  if M.size = M.prior.length then pure ()
  else do
    Prog.modify updatePrior
    Prog.modify updateTransition
    updateExitProbabilities

/-- `addExitPoint(state, proba)`, xmmHierarchicalHmm.cpp:85-90. -/
def addExitPoint (i : Int) (p : K) : Prog (HierHmm K) Unit := do
  let M ← Prog.get
  if M.nulls ≠ [] then Prog.undef
  else loop M.models.length () (fun _ c => onClass c (Hmm.addExitPoint i p))

/-- division of the cells of a row by their sum if it is positive, xmmHierarchicalHmm.cpp:97-100 -/
def normalizeRow {σ : Type} (n : Nat) (row : List K) : Prog σ (List K) := do
  let z ← loop n 0 (fun acc j => do
    let a ← rd row j
    pure (acc + a))
  if 0 < z then Hmm.divideList n z row else pure row

/-- `normalizeTransitions()`, xmmHierarchicalHmm.cpp:92-103. -/
def normalizeTransitions : Prog (HierHmm K) Unit := do
  let M ← Prog.get
  let z ← loop M.size 0 (fun acc i => do
    let M ← Prog.get
    let p ← rd M.prior i
    let row ← rd M.trans i
    let row' ← normalizeRow M.size row
    Prog.set { M with trans := M.trans.set i row' }
    pure (acc + p))
  let M ← Prog.get
  let prior ← Hmm.divideList M.size z M.prior
  Prog.set { M with prior := prior }

/-! ### Recognition -/

/-- The end of `reset()` on one class, xmmHierarchicalHmm.cpp:384-385. -/
def resetClass (hier : Bool) : Prog (Hmm K) Unit := do
  Prog.modify fun m => { m with hier := hier }
  Hmm.reset

/-- `reset()`, xmmHierarchicalHmm.cpp:361-387 and xmmModel.hpp:404-410. -/
def reset : Prog (HierHmm K) Unit := do
  checkTraining
  let M ← Prog.get
  if M.nulls ≠ [] then Prog.undef
  else do
    loop M.models.length () (fun _ i => onClass i Hmm.reset)
    Prog.modify fun M => { M with
      results := MultiRes.resetResults M.size M.bimodal (M.dim - M.di) M.mode M.results
      front1 := resize M.size M.front1
      front2 := resize M.size M.front2
      started := false }
    loop M.models.length () (fun _ i => onClass i (resetClass M.hier))

/-- `likelihoodAlpha(exitNum, likelihoodVector)` with `exitNum >= 0`, xmmHierarchicalHmm.cpp:341-353 (there is no other call). -/
def likelihoodAlpha {σ : Type} (e : Nat) (models : SMap String (Hmm K)) (v : List K) : Prog σ (List K) :=
  loop models.length v (fun v l => do
    let lc ← rd models l
    let s ← Hmm.sumAlpha e lc.2
    MultiRes.wr v l s)

/-- `forward_init(observation)`, xmmHierarchicalHmm.cpp:146-201. -/
def forwardInit (D : Dens K) (x : List K) : Prog (HierHmm K) Unit := do
  checkTraining
  let M ← Prog.get
  let z ← loop M.models.length 0 (fun acc c => do
    let p ← onClass c (Hmm.hierInit D M.bimodal M.prior c x)
    pure (acc + p))
  loop M.models.length () (fun _ c => onClass c (Hmm.hierDivide z))
  Prog.modify fun M => { M with started := true }

/-- `frontier_v1_[s] * transition[s][c] + prior[c] * frontier_v2_[s]`, xmmHierarchicalHmm.cpp:240-245, 256-260 -/
def entry {σ : Type} (M : HierHmm K) (c s : Nat) : Prog σ K := do
  let v1 ← rd M.front1 s
  let row ← rd M.trans s
  let t ← rd row c
  let p ← rd M.prior c
  let v2 ← rd M.front2 s
  pure (v1 * t + p * v2)

/-- `forward_update(observation)`, xmmHierarchicalHmm.cpp:203-326. -/
def forwardUpdate (D : Dens K) (x : List K) : Prog (HierHmm K) Unit := do
  checkTraining
  let M ← Prog.get
  let v1 ← likelihoodAlpha 1 M.models M.front1
  let v2 ← likelihoodAlpha 2 M.models M.front2
  Prog.set { M with front1 := v1, front2 := v2 }
  let M ← Prog.get
  let z ← loop M.models.length 0 (fun acc c => do
    let p ← onClass c (Hmm.hierUpdate D M.bimodal M.exitTrans c M.models.length (entry M c) x)
    pure (acc + p))
  loop M.models.length () (fun _ c => onClass c (Hmm.hierDivide z))

/-- `filter` on class number `i` of a model that is not hierarchical, xmmHierarchicalHmm.cpp:399-402. -/
def filterClass (D : Dens K) (log : K → K) (x : List K) (i : Nat) : Prog (HierHmm K) Unit := do
  let p ← onClass i (Hmm.filter D log x)
  let M ← Prog.get
  let v ← MultiRes.wr M.results.inst i p
  Prog.set { M with results := { M.results with inst := v } }

/-- The forward algorithm in `filter`, xmmHierarchicalHmm.cpp:391-404. -/
def forward (D : Dens K) (log : K → K) (x : List K) : Prog (HierHmm K) Unit := fun M =>
  if M.hier then
    if M.started then forwardUpdate D x M else forwardInit D x M
  else loop M.models.length () (fun _ i => filterClass D log x i) M

/-- The results of one class, xmmHierarchicalHmm.cpp:407-410. -/
def progressClass (log : K → K) : Prog (Hmm K) Unit := do
  Hmm.updateAlphaWindow
  Hmm.updateResults log

/-- `models[label]` for a class that is not there creates it. -/
def likeliestResults : Prog (HierHmm K) (ClassRes K) := fun M =>
  match SMap.find? M.results.likeliest M.models with
  | some c => .ret c.results M
  | none => .ret ⟨0, 0, [], []⟩ { M with nulls := M.results.likeliest :: M.nulls }

/-- The outputs of the likeliest class, xmmHierarchicalHmm.cpp:421-426. -/
def likeliestOutputs : Prog (HierHmm K) Unit := do
  let c ← likeliestResults
  Prog.modify fun M => { M with results := { M.results with outVals := c.outVals, outCov := c.outCov } }

/-- The outputs from those of the classes, xmmHierarchicalHmm.cpp:421-459. -/
def outputs : Prog (HierHmm K) Unit := fun M =>
  match M.est with
  | .likeliest => likeliestOutputs M
  | .mixture => onResults (MultiRes.mixOutputs (M.dim - M.di) M.mode M.classes) M

/-- The regression of `filter`, xmmHierarchicalHmm.cpp:413-460. -/
def regress (D : Dens K) (log : K → K) (x : List K) : Prog (HierHmm K) Unit := fun M =>
  if M.bimodal then
    (do loop M.models.length () (fun _ i => onClass i (Hmm.regression D log x))
        outputs) M
  else .ret () M

/-- `filter(observation)`, xmmHierarchicalHmm.cpp:389-462.  Using a class with null `shared_parameters` is undefined behaviour. -/
def filter (D : Dens K) (log exp : K → K) (x : List K) : Prog (HierHmm K) Unit := do
  checkTraining
  let M ← Prog.get
  if M.nulls ≠ [] then Prog.undef
  else do
    forward D log x
    loop M.models.length () (fun _ i => onClass i (progressClass log))
    let M ← Prog.get
    onResults (MultiRes.updateResults exp M.classes)
    regress D log x

/-! ### The set of classes -/

/-- `clear()`, xmmHierarchicalHmm.cpp:78-83 and xmmModel.hpp:221-225 (no training in progress). -/
def clear : Prog (HierHmm K) Unit := do
  Prog.modify fun M => { M with models := [], nulls := [] }
  reset
  Prog.modify fun M => { M with prior := [], trans := [], exitTrans := [] }

/-- `removeClass(label)`, xmmHierarchicalHmm.cpp:356-359 and xmmModel.hpp:207-216 (no training in progress; the classes are found among those
    that are not null). -/
def removeClass (label : String) : Prog (HierHmm K) Unit := do
  let M ← Prog.get
  match SMap.find? label M.models with
  | none => Prog.throw .outOfRange
  | some _ => do
    Prog.set { M with models := SMap.erase label M.models }
    reset
    updateTransitionParameters

/-- A new class, xmmModel.hpp:583-588 and xmmHmmSingleClass.cpp:34-50: the vectors have the default number of states, 10; the results are not
    initialised (`z` in the model), the buffer of a copy has length 1. -/
def newClass (M : HierHmm K) (p : HmmParams K) (z : K) : Hmm K :=
  { n := p.n, gaussians := p.gaussians, ergodic := p.ergodic, est := p.est, absReg := p.absReg, relReg := p.relReg, mode := p.mode,
    bimodal := M.bimodal, dim := M.dim, di := M.di, window := M.window, sts := [], prior := [], trans := [],
    alpha := resize 10 [], prevAlpha := resize 10 [], beta := resize 10 [], prevBeta := resize 10 [], alpha0 := [], alpha1 := [], alpha2 := [],
    exitP := [], hier := true, started := false, training := false, winMin := 0, winMax := 0, winNorm := z, buf := CBuf.construct 0 1 1,
    instant := z, logLik := z, progress := z, exitLik := z, exitRatio := z, likeliest := 0, outVals := [], outCov := [] }

/-- `parameters = p` -/
def setParams (p : HmmParams K) (c : Hmm K) : Hmm K :=
  { c with n := p.n, gaussians := p.gaussians, ergodic := p.ergodic, est := p.est, absReg := p.absReg, relReg := p.relReg, mode := p.mode }

/-- `addModelForClass(label)`, xmmHierarchicalHmm.cpp:141-144 and xmmModel.hpp:579-596 (the class is not training). -/
def addModelForClass (z : K) (label : String) : Prog (HierHmm K) Unit := do
  let M ← Prog.get
  let c := match SMap.find? label M.models with
    | none => newClass M (M.conf label) z
    | some c => setParams (M.conf label) c
  Prog.set { M with models := SMap.assign label c M.models }
  updateTransitionParameters

/-- What the training of the classes does, xmmModelSingleClass.cpp:114-187: each class after it, and if it succeeded (`false`: it failed or was
    cancelled).  A call trains a class once. -/
structure Training (K : Type) where
  result : String → Hmm K → Hmm K
  ok : String → Bool

/-- `joinTraining()` after the threads have been joined, xmmHierarchicalHmm.cpp:105-108 and xmmModel.hpp:497-514: the classes whose
    training failed are erased. -/
def joinTraining (t : Training K) : Prog (HierHmm K) Unit := do
  Prog.modify fun M => { M with
    models := M.models.filterMap fun lc => if t.ok lc.1 then some (lc.1, t.result lc.1 lc.2) else none
    training := false }
  reset
  updateTransitionParameters

/-- The end of a training without threads, xmmModel.hpp:287-289, 295-298: the classes whose training failed are kept. -/
def endTraining (t : Training K) : Prog (HierHmm K) Unit :=
  Prog.modify fun M => { M with models := M.models.map fun lc => (lc.1, t.result lc.1 lc.2), training := false }

/-- `train(trainingSet)` with one thread per class that is joined (`parallel`), or without threads, xmmModel.hpp:246-301, with the labels of the
    training set in their order; the dimensions of the training set are those of the model. -/
def train (z : K) (labels : List String) (parallel : Bool) (t : Training K) : Prog (HierHmm K) Unit := do
  if labels.isEmpty then pure ()
  else do
    clear
    Prog.modify fun M => { M with training := true }
    labels.foldlM (fun _ l => addModelForClass z l) ()
    if parallel then joinTraining t else endTraining t

/-- `train(trainingSet, label)` with a thread that is joined (`parallel`), or without threads, xmmModel.hpp:312-361, for a label of
    the training set; the dimensions of the training set are those of the model. -/
def trainClass (z : K) (label : String) (parallel : Bool) (t : Training K) : Prog (HierHmm K) Unit := do
  Prog.modify fun M => { M with training := true }
  addModelForClass z label
  let t' : Training K := ⟨fun l c => if l = label then t.result l c else c, fun l => l ≠ label ∨ t.ok l⟩
  if parallel then joinTraining t' else endTraining t'

end HierHmm
end Xmm
