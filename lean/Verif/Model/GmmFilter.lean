import Verif.Model.Gmm
import Verif.Model.Likelihoods
/-
Model of recognition and regression with Gaussian mixtures: src/models/gmm/xmmGmmSingleClass.cpp:77-86, 574-641 and
src/models/gmm/xmmGmm.cpp:52-164.
-/
namespace Xmm
open Phrase (loop)
open Gauss (rd)
namespace Gmm
variable {K : Type} [Field K] [LinearOrder K]

/-- call of a member function of `likelihood_buffer_` -/
def onBuf {α : Type} (f : Prog (CBuf K 1) α) : Prog (Gmm K) α := fun m =>
  match f m.buf with
  | .ret a b => .ret a { m with buf := b }
  | .throw e b => .throw e { m with buf := b }
  | .ub => .ub

/-- The probability of an observation for component `c`, xmmGmmSingleClass.cpp:613-621; `y` is `observation_output`. -/
def filterProb {σ : Type} (D : Dens K) (m : Gmm K) (x y : List K) (c : Nat) : Prog σ K :=
  if m.bimodal then
    if y.isEmpty then obsProbInput D m x c else obsProbBimodal D m x y c
  else obsProb D m x c

/-- The first loop of `likelihood`, xmmGmmSingleClass.cpp:612-623: sets `beta[c]` and sums. -/
def sumBeta (D : Dens K) (x y : List K) : Prog (Gmm K) K := do
  let m ← Prog.get
  loop m.gaussians 0 (fun acc c => do
    let m ← Prog.get
    let p ← filterProb D m x y c
    let _ ← rd m.beta c
    Prog.set { m with beta := m.beta.set c p }
    pure (acc + p))

/-- The second loop of `likelihood`, xmmGmmSingleClass.cpp:624-626. -/
def divideBeta (n : Nat) (z : K) : Prog (Gmm K) Unit :=
  loop n () (fun _ c => do
    let m ← Prog.get
    let b ← rd m.beta c
    Prog.set { m with beta := m.beta.set c (b / z) })

/-- `updateResults()`, xmmGmmSingleClass.cpp:633-641. -/
def updateResults (log : K → K) : Prog (Gmm K) Unit := do
  let m ← Prog.get
  let l ← onBuf (smooth (log m.instant))
  Prog.modify fun m => { m with logLik := l }

/-- `likelihood(observation, observation_output)`, xmmGmmSingleClass.cpp:607-631. -/
def likelihood (D : Dens K) (log : K → K) (x y : List K) : Prog (Gmm K) K := do
  checkTraining
  let p ← sumBeta D x y
  let m ← Prog.get
  divideBeta m.gaussians p
  Prog.modify fun m => { m with instant := p }
  updateResults log
  pure p

/-- The prediction of component `c` added to the output, xmmGmmSingleClass.cpp:588-604. -/
def addComponent {σ : Type} (m : Gmm K) (x : List K) (acc : List K × List K) (c : Nat) : Prog σ (List K × List K) := do
  let g ← rd m.comps c
  let y ← call (Gauss.regression x) g
  let b ← rd m.beta c
  let vals ← addScaled (m.dim - m.di) b y acc.1
  let cov ← addScaled (outCells m.mode (m.dim - m.di)) (b * b) g.outCov acc.2
  pure (vals, cov)

/-- `regression(observation_input)`, xmmGmmSingleClass.cpp:574-605. -/
def regression (x : List K) : Prog (Gmm K) Unit := do
  checkTraining
  let m ← Prog.get
  let acc ← loop m.gaussians (List.replicate (m.dim - m.di) 0, List.replicate (outCells m.mode (m.dim - m.di)) 0)
    (addComponent m x)
  Prog.modify fun m => { m with outVals := acc.1, outCov := acc.2 }

/-- `filter(observation)`, xmmGmmSingleClass.cpp:79-86. -/
def filter (D : Dens K) (log : K → K) (x : List K) : Prog (Gmm K) K := do
  checkTraining
  let p ← likelihood D log x []
  let m ← Prog.get
  if m.bimodal then do
    regression x
    pure p
  else pure p

/-- `reset()`, xmmGmmSingleClass.cpp:77 and xmmModelSingleClass.cpp:225-229. -/
def reset : Prog (Gmm K) Unit := do
  checkTraining
  let m ← Prog.get
  onBuf (resetBuffer m.window)

/-- `results` of the class -/
def results (m : Gmm K) : ClassRes K := ⟨m.instant, m.logLik, m.outVals, m.outCov⟩

end Gmm

/-- `GMM`, xmmGmm.hpp:68-140 and xmmModel.hpp:458-620: `models`, `results`, and what recognition reads of `shared_parameters`
    (`bimodal`, `dimension - dimension_input`), `configuration` (`mode` is `covariance_mode`, `est` is
    `multiClass_regression_estimator`) and `is_training_`.  `nulls` are the classes that `models[label]` has created with
    null `shared_parameters` (xmmGmm.cpp:124-129 with no class of that label); in /repo they are entries of `models`. -/
structure GmmModel (K : Type) where
  models : SMap String (Gmm K)
  nulls : List String
  bimodal : Bool
  dout : Nat
  mode : CovMode
  est : Estimator
  training : Bool
  results : MultiRes K

namespace GmmModel
variable {K : Type} [Field K] [LinearOrder K]

/-- labels and results of the classes in the order of `models` -/
def classes (M : GmmModel K) : List (String × ClassRes K) := M.models.map fun lc => (lc.1, lc.2.results)

/-- call of a function that only changes `results` -/
def onResults {α : Type} (f : Prog (MultiRes K) α) : Prog (GmmModel K) α := fun M =>
  match f M.results with
  | .ret a r => .ret a { M with results := r }
  | .throw e r => .throw e { M with results := r }
  | .ub => .ub

/-- call of a member function of class number `i` of `models` -/
def onClass {α : Type} (i : Nat) (f : Prog (Gmm K) α) : Prog (GmmModel K) α := fun M =>
  match M.models[i]? with
  | none => .ub
  | some lc => match f lc.2 with
    | .ret a c => .ret a { M with models := M.models.set i (lc.1, c) }
    | .throw e c => .throw e { M with models := M.models.set i (lc.1, c) }
    | .ub => .ub

/-- `checkTraining()`, xmmModel.hpp:552-556 (`is_joining_` is false outside `joinTraining`). -/
def checkTraining : Prog (GmmModel K) Unit := do
  let M ← Prog.get
  if M.training then Prog.throw .runtimeError else pure ()

/-- `models[label]` for a class that is not there creates it (see `GmmModel`). -/
def likeliestResults : Prog (GmmModel K) (ClassRes K) := fun M =>
  match SMap.find? M.results.likeliest M.models with
  | some c => .ret c.results M
  | none => .ret ⟨0, 0, [], []⟩ { M with nulls := M.results.likeliest :: M.nulls }

/-- The outputs of the likeliest class, xmmGmm.cpp:123-129. -/
def likeliestOutputs : Prog (GmmModel K) Unit := do
  let c ← likeliestResults
  Prog.modify fun M => { M with results := { M.results with outVals := c.outVals, outCov := c.outCov } }

/-- The outputs of `filter`, xmmGmm.cpp:117-163. -/
def outputs : Prog (GmmModel K) Unit := fun M =>
  if M.bimodal then
    match M.est with
    | .likeliest => likeliestOutputs M
    | .mixture => onResults (MultiRes.mixOutputs M.dout M.mode M.classes) M
  else .ret () M

/-- `filter` on class number `i`, xmmGmm.cpp:110-113. -/
def filterClass (D : Dens K) (log : K → K) (x : List K) (i : Nat) : Prog (GmmModel K) Unit := do
  let p ← onClass i (Gmm.filter D log x)
  let M ← Prog.get
  let v ← MultiRes.wr M.results.inst i p
  Prog.set { M with results := { M.results with inst := v } }

/-- `filter(observation)`, xmmGmm.cpp:108-164.  Using a class with null `shared_parameters` is undefined behaviour. -/
def filter (D : Dens K) (log exp : K → K) (x : List K) : Prog (GmmModel K) Unit := do
  checkTraining
  let M ← Prog.get
  if M.nulls ≠ [] then Prog.undef
  else do
    loop M.models.length () (fun _ i => filterClass D log x i)
    let M ← Prog.get
    onResults (MultiRes.updateResults exp M.classes)
    outputs

/-- `reset()`, xmmGmm.cpp:86-106: it does not check that the model is not training, only the classes do. -/
def reset : Prog (GmmModel K) Unit := do
  Prog.modify fun M => { M with
    results := MultiRes.resetResults (M.models.length + M.nulls.length) M.bimodal M.dout M.mode M.results }
  let M ← Prog.get
  if M.nulls ≠ [] then Prog.undef
  else loop M.models.length () (fun _ i => onClass i Gmm.reset)

end GmmModel
end Xmm
