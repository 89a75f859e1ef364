import Verif.Model.HmmTrain
/-
`train(trainingSet, label)`: src/core/model/xmmModel.hpp:312-361 and 487-523 and src/models/hmm/xmmHierarchicalHmm.cpp:105-144 with everything they call, on a training set of the program,
for a hierarchical hidden Markov model.  Mode Parallel.
-/
namespace Xmm
open TS

namespace HierHmm
variable {K : Type} [Field K] [LinearOrder K]

/-- The test of xmmModel.hpp:321-330.  All classes hold a pointer to `shared_parameters`, so that its dimensions are those of the first class. -/
def otherDimensions (M : HierHmm K) (dim di : Nat) : Bool :=
  match M.models with
  | [] => false
  | lc :: _ => decide (lc.2.dim ≠ dim) || (M.bimodal && decide (lc.2.di ≠ di))

/-- The call of `train` of the class in its thread, xmmModel.hpp:344-354, and the join of line 492. -/
def trainThread (D : Dens K) (log sqrt : K → K) (C : Compare K) (P : EmParams) (sdOf : KData K → List K) (cancel : Nat → Bool) (w : World K String) (t : TSet String) (label : String) :
    Prog (HierHmm K) (Hmm K × Status) := fun M =>
  match SMap.find? label M.models with
  | none => .ub
  | some c => inThread (trainOne D log sqrt C P sdOf cancel w t label) c M

/-- `train(trainingSet, label)`, xmmModel.hpp:312-361 (Parallel), then `joinTraining()`, xmmHierarchicalHmm.cpp:105-108 and xmmModel.hpp:487-523, for a model that is not training (so
    that `cancelTraining(label)` does nothing, lines 250-261).  `cancel` is what the thread reads of `cancel_training_`.  Simplifications: those of `HierHmm.trainSet`; the other classes are not
    in the states `Cancel` and `Error` (lines 503-506 would erase them): after a training in this mode, or after loading, no class is. -/
def trainLabel (z : K) (D : Dens K) (log sqrt : K → K) (C : Compare K) (P : EmParams) (sdOf : KData K → List K) (cancel : Nat → Bool) (w : World K String) (t : TSet String)
    (label : String) : Prog (HierHmm K) Unit := do
  if label ∉ SMap.keys t.labels then Prog.throw .outOfRange
  else do
    let M ← Prog.get
    if M.otherDimensions t.dims.dim t.dims.di then Prog.throw .runtimeError
    else do
      Prog.modify fun M => { M with training := true, dim := t.dims.dim, di := if M.bimodal then t.dims.di else M.di }
      addModelForClass z label
      let c ← trainThread D log sqrt C P sdOf cancel w t label
      Prog.modify fun M => { M with
        models := if c.2 = .cancel ∨ c.2 = .error then SMap.erase label M.models else SMap.assign label c.1 M.models
        training := false }
      reset
      updateTransitionParameters

end HierHmm
end Xmm
