import Verif.Model.GmmTrain
import Verif.Model.HierHmm
/-
`HierarchicalHMM::train(trainingSet)` on a training set of the program: src/core/model/xmmModel.hpp:246-301 and 487-523 and
src/models/hmm/xmmHierarchicalHmm.cpp:105-144 with everything they call, on the memory of the training set (Model/TrainingSet.lean,
Model/Phrase.lean) and on the classes (Model/ClassTraining.lean, Model/HierHmm.lean).  Mode Parallel.  `HierHmm.train` (Model/HierHmm.lean) leaves open what the training of a class does;
here it is the one of Model/ClassTraining.lean.
-/
namespace Xmm
open TS

namespace HierHmm
variable {K : Type} [Field K] [LinearOrder K]

/-- `it->second.train(trainingSet->getPhrasesOfClass(it->first))`, xmmModel.hpp:281 and 289-292.  The frames are read once, at the beginning.  `sdOf` is `standardDeviation()` of a
    training set with the given frames (xmmTrainingSet.cpp:382-417, shown in `deviation_ret`); the training computes it for the set of the class and for the sets of
    the segments of its phrases (xmmHmmSingleClass.cpp:199-247).  A label without a sub set would give a null pointer (xmmTrainingSet.cpp:278-283): shown not to happen. -/
def trainOne (D : Dens K) (log sqrt : K → K) (C : Compare K) (P : EmParams) (sdOf : KData K → List K) (cancel : Nat → Bool) (w : World K String) (t : TSet String)
    (l : String) : Prog (Hmm K) (Trainer K) :=
  match SMap.find? l t.subs with
  | none => Prog.undef
  | some s => do
    Prog.modify fun m => { m with training := true }
    let phrases ← GmmModel.reading w.store (TSStats.allFrames (s.phrases.map Prod.snd))
    (Hmm.trainee D log sqrt C P sdOf ⟨s.dims.dim, phrases⟩).train C P cancel

/-- A thread of its own for the class, xmmModel.hpp:284-290, joined in `joinTraining`, lines 491-494: an exception that leaves the function of a thread ends the program
    (`std::terminate`).  The classes share no variable that training writes. -/
def inThread {σ : Type} (f : Prog (Hmm K) (Trainer K)) (c : Hmm K) : Prog σ (Hmm K × Status) := fun s =>
  match f c with
  | .ret t c' => .ret (c', t.status) s
  | .throw _ _ => .ub
  | .ub => .ub

/-- `train(trainingSet)`, xmmModel.hpp:246-301 (Parallel), then `joinTraining()`, xmmHierarchicalHmm.cpp:105-108 and xmmModel.hpp:487-523, for a model that is not training.
    `cancel l` is what the thread of class `l` reads of `cancel_training_`; `z` are the uninitialised members of a class.  The loop of lines 261-271 finds no
    class: `clear()` was called before.  Simplifications: the column names are left out (C92), `bimodal` is that of the model. -/
def trainSet (z : K) (D : Dens K) (log sqrt : K → K) (C : Compare K) (P : EmParams) (sdOf : KData K → List K) (cancel : String → Nat → Bool) (w : World K String)
    (t : TSet String) : Prog (HierHmm K) Unit := do
  if t.phrases.isEmpty then pure ()
  else do
    clear
    Prog.modify fun M => { M with training := true, dim := t.dims.dim, di := if M.bimodal then t.dims.di else M.di }
    (SMap.keys t.labels).foldlM (fun _ l => addModelForClass z l) ()
    let M ← Prog.get
    let cs ← M.models.mapM fun lc => inThread (trainOne D log sqrt C P sdOf (cancel lc.1) w t lc.1) lc.2
    Prog.modify fun M => { M with
      models := ((M.models.zip cs).filter fun x => x.2.2 ≠ .cancel ∧ x.2.2 ≠ .error).map fun x => (x.1.1, x.2.1)
      training := false }
    reset
    updateTransitionParameters

end HierHmm
end Xmm
