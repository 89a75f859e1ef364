import Verif.Model.Takes
import Verif.Model.ClassTraining
import Verif.Model.GmmFilter
/-
`GMM::train(trainingSet)` on a training set of the program: src/core/model/xmmModel.hpp:246-301 and 487-523 with everything it calls, on the memory of the training
set (Model/TrainingSet.lean, Model/Phrase.lean) and on the mixtures (Model/GmmInit.lean, Model/Gmm.lean).  Mode Parallel.
-/
namespace Xmm
open TS

/-- What `train` reads of `shared_parameters` (`likelihood_window`, the numbers of iterations; xmmModelSharedParameters.hpp:98-125) and of the configuration, which gives its
    parameters to each class (xmmModel.hpp:591-595, xmmGmmParameters.hpp). -/
structure GmmSettings (K : Type) where
  window : Nat
  em : EmParams
  gaussians : String → Nat
  relReg : String → K
  absReg : String → K
  mode : String → CovMode

namespace GmmModel
variable {K : Type} [Field K] [LinearOrder K]

/-- A class added by `addModelForClass(label)`, xmmModel.hpp:579-596, when its training starts (`is_training_ = true`, line 281).  The class is a copy of a
    temporary one, and the copy constructor does not copy the buffer (xmmModelSingleClass.cpp:54-65).  Simplified: `instant` and `logLik` (xmmModelResults.hpp:47-56) are not
    initialised by the code and 0 here; training does not read them (`C115_gmm_class_partial`). -/
def newClass (S : GmmSettings K) (bimodal : Bool) (dim di : Nat) (l : String) : Gmm K :=
  { gaussians := S.gaussians l, mode := S.mode l, absReg := S.absReg l, relReg := S.relReg l, bimodal := bimodal, dim := dim,
    di := if bimodal then di else 0, window := S.window, comps := [], coeffs := [], beta := [], reg := [], training := true,
    buf := CBuf.construct 0 1 1, instant := 0, logLik := 0, outVals := [], outCov := [] }

/-- Reading the phrases of a training set: they belong to the user, and the training does not change them (xmmModel.hpp:289-292 hands over a pointer). -/
def reading {σ α : Type} (o : TSStats.Store K) (p : Prog (TSStats.Store K) α) : Prog σ α := fun s =>
  match p o with
  | .ret a _ => .ret a s
  | .throw e _ => .throw e s
  | .ub => .ub

/-- `it->second.train(trainingSet->getPhrasesOfClass(it->first))`, xmmModel.hpp:289-292.  The frames and the standard deviation are read once, at the beginning.
    A label without a sub set would give a null pointer (xmmTrainingSet.cpp:278-283): shown not to happen. -/
def trainOne (S : GmmSettings K) (D : Dens K) (log sqrt : K → K) (C : Compare K) (cancel : Nat → Bool) (w : World K String) (t : TSet String) (l : String) :
    Prog (Gmm K) (Trainer K) :=
  match SMap.find? l t.subs with
  | none => Prog.undef
  | some s => do
    let phrases ← reading w.store (TSStats.allFrames (s.phrases.map Prod.snd))
    let sd ← reading w.store (TSStats.standardDeviation sqrt s.dims.dim (s.phrases.map Prod.snd))
    (Gmm.trainee D log sqrt sd ⟨s.dims.dim, phrases⟩).train C S.em cancel

/-- A thread of its own for the class, xmmModel.hpp:284-290, joined in `joinTraining`, lines 491-494: an exception that leaves the function of a thread ends the program
    (`std::terminate`).  The classes share no variable that training writes. -/
def inThread {σ : Type} (f : Prog (Gmm K) (Trainer K)) (c : Gmm K) : Prog σ (Gmm K × Status) := fun s =>
  match f c with
  | .ret t c' => .ret (c', t.status) s
  | .throw _ _ => .ub
  | .ub => .ub

/-- the classes of the labels, xmmModel.hpp:273-277 -/
def addClasses (new : String → Gmm K) (labels : List String) : SMap String (Gmm K) := labels.foldl (fun m l => SMap.insertNew l (new l) m) []

/-- `train(trainingSet)`, xmmModel.hpp:246-301 (Parallel), then `joinTraining()`, lines 487-523, for a model that is not training.  `cancel l` is what the thread of class `l` reads of
    `cancel_training_`.  The loop of lines 261-271 finds no class: `clear()` was called before.  Simplifications: the column names are left out (C92), `bimodal` is that of the
    model. -/
def train (S : GmmSettings K) (D : Dens K) (log sqrt : K → K) (C : Compare K) (cancel : String → Nat → Bool) (w : World K String) (t : TSet String) :
    Prog (GmmModel K) Unit := do
  if t.phrases.isEmpty then pure ()
  else do
    Prog.modify fun M => { M with models := [], nulls := [] }
    reset
    Prog.modify fun M => { M with training := true, dout := t.dims.dim - (if M.bimodal then t.dims.di else 0) }
    Prog.modify fun M => { M with models := addClasses (newClass S M.bimodal t.dims.dim t.dims.di) (SMap.keys t.labels) }
    let M ← Prog.get
    let cs ← M.models.mapM fun lc => inThread (trainOne S D log sqrt C (cancel lc.1) w t lc.1) lc.2
    Prog.modify fun M => { M with
      models := ((M.models.zip cs).filter fun x => x.2.2 ≠ .cancel ∧ x.2.2 ≠ .error).map fun x => (x.1.1, x.2.1)
      training := false }
    reset

end GmmModel
end Xmm
