import Verif.Model.Training
import Verif.Model.GmmInit
import Verif.Model.BaumWelch
/-
Model of `train` applied to a class: `SingleClassProbabilisticModel::train`, src/core/model/xmmModelSingleClass.cpp:114-187, with the member
functions that it calls on the class (`allocate`, `emAlgorithmInit`, `emAlgorithmUpdate`, `emAlgorithmTerminate`), and model of the initialisation
of a hidden Markov model (src/models/hmm/xmmHmmSingleClass.cpp:250-291 and 494-551), which trains a mixture for each state.

The loop itself is the one of Verif/Model/Training.lean: it sees of the class only whether a call returns, and the log-likelihoods.
-/
namespace Xmm
open Phrase (loop)
open Gauss (rd)

/-- The member functions that `train` calls on a class.  `init` tells whether the covariances are numbers (see `Gmm.emInit`), and `update` is told;
    `terminate` is what `emAlgorithmTerminate` does before it calls that of the base class; `idle` is `is_training_ = false`. -/
structure Trainee (σ V : Type) where
  allocate : Prog σ Unit
  init : Prog σ Bool
  update : Bool → Nat → Prog σ V
  terminate : Prog σ Unit
  idle : σ → σ

/-- How `train` compares log-likelihoods: see `EmEnv`. -/
structure Compare (V : Type) where
  lowest : V
  isNan : V → V → Bool
  close : V → V → Bool

/-- Comparisons of exact numbers, xmmModelSingleClass.cpp:157-159 and 189-199: the quotient `(l - o) / o` is a NaN if both are zero, and `(l - o) / l` is infinite
    or a NaN if `l` is zero.  `pct` is `em_algorithm_percent_chg`. -/
def Compare.exact {K : Type} [Field K] [LinearOrder K] (lowest pct : K) : Compare K where
  lowest := lowest
  isNan l o := decide (l = 0 ∧ o = 0)
  close l o := decide (l ≠ 0 ∧ 100 * |(l - o) / l| ≤ pct)

namespace Trainee
variable {σ V : Type}

/-- The class after the first `k` calls of `emAlgorithmUpdate`, those that throw included; `none` after undefined behaviour. -/
def after (update : Nat → Prog σ V) (s : σ) : Nat → Option σ
  | 0 => some s
  | k + 1 => (after update s k).bind fun s => match update k s with
    | .ret _ s' => some s'
    | .throw _ s' => some s'
    | .ub => none

/-- What the loop of `train` sees of the class. -/
def env (C : Compare V) (init : Bool) (update : Nat → Prog σ V) (s : σ) (cancel : Nat → Bool) : EmEnv V where
  init := init
  update k := (after update s k).bind fun s => match update k s with
    | .ret v _ => some v
    | _ => none
  cancel := cancel
  lowest := C.lowest
  isNan := C.isNan
  close := C.close

/-- `training_status` and the other members that `train` uses, in a class whose training has just been requested. -/
def start (V : Type) [Zero V] : Trainer V :=
  { status := .run, logLik := 0, iterations := 0, progression := 0, isTraining := true, locked := false, events := [], checks := 0, updates := 0 }

/-- `try { emAlgorithmInit(trainingSet); } catch (std::exception&)`, xmmModelSingleClass.cpp:127-133; `none` if there was an exception. -/
def attempt {α : Type} (f : Prog σ α) : Prog σ (Option α) := fun s =>
  match f s with
  | .ret a s' => .ret (some a) s'
  | .throw _ s' => .ret none s'
  | .ub => .ub

/-- The first test of `cancel_training_`, and the initialisation if it reads `false`, xmmModelSingleClass.cpp:126-133. -/
def begin' {α : Type} (cancelled : Bool) (dflt : α) (f : Prog σ α) : Prog σ (Option α) := if cancelled then pure (some dflt) else attempt f

/-- The end of a training, xmmModelSingleClass.cpp:174-186: `emAlgorithmTerminate` is called only if it is complete. -/
def finish (T : Trainee σ V) (t : Trainer V) : Prog σ (Trainer V) := do
  if t.status = .done then T.terminate else pure ()
  Prog.modify T.idle
  pure t

/-- `train(trainingSet)`, xmmModelSingleClass.cpp:114-187, for a training set that is not empty: the final state of the training and
    of the class.  `cancel k` is what the test number `k` of `cancel_training_` reads. -/
def train [Zero V] (T : Trainee σ V) (C : Compare V) (P : EmParams) (cancel : Nat → Bool) : Prog σ (Trainer V) := do
  T.allocate
  let ok ← begin' (cancel 0) true T.init
  let s ← Prog.get
  let update := T.update (ok.getD false)
  match Trainer.train (env C ok.isSome update s cancel) P true true 1001 (start V) with
  | .ret true t =>
    match after update s t.updates with
    | none => Prog.undef
    | some s' => do
      Prog.set s'
      finish T t
  | _ => Prog.undef

end Trainee

namespace Gmm
variable {K : Type} [Field K] [LinearOrder K]

/-- `SingleClassGMM` in training; `sd` is `trainingSet->standardDeviation()`.  `emAlgorithmTerminate` is that of the base class. -/
def trainee (D : Dens K) (log sqrt : K → K) (sd : List K) (data : KData K) : Trainee (Gmm K) K where
  allocate := allocate
  init := emInit sqrt sd data
  update := trainStep D log data
  terminate := pure ()
  idle m := { m with training := false }

end Gmm

namespace Hmm
variable {K : Type} [Field K] [LinearOrder K]

/-- The training set `temp_ts` of state `n`: the segments number `n` of the phrases, each phrase being cut in as many segments of equal length as there are
    states; the phrases with fewer frames than states are left out.  xmmHmmSingleClass.cpp:255-276. -/
def segmentData (data : KData K) (states n : Nat) : KData K :=
  { dim := data.dim
    phrases := (data.phrases.filter fun p => p.length / states ≠ 0).map fun p => (p.drop (n * (p.length / states))).take (p.length / states) }

/-- `tmpGMM`, xmmHmmSingleClass.cpp:277-284. -/
def tmpGmm (m : Hmm K) : Gmm K :=
  { gaussians := m.gaussians, mode := m.mode, absReg := m.absReg, relReg := m.relReg, bimodal := m.bimodal, dim := m.dim, di := m.di,
    window := m.window, comps := [], coeffs := [], beta := [], reg := [], training := false,
    buf := CBuf.construct 0 1 1, instant := 0, logLik := 0, outVals := [], outCov := [] }

/-- `tmpGMM.train(&temp_ts)`, xmmHmmSingleClass.cpp:285; nobody cancels it. -/
def trainSegment {σ : Type} (D : Dens K) (log sqrt : K → K) (C : Compare K) (P : EmParams) (sd : List K) (seg : KData K) (g : Gmm K) : Prog σ (Gmm K) :=
  fun s => match (Gmm.trainee D log sqrt sd seg).train C P (fun _ => false) g with
    | .ret _ g' => .ret g' s
    | .throw e _ => .throw e s
    | .ub => .ub

/-- the body of the loop of xmmHmmSingleClass.cpp:286-291: mean and covariance of component `c` are copied, all inverses are updated -/
def copyComp (g : Gmm K) (c : Nat) : Prog (Gmm K) Unit := do
  let src ← rd g.comps c
  Gmm.onComp c (Prog.modify fun d => { d with mean := src.mean, cov := src.cov })
  Gmm.updateInverseCovariances

/-- state `n` in `initMeansCovariancesWithGMMEM(trainingSet)`, xmmHmmSingleClass.cpp:254-291.  `sdOf` computes the standard deviation of a
    training set (see C24). -/
def initState (D : Dens K) (log sqrt : K → K) (C : Compare K) (P : EmParams) (sdOf : KData K → List K) (data : KData K) (n : Nat) : Prog (Hmm K) Unit := do
  let m ← Prog.get
  if (segmentData data m.n n).phrases.isEmpty then pure ()
  else do
    let g ← trainSegment D log sqrt C P (sdOf (segmentData data m.n n)) (segmentData data m.n n) (tmpGmm m)
    loop m.gaussians () (fun _ c => onState n (copyComp g c))

/-- `initMeansCovariancesWithGMMEM(trainingSet)`, xmmHmmSingleClass.cpp:250-292. -/
def initStates (D : Dens K) (log sqrt : K → K) (C : Compare K) (P : EmParams) (sdOf : KData K → List K) (data : KData K) : Prog (Hmm K) Unit := do
  let m ← Prog.get
  loop m.n () (fun _ n => initState D log sqrt C P sdOf data n)

/-- `emAlgorithmInit(trainingSet)`, xmmHmmSingleClass.cpp:494-539.  The number of components is at least 1, so that lines 504-507 are not
    reached; the variables resized in lines 509-538 are part of `emUpdate`. -/
def emInit (D : Dens K) (log sqrt : K → K) (C : Compare K) (P : EmParams) (sdOf : KData K → List K) (data : KData K) : Prog (Hmm K) Unit := do
  if data.phrases.isEmpty then pure ()
  else do
    initParametersToDefault (sdOf data)
    initStates D log sqrt C P sdOf data

/-- `SingleClassHMM` in training; `emAlgorithmTerminate`, xmmHmmSingleClass.cpp:541-551, normalises the transition probabilities. -/
def trainee (D : Dens K) (log sqrt : K → K) (C : Compare K) (P : EmParams) (sdOf : KData K → List K) (data : KData K) : Trainee (Hmm K) K where
  allocate := allocate
  init := do
    emInit D log sqrt C P sdOf data
    pure true
  update _ _ := emUpdate D log data
  terminate := normalizeTransitions
  idle m := { m with training := false }

end Hmm
end Xmm
