import Verif.Model.GmmFilter
/-
Model of src/models/hmm/xmmHmmSingleClass.hpp / .cpp: one class of a hidden Markov model (parameters, forward and backward
algorithms, recognition and regression).  Training is in Verif/Model/BaumWelch.lean.

The vectors are lists and every access is checked: an access outside a vector is undefined behaviour.  Numbers are an
ordered field (no rounding); `log` is a parameter.  A quotient by zero is 0 instead of an infinity or a NaN: the theorems show or
assume that the divisors are not zero.
-/
namespace Xmm
open Phrase (loop)
open Gauss (rd resize)

/-- `HMM::RegressionEstimator`, xmmHmmParameters.hpp:60-79. -/
inductive RegEst where
  | full | windowed | likeliest
  deriving DecidableEq, Repr

/-- `SingleClassHMM`, xmmHmmSingleClass.hpp:150-440, and the members inherited from `SingleClassProbabilisticModel`: `n`, `gaussians`,
    `ergodic` (`transition_mode == Ergodic`), `est`, `absReg`, `relReg`, `mode` are `parameters`; `bimodal`, `dim`, `di`, `window`
    are `shared_parameters`; `sts` are the `states`; `alpha0`, `alpha1`, `alpha2` are `alpha_h`; `hier` is `is_hierarchical_`, `started` is
    `forward_initialized_`; `instant`, `logLik`, `progress`, `exitLik`, `exitRatio`, `likeliest`, `outVals`, `outCov` are `results`. -/
structure Hmm (K : Type) where
  n : Nat
  gaussians : Nat
  ergodic : Bool
  est : RegEst
  absReg : K
  relReg : K
  mode : CovMode
  bimodal : Bool
  dim : Nat
  di : Nat
  window : Nat
  sts : List (Gmm K)
  prior : List K
  trans : List K
  alpha : List K
  prevAlpha : List K
  beta : List K
  prevBeta : List K
  alpha0 : List K
  alpha1 : List K
  alpha2 : List K
  exitP : List K
  hier : Bool
  started : Bool
  training : Bool
  winMin : Nat
  winMax : Nat
  winNorm : K
  buf : CBuf K 1
  instant : K
  logLik : K
  progress : K
  exitLik : K
  exitRatio : K
  likeliest : Nat
  outVals : List K
  outCov : List K

namespace Hmm
variable {K : Type} [Field K] [LinearOrder K]

/-- `check_training()`, xmmModelSingleClass.hpp:345-348. -/
def checkTraining : Prog (Hmm K) Unit := do
  let m ← Prog.get
  if m.training then Prog.throw .runtimeError else pure ()

/-- call of a member function of state number `i` -/
def onState {α : Type} (i : Nat) (f : Prog (Gmm K) α) : Prog (Hmm K) α := fun m =>
  match m.sts[i]? with
  | none => .ub
  | some s => match f s with
    | .ret a s' => .ret a { m with sts := m.sts.set i s' }
    | .throw e s' => .throw e { m with sts := m.sts.set i s' }
    | .ub => .ub

/-- call of a member function of `likelihood_buffer_` -/
def onBuf {α : Type} (f : Prog (CBuf K 1) α) : Prog (Hmm K) α := fun m =>
  match f m.buf with
  | .ret a b => .ret a { m with buf := b }
  | .throw e b => .throw e { m with buf := b }
  | .ub => .ub

/-! ### Exit probabilities -/

/-- `DEFAULT_EXITPROBABILITY_LAST_STATE()`, xmmHmmSingleClass.hpp:53. -/
def defaultExit : K := 1 / 10

/-- `updateExitProbabilities(NULL)`, xmmHmmSingleClass.cpp:1352-1362. -/
def updateExitProbabilities : Prog (Hmm K) Unit := do
  let m ← Prog.get
  if !m.hier then Prog.throw .runtimeError
  else do
    let e := resize m.n m.exitP
    let _ ← rd e (m.n - 1)
    Prog.set { m with exitP := e.set (m.n - 1) defaultExit }

/-- `addExitPoint(stateIndex, proba)`, xmmHmmSingleClass.cpp:1373-1380.  The comparison converts the index to unsigned, so that
    a negative index is refused. -/
def addExitPoint (i : Int) (p : K) : Prog (Hmm K) Unit := do
  let m ← Prog.get
  if !m.hier then Prog.throw .runtimeError
  else if i < 0 ∨ (m.n : Int) ≤ i then Prog.throw .outOfRange
  else do
    let _ ← rd m.exitP i.toNat
    Prog.set { m with exitP := m.exitP.set i.toNat p }

/-! ### Parameters -/

/-- a mixture constructed with the parameters of the model, xmmHmmSingleClass.cpp:113-119; the buffer of a copy has the default
    length 1, xmmModelSingleClass.cpp:54-65. -/
def newState (m : Hmm K) : Gmm K :=
  { gaussians := m.gaussians, mode := m.mode, absReg := m.absReg, relReg := m.relReg, bimodal := m.bimodal, dim := m.dim, di := m.di,
    window := m.window, comps := [], coeffs := [], beta := resize m.gaussians [], reg := [], training := false,
    buf := CBuf.construct 0 1 1, instant := 0, logLik := 0, outVals := [], outCov := [] }

/-- The sizes set by `allocate()`, xmmHmmSingleClass.cpp:100-112 and 120. -/
def allocated (m : Hmm K) : Hmm K :=
  { m with
    prior := if m.ergodic then resize m.n m.prior else []
    trans := if m.ergodic then resize (m.n * m.n) m.trans else resize (m.n * 2) m.trans
    alpha := resize m.n m.alpha
    prevAlpha := resize m.n m.prevAlpha
    beta := resize m.n m.beta
    prevBeta := resize m.n m.prevBeta
    sts := List.replicate m.n (newState m) }

/-- `allocate()`, xmmHmmSingleClass.cpp:99-125. -/
def allocate : Prog (Hmm K) Unit := do
  Prog.modify allocated
  let m ← Prog.get
  loop m.sts.length () (fun _ i => onState i Gmm.allocate)
  if m.hier then updateExitProbabilities else pure ()

/-- write of `prior[i]` -/
def setPrior (i : Nat) (x : K) : Prog (Hmm K) Unit := do
  let m ← Prog.get
  let _ ← rd m.prior i
  Prog.set { m with prior := m.prior.set i x }

/-- write of `transition[k]` -/
def setTrans (k : Nat) (x : K) : Prog (Hmm K) Unit := do
  let m ← Prog.get
  let _ ← rd m.trans k
  Prog.set { m with trans := m.trans.set k x }

/-- `setErgodic()`, xmmHmmSingleClass.cpp:293-302. -/
def setErgodic : Prog (Hmm K) Unit := do
  let m ← Prog.get
  loop m.n () (fun _ i => do
    setPrior i (1 / (m.n : K))
    loop m.n () (fun _ j => setTrans (i * m.n + j) (1 / (m.n : K))))

/-- `setLeftRight()`, xmmHmmSingleClass.cpp:304-310. -/
def setLeftRight : Prog (Hmm K) Unit := do
  Prog.modify fun m => { m with trans := List.replicate (m.n * 2) (1 / 2) }
  let m ← Prog.get
  setTrans ((m.n - 1) * 2) 1
  setTrans ((m.n - 1) * 2 + 1) 0

/-- `initParametersToDefault(dataStddev)`, xmmHmmSingleClass.cpp:127-137. -/
def initParametersToDefault (sd : List K) : Prog (Hmm K) Unit := do
  let m ← Prog.get
  if m.ergodic then setErgodic else setLeftRight
  loop m.n () (fun _ i => onState i (Gmm.initParametersToDefault sd))

/-- the sum of `transition[k]` for `k` from `first` on, `len` of them -/
def sumTrans {σ : Type} (m : Hmm K) (first len : Nat) : Prog σ K :=
  loop len 0 (fun acc j => do
    let x ← rd m.trans (first + j)
    pure (acc + x))

/-- division of `len` cells of `transition` by `z` -/
def divideTrans (first len : Nat) (z : K) : Prog (Hmm K) Unit :=
  loop len () (fun _ j => do
    let m ← Prog.get
    let x ← rd m.trans (first + j)
    setTrans (first + j) (x / z))

/-- One row of the transition matrix, xmmHmmSingleClass.cpp:319-324 (Ergodic, `len` is the number of states) and 328-332
    (LeftRight, `len = 2`). -/
def normalizeRow (len i : Nat) : Prog (Hmm K) Unit := do
  let m ← Prog.get
  let z ← sumTrans m (i * len) len
  divideTrans (i * len) len z

/-- `normalizeTransitions()`, xmmHmmSingleClass.cpp:312-334. -/
def normalizeTransitions : Prog (Hmm K) Unit := do
  let m ← Prog.get
  if m.ergodic then do
    let z ← loop m.n 0 (fun acc i => do
      let m ← Prog.get
      let p ← rd m.prior i
      normalizeRow m.n i
      pure (acc + p))
    loop m.n () (fun _ i => do
      let m ← Prog.get
      let p ← rd m.prior i
      setPrior i (p / z))
  else loop m.n () (fun _ i => normalizeRow 2 i)

/-! ### Forward and backward algorithms -/

/-- The likelihood of an observation in state `i`: `states[i].obsProb(x)`, `obsProb_input(x)` or `obsProb_bimodal(x, y)`, as chosen in
    xmmHmmSingleClass.cpp:346-354, 362-369, 404-412; `y = []` when `observation_output` is NULL. -/
def stateProb {σ : Type} (D : Dens K) (m : Hmm K) (x y : List K) (i : Nat) : Prog σ K := do
  let s ← rd m.sts i
  if m.bimodal then
    if y.isEmpty then Gmm.obsProbSum s (Gmm.obsProbInput D s x) else Gmm.obsProbSum s (Gmm.obsProbBimodal D s x y)
  else Gmm.obsProbSum s (Gmm.obsProb D s x)

/-- write of `alpha[i]` -/
def setAlpha (i : Nat) (x : K) : Prog (Hmm K) Unit := do
  let m ← Prog.get
  let _ ← rd m.alpha i
  Prog.set { m with alpha := m.alpha.set i x }

/-- `for (i = 0; i < numStates; i++) alpha[i] /= z`, xmmHmmSingleClass.cpp:371-373, 416-418. -/
def divideAlpha (n : Nat) (z : K) : Prog (Hmm K) Unit :=
  loop n () (fun _ i => do
    let m ← Prog.get
    let a ← rd m.alpha i
    setAlpha i (a / z))

/-- The first values of `alpha` and their sum, xmmHmmSingleClass.cpp:342-369; `p i` is the likelihood of the observation in state `i`. -/
def initAlpha (p : Nat → Prog (Hmm K) K) : Prog (Hmm K) K := do
  let m ← Prog.get
  if m.ergodic then
    loop m.n 0 (fun acc i => do
      let m ← Prog.get
      let w ← rd m.prior i
      let b ← p i
      setAlpha i (w * b)
      pure (acc + w * b))
  else do
    Prog.set { m with alpha := List.replicate m.n 0 }
    let b ← p 0
    setAlpha 0 b
    pure (0 + b)

/-- `forward_init`, xmmHmmSingleClass.cpp:338-381. -/
def forwardInit (p : Nat → Prog (Hmm K) K) : Prog (Hmm K) K := do
  let z ← initAlpha p
  let m ← Prog.get
  if 0 < z then do
    divideAlpha m.n z
    pure (1 / z)
  else do
    loop m.n () (fun _ i => setAlpha i (1 / (m.n : K)))
    pure 1

/-- The predicted probability of state `j`, xmmHmmSingleClass.cpp:389-402 = 603-616. -/
def predict {σ : Type} (m : Hmm K) (j : Nat) : Prog σ K :=
  if m.ergodic then
    loop m.n 0 (fun acc i => do
      let a ← rd m.prevAlpha i
      let t ← rd m.trans (i * m.n + j)
      pure (acc + a * t))
  else do
    let a ← rd m.prevAlpha j
    let t ← rd m.trans (j * 2)
    if 0 < j then do
      let a' ← rd m.prevAlpha (j - 1)
      let t' ← rd m.trans ((j - 1) * 2 + 1)
      pure (0 + a * t + a' * t')
    else do
      let a' ← rd m.prevAlpha (m.n - 1)
      let t' ← rd m.trans (m.n * 2 - 1)
      pure (0 + a * t + a' * t')

/-- `forward_update`, xmmHmmSingleClass.cpp:383-424, and `baumWelch_forward_update`, lines 597-630: they differ only in the origin of the
    likelihood `p j` of the observation in state `j`. -/
def forwardUpdate (p : Nat → Prog (Hmm K) K) : Prog (Hmm K) K := do
  Prog.modify fun m => { m with prevAlpha := m.alpha }
  let m ← Prog.get
  let z ← loop m.n 0 (fun acc j => do
    let m ← Prog.get
    let v ← predict m j
    let b ← p j
    setAlpha j (v * b)
    pure (acc + v * b))
  if 1 / 10 ^ 300 < z then do
    divideAlpha m.n z
    pure (1 / z)
  else pure 0

/-- write of `beta_[i]` -/
def setBeta (i : Nat) (x : K) : Prog (Hmm K) Unit := do
  let m ← Prog.get
  let _ ← rd m.beta i
  Prog.set { m with beta := m.beta.set i x }

/-- `backward_init(ct)`, xmmHmmSingleClass.cpp:426-428. -/
def backwardInit (ct : K) : Prog (Hmm K) Unit := do
  let m ← Prog.get
  loop m.n () (fun _ i => setBeta i ct)

/-- The new `beta_[i]` before scaling, xmmHmmSingleClass.cpp:637-649 = 436-482. -/
def backStep (p : Nat → Prog (Hmm K) K) (m : Hmm K) (i : Nat) : Prog (Hmm K) K :=
  if m.ergodic then
    loop m.n 0 (fun acc j => do
      let t ← rd m.trans (i * m.n + j)
      let b ← rd m.prevBeta j
      let o ← p j
      pure (acc + t * b * o))
  else do
    let t ← rd m.trans (i * 2)
    let b ← rd m.prevBeta i
    let o ← p i
    if i < m.n - 1 then do
      let t' ← rd m.trans (i * 2 + 1)
      let b' ← rd m.prevBeta (i + 1)
      let o' ← p (i + 1)
      pure (0 + t * b * o + t' * b' * o')
    else pure (0 + t * b * o)

/-- `backward_update(ct, ...)`, xmmHmmSingleClass.cpp:430-490, and `baumWelch_backward_update`, lines 632-657.  (The tests for
    NaN and infinity are left out: without rounding the values are finite.) -/
def backwardUpdate (ct : K) (p : Nat → Prog (Hmm K) K) : Prog (Hmm K) Unit := do
  Prog.modify fun m => { m with prevBeta := m.beta }
  let m ← Prog.get
  loop m.n () (fun _ i => do
    let v ← backStep p m i
    setBeta i (v * ct))

/-! ### Recognition -/

/-- `addCyclicTransition(proba)`, xmmHmmSingleClass.cpp:1110-1119. -/
def addCyclicTransition (p : K) : Prog (Hmm K) Unit := do
  let m ← Prog.get
  checkTraining
  if m.ergodic then
    if 1 < m.n then setTrans ((m.n - 1) * m.n) p else pure ()
  else
    if 1 < m.n then setTrans ((m.n - 1) * 2 + 1) p else pure ()

/-- `reset()`, xmmHmmSingleClass.cpp:1094-1108 and xmmModelSingleClass.cpp:225-229. -/
def reset : Prog (Hmm K) Unit := do
  checkTraining
  let m ← Prog.get
  onBuf (resetBuffer m.window)
  Prog.modify fun m => { m with started := false }
  if m.hier then
    Prog.modify fun m => { m with
      alpha0 := resize m.n m.alpha0
      alpha1 := resize m.n m.alpha1
      alpha2 := resize m.n m.alpha2
      alpha := []
      prevAlpha := []
      beta := []
      prevBeta := [] }
  else addCyclicTransition (1 / 20)

/-- `is_hierarchical_ ? (alpha_h[0][i] + alpha_h[1][i]) : alpha[i]`, xmmHmmSingleClass.cpp:1165-1166 and others. -/
def occupancy {σ : Type} (m : Hmm K) (i : Nat) : Prog σ K :=
  if m.hier then do
    let a ← rd m.alpha0 i
    let b ← rd m.alpha1 i
    pure (a + b)
  else rd m.alpha i

/-- The likeliest state and its probability, xmmHmmSingleClass.cpp:1162-1178. -/
def findLikeliest {σ : Type} (m : Hmm K) : Prog σ (Nat × K) := do
  let a0 ← occupancy m 0
  loop (m.n - 1) (0, a0) (fun acc k => do
    let a ← occupancy m (k + 1)
    pure (if acc.2 < a then (k + 1, a) else acc))

/-- `updateAlphaWindow()`, xmmHmmSingleClass.cpp:1158-1194.  The bounds are `int`s: cutting the lower one at 0 is the truncated
    subtraction of natural numbers. -/
def updateAlphaWindow : Prog (Hmm K) Unit := do
  checkTraining
  let m ← Prog.get
  let best ← findLikeliest m
  let lo := best.1 - m.n / 2
  let hi := if best.1 + m.n / 2 ≤ m.n then best.1 + m.n / 2 else m.n
  let z ← loop (hi - lo) 0 (fun acc k => do
    let a ← occupancy m (lo + k)
    pure (acc + a))
  Prog.set { m with likeliest := best.1, winMin := lo, winMax := hi, winNorm := z }

/-- The probability of state `i` in the time progression, xmmHmmSingleClass.cpp:1296-1301. -/
def progressWeight {σ : Type} (m : Hmm K) (i : Nat) : Prog σ K :=
  if m.hier then do
    let a ← rd m.alpha0 i
    let b ← rd m.alpha1 i
    let c ← rd m.alpha2 i
    pure (a + b + c)
  else rd m.alpha i

/-- The time progression, xmmHmmSingleClass.cpp:1294-1306. -/
def computeProgress {σ : Type} (m : Hmm K) : Prog σ K := do
  let s ← loop (m.winMax - m.winMin) 0 (fun acc k => do
    let a ← progressWeight m (m.winMin + k)
    pure (acc + a * ((m.winMin + k : Nat) : K) / m.winNorm))
  pure (s / (if m.n - 1 = 0 then 1 else ((m.n - 1 : Nat) : K)))

/-- `updateResults()`, xmmHmmSingleClass.cpp:1285-1306. -/
def updateResults (log : K → K) : Prog (Hmm K) Unit := do
  let m ← Prog.get
  let l ← onBuf (smooth (log m.instant))
  let m ← Prog.get
  let q ← computeProgress m
  Prog.set { m with logLik := l, progress := q }

/-- One state in the loop of `regression`, xmmHmmSingleClass.cpp:1235-1281: its prediction is added with weight `a / z`, its
    covariance with weight `a * a / z`. -/
def addState (D : Dens K) (log : K → K) (x : List K) (z : K) (i : Nat) : Prog (Hmm K) Unit := do
  let _ ← onState i (Gmm.likelihood D log x [])
  onState i (Gmm.regression x)
  let m ← Prog.get
  let s ← rd m.sts i
  let a ← occupancy m i
  let vals ← addScaled (m.dim - m.di) (a / z) s.outVals m.outVals
  let cov ← addScaled (outCells m.mode (m.dim - m.di)) (a * a / z) s.outCov m.outCov
  Prog.set { m with outVals := vals, outCov := cov }

/-- The output of the likeliest state, xmmHmmSingleClass.cpp:1210-1217. -/
def likeliestState (D : Dens K) (log : K → K) (x : List K) : Prog (Hmm K) Unit := do
  let m ← Prog.get
  let _ ← onState m.likeliest (Gmm.likelihood D log x [])
  onState m.likeliest (Gmm.regression x)
  let m ← Prog.get
  let s ← rd m.sts m.likeliest
  Prog.set { m with outVals := s.outVals }

/-- `normalization_constant`, xmmHmmSingleClass.cpp:1227-1232 -/
def regNorm (m : Hmm K) : K :=
  match m.est with
  | .full => 1
  | _ => if m.winNorm ≤ 0 then 1 else m.winNorm

/-- first state and number of states, xmmHmmSingleClass.cpp:1219-1226 -/
def regRange (m : Hmm K) : Nat × Nat :=
  match m.est with
  | .full => (0, m.n)
  | _ => (m.winMin, m.winMax - m.winMin)

/-- `regression(observation_input)`, xmmHmmSingleClass.cpp:1196-1283. -/
def regression (D : Dens K) (log : K → K) (x : List K) : Prog (Hmm K) Unit := do
  checkTraining
  Prog.modify fun m => { m with
    outVals := List.replicate (m.dim - m.di) 0
    outCov := List.replicate (outCells m.mode (m.dim - m.di)) 0 }
  let m ← Prog.get
  if m.est = .likeliest then likeliestState D log x
  else loop (regRange m).2 () (fun _ k => addState D log x (regNorm m) ((regRange m).1 + k))

/-- The forward algorithm in `filter`, xmmHmmSingleClass.cpp:1123-1134. -/
def forward (D : Dens K) (x : List K) : Prog (Hmm K) K := do
  let m ← Prog.get
  if m.started then forwardUpdate (fun i => do
    let m ← Prog.get
    stateProb D m x [] i)
  else do
    onBuf CBuf.clear
    forwardInit (fun i => do
      let m ← Prog.get
      stateProb D m x [] i)

/-- `filter(observation)`, xmmHmmSingleClass.cpp:1121-1143. -/
def filter (D : Dens K) (log : K → K) (x : List K) : Prog (Hmm K) K := do
  checkTraining
  let ct ← forward D x
  Prog.modify fun m => { m with started := true, instant := 1 / ct }
  updateAlphaWindow
  updateResults log
  let m ← Prog.get
  if m.bimodal then regression D log x else pure ()
  let m ← Prog.get
  pure m.instant

/-- `results` of the class -/
def results (m : Hmm K) : ClassRes K := ⟨m.instant, m.logLik, m.outVals, m.outCov⟩

end Hmm
end Xmm
