import Verif.Model.Hmm
/-
Model of the training of one class of a hidden Markov model, src/models/hmm/xmmHmmSingleClass.cpp:494-1089 (Baum-Welch algorithm).

Simplifications.  The training set is given by the frames of its phrases (`KData`); the input part of a frame of a bimodal phrase is
its first `dimension_input` values and the output part the others (C13, C14).  The vectors in which the code stores the variables of all
frames (`alpha_seq_[t * numStates + i]` and so on) are lists of rows, one per frame; every access is checked.  The sums over the frames
are computed cell by cell: without rounding the order of the additions does not matter.  The tests for NaN are left out.  A quotient by
zero is 0 instead of an infinity or a NaN: the theorems show or assume that the divisors are not zero.
-/
namespace Xmm
open Phrase (loop)
open Gauss (rd resize)

variable {K : Type} [Field K] [LinearOrder K]

/-- `n` values computed one after the other -/
def collect {σ α : Type} (n : Nat) (f : Nat → Prog σ α) : Prog σ (List α) :=
  loop n [] (fun acc i => do
    let x ← f i
    pure (acc ++ [x]))

/-- the sum of `n` values computed one after the other -/
def sumTo {σ : Type} (n : Nat) (f : Nat → Prog σ K) : Prog σ K :=
  loop n 0 (fun acc i => do
    let x ← f i
    pure (acc + x))

/-- read of cell `i` of row `t` -/
def cell {σ : Type} (l : List (List K)) (t i : Nat) : Prog σ K := do
  let r ← rd l t
  rd r i

/-- The variables computed for a phrase: `len` is its size, `gamma`, `gmix`, `eps` are its elements of `gamma_sequence_`,
    `gamma_sequence_per_mixture_` (frame, state, component) and `epsilon_sequence_` (frame, state, destination; for LeftRight the
    destinations are the state itself and the next one). -/
structure EStep (K : Type) where
  len : Nat
  gamma : List (List K)
  gmix : List (List (List K))
  eps : List (List (List K))

/-- `TRANSITION_REGULARIZATION()`, xmmHmmSingleClass.hpp:54. -/
def transReg : K := 1 / 10 ^ 5

namespace Gmm

/-- The coefficients of one state, xmmHmmSingleClass.cpp:580 (set to zero) and 833-850; `post` are the rows of `gamma_sequence_per_mixture_` for
    this state. -/
def setCoeffs (post : List (List K)) : Prog (Gmm K) Unit := do
  let m ← Prog.get
  loop m.gaussians () (fun _ c => do
    let m ← Prog.get
    let _ ← rd m.coeffs c
    Prog.set { m with coeffs := m.coeffs.set c (totalOf post c) })
  normalizeMixtureCoeffs

/-- The mean of component `c`, xmmHmmSingleClass.cpp:861-896: the sum is divided by the total probability if this is positive. -/
def setMean (post frames : List (List K)) (c : Nat) : Prog (Gmm K) Unit := do
  let m ← Prog.get
  let g ← rd m.comps c
  let mean ← newMean post frames m.dim c (if 0 < totalOf post c then totalOf post c else 1)
  Prog.set { m with comps := m.comps.set c { g with mean := mean } }

/-- The sums of the upper triangle, xmmHmmSingleClass.cpp:908-925, when they are not scaled. -/
def upperCov {σ : Type} (post frames : List (List K)) (mean : List K) (dim c : Nat) (cov : List K) : Prog σ (List K) :=
  loop dim cov (fun cov i => loop (dim - i) cov (fun cov k => do
    let v ← newCov post frames mean c 1 i (i + k)
    let _ ← rd cov (i * dim + (i + k))
    pure (cov.set (i * dim + (i + k)) v)))

/-- The cells of the covariance of component `c`, xmmHmmSingleClass.cpp:581-588 (set to zero) and 899-966: if the total
    probability is positive the sums are divided by it and copied to the lower triangle. -/
def stateCov {σ : Type} (mode : CovMode) (post frames : List (List K)) (mean : List K) (dim c : Nat) : Prog σ (List K) :=
  let zeros := List.replicate (match mode with | .full => dim * dim | .diagonal => dim) 0
  if 0 < totalOf post c then newCovMode mode post frames mean dim c (totalOf post c) zeros
  else match mode with
    | .full => upperCov post frames mean dim c zeros
    | .diagonal => newCovDiagonal post frames mean dim c 1 zeros

/-- The covariance of component `c`, xmmHmmSingleClass.cpp:899-966. -/
def setCov (post frames : List (List K)) (c : Nat) : Prog (Gmm K) Unit := do
  let m ← Prog.get
  let g ← rd m.comps c
  let cov ← stateCov m.mode post frames g.mean m.dim c
  Prog.set { m with comps := m.comps.set c { g with cov := cov } }

/-- The means of one state, xmmHmmSingleClass.cpp:852-897. -/
def setMeans (post frames : List (List K)) : Prog (Gmm K) Unit := do
  let m ← Prog.get
  loop m.gaussians () (fun _ c => setMean post frames c)

/-- The covariances of one state, xmmHmmSingleClass.cpp:899-970. -/
def setCovs (post frames : List (List K)) : Prog (Gmm K) Unit := do
  let m ← Prog.get
  loop m.gaussians () (fun _ c => setCov post frames c)
  addCovarianceOffset
  updateInverseCovariances

end Gmm

namespace Hmm

/-- The likelihood of a frame in state `i`: `states[i].obsProb_bimodal(input, output)` or `states[i].obsProb(frame)`,
    xmmHmmSingleClass.cpp:672-681 (and in `forward_init`, lines 346-354 and 362-369). -/
def frameLik {σ : Type} (D : Dens K) (m : Hmm K) (x : List K) (i : Nat) : Prog σ K := do
  let s ← rd m.sts i
  Gmm.obsProbSum s (Gmm.frameProb D s x)

/-- `observation_probabilities`, xmmHmmSingleClass.cpp:669-684. -/
def obsMatrix {σ : Type} (D : Dens K) (m : Hmm K) (frames : List (List K)) : Prog σ (List (List K)) :=
  collect frames.length (fun t => do
    let x ← rd frames t
    collect m.n (frameLik D m x))

/-- The forward algorithm over a phrase, xmmHmmSingleClass.cpp:686-704: `ct`, `alpha_seq_` and `log_prob`. -/
def forwardPass (D : Dens K) (log : K → K) (frames obs : List (List K)) : Prog (Hmm K) (List K × List (List K) × K) := do
  let x ← rd frames 0
  let c ← forwardInit (fun i => do
    let m ← Prog.get
    frameLik D m x i)
  let m ← Prog.get
  loop (frames.length - 1) ([c], [m.alpha], - log c) (fun acc k => do
    let row ← rd obs (k + 1)
    let c ← forwardUpdate (fun j => rd row j)
    let m ← Prog.get
    pure (acc.1 ++ [c], acc.2.1 ++ [m.alpha], acc.2.2 - log c))

/-- The backward algorithm over a phrase of `len` frames, xmmHmmSingleClass.cpp:706-714: `beta_seq_`. -/
def backwardPass (len : Nat) (obs : List (List K)) (cts : List K) : Prog (Hmm K) (List (List K)) := do
  let c ← rd cts (len - 1)
  backwardInit c
  let m ← Prog.get
  loop (len - 1) [m.beta] (fun acc k => do
    let row ← rd obs (len - 2 - k + 1)
    let c ← rd cts (len - 2 - k)
    backwardUpdate c (fun j => rd row j)
    let m ← Prog.get
    pure (m.beta :: acc))

/-- The posterior probabilities of the states, xmmHmmSingleClass.cpp:716-723. -/
def gammas {σ : Type} (n len : Nat) (alphas betas : List (List K)) (cts : List K) : Prog σ (List (List K)) :=
  collect len (fun t => do
    let c ← rd cts t
    collect n (fun i => do
      let a ← cell alphas t i
      let b ← cell betas t i
      pure (a * b / c)))

/-- The posterior probabilities of the components of state `i` for a frame, xmmHmmSingleClass.cpp:731-757; `g` is that of the state, `o` the
    likelihood of the frame in the state. -/
def mixGamma {σ : Type} (D : Dens K) (m : Hmm K) (x : List K) (g o : K) (i : Nat) : Prog σ (List K) := do
  let s ← rd m.sts i
  if m.gaussians = 1 then pure (if 0 < 0 + o then [g * o / (0 + o)] else [g * o])
  else do
    let ps ← collect m.gaussians (Gmm.frameProb D s x)
    pure (if 0 < ps.sum then ps.map (fun p => g * p / ps.sum) else ps.map (fun p => g * p))

/-- `gamma_sequence_per_mixture_`, xmmHmmSingleClass.cpp:725-759. -/
def gmixes {σ : Type} (D : Dens K) (m : Hmm K) (frames obs gamma : List (List K)) : Prog σ (List (List (List K))) :=
  collect frames.length (fun t => do
    let x ← rd frames t
    collect m.n (fun i => do
      let g ← cell gamma t i
      let o ← cell obs t i
      mixGamma D m x g o i))

/-- `alpha * transition * beta`, then `*= observation_probability`, the four factors of xmmHmmSingleClass.cpp:763-790 -/
def epsCell {σ : Type} (m : Hmm K) (alphas betas obs : List (List K)) (t i k j : Nat) : Prog σ K := do
  let a ← cell alphas t i
  let p ← rd m.trans k
  let b ← cell betas (t + 1) j
  let o ← cell obs (t + 1) j
  pure (a * p * b * o)

/-- `epsilon_sequence_`, xmmHmmSingleClass.cpp:761-792.  The second cell of the last state of a LeftRight model is not written. -/
def epses {σ : Type} (m : Hmm K) (len : Nat) (alphas betas obs : List (List K)) : Prog σ (List (List (List K))) :=
  collect (len - 1) (fun t => collect m.n (fun i =>
    if m.ergodic then collect m.n (fun j => epsCell m alphas betas obs t i (i * m.n + j) j)
    else do
      let stay ← epsCell m alphas betas obs t i (i * 2) i
      if i < m.n - 1 then do
        let next ← epsCell m alphas betas obs t i (i * 2 + 1) (i + 1)
        pure [stay, next]
      else pure [stay]))

/-- `baumWelch_forwardBackward(phrase, phraseIndex)`, xmmHmmSingleClass.cpp:659-795. -/
def forwardBackward (D : Dens K) (log : K → K) (frames : List (List K)) : Prog (Hmm K) (EStep K × K) := do
  let m ← Prog.get
  let obs ← obsMatrix D m frames
  let f ← forwardPass D log frames obs
  let betas ← backwardPass frames.length obs f.1
  let gamma ← gammas m.n frames.length f.2.1 betas f.1
  let gmix ← gmixes D m frames obs gamma
  let eps ← epses m frames.length f.2.1 betas obs
  pure (⟨frames.length, gamma, gmix, eps⟩, f.2.2)

/-- The E step, xmmHmmSingleClass.cpp:559-567: an empty phrase has no variables. -/
def eSteps (D : Dens K) (log : K → K) (phrases : List (List (List K))) : Prog (Hmm K) (List (EStep K) × K) :=
  phrases.foldlM (fun acc frames => do
    if 0 < frames.length then do
      let r ← forwardBackward D log frames
      pure (acc.1 ++ [r.1], acc.2 + r.2)
    else pure (acc.1 ++ [⟨0, [], [], []⟩], acc.2)) ([], 0)

/-- a sum over the phrases -/
def sumPhrases {σ : Type} (es : List (EStep K)) (f : EStep K → Prog σ K) : Prog σ K :=
  es.foldlM (fun acc e => do
    let x ← f e
    pure (acc + x)) 0

/-- `gamma_sum_[i]`, xmmHmmSingleClass.cpp:797-825. -/
def gammaSum {σ : Type} (es : List (EStep K)) (i : Nat) : Prog σ K := sumPhrases es (fun e => sumTo e.len (fun t => cell e.gamma t i))

/-- the rows of `gamma_sequence_per_mixture_` for state `i`, in the order of the frames -/
def statePost {σ : Type} (es : List (EStep K)) (i : Nat) : Prog σ (List (List K)) :=
  es.foldlM (fun acc e => do
    let rows ← collect e.len (fun t => do
      let r ← rd e.gmix t
      rd r i)
    pure (acc ++ rows)) []

/-- The M step for the states, xmmHmmSingleClass.cpp:574-592. -/
def estimateStates (es : List (EStep K)) (frames : List (List K)) : Prog (Hmm K) Unit := do
  let m ← Prog.get
  loop m.n () (fun _ i => do
    let post ← statePost es i
    onState i (Gmm.setCoeffs post))
  loop m.n () (fun _ i => do
    let post ← statePost es i
    onState i (Gmm.setMeans post frames))
  loop m.n () (fun _ i => do
    let post ← statePost es i
    onState i (Gmm.setCovs post frames))

/-- `baumWelch_estimatePrior`, xmmHmmSingleClass.cpp:973-996.  (The first frame of each phrase is read, even if the phrase is empty.) -/
def estimatePrior (es : List (EStep K)) : Prog (Hmm K) Unit := do
  let m ← Prog.get
  let p ← collect m.n (fun i => sumPhrases es (fun e => cell e.gamma 0 i))
  if 0 < p.sum then Prog.set { m with prior := p.map (fun x => x / p.sum) } else Prog.set { m with prior := p }

/-- `epsilon_sequence_[phraseIndex][t][i][j]` added over the frames of a phrase but the last, xmmHmmSingleClass.cpp:1034-1059. -/
def epsSum {σ : Type} (e : EStep K) (i j : Nat) : Prog σ K := sumTo (e.len - 1) (fun t => do
  let r ← rd e.eps t
  cell r i j)

/-- the row of state `i` before scaling, xmmHmmSingleClass.cpp:1017-1062 -/
def transRow {σ : Type} (m : Hmm K) (es : List (EStep K)) (i : Nat) : Prog σ (List K) :=
  if m.ergodic then collect m.n (fun j => sumPhrases es (fun e => if 0 < e.len then epsSum e i j else pure 0))
  else do
    let stay ← sumPhrases es (fun e => if 0 < e.len then do
        let x ← epsSum e i 0
        pure (transReg + (if i < m.n - 1 then 0 else transReg) + x)
      else pure 0)
    if i < m.n - 1 then do
      let next ← sumPhrases es (fun e => if 0 < e.len then do
          let x ← epsSum e i 1
          pure (transReg + x)
        else pure 0)
      pure [stay, next]
    else pure [stay, 0]

/-- `baumWelch_estimateTransitions`, xmmHmmSingleClass.cpp:998-1089. -/
def estimateTransitions (es : List (EStep K)) : Prog (Hmm K) Unit := do
  let m ← Prog.get
  let rows ← collect m.n (fun i => do
    let g ← gammaSum es i
    let r ← transRow m es i
    pure (r.map (fun x => x / (g + 2 * transReg))))
  Prog.set { m with trans := rows.flatten }

/-- `emAlgorithmUpdate(trainingSet)`, xmmHmmSingleClass.cpp:553-595. -/
def emUpdate (D : Dens K) (log : K → K) (data : KData K) : Prog (Hmm K) K := do
  let r ← eSteps D log data.phrases
  estimateStates r.1 data.frames
  let m ← Prog.get
  if m.ergodic then estimatePrior r.1 else pure ()
  estimateTransitions r.1
  pure r.2

end Hmm
end Xmm
