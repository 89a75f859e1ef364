import Verif.Model.HierHmm
import Verif.Spec.Hmm
/- The hierarchical model: forward variables, and what they should be after the next observation. -/
namespace Xmm
variable {K : Type} [Field K] [LinearOrder K]

namespace HierSpec

/-- number of states of class number `c` -/
def states (M : HierHmm K) (c : Nat) : Nat := (M.models[c]?.map fun lc => lc.2.n).getD 0

/-- the probability, after the last observation, of being in state `k` of class `c` and of then: staying in the class (`e = 0`), going to
    another class (`e = 1`), going back to the root (`e = 2`) -/
def alpha (M : HierHmm K) (e c k : Nat) : K := (M.models[c]?.map fun lc => (lc.2.alphaOf e).getD k 0).getD 0

/-- the sum of all forward variables -/
def mass (M : HierHmm K) : K := ∑ c ∈ Finset.range M.models.length, ∑ k ∈ Finset.range (states M c), ∑ e ∈ Finset.range 3, alpha M e c k

/-- the forward variables are a probability distribution on classes, states and kinds of exit -/
structure Distribution (M : HierHmm K) : Prop where
  nonneg : ∀ e c k, 0 ≤ alpha M e c k
  sum : mass M = 1

/-- the probability of leaving class `c` by an exit of kind `e` (`0`: of staying in it) -/
def leaving (M : HierHmm K) (e c : Nat) : K := ∑ k ∈ Finset.range (states M c), alpha M e c k

/-- the probability of entering class `c`: from a class `s` by a transition of the hierarchy, or from the root -/
def entering (M : HierHmm K) (c : Nat) : K :=
  ∑ s ∈ Finset.range M.models.length, (leaving M 1 s * (M.trans.getD s []).getD c 0 + M.prior.getD c 0 * leaving M 2 s)

/-- the weight of going from state `j` to state `k` for a path that stays in the class: the transition probability divided by
    the probability of staying (for the first state of a left-right class it is not divided) -/
def within (m : Hmm K) (j k : Nat) : K :=
  if m.ergodic then m.trans.getD (j * m.n + k) 0 / (1 - m.exitP.getD j 0)
  else if k = j then (if j = 0 then m.trans.getD 0 0 else m.trans.getD (j * 2) 0 / (1 - m.exitP.getD j 0))
  else if k = j + 1 then m.trans.getD (j * 2 + 1) 0 / (1 - m.exitP.getD j 0)
  else 0

/-- the predicted weight of state `k` of the class `m`, when `w` is the probability of entering the class -/
def predicted (m : Hmm K) (w : K) (k : Nat) : K :=
  (∑ j ∈ Finset.range m.n, m.alpha0.getD j 0 * within m j k) + HmmSpec.start m k * w

/-- the first weight of state `k` of the class `m`, when `p` is the prior probability of the class.  (It is not used in an ergodic class.) -/
def first (m : Hmm K) (p : K) (k : Nat) : K := if m.ergodic then m.prior.getD k 0 else if k = 0 then p else 0

/-- the joint weight of state `k` of class `c` and of the observation, whose likelihood in that state is `b c k` -/
def joint (M : HierHmm K) (b : Nat → Nat → K) (c k : Nat) : K :=
  (M.models[c]?.map fun lc => b c k * predicted lc.2 (entering M c) k).getD 0

/-- the sum of all joint weights -/
def evidence (M : HierHmm K) (b : Nat → Nat → K) : K :=
  ∑ c ∈ Finset.range M.models.length, ∑ k ∈ Finset.range (states M c), joint M b c k

/-- the same at the first observation -/
def joint0 (M : HierHmm K) (b : Nat → Nat → K) (c k : Nat) : K :=
  (M.models[c]?.map fun lc => b c k * first lc.2 (M.prior.getD c 0) k).getD 0

/-- the sum of all joint weights at the first observation -/
def evidence0 (M : HierHmm K) (b : Nat → Nat → K) : K :=
  ∑ c ∈ Finset.range M.models.length, ∑ k ∈ Finset.range (states M c), joint0 M b c k

/-- What the ergodic classes keep from before `reset()`: `instant_likelihood` is not set to 0, and the first observation adds to it. -/
def stale (M : HierHmm K) : K :=
  ∑ c ∈ Finset.range M.models.length, (M.models[c]?.map fun lc => if lc.2.ergodic then lc.2.instant else 0).getD 0

/-- the exit probability of state `k` of class `c` -/
def exitOf (M : HierHmm K) (c k : Nat) : K := (M.models[c]?.map fun lc => lc.2.exitP.getD k 0).getD 0

/-- The forward variables after the first observation: all paths stay in their class. -/
def first3 (M : HierHmm K) (b : Nat → Nat → K) (e c k : Nat) : K :=
  match e with
  | 0 => joint0 M b c k / (evidence0 M b + stale M)
  | _ => 0

/-- The forward variables after another observation: a path that is in a state stays in the class, or it goes to another class, or it goes back
    to the root. -/
def next3 (M : HierHmm K) (b : Nat → Nat → K) (e c k : Nat) : K :=
  (match e with
    | 0 => 1 - exitOf M c k
    | 1 => (1 - M.exitTrans.getD c 0) * exitOf M c k
    | _ => M.exitTrans.getD c 0 * exitOf M c k) * (joint M b c k / evidence M b)

/-- `b c k` is the likelihood of the observation in state `k` of class `c` -/
def Emits (D : Dens K) (M : HierHmm K) (x : List K) (b : Nat → Nat → K) : Prop :=
  ∀ (c : Nat) (lc : String × Hmm K), M.models[c]? = some lc → HmmSpec.Emits D lc.2 x (b c)

/-- in a bimodal model, `v c k` and `w c k` are the output predicted by state `k` of class `c` and its covariance -/
def Predicts (D : Dens K) (M : HierHmm K) (x : List K) (v w : Nat → Nat → List K) : Prop :=
  M.bimodal = true → ∀ (c : Nat) (lc : String × Hmm K), M.models[c]? = some lc → HmmSpec.Predicts D lc.2 x (v c) (w c)

end HierSpec

/-- A class of a hierarchy that can be used for recognition: exit probabilities are in `[0, 1)`, and the paths that stay in the class
    have a successor. -/
structure Hmm.InHierarchy (m : Hmm K) : Prop where
  can : m.CanFilter
  hier : m.hier = true
  exit : m.exitP.length = m.n
  exit_nonneg : ∀ k < m.n, 0 ≤ m.exitP.getD k 0
  exit_lt : ∀ k < m.n, m.exitP.getD k 0 < 1
  trans : ∀ v ∈ m.trans, 0 ≤ v
  last : m.ergodic = false → 0 < m.trans.getD ((m.n - 1) * 2) 0

/-- The transition probabilities out of each state sum to 1; in a left-right class of two states or more, whose first state cannot
    be left, the last state can only stay. -/
structure Hmm.RowsToOne (m : Hmm K) : Prop where
  ergodic : m.ergodic = true → ∀ j < m.n, ∑ k ∈ Finset.range m.n, m.trans.getD (j * m.n + k) 0 = 1
  leftRight : m.ergodic = false → 2 ≤ m.n ∧ m.exitP.getD 0 0 = 0 ∧ (∀ j < m.n - 1, m.trans.getD (j * 2) 0 + m.trans.getD (j * 2 + 1) 0 = 1) ∧
    m.trans.getD ((m.n - 1) * 2) 0 = 1

/-- The parameters of the hierarchy: one prior, one exit probability and one row of transitions per class, all probabilities.
    (With a prior of 0 the log of a likelihood would not be a number.) -/
structure HierHmm.Top (M : HierHmm K) : Prop where
  prior : M.prior.length = M.models.length
  exitTrans : M.exitTrans.length = M.models.length
  trans : M.trans.length = M.models.length
  row : ∀ r ∈ M.trans, r.length = M.models.length
  prior_pos : ∀ p ∈ M.prior, 0 < p
  prior_sum : M.models ≠ [] → M.prior.sum = 1
  row_nonneg : ∀ r ∈ M.trans, ∀ p ∈ r, 0 ≤ p
  row_sum : ∀ r ∈ M.trans, r.sum = 1
  exit_nonneg : ∀ p ∈ M.exitTrans, 0 ≤ p
  exit_le : ∀ p ∈ M.exitTrans, p ≤ 1

/-- `m'` has the parameters of `m`; what recognition in a hierarchy writes may differ -/
def Hmm.SameClass (m m' : Hmm K) : Prop :=
  m' = { m with
    sts := m'.sts, alpha := m'.alpha, prevAlpha := m'.prevAlpha, beta := m'.beta, prevBeta := m'.prevBeta, alpha0 := m'.alpha0,
    alpha1 := m'.alpha1, alpha2 := m'.alpha2, started := m'.started, winMin := m'.winMin, winMax := m'.winMax, winNorm := m'.winNorm,
    buf := m'.buf, instant := m'.instant, logLik := m'.logLik, progress := m'.progress, exitLik := m'.exitLik, exitRatio := m'.exitRatio,
    likeliest := m'.likeliest, outVals := m'.outVals, outCov := m'.outCov } ∧ SameStates m.sts m'.sts

/-- The results of a class of a hierarchy, from its forward variables: `hist` are the logs of its likelihoods since `reset()`, `v` and `c` the outputs
    predicted by the states and their covariances. -/
structure Hmm.Reported (m : Hmm K) (log : K → K) (hist : List K) (v c : Nat → List K) (m' : Hmm K) : Prop where
  same : m' = { m with
    sts := m'.sts, winMin := m'.winMin, winMax := m'.winMax, winNorm := m'.winNorm, buf := m'.buf, logLik := m'.logLik,
    progress := m'.progress, likeliest := m'.likeliest, outVals := m'.outVals, outCov := m'.outCov }
  states : SameStates m.sts m'.sts
  logLik : m'.logLik = RecSpec.avgLast m.window (hist ++ [log m.instant])
  windowed : HmmSpec.Windowed m'
  progress : m'.progress = (∑ i ∈ Finset.Ico m'.winMin m'.winMax, (HmmSpec.occ m' i + m'.alpha2.getD i 0) * (i : K) / m'.winNorm) /
    (if m.n - 1 = 0 then 1 else ((m.n - 1 : Nat) : K))
  unimodal : m.bimodal = false → m'.outVals = m.outVals ∧ m'.outCov = m.outCov
  outVals : m.bimodal = true → m'.outVals = (List.range (m.dim - m.di)).map fun k =>
    ∑ i ∈ Finset.range m.n, HmmSpec.outWeight m' i * (v i).getD k 0
  outCov : m.bimodal = true → m'.outCov = (List.range (outCells m.mode (m.dim - m.di))).map fun k =>
    ∑ i ∈ Finset.range m.n, HmmSpec.covWeight m' i * (c i).getD k 0

/-- What the output of a bimodal model must be: that of the likeliest class, or the average of those of the classes weighted by
    the normalised smoothed likelihoods. -/
def HierHmm.OutputsOf (M : HierHmm K) : Prop :=
  match M.est with
  | .likeliest => ∃ c, (M.results.likeliest, c) ∈ M.models ∧ M.results.outVals = c.outVals ∧ M.results.outCov = c.outCov
  | .mixture =>
    (M.results.outVals = (List.range (M.dim - M.di)).map fun k =>
      ∑ i ∈ Finset.range M.models.length, M.results.smoothedNorm.getD i 0 * RecSpec.outVal M.classes i k) ∧
    (M.results.outCov = (List.range (outCells M.mode (M.dim - M.di))).map fun k =>
      ∑ i ∈ Finset.range M.models.length, M.results.smoothedNorm.getD i 0 * RecSpec.outVar M.classes i k)

/-- What the forward algorithm needs: the parameters of the hierarchy, classes that can filter. -/
structure HierHmm.Ready (M : HierHmm K) : Prop where
  idle : M.training = false
  top : M.Top
  cls : ∀ lc ∈ M.models, lc.2.InHierarchy ∧ lc.2.bimodal = M.bimodal
  front1 : M.front1.length = M.models.length
  front2 : M.front2.length = M.models.length

/-- A trained hierarchical model after `reset()`: every class can filter and has the dimensions of the model (and its covariance mode, in a bimodal
    model), the result vectors have one element per class.  If filtering has begun, there is one forward variable per state, and in
    each class they are not all 0. -/
structure HierHmm.Usable (M : HierHmm K) : Prop where
  ready : M.Ready
  hier : M.hier = true
  nulls : M.nulls = []
  sorted : SMap.Sorted M.models
  sized : M.results.Sized M.models.length
  dims : ∀ lc ∈ M.models, lc.2.dim - lc.2.di = M.dim - M.di
  mode : M.bimodal = true → ∀ lc ∈ M.models, lc.2.mode = M.mode
  buf : ∀ lc ∈ M.models, ∃ hist, Logs lc.2.buf lc.2.window hist
  alpha : M.started = true → (∀ lc ∈ M.models, lc.2.alpha0.length = lc.2.n ∧ lc.2.alpha1.length = lc.2.n ∧ lc.2.alpha2.length = lc.2.n) ∧
    (∀ e c k, 0 ≤ HierSpec.alpha M e c k) ∧ ∀ c < M.models.length, 0 < HierSpec.leaving M 0 c
  instant : ∀ lc ∈ M.models, lc.2.ergodic = true → 0 ≤ lc.2.instant

/-- A trained hierarchical model, before `reset()`. -/
structure HierHmm.Trained (M : HierHmm K) : Prop where
  idle : M.training = false
  top : M.Top
  hier : M.hier = true
  nulls : M.nulls = []
  sorted : SMap.Sorted M.models
  cls : ∀ lc ∈ M.models, lc.2.InHierarchy ∧ lc.2.bimodal = M.bimodal ∧ lc.2.dim - lc.2.di = M.dim - M.di ∧ BufOk lc.2.buf
  mode : M.bimodal = true → ∀ lc ∈ M.models, lc.2.mode = M.mode
  instant : ∀ lc ∈ M.models, lc.2.ergodic = true → 0 ≤ lc.2.instant

/-- `filter` on each observation of a stream; the list of the instantaneous likelihoods of the classes that it reports -/
def HierHmm.filterAll (D : Dens K) (log exp : K → K) : List (List K) → Prog (HierHmm K) (List (List K))
  | [] => pure []
  | x :: xs => do
    HierHmm.filter D log exp x
    let M ← Prog.get
    let rs ← HierHmm.filterAll D log exp xs
    pure (M.results.inst :: rs)

/-- operations on the set of classes of a hierarchical model -/
inductive HierHmm.ClassOp (K : Type) where
  | configure (conf : String → HmmParams K)
  | train (z : K) (labels : List String) (parallel : Bool) (t : HierHmm.Training K)
  | trainClass (z : K) (label : String) (parallel : Bool) (t : HierHmm.Training K)
  | removeClass (label : String)
  | clear
  | reset

/-- the call of the operation -/
def HierHmm.ClassOp.call : HierHmm.ClassOp K → Prog (HierHmm K) Unit
  | .configure conf => Prog.modify fun M => { M with conf := conf }
  | .train z labels parallel t => HierHmm.train z labels parallel t
  | .trainClass z label parallel t => HierHmm.trainClass z label parallel t
  | .removeClass label => HierHmm.removeClass label
  | .clear => HierHmm.clear
  | .reset => HierHmm.reset

/-- The model after a sequence of operations, whose exceptions are caught; `none` if one of them has undefined behaviour. -/
def HierHmm.history : List (HierHmm.ClassOp K) → HierHmm K → Option (HierHmm K)
  | [], M => some M
  | o :: os, M => match o.call M with
    | .ret _ M' => HierHmm.history os M'
    | .throw _ M' => HierHmm.history os M'
    | .ub => none

/-- A class that `reset()` can be called on. -/
structure Hmm.Idle (m : Hmm K) : Prop where
  idle : m.training = false
  buf : BufOk m.buf
  n : 1 ≤ m.n
  window : 1 ≤ m.window
  hier : m.hier = true

/-- the labels of the classes after the operation, given those before: training on a set without phrases does nothing, a class whose training fails in its thread is
    removed -/
def HierHmm.ClassOp.labels (o : HierHmm.ClassOp K) (S : String → Prop) : String → Prop :=
  match o with
  | .configure _ => S
  | .train _ ls parallel t => fun l => if ls = [] then S l else l ∈ ls ∧ (parallel = true → t.ok l = true)
  | .trainClass _ label parallel t => fun l => if l = label then parallel = true → t.ok l = true else S l
  | .removeClass label => fun l => l ≠ label ∧ S l
  | .clear => fun _ => False
  | .reset => S

/-- parameters with at least one state; training, successful or not, ends and leaves a class that can be reset -/
def HierHmm.ClassOp.Ok : HierHmm.ClassOp K → Prop
  | .configure conf => ∀ l, 1 ≤ (conf l).n
  | .train _ _ _ t => ∀ l c, c.Idle → (t.result l c).Idle
  | .trainClass _ _ _ t => ∀ l c, c.Idle → (t.result l c).Idle
  | _ => True

end Xmm
