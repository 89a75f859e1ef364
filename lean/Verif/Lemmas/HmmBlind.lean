import Verif.Lemmas.GmmBlind
import Verif.Props.HmmInit
set_option linter.unusedSectionVars false
/- The training of a hidden Markov model does not read the results of the recognition, the forward and backward variables and the exit probabilities that were before. -/
namespace Xmm.Hmm
open Phrase (loop)
open Gauss (rd resize)
open Prog
variable {K : Type} [Field K] [LinearOrder K]

/-- what recognition writes in a class, the forward and backward variables, and the exit probabilities -/
structure Past (K : Type) where
  alpha : List K
  prevAlpha : List K
  beta : List K
  prevBeta : List K
  alpha0 : List K
  alpha1 : List K
  alpha2 : List K
  exitP : List K
  started : Bool
  winMin : Nat
  winMax : Nat
  winNorm : K
  buf : CBuf K 1
  instant : K
  logLik : K
  progress : K
  exitLik : K
  exitRatio : K
  likeliest : Nat
  outVals : List K
  outCov : List K

def Past.of (m : Hmm K) : Past K :=
  ⟨m.alpha, m.prevAlpha, m.beta, m.prevBeta, m.alpha0, m.alpha1, m.alpha2, m.exitP, m.started, m.winMin, m.winMax, m.winNorm, m.buf, m.instant, m.logLik, m.progress, m.exitLik, m.exitRatio,
    m.likeliest, m.outVals, m.outCov⟩

/-- the class with another past -/
def withPast (p : Past K) (m : Hmm K) : Hmm K :=
  { m with alpha := p.alpha, prevAlpha := p.prevAlpha, beta := p.beta, prevBeta := p.prevBeta, alpha0 := p.alpha0, alpha1 := p.alpha1, alpha2 := p.alpha2, exitP := p.exitP, started := p.started,
           winMin := p.winMin, winMax := p.winMax, winNorm := p.winNorm, buf := p.buf, instant := p.instant, logLik := p.logLik, progress := p.progress, exitLik := p.exitLik,
           exitRatio := p.exitRatio, likeliest := p.likeliest, outVals := p.outVals, outCov := p.outCov }

variable (p : Past K)

theorem commutes_onState {α : Type} (i : Nat) (f : Prog (Gmm K) α) : Commutes (withPast p) (onState i f) := by
  intro m
  unfold onState
  have hc : (withPast p m).sts = m.sts := rfl
  rw [hc]
  cases m.sts[i]? with
  | none => rfl
  | some s =>
    dsimp only
    cases f s <;> rfl

theorem commutes_collect {σ α : Type} {φ : σ → σ} (n : Nat) (f : Nat → Prog σ α) (h : ∀ i, Commutes φ (f i)) : Commutes φ (collect n f) :=
  commutes_loop _ _ _ fun _ i => commutes_bind (h i) fun _ => commutes_pure _

theorem commutes_sumTo {σ : Type} {φ : σ → σ} (n : Nat) (f : Nat → Prog σ K) (h : ∀ i, Commutes φ (f i)) : Commutes φ (sumTo n f) :=
  commutes_loop _ _ _ fun _ i => commutes_bind (h i) fun _ => commutes_pure _

theorem commutes_cell {σ : Type} {φ : σ → σ} (l : List (List K)) (t i : Nat) : Commutes φ (cell l t i : Prog σ K) :=
  commutes_bind (commutes_rd _ _) fun _ => commutes_rd _ _

theorem commutes_sumPhrases {σ : Type} {φ : σ → σ} (es : List (EStep K)) (f : EStep K → Prog σ K) (h : ∀ e, Commutes φ (f e)) : Commutes φ (sumPhrases es f) :=
  commutes_foldlM _ _ (fun _ _ _ => commutes_bind (h _) fun _ => commutes_pure _) _

theorem commutes_gammaSum {σ : Type} {φ : σ → σ} (es : List (EStep K)) (i : Nat) : Commutes φ (gammaSum es i : Prog σ K) :=
  commutes_sumPhrases _ _ fun _ => commutes_sumTo _ _ fun _ => commutes_cell _ _ _

theorem commutes_statePost {σ : Type} {φ : σ → σ} (es : List (EStep K)) (i : Nat) : Commutes φ (statePost es i : Prog σ (List (List K))) :=
  commutes_foldlM _ _ (fun _ _ _ => commutes_bind (commutes_collect _ _ fun _ => commutes_bind (commutes_rd _ _) fun _ => commutes_rd _ _) fun _ => commutes_pure _) _

theorem commutes_estimateStates (es : List (EStep K)) (frames : List (List K)) : Commutes (withPast p) (estimateStates es frames) := by
  apply commutes_get
  intro m
  have h : ∀ (n : Nat) (f : List (List K) → Prog (Gmm K) Unit), Commutes (withPast p) (loop n () (fun _ i => do let post ← statePost es i; onState i (f post)) : Prog (Hmm K) Unit) :=
    fun n f => commutes_loop _ _ _ fun _ i => commutes_bind (commutes_statePost _ _) fun _ => commutes_onState p i _
  exact commutes_bind (h m.n Gmm.setCoeffs) (fun _ => commutes_bind (h m.n fun post => Gmm.setMeans post frames) fun _ => h m.n fun post => Gmm.setCovs post frames) m

theorem commutes_estimatePrior (es : List (EStep K)) : Commutes (withPast p) (estimatePrior es) := by
  apply commutes_get
  intro m
  refine step_bind (commutes_collect m.n _ fun i => commutes_sumPhrases _ _ fun _ => commutes_cell _ _ _) (fun l m' => ?_) m
  split <;> rfl

theorem commutes_epsSum {σ : Type} {φ : σ → σ} (e : EStep K) (i j : Nat) : Commutes φ (epsSum e i j : Prog σ K) :=
  commutes_sumTo _ _ fun _ => commutes_bind (commutes_rd _ _) fun _ => commutes_cell _ _ _

theorem commutes_transRow {σ : Type} {φ : σ → σ} (m : Hmm K) (es : List (EStep K)) (i : Nat) : Commutes φ (transRow m es i : Prog σ (List K)) := by
  unfold transRow
  split
  · exact commutes_collect _ _ fun _ => commutes_sumPhrases _ _ fun _ => commutes_ite (commutes_epsSum _ _ _) (commutes_pure _)
  · refine commutes_bind (commutes_sumPhrases _ _ fun _ => commutes_ite (commutes_bind (commutes_epsSum _ _ _) fun _ => commutes_pure _) (commutes_pure _)) fun _ => ?_
    exact commutes_ite (commutes_bind (commutes_sumPhrases _ _ fun _ => commutes_ite (commutes_bind (commutes_epsSum _ _ _) fun _ => commutes_pure _) (commutes_pure _))
      fun _ => commutes_pure _) (commutes_pure _)

theorem commutes_estimateTransitions (es : List (EStep K)) : Commutes (withPast p) (estimateTransitions es) := by
  apply commutes_get
  intro m
  refine step_bind (p := collect m.n (fun i => do
    let g ← gammaSum es i
    let r ← transRow m es i
    Pure.pure (r.map (fun x => x / (g + 2 * transReg))))) ?_ (fun _ _ => rfl) m
  exact commutes_collect _ _ fun i => commutes_bind (commutes_gammaSum _ _) fun _ => commutes_bind (commutes_transRow _ _ _) fun _ => commutes_pure _

theorem commutes_setTrans (k : Nat) (x : K) : Commutes (withPast p) (setTrans k x) := by
  apply commutes_get
  intro m
  exact step_bind (commutes_rd m.trans k) (fun _ _ => rfl) m

theorem commutes_setPrior (k : Nat) (x : K) : Commutes (withPast p) (setPrior k x) := by
  apply commutes_get
  intro m
  exact step_bind (commutes_rd m.prior k) (fun _ _ => rfl) m

theorem commutes_sumTrans {σ : Type} {φ : σ → σ} (m : Hmm K) (a b : Nat) : Commutes φ (sumTrans m a b : Prog σ K) :=
  commutes_loop _ _ _ fun _ _ => commutes_bind (commutes_rd _ _) fun _ => commutes_pure _

theorem commutes_divideTrans (a b : Nat) (z : K) : Commutes (withPast p) (divideTrans a b z) := by
  refine commutes_loop _ _ _ fun _ j => ?_
  apply commutes_get
  intro m
  exact commutes_bind (commutes_rd m.trans (a + j)) (fun _ => commutes_setTrans p _ _) m

theorem commutes_normalizeRow (len i : Nat) : Commutes (withPast p) (normalizeRow len i : Prog (Hmm K) Unit) := by
  apply commutes_get
  intro m
  exact commutes_bind (commutes_sumTrans m (i * len) len) (fun _ => commutes_divideTrans p _ _ _) m

theorem commutes_normalizeTransitions : Commutes (withPast p) (normalizeTransitions : Prog (Hmm K) Unit) := by
  apply commutes_get
  intro m
  have he : (withPast p m).ergodic = m.ergodic := rfl
  rw [he]
  split
  · refine commutes_bind (commutes_loop m.n 0 _ fun acc i => ?_) (fun z => commutes_loop m.n () _ fun _ i => ?_) m
    · apply commutes_get
      intro m
      exact commutes_bind (commutes_rd m.prior i) (fun _ => commutes_bind (commutes_normalizeRow p m.n i) fun _ => commutes_pure _) m
    · apply commutes_get
      intro m
      exact commutes_bind (commutes_rd m.prior i) (fun _ => commutes_setPrior p _ _) m
  · exact commutes_loop m.n () _ (fun _ i => commutes_normalizeRow p 2 i) m

theorem commutes_trainSegment {σ : Type} {φ : σ → σ} (D : Dens K) (log sqrt : K → K) (C : Compare K) (P : EmParams) (sd : List K) (seg : KData K) (g : Gmm K) :
    Commutes φ (trainSegment D log sqrt C P sd seg g : Prog σ (Gmm K)) := by
  intro s
  unfold trainSegment
  cases (Gmm.trainee D log sqrt sd seg).train C P (fun _ => false) g <;> rfl

theorem commutes_initStates (D : Dens K) (log sqrt : K → K) (C : Compare K) (P : EmParams) (sdOf : KData K → List K) (data : KData K) :
    Commutes (withPast p) (initStates D log sqrt C P sdOf data) := by
  apply commutes_get
  intro m
  refine commutes_loop m.n () _ (fun _ n => ?_) m
  apply commutes_get
  intro m
  have he : (withPast p m).n = m.n := rfl
  rw [he]
  split
  · rfl
  · exact commutes_bind (commutes_trainSegment D log sqrt C P _ _ (tmpGmm m)) (fun g => commutes_loop m.gaussians () _ fun _ c => commutes_onState p n _) m

/-- the default transitions of a left-right class do not depend on the former ones -/
theorem setLeftRight_blind (m : Hmm K) (l : List K) : setLeftRight (withPast p { m with trans := l }) = (setLeftRight m).mapState (withPast p) := by
  have hc : Commutes (withPast p) (setLeftRight : Prog (Hmm K) Unit) :=
    commutes_bind (commutes_modify fun _ => rfl) fun _ => commutes_get fun m => commutes_bind (commutes_setTrans p _ _) (fun _ => commutes_setTrans p _ _) m
  have : setLeftRight ({ m with trans := l } : Hmm K) = setLeftRight m := rfl
  rw [hc, this]

/-- the parameters before the iterations: neither the past nor the former transitions are read -/
theorem emInit_blind (D : Dens K) (log sqrt : K → K) (C : Compare K) (P : EmParams) (sdOf : KData K → List K) (data : KData K) (hne : data.phrases.isEmpty = false) (m : Hmm K)
    (he : m.ergodic = false) (l : List K) :
    emInit D log sqrt C P sdOf data (withPast p { m with trans := l }) = (emInit D log sqrt C P sdOf data m).mapState (withPast p) := by
  unfold emInit
  rw [hne]
  simp only [Bool.false_eq_true, if_false]
  refine bind_map ?_ fun _ => commutes_initStates p D log sqrt C P sdOf data
  have e1 : initParametersToDefault (sdOf data) (withPast p { m with trans := l }) = (setLeftRight >>= fun _ => loop m.n () (fun _ i => onState i (Gmm.initParametersToDefault (sdOf data))))
      (withPast p { m with trans := l }) := by
    unfold initParametersToDefault
    rw [bind_def, get_def]
    dsimp only
    rw [show (withPast p { m with trans := l }).ergodic = false from he, if_neg (by simp)]
    rfl
  have e2 : initParametersToDefault (sdOf data) m = (setLeftRight >>= fun _ => loop m.n () (fun _ i => onState i (Gmm.initParametersToDefault (sdOf data)))) m := by
    unfold initParametersToDefault
    rw [bind_def, get_def]
    dsimp only
    rw [he, if_neg (by simp)]
  rw [e1, e2]
  simp only [bind_def, setLeftRight_blind p m l]
  cases setLeftRight m with
  | ret a t => exact commutes_loop m.n () _ (fun _ i => commutes_onState p i _) t
  | throw e t => rfl
  | ub => rfl

end Xmm.Hmm
