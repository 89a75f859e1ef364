import Verif.Lemmas.Commutes
import Verif.Props.GmmInit
set_option linter.unusedSectionVars false
/- The training of a mixture does not read the results of the recognition that was before. -/
namespace Xmm.Gmm
open Phrase (loop)
open Gauss (rd)
open Prog
variable {K : Type} [Field K] [LinearOrder K]

/-- what recognition writes in a class -/
structure Past (K : Type) where
  beta : List K
  buf : CBuf K 1
  instant : K
  logLik : K
  outVals : List K
  outCov : List K

def Past.of (m : Gmm K) : Past K := ⟨m.beta, m.buf, m.instant, m.logLik, m.outVals, m.outCov⟩

/-- the class with another past -/
def withPast (p : Past K) (m : Gmm K) : Gmm K :=
  { m with beta := p.beta, buf := p.buf, instant := p.instant, logLik := p.logLik, outVals := p.outVals, outCov := p.outCov }

variable (p : Past K)

theorem commutes_call {σ α : Type} {φ : σ → σ} (f : Prog (Gauss K) α) (g : Gauss K) : Commutes φ (call f g : Prog σ α) := by
  intro s
  unfold call
  cases f g <;> rfl

theorem commutes_frameProb {σ : Type} {φ : σ → σ} (D : Dens K) (m : Gmm K) (frame : List K) (c : Nat) : Commutes φ (frameProb D m frame c : Prog σ K) := by
  unfold frameProb
  split
  · unfold obsProbBimodal
    split
    · exact commutes_throw _
    · exact commutes_bind (commutes_rd _ _) fun w => commutes_bind (commutes_rd _ _) fun g => commutes_bind (commutes_call _ _) fun q => commutes_pure _
  · unfold obsProb
    split
    · exact commutes_throw _
    · exact commutes_bind (commutes_rd _ _) fun w => commutes_bind (commutes_rd _ _) fun g => commutes_bind (commutes_call _ _) fun q => commutes_pure _

theorem commutes_posterior {σ : Type} {φ : σ → σ} (D : Dens K) (m : Gmm K) (frame : List K) : Commutes φ (posterior D m frame : Prog σ (List K × K)) :=
  commutes_bind (commutes_mapM _ _ fun c => commutes_bind (commutes_frameProb D m frame c) fun _ => commutes_pure _) fun _ => commutes_pure _

theorem commutes_weighted {σ : Type} {φ : σ → σ} (post frames : List (List K)) (c : Nat) (f : List K → Prog σ K) (hf : ∀ x, Commutes φ (f x)) :
    Commutes φ (weighted post frames c f) :=
  commutes_foldlM _ _ (fun _ _ _ => commutes_bind (commutes_rd _ _) fun _ => commutes_bind (hf _) fun _ => commutes_pure _) _

theorem commutes_newMean {σ : Type} {φ : σ → σ} (post frames : List (List K)) (dim c : Nat) (e : K) : Commutes φ (newMean post frames dim c e : Prog σ (List K)) :=
  commutes_mapM _ _ fun _ => commutes_bind (commutes_weighted _ _ _ _ fun _ => commutes_rd _ _) fun _ => commutes_pure _

theorem commutes_newCov {σ : Type} {φ : σ → σ} (post frames : List (List K)) (mean : List K) (c : Nat) (e : K) (i j : Nat) :
    Commutes φ (newCov post frames mean c e i j : Prog σ K) :=
  commutes_bind (commutes_weighted _ _ _ _ fun _ => commutes_bind (commutes_rd _ _) fun _ => commutes_bind (commutes_rd _ _) fun _ =>
    commutes_bind (commutes_rd _ _) fun _ => commutes_bind (commutes_rd _ _) fun _ => commutes_pure _) fun _ => commutes_pure _

theorem commutes_newCovMode {σ : Type} {φ : σ → σ} (mode : CovMode) (post frames : List (List K)) (mean : List K) (dim c : Nat) (e : K) (cov : List K) :
    Commutes φ (newCovMode mode post frames mean dim c e cov : Prog σ (List K)) := by
  cases mode with
  | full =>
    refine commutes_loop _ _ _ fun cov i => commutes_loop _ _ _ fun cov k => commutes_bind (commutes_newCov _ _ _ _ _ _ _) fun v =>
      commutes_bind (commutes_rd _ _) fun _ => ?_
    dsimp only
    split
    · exact commutes_bind (commutes_rd _ _) fun _ => commutes_pure _
    · exact commutes_pure _
  | diagonal =>
    exact commutes_loop _ _ _ fun cov i => commutes_bind (commutes_newCov _ _ _ _ _ _ _) fun v => commutes_bind (commutes_rd _ _) fun _ => commutes_pure _

theorem commutes_copyInto {σ : Type} {φ : σ → σ} (a b : List K) : Commutes φ (Gauss.copyInto a b : Prog σ (List K)) := by
  unfold Gauss.copyInto
  split <;> first | exact commutes_pure _ | exact commutes_undef

theorem commutes_onComp (c : Nat) (f : Prog (Gauss K) Unit) : Commutes (withPast p) (onComp c f) := by
  intro m
  unfold onComp
  have hc : (withPast p m).comps = m.comps := rfl
  rw [hc]
  cases m.comps[c]? with
  | none => rfl
  | some g =>
    dsimp only
    cases f g <;> rfl

theorem commutes_eachComp (f : Prog (Gauss K) Unit) : Commutes (withPast p) (eachComp f) := by
  apply commutes_get
  intro m
  exact commutes_loop m.comps.length () _ (fun _ c => commutes_onComp p c f) m

theorem commutes_addCovarianceOffset : Commutes (withPast p) addCovarianceOffset := by
  apply commutes_get
  intro m
  exact commutes_eachComp p (Gauss.regularize m.reg) m

theorem commutes_updateInverseCovariances : Commutes (withPast p) updateInverseCovariances := by
  intro m
  unfold updateInverseCovariances
  rw [commutes_eachComp p _ m]
  cases eachComp Gauss.updateInverseCovariance m <;> rfl

theorem commutes_mStep (post frames : List (List K)) : Commutes (withPast p) (mStep post frames) := by
  apply commutes_get
  intro m
  refine step_bind (commutes_loop m.gaussians () _ fun _ c => ?_) (fun _ m' => ?_) m
  · apply commutes_get
    intro m
    exact step_bind (commutes_rd m.coeffs c) (fun _ _ => rfl) m
  · refine step_bind (commutes_loop m.gaussians () _ fun _ c => ?_) (fun _ m' => ?_) m'
    · apply commutes_get
      intro m
      refine step_bind (commutes_rd m.comps c) (fun g m' => ?_) m
      refine step_bind (commutes_newMean post frames m.dim c _) (fun mean m' => ?_) m'
      exact step_bind (commutes_copyInto mean g.mean) (fun _ _ => rfl) m'
    · refine commutes_loop m.gaussians () _ (fun _ c => ?_) m'
      apply commutes_get
      intro m
      refine step_bind (commutes_rd m.comps c) (fun g m' => ?_) m
      exact step_bind (commutes_newCovMode m.mode post frames g.mean m.dim c _ g.cov) (fun _ _ => rfl) m'

theorem commutes_emUpdate (D : Dens K) (log : K → K) (data : KData K) : Commutes (withPast p) (emUpdate D log data) := by
  apply commutes_get
  intro m
  refine step_bind (p := data.frames.mapM (posterior D m)) (commutes_mapM _ _ fun x => commutes_posterior D m x) (fun r m' => ?_) m
  exact commutes_bind (commutes_mStep p _ _) (fun _ => commutes_bind (commutes_addCovarianceOffset p) fun _ =>
    commutes_bind (commutes_updateInverseCovariances p) fun _ => commutes_pure _) m'

theorem commutes_trainStep (D : Dens K) (log : K → K) (data : KData K) (ok : Bool) (k : Nat) : Commutes (withPast p) (trainStep D log data ok k) := by
  unfold trainStep
  split <;> exact commutes_emUpdate p _ log data

theorem commutes_kmeansCenters {σ : Type} {φ : σ → σ} (sqrt : K → K) (sd : List K) (data : KData K) (n : Nat) : Commutes φ (kmeansCenters sqrt sd data n : Prog σ (List K)) := by
  intro s
  unfold kmeansCenters
  cases KMeans.train sqrt (fun _ _ => 0) sd data (initialKMeans n) <;> rfl

theorem commutes_initMeans (sqrt : K → K) (sd : List K) (data : KData K) : Commutes (withPast p) (initMeansWithKMeans sqrt sd data) := by
  unfold initMeansWithKMeans
  split
  · exact commutes_pure _
  · apply commutes_get
    intro m
    refine step_bind (commutes_kmeansCenters sqrt sd data m.gaussians) (fun centers m' => ?_) m
    refine commutes_loop m.gaussians () _ (fun _ c => ?_) m'
    apply commutes_get
    intro m
    refine step_bind (commutes_rd m.comps c) (fun g m' => ?_) m
    refine step_bind (commutes_loop m.dim g.mean _ fun mean d => ?_) (fun _ _ => rfl) m'
    exact commutes_bind (commutes_rd _ _) fun _ => commutes_bind (commutes_rd _ _) fun _ => commutes_pure _

theorem commutes_segmentSum {σ : Type} {φ : σ → σ} (data : KData K) (parts n : Nat) (f : List K → Prog σ K) (hf : ∀ x, Commutes φ (f x)) :
    Commutes φ (segmentSum data parts n f) :=
  commutes_foldlM _ _ (fun _ _ _ => commutes_loop _ _ _ fun _ _ => commutes_bind (commutes_rd _ _) fun _ => commutes_bind (hf _) fun _ => commutes_pure _) _

theorem commutes_initCov {σ : Type} {φ : σ → σ} (data : KData K) (parts n i j : Nat) : Commutes φ (initCov data parts n i j : Prog σ K) :=
  commutes_bind (commutes_segmentSum _ _ _ _ fun _ => commutes_bind (commutes_rd _ _) fun _ => commutes_bind (commutes_rd _ _) fun _ => commutes_pure _) fun _ =>
    commutes_bind (commutes_segmentSum _ _ _ _ fun _ => commutes_rd _ _) fun _ => commutes_bind (commutes_segmentSum _ _ _ _ fun _ => commutes_rd _ _) fun _ => commutes_pure _

theorem commutes_initCovariances (data : KData K) : Commutes (withPast p) (initCovariances data) := by
  unfold initCovariances
  split
  · exact commutes_pure _
  · apply commutes_get
    intro m
    refine step_bind (commutes_loop m.gaussians () _ fun _ n => ?_) (fun _ _ => rfl) m
    apply commutes_get
    intro m
    refine step_bind (commutes_rd m.comps n) (fun g m' => ?_) m
    refine step_bind (p := initCovMode m.mode data m.gaussians n m.dim) ?_ (fun _ _ => rfl) m'
    cases m.mode with
    | full => exact commutes_mapM _ _ fun _ => commutes_initCov _ _ _ _ _
    | diagonal => exact commutes_mapM _ _ fun _ => commutes_initCov _ _ _ _ _

/-- `emAlgorithmInit` after `initParametersToDefault` -/
def emInitRest (sqrt : K → K) (sd : List K) (data : KData K) : Prog (Gmm K) Bool := do
  initMeansWithKMeans sqrt sd data
  let ok ← initCovariances data
  if ok then do
    addCovarianceOffset
    updateInverseCovariances
    Pure.pure true
  else Pure.pure false

theorem commutes_emInitRest (sqrt : K → K) (sd : List K) (data : KData K) : Commutes (withPast p) (emInitRest sqrt sd data) := by
  refine commutes_bind (commutes_initMeans p sqrt sd data) fun _ => commutes_bind (commutes_initCovariances p data) fun ok => ?_
  split
  · exact commutes_bind (commutes_addCovarianceOffset p) fun _ => commutes_bind (commutes_updateInverseCovariances p) fun _ => commutes_pure _
  · exact commutes_pure _

/-- a covariance is determined by its cells -/
theorem cov_unique {g g1 g2 : Gauss K} (h1 : g1 = { g with cov := g1.cov }) (h2 : g2 = { g with cov := g2.cov }) (w1 : g1.WF) (w2 : g2.WF) {m : Gmm K} {reg : List K}
    (hd : g.dim = m.dim) (hm : g.mode = m.mode)
    (c1 : ∀ i < m.dim, ∀ j < m.dim, (m.mode = .full ∨ i = j) → g1.covAt i j = defaultCov m reg i j)
    (c2 : ∀ i < m.dim, ∀ j < m.dim, (m.mode = .full ∨ i = j) → g2.covAt i j = defaultCov m reg i j) : g1 = g2 := by
  have e1 : g1.dim = m.dim := by rw [h1]; exact hd
  have e2 : g2.dim = m.dim := by rw [h2]; exact hd
  have f1 : g1.mode = m.mode := by rw [h1]; exact hm
  have f2 : g2.mode = m.mode := by rw [h2]; exact hm
  have l1 := w1.cov
  have l2 := w2.cov
  have hc : g1.cov = g2.cov := by
    rcases mode_cases' m.mode with hmd | hmd
    · simp only [f1, f2, e1, e2, hmd] at l1 l2
      refine List.ext_getElem (by rw [l1, l2]) fun k a b => ?_
      have hk : k < m.dim * m.dim := by rw [← l1]; exact a
      have hpos : 0 < m.dim := Nat.pos_of_ne_zero fun h => by simp [h] at hk
      have hi : k / m.dim < m.dim := Nat.div_lt_of_lt_mul hk
      have hj : k % m.dim < m.dim := Nat.mod_lt _ hpos
      have := (c1 _ hi _ hj (.inl hmd)).trans (c2 _ hi _ hj (.inl hmd)).symm
      have hkk : k / m.dim * m.dim + k % m.dim = k := by rw [Nat.mul_comm]; exact Nat.div_add_mod k m.dim
      simp only [Gauss.covAt, f1, f2, e1, e2, hmd, hkk] at this
      simpa [List.getD_eq_getElem?_getD, List.getElem?_eq_getElem a, List.getElem?_eq_getElem b] using this
    · simp only [f1, f2, e1, e2, hmd] at l1 l2
      refine List.ext_getElem (by rw [l1, l2]) fun k a b => ?_
      have hk : k < m.dim := by rw [← l1]; exact a
      have := (c1 _ hk _ hk (.inr rfl)).trans (c2 _ hk _ hk (.inr rfl)).symm
      simp only [Gauss.covAt, f1, f2, e1, e2, hmd, if_true] at this
      simpa [List.getD_eq_getElem?_getD, List.getElem?_eq_getElem a, List.getElem?_eq_getElem b] using this
  rw [h1, h2, hc]

end Xmm.Gmm
