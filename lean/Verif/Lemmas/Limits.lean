import Verif.Lemmas.Sim
import Verif.Props.ModelCopyFilter
/- Recognition does not read the limits of the dimensions of the components: a model whose components have no limits does what the model does. -/
namespace Xmm
open Phrase (loop)
open Prog (bind_def pure_def get_def set_def modify_def throw_def undef_def)
open Gauss (Quiet)
set_option linter.unusedSectionVars false
set_option linter.unusedVariables false
variable {K : Type} [Field K] [LinearOrder K]

/-- the likelihoods use nothing but what is saved of a component (`Gauss.Restored`) -/
structure Dens.Blind (D : Dens K) : Prop where
  joint : ∀ x (g g' : Gauss K), g.Restored g' → (D.joint x g').answer = (D.joint x g).answer
  input : ∀ x (g g' : Gauss K), g.Restored g' → (D.input x g').answer = (D.input x g).answer
  bimodal : ∀ x y (g g' : Gauss K), g.Restored g' → (D.bimodal x y g').answer = (D.bimodal x y g).answer

theorem Gauss.unlimited_restored (g : Gauss K) : g.Restored g.unlimited := ⟨rfl, rfl, rfl, rfl, rfl, rfl, rfl, rfl, rfl, rfl⟩

namespace SimAt
variable {σ τ α : Type} {φ : σ → τ}

/-- two functions without effect that have the same answer -/
theorem answer {p : Prog σ α} {q : Prog τ α} (r : Option (Except Exn α)) (hp : ∀ s, p s = match r with | some (.ok a) => .ret a s | some (.error e) => .throw e s | none => .ub)
    (hq : ∀ s, q s = match r with | some (.ok a) => .ret a s | some (.error e) => .throw e s | none => .ub) (s : σ) : SimAt φ p q s := by
  simp only [SimAt, hp, hq]
  match r with
  | some (.ok a) => rfl
  | some (.error e) => rfl
  | none => rfl

/-- a constant function of a component -/
theorem call {f : Prog (Gauss K) α} {g g' : Gauss K} (h : (f g').answer = (f g).answer) (s : σ) : SimAt φ (Gmm.call f g) (Gmm.call f g') s := by
  unfold SimAt Gmm.call
  cases h1 : f g <;> cases h2 : f g' <;> rw [h1, h2] at h <;> simp_all [Res.answer, Res.mapS]

end SimAt

/-! ### Gaussian mixtures -/
namespace Gmm

/-- the class whose components have no limits -/
def free (m : Gmm K) : Gmm K := { m with comps := m.comps.map Gauss.unlimited }

theorem sim_obsProb {σ τ : Type} {φ : σ → τ} {D : Dens K} (hD : D.Blind) (m : Gmm K) (x : List K) (c : Nat) (s : σ) :
    SimAt φ (obsProb D m x c) (obsProb D m.free x c) s :=
  .ite (fun _ => .throw _ _) fun _ => .bind (.rd _ _ _) fun _ _ _ => .rdMap _ _ _ fun g _ => .bind (.call (hD.joint x _ _ g.unlimited_restored) _) fun _ _ _ => .pure _ _

theorem sim_obsProbInput {σ τ : Type} {φ : σ → τ} {D : Dens K} (hD : D.Blind) (m : Gmm K) (x : List K) (c : Nat) (s : σ) :
    SimAt φ (obsProbInput D m x c) (obsProbInput D m.free x c) s :=
  .ite (fun _ => .throw _ _) fun _ => .bind (.rd _ _ _) fun _ _ _ => .rdMap _ _ _ fun g _ => .bind (.call (hD.input x _ _ g.unlimited_restored) _) fun _ _ _ => .pure _ _

theorem sim_obsProbBimodal {σ τ : Type} {φ : σ → τ} {D : Dens K} (hD : D.Blind) (m : Gmm K) (x y : List K) (c : Nat) (s : σ) :
    SimAt φ (obsProbBimodal D m x y c) (obsProbBimodal D m.free x y c) s :=
  .ite (fun _ => .throw _ _) fun _ => .bind (.rd _ _ _) fun _ _ _ => .rdMap _ _ _ fun g _ => .bind (.call (hD.bimodal x y _ _ g.unlimited_restored) _) fun _ _ _ => .pure _ _

theorem sim_obsProbSum {σ τ : Type} {φ : σ → τ} (m : Gmm K) (f : Nat → Prog σ K) (f' : Nat → Prog τ K) (s : σ) (h : ∀ c s, SimAt φ (f c) (f' c) s) :
    SimAt φ (obsProbSum m f) (obsProbSum m.free f') s :=
  .loop _ _ _ fun _ c s _ => .bind (h c s) fun _ _ _ => .pure _ _

theorem sim_filterProb {σ τ : Type} {φ : σ → τ} {D : Dens K} (hD : D.Blind) (m : Gmm K) (x y : List K) (c : Nat) (s : σ) :
    SimAt φ (filterProb D m x y c) (filterProb D m.free x y c) s :=
  .ite (fun _ => .ite (fun _ => sim_obsProbInput hD m x c s) fun _ => sim_obsProbBimodal hD m x y c s) fun _ => sim_obsProb hD m x c s

theorem sim_onBuf {α : Type} (f : Prog (CBuf K 1) α) (m : Gmm K) : SimAt free (onBuf f) (onBuf f) m := by
  unfold SimAt onBuf
  show (match f m.buf with | .ret a b => _ | .throw e b => _ | .ub => _) = _
  cases f m.buf <;> rfl

theorem sim_checkTraining (m : Gmm K) : SimAt free checkTraining checkTraining m := .get (.ite (fun _ => .throw _ _) fun _ => .pure _ _)

theorem sim_sumBeta {D : Dens K} (hD : D.Blind) (x y : List K) (m : Gmm K) : SimAt free (sumBeta D x y) (sumBeta D x y) m :=
  .get (.loop _ _ _ fun _ _ s _ => .get (.bind (sim_filterProb hD s x y _ _) fun _ s' _ => .bind (.rd _ _ _) fun _ _ _ => .bind (.set rfl) fun _ _ _ => .pure _ _))

theorem sim_divideBeta (n : Nat) (z : K) (m : Gmm K) : SimAt free (divideBeta n z) (divideBeta n z) m :=
  .loop _ _ _ fun _ _ _ _ => .get (.bind (.rd _ _ _) fun _ _ _ => .set rfl)

theorem sim_updateResults (log : K → K) (m : Gmm K) : SimAt free (updateResults log) (updateResults log) m :=
  .get (.bind (sim_onBuf _ _) fun _ _ _ => .modify rfl)

theorem sim_likelihood {D : Dens K} (hD : D.Blind) (log : K → K) (x y : List K) (m : Gmm K) : SimAt free (likelihood D log x y) (likelihood D log x y) m :=
  .bind (sim_checkTraining m) fun _ _ _ => .bind (sim_sumBeta hD x y _) fun _ _ _ => .get (.bind (sim_divideBeta _ _ _) fun _ _ _ =>
    .bind (.modify rfl) fun _ _ _ => .bind (sim_updateResults log _) fun _ _ _ => .pure _ _)

theorem sim_addScaled {σ τ : Type} {φ : σ → τ} (n : Nat) (b : K) (x y : List K) (s : σ) : SimAt φ (addScaled n b x y) (addScaled n b x y) s :=
  .loop _ _ _ fun _ _ _ _ => .bind (.rd _ _ _) fun _ _ _ => .bind (.rd _ _ _) fun _ _ _ => .pure _ _

theorem sim_regression (x : List K) (m : Gmm K) : SimAt free (regression x) (regression x) m :=
  .bind (sim_checkTraining m) fun _ m _ => .get (.bind (.loop _ _ _ fun _ _ _ _ =>
    .rdMap _ _ _ fun g _ => .bind (.call (g.unlimited_restored.regression x) _) fun _ _ _ => .bind (.rd _ _ _) fun _ _ _ =>
      .bind (sim_addScaled _ _ _ _ _) fun _ _ _ => .bind (sim_addScaled _ _ _ _ _) fun _ _ _ => .pure _ _) fun _ _ _ => .modify rfl)

theorem sim_filter {D : Dens K} (hD : D.Blind) (log : K → K) (x : List K) (m : Gmm K) : SimAt free (filter D log x) (filter D log x) m :=
  .bind (sim_checkTraining m) fun _ _ _ => .bind (sim_likelihood hD log x [] _) fun _ _ _ => .get (.ite
    (fun _ => .bind (sim_regression x _) fun _ _ _ => .pure _ _) fun _ => .pure _ _)

theorem sim_reset (m : Gmm K) : SimAt free reset reset m := .bind (sim_checkTraining m) fun _ _ _ => .get (sim_onBuf _ _)

end Gmm

namespace GmmModel

/-- the model whose components have no limits -/
def free (M : GmmModel K) : GmmModel K := { M with models := M.models.map fun lc => (lc.1, lc.2.free) }

theorem free_classes (M : GmmModel K) : M.free.classes = M.classes := by
  simp only [classes, free, List.map_map]
  rfl

theorem sim_onResults {α : Type} (f : Prog (MultiRes K) α) (M : GmmModel K) : SimAt free (onResults f) (onResults f) M := by
  unfold SimAt onResults
  show (match f M.results with | .ret a b => _ | .throw e b => _ | .ub => _) = _
  cases f M.results <;> rfl

theorem sim_onClass {α : Type} (i : Nat) {f : Prog (Gmm K) α} (h : ∀ m, SimAt Gmm.free f f m) (M : GmmModel K) : SimAt free (onClass i f) (onClass i f) M := by
  unfold SimAt onClass
  have e : M.free.models[i]? = M.models[i]?.map fun lc => (lc.1, lc.2.free) := by simp [free]
  rw [e]
  cases M.models[i]? with
  | none => rfl
  | some lc =>
    have := h lc.2
    unfold SimAt at this
    simp only [Option.map_some, this]
    cases f lc.2 <;> simp [Res.mapS, free, List.map_set]

theorem sim_checkTraining (M : GmmModel K) : SimAt free checkTraining checkTraining M := .get (.ite (fun _ => .throw _ _) fun _ => .pure _ _)

theorem find_free (l : String) (s : SMap String (Gmm K)) : SMap.find? l (s.map fun lc => (lc.1, lc.2.free)) = (SMap.find? l s).map Gmm.free := by
  induction s with
  | nil => rfl
  | cons a s ih =>
    simp only [List.map_cons, SMap.find?]
    split
    · rfl
    · exact ih

theorem sim_outputs (M : GmmModel K) : SimAt free outputs outputs M := by
  unfold SimAt outputs
  show (if M.bimodal then _ else _) = _
  cases M.bimodal with
  | false => rfl
  | true =>
    show (match M.est with | .likeliest => _ | .mixture => _) = _
    cases M.est with
    | likeliest =>
      have h1 : SimAt free likeliestResults likeliestResults M := by
        unfold SimAt likeliestResults
        have : SMap.find? M.free.results.likeliest M.free.models = (SMap.find? M.results.likeliest M.models).map Gmm.free := find_free _ _
        rw [this]
        cases SMap.find? M.results.likeliest M.models <;> rfl
      exact SimAt.bind h1 fun _ _ _ => .modify rfl
    | mixture =>
      have := sim_onResults (MultiRes.mixOutputs M.dout M.mode M.classes) M
      unfold SimAt at this
      rw [← free_classes M] at this ⊢
      exact this

theorem sim_filter {D : Dens K} (hD : D.Blind) (log exp : K → K) (x : List K) (M : GmmModel K) : SimAt free (filter D log exp x) (filter D log exp x) M := by
  refine .bind (sim_checkTraining M) fun _ M _ => .get (.ite (fun _ => .undef _) fun _ => ?_)
  have hl : M.free.models.length = M.models.length := by simp [free]
  rw [hl]
  refine .bind (.loop _ _ _ fun _ _ _ _ => .bind (sim_onClass _ (Gmm.sim_filter hD log x) _) fun _ _ _ => .get (.bind ?_ fun _ _ _ => .set rfl)) fun _ M _ => .get ?_
  · exact .ite (fun _ => .pure _ _) fun _ => .undef _
  · rw [free_classes]
    exact .bind (sim_onResults _ _) fun _ _ _ => sim_outputs _

theorem sim_reset (M : GmmModel K) : SimAt free reset reset M := by
  refine .bind (.modify ?_) fun _ M _ => .get (.ite (fun _ => .undef _) fun _ => ?_)
  · simp [free]
  · have hl : M.free.models.length = M.models.length := by simp [free]
    rw [hl]
    exact .loop _ _ _ fun _ _ _ _ => sim_onClass _ Gmm.sim_reset _

theorem sim_filterAll {D : Dens K} (hD : D.Blind) (log exp : K → K) : ∀ (xs : List (List K)) (M : GmmModel K), SimAt free (filterAll D log exp xs) (filterAll D log exp xs) M
  | [], _ => .pure _ _
  | x :: xs, M => .bind (sim_filter hD log exp x M) fun _ M' _ => sim_filterAll hD log exp xs M'

end GmmModel

/-! ### Hidden Markov models -/
namespace Hmm

/-- the class whose components have no limits -/
def free (m : Hmm K) : Hmm K := { m with sts := m.sts.map Gmm.free }

theorem sim_checkTraining (m : Hmm K) : SimAt free checkTraining checkTraining m := .get (.ite (fun _ => .throw _ _) fun _ => .pure _ _)

theorem sim_onBuf {α : Type} (f : Prog (CBuf K 1) α) (m : Hmm K) : SimAt free (onBuf f) (onBuf f) m := by
  unfold SimAt onBuf
  show (match f m.buf with | .ret a b => _ | .throw e b => _ | .ub => _) = _
  cases f m.buf <;> rfl

theorem sim_onState {α : Type} (i : Nat) {f : Prog (Gmm K) α} (h : ∀ m, SimAt Gmm.free f f m) (m : Hmm K) : SimAt free (onState i f) (onState i f) m := by
  unfold SimAt onState
  have e : m.free.sts[i]? = m.sts[i]?.map Gmm.free := by simp [free]
  rw [e]
  cases m.sts[i]? with
  | none => rfl
  | some s =>
    have := h s
    unfold SimAt at this
    simp only [Option.map_some, this]
    cases f s <;> simp [Res.mapS, free, List.map_set]

theorem sim_setTrans (k : Nat) (x : K) (m : Hmm K) : SimAt free (setTrans k x) (setTrans k x) m := .get (.bind (.rd _ _ _) fun _ _ _ => .set rfl)

theorem sim_reset (m : Hmm K) : SimAt free reset reset m := by
  refine .bind (sim_checkTraining m) fun _ _ _ => .get (.bind (sim_onBuf _ _) fun _ _ _ => .bind (.modify rfl) fun _ _ _ => .ite (fun _ => .modify rfl) fun _ => ?_)
  refine .get (.bind (sim_checkTraining _) fun _ _ _ => .ite (fun _ => .ite (fun _ => sim_setTrans _ _ _) fun _ => .pure _ _) fun _ =>
    .ite (fun _ => sim_setTrans _ _ _) fun _ => .pure _ _)

theorem sim_hierProb {σ τ : Type} {φ : σ → τ} {D : Dens K} (hD : D.Blind) (b : Bool) (m : Hmm K) (x : List K) (i : Nat) (s : σ) :
    SimAt φ (hierProb D b m x i) (hierProb D b m.free x i) s :=
  .rdMap _ _ _ fun st _ => .ite (fun _ => Gmm.sim_obsProbSum st _ _ _ fun c s => Gmm.sim_obsProbInput hD st x c s) fun _ =>
    Gmm.sim_obsProbSum st _ _ _ fun c s => Gmm.sim_obsProb hD st x c s

theorem sim_stateProb {σ τ : Type} {φ : σ → τ} {D : Dens K} (hD : D.Blind) (m : Hmm K) (x y : List K) (i : Nat) (s : σ) :
    SimAt φ (stateProb D m x y i) (stateProb D m.free x y i) s :=
  .rdMap _ _ _ fun st _ => .ite (fun _ => .ite (fun _ => Gmm.sim_obsProbSum st _ _ _ fun c s => Gmm.sim_obsProbInput hD st x c s) fun _ =>
    Gmm.sim_obsProbSum st _ _ _ fun c s => Gmm.sim_obsProbBimodal hD st x y c s) fun _ => Gmm.sim_obsProbSum st _ _ _ fun c s => Gmm.sim_obsProb hD st x c s

theorem sim_hierInit {D : Dens K} (hD : D.Blind) (b : Bool) (prior : List K) (c : Nat) (x : List K) (m : Hmm K) : SimAt free (hierInit D b prior c x) (hierInit D b prior c x) m := by
  refine .bind (.modify rfl) fun _ _ _ => .get (.ite (fun _ => .bind (.loop _ _ _ fun _ _ _ _ => ?_) fun _ _ _ => .get (.pure _ _)) fun _ => ?_)
  · exact .get (.bind (.rd _ _ _) fun _ _ _ => .bind (sim_hierProb hD _ _ _ _ _) fun _ _ _ => .bind (.rd _ _ _) fun _ _ _ => .set rfl)
  · exact .bind (.rd _ _ _) fun _ _ _ => .bind (.rd _ _ _) fun _ _ _ => .bind (sim_hierProb hD _ _ _ _ _) fun _ _ _ => .bind (.set rfl) fun _ _ _ => .pure _ _

theorem sim_divideList {σ τ : Type} {φ : σ → τ} (n : Nat) (z : K) (l : List K) (s : σ) : SimAt φ (divideList n z l) (divideList n z l) s :=
  .loop _ _ _ fun _ _ _ _ => .bind (.rd _ _ _) fun _ _ _ => .pure _ _

theorem sim_hierDivide (z : K) (m : Hmm K) : SimAt free (hierDivide z) (hierDivide z) m :=
  .get (.bind (sim_divideList _ _ _ _) fun _ _ _ => .bind (sim_divideList _ _ _ _) fun _ _ _ => .bind (sim_divideList _ _ _ _) fun _ _ _ => .set rfl)

theorem sim_hierTerm {σ τ : Type} {φ : σ → τ} (m : Hmm K) (t j : Nat) (s : σ) : SimAt φ (hierTerm m t j) (hierTerm m.free t j) s :=
  .bind (.rd _ _ _) fun _ _ _ => .bind (.rd _ _ _) fun _ _ _ => .bind (.rd _ _ _) fun _ _ _ => .pure _ _

theorem sim_hierFront {σ τ : Type} {φ : σ → τ} (m : Hmm K) (n : Nat) (e : Nat → Prog σ K) (e' : Nat → Prog τ K) (he : ∀ k s, SimAt φ (e k) (e' k) s) (s : σ) :
    SimAt φ (hierFront m n e) (hierFront m.free n e') s := by
  refine .loop _ _ _ fun _ _ _ _ => .bind (.ite (fun _ => ?_) fun _ => .ite (fun _ => ?_) fun _ => ?_) fun _ _ _ => .bind (.rd _ _ _) fun _ _ _ => .pure _ _
  · exact .bind (.loop _ _ _ fun _ _ _ _ => .bind (sim_hierTerm _ _ _ _) fun _ _ _ => .pure _ _) fun _ _ _ =>
      .loop _ _ _ fun _ _ _ _ => .bind (.rd _ _ _) fun _ _ _ => .bind (he _ _) fun _ _ _ => .pure _ _
  · exact .bind (.rd _ _ _) fun _ _ _ => .bind (.rd _ _ _) fun _ _ _ => .loop _ _ _ fun _ _ _ _ => .bind (he _ _) fun _ _ _ => .pure _ _
  · exact .bind (sim_hierTerm _ _ _ _) fun _ _ _ => .bind (sim_hierTerm _ _ _ _) fun _ _ _ => .pure _ _

theorem free_hierZero (m : Hmm K) : hierZero m.free = (hierZero m).free := by
  unfold hierZero
  by_cases h : m.ergodic = true
  · rw [if_pos h, if_pos (show m.free.ergodic = true from h)]
  · rw [if_neg h, if_neg (show ¬ m.free.ergodic = true from h)]
    rfl

theorem sim_hierUpdate {D : Dens K} (hD : D.Blind) (b : Bool) (xt : List K) (c n : Nat) (e e' : Nat → Prog (Hmm K) K) (he : ∀ k s, SimAt free (e k) (e' k) s) (x : List K)
    (m : Hmm K) : SimAt free (hierUpdate D b xt c n e x) (hierUpdate D b xt c n e' x) m := by
  refine .get (.bind (sim_hierFront m n e e' he m) fun _ _ _ => .bind (.set ?_) fun _ _ _ => .bind (.loop _ _ _ fun _ _ _ _ => .bind (.rd _ _ _) fun _ _ _ => ?_)
    fun _ _ _ => .bind (.modify rfl) fun _ _ _ => .pure _ _)
  · rw [free_hierZero]; rfl
  · exact .get (.bind (sim_hierProb hD _ _ _ _ _) fun _ _ _ => .bind (.rd _ _ _) fun _ _ _ => .bind (.rd _ _ _) fun _ _ _ => .bind (.rd _ _ _) fun _ _ _ =>
      .bind (.rd _ _ _) fun _ _ _ => .bind (.rd _ _ _) fun _ _ _ => .bind (.set rfl) fun _ _ _ => .pure _ _)

theorem sim_sumAlpha {σ τ : Type} {φ : σ → τ} (e : Nat) (m : Hmm K) (s : σ) : SimAt φ (sumAlpha e m) (sumAlpha e m.free) s := by
  have h : m.free.alphaOf e = m.alphaOf e := by
    match e with
    | 0 => rfl
    | 1 => rfl
    | _ + 2 => rfl
  unfold sumAlpha
  rw [h]
  exact .loop _ _ _ fun _ _ _ _ => .bind (.rd _ _ _) fun _ _ _ => .pure _ _

theorem sim_setAlpha (i : Nat) (x : K) (m : Hmm K) : SimAt free (setAlpha i x) (setAlpha i x) m := .get (.bind (.rd _ _ _) fun _ _ _ => .set rfl)

theorem sim_divideAlpha (n : Nat) (z : K) (m : Hmm K) : SimAt free (divideAlpha n z) (divideAlpha n z) m :=
  .loop _ _ _ fun _ _ _ _ => .get (.bind (.rd _ _ _) fun _ _ _ => sim_setAlpha _ _ _)

theorem sim_forwardInit {p p' : Nat → Prog (Hmm K) K} (h : ∀ i m, SimAt free (p i) (p' i) m) (m : Hmm K) : SimAt free (forwardInit p) (forwardInit p') m := by
  refine .bind (.get (.ite (fun _ => .loop _ _ _ fun _ _ _ _ => ?_) fun _ => ?_)) fun _ _ _ => .get (.ite (fun _ => ?_) fun _ => ?_)
  · exact .get (.bind (.rd _ _ _) fun _ _ _ => .bind (h _ _) fun _ _ _ => .bind (sim_setAlpha _ _ _) fun _ _ _ => .pure _ _)
  · exact .bind (.set rfl) fun _ _ _ => .bind (h _ _) fun _ _ _ => .bind (sim_setAlpha _ _ _) fun _ _ _ => .pure _ _
  · exact .bind (sim_divideAlpha _ _ _) fun _ _ _ => .pure _ _
  · exact .bind (.loop _ _ _ fun _ _ _ _ => sim_setAlpha _ _ _) fun _ _ _ => .pure _ _

theorem sim_predict {σ τ : Type} {φ : σ → τ} (m : Hmm K) (j : Nat) (s : σ) : SimAt φ (predict m j) (predict m.free j) s :=
  .ite (fun _ => .loop _ _ _ fun _ _ _ _ => .bind (.rd _ _ _) fun _ _ _ => .bind (.rd _ _ _) fun _ _ _ => .pure _ _) fun _ =>
    .bind (.rd _ _ _) fun _ _ _ => .bind (.rd _ _ _) fun _ _ _ => .ite (fun _ => .bind (.rd _ _ _) fun _ _ _ => .bind (.rd _ _ _) fun _ _ _ => .pure _ _) fun _ =>
      .bind (.rd _ _ _) fun _ _ _ => .bind (.rd _ _ _) fun _ _ _ => .pure _ _

theorem sim_forwardUpdate {p p' : Nat → Prog (Hmm K) K} (h : ∀ i m, SimAt free (p i) (p' i) m) (m : Hmm K) : SimAt free (forwardUpdate p) (forwardUpdate p') m := by
  refine .bind (.modify rfl) fun _ _ _ => .get (.bind (.loop _ _ _ fun _ _ _ _ => ?_) fun _ _ _ => .ite (fun _ => ?_) fun _ => .pure _ _)
  · exact .get (.bind (sim_predict _ _ _) fun _ _ _ => .bind (h _ _) fun _ _ _ => .bind (sim_setAlpha _ _ _) fun _ _ _ => .pure _ _)
  · exact .bind (sim_divideAlpha _ _ _) fun _ _ _ => .pure _ _

theorem sim_forward {D : Dens K} (hD : D.Blind) (x : List K) (m : Hmm K) : SimAt free (forward D x) (forward D x) m :=
  .get (.ite (fun _ => sim_forwardUpdate (fun _ _ => .get (sim_stateProb hD _ _ _ _ _)) _) fun _ =>
    .bind (sim_onBuf _ _) fun _ _ _ => sim_forwardInit (fun _ _ => .get (sim_stateProb hD _ _ _ _ _)) _)

theorem sim_occupancy {σ τ : Type} {φ : σ → τ} (m : Hmm K) (i : Nat) (s : σ) : SimAt φ (occupancy m i) (occupancy m.free i) s :=
  .ite (fun _ => .bind (.rd _ _ _) fun _ _ _ => .bind (.rd _ _ _) fun _ _ _ => .pure _ _) fun _ => .rd _ _ _

theorem sim_updateAlphaWindow (m : Hmm K) : SimAt free updateAlphaWindow updateAlphaWindow m := by
  refine .bind (sim_checkTraining m) fun _ _ _ => .get (.bind (.bind (sim_occupancy _ _ _) fun _ _ _ => .loop _ _ _ fun _ _ _ _ => .bind (sim_occupancy _ _ _) fun _ _ _ => .pure _ _)
    fun _ _ _ => .bind (.loop _ _ _ fun _ _ _ _ => .bind (sim_occupancy _ _ _) fun _ _ _ => .pure _ _) fun _ _ _ => .set rfl)

theorem sim_computeProgress {σ τ : Type} {φ : σ → τ} (m : Hmm K) (s : σ) : SimAt φ (computeProgress m) (computeProgress m.free) s := by
  refine .bind (.loop _ _ _ fun _ _ _ _ => .bind (.ite (fun _ => ?_) fun _ => .rd _ _ _) fun _ _ _ => .pure _ _) fun _ _ _ => .pure _ _
  exact .bind (.rd _ _ _) fun _ _ _ => .bind (.rd _ _ _) fun _ _ _ => .bind (.rd _ _ _) fun _ _ _ => .pure _ _

theorem sim_updateResults (log : K → K) (m : Hmm K) : SimAt free (updateResults log) (updateResults log) m :=
  .get (.bind (sim_onBuf _ _) fun _ _ _ => .get (.bind (sim_computeProgress _ _) fun _ _ _ => .set rfl))

theorem sim_regression {D : Dens K} (hD : D.Blind) (log : K → K) (x : List K) (m : Hmm K) : SimAt free (regression D log x) (regression D log x) m := by
  refine .bind (sim_checkTraining m) fun _ _ _ => .bind (.modify rfl) fun _ _ _ => .get (.ite (fun _ => ?_) fun _ => .loop _ _ _ fun _ _ _ _ => ?_)
  · exact .get (.bind (sim_onState _ (Gmm.sim_likelihood hD log x []) _) fun _ _ _ => .bind (sim_onState _ (Gmm.sim_regression x) _) fun _ _ _ => .get (.rdMap _ _ _ fun _ _ => .set rfl))
  · exact .bind (sim_onState _ (Gmm.sim_likelihood hD log x []) _) fun _ _ _ => .bind (sim_onState _ (Gmm.sim_regression x) _) fun _ _ _ => .get (.rdMap _ _ _ fun _ _ =>
      .bind (sim_occupancy _ _ _) fun _ _ _ => .bind (Gmm.sim_addScaled _ _ _ _ _) fun _ _ _ => .bind (Gmm.sim_addScaled _ _ _ _ _) fun _ _ _ => .set rfl)

theorem sim_filter {D : Dens K} (hD : D.Blind) (log : K → K) (x : List K) (m : Hmm K) : SimAt free (filter D log x) (filter D log x) m :=
  .bind (sim_checkTraining m) fun _ _ _ => .bind (sim_forward hD x _) fun _ _ _ => .bind (.modify rfl) fun _ _ _ => .bind (sim_updateAlphaWindow _) fun _ _ _ =>
    .bind (sim_updateResults log _) fun _ _ _ => .get (.ite (fun _ => .bind (sim_regression hD log x _) fun _ _ _ => .get (.pure _ _)) fun _ => .get (.pure _ _))

end Hmm

namespace HierHmm

/-- the model whose components have no limits -/
def free (M : HierHmm K) : HierHmm K := { M with models := M.models.map fun lc => (lc.1, lc.2.free) }

theorem free_classes (M : HierHmm K) : M.free.classes = M.classes := by
  simp only [classes, free, List.map_map]
  rfl

theorem free_length (M : HierHmm K) : M.free.models.length = M.models.length := by simp [free]

theorem free_size (M : HierHmm K) : M.free.size = M.size := by simp [free, size]

theorem sim_onResults {α : Type} (f : Prog (MultiRes K) α) (M : HierHmm K) : SimAt free (onResults f) (onResults f) M := by
  unfold SimAt onResults
  show (match f M.results with | .ret a b => _ | .throw e b => _ | .ub => _) = _
  cases f M.results <;> rfl

theorem sim_onClass {α : Type} (i : Nat) {f f' : Prog (Hmm K) α} (h : ∀ m, SimAt Hmm.free f f' m) (M : HierHmm K) : SimAt free (onClass i f) (onClass i f') M := by
  unfold SimAt onClass
  have e : M.free.models[i]? = M.models[i]?.map fun lc => (lc.1, lc.2.free) := by simp [free]
  rw [e]
  cases M.models[i]? with
  | none => rfl
  | some lc =>
    have := h lc.2
    unfold SimAt at this
    simp only [Option.map_some, this]
    cases f lc.2 <;> simp [Res.mapS, free, List.map_set]

theorem sim_checkTraining (M : HierHmm K) : SimAt free checkTraining checkTraining M := .get (.ite (fun _ => .throw _ _) fun _ => .pure _ _)

theorem sim_resetClass (b : Bool) (m : Hmm K) : SimAt Hmm.free (resetClass b) (resetClass b) m := .bind (.modify rfl) fun _ _ _ => Hmm.sim_reset _

theorem sim_reset (M : HierHmm K) : SimAt free reset reset M := by
  refine .bind (sim_checkTraining M) fun _ M _ => .get (.ite (fun _ => .undef _) fun _ => ?_)
  rw [free_length]
  refine .bind (.loop _ _ _ fun _ _ _ _ => sim_onClass _ Hmm.sim_reset _) fun _ _ _ => .bind (.modify ?_) fun _ _ _ => .loop _ _ _ fun _ _ _ _ =>
    sim_onClass _ (sim_resetClass _) _
  rw [free_size]
  rfl

theorem sim_likelihoodAlpha {σ τ : Type} {φ : σ → τ} (e : Nat) (models : SMap String (Hmm K)) (v : List K) (s : σ) :
    SimAt φ (likelihoodAlpha e models v) (likelihoodAlpha e (models.map fun lc => (lc.1, lc.2.free)) v) s := by
  unfold likelihoodAlpha
  rw [List.length_map]
  exact .loop _ _ _ fun _ _ _ _ => .rdMap _ _ _ fun lc _ => .bind (Hmm.sim_sumAlpha _ _ _) fun _ _ _ => .ite (fun _ => .pure _ _) fun _ => .undef _

theorem sim_forwardInit {D : Dens K} (hD : D.Blind) (x : List K) (M : HierHmm K) : SimAt free (forwardInit D x) (forwardInit D x) M := by
  refine .bind (sim_checkTraining M) fun _ M _ => .get ?_
  rw [free_length]
  exact .bind (.loop _ _ _ fun _ _ _ _ => .bind (sim_onClass _ (Hmm.sim_hierInit hD _ _ _ _) _) fun _ _ _ => .pure _ _) fun _ _ _ =>
    .bind (.loop _ _ _ fun _ _ _ _ => sim_onClass _ (Hmm.sim_hierDivide _) _) fun _ _ _ => .modify rfl

theorem sim_entry {σ τ : Type} {φ : σ → τ} (M : HierHmm K) (c k : Nat) (s : σ) : SimAt φ (entry M c k) (entry M.free c k) s :=
  .bind (.rd _ _ _) fun _ _ _ => .bind (.rd _ _ _) fun _ _ _ => .bind (.rd _ _ _) fun _ _ _ => .bind (.rd _ _ _) fun _ _ _ => .bind (.rd _ _ _) fun _ _ _ => .pure _ _

theorem sim_forwardUpdate {D : Dens K} (hD : D.Blind) (x : List K) (M : HierHmm K) : SimAt free (forwardUpdate D x) (forwardUpdate D x) M := by
  refine .bind (sim_checkTraining M) fun _ M _ => .get (.bind (sim_likelihoodAlpha _ _ _ _) fun _ _ _ => .bind (sim_likelihoodAlpha _ _ _ _) fun _ _ _ => .bind (.set rfl) fun _ M _ => .get ?_)
  rw [free_length]
  exact .bind (.loop _ _ _ fun _ _ _ _ => .bind (sim_onClass _ (Hmm.sim_hierUpdate hD _ _ _ _ _ _ (fun k s => sim_entry M _ k s) _) _) fun _ _ _ => .pure _ _) fun _ _ _ =>
    .loop _ _ _ fun _ _ _ _ => sim_onClass _ (Hmm.sim_hierDivide _) _

theorem sim_forward {D : Dens K} (hD : D.Blind) (log : K → K) (x : List K) (M : HierHmm K) : SimAt free (forward D log x) (forward D log x) M := by
  have h1 := sim_forwardUpdate hD x M
  have h2 := sim_forwardInit hD x M
  have h3 : SimAt free (loop M.models.length () fun _ i => filterClass D log x i) (loop M.models.length () fun _ i => filterClass D log x i) M :=
    .loop _ _ _ fun _ _ _ _ => .bind (sim_onClass _ (Hmm.sim_filter hD log x) _) fun _ _ _ => .get (.bind (.ite (fun _ => .pure _ _) fun _ => .undef _) fun _ _ _ => .set rfl)
  unfold SimAt at h1 h2 h3 ⊢
  unfold forward
  rw [free_length, h1, h2, h3]
  show (if M.hier then if M.started then _ else _ else _) = _
  cases M.hier <;> cases M.started <;> rfl

theorem find_free (l : String) (s : SMap String (Hmm K)) : SMap.find? l (s.map fun lc => (lc.1, lc.2.free)) = (SMap.find? l s).map Hmm.free := by
  induction s with
  | nil => rfl
  | cons a s ih =>
    simp only [List.map_cons, SMap.find?]
    split
    · rfl
    · exact ih

theorem sim_outputs (M : HierHmm K) : SimAt free outputs outputs M := by
  unfold SimAt outputs
  show (match M.est with | .likeliest => _ | .mixture => _) = _
  cases M.est with
  | likeliest =>
    have h1 : SimAt free likeliestResults likeliestResults M := by
      unfold SimAt likeliestResults
      have : SMap.find? M.free.results.likeliest M.free.models = (SMap.find? M.results.likeliest M.models).map Hmm.free := find_free _ _
      rw [this]
      cases SMap.find? M.results.likeliest M.models <;> rfl
    exact SimAt.bind h1 fun _ _ _ => .modify rfl
  | mixture =>
    have := sim_onResults (MultiRes.mixOutputs (M.dim - M.di) M.mode M.classes) M
    unfold SimAt at this
    rw [← free_classes M] at this ⊢
    exact this

theorem sim_regress {D : Dens K} (hD : D.Blind) (log : K → K) (x : List K) (M : HierHmm K) : SimAt free (regress D log x) (regress D log x) M := by
  have h : SimAt free (do loop M.models.length () (fun _ i => onClass i (Hmm.regression D log x)); outputs) (do loop M.models.length () (fun _ i => onClass i (Hmm.regression D log x)); outputs) M :=
    .bind (.loop _ _ _ fun _ _ _ _ => sim_onClass _ (Hmm.sim_regression hD log x) _) fun _ _ _ => sim_outputs _
  unfold SimAt at h ⊢
  unfold regress
  rw [free_length, h]
  show (if M.bimodal then _ else _) = _
  cases M.bimodal <;> rfl

theorem sim_filter {D : Dens K} (hD : D.Blind) (log exp : K → K) (x : List K) (M : HierHmm K) : SimAt free (filter D log exp x) (filter D log exp x) M := by
  refine .bind (sim_checkTraining M) fun _ M _ => .get (.ite (fun _ => .undef _) fun _ => ?_)
  rw [free_length]
  refine .bind (sim_forward hD log x _) fun _ _ _ => .bind (.loop _ _ _ fun _ _ _ _ => sim_onClass _ (fun _ =>
    .bind (Hmm.sim_updateAlphaWindow _) fun _ _ _ => Hmm.sim_updateResults log _) _) fun _ M _ => .get ?_
  rw [free_classes]
  exact .bind (sim_onResults _ _) fun _ _ _ => sim_regress hD log x _

theorem sim_filterAll {D : Dens K} (hD : D.Blind) (log exp : K → K) : ∀ (xs : List (List K)) (M : HierHmm K), SimAt free (filterAll D log exp xs) (filterAll D log exp xs) M
  | [], _ => .pure _ _
  | x :: xs, M => .bind (sim_filter hD log exp x M) fun _ M' _ => .get (.bind (sim_filterAll hD log exp xs M') fun _ _ _ => .pure _ _)

end HierHmm
end Xmm
