import Verif.Props.PhraseOrder
import Verif.Props.HmmInit
import Verif.Lemmas.Limits
set_option linter.unusedSimpArgs false
set_option linter.unusedSectionVars false
/- C100: the order of the phrases, hidden Markov models. -/
namespace Xmm
open Prog (bind_def pure_def get_def set_def modify_def throw_def undef_def)
open Phrase (loop)
open Gauss (rd resize)
open GmmSpec HmmSpec

theorem loop_ext {σ α : Type} {n : Nat} {a : α} {f g : α → Nat → Prog σ α} (h : ∀ a, ∀ i < n, f a i = g a i) : loop n a f = loop n a g :=
  funext fun s => loop_congr n a f g s fun a t ht s => by rw [h a t ht]

/-! ### The sums of the M step -/

section mstep
variable {K : Type} [Field K] [LinearOrder K] {σ : Type}

theorem collect_ext {α : Type} {n : Nat} {f g : Nat → Prog σ α} (h : ∀ i < n, f i = g i) : collect n f = collect n g := by
  unfold collect
  exact loop_ext fun a i hi => by rw [h i hi]

theorem Prog.Calm.collect {α : Type} {n : Nat} {f : Nat → Prog σ α} (h : ∀ i, (f i).Calm) : (Xmm.collect n f).Calm :=
  Prog.Calm.loop fun a i => Prog.Calm.bind (h i) fun x => Prog.Calm.pure _

theorem Prog.Calm.sumTo {n : Nat} {f : Nat → Prog σ K} (h : ∀ i, (f i).Calm) : (Xmm.sumTo n f).Calm :=
  Prog.Calm.loop fun a i => Prog.Calm.bind (h i) fun x => Prog.Calm.pure _

theorem Prog.Calm.cell (l : List (List K)) (t i : Nat) : (Xmm.cell l t i : Prog σ K).Calm := Prog.Calm.bind (Prog.Calm.rd _ _) fun r => Prog.Calm.rd _ _

theorem Prog.Calm.ite {α : Type} {c : Prop} [Decidable c] {p q : Prog σ α} (hp : p.Calm) (hq : q.Calm) : (if c then p else q).Calm := by
  split_ifs
  · exact hp
  · exact hq

namespace Hmm

theorem sumPhrases_perm {es es' : List (EStep K)} (h : es'.Perm es) {f : EStep K → Prog σ K} (hf : ∀ e, (f e).Calm) : sumPhrases es' f = sumPhrases es f :=
  sumM_perm hf h 0

theorem gammaSum_perm {es es' : List (EStep K)} (h : es'.Perm es) (i : Nat) : (gammaSum es' i : Prog σ K) = gammaSum es i :=
  sumPhrases_perm h fun e => Prog.Calm.sumTo fun t => Prog.Calm.cell _ _ _

theorem calm_epsSum (e : EStep K) (i j : Nat) : (epsSum e i j : Prog σ K).Calm := Prog.Calm.sumTo fun t => Prog.Calm.bind (Prog.Calm.rd _ _) fun r => Prog.Calm.cell _ _ _

theorem transRow_perm {es es' : List (EStep K)} (h : es'.Perm es) (m : Hmm K) (i : Nat) : (transRow m es' i : Prog σ (List K)) = transRow m es i := by
  have h1 : ∀ j, (sumPhrases es' (fun e => if 0 < e.len then epsSum e i j else pure 0) : Prog σ K) = sumPhrases es (fun e => if 0 < e.len then epsSum e i j else pure 0) :=
    fun j => sumPhrases_perm h fun e => Prog.Calm.ite (calm_epsSum e i j) (Prog.Calm.pure _)
  have h2 : ∀ (j : Nat) (a : K), (sumPhrases es' (fun e => if 0 < e.len then do
        let x ← epsSum e i j
        pure (a + x)
      else pure 0) : Prog σ K) = sumPhrases es (fun e => if 0 < e.len then do
        let x ← epsSum e i j
        pure (a + x)
      else pure 0) := fun j a => sumPhrases_perm h fun e => Prog.Calm.ite (Prog.Calm.bind (calm_epsSum e i j) fun x => Prog.Calm.pure _) (Prog.Calm.pure _)
  unfold transRow
  simp only [h1, h2]

theorem estimatePrior_perm {es es' : List (EStep K)} (h : es'.Perm es) : estimatePrior es' = estimatePrior es := by
  have h1 : ∀ i, (sumPhrases es' (fun e => cell e.gamma 0 i) : Prog (Hmm K) K) = sumPhrases es (fun e => cell e.gamma 0 i) :=
    fun i => sumPhrases_perm h fun e => Prog.Calm.cell _ _ _
  unfold estimatePrior
  simp only [h1]

theorem estimateTransitions_perm {es es' : List (EStep K)} (h : es'.Perm es) : estimateTransitions es' = estimateTransitions es := by
  unfold estimateTransitions
  simp only [gammaSum_perm h, transRow_perm h]

end Hmm

namespace Gmm

theorem setCoeffs_perm {ι : Type} {l l' : List ι} (h : l'.Perm l) (p : ι → List K) : setCoeffs (l'.map p) = setCoeffs (l.map p) := by
  unfold setCoeffs
  simp only [totalOf_perm h]

theorem setMeans_perm {ι : Type} {l l' : List ι} (h : l'.Perm l) (p y : ι → List K) : setMeans (l'.map p) (l'.map y) = setMeans (l.map p) (l.map y) := by
  unfold setMeans setMean
  simp only [totalOf_perm h, newMean_perm h]

theorem setCovs_perm {ι : Type} {l l' : List ι} (h : l'.Perm l) (p y : ι → List K) : setCovs (l'.map p) (l'.map y) = setCovs (l.map p) (l.map y) := by
  have e : ∀ mode mean dim c, (stateCov mode (l'.map p) (l'.map y) mean dim c : Prog (Gmm K) (List K)) = stateCov mode (l.map p) (l.map y) mean dim c := by
    intro mode mean dim c
    unfold stateCov newCovDiagonal upperCov
    simp only [totalOf_perm h, newCovMode_perm h, newCov_perm h]
  unfold setCovs setCov
  simp only [e]

end Gmm

namespace Hmm

theorem positions_frames (phrases : List (List (List K))) : (positions phrases).map frameAt = phrases.flatten := by
  unfold positions
  induction phrases with
  | nil => rfl
  | cons fr l ih =>
    rw [List.flatMap_cons, List.map_append, ih, List.flatten_cons, List.map_map]
    congr 1
    refine List.ext_getElem (by simp) fun t h1 h2 => ?_
    simp only [List.getElem_map, List.getElem_range, Function.comp, frameAt]
    rw [List.getD_eq_getElem?_getD, List.getElem?_eq_getElem h2, Option.getD_some]

theorem positions_perm {phrases phrases' : List (List (List K))} (h : phrases'.Perm phrases) : (positions phrases').Perm (positions phrases) := by
  unfold positions
  exact h.flatMap_right _

variable [IsStrictOrderedRing K]

/-- the states are re-estimated from the positions in any order -/
theorem estimateStates_perm (m : Hmm K) (d : Nat → List K → Nat → K) {phrases phrases' : List (List (List K))} (h : phrases'.Perm phrases) {es es' : List (EStep K)}
    (hes : List.Forall₂ (fun fr e => e.Exact m d fr) phrases es) (hes' : List.Forall₂ (fun fr e => e.Exact m d fr) phrases' es') {s : Hmm K} (hs : s.n = m.n) :
    estimateStates es' phrases'.flatten s = estimateStates es phrases.flatten s := by
  have hp := positions_perm h
  have key : ∀ (i : Nat), i < m.n → ∀ (f f' : List (List K) → Prog (Gmm K) Unit), (∀ q : List (List K) × Nat → List K, f' ((positions phrases').map q) = f ((positions phrases).map q)) →
      (do let post ← statePost es' i; onState i (f' post)) = (do let post ← statePost es i; onState i (f post)) := by
    intro i hi f f' hf
    funext s
    rw [bind_of_ret (statePost_ret m d phrases es hes i hi s), bind_of_ret (statePost_ret m d phrases' es' hes' i hi s), Gmm.postOf, Gmm.postOf, hf]
  unfold estimateStates
  rw [bind_of_ret (get_def s), bind_of_ret (get_def s), hs]
  rw [loop_ext fun _ i hi => key i hi Gmm.setCoeffs Gmm.setCoeffs fun q => Gmm.setCoeffs_perm hp q,
    loop_ext fun _ i hi => key i hi (fun p => Gmm.setMeans p phrases.flatten) (fun p => Gmm.setMeans p phrases'.flatten) fun q => by
      rw [← positions_frames, ← positions_frames]; exact Gmm.setMeans_perm hp q frameAt,
    loop_ext fun _ i hi => key i hi (fun p => Gmm.setCovs p phrases.flatten) (fun p => Gmm.setCovs p phrases'.flatten) fun q => by
      rw [← positions_frames, ← positions_frames]; exact Gmm.setCovs_perm hp q frameAt]

end Hmm
end mstep

/-! ### The working variables -/

theorem Prog.Calm.quiet {σ α : Type} {p : Prog σ α} (h : p.Calm) : Gauss.Quiet p := by
  rcases h with ⟨v, h⟩ | h
  · exact ⟨some (.ok v), h⟩
  · exact ⟨none, h⟩

theorem Prog.Calm.foldlM {σ α β : Type} {f : β → α → Prog σ β} (h : ∀ b a, (f b a).Calm) : ∀ (l : List α) (b : β), (l.foldlM f b).Calm
  | [], b => Prog.Calm.pure b
  | a :: l, b => by
    rw [List.foldlM_cons]
    exact Prog.Calm.bind (h b a) fun b' => Prog.Calm.foldlM h l b'

namespace Hmm
variable {K : Type} [Field K] [LinearOrder K] {σ : Type}

theorem calm_sumPhrases (es : List (EStep K)) {f : EStep K → Prog σ K} (hf : ∀ e, (f e).Calm) : (sumPhrases es f).Calm :=
  Prog.Calm.foldlM (fun _ e => Prog.Calm.bind (hf e) fun _ => Prog.Calm.pure _) es 0

theorem calm_statePost (es : List (EStep K)) (i : Nat) : (statePost es i : Prog σ (List (List K))).Calm :=
  Prog.Calm.foldlM (fun _ e => Prog.Calm.bind (Prog.Calm.collect fun t => Prog.Calm.bind (Prog.Calm.rd _ _) fun _ => Prog.Calm.rd _ _) fun _ => Prog.Calm.pure _) es []

theorem calm_gammaSum (es : List (EStep K)) (i : Nat) : (gammaSum es i : Prog σ K).Calm :=
  calm_sumPhrases es fun e => Prog.Calm.sumTo fun t => Prog.Calm.cell _ _ _

theorem calm_transRow (m : Hmm K) (es : List (EStep K)) (i : Nat) : (transRow m es i : Prog σ (List K)).Calm := by
  unfold transRow
  refine Prog.Calm.ite (Prog.Calm.collect fun j => calm_sumPhrases es fun e => Prog.Calm.ite (calm_epsSum e i j) (Prog.Calm.pure _)) ?_
  refine Prog.Calm.bind (calm_sumPhrases es fun e => Prog.Calm.ite (Prog.Calm.bind (calm_epsSum e i 0) fun _ => Prog.Calm.pure _) (Prog.Calm.pure _)) fun _ => ?_
  exact Prog.Calm.ite (Prog.Calm.bind (calm_sumPhrases es fun e => Prog.Calm.ite (Prog.Calm.bind (calm_epsSum e i 1) fun _ => Prog.Calm.pure _) (Prog.Calm.pure _)) fun _ =>
    Prog.Calm.pure _) (Prog.Calm.pure _)

theorem onState_scratch {α : Type} (i : Nat) (f : Prog (Gmm K) α) (a p b q : List K) (s : Hmm K) :
    SimAt (fun m => m.scratch a p b q) (onState i f) (onState i f) s := by
  unfold SimAt onState
  show (match s.sts[i]? with | none => _ | some s => _) = _
  cases s.sts[i]? with
  | none => rfl
  | some g =>
    simp only
    cases f g <;> rfl

theorem estimateStates_scratch (es : List (EStep K)) (frames : List (List K)) (a p b q : List K) (s : Hmm K) :
    SimAt (fun m => m.scratch a p b q) (estimateStates es frames) (estimateStates es frames) s := by
  have hq : ∀ i, Gauss.Quiet (statePost es i : Prog (Hmm K) (List (List K))) := fun i => (calm_statePost es i).quiet
  unfold estimateStates
  exact .get (.bind (.loop _ _ _ fun _ i s _ => .bind (.quiet (hq i) _) fun _ _ _ => onState_scratch _ _ _ _ _ _ _) fun _ _ _ => .bind (.loop _ _ _ fun _ i s _ =>
    .bind (.quiet (hq i) _) fun _ _ _ => onState_scratch _ _ _ _ _ _ _) fun _ _ _ => .loop _ _ _ fun _ i s _ =>
    .bind (.quiet (hq i) _) fun _ _ _ => onState_scratch _ _ _ _ _ _ _)

theorem estimatePrior_scratch (es : List (EStep K)) (a p b q : List K) (s : Hmm K) :
    SimAt (fun m => m.scratch a p b q) (estimatePrior es) (estimatePrior es) s := by
  unfold estimatePrior
  refine .get (.bind (.quiet (Prog.Calm.collect fun i => calm_sumPhrases es fun e => Prog.Calm.cell _ _ _).quiet _) fun _ _ _ => .ite (fun _ => .set rfl) fun _ => .set rfl)

theorem estimateTransitions_scratch (es : List (EStep K)) (a p b q : List K) (s : Hmm K) :
    SimAt (fun m => m.scratch a p b q) (estimateTransitions es) (estimateTransitions es) s := by
  unfold estimateTransitions
  refine .get (.bind (.quiet (Prog.Calm.collect fun i => Prog.Calm.bind (calm_gammaSum es i) fun _ => Prog.Calm.bind (calm_transRow _ es i) fun _ => Prog.Calm.pure _).quiet _)
    fun _ _ _ => .set rfl)

/-- the M step, xmmHmmSingleClass.cpp:574-595 -/
def reestimate (es : List (EStep K)) (frames : List (List K)) : Prog (Hmm K) Unit := do
  estimateStates es frames
  let m ← Prog.get
  if m.ergodic then estimatePrior es else pure ()
  estimateTransitions es

theorem reestimate_scratch (es : List (EStep K)) (frames : List (List K)) (a p b q : List K) (s : Hmm K) :
    SimAt (fun m => m.scratch a p b q) (reestimate es frames) (reestimate es frames) s :=
  .bind (estimateStates_scratch _ _ _ _ _ _ _) fun _ _ _ => .get (.ite (fun _ => .bind (estimatePrior_scratch _ _ _ _ _ _) fun _ _ _ =>
    estimateTransitions_scratch _ _ _ _ _ _) fun _ => estimateTransitions_scratch _ _ _ _ _ _)

theorem setTrans_scratch (i : Nat) (v : K) (a p b q : List K) (s : Hmm K) : SimAt (fun m => m.scratch a p b q) (setTrans i v) (setTrans i v) s := by
  unfold setTrans
  exact .get (.bind (.rd _ _ _) fun _ _ _ => .set rfl)

theorem setPrior_scratch (i : Nat) (v : K) (a p b q : List K) (s : Hmm K) : SimAt (fun m => m.scratch a p b q) (setPrior i v) (setPrior i v) s := by
  unfold setPrior
  exact .get (.bind (.rd _ _ _) fun _ _ _ => .set rfl)

theorem normalizeRow_scratch (len i : Nat) (a p b q : List K) (s : Hmm K) : SimAt (fun m => m.scratch a p b q) (normalizeRow len i) (normalizeRow len i) s := by
  unfold normalizeRow
  refine .get (.bind (.quiet (Prog.Calm.loop fun _ _ => Prog.Calm.bind (Prog.Calm.rd _ _) fun _ => Prog.Calm.pure _).quiet _) fun _ _ _ => ?_)
  unfold divideTrans
  exact .loop _ _ _ fun _ i s _ => .get (.bind (.rd _ _ _) fun _ _ _ => setTrans_scratch _ _ _ _ _ _ _)

theorem normalizeTransitions_scratch (a p b q : List K) (s : Hmm K) :
    SimAt (fun m => m.scratch a p b q) normalizeTransitions normalizeTransitions s := by
  unfold normalizeTransitions
  refine .get (.ite (fun _ => .bind (.loop _ _ _ fun _ i s _ => .get (.bind (.rd _ _ _) fun _ _ _ => .bind (normalizeRow_scratch _ _ _ _ _ _ _) fun _ _ _ => .pure _ _)) fun _ _ _ =>
    .loop _ _ _ fun _ i s _ => .get (.bind (.rd _ _ _) fun _ _ _ => setPrior_scratch _ _ _ _ _ _ _)) fun _ => .loop _ _ _ fun _ i s _ => normalizeRow_scratch _ _ _ _ _ _ _)

/-! ### One iteration -/

theorem exact_unique {m : Hmm K} {d : Nat → List K → Nat → K} {fr : List (List K)} {e e' : EStep K} (h : e.Exact m d fr) (h' : e'.Exact m d fr) : e' = e := by
  cases e
  cases e'
  simp only [EStep.mk.injEq]
  exact ⟨h'.len.trans h.len.symm, h'.gamma.trans h.gamma.symm, h'.gmix.trans h.gmix.symm, h'.eps.trans h.eps.symm⟩

theorem exact_perm {m : Hmm K} {d : Nat → List K → Nat → K} {phrases phrases' : List (List (List K))} (h : phrases'.Perm phrases) {es es' : List (EStep K)}
    (hes : List.Forall₂ (fun fr e => e.Exact m d fr) phrases es) (hes' : List.Forall₂ (fun fr e => e.Exact m d fr) phrases' es') : es'.Perm es := by
  let E : List (List K) → EStep K := fun fr =>
    { len := fr.length
      gamma := (List.range fr.length).map fun t => (List.range m.n).map fun i => HmmSpec.gammaOf m d fr t i
      gmix := (List.range fr.length).map fun t => (List.range m.n).map fun i => (List.range m.gaussians).map fun c => HmmSpec.gammaMix m d fr t i c
      eps := (List.range (fr.length - 1)).map fun t => (List.range m.n).map fun i => (m.dests i).map fun j => HmmSpec.xiOf m d fr t i j }
  have hE : ∀ fr, (E fr).Exact m d fr := fun fr => ⟨rfl, rfl, rfl, rfl⟩
  have key : ∀ (phrases : List (List (List K))) (es : List (EStep K)), List.Forall₂ (fun fr e => e.Exact m d fr) phrases es → es = phrases.map E := by
    intro phrases es h
    induction h with
    | nil => rfl
    | cons h1 _ ih => rw [List.map_cons, ← ih, exact_unique (hE _) h1]
  rw [key _ _ hes, key _ _ hes']
  exact h.map E

theorem scratch_inTraining {m : Hmm K} (h : m.InTraining) (a p b q : List K) (ha : a.length = m.n) (hb : b.length = m.n) [IsStrictOrderedRing K] :
    (m.scratch a p b q).InTraining :=
  ⟨scratch_wf h.wf a p b q, h.ready, ha, hb, h.start_nonneg, h.start_sum, h.step_nonneg, h.step_sum, h.last⟩

theorem logTotal_perm (log : K → K) (m : Hmm K) (d : Nat → List K → Nat → K) {phrases phrases' : List (List (List K))} (h : phrases'.Perm phrases) :
    logTotal log m d phrases' = logTotal log m d phrases := by
  unfold logTotal
  exact ((h.filter _).map _).sum_eq

theorem emUpdate_split (D : Dens K) (log : K → K) (data : KData K) (m m1 : Hmm K) (es : List (EStep K)) (l : K) (h : eSteps D log data.phrases m = .ret (es, l) m1) :
    emUpdate D log data m = (reestimate es data.frames >>= fun _ => pure l) m1 := by
  unfold emUpdate
  rw [bind_of_ret h]
  simp only [reestimate, bind_def]
  cases estimateStates es data.frames m1 with
  | ub => rfl
  | throw e s => rfl
  | ret _ s =>
    simp only [get_def]
    cases s.ergodic with
    | false =>
      simp only [Bool.false_eq_true, if_false, bind_def]
    | true =>
      simp only [if_true, bind_def]
      cases estimatePrior es s <;> rfl

variable [IsStrictOrderedRing K]

/-- one iteration of training on the phrases in another order, from working variables with other values -/
theorem emUpdate_shuffled (D : Dens K) (hD : D.Sound) (log : K → K) (hlog : ∀ x y, 0 < x → 0 < y → log (x * y) = log x + log y) {data data' : KData K}
    (h : data.Shuffled data') (m : Hmm K) (hm : m.InTraining) (ht : m.Trains data) (a p b q : List K) (ha : a.length = m.n) (hb : b.length = m.n)
    {l : K} {m1 : Hmm K} (hu : emUpdate D log data m = .ret l m1) :
    ∃ a' p' b' q', emUpdate D log data' (m.scratch a p b q) = .ret l (m1.scratch a' p' b' q') ∧ a'.length = m.n ∧ b'.length = m.n := by
  obtain ⟨d, hd, hge⟩ := observes_exist D hD m hm.wf hm.ready data.frames ht.frame
  have hp : ∀ x, x ∈ data'.frames ↔ x ∈ data.frames := fun x => (KData.Shuffled.frames h).mem_iff
  obtain ⟨es, a1, p1, b1, q1, e1, e2, e3, e4⟩ := eSteps_ret D log hlog m hm d data.phrases hd hge
  obtain ⟨es', a2, p2, b2, q2, f1, f2, f3, f4⟩ := eSteps_ret D log hlog (m.scratch a p b q) (scratch_inTraining hm a p b q ha hb) d data'.phrases
    (fun i s hs => fun x hx => hd i s hs x ((hp x).1 hx)) (fun x hx => hge x ((hp x).1 hx))
  have f4' : List.Forall₂ (fun fr e => e.Exact m d fr) data'.phrases es' := f4.imp fun fr e h => ⟨h.len, h.gamma, h.gmix, h.eps⟩
  have hre : ∀ s : Hmm K, s.n = m.n → reestimate es' data'.frames s = reestimate es data.frames s := by
    intro s hs
    unfold reestimate
    rw [bind_def, bind_def]
    have := estimateStates_perm m d h.perm e4 f4' hs
    rw [show data'.frames = data'.phrases.flatten from rfl, show data.frames = data.phrases.flatten from rfl, this, estimatePrior_perm (exact_perm h.perm e4 f4'),
      estimateTransitions_perm (exact_perm h.perm e4 f4')]
  refine ⟨a2, p2, b2, q2, ?_, f2, f3⟩
  rw [emUpdate_split D log data _ _ es _ e1] at hu
  rw [emUpdate_split D log data' _ _ es' _ f1]
  have hsim := reestimate_scratch es data.frames a2 p2 b2 q2 (m.scratch a1 p1 b1 q1)
  unfold SimAt at hsim
  rw [bind_def, hre ((m.scratch a p b q).scratch a2 p2 b2 q2) rfl]
  rw [show (m.scratch a p b q).scratch a2 p2 b2 q2 = (m.scratch a1 p1 b1 q1).scratch a2 p2 b2 q2 from rfl, hsim]
  rw [bind_def] at hu
  cases hr : reestimate es data.frames (m.scratch a1 p1 b1 q1) with
  | ub => rw [hr] at hu; cases hu
  | throw e s => rw [hr] at hu; cases hu
  | ret u s =>
    rw [hr] at hu
    injection hu with h1 h2
    subst h2
    rw [← h1]
    simp only [Res.mapS, pure_def]
    congr 1
    exact logTotal_perm log m d h.perm

end Hmm

/-! ### Initialisation and training -/

theorem loop_congr_inv {σ α : Type} (I : σ → Prop) {n : Nat} {f g : α → Nat → Prog σ α} (hk : ∀ a, ∀ i < n, ∀ s b s', I s → f a i s = .ret b s' → I s')
    (h : ∀ a, ∀ i < n, ∀ s, I s → g a i s = f a i s) (a : α) (s : σ) (hs : I s) : loop n a g s = loop n a f s ∧ ∀ b s', loop n a f s = .ret b s' → I s' := by
  induction n with
  | zero => exact ⟨rfl, fun b s' h => by injection h with _ h; rw [← h]; exact hs⟩
  | succ n ih =>
    obtain ⟨h1, h2⟩ := ih (fun a i hi => hk a i (by omega)) (fun a i hi => h a i (by omega))
    rw [loop_succ, loop_succ, h1]
    cases hl : loop n a f s with
    | ub => exact ⟨rfl, nofun⟩
    | throw e t => exact ⟨rfl, nofun⟩
    | ret b t =>
      have ht := h2 _ _ hl
      exact ⟨h b n (by omega) t ht, fun c s' hc => hk b n (by omega) t c s' ht hc⟩

namespace Hmm

theorem onState_same {α : Type} {i : Nat} {f : Prog (Gmm ℝ) α} {s s' : Hmm ℝ} {a : α} (h : onState i f s = .ret a s') : ∃ l, s' = { s with sts := l } := by
  unfold onState at h
  cases hi : s.sts[i]? with
  | none => rw [hi] at h; cases h
  | some g =>
    rw [hi] at h
    simp only at h
    cases hf : f g with
    | ub => rw [hf] at h; cases h
    | throw e t => rw [hf] at h; cases h
    | ret b t =>
      rw [hf] at h
      injection h with _ h
      exact ⟨_, h.symm⟩

theorem segment_reordered {data data' : KData ℝ} {N n : Nat} (h : data.ReorderedFor N data') (hn : n < N) : (segmentData data N n).Reordered (segmentData data' N n) := by
  rw [segmentData_eq data hn, segmentData_eq data' hn]
  refine ⟨⟨h.dim, (h.perm.filter _).map _⟩, ?_⟩
  simp only [HmmSpec.segments, List.head?_map, h.first]

/-- the initialisation of the states with the phrases in another order -/
theorem initStates_reordered (D : Dens ℝ) (hD : D.Sound) (log : ℝ → ℝ) (C : Compare ℝ) (P : EmParams) (hP : 1 ≤ P.minIter) (sdOf : KData ℝ → List ℝ)
    (hsd : ∀ d, (sdOf d).length = d.dim) (hperm : ∀ d d', d.Shuffled d' → sdOf d' = sdOf d) (data data' : KData ℝ) (m : Hmm ℝ) (ha : m.Admissible) (hf : m.Fed data)
    (hl : m.LongPhrase data) (hreg : 1 / 10 ^ 9 ≤ m.absReg) (h : data.ReorderedFor m.n data') :
    initStates D log Real.sqrt C P sdOf data' m = initStates D log Real.sqrt C P sdOf data m := by
  unfold initStates
  rw [bind_of_ret (get_def m), bind_of_ret (get_def m)]
  refine (loop_congr_inv (fun s => s.n = m.n ∧ tmpGmm s = tmpGmm m) (fun _ n hn s b s' hI hr => ?_) (fun _ n hn s hI => ?_) () m ⟨rfl, rfl⟩).1
  · suffices ∃ l, s' = { s with sts := l } by
      obtain ⟨l, rfl⟩ := this
      exact hI
    unfold initState at hr
    rw [bind_of_ret (get_def s)] at hr
    split_ifs at hr
    · injection hr with _ hr
      exact ⟨s.sts, hr.symm⟩
    · obtain ⟨g, s1, h1, h2⟩ : ∃ g s1, trainSegment D log Real.sqrt C P (sdOf (segmentData data s.n n)) (segmentData data s.n n) (tmpGmm s) s = .ret g s1 ∧
          loop s.gaussians () (fun _ c => onState n (copyComp g c)) s1 = .ret b s' := by
        rw [bind_def] at hr
        cases ht : (trainSegment D log Real.sqrt C P (sdOf (segmentData data s.n n)) (segmentData data s.n n) (tmpGmm s) : Prog (Hmm ℝ) (Gmm ℝ)) s with
        | ub => rw [ht] at hr; cases hr
        | throw e t => rw [ht] at hr; cases hr
        | ret g s1 => rw [ht] at hr; exact ⟨g, s1, rfl, hr⟩
      have hs1 : s1 = s := by
        unfold trainSegment at h1
        split at h1
        · injection h1 with _ h1; exact h1.symm
        · cases h1
        · cases h1
      subst hs1
      have := (loop_congr_inv (fun t => ∃ l, t = { s1 with sts := l }) (n := s1.gaussians) (f := fun (_ : Unit) c => onState n (copyComp g c)) (g := fun (_ : Unit) c => onState n (copyComp g c))
        (fun _ c _ t _ t' ht hr => by
          obtain ⟨l, rfl⟩ := ht
          obtain ⟨l', rfl⟩ := onState_same hr
          exact ⟨l', rfl⟩) (fun _ _ _ _ _ => rfl) () s1 ⟨s1.sts, rfl⟩).2
      exact this _ _ h2
  · have hseg := segment_reordered h hn
    unfold initState
    rw [bind_of_ret (get_def s), bind_of_ret (get_def s), hI.1, hI.2]
    have he : (segmentData data' m.n n).phrases.isEmpty = (segmentData data m.n n).phrases.isEmpty := by
      rw [Bool.eq_iff_iff, List.isEmpty_iff, List.isEmpty_iff]
      constructor
      · intro e; have := hseg.perm; rw [e] at this; exact this.nil_eq.symm
      · intro e; have := hseg.perm; rw [e] at this; exact this.eq_nil
    rw [he, hperm _ _ hseg.toShuffled]
    split_ifs
    · rfl
    · obtain ⟨t, g, k1, k2⟩ := Gmm.C100_training D hD log (tmpGmm m) ⟨ha.gaussians, ha.dim, ha.di⟩ (sdOf (segmentData data m.n n)) (segmentData data m.n n)
        (segmentData data' m.n n) ⟨hf.dim, fun x hx => hf.frame x (segment_mem hx), segment_some ha.n hl hn, by rw [hsd]; exact hf.dim⟩ hreg hseg C P hP (fun _ => false)
      have e1 : (trainSegment D log Real.sqrt C P (sdOf (segmentData data m.n n)) (segmentData data m.n n) (tmpGmm m) : Prog (Hmm ℝ) (Gmm ℝ)) s = .ret g s := by
        simp only [trainSegment, k1]
      have e2 : (trainSegment D log Real.sqrt C P (sdOf (segmentData data m.n n)) (segmentData data' m.n n) (tmpGmm m) : Prog (Hmm ℝ) (Gmm ℝ)) s = .ret g s := by
        simp only [trainSegment, k2]
      rw [bind_of_ret e1, bind_of_ret e2]

theorem emInit_reordered (D : Dens ℝ) (hD : D.Sound) (log : ℝ → ℝ) (C : Compare ℝ) (P : EmParams) (hP : 1 ≤ P.minIter) (sdOf : KData ℝ → List ℝ)
    (hsd : ∀ d, (sdOf d).length = d.dim) (hperm : ∀ d d', d.Shuffled d' → sdOf d' = sdOf d) (data data' : KData ℝ) (m m1 : Hmm ℝ) (ha : m.Admissible) (hf : m.Fed data)
    (hl : m.LongPhrase data) (hreg : 1 / 10 ^ 9 ≤ m.absReg) (h : data.ReorderedFor m.n data') (h1 : allocate m = .ret () m1) :
    emInit D log Real.sqrt C P sdOf data' m1 = emInit D log Real.sqrt C P sdOf data m1 := by
  obtain ⟨m1', h1', hw1, hst1, hs1, -, -⟩ := allocate_fresh m ha
  rw [h1] at h1'
  injection h1' with _ h1'
  subst h1'
  have en : m1.n = m.n := by rw [hs1]
  have ed : m1.dim = m.dim := by rw [hs1]
  have eg : m1.gaussians = m.gaussians := by rw [hs1]
  obtain ⟨M, k1, k2, -⟩ := defaults_ret m1 hw1 (fun s hs => ⟨(hst1 s hs).wf, by rw [(hst1 s hs).absReg]; exact hreg⟩) (sdOf data)
    (by rw [hsd, hf.dim, ed])
  have fn : M.n = m.n := by rw [k2]; exact en
  have fd : M.dim = m.dim := by rw [k2]; exact ed
  have fg : M.gaussians = m.gaussians := by rw [k2]; exact eg
  have far : M.absReg = m.absReg := by rw [k2, hs1]
  have hM : M.Admissible := ⟨by rw [fn]; exact ha.n, by rw [fg]; exact ha.gaussians, by rw [k2, hs1]; exact ha.dim, by rw [k2, hs1]; exact ha.di⟩
  unfold emInit
  have he : data'.phrases.isEmpty = data.phrases.isEmpty := by
    rw [Bool.eq_iff_iff, List.isEmpty_iff, List.isEmpty_iff]
    constructor
    · intro e; have := h.perm; rw [e] at this; exact this.nil_eq.symm
    · intro e; have := h.perm; rw [e] at this; exact this.eq_nil
  rw [he, hperm _ _ h.toShuffled]
  split_ifs
  · rfl
  · rw [bind_of_ret k1, bind_of_ret k1]
    exact initStates_reordered D hD log C P hP sdOf hsd hperm data data' M hM ⟨by rw [fd]; exact hf.dim, fun x hx => by rw [fd]; exact hf.frame x hx, hf.some⟩
      (by obtain ⟨p, q1, q2⟩ := hl; exact ⟨p, q1, by rw [fn]; exact q2⟩) (by rw [far]; exact hreg) (by rw [fn]; exact h)

theorem train_reordered (D : Dens ℝ) (hD : D.Sound) (log : ℝ → ℝ) (hlog : ∀ x y, 0 < x → 0 < y → log (x * y) = log x + log y) (m : Hmm ℝ)
    (ha : m.Admissible) (hwin : 1 ≤ m.window) (data data' : KData ℝ) (hf : m.Fed data) (hl : m.LongPhrase data) (hlen : data.frames.length ≤ 10 ^ 90)
    (hfill : m.ergodic = true → ∀ p ∈ data.phrases, p ≠ []) (hreg : 1 / 10 ^ 9 ≤ m.absReg) (sdOf : KData ℝ → List ℝ)
    (hsd : ∀ d, (sdOf d).length = d.dim) (hperm : ∀ d d', d.Shuffled d' → sdOf d' = sdOf d) (h : data.ReorderedFor m.n data')
    (lowest pct : ℝ) (P : EmParams) (hP : 1 ≤ P.minIter) (cancel : Nat → Bool)
    (hmass : m.ergodic = true → ∀ m1 m2, allocate m = .ret () m1 → emInit D log Real.sqrt (Compare.exact lowest pct) P sdOf data m1 = .ret () m2 →
      ∀ k ls m', Trainee.steps (fun _ => emUpdate D log data) k m2 = .ret ls m' → ∀ i < m.n, 1 / 10 ^ 100 ≤ ∑ j ∈ Finset.range m.n, step m' i j) :
    ∃ t u a p b q, (trainee D log Real.sqrt (Compare.exact lowest pct) P sdOf data).train (Compare.exact lowest pct) P cancel m = .ret t u ∧
      (trainee D log Real.sqrt (Compare.exact lowest pct) P sdOf data').train (Compare.exact lowest pct) P cancel m = .ret t (u.scratch a p b q) ∧
      a.length = m.n ∧ b.length = m.n := by
  obtain ⟨g, m1, m2, h1, h2, -, -, h4⟩ := init_ret D hD log lowest pct P hP sdOf hsd data m ha hf hl hfill hreg
  obtain ⟨m1', h1', -, -, hs1, hal, hbe⟩ := allocate_fresh m ha
  rw [h1] at h1'
  injection h1' with _ h1'
  subst h1'
  have en : m1.n = m.n := by rw [hs1]
  have ee : m1.ergodic = m.ergodic := by rw [hs1]
  have h2' : emInit D log Real.sqrt (Compare.exact lowest pct) P sdOf data' m1 = .ret () m2 := by
    rw [emInit_reordered D hD log _ P hP sdOf hsd hperm data data' m m1 ha hf hl hreg h h1, h2]
  have hinit : (trainee D log Real.sqrt (Compare.exact lowest pct) P sdOf data).init m1 = .ret true m2 := by
    show (emInit D log Real.sqrt (Compare.exact lowest pct) P sdOf data >>= fun _ => pure true) m1 = _
    rw [bind_of_ret h2, pure_def]
  have hinit' : (trainee D log Real.sqrt (Compare.exact lowest pct) P sdOf data').init m1 = .ret true m2 := by
    show (emInit D log Real.sqrt (Compare.exact lowest pct) P sdOf data' >>= fun _ => pure true) m1 = _
    rw [bind_of_ret h2', pure_def]
  obtain ⟨t, u, u', r1, r2, a, p, b, q, rfl, r3, r4⟩ := Trainee.train_related (trainee D log Real.sqrt (Compare.exact lowest pct) P sdOf data)
    (trainee D log Real.sqrt (Compare.exact lowest pct) P sdOf data') (Compare.exact lowest pct) P hP cancel h1 h1 hinit hinit'
    (fun k x y => m1.Running data x ∧ (∃ ls, Trainee.steps (fun _ => emUpdate D log data) k m2 = .ret ls x) ∧
      ∃ a p b q, y = x.scratch a p b q ∧ a.length = m.n ∧ b.length = m.n)
    ⟨h4, ⟨[], rfl⟩, m2.alpha, m2.prevAlpha, m2.beta, m2.prevBeta, rfl, by rw [h4.training.alpha, h4.same, en], by rw [h4.training.beta, h4.same, en]⟩ (by
      rintro k x y ⟨q1, ⟨ls, q2⟩, a, p, b, q, rfl, q3, q4⟩
      have ex : x.n = m.n := by rw [q1.same, en]
      obtain ⟨l, x', r1, r2⟩ := q1.next D hD log hlog hlen (fun he l m'' hu i hi => by
        rw [en] at hi ⊢
        refine hmass (ee ▸ he) m1 m2 h1 h2 (k + 1) (ls ++ [l]) m'' ?_ i hi
        rw [Trainee.steps, bind_of_ret q2, bind_of_ret hu, pure_def])
      obtain ⟨a', p', b', q', r3, r4, r5⟩ := emUpdate_shuffled D hD log hlog h.toShuffled x q1.training q1.trains a p b q (by rw [q3, ex]) (by rw [q4, ex]) r1
      refine ⟨l, x', _, r1, r3, r2, ⟨ls ++ [l], ?_⟩, a', p', b', q', rfl, by rw [r4, ex], by rw [r5, ex]⟩
      rw [Trainee.steps, bind_of_ret q2, bind_of_ret r1, pure_def])
    (fun x y => ∃ a p b q, y = x.scratch a p b q ∧ a.length = m.n ∧ b.length = m.n)
    ⟨m1.alpha, m1.prevAlpha, m1.beta, m1.prevBeta, rfl, by rw [hal], by rw [hbe]⟩ (by
      rintro k x y ⟨-, -, a, p, b, q, rfl, q3, q4⟩
      exact ⟨a, p, b, q, rfl, q3, q4⟩) (by
      rintro k x y ⟨q1, -, a, p, b, q, rfl, q3, q4⟩
      obtain ⟨x', f1, -⟩ := q1.finish (by rw [hs1]; exact hwin)
      refine ⟨x', x'.scratch a p b q, f1, ?_, a, p, b, q, rfl, q3, q4⟩
      have := normalizeTransitions_scratch a p b q x
      unfold SimAt at this
      rw [f1] at this
      exact this)
  exact ⟨t, u, a, p, b, q, r1, r2, r3, r4⟩

/-! ### Recognition afterwards -/

/-- the model with other values of the backward variables -/
def backed (b q : List ℝ) (m : Hmm ℝ) : Hmm ℝ := { m with beta := b, prevBeta := q }

section backed
variable {b q : List ℝ}

theorem back_checkTraining (m : Hmm ℝ) : SimAt (backed b q) checkTraining checkTraining m := .get (.ite (fun _ => .throw _ _) fun _ => .pure _ _)

theorem back_onBuf {α : Type} (f : Prog (CBuf ℝ 1) α) (m : Hmm ℝ) : SimAt (backed b q) (onBuf f) (onBuf f) m := by
  unfold SimAt onBuf
  rw [show (backed b q m).buf = m.buf from rfl]
  cases f m.buf <;> rfl

theorem back_onState {α : Type} (i : Nat) (f : Prog (Gmm ℝ) α) (m : Hmm ℝ) : SimAt (backed b q) (onState i f) (onState i f) m := by
  unfold SimAt onState
  rw [show (backed b q m).sts = m.sts from rfl]
  cases m.sts[i]? with
  | none => rfl
  | some g =>
    simp only
    cases f g <;> rfl

theorem back_setTrans (k : Nat) (x : ℝ) (m : Hmm ℝ) : SimAt (backed b q) (setTrans k x) (setTrans k x) m := .get (.bind (.rd _ _ _) fun _ _ _ => .set rfl)

theorem back_reset (m : Hmm ℝ) (hh : m.hier = false) : SimAt (backed b q) reset reset m := by
  refine .bind (back_checkTraining m) fun _ s hs => .get (.bind (back_onBuf _ _) fun _ _ _ => .bind (.modify rfl) fun _ _ _ => .ite (fun h => ?_) fun _ => ?_)
  · exfalso
    have : s = m := by
      unfold checkTraining at hs
      rw [bind_of_ret (get_def m)] at hs
      split_ifs at hs
      · cases hs
      · injection hs with _ hs; exact hs.symm
    rw [this, hh] at h
    cases h
  · exact .get (.bind (back_checkTraining _) fun _ _ _ => .ite (fun _ => .ite (fun _ => back_setTrans _ _ _) fun _ => .pure _ _) fun _ =>
      .ite (fun _ => back_setTrans _ _ _) fun _ => .pure _ _)

theorem back_stateProb {σ : Type} {φ : σ → σ} (D : Dens ℝ) (m : Hmm ℝ) (x y : List ℝ) (i : Nat) (s : σ) : SimAt φ (stateProb D m x y i) (stateProb D m x y i) s := by
  have h : ∀ (g : Gmm ℝ) (f : Nat → Prog σ ℝ) (s : σ), (∀ c s, SimAt φ (f c) (f c) s) → SimAt φ (Gmm.obsProbSum g f) (Gmm.obsProbSum g f) s := fun g f s hf =>
    .loop _ _ _ fun _ c s _ => .bind (hf c s) fun _ _ _ => .pure _ _
  refine .bind (.rd _ _ _) fun st _ _ => .ite (fun _ => .ite (fun _ => h _ _ _ fun c s => ?_) fun _ => h _ _ _ fun c s => ?_) fun _ => h _ _ _ fun c s => ?_
  all_goals exact .ite (fun _ => .throw _ _) fun _ => .bind (.rd _ _ _) fun _ _ _ => .bind (.rd _ _ _) fun _ _ _ => .bind (.call rfl _) fun _ _ _ => .pure _ _

theorem back_setAlpha (i : Nat) (x : ℝ) (m : Hmm ℝ) : SimAt (backed b q) (setAlpha i x) (setAlpha i x) m := .get (.bind (.rd _ _ _) fun _ _ _ => .set rfl)

theorem back_divideAlpha (n : Nat) (z : ℝ) (m : Hmm ℝ) : SimAt (backed b q) (divideAlpha n z) (divideAlpha n z) m :=
  .loop _ _ _ fun _ _ _ _ => .get (.bind (.rd _ _ _) fun _ _ _ => back_setAlpha _ _ _)

theorem back_forwardInit {p : Nat → Prog (Hmm ℝ) ℝ} (h : ∀ i m, SimAt (backed b q) (p i) (p i) m) (m : Hmm ℝ) : SimAt (backed b q) (forwardInit p) (forwardInit p) m := by
  refine .bind (.get (.ite (fun _ => .loop _ _ _ fun _ _ _ _ => ?_) fun _ => ?_)) fun _ _ _ => .get (.ite (fun _ => ?_) fun _ => ?_)
  · exact .get (.bind (.rd _ _ _) fun _ _ _ => .bind (h _ _) fun _ _ _ => .bind (back_setAlpha _ _ _) fun _ _ _ => .pure _ _)
  · exact .bind (.set rfl) fun _ _ _ => .bind (h _ _) fun _ _ _ => .bind (back_setAlpha _ _ _) fun _ _ _ => .pure _ _
  · exact .bind (back_divideAlpha _ _ _) fun _ _ _ => .pure _ _
  · exact .bind (.loop _ _ _ fun _ _ _ _ => back_setAlpha _ _ _) fun _ _ _ => .pure _ _

theorem back_predict {σ : Type} {φ : σ → σ} (m : Hmm ℝ) (j : Nat) (s : σ) : SimAt φ (predict m j) (predict m j) s :=
  .ite (fun _ => .loop _ _ _ fun _ _ _ _ => .bind (.rd _ _ _) fun _ _ _ => .bind (.rd _ _ _) fun _ _ _ => .pure _ _) fun _ =>
    .bind (.rd _ _ _) fun _ _ _ => .bind (.rd _ _ _) fun _ _ _ => .ite (fun _ => .bind (.rd _ _ _) fun _ _ _ => .bind (.rd _ _ _) fun _ _ _ => .pure _ _) fun _ =>
      .bind (.rd _ _ _) fun _ _ _ => .bind (.rd _ _ _) fun _ _ _ => .pure _ _

theorem back_forwardUpdate {p : Nat → Prog (Hmm ℝ) ℝ} (h : ∀ i m, SimAt (backed b q) (p i) (p i) m) (m : Hmm ℝ) : SimAt (backed b q) (forwardUpdate p) (forwardUpdate p) m := by
  refine .bind (.modify rfl) fun _ _ _ => .get (.bind (.loop _ _ _ fun _ _ s _ => ?_) fun _ _ _ => .ite (fun _ => ?_) fun _ => .pure _ _)
  · exact .get (.bind (back_predict s _ _) fun _ _ _ => .bind (h _ _) fun _ _ _ => .bind (back_setAlpha _ _ _) fun _ _ _ => .pure _ _)
  · exact .bind (back_divideAlpha _ _ _) fun _ _ _ => .pure _ _

theorem back_observe (D : Dens ℝ) (x : List ℝ) (i : Nat) (m : Hmm ℝ) : SimAt (backed b q) (Prog.get >>= fun m => stateProb D m x [] i) (Prog.get >>= fun m => stateProb D m x [] i) m := by
  refine .get ?_
  have e : (stateProb D (backed b q m) x [] i : Prog (Hmm ℝ) ℝ) = stateProb D m x [] i := rfl
  rw [e]
  exact back_stateProb D m x [] i m

theorem back_forward (D : Dens ℝ) (x : List ℝ) (m : Hmm ℝ) : SimAt (backed b q) (forward D x) (forward D x) m := by
  have h : ∀ i m, SimAt (backed b q) (Prog.get >>= fun m => stateProb D m x [] i) (Prog.get >>= fun m => stateProb D m x [] i) m := back_observe D x
  have h1 := back_forwardUpdate h
  have h2 := back_forwardInit h
  unfold forward
  generalize (fun i => (Prog.get >>= fun m => stateProb D m x [] i : Prog (Hmm ℝ) ℝ)) = p at h1 h2
  exact .get (.ite (fun _ => h1 m) fun _ => .bind (back_onBuf _ _) fun _ _ _ => h2 _)

theorem back_occupancy {σ : Type} {φ : σ → σ} (m : Hmm ℝ) (i : Nat) (s : σ) : SimAt φ (occupancy m i) (occupancy m i) s :=
  .ite (fun _ => .bind (.rd _ _ _) fun _ _ _ => .bind (.rd _ _ _) fun _ _ _ => .pure _ _) fun _ => .rd _ _ _

theorem back_updateAlphaWindow (m : Hmm ℝ) : SimAt (backed b q) updateAlphaWindow updateAlphaWindow m := by
  refine .bind (back_checkTraining m) fun _ s _ => .get (.bind (.bind (back_occupancy s _ _) fun _ _ _ => .loop _ _ _ fun _ _ _ _ => .bind (back_occupancy s _ _) fun _ _ _ => .pure _ _)
    fun _ _ _ => .bind (.loop _ _ _ fun _ _ _ _ => .bind (back_occupancy s _ _) fun _ _ _ => .pure _ _) fun _ _ _ => .set rfl)

theorem back_computeProgress {σ : Type} {φ : σ → σ} (m : Hmm ℝ) (s : σ) : SimAt φ (computeProgress m) (computeProgress m) s := by
  refine .bind (.loop _ _ _ fun _ _ _ _ => .bind (.ite (fun _ => ?_) fun _ => .rd _ _ _) fun _ _ _ => .pure _ _) fun _ _ _ => .pure _ _
  exact .bind (.rd _ _ _) fun _ _ _ => .bind (.rd _ _ _) fun _ _ _ => .bind (.rd _ _ _) fun _ _ _ => .pure _ _

theorem back_updateResults (log : ℝ → ℝ) (m : Hmm ℝ) : SimAt (backed b q) (updateResults log) (updateResults log) m :=
  .get (.bind (back_onBuf _ _) fun _ s _ => .get (.bind (back_computeProgress s _) fun _ _ _ => .set rfl))

theorem back_regression (D : Dens ℝ) (log : ℝ → ℝ) (x : List ℝ) (m : Hmm ℝ) : SimAt (backed b q) (regression D log x) (regression D log x) m := by
  refine .bind (back_checkTraining m) fun _ _ _ => .bind (.modify rfl) fun _ _ _ => .get (.ite (fun _ => ?_) fun _ => .loop _ _ _ fun _ _ _ _ => ?_)
  · exact .get (.bind (back_onState _ _ _) fun _ _ _ => .bind (back_onState _ _ _) fun _ _ _ => .get (.bind (.rd _ _ _) fun _ _ _ => .set rfl))
  · exact .bind (back_onState _ _ _) fun _ _ _ => .bind (back_onState _ _ _) fun _ s _ => .get (.bind (.rd _ _ _) fun _ _ _ =>
      .bind (back_occupancy s _ _) fun _ _ _ => .bind (Gmm.sim_addScaled _ _ _ _ _) fun _ _ _ => .bind (Gmm.sim_addScaled _ _ _ _ _) fun _ _ _ => .set rfl)

theorem back_filter (D : Dens ℝ) (log : ℝ → ℝ) (x : List ℝ) (m : Hmm ℝ) : SimAt (backed b q) (filter D log x) (filter D log x) m :=
  .bind (back_checkTraining m) fun _ _ _ => .bind (back_forward D x _) fun _ _ _ => .bind (.modify rfl) fun _ _ _ => .bind (back_updateAlphaWindow _) fun _ _ _ =>
    .bind (back_updateResults log _) fun _ _ _ => .get (.ite (fun _ => .bind (back_regression D log x _) fun _ _ _ => .get (.pure _ _)) fun _ => .get (.pure _ _))

theorem back_filterAll (D : Dens ℝ) (log : ℝ → ℝ) : ∀ (xs : List (List ℝ)) (m : Hmm ℝ), SimAt (backed b q) (filterAll D log xs) (filterAll D log xs) m
  | [], m => .pure _ m
  | x :: xs, m => .bind (back_filter D log x m) fun _ _ _ => .bind (back_filterAll D log xs _) fun _ _ _ => .pure _ _

end backed

/-- recognition does not see what an earlier training left in the working variables -/
theorem recognition_scratch (D : Dens ℝ) (hD : D.Sound) (log : ℝ → ℝ) (m : Hmm ℝ) (hm : m.Usable) (a p b q : List ℝ) (ha : a.length = m.n) (xs : List (List ℝ))
    (hx : ∀ x ∈ xs, m.Fits x) (hne : xs ≠ []) :
    ∃ r r' qs t t', reset m = .ret () r ∧ reset (m.scratch a p b q) = .ret () r' ∧ filterAll D log xs r = .ret qs t ∧ filterAll D log xs r' = .ret qs t' ∧
      SameResults t t' := by
  have hu : ({ m with alpha := a, prevAlpha := p } : Hmm ℝ).Usable := ⟨⟨⟨hm.can.wf.pos, hm.can.wf.sts, hm.can.wf.prior, hm.can.wf.trans, hm.can.wf.state⟩,
    ⟨hm.can.chain.1, hm.can.chain.2, hm.can.chain.3, hm.can.chain.4⟩, hm.can.idle, hm.can.window, hm.can.state⟩, hm.flat, hm.buf, fun _ => ha⟩
  obtain ⟨bf, h1, h2⟩ := reset_ret m hm
  obtain ⟨bf', h1', h2'⟩ := reset_ret _ hu
  have hc := cleared_can m hm.can bf
  obtain ⟨e, he⟩ := emits_exist D hD _ hc
  obtain ⟨v, c, hv⟩ : ∃ v c : List ℝ → Nat → List ℝ, (cleared m bf).bimodal = true → ∀ x, (cleared m bf).Fits x →
      Predicts D (cleared m bf) x (v x) (c x) := by
    rcases bool_cases (cleared m bf).bimodal with h | h
    · exact ⟨fun _ _ => [], fun _ _ => [], fun h' => absurd (h.symm.trans h') (by simp)⟩
    · obtain ⟨v, c, hv⟩ := predicts_exist D hD _ hc h
      exact ⟨v, c, fun _ => hv⟩
  have h0 := heard_nil log (cleared m bf) hc rfl h2 hm.alpha
  have h0' : Heard (cleared m bf) log [] [] (cleared { m with alpha := a, prevAlpha := p } bf') := by
    have hf : (cleared { m with alpha := a, prevAlpha := p } bf').started = false := rfl
    exact ⟨⟨rfl, h0.same.2⟩, rfl, rfl, fun _ => ha, h2', (fun h => absurd (hf.symm.trans h) (by simp)), (fun h => absurd (hf.symm.trans h) (by simp)),
      (fun p hp => absurd hp (by simp)), (fun T h => absurd h (by simp)), (fun T h => absurd h (by simp))⟩
  obtain ⟨qs, t1, t2, x1, x2, x3⟩ := run_det D log hc hm.flat e he v c hv xs hx hne _ _ [] [] h0 h0'
  have s1 := back_reset (b := b) (q := q) { m with alpha := a, prevAlpha := p } hm.flat
  have s2 := back_filterAll (b := b) (q := q) D log xs (cleared { m with alpha := a, prevAlpha := p } bf')
  unfold SimAt at s1 s2
  rw [h1'] at s1
  rw [x2] at s2
  exact ⟨_, _, qs, t1, backed b q t2, h1, s1, x1, s2, ⟨x3.instant, x3.logLik, x3.progress, x3.likeliest, x3.alpha, x3.output⟩⟩

/-- in a hierarchy, `reset()` clears the working variables -/
theorem reset_scratch (m : Hmm ℝ) (hh : m.hier = true) (ht : m.training = false) (a p b q : List ℝ) : reset (m.scratch a p b q) = reset m := by
  unfold reset
  rw [bind_of_ret (checkTraining_idle (m := m) ht), bind_of_ret (checkTraining_idle (m := m.scratch a p b q) ht), bind_of_ret (get_def _), bind_of_ret (get_def _),
    bind_def, bind_def, if_pos hh, if_pos (show (m.scratch a p b q).hier = true from hh)]
  cases hB : resetBuffer m.window m.buf with
  | ub =>
    have e1 : onBuf (resetBuffer m.window) m = .ub := by simp only [onBuf, hB]
    have e2 : onBuf (resetBuffer (m.scratch a p b q).window) (m.scratch a p b q) = .ub := by
      unfold onBuf
      rw [show resetBuffer (m.scratch a p b q).window (m.scratch a p b q).buf = .ub from hB]
    rw [e1, e2]
  | throw e c =>
    exfalso
    simp only [resetBuffer, CBuf.resize, CBuf.clear, bind_def, get_def] at hB
    split_ifs at hB <;> simp [pure_def, set_def, modify_def] at hB
  | ret _ c =>
    have e1 : onBuf (resetBuffer m.window) m = .ret () { m with buf := c } := by simp only [onBuf, hB]
    have e2 : onBuf (resetBuffer (m.scratch a p b q).window) (m.scratch a p b q) = .ret () { m.scratch a p b q with buf := c } := by
      unfold onBuf
      rw [show resetBuffer (m.scratch a p b q).window (m.scratch a p b q).buf = .ret () c from hB]
    rw [e1, e2]
    rfl

/-- **C100** (LeftRight hidden Markov models): training on the phrases in another order.  Among the phrases with a frame for each state the first one must remain the
    first.  Then training has the same outcome after the same number of iterations, with the same log-likelihoods, and yields the same states, start and transition
    probabilities: only the forward and backward variables of the last E step can differ, and recognition does not see them. -/
theorem C100_training (D : Dens ℝ) (hD : D.Sound) (log : ℝ → ℝ) (hlog : ∀ x y, 0 < x → 0 < y → log (x * y) = log x + log y) (m : Hmm ℝ)
    (ha : m.Admissible) (he : m.ergodic = false) (hwin : 1 ≤ m.window) (data data' : KData ℝ) (hf : m.Fed data) (hl : m.LongPhrase data)
    (hlen : data.frames.length ≤ 10 ^ 90) (hreg : 1 / 10 ^ 9 ≤ m.absReg) (h : data.ReorderedFor m.n data')
    (lowest pct : ℝ) (P : EmParams) (hP : 1 ≤ P.minIter) (cancel : Nat → Bool) :
    ∃ t u u', (trainee D log Real.sqrt (Compare.exact lowest pct) P (fun d => deviations d.dim d.frames) data).train (Compare.exact lowest pct) P cancel m = .ret t u ∧
      (trainee D log Real.sqrt (Compare.exact lowest pct) P (fun d => deviations d.dim d.frames) data').train (Compare.exact lowest pct) P cancel m = .ret t u' ∧
      u' = { u with alpha := u'.alpha, prevAlpha := u'.prevAlpha, beta := u'.beta, prevBeta := u'.prevBeta } ∧
      (m.hier = true → reset u' = reset u) ∧
      (t.status = .done → m.hier = false → BufOk m.buf → ∀ xs, xs ≠ [] → (∀ x ∈ xs, u.Fits x) →
        ∃ r r' qs v v', reset u = .ret () r ∧ reset u' = .ret () r' ∧ filterAll D log xs r = .ret qs v ∧ filterAll D log xs r' = .ret qs v' ∧ SameResults v v') := by
  have hsd : ∀ d : KData ℝ, (deviations d.dim d.frames).length = d.dim := fun d => by simp [deviations]
  obtain ⟨t, u, a, p, b, q, h1, h2, h3, -⟩ := train_reordered D hD log hlog m ha hwin data data' hf hl hlen (fun h => absurd h (by simp [he])) hreg
    (fun d => deviations d.dim d.frames) hsd (fun d d' hs => by simp only [hs.dim]; exact deviations_perm _ hs.frames) h lowest pct P hP cancel
    (fun h => absurd h (by simp [he]))
  obtain ⟨t', v, k1, -, -, -, -, -, k2, -, -, k3, -⟩ := C83_training D hD log hlog m ha he hwin data hf hl hlen hreg (fun d => deviations d.dim d.frames) hsd lowest pct P hP cancel
  rw [h1] at k1
  injection k1 with e1 e2
  subst e1 e2
  have en : u.n = m.n := by rw [k2]
  have eh : u.hier = m.hier := by rw [k2]
  refine ⟨t, u, _, h1, h2, rfl, fun hh => reset_scratch u (eh.trans hh) (by rw [k2]) a p b q, fun hd hh hb xs hne hx => ?_⟩
  exact recognition_scratch D hD log u ((k3 hd).2.2.2.1 hh hb) a p b q (by rw [h3, en]) xs hx hne

/-- **C100**, Ergodic, partial: as for a LeftRight model, under the hypotheses of `C83_training_ergodic_partial`.  What is missing: that the training of every Ergodic model keeps the mass
    of its transitions (`hmass`), without which an iteration divides 0 by 0. -/
theorem C100_training_ergodic_partial (D : Dens ℝ) (hD : D.Sound) (log : ℝ → ℝ) (hlog : ∀ x y, 0 < x → 0 < y → log (x * y) = log x + log y) (m : Hmm ℝ)
    (ha : m.Admissible) (hwin : 1 ≤ m.window) (data data' : KData ℝ) (hf : m.Fed data) (hl : m.LongPhrase data)
    (hfill : ∀ p ∈ data.phrases, p ≠ []) (hlen : data.frames.length ≤ 10 ^ 90) (hreg : 1 / 10 ^ 9 ≤ m.absReg) (h : data.ReorderedFor m.n data')
    (lowest pct : ℝ) (P : EmParams) (hP : 1 ≤ P.minIter) (cancel : Nat → Bool)
    (hmass : ∀ m1 m2, allocate m = .ret () m1 → emInit D log Real.sqrt (Compare.exact lowest pct) P (fun d => deviations d.dim d.frames) data m1 = .ret () m2 →
      ∀ k ls m', Trainee.steps (fun _ => emUpdate D log data) k m2 = .ret ls m' → ∀ i < m.n, 1 / 10 ^ 100 ≤ ∑ j ∈ Finset.range m.n, step m' i j) :
    ∃ t u u', (trainee D log Real.sqrt (Compare.exact lowest pct) P (fun d => deviations d.dim d.frames) data).train (Compare.exact lowest pct) P cancel m = .ret t u ∧
      (trainee D log Real.sqrt (Compare.exact lowest pct) P (fun d => deviations d.dim d.frames) data').train (Compare.exact lowest pct) P cancel m = .ret t u' ∧
      u' = { u with alpha := u'.alpha, prevAlpha := u'.prevAlpha, beta := u'.beta, prevBeta := u'.prevBeta } := by
  obtain ⟨t, u, a, p, b, q, h1, h2, -⟩ := train_reordered D hD log hlog m ha hwin data data' hf hl hlen (fun _ => hfill) hreg
    (fun d => deviations d.dim d.frames) (fun d => by simp [deviations]) (fun d d' hs => by simp only [hs.dim]; exact deviations_perm _ hs.frames) h lowest pct P hP cancel
    (fun _ => hmass)
  exact ⟨t, u, _, h1, h2, rfl⟩

/-- **C100**, one state, LeftRight or Ergodic: `hmass` holds. -/
theorem C100_training_one_state (D : Dens ℝ) (hD : D.Sound) (log : ℝ → ℝ) (hlog : ∀ x y, 0 < x → 0 < y → log (x * y) = log x + log y) (m : Hmm ℝ)
    (ha : m.Admissible) (hn : m.n = 1) (hwin : 1 ≤ m.window) (data data' : KData ℝ) (hf : m.Fed data)
    (hfill : ∀ p ∈ data.phrases, p ≠ []) (hlong : ∃ p ∈ data.phrases, 2 ≤ p.length) (hlen : data.frames.length ≤ 10 ^ 90) (hreg : 1 / 10 ^ 9 ≤ m.absReg)
    (h : data.ReorderedFor m.n data') (lowest pct : ℝ) (P : EmParams) (hP : 1 ≤ P.minIter) (cancel : Nat → Bool) :
    ∃ t u u', (trainee D log Real.sqrt (Compare.exact lowest pct) P (fun d => deviations d.dim d.frames) data).train (Compare.exact lowest pct) P cancel m = .ret t u ∧
      (trainee D log Real.sqrt (Compare.exact lowest pct) P (fun d => deviations d.dim d.frames) data').train (Compare.exact lowest pct) P cancel m = .ret t u' ∧
      u' = { u with alpha := u'.alpha, prevAlpha := u'.prevAlpha, beta := u'.beta, prevBeta := u'.prevBeta } := by
  have hsd : ∀ d : KData ℝ, (deviations d.dim d.frames).length = d.dim := fun d => by simp [deviations]
  have hl : m.LongPhrase data := by
    obtain ⟨p, q1, q2⟩ := hlong
    exact ⟨p, q1, by omega⟩
  obtain ⟨t, u, a, p, b, q, h1, h2, -⟩ := train_reordered D hD log hlog m ha hwin data data' hf hl hlen (fun _ => hfill) hreg
    (fun d => deviations d.dim d.frames) hsd (fun d d' hs => by simp only [hs.dim]; exact deviations_perm _ hs.frames) h lowest pct P hP cancel
    (one_state_kept D hD log hlog m ha hn data hf hl hfill hlong hlen hreg _ hsd lowest pct P hP)
  exact ⟨t, u, _, h1, h2, rfl⟩

end Hmm
end Xmm
