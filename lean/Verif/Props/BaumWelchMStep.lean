import Verif.Props.WeightedFit
import Verif.Props.BaumWelchEStep
import Verif.Props.HmmParams
set_option linter.unusedSimpArgs false
set_option linter.unusedSectionVars false
/- C73: the M step of the Baum-Welch algorithm. -/
namespace Xmm
open Phrase (loop)
open Gauss (rd rd_lt)
open Prog (bind_def pure_def get_def set_def modify_def throw_def undef_def)
variable {K : Type} [Field K] [LinearOrder K]

namespace Hmm
variable [IsStrictOrderedRing K]
open HmmSpec GmmSpec RecSpec Gmm

theorem InTraining.scratch {m : Hmm K} (hm : m.InTraining) (a p b q : List K) (ha : a.length = m.n) (hb : b.length = m.n) :
    (m.scratch a p b q).InTraining :=
  ⟨scratch_wf hm.wf _ _ _ _, hm.ready, ha, hb, hm.start_nonneg, hm.start_sum, hm.step_nonneg, hm.step_sum, hm.last⟩

/-- a logarithm turns the product of positive numbers into a sum -/
theorem log_prod (log : K → K) (hlog : ∀ x y, 0 < x → 0 < y → log (x * y) = log x + log y) (n : Nat) (c : Nat → K)
    (hc : ∀ t < n, 0 < c t) (v : K) (hv : 0 < v) (h : ∏ t ∈ Finset.range n, c t = 1 / v) :
    - ∑ t ∈ Finset.range n, log (c t) = log v := by
  have h1 : log 1 = 0 := by
    have := hlog 1 1 one_pos one_pos
    rw [mul_one] at this
    linarith
  have h2 : ∀ n, (∀ t < n, 0 < c t) → 0 < ∏ t ∈ Finset.range n, c t ∧ log (∏ t ∈ Finset.range n, c t) = ∑ t ∈ Finset.range n, log (c t) := by
    intro n
    induction n with
    | zero => intro _; simp [h1]
    | succ n ih =>
      intro hc
      obtain ⟨i1, i2⟩ := ih fun t ht => hc t (by omega)
      rw [Finset.prod_range_succ, Finset.sum_range_succ]
      exact ⟨mul_pos i1 (hc n (by omega)), by rw [hlog _ _ i1 (hc n (by omega)), i2]⟩
  obtain ⟨p1, p2⟩ := h2 n hc
  rw [← p2, h]
  have := hlog v (1 / v) hv (by positivity)
  rw [mul_one_div_cancel hv.ne', h1] at this
  linarith

/-- the E step of a training set -/
theorem eSteps_ret (D : Dens K) (log : K → K) (hlog : ∀ x y, 0 < x → 0 < y → log (x * y) = log x + log y) (m : Hmm K) (hm : m.InTraining)
    (d : Nat → List K → Nat → K) (phrases : List (List (List K))) (hd : Observes D m phrases.flatten d)
    (hge : ∀ x ∈ phrases.flatten, ∀ i < m.n, ∀ c < m.gaussians, 1 / 10 ^ 180 ≤ d i x c) :
    ∃ es a p b q, eSteps D log phrases m = .ret (es, logTotal log m d phrases) (m.scratch a p b q) ∧ a.length = m.n ∧ b.length = m.n ∧
      List.Forall₂ (fun fr e => e.Exact m d fr) phrases es := by
  unfold eSteps
  suffices H : ∀ (phrases : List (List (List K))), Observes D m phrases.flatten d →
      (∀ x ∈ phrases.flatten, ∀ i < m.n, ∀ c < m.gaussians, 1 / 10 ^ 180 ≤ d i x c) → ∀ (acc : List (EStep K) × K) (a p b q : List K),
      a.length = m.n → b.length = m.n → ∃ (es : List (EStep K)) (a' p' b' q' : List K), (phrases.foldlM (fun acc frames => do
        if 0 < frames.length then do
          let r ← forwardBackward D log frames
          pure (acc.1 ++ [r.1], acc.2 + r.2)
        else pure (acc.1 ++ [⟨0, [], [], []⟩], acc.2)) acc : Prog (Hmm K) (List (EStep K) × K)) (m.scratch a p b q) =
          .ret (acc.1 ++ es, acc.2 + logTotal log m d phrases) (m.scratch a' p' b' q') ∧ a'.length = m.n ∧ b'.length = m.n ∧
      List.Forall₂ (fun fr e => e.Exact m d fr) phrases es by
    obtain ⟨es, a, p, b, q, h1, h2, h3, h4⟩ := H phrases hd hge ([], 0) m.alpha m.prevAlpha m.beta m.prevBeta hm.alpha hm.beta
    refine ⟨es, a, p, b, q, ?_, h2, h3, h4⟩
    rw [List.nil_append, zero_add] at h1
    exact h1
  intro phrases
  induction phrases with
  | nil =>
    intro _ _ acc a p b q ha hb
    exact ⟨[], a, p, b, q, by simp [List.foldlM, pure_def, logTotal], ha, hb, .nil⟩
  | cons fr phrases ih =>
    intro hd hge acc a p b q ha hb
    have hd1 : Observes D m fr d := fun i s hs x hx => hd i s hs x (by simp [hx])
    have hd2 : Observes D m phrases.flatten d := fun i s hs x hx => hd i s hs x (by rw [List.flatten_cons]; exact List.mem_append_right _ hx)
    have hg1 : ∀ x ∈ fr, ∀ i < m.n, ∀ c < m.gaussians, 1 / 10 ^ 180 ≤ d i x c := fun x hx => hge x (by simp [hx])
    have hg2 : ∀ x ∈ phrases.flatten, ∀ i < m.n, ∀ c < m.gaussians, 1 / 10 ^ 180 ≤ d i x c := fun x hx =>
      hge x (by rw [List.flatten_cons]; exact List.mem_append_right _ hx)
    rw [List.foldlM_cons]
    by_cases hne : fr = []
    · subst hne
      obtain ⟨es, a', p', b', q', k1, k2, k3, k4⟩ := ih hd2 hg2 (acc.1 ++ [⟨0, [], [], []⟩], acc.2) a p b q ha hb
      refine ⟨⟨0, [], [], []⟩ :: es, a', p', b', q', ?_, k2, k3, .cons ⟨rfl, rfl, rfl, rfl⟩ k4⟩
      rw [if_neg (by simp), bind_of_ret (pure_def _ _), k1]
      simp only [List.append_assoc, List.cons_append, List.nil_append, logTotal]
      congr 2
    · obtain ⟨e, c, m', f1, ⟨a1, p1, b1, q1, ha1, hb1, rfl⟩, f2, f3, f4⟩ :=
        forwardBackward_ret D log (m.scratch a p b q) (hm.scratch a p b q ha hb) fr d hd1 hg1 hne
      have hpos := (totals_pos m hm fr d hg1).2.1 (fr.length - 1) (by have := List.length_pos_iff.2 hne; omega)
      have hl := log_prod log hlog fr.length c f3 _ hpos f4
      have f1' : forwardBackward D log fr (m.scratch a p b q) =
          .ret (e, log (total m.n (start m) (step m) (likAt m d fr) (fr.length - 1))) (m.scratch a1 p1 b1 q1) := by
        rw [← hl]; exact f1
      obtain ⟨es, a', p', b', q', k1, k2, k3, k4⟩ := ih hd2 hg2
        (acc.1 ++ [e], acc.2 + log (total m.n (start m) (step m) (likAt m d fr) (fr.length - 1))) a1 p1 b1 q1 ha1 hb1
      refine ⟨e :: es, a', p', b', q', ?_, k2, k3, .cons ⟨f2.len, f2.gamma, f2.gmix, f2.eps⟩ k4⟩
      rw [if_pos (List.length_pos_iff.2 hne)]
      have : (do
          let r ← forwardBackward D log fr
          pure (acc.1 ++ [r.1], acc.2 + r.2) : Prog (Hmm K) (List (EStep K) × K)) (m.scratch a p b q) =
          .ret (acc.1 ++ [e], acc.2 + log (total m.n (start m) (step m) (likAt m d fr) (fr.length - 1))) (m.scratch a1 p1 b1 q1) := by
        rw [bind_of_ret f1', pure_def]
      rw [bind_of_ret this, k1]
      simp only [List.append_assoc, List.cons_append, List.nil_append, logTotal]
      congr 2
      rw [List.filter_cons_of_pos (by simpa using hne), List.map_cons, List.sum_cons, add_assoc]

section Sums
variable (m : Hmm K) (d : Nat → List K → Nat → K) (phrases : List (List (List K))) (es : List (EStep K))
  (hes : List.Forall₂ (fun fr e => e.Exact m d fr) phrases es)
include hes

/-- a sum over the phrases -/
theorem sumPhrases_ret {σ : Type} (f : EStep K → Prog σ K) (v : List (List K) → K) (s : σ)
    (h : ∀ fr ∈ phrases, ∀ e : EStep K, e.Exact m d fr → f e s = .ret (v fr) s) : sumPhrases es f s = .ret (phrases.map v).sum s := by
  unfold sumPhrases
  suffices H : ∀ acc : K, (es.foldlM (fun acc e => do
      let x ← f e
      pure (acc + x)) acc : Prog σ K) s = .ret (acc + (phrases.map v).sum) s by
    rw [H 0, zero_add]
  induction hes with
  | nil => intro acc; simp [List.foldlM, pure_def]
  | @cons fr e phrases es h1 h2 ih =>
    intro acc
    have hx : (do
      let x ← f e
      pure (acc + x) : Prog σ K) s = .ret (acc + v fr) s := by
      rw [bind_of_ret (h fr (by simp) e h1), pure_def]
    rw [List.foldlM_cons, bind_of_ret hx, ih (fun fr' hf => h fr' (by simp [hf])), List.map_cons, List.sum_cons, add_assoc]

theorem visits_eq (i : Nat) : visits m d phrases i = (phrases.map fun fr => ∑ t ∈ Finset.range fr.length, gammaOf m d fr t i).sum := by
  unfold visits positions
  clear hes
  induction phrases with
  | nil => simp
  | cons fr phrases ih =>
    rw [List.flatMap_cons, List.map_append, List.sum_append, ih, List.map_cons, List.sum_cons]
    congr 1
    rw [List.map_map, ← sum_map_range]
    rfl

theorem gammaSum_ret {σ : Type} (i : Nat) (hi : i < m.n) (s : σ) : gammaSum es i s = .ret (visits m d phrases i) s := by
  rw [visits_eq m d phrases es hes]
  refine sumPhrases_ret m d phrases es hes _ _ s fun fr _ e he => ?_
  rw [he.len]
  refine sumTo_ret _ _ _ s fun t ht => ?_
  rw [he.gamma]
  exact cell_map_range _ _ _ t i ht hi s

theorem statePost_ret {σ : Type} (i : Nat) (hi : i < m.n) (s : σ) :
    statePost es i s = .ret (postOf (positions phrases) (fun p => gammaMix m d p.1 p.2 i) m.gaussians) s := by
  unfold statePost
  suffices H : ∀ acc : List (List K), (es.foldlM (fun acc e => do
      let rows ← collect e.len (fun t => do
        let r ← rd e.gmix t
        rd r i)
      pure (acc ++ rows)) acc : Prog σ (List (List K))) s =
      .ret (acc ++ postOf (positions phrases) (fun p => gammaMix m d p.1 p.2 i) m.gaussians) s by
    rw [H [], List.nil_append]
  induction hes with
  | nil => intro acc; simp [List.foldlM, pure_def, postOf, positions]
  | @cons fr e phrases es h1 h2 ih =>
    intro acc
    have hc := collect_ret e.len (fun t => (do
        let r ← rd e.gmix t
        rd r i : Prog σ (List K))) (fun t => (List.range m.gaussians).map fun c => gammaMix m d fr t i c) s (by
      intro t ht
      rw [h1.len] at ht
      rw [h1.gmix, bind_of_ret (rd_map_range _ _ t ht s), rd_map_range _ _ i hi s])
    have hx : (do
      let rows ← collect e.len (fun t => do
        let r ← rd e.gmix t
        rd r i)
      pure (acc ++ rows) : Prog σ (List (List K))) s =
        .ret (acc ++ (List.range e.len).map fun t => (List.range m.gaussians).map fun c => gammaMix m d fr t i c) s := by
      rw [bind_of_ret hc, pure_def]
    rw [List.foldlM_cons, bind_of_ret hx, ih, List.append_assoc, h1.len]
    congr 2
    unfold postOf positions
    rw [List.flatMap_cons, List.map_append, List.map_map]
    rfl

theorem epsSum_ret {σ : Type} (fr : List (List K)) (e : EStep K) (he : e.Exact m d fr) (i j k : Nat) (hi : i < m.n)
    (hk : (m.dests i)[k]? = some j) (s : σ) : epsSum e i k s = .ret (∑ t ∈ Finset.range (fr.length - 1), xiOf m d fr t i j) s := by
  unfold epsSum
  rw [he.len]
  refine sumTo_ret _ _ _ s fun t ht => ?_
  rw [he.eps, bind_of_ret (rd_map_range _ _ t ht s)]
  unfold cell
  rw [bind_of_ret (rd_map_range _ _ i hi s)]
  have : ((m.dests i).map fun j => xiOf m d fr t i j)[k]? = some (xiOf m d fr t i j) := by
    rw [List.getElem?_map, hk]; rfl
  simp only [rd, this, pure_def]

end Sums

theorem frames_positions (phrases : List (List (List K))) : (positions phrases).map frameAt = phrases.flatten := by
  unfold positions
  induction phrases with
  | nil => rfl
  | cons fr phrases ih =>
    rw [List.flatMap_cons, List.map_append, ih, List.flatten_cons]
    congr 1
    rw [List.map_map]
    refine List.ext_getElem (by simp) fun i h1 h2 => ?_
    simp only [List.getElem_map, List.getElem_range, Function.comp_apply, frameAt]
    rw [List.getD_eq_getElem?_getD, List.getElem?_eq_getElem h2]
    rfl

/-! ### The states -/

/-- a loop over the states -/
theorem stateLoop (m : Hmm K) (B : Nat → Prog (Hmm K) Unit) (F : Nat → Prog (Gmm K) Unit)
    (hB : ∀ i < m.sts.length, ∀ l, B i ({ m with sts := l } : Hmm K) = onState i (F i) { m with sts := l }) (R : Nat → Gmm K → Gmm K → Prop)
    (h : ∀ i s, m.sts[i]? = some s → ∃ s', F i s = .ret () s' ∧ R i s s') :
    ∃ l, loop m.sts.length () (fun _ i => B i) m = .ret () { m with sts := l } ∧ l.length = m.sts.length ∧
      ∀ (i : Nat) (s' : Gmm K), l[i]? = some s' → ∃ s, m.sts[i]? = some s ∧ R i s s' := by
  obtain ⟨a, m', h1, l, rfl, h2, h3, h4⟩ := loop_state m.sts.length () (fun _ i => B i) m
    (fun t _ m' => ∃ l, m' = { m with sts := l } ∧ l.length = m.sts.length ∧ (∀ i, t ≤ i → l[i]? = m.sts[i]?) ∧
      ∀ i < t, ∀ s, m.sts[i]? = some s → ∃ s', l[i]? = some s' ∧ R i s s')
    ⟨m.sts, rfl, rfl, fun _ _ => rfl, fun i hi => by omega⟩ (by
      rintro t ht a m1 ⟨l, rfl, i1, i2, i3⟩
      have hs : l[t]? = some m.sts[t] := by rw [i2 t le_rfl, List.getElem?_eq_getElem ht]
      obtain ⟨s', f1, f2⟩ := h t _ (List.getElem?_eq_getElem ht)
      refine ⟨(), _, (hB t ht l).trans (onState_ret (m := { m with sts := l }) hs f1), l.set t s', rfl, by simpa using i1, fun i hi => ?_,
        fun i hi s hs' => ?_⟩
      · rw [List.getElem?_set_ne (by omega)]; exact i2 i (by omega)
      · by_cases hit : i = t
        · subst hit
          rw [List.getElem?_eq_getElem ht] at hs'
          cases hs'
          exact ⟨s', List.getElem?_set_self (by omega), f2⟩
        · rw [List.getElem?_set_ne (Ne.symm hit)]
          exact i3 i (by omega) s hs')
  refine ⟨l, h1, h2, fun i s' hs' => ?_⟩
  have hi : i < m.sts.length := by rw [← h2]; exact (List.getElem?_eq_some_iff.1 hs').1
  obtain ⟨s'', k1, k2⟩ := h4 i hi _ (List.getElem?_eq_getElem hi)
  rw [hs'] at k1
  cases k1
  exact ⟨_, List.getElem?_eq_getElem hi, k2⟩

/-- the M step for the states -/
theorem estimateStates_ret {ι : Type} (m : Hmm K) (hw : m.WF) (hs : ∀ s ∈ m.sts, s.WF) (hrl : ∀ s ∈ m.sts, s.reg.length = m.dim)
    (hreg : ∀ s ∈ m.sts, ∀ i < m.dim, 1 / 10 ^ 9 ≤ s.reg.getD i 0) (es : List (EStep K)) (P : List ι) (w : Nat → ι → Nat → K) (x : ι → List K)
    (hx : ∀ p ∈ P, (x p).length = m.dim) (h0 : ∀ i < m.n, ∀ p ∈ P, ∀ c < m.gaussians, 0 ≤ w i p c)
    (hpost : ∀ i < m.n, ∀ s : Hmm K, statePost es i s = .ret (postOf P (w i) m.gaussians) s) :
    ∃ l, estimateStates es (P.map x) m = .ret () { m with sts := l } ∧ l.length = m.n ∧
      ∀ (i : Nat) (s' : Gmm K), l[i]? = some s' → ∃ s, m.sts[i]? = some s ∧ Gmm.Fitted P (w i) x s s' ∧ s'.Ready ∧ s'.Outputs ∧ s'.Inverted := by
  have hsl := hw.sts
  obtain ⟨l1, a1, a2, a3⟩ := stateLoop m (fun i => do
      let post ← statePost es i
      onState i (Gmm.setCoeffs post)) (fun i => Gmm.setCoeffs (postOf P (w i) m.gaussians))
    (fun i hi l => by
      show (statePost es i >>= _) _ = _
      rw [bind_of_ret (hpost i (by omega) _)])
    (fun i s s' => s' = { s with coeffs := s'.coeffs } ∧ IsDistribution s'.coeffs ∧
      s'.coeffs = (List.range m.gaussians).map (WSpec.coeff P (w i) m.gaussians)) (by
      intro i s hi
      have hm := List.mem_of_getElem? hi
      have hi' : i < m.n := by rw [← hsl]; exact (List.getElem?_eq_some_iff.1 hi).1
      have hg := (hw.state s hm).1
      obtain ⟨cs, k1, k2, k3⟩ := setCoeffs_ret s (hs s hm) P (w i) (fun p hp c hc => h0 i hi' p hp c (by rw [← hg]; exact hc))
      rw [hg] at k3
      exact ⟨{ s with coeffs := cs }, by rw [← hg]; exact k1, rfl, k2, k3⟩)
  obtain ⟨l2, b1, b2, b3⟩ := stateLoop ({ m with sts := l1 } : Hmm K) (fun i => do
      let post ← statePost es i
      onState i (Gmm.setMeans post (P.map x))) (fun i => Gmm.setMeans (postOf P (w i) m.gaussians) (P.map x))
    (fun i hi l => by
      show (statePost es i >>= _) _ = _
      rw [bind_of_ret (hpost i (by rw [← hsl, ← a2]; exact hi) _)])
    (fun i s s' => s' = { s with comps := s'.comps } ∧ s'.WF ∧ ∀ (c : Nat) (g : Gauss K), s'.comps[c]? = some g →
      g.mean = (List.range m.dim).map (WSpec.mean P (w i) x c)) (by
      intro i s1 hi1
      obtain ⟨s, hi, e1, e2, e3⟩ := a3 i s1 hi1
      have hm := List.mem_of_getElem? hi
      have hi' : i < m.n := by rw [← hsl]; exact (List.getElem?_eq_some_iff.1 hi).1
      obtain ⟨hg, _, _, hd, _⟩ := hw.state s hm
      have hsw := hs s hm
      have hw1 : s1.WF := by
        rw [e1]
        exact ⟨hsw.pos, hsw.comps, by rw [e3]; simp [hg], hsw.beta, hsw.comp⟩
      have hg1 : s1.gaussians = m.gaussians := by rw [e1]; exact hg
      have hd1 : s1.dim = m.dim := by rw [e1]; exact hd
      obtain ⟨cs, k1, k2, k3⟩ := setMeans_ret s1 hw1 P (w i) x (fun p hp => by rw [hd1]; exact hx p hp)
        (fun p hp c hc => h0 i hi' p hp c (by rw [← hg1]; exact hc))
      have k4 : ∀ (c : Nat) (g' : Gauss K), cs[c]? = some g' → ∃ g, s1.comps[c]? = some g ∧
          g' = { g with mean := (List.range m.dim).map (WSpec.mean P (w i) x c) } := by
        intro c g' hg'
        have hc : c < s1.gaussians := by rw [← k2]; exact (List.getElem?_eq_some_iff.1 hg').1
        obtain ⟨g, _, hgc⟩ := getElem_comp hw1 hc
        have := k3 c hc g hgc
        rw [hg'] at this
        cases this
        rw [hd1]
        exact ⟨g, hgc, rfl⟩
      refine ⟨{ s1 with comps := cs }, by rw [← hg1]; exact k1, rfl, ⟨hw1.pos, k2, hw1.coeffs, hw1.beta, fun g' hg' => ?_⟩, fun c g' hg' => ?_⟩
      · obtain ⟨c, hc, rfl⟩ := List.getElem_of_mem hg'
        obtain ⟨g, hgc, e⟩ := k4 c _ (List.getElem?_eq_getElem hc)
        obtain ⟨w1, r1, r2, r3, r4⟩ := hw1.comp g (List.mem_of_getElem? hgc)
        simp only
        rw [e]
        exact ⟨⟨by simp [r1, hd1], w1.cov, w1.inv, w1.invIn, w1.le⟩, r1, r2, r3, r4⟩
      · obtain ⟨g, _, rfl⟩ := k4 c g' hg'
        rfl)
  obtain ⟨l3, c1, c2, c3⟩ := stateLoop ({ m with sts := l2 } : Hmm K) (fun i => do
      let post ← statePost es i
      onState i (Gmm.setCovs post (P.map x))) (fun i => Gmm.setCovs (postOf P (w i) m.gaussians) (P.map x))
    (fun i hi l => by
      show (statePost es i >>= _) _ = _
      rw [bind_of_ret (hpost i (by rw [← hsl, ← a2, ← b2]; exact hi) _)])
    (fun i s s' => ∃ s0, m.sts[i]? = some s0 ∧ Gmm.Fitted P (w i) x s0 s' ∧ s'.Ready ∧ s'.Outputs ∧ s'.Inverted) (by
      intro i s2 hi2
      obtain ⟨s1, hi1, f1, f2, f3⟩ := b3 i s2 hi2
      obtain ⟨s, hi, e1, e2, e3⟩ := a3 i s1 hi1
      have hm := List.mem_of_getElem? hi
      have hi' : i < m.n := by rw [← hsl]; exact (List.getElem?_eq_some_iff.1 hi).1
      obtain ⟨hg, hmo, _, hd, _⟩ := hw.state s hm
      have hs2 : s2 = { s with coeffs := s1.coeffs, comps := s2.comps } := by rw [f1, e1]
      have hg2 : s2.gaussians = m.gaussians := by rw [hs2]; exact hg
      have hd2 : s2.dim = m.dim := by rw [hs2]; exact hd
      have hr2 : s2.reg = s.reg := by rw [hs2]
      have hm2 : s2.mode = s.mode := by rw [hs2]
      have hc2 : s2.coeffs = s1.coeffs := by rw [hs2]
      obtain ⟨cs, k1, k2, k3⟩ := setCovs_ret s2 f2 P (w i) x (fun p hp => by rw [hd2]; exact hx p hp)
        (fun p hp c hc => h0 i hi' p hp c (by rw [← hg2]; exact hc)) (by rw [hd2]; exact f3)
        (by rw [hr2, hd2]; exact hrl s hm) (by rw [hr2, hd2]; exact hreg s hm)
      refine ⟨{ s2 with comps := cs }, by rw [← hg2]; exact k1, s, hi, ⟨by rw [hs2], ?_, ?_, ?_⟩, ⟨k2, ?_, ?_⟩, ?_, ?_⟩
      · intro c hc
        rw [hg] at hc ⊢
        show s2.coeffs.getD c 0 = _
        rw [hc2, e3, getD_map_range' _ _ _ hc]
      · intro c g' hg' k hk
        have := (k3 c g' hg').1
        rw [this, hd2, getD_map_range' _ _ _ (by rw [hd] at hk; exact hk)]
      · intro c g' hg' a ha b hb
        rw [hd, ← hd2] at ha hb
        rw [(k3 c g' hg').2.1 a ha b hb, hm2, hr2]
      · show IsDistribution s2.coeffs
        rw [hc2]; exact e2
      · intro g' hg'
        obtain ⟨c, hc, rfl⟩ := List.getElem_of_mem hg'
        have := (k3 c _ (List.getElem?_eq_getElem hc)).2.2
        exact ⟨this.1, this.2.1⟩
      · intro hb g' hg'
        obtain ⟨c, hc, rfl⟩ := List.getElem_of_mem hg'
        exact (k3 c _ (List.getElem?_eq_getElem hc)).2.2.2.2.2.2.1 hb
      · intro g' hg'
        obtain ⟨c, hc, rfl⟩ := List.getElem_of_mem hg'
        have := (k3 c _ (List.getElem?_eq_getElem hc)).2.2
        exact ⟨this.2.2.2.2.2.1, this.2.2.1, this.2.2.2.2.2.2⟩)
  have hl1 : l1.length = m.n := by rw [a2, hsl]
  have hl2 : l2.length = m.n := by rw [b2]; exact hl1
  refine ⟨l3, ?_, by rw [c2]; exact hl2, fun i s' hs' => ?_⟩
  · simp only [hl1] at b1
    simp only [hl2] at c1
    rw [hsl] at a1
    unfold estimateStates
    rw [bind_of_ret (get_def m), bind_of_ret a1, bind_of_ret b1]
    exact c1
  · obtain ⟨_, _, s, k⟩ := c3 i s' hs'
    exact ⟨s, k⟩

/-! ### Start and transition probabilities -/

theorem list_sum_swap {α : Type} (l : List α) (n : Nat) (f : α → Nat → K) :
    ∑ i ∈ Finset.range n, (l.map fun a => f a i).sum = (l.map fun a => ∑ i ∈ Finset.range n, f a i).sum := by
  induction l with
  | nil => simp
  | cons a l ih => simp only [List.map_cons, List.sum_cons, Finset.sum_add_distrib, ih]

/-- the start probabilities of an Ergodic model -/
theorem estimatePrior_ret (m0 m : Hmm K) (d : Nat → List K → Nat → K) (phrases : List (List (List K))) (es : List (EStep K))
    (hes : List.Forall₂ (fun fr e => e.Exact m0 d fr) phrases es) (hn : m.n = m0.n) (hne : phrases ≠ []) (hf : ∀ fr ∈ phrases, fr ≠ [])
    (h1 : ∀ fr ∈ phrases, ∑ i ∈ Finset.range m0.n, gammaOf m0 d fr 0 i = 1) :
    estimatePrior es m = .ret () { m with prior := (List.range m0.n).map fun i => (phrases.map fun fr => gammaOf m0 d fr 0 i).sum / (phrases.length : K) } := by
  have hc := collect_ret m.n (fun i => sumPhrases (σ := Hmm K) es (fun e => cell e.gamma 0 i))
    (fun i => (phrases.map fun fr => gammaOf m0 d fr 0 i).sum) m (by
      intro i hi
      refine sumPhrases_ret m0 d phrases es hes _ _ m fun fr hfr e he => ?_
      rw [he.gamma]
      exact cell_map_range _ _ _ 0 i (List.length_pos_iff.2 (hf fr hfr)) (by omega) m)
  have hsum : ((List.range m.n).map fun i => (phrases.map fun fr => gammaOf m0 d fr 0 i).sum).sum = (phrases.length : K) := by
    rw [sum_map_range, list_sum_swap, hn, List.map_congr_left h1]
    simp
  have hpos : (0 : K) < (phrases.length : K) := by
    have := List.length_pos_iff.2 hne
    exact_mod_cast this
  unfold estimatePrior
  rw [bind_of_ret (get_def m), bind_of_ret hc, hsum]
  simp only [hpos, if_true, set_def, List.map_map, hn]
  rfl

/-- a matrix stored row by row -/
theorem flatten_rows (w n : Nat) (r : Nat → List K) (hl : ∀ i < n, (r i).length = w) :
    (((List.range n).map r).flatten).length = n * w ∧
    ∀ i < n, ∀ j < w, (((List.range n).map r).flatten).getD (i * w + j) 0 = (r i).getD j 0 := by
  induction n with
  | zero => exact ⟨by simp, fun i hi => by omega⟩
  | succ n ih =>
    obtain ⟨i1, i2⟩ := ih fun i hi => hl i (by omega)
    rw [List.range_succ, List.map_append, List.flatten_append]
    have hlast : ([n].map r).flatten = r n := by simp
    rw [hlast]
    refine ⟨by rw [List.length_append, i1, hl n (by omega), Nat.succ_mul], fun i hi j hj => ?_⟩
    rw [List.getD_eq_getElem?_getD, List.getD_eq_getElem?_getD]
    by_cases hin : i = n
    · subst hin
      rw [List.getElem?_append_right (by rw [i1]; omega), i1]
      congr 2
      omega
    · have hlt : i * w + j < n * w := by
        have : (i + 1) * w ≤ n * w := Nat.mul_le_mul_right _ (by omega)
        rw [Nat.succ_mul] at this
        omega
      rw [List.getElem?_append_left (by rw [i1]; exact hlt)]
      have := i2 i (by omega) j hj
      rwa [List.getD_eq_getElem?_getD, List.getD_eq_getElem?_getD] at this

theorem sum_filled (phrases : List (List (List K))) (c : K) (f : List (List K) → K) (h0 : f [] = 0) :
    (phrases.map fun fr => if 0 < fr.length then c + f fr else 0).sum = (phrases.map f).sum + (filled phrases : K) * c := by
  unfold filled
  induction phrases with
  | nil => simp
  | cons fr phrases ih =>
    rw [List.map_cons, List.sum_cons, ih, List.map_cons, List.sum_cons, List.countP_cons]
    by_cases hne : fr = []
    · subst hne
      simp [h0]
    · rw [if_pos (List.length_pos_iff.2 hne), if_pos (by simpa using hne)]
      push_cast
      ring

end Hmm
end Xmm
