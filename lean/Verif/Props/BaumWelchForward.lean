import Verif.Lemmas.Posterior
import Verif.Props.HmmFilter
set_option linter.unusedSimpArgs false
set_option linter.unusedSectionVars false
/- The forward and backward algorithms over a phrase. -/
namespace Xmm
open Phrase (loop)
open Gauss (rd rd_lt)
open Prog (bind_def pure_def get_def set_def modify_def throw_def undef_def)
variable {K : Type} [Field K] [LinearOrder K]

theorem collect_ret {σ α : Type} (n : Nat) (f : Nat → Prog σ α) (v : Nat → α) (s : σ) (h : ∀ i < n, f i s = .ret (v i) s) :
    collect n f s = .ret ((List.range n).map v) s := by
  obtain ⟨a, h1, h2⟩ := loop_inv n ([] : List α) (fun acc i => do
    let x ← f i
    pure (acc ++ [x])) s (fun k a => a = (List.range k).map v) (by simp) (by
      rintro k hk a rfl
      refine ⟨_, ?_, (by rw [List.range_succ, List.map_append]; rfl : (List.range k).map v ++ [v k] = _)⟩
      rw [bind_of_ret (h k hk), pure_def])
  unfold collect
  rw [h1, h2]

theorem sumTo_ret {σ : Type} (n : Nat) (f : Nat → Prog σ K) (v : Nat → K) (s : σ) (h : ∀ i < n, f i s = .ret (v i) s) :
    sumTo n f s = .ret (∑ i ∈ Finset.range n, v i) s := by
  obtain ⟨a, h1, h2⟩ := loop_inv n (0 : K) (fun acc i => do
    let x ← f i
    pure (acc + x)) s (fun k a => a = ∑ i ∈ Finset.range k, v i) (by simp) (by
      rintro k hk a rfl
      refine ⟨_, ?_, (Finset.sum_range_succ _ _).symm⟩
      rw [bind_of_ret (h k hk), pure_def])
  unfold sumTo
  rw [h1, h2]

theorem rd_map_range {σ α : Type} (n : Nat) (f : Nat → α) (i : Nat) (hi : i < n) (s : σ) : rd ((List.range n).map f) i s = .ret (f i) s := by
  simp [rd, hi, pure_def]

theorem cell_map_range {σ : Type} (T n : Nat) (f : Nat → Nat → K) (t i : Nat) (ht : t < T) (hi : i < n) (s : σ) :
    cell ((List.range T).map fun t => (List.range n).map (f t)) t i s = .ret (f t i) s := by
  unfold cell
  rw [bind_of_ret (rd_map_range T _ t ht s), rd_map_range n _ i hi s]

namespace Hmm
variable [IsStrictOrderedRing K]
open HmmSpec GmmSpec RecSpec Gmm

theorem frameLik_ret {σ : Type} (D : Dens K) (m : Hmm K) (hm : m.WF) (hr : ∀ s ∈ m.sts, s.Ready) (frames : List (List K))
    (d : Nat → List K → Nat → K) (hd : Observes D m frames d) (x : List K) (hx : x ∈ frames) (i : Nat) (hi : i < m.n) (t : σ) :
    frameLik D m x i t = .ret (likOf m d x i) t := by
  have hi' : i < m.sts.length := by rw [hm.sts]; exact hi
  have hs := List.getElem?_eq_getElem hi'
  have hmem := List.getElem_mem hi'
  unfold frameLik
  rw [bind_of_ret (rd_some hs t), obsProbSum_ret _ _ _ t (fun c hc => frameProb_ret D _ (hr _ hmem).wf frames (d i) (hd i _ hs) x hx c hc t)]
  rw [(hm.state _ hmem).1]
  simp only [likOf, mixture, coeff, hs, Option.map_some, Option.getD_some]

theorem obsMatrix_ret {σ : Type} (D : Dens K) (m : Hmm K) (hm : m.WF) (hr : ∀ s ∈ m.sts, s.Ready) (frames : List (List K))
    (d : Nat → List K → Nat → K) (hd : Observes D m frames d) (s : σ) :
    obsMatrix D m frames s = .ret ((List.range frames.length).map fun t => (List.range m.n).map (likAt m d frames t)) s := by
  unfold obsMatrix
  refine collect_ret _ _ _ s fun t ht => ?_
  rw [bind_of_ret (rd_lt ht [] s)]
  refine collect_ret _ _ _ s fun i hi => ?_
  refine frameLik_ret D m hm hr frames d hd _ ?_ i hi s
  rw [List.getD_eq_getElem?_getD, List.getElem?_eq_getElem ht]
  exact List.getElem_mem ht

/-- the densities exist and the likelihoods of the frames are not negligible -/
theorem observes_exist (D : Dens K) (hD : D.Sound) (m : Hmm K) (hm : m.WF) (hr : ∀ s ∈ m.sts, s.Ready) (frames : List (List K))
    (hf : ∀ x ∈ frames, x.length = m.dim) :
    ∃ d, Observes D m frames d ∧ ∀ x ∈ frames, ∀ i < m.n, ∀ c < m.gaussians, 1 / 10 ^ 180 ≤ d i x c := by
  classical
  have key : ∀ i : Nat, ∃ d : List K → Nat → K, ∀ s, m.sts[i]? = some s → Densities D s frames d ∧
      ∀ x ∈ frames, ∀ c < m.gaussians, 1 / 10 ^ 180 ≤ d x c := by
    intro i
    cases hs : m.sts[i]? with
    | none => exact ⟨fun _ _ => 0, fun s h => by simp at h⟩
    | some s =>
      have hmem := List.mem_of_getElem? hs
      obtain ⟨e1, _, _, e4, _⟩ := hm.state s hmem
      obtain ⟨d, h1, _⟩ := densities_exist D hD s (hr s hmem) frames (fun x hx => by rw [hf x hx, e4])
      refine ⟨d, fun s' h => ?_⟩
      cases h
      refine ⟨h1, fun x hx c hc => ?_⟩
      have hrs := hr s hmem
      obtain ⟨g, hg, hg'⟩ := getElem_comp hrs.wf (by rw [e1]; exact hc)
      obtain ⟨w, hd1, hd2, _, b⟩ := hrs.wf.comp g hg
      have hdet := (hrs.det g hg).1
      have hl := hf x hx
      have hx1 := h1 x hx c g hg'
      rcases bool_cases s.bimodal with hb | hb
      · obtain ⟨p, q1, q2⟩ := hD.joint g w x (by omega) hdet
        simp only [hb, Bool.false_eq_true, if_false, q1] at hx1
        cases hx1; exact q2
      · have hle := w.le (b.trans hb)
        obtain ⟨p, q1, q2⟩ := hD.bimodal g w (b.trans hb) (x.take s.di) (x.drop s.di) (by simp; omega) (by simp; omega) hdet
        simp only [hb, if_true, q1] at hx1
        cases hx1; exact q2
  choose d hd using key
  refine ⟨d, fun i s hs => (hd i s hs).1, fun x hx i hi c hc => ?_⟩
  have hi' : i < m.sts.length := by rw [hm.sts]; exact hi
  exact (hd i _ (List.getElem?_eq_getElem hi')).2 x hx c hc

theorem likOf_ge (m : Hmm K) (hm : m.WF) (hr : ∀ s ∈ m.sts, s.Ready) (d : Nat → List K → Nat → K) (x : List K) (i : Nat) (hi : i < m.n)
    (hd : ∀ c < m.gaussians, 1 / 10 ^ 180 ≤ d i x c) : 1 / 10 ^ 180 ≤ likOf m d x i := by
  have hi' : i < m.sts.length := by rw [hm.sts]; exact hi
  have hs := List.getElem?_eq_getElem hi'
  have hmem := List.getElem_mem hi'
  have := mixture_ge (hr _ hmem) (d := d i x) (e := 1 / 10 ^ 180) (by rw [(hm.state _ hmem).1]; exact hd)
  rw [(hm.state _ hmem).1] at this
  unfold likOf
  rw [show coeff m i = weights m.sts[i] from by funext c; simp [coeff, hs]]
  exact this

end Hmm

namespace HmmSpec
variable [IsStrictOrderedRing K] {n : Nat} {π : Nat → K} {A : Nat → Nat → K} {b : Nat → Nat → K}

theorem endingIn_nonneg (T : Nat) (hπ : ∀ i < n, 0 ≤ π i) (hA : ∀ i < n, ∀ j < n, 0 ≤ A i j) (hb : ∀ t ≤ T, ∀ i < n, 0 ≤ b t i)
    (j : Nat) (hj : j < n) : 0 ≤ endingIn n π A b T j := by
  induction T generalizing j with
  | zero => rw [endingIn_zero n π A b j hj]; exact mul_nonneg (hπ j hj) (hb 0 le_rfl j hj)
  | succ T ih =>
    rw [endingIn_succ n π A b T j hj]
    refine mul_nonneg (Finset.sum_nonneg fun i hi => ?_) (hb _ le_rfl j hj)
    exact mul_nonneg (ih (fun t ht => hb t (by omega)) i (Finset.mem_range.1 hi)) (hA i (Finset.mem_range.1 hi) j hj)

theorem total_zero_ge {e : K} (hπ : ∀ i < n, 0 ≤ π i) (hs : ∑ i ∈ Finset.range n, π i = 1) (hb : ∀ i < n, e ≤ b 0 i) :
    e ≤ total n π A b 0 := by
  rw [total_eq_sum]
  calc e = ∑ i ∈ Finset.range n, π i * e := by rw [← Finset.sum_mul, hs, one_mul]
    _ ≤ _ := Finset.sum_le_sum fun i hi => by
      rw [endingIn_zero n π A b i (Finset.mem_range.1 hi)]
      exact mul_le_mul_of_nonneg_left (hb i (Finset.mem_range.1 hi)) (hπ i (Finset.mem_range.1 hi))

theorem total_succ_eq (T : Nat) : total n π A b (T + 1) =
    ∑ j ∈ Finset.range n, (∑ i ∈ Finset.range n, endingIn n π A b T i * A i j) * b (T + 1) j := by
  rw [total_eq_sum]
  exact Finset.sum_congr rfl fun j hj => endingIn_succ n π A b T j (Finset.mem_range.1 hj)

theorem total_succ_ge {e a : K} (he : 0 ≤ e) (T : Nat) (hE : ∀ i < n, 0 ≤ endingIn n π A b T i) (hA : ∀ i < n, ∀ j < n, 0 ≤ A i j)
    (hs : ∀ i < n, a ≤ ∑ j ∈ Finset.range n, A i j) (hb : ∀ i < n, e ≤ b (T + 1) i) :
    e * a * total n π A b T ≤ total n π A b (T + 1) := by
  rw [total_succ_eq, total_eq_sum]
  calc e * a * ∑ i ∈ Finset.range n, endingIn n π A b T i = (∑ i ∈ Finset.range n, endingIn n π A b T i * a) * e := by
          rw [← Finset.sum_mul]; ring
    _ ≤ (∑ i ∈ Finset.range n, endingIn n π A b T i * ∑ j ∈ Finset.range n, A i j) * e := by
          refine mul_le_mul_of_nonneg_right (Finset.sum_le_sum fun i hi => ?_) he
          exact mul_le_mul_of_nonneg_left (hs i (Finset.mem_range.1 hi)) (hE i (Finset.mem_range.1 hi))
    _ = ∑ j ∈ Finset.range n, (∑ i ∈ Finset.range n, endingIn n π A b T i * A i j) * e := by
          rw [← Finset.sum_mul, Finset.sum_comm]
          congr 1
          exact Finset.sum_congr rfl fun i _ => Finset.mul_sum _ _ _
    _ ≤ _ := Finset.sum_le_sum fun j hj => mul_le_mul_of_nonneg_left (hb j (Finset.mem_range.1 hj))
          (Finset.sum_nonneg fun i hi => mul_nonneg (hE i (Finset.mem_range.1 hi)) (hA i (Finset.mem_range.1 hi) j (Finset.mem_range.1 hj)))

end HmmSpec

namespace Hmm
variable [IsStrictOrderedRing K]
open HmmSpec GmmSpec RecSpec Gmm

/-- the model with other values of the forward and backward variables -/
def scratch (m : Hmm K) (a p b q : List K) : Hmm K := { m with alpha := a, prevAlpha := p, beta := b, prevBeta := q }

theorem scratch_wf {m : Hmm K} (hw : m.WF) (a p b q : List K) : (m.scratch a p b q).WF := ⟨hw.pos, hw.sts, hw.prior, hw.trans, hw.state⟩

/-- likelihood of the observations before number `t` -/
def before (m : Hmm K) (b : Nat → Nat → K) : Nat → K
  | 0 => 1
  | t + 1 => total m.n (start m) (step m) b t

/-- the scaling factor of observation `t` -/
def scale (m : Hmm K) (b : Nat → Nat → K) (t : Nat) : K := before m b t / total m.n (start m) (step m) b t

/-- the forward variable -/
def fwdRow (m : Hmm K) (b : Nat → Nat → K) (t : Nat) : List K :=
  (List.range m.n).map fun i => endingIn m.n (start m) (step m) b t i / total m.n (start m) (step m) b t

/-- the backward variable for observations up to number `T` -/
def bwdRow (m : Hmm K) (b : Nat → Nat → K) (T t : Nat) : List K :=
  (List.range m.n).map fun i => before m b t / total m.n (start m) (step m) b T * onward m.n (step m) b t (T - t) i

theorem forwardPass_ret (D : Dens K) (log : K → K) (m : Hmm K) (hm : m.InTraining) (frames : List (List K)) (hne : frames ≠ [])
    (d : Nat → List K → Nat → K) (hd : Observes D m frames d)
    (h0 : 0 < total m.n (start m) (step m) (likAt m d frames) 0)
    (hs : ∀ t, t + 1 < frames.length → 0 < total m.n (start m) (step m) (likAt m d frames) t ∧
      1 / 10 ^ 300 * total m.n (start m) (step m) (likAt m d frames) t < total m.n (start m) (step m) (likAt m d frames) (t + 1)) :
    ∃ a p, a.length = m.n ∧ forwardPass D log frames ((List.range frames.length).map fun t => (List.range m.n).map (likAt m d frames t)) m =
      .ret ((List.range frames.length).map (scale m (likAt m d frames)), (List.range frames.length).map (fwdRow m (likAt m d frames)),
        - ∑ t ∈ Finset.range frames.length, log (scale m (likAt m d frames) t)) (m.scratch a p m.beta m.prevBeta) := by
  have hlen : 0 < frames.length := List.length_pos_iff.2 hne
  generalize hb : likAt m d frames = b at *
  have hmem : ∀ t, t < frames.length → frames.getD t [] ∈ frames := fun t ht => by
    rw [List.getD_eq_getElem?_getD, List.getElem?_eq_getElem ht]; exact List.getElem_mem ht
  have hlik : ∀ t i, b t i = likOf m d (frames.getD t []) i := fun t i => by rw [← hb]; rfl
  unfold forwardPass
  rw [bind_of_ret (rd_lt hlen [] m)]
  have hreads : Reads m (fun i => do
      let m ← Prog.get
      frameLik D m (frames.getD 0 []) i) (b 0) := by
    intro s hs _ i hi
    have : frameLik (σ := Hmm K) D s (frames.getD 0 []) i = frameLik D m (frames.getD 0 []) i := by unfold frameLik; rw [hs]
    show ((Prog.get : Prog (Hmm K) (Hmm K)) >>= fun m => frameLik D m (frames.getD 0 []) i) s = _
    rw [bind_of_ret (get_def s), this, frameLik_ret D m hm.wf hm.ready frames d hd _ (hmem 0 hlen) i hi s, hlik]
  have hz0 : ∑ i ∈ Finset.range m.n, start m i * b 0 i = total m.n (start m) (step m) b 0 := by
    rw [total_eq_sum]
    exact Finset.sum_congr rfl fun i hi => (endingIn_zero _ _ _ _ i (Finset.mem_range.1 hi)).symm
  rw [bind_of_ret (forwardInit_ret m hm.wf (fun _ => hm.alpha) _ (b 0) hreads (by rw [hz0]; exact h0)), bind_of_ret (get_def _), hz0]
  have hrow0 : ((List.range m.n).map fun i => start m i * b 0 i / total m.n (start m) (step m) b 0) = fwdRow m b 0 := by
    unfold fwdRow
    refine List.map_congr_left fun i hi => ?_
    rw [endingIn_zero _ _ _ _ i (List.mem_range.1 hi)]
  rw [hrow0]
  obtain ⟨a, s, h1, p, h2, h3⟩ := loop_state (frames.length - 1) ([scale m b 0], [fwdRow m b 0], - log (scale m b 0)) (fun acc k => do
      let row ← rd ((List.range frames.length).map fun t => (List.range m.n).map (b t)) (k + 1)
      let c ← forwardUpdate (fun j => rd row j)
      let m ← Prog.get
      pure (acc.1 ++ [c], acc.2.1 ++ [m.alpha], acc.2.2 - log c)) (m.scratch (fwdRow m b 0) m.prevAlpha m.beta m.prevBeta)
    (fun k acc s => ∃ p, s = m.scratch (fwdRow m b k) p m.beta m.prevBeta ∧
      acc = ((List.range (k + 1)).map (scale m b), (List.range (k + 1)).map (fwdRow m b), - ∑ t ∈ Finset.range (k + 1), log (scale m b t)))
    ⟨_, rfl, by simp⟩ (by
      rintro k hk acc s ⟨p, rfl, rfl⟩
      obtain ⟨g1, g2⟩ := hs k (by omega)
      have hzk : ∑ j ∈ Finset.range m.n, (∑ i ∈ Finset.range m.n, (fwdRow m b k).getD i 0 * step m i j) * b (k + 1) j =
          total m.n (start m) (step m) b (k + 1) / total m.n (start m) (step m) b k := by
        rw [total_succ_eq, Finset.sum_div]
        refine Finset.sum_congr rfl fun j _ => ?_
        rw [mul_div_right_comm, Finset.sum_div]
        congr 1
        refine Finset.sum_congr rfl fun i hi => ?_
        unfold fwdRow
        rw [getD_map_range' _ _ _ (Finset.mem_range.1 hi)]; ring
      have hu := forwardUpdate_ret (m.scratch (fwdRow m b k) p m.beta m.prevBeta) (scratch_wf hm.wf _ _ _ _)
        (by simp [scratch, fwdRow]) (fun j => rd ((List.range m.n).map (b (k + 1))) j) (b (k + 1))
        (fun s _ _ i hi => rd_map_range m.n _ i hi s) (by
          have e : 1 / 10 ^ 300 < total m.n (start m) (step m) b (k + 1) / total m.n (start m) (step m) b k := by
            rw [lt_div_iff₀ g1]; exact g2
          rw [← hzk] at e; exact e)
      have e1 : (1 : K) / (∑ j ∈ Finset.range m.n, (∑ i ∈ Finset.range m.n, (fwdRow m b k).getD i 0 * step m i j) * b (k + 1) j) =
          scale m b (k + 1) := by rw [hzk, one_div_div]; rfl
      have e2 : ((List.range m.n).map fun j => (∑ i ∈ Finset.range m.n, (fwdRow m b k).getD i 0 * step m i j) * b (k + 1) j /
          ∑ j ∈ Finset.range m.n, (∑ i ∈ Finset.range m.n, (fwdRow m b k).getD i 0 * step m i j) * b (k + 1) j) = fwdRow m b (k + 1) := by
        rw [hzk]
        unfold fwdRow
        refine List.map_congr_left fun j hj => ?_
        have e3 : ∑ i ∈ Finset.range m.n, (fwdRow m b k).getD i 0 * step m i j =
            (∑ i ∈ Finset.range m.n, endingIn m.n (start m) (step m) b k i * step m i j) / total m.n (start m) (step m) b k := by
          rw [Finset.sum_div]
          refine Finset.sum_congr rfl fun i hi => ?_
          unfold fwdRow
          rw [getD_map_range' _ _ _ (Finset.mem_range.1 hi)]; ring
        rw [endingIn_succ _ _ _ _ _ j (List.mem_range.1 hj)]
        have := e3
        unfold fwdRow at this
        rw [this, div_mul_eq_mul_div, div_div_div_cancel_right₀ g1.ne']
      have hu' : forwardUpdate (fun j => rd ((List.range m.n).map (b (k + 1))) j) (m.scratch (fwdRow m b k) p m.beta m.prevBeta) =
          .ret (scale m b (k + 1)) (m.scratch (fwdRow m b (k + 1)) (fwdRow m b k) m.beta m.prevBeta) := by
        rw [← e1, ← e2]; exact hu
      refine ⟨((List.range (k + 2)).map (scale m b), (List.range (k + 2)).map (fwdRow m b), - ∑ t ∈ Finset.range (k + 2), log (scale m b t)),
        m.scratch (fwdRow m b (k + 1)) (fwdRow m b k) m.beta m.prevBeta, ?_, _, rfl, rfl⟩
      rw [bind_of_ret (rd_map_range _ _ _ (by omega) _), bind_of_ret hu', bind_of_ret (get_def _), pure_def]
      congr 1
      rw [List.range_succ (n := k + 1), List.map_append, List.map_append, Finset.sum_range_succ _ (k + 1), neg_add, ← sub_eq_add_neg]
      rfl)
  refine ⟨fwdRow m b (frames.length - 1), p, by simp [fwdRow], ?_⟩
  rw [h2, h3, show frames.length - 1 + 1 = frames.length by omega] at h1
  exact h1

theorem setBeta_ret (m : Hmm K) (i : Nat) (x : K) (h : i < m.beta.length) :
    setBeta i x m = .ret () { m with beta := m.beta.set i x } := by
  unfold setBeta
  rw [bind_of_ret (get_def m), bind_of_ret (rd_lt h 0 m), set_def]

theorem backwardInit_ret (m : Hmm K) (h : m.beta.length = m.n) (ct : K) :
    backwardInit ct m = .ret () { m with beta := (List.range m.n).map fun _ => ct } := by
  unfold backwardInit
  rw [bind_of_ret (get_def m)]
  exact loop_fill (fun l => ({ m with beta := l } : Hmm K)) m.n m.beta h (fun _ => ct) (fun i => setBeta i ct) (by
    intro t ht l hl _ _
    rw [setBeta_ret _ _ _ (show t < l.length by omega)])

theorem backStep_ret (m : Hmm K) (hw : m.WF) (hl : m.ergodic = false → m.trans.getD (m.n * 2 - 1) 0 = 0) (hp : m.prevBeta.length = m.n)
    (p : Nat → Prog (Hmm K) K) (b : Nat → K) (s : Hmm K) (hr : ∀ i < m.n, p i s = .ret (b i) s) (i : Nat) (hi : i < m.n) :
    backStep p m i s = .ret (∑ j ∈ Finset.range m.n, step m i j * b j * m.prevBeta.getD j 0) s := by
  unfold backStep
  have ht := hw.trans
  rcases bool_cases m.ergodic with h | h
  · simp only [h, Bool.false_eq_true, if_false] at ht ⊢
    have hstep : ∀ j, step m i j = (if j = i then m.trans.getD (i * 2) 0 else 0) +
        (if j = (i + 1) % m.n then m.trans.getD (i * 2 + 1) 0 else 0) := fun j => by simp [step, h]
    rw [bind_of_ret (rd_lt (by omega) 0 s), bind_of_ret (rd_lt (by omega) 0 s), bind_of_ret (hr i hi)]
    have hsum : ∑ j ∈ Finset.range m.n, step m i j * b j * m.prevBeta.getD j 0 =
        m.trans.getD (i * 2) 0 * b i * m.prevBeta.getD i 0 +
        m.trans.getD (i * 2 + 1) 0 * b ((i + 1) % m.n) * m.prevBeta.getD ((i + 1) % m.n) 0 := by
      simp only [hstep, add_mul, Finset.sum_add_distrib, ite_mul, zero_mul]
      rw [Finset.sum_ite_eq', Finset.sum_ite_eq', if_pos (Finset.mem_range.2 hi),
        if_pos (Finset.mem_range.2 (Nat.mod_lt _ (by omega)))]
    rw [hsum]
    by_cases hlt : i < m.n - 1
    · rw [if_pos hlt, bind_of_ret (rd_lt (by omega) 0 s), bind_of_ret (rd_lt (by omega) 0 s), bind_of_ret (hr (i + 1) (by omega)), pure_def,
        Nat.mod_eq_of_lt (by omega)]
      congr 1; ring
    · rw [if_neg hlt, pure_def, show i * 2 + 1 = m.n * 2 - 1 by omega, hl h]
      congr 1; ring
  · simp only [h, if_true] at ht ⊢
    obtain ⟨a, h1, h2⟩ := loop_inv m.n (0 : K) (fun acc j => do
      let t ← rd m.trans (i * m.n + j)
      let b ← rd m.prevBeta j
      let o ← p j
      pure (acc + t * b * o)) s (fun k a => a = ∑ j ∈ Finset.range k, step m i j * b j * m.prevBeta.getD j 0) (by simp) (by
        rintro k hk a rfl
        refine ⟨_, ?_, (Finset.sum_range_succ _ _).symm⟩
        have : i * m.n + k < m.n * m.n := by nlinarith
        rw [bind_of_ret (rd_lt (by omega) 0 s), bind_of_ret (rd_lt (by omega) 0 s), bind_of_ret (hr k hk), pure_def]
        congr 1
        simp only [step, h, if_true]
        ring)
    rw [h1, h2]

theorem backwardUpdate_ret (m : Hmm K) (hw : m.WF) (hl : m.ergodic = false → m.trans.getD (m.n * 2 - 1) 0 = 0) (hp : m.beta.length = m.n)
    (ct : K) (p : Nat → Prog (Hmm K) K) (b : Nat → K) (hr : ∀ s, ∀ i < m.n, p i s = .ret (b i) s) :
    backwardUpdate ct p m = .ret () { m with
      prevBeta := m.beta
      beta := (List.range m.n).map fun i => (∑ j ∈ Finset.range m.n, step m i j * b j * m.beta.getD j 0) * ct } := by
  unfold backwardUpdate
  rw [bind_of_ret (modify_def _ _), bind_of_ret (get_def _)]
  exact loop_fill (fun l => ({ m with prevBeta := m.beta, beta := l } : Hmm K)) m.n m.beta hp
    (fun i => (∑ j ∈ Finset.range m.n, step m i j * b j * m.beta.getD j 0) * ct) (fun i => do
      let v ← backStep p { m with prevBeta := m.beta } i
      setBeta i (v * ct)) (by
    intro t ht l hl' _ _
    have := backStep_ret ({ m with prevBeta := m.beta } : Hmm K) ⟨hw.pos, hw.sts, hw.prior, hw.trans, hw.state⟩ hl hp p b
      ({ m with prevBeta := m.beta, beta := l } : Hmm K) (fun i hi => hr _ i hi) t ht
    rw [bind_of_ret this, setBeta_ret _ _ _ (show t < l.length by omega)]
    rfl)

theorem backwardPass_ret (m : Hmm K) (hm : m.InTraining) (a p : List K) (b : Nat → Nat → K) (T : Nat)
    (hpos : ∀ t ≤ T, total m.n (start m) (step m) b t ≠ 0) :
    ∃ be q, be.length = m.n ∧ backwardPass (T + 1) ((List.range (T + 1)).map fun t => (List.range m.n).map (b t))
      ((List.range (T + 1)).map (scale m b)) (m.scratch a p m.beta m.prevBeta) =
      .ret ((List.range (T + 1)).map (bwdRow m b T)) (m.scratch a p be q) := by
  unfold backwardPass
  rw [bind_of_ret (rd_map_range (T + 1) _ (T + 1 - 1) (by omega) _), Nat.add_sub_cancel,
    bind_of_ret (backwardInit_ret (m.scratch a p m.beta m.prevBeta) hm.beta _), bind_of_ret (get_def _)]
  have hrow : ((List.range m.n).map fun _ => scale m b T) = bwdRow m b T T := by
    unfold bwdRow
    simp [onward, scale]
  obtain ⟨acc, s, h1, q, h2, h3⟩ := loop_state T [bwdRow m b T T] (fun acc k => do
      let row ← rd ((List.range (T + 1)).map fun t => (List.range m.n).map (b t)) (T + 1 - 2 - k + 1)
      let c ← rd ((List.range (T + 1)).map (scale m b)) (T + 1 - 2 - k)
      backwardUpdate c (fun j => rd row j)
      let m ← Prog.get
      pure (m.beta :: acc)) (m.scratch a p (bwdRow m b T T) m.prevBeta)
    (fun k acc s => ∃ q, s = m.scratch a p (bwdRow m b T (T - k)) q ∧ acc = (List.range (k + 1)).map fun r => bwdRow m b T (T - k + r))
    ⟨_, rfl, by simp⟩ (by
      rintro k hk acc s ⟨q, rfl, rfl⟩
      refine ⟨(List.range (k + 2)).map fun r => bwdRow m b T (T - (k + 1) + r), m.scratch a p (bwdRow m b T (T - (k + 1))) (bwdRow m b T (T - k)),
        ?_, _, rfl, rfl⟩
      have hu := backwardUpdate_ret (m.scratch a p (bwdRow m b T (T - k)) q) (scratch_wf hm.wf _ _ _ _) hm.last (by simp [scratch, bwdRow])
        (scale m b (T - (k + 1))) (fun j => rd ((List.range m.n).map (b (T - k))) j) (b (T - k)) (fun s i hi => rd_map_range m.n _ i hi s)
      have e : ((List.range m.n).map fun i => (∑ j ∈ Finset.range m.n, step m i j * b (T - k) j * (bwdRow m b T (T - k)).getD j 0) *
          scale m b (T - (k + 1))) = bwdRow m b T (T - (k + 1)) := by
        unfold bwdRow
        refine List.map_congr_left fun i _ => ?_
        have h0 := hpos (T - (k + 1)) (by omega)
        rw [show T - (T - (k + 1)) = T - (T - k) + 1 by omega, onward, Finset.mul_sum, Finset.sum_mul, show T - (k + 1) + 1 = T - k by omega]
        refine Finset.sum_congr rfl fun j hj => ?_
        rw [getD_map_range' _ _ _ (Finset.mem_range.1 hj)]
        have hb : before m b (T - k) = total m.n (start m) (step m) b (T - (k + 1)) := by
          rw [show T - k = T - (k + 1) + 1 by omega]; rfl
        rw [hb]
        unfold scale
        field_simp
      have hu' : backwardUpdate (scale m b (T - (k + 1))) (fun j => rd ((List.range m.n).map (b (T - k))) j)
          (m.scratch a p (bwdRow m b T (T - k)) q) = .ret () (m.scratch a p (bwdRow m b T (T - (k + 1))) (bwdRow m b T (T - k))) := by
        rw [← e]; exact hu
      rw [bind_of_ret (rd_map_range _ _ _ (by omega) _), bind_of_ret (rd_map_range _ _ _ (by omega) _)]
      simp only [show T + 1 - 2 - k = T - (k + 1) by omega, show T - (k + 1) + 1 = T - k by omega]
      rw [bind_of_ret hu', bind_of_ret (get_def _), pure_def]
      congr 1
      rw [List.range_succ_eq_map (n := k + 1), List.map_cons, List.map_map, Nat.add_zero]
      refine congrArg (List.cons _) ?_
      refine List.map_congr_left fun r _ => ?_
      simp only [Function.comp_apply, Nat.succ_eq_add_one]
      congr 1
      omega)
  refine ⟨bwdRow m b T (T - T), q, by simp [bwdRow], ?_⟩
  rw [h2, h3] at h1
  simp only [Nat.sub_self, Nat.zero_add] at h1 ⊢
  rw [← hrow] at h1
  exact h1

end Hmm
end Xmm
