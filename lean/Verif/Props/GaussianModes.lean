import Verif.Props.GaussianUpdate
set_option linter.unusedSimpArgs false
set_option linter.unusedSectionVars false
/- C30 (covariance modes) and C59 (conditional covariance). -/
namespace Xmm
open Gauss Phrase
variable {K : Type} [Field K] [LinearOrder K] [IsStrictOrderedRing K]

theorem sigma_covAt (g : Gauss K) (i j : Fin g.dim) : g.sigma i j = g.covAt i.val j.val := by
  rcases mode_cases g with hm | hm
  · simp [sigma, covAt, hm, matOf]
  · simp [sigma, covAt, hm, vecOf, Matrix.diagonal_apply, Fin.ext_iff]

theorem sigmaIn_covAt (g : Gauss K) (hle : g.di ≤ g.dim) (i j : Fin g.di) : g.sigmaIn hle i j = g.covAt i.val j.val :=
  sigma_covAt g _ _

theorem diag_if {n : Nat} (f : Nat → K) (i j : Fin n) :
    (if i.val = j.val then f i.val else 0) = Matrix.diagonal (fun i : Fin n => f i.val) i j := by
  simp [Matrix.diagonal_apply, Fin.ext_iff]

/-! ## C30 -/

/-- the distribution after the copy of the diagonal, before the inverse is updated -/
def dropped (g : Gauss K) : Gauss K :=
  { g with mode := .diagonal, cov := (List.range g.dim).map fun d => g.cov.getD (d * g.dim + d) 0, inv := resize g.dim g.inv,
           invIn := if g.bimodal then resize g.di g.invIn else g.invIn }

/-- the distribution after the diagonal has been spread, before the inverse is updated -/
def spread (g : Gauss K) : Gauss K :=
  { g with mode := .full,
           cov := List.ofFn (Flat.fill g.dim g.dim fun i j =>
             if i = j then ((List.range g.dim).map fun d => g.cov.getD d 0).getD i 0 else 0),
           inv := resize (g.dim * g.dim) g.inv,
           invIn := if g.bimodal then resize (g.di * g.di) g.invIn else g.invIn }

theorem setMode_diagonal_eq (g : Gauss K) (hw : g.WF) (hm : g.mode = .full) :
    setMode .diagonal g = (updateInverseCovariance >>= fun _ => updateOutputIfBimodal) (dropped g) := by
  have hc : g.cov.length = g.dim * g.dim := by have := hw.cov; rw [hm] at this; exact this
  have hr : ∀ s : Gauss K, (List.range g.dim).mapM (fun d => rd g.cov (d * g.dim + d)) s =
      .ret ((List.range g.dim).map fun d => g.cov.getD (d * g.dim + d) 0) s := fun s =>
    prog_mapM_ret _ _ _ _ fun d hd => rd_lt (by have := List.mem_range.1 hd; rw [hc]; exact flat_lt this this) 0 s
  simp only [setMode, toDiagonal, Prog.bind_def, Prog.modify_def, Prog.get_def, hr, Prog.set_def]
  rfl

theorem setMode_full_eq (g : Gauss K) (hl : g.dim ≤ g.cov.length) :
    setMode .full g = (updateInverseCovariance >>= fun _ => updateOutputIfBimodal) (spread g) := by
  have hr : ∀ s : Gauss K, (List.range g.dim).mapM (fun d => rd g.cov d) s =
      .ret ((List.range g.dim).map fun d => g.cov.getD d 0) s := fun s =>
    prog_mapM_ret _ _ _ _ fun d hd => rd_lt (by have := List.mem_range.1 hd; omega) 0 s
  simp only [setMode, toFull, Prog.bind_def, Prog.modify_def, Prog.get_def, hr, Prog.set_def]
  rfl

theorem dropped_wf (g : Gauss K) (hw : g.WF) : (dropped g).WF :=
  ⟨hw.mean, by simp [dropped], by simp [dropped, resize_length],
    fun hb => by have hb' : g.bimodal = true := hb; simp [dropped, hb', resize_length], hw.le⟩

theorem spread_wf (g : Gauss K) (hw : g.WF) : (spread g).WF :=
  ⟨hw.mean, by simp [spread], by simp [spread, resize_length],
    fun hb => by have hb' : g.bimodal = true := hb; simp [spread, hb', resize_length], hw.le⟩

theorem getD_range_map (f : Nat → K) {n i : Nat} (hi : i < n) : ((List.range n).map f).getD i 0 = f i := by
  simp [List.getD_eq_getElem?_getD, hi]

theorem dropped_covAt (g : Gauss K) (hm : g.mode = .full) (i j : Nat) (hi : i < g.dim) :
    (dropped g).covAt i j = if i = j then g.covAt i i else 0 := by
  have e : (dropped g).covAt i j = if i = j then (dropped g).cov.getD i 0 else 0 := rfl
  have e2 : (dropped g).cov.getD i 0 = g.cov.getD (i * g.dim + i) 0 := getD_range_map _ hi
  rw [e, e2]
  simp only [covAt, hm]

theorem spread_covAt (g : Gauss K) (i j : Nat) (hi : i < g.dim) (hj : j < g.dim) :
    (spread g).covAt i j = if i = j then g.cov.getD i 0 else 0 := by
  have e : (spread g).covAt i j = (cells ⟨g.dim, g.dim, Flat.fill g.dim g.dim fun i j =>
      if i = j then ((List.range g.dim).map fun d => g.cov.getD d 0).getD i 0 else 0⟩).getD (i * g.dim + j) 0 := rfl
  rw [e, cells_getD _ ⟨i, hi⟩ ⟨j, hj⟩, Flat.at_fill]
  simp only [Fin.ext_iff]
  by_cases h : i = j
  · subst h; simp only [if_true]; exact getD_range_map _ hi
  · simp [h]

/-- the two updates that end a mode change -/
theorem update_twice (g g' : Gauss K) (hw : g.WF)
    (h : (updateInverseCovariance >>= fun _ => updateOutputIfBimodal) g = .ret () g') : Inverted g g' := by
  obtain ⟨u, g1, h1, h2⟩ := bind_ret h
  obtain ⟨a, b, c, d, e⟩ := C31_inverse g g1 hw h1
  exact Inverted.output ⟨a, b, c, d, e⟩ h2

theorem covAt_same {g g' : Gauss K} (h : SameParams g g') (i j : Nat) : g'.covAt i j = g.covAt i j := by
  simp only [covAt, h.mode, h.cov, h.dim]

/-- C30 (Full to Diagonal): if the change returns, the distribution is in Diagonal mode, its covariance is the diagonal of the
    covariance it had, its dimensions and mean are unchanged and its inverse is the inverse of the new covariance. -/
theorem C30_full_to_diagonal (g g' : Gauss K) (hw : g.WF) (hm : g.mode = .full) (h : setMode .diagonal g = .ret () g') :
    g'.mode = .diagonal ∧ g'.dim = g.dim ∧ g'.di = g.di ∧ g'.bimodal = g.bimodal ∧ g'.mean = g.mean ∧ g'.WF ∧
    (∀ i j, i < g.dim → g'.covAt i j = if i = j then g.covAt i i else 0) ∧
    g'.precision * g'.sigma = 1 ∧ g'.sigma * g'.precision = 1 := by
  rw [setMode_diagonal_eq g hw hm] at h
  have hi := update_twice _ g' (dropped_wf g hw) h
  refine ⟨hi.same.mode, hi.same.dim, hi.same.di, hi.same.bimodal, hi.same.mean, hi.wf, fun i j h1 => ?_, hi.left, hi.right⟩
  rw [covAt_same hi.same, dropped_covAt g hm i j h1]

/-- C30 (Diagonal to Full): if the change returns, the distribution is in Full mode with the same covariance matrix, dimensions
    and mean, and its inverse is the inverse of that covariance. -/
theorem C30_diagonal_to_full (g g' : Gauss K) (hw : g.WF) (hm : g.mode = .diagonal) (h : setMode .full g = .ret () g') :
    g'.mode = .full ∧ g'.dim = g.dim ∧ g'.di = g.di ∧ g'.bimodal = g.bimodal ∧ g'.mean = g.mean ∧ g'.WF ∧
    (∀ i j, i < g.dim → j < g.dim → g'.covAt i j = g.covAt i j) ∧
    g'.precision * g'.sigma = 1 ∧ g'.sigma * g'.precision = 1 := by
  have hc : g.cov.length = g.dim := by have := hw.cov; rw [hm] at this; exact this
  rw [setMode_full_eq g (by omega)] at h
  have hi := update_twice _ g' (spread_wf g hw) h
  refine ⟨hi.same.mode, hi.same.dim, hi.same.di, hi.same.bimodal, hi.same.mean, hi.wf, fun i j h1 h2 => ?_, hi.left, hi.right⟩
  rw [covAt_same hi.same, spread_covAt g i j h1 h2]
  simp only [covAt, hm]

theorem update_diagonal_ret (g : Gauss K) (hw : g.WF) (hm : g.mode = .diagonal) (hp : ∀ i < g.dim, 0 < g.cov.getD i 0) :
    ∃ g', (updateInverseCovariance >>= fun _ => updateOutputIfBimodal) g = .ret () g' := by
  have hout : ∀ g1 : Gauss K, g1.WF → g1.mode = .diagonal → ∃ g', updateOutputIfBimodal g1 = .ret () g' := by
    intro g1 hw1 hm1
    rcases bool_cases g1.bimodal with hb | hb
    · exact ⟨g1, by simp [updateOutputIfBimodal, hb]⟩
    · exact ⟨{ g1 with outCov := g1.cov.drop g1.di },
        by simp only [updateOutputIfBimodal, Prog.bind_def, Prog.get_def, hb, if_true, updateOutput_diagonal g1 hw1 hm1 hb]⟩
  have h1 : updateInverseCovariance g = updateOutputIfBimodal (diagState g g.dim) := by
    rw [updateInverse_diagonal g hm, (updateInverseDiagonal_eq g hw hm).1 hp]
  obtain ⟨g1, e1⟩ := hout _ (diagState_spec g hw hm hp).1 hm
  have hi := C31_inverse g g1 hw (h1.trans e1)
  obtain ⟨g2, e2⟩ := hout g1 hi.1 (by rw [hi.2.1.mode, hm])
  exact ⟨g2, by rw [Prog.bind_def, h1, e1]; exact e2⟩

/-- C30 (success): changing to Diagonal succeeds when the variances are positive and throws `runtime_error` otherwise; it never
    runs outside the vectors. -/
theorem C30_to_diagonal_outcome (g : Gauss K) (hw : g.WF) (hm : g.mode = .full) :
    ((∀ i < g.dim, 0 < g.covAt i i) → ∃ g', setMode .diagonal g = .ret () g') ∧
    ((∃ i < g.dim, g.covAt i i ≤ 0) → ∃ g', setMode .diagonal g = .throw .runtimeError g') := by
  rw [setMode_diagonal_eq g hw hm]
  have e : ∀ i < g.dim, (dropped g).cov.getD i 0 = g.covAt i i := fun i hi => by
    have := dropped_covAt g hm i i hi
    rw [if_pos rfl] at this
    rw [← this]; simp [covAt, dropped]
  constructor
  · intro hp
    exact update_diagonal_ret _ (dropped_wf g hw) rfl fun i hi => by rw [e i hi]; exact hp i hi
  · rintro ⟨i, hi, hle⟩
    obtain ⟨g', hg⟩ := (C31_throws (dropped g) (dropped_wf g hw)).2 rfl ⟨⟨i, hi⟩, by
      rw [sigma_covAt]; show (dropped g).covAt i i ≤ 0; rw [dropped_covAt g hm i i hi, if_pos rfl]; exact hle⟩
    exact ⟨g', by rw [Prog.bind_def, hg]⟩

/-- C30 (success): changing to Full succeeds when the variances are at least 1e-9. -/
theorem C30_to_full_outcome (g : Gauss K) (hw : g.WF) (hm : g.mode = .diagonal)
    (hp : ∀ i < g.dim, 1 / 10 ^ 9 ≤ g.covAt i i) : ∃ g', setMode .full g = .ret () g' := by
  have hc : g.cov.length = g.dim := by have := hw.cov; rw [hm] at this; exact this
  rw [setMode_full_eq g (by omega)]
  have hws := spread_wf g hw
  have hcov : ∀ i < g.dim, g.cov.getD i 0 = g.covAt i i := fun i _ => by simp [covAt, hm]
  have hs : (spread g).sigma = Matrix.diagonal fun i => g.cov.getD i.val 0 := by
    funext i j
    rw [sigma_covAt, spread_covAt g i.val j.val i.isLt j.isLt]
    simp [Matrix.diagonal_apply, Fin.ext_iff]
  have habs : ∀ i < g.dim, 1 / 10 ^ 9 ≤ |g.cov.getD i 0| := fun i hi => by
    rw [hcov i hi]; exact le_trans (hp i hi) (le_abs_self _)
  obtain ⟨x, hx, _⟩ := C10_diagonal_exact (fun i : Fin g.dim => g.cov.getD i.val 0) (fun i => habs _ i.isLt) (covMat (spread g))
    (hs ▸ covMat_holds (spread g) rfl)
  have hIn : g.bimodal = true → ∃ y d, (covMatIn (spread g)).pinv = .ok (y, d) := by
    intro hb
    have hle := hw.le hb
    have hs2 : (spread g).sigmaIn hle = Matrix.diagonal fun i : Fin g.di => g.cov.getD i.val 0 := by
      funext i j
      have hi : i.val < g.dim := lt_of_lt_of_le i.isLt hle
      have hj : j.val < g.dim := lt_of_lt_of_le j.isLt hle
      exact (sigmaIn_covAt (spread g) hle i j).trans
        ((spread_covAt g i.val j.val hi hj).trans (diag_if (n := g.di) (fun k => g.cov.getD k 0) i j))
    obtain ⟨y, hy, _⟩ := C10_diagonal_exact (fun i : Fin g.di => g.cov.getD i.val 0)
      (fun i => habs _ (by have := i.isLt; omega)) (covMatIn (spread g)) (hs2 ▸ covMatIn_holds (spread g) rfl hle)
    exact ⟨y, _, hy⟩
  have houtF : ∀ g1 : Gauss K, Inverted (spread g) g1 → ∃ g', updateOutputIfBimodal g1 = .ret () g' := by
    intro g1 hi
    rcases bool_cases g1.bimodal with hb | hb
    · exact ⟨g1, by simp [updateOutputIfBimodal, hb]⟩
    · obtain ⟨y, d, hy⟩ := hIn (by rw [← hb]; exact hi.same.bimodal.symm)
      have hcm : covMatIn g1 = covMatIn (spread g) := by
        have e1 := hi.same.dim
        have e2 := hi.same.di
        have e3 := hi.same.cov
        unfold covMatIn
        rw [e1, e2, e3]
      obtain ⟨v, e, _⟩ := (updateOutput_full g1 hi.wf (by rw [hi.same.mode]; rfl) hb).2 y d (hcm ▸ hy)
      exact ⟨_, by simp only [updateOutputIfBimodal, Prog.bind_def, Prog.get_def, hb, if_true]; exact e⟩
  have hfull : ∃ g1, updateInverseFull (spread g) = .ret () g1 := by
    rw [updateInverseFull_eq _ hws rfl, hx]
    rcases bool_cases g.bimodal with hb | hb
    · exact ⟨_, if_neg (by show ¬ g.bimodal = true; simp [hb])⟩
    · obtain ⟨y, d, hy⟩ := hIn hb
      simp only [if_pos (show (spread g).bimodal = true from hb), hy]
      exact ⟨_, rfl⟩
  obtain ⟨g1, e1⟩ := hfull
  have hi1 := (full_inverted _ g1 hws rfl e1).1
  obtain ⟨g2, e2⟩ := houtF g1 hi1
  have hi2 := hi1.output e2
  obtain ⟨g3, e3⟩ := houtF g2 hi2
  refine ⟨g3, ?_⟩
  rw [Prog.bind_def, updateInverse_full _ rfl, e1]
  simp only [e2]
  exact e3

/-- C30 (round trip): Full, then Diagonal, then Full again: with variances of at least 1e-9 both changes succeed and the final
    covariance is the original one with every entry off the diagonal replaced by zero. -/
theorem C30_round_trip (g : Gauss K) (hw : g.WF) (hm : g.mode = .full) (hp : ∀ i < g.dim, 1 / 10 ^ 9 ≤ g.covAt i i) :
    ∃ g1 g2, setMode .diagonal g = .ret () g1 ∧ setMode .full g1 = .ret () g2 ∧ g2.mode = .full ∧ g2.dim = g.dim ∧
      ∀ i j, i < g.dim → j < g.dim → g2.covAt i j = if i = j then g.covAt i i else 0 := by
  have h9 : (0 : K) < 1 / 10 ^ 9 := by positivity
  obtain ⟨g1, e1⟩ := (C30_to_diagonal_outcome g hw hm).1 fun i hi => lt_of_lt_of_le h9 (hp i hi)
  obtain ⟨a1, a2, a3, a4, a5, a6, a7, -, -⟩ := C30_full_to_diagonal g g1 hw hm e1
  obtain ⟨g2, e2⟩ := C30_to_full_outcome g1 a6 a1 fun i hi => by
    rw [a2] at hi; rw [a7 i i hi, if_pos rfl]; exact hp i hi
  obtain ⟨b1, b2, b3, b4, b5, b6, b7, -, -⟩ := C30_diagonal_to_full g1 g2 a6 a1 e2
  refine ⟨g1, g2, e1, e2, b1, b2.trans a2, fun i j hi hj => ?_⟩
  rw [b7 i j (a2 ▸ hi) (a2 ▸ hj), a7 i j hi]

/-- the hypotheses of C30 are met by a distribution with correlated dimensions -/
example : ∃ g : Gauss ℚ, g.WF ∧ g.mode = .full ∧ (∀ i < g.dim, 1 / 10 ^ 9 ≤ g.covAt i i) ∧ g.covAt 0 1 = 1 := by
  refine ⟨⟨true, 2, 2, 1, 1, .full, [0, 0], [2, 1, 1, 3], [0, 0, 0, 0], 0, [0], 0, []⟩, ⟨rfl, rfl, rfl, fun _ => rfl, by simp⟩,
    rfl, ?_, by simp [covAt]⟩
  intro i hi
  have : i = 0 ∨ i = 1 := by simp at hi; omega
  rcases this with rfl | rfl <;> simp [covAt] <;> norm_num

/-- C30 violated: setting Full on a distribution that is already in Full mode destroys its covariance: from
    [[2,1],[1,3]] it becomes [[2,0],[0,1]]. -/
theorem C30_same_full_violated : ∃ g g' : Gauss ℚ, g.WF ∧ g.mode = .full ∧ setMode .full g = .ret () g' ∧
    g.cov = [2, 1, 1, 3] ∧ g'.cov = [2, 0, 0, 1] := by
  have key : (match setMode .full (⟨false, 2, 1, 0, 0, .full, [0, 0], [2, 1, 1, 3], [0, 0, 0, 0], 0, [], 0, []⟩ : Gauss ℚ) with
      | .ret _ g' => g'.cov | _ => []) = [2, 0, 0, 1] := by decide +kernel
  refine ⟨⟨false, 2, 1, 0, 0, .full, [0, 0], [2, 1, 1, 3], [0, 0, 0, 0], 0, [], 0, []⟩, ?_⟩
  cases h : setMode .full (⟨false, 2, 1, 0, 0, .full, [0, 0], [2, 1, 1, 3], [0, 0, 0, 0], 0, [], 0, []⟩ : Gauss ℚ) with
  | ret u g' => rw [h] at key; exact ⟨g', ⟨rfl, rfl, rfl, by simp, by simp⟩, rfl, rfl, rfl, key⟩
  | throw e g' => rw [h] at key; cases key
  | ub => rw [h] at key; cases key

/-- C30 violated: setting Diagonal on a distribution of at least two dimensions that is already in Diagonal mode reads outside
    its covariance vector. -/
theorem C30_same_diagonal_ub (g : Gauss K) (hw : g.WF) (hm : g.mode = .diagonal) (hd : 2 ≤ g.dim) :
    setMode .diagonal g = .ub := by
  have hc : g.cov.length = g.dim := by have := hw.cov; rw [hm] at this; exact this
  have key : ∀ (l : List Nat) (acc : List K) (s : Gauss K), (∃ d ∈ l, g.cov.length ≤ d * g.dim + d) →
      List.mapM.loop (fun d => rd g.cov (d * g.dim + d)) l acc s = .ub := by
    intro l
    induction l with
    | nil => rintro acc s ⟨d, hd, _⟩; cases hd
    | cons a l ih =>
      rintro acc s ⟨d, hdm, hdl⟩
      rw [List.mapM.loop, Prog.bind_def]
      by_cases ha : a * g.dim + a < g.cov.length
      · rw [rd_lt ha 0]
        refine ih _ s ?_
        rcases List.mem_cons.1 hdm with rfl | hdm
        · omega
        · exact ⟨d, hdm, hdl⟩
      · simp [rd, ha, List.getElem?_eq_none (not_lt.1 ha)]
  have hub : ∀ s : Gauss K, (List.range g.dim).mapM (fun d => rd g.cov (d * g.dim + d)) s = .ub := fun s =>
    key _ [] s ⟨1, List.mem_range.2 (by omega), by omega⟩
  simp only [setMode, toDiagonal, Prog.bind_def, Prog.modify_def, Prog.get_def, hub]

end Xmm
