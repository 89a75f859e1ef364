import Verif.Props.AxesPredict
set_option linter.unusedSectionVars false
/- C98: recognition and regression with a hidden Markov model with two modalities, in other axes. -/
namespace Xmm
open Prog (bind_def get_def pure_def)
open GmmSpec RecSpec HmmSpec

namespace Hmm
section
variable {d : Nat} {A : NewAxes d} {m0 m0' : Hmm ℝ}

/-- the same observation with other predictions: only the outputs differ -/
theorem Filtered.other {m r : Hmm ℝ} {log : ℝ → ℝ} {hist : List ℝ} {b : Nat → ℝ} {v c : Nat → List ℝ} (hf : m.Filtered log hist b v c r) (hb : m.bimodal = true) (v' c' : Nat → List ℝ) :
    m.Filtered log hist b v' c' { r with
      outVals := (List.range (m.dim - m.di)).map fun k => ∑ i ∈ Finset.range m.n, outWeight r i * (v' i).getD k 0
      outCov := (List.range (outCells m.mode (m.dim - m.di))).map fun k => ∑ i ∈ Finset.range m.n, covWeight r i * (c' i).getD k 0 } := by
  refine ⟨⟨?_, hf.same.2⟩, hf.started, hf.alpha, hf.instant, hf.logLik, ⟨hf.windowed.likeliest, hf.windowed.lo, hf.windowed.hi, hf.windowed.norm⟩, hf.progress,
    fun h => absurd h (by simp [hb]), fun _ => rfl, fun _ => rfl⟩
  have e := hf.same.1
  rw [e]

/-- the shares of the states in the output sum to 1: always, except with a window of one state -/
theorem flat_sum {m r : Hmm ℝ} {log : ℝ → ℝ} {hist : List ℝ} {b : Nat → ℝ} {v c : Nat → List ℝ} (hf : m.Filtered log hist b v c r) (hh : m.hier = false) (hn : m.n ≥ 1)
    (hw : ∀ j < m.n, 0 ≤ weight m b j) (he : 0 < evidence m b) (hest : m.est ≠ .windowed ∨ 2 ≤ m.n) : ∑ i ∈ Finset.range m.n, outWeight r i = 1 := by
  obtain ⟨e1, -, -, -, -, e6, -, -, -, -, -, e12⟩ := hf.same.facts
  have ho : ∀ i < m.n, occ r i = weight m b i / evidence m b := by
    intro i hi
    unfold occ
    rw [e6, hh, if_neg (by simp), hf.alpha, getD_map_range' _ _ _ hi]
  have hs : ∑ i ∈ Finset.range m.n, occ r i = 1 := by
    rw [Finset.sum_congr rfl fun i hi => ho i (Finset.mem_range.1 hi), ← Finset.sum_div]
    exact div_self he.ne'
  cases hE : m.est with
  | full =>
    rw [← hs]
    exact Finset.sum_congr rfl fun i _ => by unfold outWeight; rw [e12, hE]
  | windowed =>
    have := outWeight_sum hf.windowed (Or.inr ⟨e12.trans hE, by rw [e1]; exact hest.resolve_left fun h => h hE⟩)
      (fun i hi => by rw [e1] at hi; rw [ho i hi]; exact div_nonneg (hw i hi) he.le) (by rw [e1, hs]; exact one_pos)
    rw [e1] at this
    exact this
  | likeliest =>
    have := outWeight_sum hf.windowed (Or.inl (e12.trans hE))
      (fun i hi => by rw [e1] at hi; rw [ho i hi]; exact div_nonneg (hw i hi) he.le) (by rw [e1, hs]; exact one_pos)
    rw [e1] at this
    exact this

/-- what is reported besides the output -/
structure SameBut (r r' : Hmm ℝ) : Prop where
  instant : r'.instant = r.instant
  logLik : r'.logLik = r.logLik
  progress : r'.progress = r.progress
  likeliest : r'.likeliest = r.likeliest
  alpha : r'.alpha = r.alpha

theorem twins_bimodal (hT : Twins m0 m0') (hm : m0.CanFilter) (hm' : m0'.CanFilter) (hh : m0.hier = false) (hb0 : m0.bimodal = true) (hd : m0.dim = d) (hA : A.KeepsInput m0.di)
    (hout : (∀ k : Fin d, m0.di ≤ k.val → A.shift k = 0) ∨ m0.est ≠ .windowed ∨ 2 ≤ m0.n) (f : List ℝ → List ℝ) (xs : List (List ℝ))
    (hx : ∀ x ∈ xs, m0.Fits x ∧ m0'.Fits (f x) ∧ ∃ (b : Nat → ℝ) (v w v' w' : Nat → List ℝ), Emits Dens.real m0 x b ∧ Emits Dens.real m0' (f x) b ∧ (∀ k < m0.n, 1 / 10 ^ 180 ≤ b k) ∧
      Predicts Dens.real m0 x v w ∧ Predicts Dens.real m0' (f x) v' w' ∧ ∀ i < m0.n, A.CarriesPrediction m0.di m0.mode (v i, w i) (v' i, w' i)) (hne : xs ≠ []) :
    ∀ (m m' : Hmm ℝ) (bs : List (Nat → ℝ)) (ps : List ℝ), Heard m0 Real.log bs ps m → Heard m0' Real.log bs ps m' →
    ∃ qs r r', filterAll Dens.real Real.log xs m = .ret qs r ∧ filterAll Dens.real Real.log (xs.map f) m' = .ret qs r' ∧ SameBut r r' ∧ qs.length = xs.length ∧
      A.CarriesPrediction m0.di m0.mode (r.outVals, r.outCov) (r'.outVals, r'.outCov) := by
  have hh' : m0'.hier = false := by rw [hT.same]; exact hh
  have hb0' : m0'.bimodal = true := by rw [hT.same]; exact hb0
  have hn' : m0'.n = m0.n := by rw [hT.same]
  have hdim' : m0'.dim = m0.dim := by rw [hT.same]
  have hdi' : m0'.di = m0.di := by rw [hT.same]
  have hmode' : m0'.mode = m0.mode := by rw [hT.same]
  have hest' : m0'.est = m0.est := by rw [hT.same]
  induction xs with
  | nil => exact absurd rfl hne
  | cons x xs ih =>
    intro m m' bs ps h h'
    obtain ⟨hfx, hfx', b, v, w, v', w', x1, x2, x3, x4, x5, x6⟩ := hx x List.mem_cons_self
    obtain ⟨r, a1, a2, a3⟩ := heard_step Dens.real Real.log hm hh h x hfx b x1 x3 v w (fun _ => x4)
    obtain ⟨r', b1, b2, b3⟩ := heard_step Dens.real Real.log hm' hh' h' (f x) hfx' b x2 (by rw [hn']; exact x3) v' w' (fun _ => x5)
    have hk := hT.heard hm h'
    obtain ⟨g1, g2, g3, g4, g5, g6, g7, g8, g9, g10, g11, g12⟩ := h.same.facts
    obtain ⟨f1, f2, f3, f4, f5, f6, f7, f8, f9, f10, f11, f12⟩ := h'.same.facts
    have e0 : m0'.ergodic = m0.ergodic := by rw [hT.same]
    have hev : evidence m' b = evidence m b := by
      rw [← evidence_onTo (f3.trans hT.start) (f2.trans e0), ← (heard_det h hk b).2]
    rw [hev] at b1 b3
    by_cases he : xs = []
    · subst he
      have hs := filtered_det h hk a2 ((hT.filtered hm h' b2).other (show (onTo m0 m').bimodal = true from f7.trans hb0') v w) hh
      have sb : SameBut r r' := ⟨hs.instant, hs.logLik, hs.progress, hs.likeliest, hs.alpha⟩
      obtain ⟨p1, -, -, -, -, p6, -, -, -, -, -, p12⟩ := a2.same.facts
      obtain ⟨q1, -, -, -, -, q6, -, -, -, -, -, q12⟩ := b2.same.facts
      have nn : r'.n = r.n := by rw [p1, q1, g1, f1, hn']
      have ee : r'.est = r.est := by rw [p12, q12, g12, f12, hest']
      have hocc : occ r' = occ r := by
        funext i
        unfold occ
        rw [p6, q6, g6, f6, hh, hh', if_neg (by simp), if_neg (by simp), sb.alpha]
      have hlo : r'.winMin = r.winMin := by rw [a2.windowed.lo, b2.windowed.lo, sb.likeliest, nn]
      have hhi : r'.winMax = r.winMax := by rw [a2.windowed.hi, b2.windowed.hi, sb.likeliest, nn]
      have hz : r'.winNorm = r.winNorm := by rw [a2.windowed.norm, b2.windowed.norm, hlo, hhi, hocc]
      have how : outWeight r' = outWeight r := by
        funext i
        unfold outWeight
        rw [ee, hocc, hlo, hhi, hz, sb.likeliest]
      have hcw : covWeight r' = covWeight r := by
        funext i
        unfold covWeight
        rw [ee, hocc, hlo, hhi, hz]
      refine ⟨[evidence m b], r, r', ?_, ?_, sb, rfl, ?_⟩
      · unfold filterAll filterAll; rw [bind_of_ret a1, bind_of_ret (pure_def _ _), pure_def]
      · rw [List.map_cons, List.map_nil]; unfold filterAll filterAll; rw [bind_of_ret b1, bind_of_ret (pure_def _ _), pure_def]
      · obtain ⟨wn, we⟩ := norm_ge hm h b x3
        rw [a2.outVals (g7.trans hb0), a2.outCov (g7.trans hb0), b2.outVals (f7.trans hb0'), b2.outCov (f7.trans hb0'), how, hcw, g1, g9, g10, g11, f1, f9, f10, f11, hn', hdim', hdi', hmode', hd]
        refine NewAxes.CarriesPrediction.combine hA m0.n _ _ _ _ _ _ x6 (hout.imp_right fun ho => ?_)
        have := flat_sum a2 (g6.trans hh) (by rw [g1]; exact hm.wf.pos) (by rw [g1]; exact wn) (lt_of_lt_of_le (by positivity) we) (by rw [g12, g1]; exact ho)
        rw [g1] at this
        exact this
    · obtain ⟨qs, t, t', c1, c2, c3, c4, c5⟩ := ih (fun y hy => hx y (List.mem_cons_of_mem _ hy)) he r r' _ _ a3 b3
      refine ⟨evidence m b :: qs, t, t', ?_, ?_, c3, by simp [c4], c5⟩
      · unfold filterAll; rw [bind_of_ret a1, bind_of_ret c1, pure_def]
      · rw [List.map_cons]; unfold filterAll; rw [bind_of_ret b1, bind_of_ret c2, pure_def]

/-- **C98** (recognition and regression with a hidden Markov model with two modalities, outside a hierarchy): after `reset`, the model in the new axes returns, for the inputs in the new axes, the
    likelihoods that the model returns for the inputs; the results are the same, and the output and its variances are the same in the new axes. -/
theorem C98_regression_stream (A : NewAxes d) (m m' : Hmm ℝ) (h : A.CarriesHmm m m') (hb : m.bimodal = true) (hA : A.KeepsInput m.di) (hm : m.Usable) (hm' : m'.Usable)
    (hu : ∀ s ∈ m.sts, ∀ g ∈ s.comps, g.Derived) (hu' : ∀ s ∈ m'.sts, ∀ g ∈ s.comps, g.Derived)
    (hout : (∀ k : Fin d, m.di ≤ k.val → A.shift k = 0) ∨ m.est ≠ .windowed ∨ 2 ≤ m.n) (xs : List (List ℝ)) (hne : xs ≠ []) (hx : ∀ x ∈ xs, x.length = m.di) :
    ∃ ps t t', (do reset; filterAll Dens.real Real.log xs) m = .ret ps t ∧ (do reset; filterAll Dens.real Real.log (xs.map (A.input m.di))) m' = .ret ps t' ∧
      ps.length = xs.length ∧ SameBut t t' ∧ A.CarriesPrediction m.di m.mode (t.outVals, t.outCov) (t'.outVals, t'.outCov) := by
  obtain ⟨bf, h1, h2⟩ := reset_ret m hm
  obtain ⟨bf', h1', h2'⟩ := reset_ret m' hm'
  have hc := cleared_can m hm.can bf
  have hc' := cleared_can m' hm'.can bf'
  have hb' : m'.bimodal = true := by rw [h.same]; exact hb
  have e1 : m'.n = m.n := by rw [h.same]
  have e2 : m'.trans = m.trans := by rw [h.same]
  have e3 : m'.ergodic = m.ergodic := by rw [h.same]
  have e4 : cyclicCell m' = cyclicCell m := by unfold cyclicCell; rw [e1, e3]
  have hT : Twins (cleared m bf) (cleared m' bf') := by
    refine ⟨?_, h.start⟩
    unfold cleared
    simp only [e1, e2, e4]
    rw [h.same]
  have hdi : m'.di = m.di := by rw [h.same]
  obtain ⟨qs, r, r', k1, k2, k3, k4, k5⟩ := twins_bimodal (A := A) hT hc hc' hm.flat hb h.dim hA hout (A.input m.di) xs (fun x hx' => by
      obtain ⟨b, v, w, v', w', q⟩ := bimodal_moved A m m' h hb hA hm.can hm'.can hu hu' x (hx x hx')
      refine ⟨?_, ?_, b, v, w, v', w', q⟩
      · show (if m.bimodal then m.di ≤ x.length else m.dim ≤ x.length)
        rw [if_pos hb, hx x hx']
      · show (if m'.bimodal then m'.di ≤ (A.input m.di x).length else m'.dim ≤ (A.input m.di x).length)
        rw [if_pos hb', hdi]
        simp [NewAxes.input, A.frame_length, h.di_le hb hm.can]) hne _ _ [] [] (heard_nil Real.log _ hc rfl h2 hm.alpha) (heard_nil Real.log _ hc' rfl h2' hm'.alpha)
  exact ⟨qs, r, r', by rw [bind_of_ret h1, k1], by rw [bind_of_ret h1', k2], k4, k3, k5⟩

end

/-- **C98** (hidden Markov models, LeftRight and with two modalities; from the training to the results): a model trained in other axes, which keep the columns of the input among themselves, takes
    the same decisions during the training, and afterwards gives the same likelihoods and the same progress for every stream of inputs in these axes; the predicted output and its variances are
    those predicted in the old axes, in the new axes.  (Partial: `Steady` for another origin; Ergodic models and, with another origin of the output, a window over a single state are not covered.) -/
theorem C98_regression_partial (m : Hmm ℝ) (ha : m.Admissible) (hE : m.ergodic = false) (hwin : 1 ≤ m.window) (hh : m.hier = false) (hb : m.bimodal = true) (hbuf : BufOk m.buf)
    (data : KData ℝ) (hf : m.Fed data) (hl : m.LongPhrase data) (hlen : data.frames.length ≤ 10 ^ 90) (hreg : 1 / 10 ^ 9 ≤ m.absReg) (A : NewAxes m.dim) (hA : A.KeepsInput m.di)
    (ho : (∀ i, A.shift i = 0) ∨ m.Steady data) (hout : (∀ k : Fin m.dim, m.di ≤ k.val → A.shift k = 0) ∨ m.est ≠ .windowed ∨ 2 ≤ m.n)
    (lowest pct : ℝ) (P : EmParams) (hP : 1 ≤ P.minIter) (cancel : Nat → Bool) (hcan : cancel 0 = false) :
    ∃ t u u', (trainee Dens.real Real.log Real.sqrt (Compare.exact lowest pct) P (fun d => deviations d.dim d.frames) data).train (Compare.exact lowest pct) P cancel m = .ret t u ∧
      (trainee Dens.real Real.log Real.sqrt (Compare.exact lowest pct) P (fun d => deviations d.dim d.frames) (A.data data)).train (Compare.exact lowest pct) P cancel m = .ret t u' ∧
      A.CarriesHmm u u' ∧ (t.status = .done → ∀ xs : List (List ℝ), xs ≠ [] → (∀ x ∈ xs, x.length = m.di) → ∃ ps r r',
        (do reset; filterAll Dens.real Real.log xs) u = .ret ps r ∧ (do reset; filterAll Dens.real Real.log (xs.map (A.input m.di))) u' = .ret ps r' ∧ ps.length = xs.length ∧
        SameBut r r' ∧ A.CarriesPrediction m.di m.mode (r.outVals, r.outCov) (r'.outVals, r'.outCov)) := by
  obtain ⟨t, u, u', h1, h2, h3, h4, h5, h6⟩ := C98_training m ha hE hwin data hf hl hlen hreg A ho lowest pct P hP cancel hcan
  refine ⟨t, u, u', h1, h2, h3, fun hd xs hne hx => ?_⟩
  obtain ⟨k1, k2⟩ := h6 hd hh hbuf
  obtain ⟨t1, u1, w1, -, -, -, -, -, w2, -⟩ := C83_training Dens.real Dens.real_sound Real.log (fun x y hx hy => Real.log_mul hx.ne' hy.ne') m ha hE hwin data hf hl hlen hreg
    (fun d => deviations d.dim d.frames) sdOf_length lowest pct P hP cancel
  rw [h1] at w1
  injection w1 with _ w1
  subst w1
  have hub : u.bimodal = true := by rw [w2]; exact hb
  have hdi : u.di = m.di := by rw [w2]
  have hmo : u.mode = m.mode := by rw [w2]
  have hn : u.n = m.n := by rw [w2]
  have hes : u.est = m.est := by rw [w2]
  have := C98_regression_stream A u u' h3 hub (by rw [hdi]; exact hA) k1 k2 h4 h5 (by rw [hdi, hn, hes]; exact hout) xs hne (by rw [hdi]; exact hx)
  rw [hdi, hmo] at this
  exact this

/-- a model with two modalities and three states -/
noncomputable def follower : Hmm ℝ := { initExample 3 false false with bimodal := true, dim := 2, di := 1 }

/-- one gesture with its sound: five frames of one input and one output column, and a shorter one -/
noncomputable def gestures : KData ℝ := { dim := 2, phrases := [[[0, 5], [1, 4], [2, 6], [4, 7], [8, 8]], [[3, 3]]] }

/-- Non-vacuity: three states, one Gaussian in each; the output with the opposite sign, both origins moved. -/
example (cancel : Nat → Bool) (hcan : cancel 0 = false) : ∃ (A : NewAxes follower.dim) (t : Trainer ℝ) (u u' : Hmm ℝ), A.frame [10, 20] = [17, -23] ∧ A.input 1 [10] = [17] ∧
    (trainee Dens.real Real.log Real.sqrt (Compare.exact (-10) 1) ⟨10, 0⟩ (fun d => deviations d.dim d.frames) gestures).train (Compare.exact (-10) 1) ⟨10, 0⟩ cancel follower = .ret t u ∧
    (trainee Dens.real Real.log Real.sqrt (Compare.exact (-10) 1) ⟨10, 0⟩ (fun d => deviations d.dim d.frames) (A.data gestures)).train (Compare.exact (-10) 1) ⟨10, 0⟩ cancel follower
      = .ret t u' ∧ A.CarriesHmm u u' := by
  let A : NewAxes follower.dim := ⟨Equiv.refl _, ![1, -1], ![7, -3], fun k => by
    have : ∀ k : Fin 2, (![1, -1] : Fin 2 → ℝ) k = 1 ∨ (![1, -1] : Fin 2 → ℝ) k = -1 := by intro k; fin_cases k <;> simp
    exact this k⟩
  have hA : ∀ x : List ℝ, A.frame x = [x.getD 0 0 + 7, -x.getD 1 0 + -3] := fun x => by
    show [1 * x.getD 0 0 + 7, -1 * x.getD 1 0 + -3] = _
    simp
  have hl : follower.LongPhrase gestures := ⟨_, .head _, by simp [follower, initExample]⟩
  obtain ⟨t, u, u', k1, k2, k3, -⟩ := C98_regression_partial follower ⟨by simp [follower, initExample], by simp [follower, initExample], by simp [follower], by simp [follower, initExample]⟩ rfl
    (by simp [follower, initExample]) rfl rfl rfl gestures ⟨rfl, by simp [follower, gestures, KData.frames], by simp [gestures, KData.frames]⟩ hl (by simp [gestures, KData.frames])
    (by simp [follower, initExample]; norm_num) A (fun k => Iff.rfl) (Or.inr (steady_one follower rfl gestures hl)) (Or.inr (Or.inl (by simp [follower, initExample]))) (-10) 1 ⟨10, 0⟩ (by simp)
    cancel hcan
  refine ⟨A, t, u, u', ?_, ?_, k1, k2, k3⟩
  · rw [hA]; norm_num
  · unfold NewAxes.input; rw [hA]; norm_num

end Hmm
end Xmm
