import Verif.Lemmas.GmmBlind
import Verif.Props.ClassTraining
set_option linter.unusedSectionVars false
/- C108, one class: training a class again gives what training a new class gives. -/
namespace Xmm.Gmm
open Phrase (loop)
open Gauss (rd resize)
open Prog

/-- the same settings: only what training and recognition write may differ -/
def SameSettings (m0 m : Gmm ℝ) : Prop :=
  m = { m0 with comps := m.comps, coeffs := m.coeffs, beta := m.beta, reg := m.reg, buf := m.buf, instant := m.instant, logLik := m.logLik, outVals := m.outVals, outCov := m.outCov }

/-- the default parameters do not depend on the former ones -/
theorem default_unique (m0 m : Gmm ℝ) (hw : m0.WF) (h : m = { m0 with coeffs := m.coeffs, reg := m.reg, beta := m.beta, buf := m.buf, instant := m.instant, logLik := m.logLik, outVals := m.outVals, outCov := m.outCov }) (hw' : m.WF) (sd : List ℝ) (hs : sd.length = m0.dim) :
    ∃ m2, initParametersToDefault sd m0 = .ret () m2 ∧ initParametersToDefault sd m = .ret () (withPast (Past.of m) m2) := by
  obtain ⟨l, a1, a2, -, a3⟩ := C36_default_parameters m0 hw sd hs
  have hd : m.dim = m0.dim := by rw [h]
  have hmd : m.mode = m0.mode := by rw [h]
  have hab : m.absReg = m0.absReg := by rw [h]
  have hre : m.relReg = m0.relReg := by rw [h]
  have hc : m.comps = m0.comps := by rw [h]
  have hg : m.gaussians = m0.gaussians := by rw [h]
  obtain ⟨l', b1, b2, -, b3⟩ := C36_default_parameters m hw' sd (by rw [hd]; exact hs)
  have hreg : regularization m sd = regularization m0 sd := by unfold regularization; rw [hab, hre]
  have hll : l' = l := by
    refine List.ext_getElem (by rw [b2, a2, hg]) fun c x y => ?_
    have hlt : c < m0.comps.length := by rw [hw.comps, ← a2]; exact y
    have e0 : m0.comps[c]? = some m0.comps[c] := List.getElem?_eq_getElem hlt
    obtain ⟨gw, gd, _, gm, _⟩ := hw.comp m0.comps[c] (List.getElem_mem hlt)
    obtain ⟨g1, p1, p2, p3, p4⟩ := a3 c _ e0
    obtain ⟨g2, q1, q2, q3, q4⟩ := b3 c _ (by rw [hc]; exact e0)
    have := cov_unique q2 p2 q3 p3 (m := m0) (reg := regularization m0 sd) gd gm (fun i hi j hj hij => by
      rw [q4 i (hd ▸ hi) j (hd ▸ hj) (hmd ▸ hij), hreg]; unfold defaultCov; rw [hmd, hab]) p4
    rw [List.getElem?_eq_getElem y] at p1
    rw [List.getElem?_eq_getElem x] at q1
    injection p1 with p1
    injection q1 with q1
    rw [p1, q1, this]
  refine ⟨_, a1, ?_⟩
  rw [b1, hreg, hll, hg]
  congr 1
  rw [h]
  rfl

/-- C108: nothing of the former training or recognition remains in a class that is trained again. -/
theorem retrain (D : Dens ℝ) (log : ℝ → ℝ) (m0 m : Gmm ℝ) (h : SameSettings m0 m) (ha : m0.Admissible) (sd : List ℝ) (data : KData ℝ) (hf : m0.Fed sd data)
    (P : EmParams) (hP : 1 ≤ P.minIter) (C : Compare ℝ) (cancel : Nat → Bool) (t0 : Trainer ℝ) (n0 : Gmm ℝ)
    (ht : (trainee D log Real.sqrt sd data).train C P cancel m0 = .ret t0 n0) :
    ∃ t n, (trainee D log Real.sqrt sd data).train C P cancel m = .ret t n ∧ t.status = t0.status ∧ (t0.status ≠ .cancel → t = t0 ∧ SameModel n0 n) := by
  unfold SameSettings at h
  have hm : m.Admissible := by rw [h]; exact ⟨ha.gaussians, ha.dim, ha.di⟩
  have hd : m.dim = m0.dim := by rw [h]
  have hdi : m.di = m0.di := by rw [h]
  have hbi : m.bimodal = m0.bimodal := by rw [h]
  have hmd : m.mode = m0.mode := by rw [h]
  have hg : m.gaussians = m0.gaussians := by rw [h]
  obtain ⟨g, hcon, a1, a2⟩ : ∃ g, Gauss.construct m0.bimodal m0.dim m0.di m0.mode = some g ∧ allocate m0 = .ret () { m0 with
      coeffs := resize m0.gaussians m0.coeffs, beta := resize m0.gaussians m0.beta, comps := List.replicate m0.gaussians g } ∧
      ({ m0 with coeffs := resize m0.gaussians m0.coeffs, beta := resize m0.gaussians m0.beta, comps := List.replicate m0.gaussians g } : Gmm ℝ).WF := by
    obtain ⟨g, e1, e2⟩ := Gmm.allocate_ret m0 ha.gaussians ha.dim ha.di
    cases hc : Gauss.construct (K := ℝ) m0.bimodal m0.dim m0.di m0.mode with
    | none => simp [allocate, bind_def, modify_def, get_def, hc, throw_def] at e1
    | some g0 =>
      have e3 : allocate m0 = .ret () { m0 with
          coeffs := resize m0.gaussians m0.coeffs, beta := resize m0.gaussians m0.beta, comps := List.replicate m0.gaussians g0 } := by
        simp [allocate, bind_def, modify_def, get_def, hc, set_def]
      have e4 := e3
      rw [e1] at e4
      injection e4 with _ e4
      exact ⟨g0, rfl, e3, e4 ▸ e2⟩
  obtain ⟨g', b1, b2⟩ := Gmm.allocate_ret m hm.gaussians hm.dim hm.di
  have b1 : allocate m = .ret () { m with
      coeffs := resize m.gaussians m.coeffs, beta := resize m.gaussians m.beta, comps := List.replicate m.gaussians g } := by
    simp [allocate, bind_def, modify_def, get_def, hbi, hd, hdi, hmd, hcon, set_def]
  set m1 : Gmm ℝ := { m with coeffs := resize m.gaussians m.coeffs, beta := resize m.gaussians m.beta, comps := List.replicate m.gaussians g } with hm1
  set n1 : Gmm ℝ := { m0 with coeffs := resize m0.gaussians m0.coeffs, beta := resize m0.gaussians m0.beta, comps := List.replicate m0.gaussians g } with hn1
  have hrel : m1 = { n1 with coeffs := m1.coeffs, reg := m1.reg, beta := m1.beta, buf := m1.buf, instant := m1.instant, logLik := m1.logLik, outVals := m1.outVals, outCov := m1.outCov } := by
    rw [hm1, hn1, hg, h]
  have hw1 : m1.WF := by
    rw [hrel]
    refine ⟨a2.pos, a2.comps, ?_, ?_, a2.comp⟩
    · show (resize m.gaussians m.coeffs).length = m0.gaussians
      rw [length_resize, hg]
    · show (resize m.gaussians m.beta).length = m0.gaussians
      rw [length_resize, hg]
  obtain ⟨n2, c1, c2⟩ := default_unique n1 m1 a2 hrel hw1 sd hf.sd
  set q := Past.of m1 with hq
  have hinit : emInit Real.sqrt sd data m1 = (emInit Real.sqrt sd data n1).mapState (withPast q) := by
    have e1 : emInit Real.sqrt sd data m1 = emInitRest Real.sqrt sd data (withPast q n2) := bind_of_ret c2
    have e2 : emInit Real.sqrt sd data n1 = emInitRest Real.sqrt sd data n2 := bind_of_ret c1
    rw [e1, e2, commutes_emInitRest q Real.sqrt sd data n2]
  cases hc : cancel 0 with
  | true =>
    obtain ⟨t, k, e1, e2, -⟩ := Trainee.train_cancelled (trainee D log Real.sqrt sd data) C P cancel m m1 b1 hP hc
    obtain ⟨t', k', e1', e2', -⟩ := Trainee.train_cancelled (trainee D log Real.sqrt sd data) C P cancel m0 n1 a1 hP hc
    rw [ht] at e1'
    injection e1' with e1' _
    subst e1'
    exact ⟨t, _, e1, by rw [e2, e2'], fun hne => absurd e2' hne⟩
  | false =>
    have e1 : (trainee D log Real.sqrt sd data).train C P cancel m = ((trainee D log Real.sqrt sd data).train C P cancel m0).mapState (withPast q) := by
      refine (bind_of_ret b1).trans ?_
      have e0 : (trainee D log Real.sqrt sd data).train C P cancel m0 = Trainee.afterAllocate (trainee D log Real.sqrt sd data) C P cancel n1 := bind_of_ret a1
      rw [e0]
      show Trainee.afterAllocate (trainee D log Real.sqrt sd data) C P cancel m1 = _
      unfold Trainee.afterAllocate
      simp only [hc, Trainee.begin', Bool.false_eq_true, if_false]
      have hat : Trainee.attempt (emInit Real.sqrt sd data) m1 = (Trainee.attempt (emInit Real.sqrt sd data) n1).mapState (withPast q) := by
        unfold Trainee.attempt
        rw [hinit]
        cases emInit Real.sqrt sd data n1 <;> rfl
      have hcm := fun ok => commutes_afterInit (φ := withPast q) (trainee D log Real.sqrt sd data) (fun b k => commutes_trainStep q D log data b k) (commutes_pure _) (fun _ => rfl) C P
        cancel ok
      exact bind_map hat hcm
    rw [ht] at e1
    refine ⟨t0, _, e1, rfl, fun _ => ⟨rfl, ?_⟩⟩
    unfold SameModel withPast
    rfl

end Xmm.Gmm
