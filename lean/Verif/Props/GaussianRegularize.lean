import Verif.Props.Gaussian
import Mathlib.Tactic.Linarith
import Mathlib.LinearAlgebra.Matrix.Notation
set_option linter.unusedSimpArgs false
set_option linter.unusedSectionVars false
/- Regularisation of the covariance. -/
namespace Xmm
open Phrase (loop)
open Prog
variable {K : Type} [Field K] [LinearOrder K]
namespace Gauss

/-- the cell of the covariance vector holding the variance of dimension `d` -/
def diagCell (g : Gauss K) (d : Nat) : Nat := match g.mode with | .full => d * g.dim + d | .diagonal => d

theorem diagCell_lt {g : Gauss K} (h : g.WF) {d : Nat} (hd : d < g.dim) : g.diagCell d < g.cov.length := by
  rw [h.cov, diagCell]
  cases g.mode with
  | full => exact flat_lt hd hd
  | diagonal => exact hd

theorem diagCell_inj {g : Gauss K} {d e : Nat} (hd : d < g.dim) (he : e < g.dim) (h : g.diagCell d = g.diagCell e) :
    d = e := by
  simp only [diagCell] at h
  cases hm : g.mode with
  | full =>
    rw [hm] at h
    simp only at h
    have h1 : d * (g.dim + 1) = e * (g.dim + 1) := by rw [Nat.mul_succ, Nat.mul_succ]; exact h
    exact Nat.eq_of_mul_eq_mul_right (Nat.succ_pos _) h1
  | diagonal => rw [hm] at h; exact h

/-- the loop of `regularize` -/
theorem regularize_loop (reg : List K) (g : Gauss K) (hw : g.WF) (hr : g.dim ≤ reg.length) (n : Nat) (hn : n ≤ g.dim) :
    ∃ c : List K, loop n () (fun _ d => do
        let g ← Prog.get
        let r ← rd reg d
        let i := match g.mode with | .full => d * g.dim + d | .diagonal => d
        let c ← rd g.cov i
        Prog.set { g with cov := g.cov.set i (c + r) }) g = .ret () { g with cov := c } ∧ c.length = g.cov.length ∧
      (∀ d < n, c.getD (g.diagCell d) 0 = g.cov.getD (g.diagCell d) 0 + reg.getD d 0) ∧
      ∀ m, (∀ d < n, m ≠ g.diagCell d) → c.getD m 0 = g.cov.getD m 0 := by
  induction n with
  | zero => exact ⟨g.cov, by simp [loop], rfl, by simp, by simp⟩
  | succ n ih =>
    obtain ⟨c, h1, h2, h3, h4⟩ := ih (by omega)
    have hlt := diagCell_lt hw (d := n) (by omega)
    have hcell : (match g.mode with | .full => n * g.dim + n | .diagonal => n) = g.diagCell n := rfl
    refine ⟨c.set (g.diagCell n) (c.getD (g.diagCell n) 0 + reg.getD n 0), ?_, by simp [h2], ?_, ?_⟩
    · rw [loop_succ, h1]
      simp only [bind_def, get_def, set_def]
      rw [rd_lt (by first | omega | (simp only; omega)) 0]
      simp only [hcell]
      rw [rd_lt (by first | omega | (simp only; omega)) 0]
    · intro d hd
      by_cases hdn : d = n
      · subst hdn
        rw [List.getD_eq_getElem?_getD, List.getElem?_set_self (by omega)]
        simp only [Option.getD_some]
        rw [h4 _ fun d' hd' he => absurd (diagCell_inj (by omega) (by omega) he) (by omega)]
      · rw [List.getD_eq_getElem?_getD, List.getElem?_set_ne
          (fun he => hdn (diagCell_inj (by omega) (by omega) he).symm), ← List.getD_eq_getElem?_getD, h3 d (by omega)]
    · intro m hm
      rw [List.getD_eq_getElem?_getD, List.getElem?_set_ne (fun he => hm n (by omega) he.symm),
        ← List.getD_eq_getElem?_getD, h4 m fun d hd => hm d (by omega)]

/-- C62: `regularize(r)` on a distribution whose vectors have the sizes of its dimension, with at least `dimension`
    offsets, returns normally, adds `r[d]` to the variance of every dimension `d`, and changes no covariance between
    different dimensions nor anything else. -/
theorem C62_regularize (reg : List K) (g : Gauss K) (hw : g.WF) (hr : g.dim ≤ reg.length) :
    ∃ g', regularize reg g = .ret () g' ∧ g' = { g with cov := g'.cov } ∧ g'.WF ∧
      ∀ i < g.dim, ∀ j < g.dim, g'.covAt i j = g.covAt i j + if i = j then reg.getD i 0 else 0 := by
  obtain ⟨c, h1, h2, h3, h4⟩ := regularize_loop reg g hw hr g.dim (le_refl _)
  refine ⟨{ g with cov := c }, ?_, rfl, ⟨hw.mean, h2.trans hw.cov, hw.inv, hw.invIn, hw.le⟩, fun i hi j hj => ?_⟩
  · simp only [regularize, bind_def, get_def]
    exact h1
  · simp only [covAt]
    cases hm : g.mode with
    | full =>
      have e : ∀ d, g.diagCell d = d * g.dim + d := fun d => by simp [diagCell, hm]
      simp only
      by_cases hij : i = j
      · subst hij
        have := h3 i hi
        rw [e] at this
        rw [if_pos rfl, this]
      · rw [if_neg hij, add_zero]
        refine h4 _ fun d hd he => hij ?_
        rw [e] at he
        have a : i = d := by
          have q1 : (i * g.dim + j) / g.dim = i := by
            rw [Nat.mul_comm, Nat.mul_add_div (by omega), Nat.div_eq_of_lt hj, Nat.add_zero]
          have q2 : (d * g.dim + d) / g.dim = d := by
            rw [Nat.mul_comm, Nat.mul_add_div (by omega), Nat.div_eq_of_lt hd, Nat.add_zero]
          rw [← q1, he, q2]
        subst a
        omega
    | diagonal =>
      have e : ∀ d, g.diagCell d = d := fun d => by simp [diagCell, hm]
      simp only
      by_cases hij : i = j
      · subst hij
        have := h3 i hi
        rw [e] at this
        simp only [if_true]
        exact this
      · simp [hij]

/-- C62 (effect on the quadratic form): with every offset at least `ε`, `xᵀ Σ x` grows by at least `ε |x|²`. -/
theorem C62_quadratic_form [IsStrictOrderedRing K] (reg : List K) (g : Gauss K) (hw : g.WF) (hr : g.dim ≤ reg.length)
    (ε : K) (hε : ∀ d < g.dim, ε ≤ reg.getD d 0) (x : Nat → K) :
    ∃ g', regularize reg g = .ret () g' ∧
      (∑ i ∈ Finset.range g.dim, ∑ j ∈ Finset.range g.dim, x i * g.covAt i j * x j) + ε * ∑ i ∈ Finset.range g.dim, x i ^ 2
        ≤ ∑ i ∈ Finset.range g.dim, ∑ j ∈ Finset.range g.dim, x i * g'.covAt i j * x j := by
  obtain ⟨g', h1, _, _, h2⟩ := C62_regularize reg g hw hr
  refine ⟨g', h1, ?_⟩
  have : ∑ i ∈ Finset.range g.dim, ∑ j ∈ Finset.range g.dim, x i * g'.covAt i j * x j =
      (∑ i ∈ Finset.range g.dim, ∑ j ∈ Finset.range g.dim, x i * g.covAt i j * x j) +
        ∑ i ∈ Finset.range g.dim, reg.getD i 0 * x i ^ 2 := by
    rw [← Finset.sum_add_distrib]
    refine Finset.sum_congr rfl fun i hi => ?_
    have hi' := Finset.mem_range.1 hi
    have e : ∀ j ∈ Finset.range g.dim, x i * g'.covAt i j * x j =
        x i * g.covAt i j * x j + if i = j then reg.getD i 0 * x i ^ 2 else 0 := by
      intro j hj
      rw [h2 i hi' j (Finset.mem_range.1 hj)]
      by_cases hij : i = j
      · subst hij; simp; ring
      · simp [hij]
    rw [Finset.sum_congr rfl e, Finset.sum_add_distrib, Finset.sum_ite_eq, if_pos hi]
  rw [this, Finset.mul_sum]
  gcongr with i hi
  exact hε i (Finset.mem_range.1 hi)

/-- the hypotheses hold of a Full distribution of dimension 2 -/
example : ∃ g : Gauss ℚ, Gauss.construct false 2 0 .full = some g ∧ g.WF ∧ g.dim ≤ ([1, 2] : List ℚ).length ∧
    ∀ d < g.dim, (1 : ℚ) ≤ ([1, 2] : List ℚ).getD d 0 := by
  refine ⟨_, rfl, ⟨rfl, rfl, rfl, by decide, by decide⟩, by decide, ?_⟩
  decide

end Gauss
end Xmm
