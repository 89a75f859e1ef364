import Verif.Props.GaussianUpdate
set_option linter.unusedSimpArgs false
set_option linter.unusedSectionVars false
/- The dimensions of a Gaussian distribution. -/
namespace Xmm
open Prog
variable {K : Type} [Field K] [LinearOrder K]
namespace Gauss

/-- a change of one of the dimensions by the user -/
inductive DimOp where
  | dim (d : Nat)
  | di (d : Nat)

/-- the call -/
def DimOp.prog : DimOp → Prog (Gauss K) Unit
  | .dim d => setDim d
  | .di d => setDi d

/-- a history of such calls, whose exceptions are caught -/
def dimRun : List DimOp → Gauss K → Gauss K
  | [], g => g
  | op :: ops, g => match op.prog g with
    | .ret _ g' => dimRun ops g'
    | .throw _ g' => dimRun ops g'
    | .ub => g

/-- the smallest dimension: input and output need one each -/
def minDim (bimodal : Bool) : Nat := if bimodal then 2 else 1

/-- number of stored values of a covariance of `n` dimensions -/
def covSize : CovMode → Nat → Nat
  | .full, n => n * n
  | .diagonal, n => n

/-- sizes and limits kept by every change of the dimensions -/
structure Sized (b : Bool) (m : CovMode) (g : Gauss K) : Prop where
  bimodal : g.bimodal = b
  mode : g.mode = m
  dimMin : g.dimMin = minDim b
  dim : minDim b ≤ g.dim
  diMax : g.diMax < g.dim
  diMaxBi : b = true → g.diMax = g.dim - 1
  mean : g.mean.length = g.dim
  cov : g.cov.length = covSize m g.dim
  inv : g.inv.length = covSize m g.dim
  invIn : b = true → g.invIn.length = covSize m g.di

theorem sized_allocate {b : Bool} {m : CovMode} (g : Gauss K) (h1 : g.bimodal = b) (h2 : g.mode = m)
    (h3 : g.dimMin = minDim b) (h4 : minDim b ≤ g.dim) (h5 : g.diMax < g.dim)
    (h6 : b = true → g.diMax = g.dim - 1) : Sized b m (allocate g) := by
  subst h1; subst h2
  unfold allocate
  split
  · rename_i hm
    refine ⟨rfl, rfl, h3, h4, h5, h6, resize_length _ _, ?_, ?_, fun hb => ?_⟩
    · simp [hm, covSize, resize_length]
    · simp [hm, covSize, resize_length]
    · simp [hm, covSize, hb, resize_length]
  · rename_i hm
    refine ⟨rfl, rfl, h3, h4, h5, h6, resize_length _ _, ?_, ?_, fun hb => ?_⟩
    · simp [hm, covSize, resize_length]
    · simp [hm, covSize, resize_length]
    · simp [hm, covSize, hb, resize_length]

theorem allocate_dims (g : Gauss K) : (allocate g).dim = g.dim ∧ (allocate g).di = g.di := by
  unfold allocate; split <;> exact ⟨rfl, rfl⟩

theorem setDim_sized {b : Bool} {m : CovMode} {g : Gauss K} (h : Sized b m g) (d : Nat) :
    if d < minDim b then setDim d g = .throw .domainError g
    else ∃ g', setDim d g = .ret () g' ∧ Sized b m g' ∧ g'.dim = d ∧ g'.di = g.di := by
  have := h.dimMin
  by_cases hd : d < minDim b
  · rw [if_pos hd]
    simp only [setDim, bind_def, get_def]
    rw [if_pos (by omega)]; rfl
  · rw [if_neg hd]
    refine ⟨allocate { g with dim := d, diMax := d - 1 }, ?_, ?_, (allocate_dims _).1, (allocate_dims _).2⟩
    · simp only [setDim, bind_def, get_def]
      rw [if_neg (by omega)]; rfl
    · have h0 : 0 < d := by unfold minDim at hd; split at hd <;> omega
      exact sized_allocate _ h.bimodal h.mode h.dimMin (Nat.le_of_not_lt hd) (by show d - 1 < d; omega) fun _ => rfl

theorem setDi_sized {b : Bool} {m : CovMode} {g : Gauss K} (h : Sized b m g) (d : Nat) :
    if g.diMax < d then setDi d g = .throw .domainError g
    else ∃ g', setDi d g = .ret () g' ∧ Sized b m g' ∧ g'.dim = g.dim ∧ g'.di = d := by
  by_cases hd : g.diMax < d
  · rw [if_pos hd]
    simp only [setDi, bind_def, get_def]
    rw [if_pos hd]; rfl
  · rw [if_neg hd]
    refine ⟨allocate { g with di := d }, ?_, ?_, (allocate_dims _).1, (allocate_dims _).2⟩
    · simp only [setDi, bind_def, get_def]
      rw [if_neg hd]; rfl
    · exact sized_allocate _ h.bimodal h.mode h.dimMin h.dim h.diMax h.diMaxBi

theorem construct_sized (b : Bool) (dim di : Nat) (m : CovMode) (g : Gauss K)
    (h : Gauss.construct b dim di m = some g) : Sized b m g := by
  unfold Gauss.construct at h
  by_cases h1 : dim < (if b then 2 else 1)
  · rw [if_pos h1] at h; cases h
  · rw [if_neg h1] at h
    by_cases h2 : (if b then dim - 1 else 0) < di
    · rw [if_pos h2] at h; cases h
    · rw [if_neg h2] at h
      have h := (Option.some.inj h).symm
      subst h
      refine sized_allocate _ rfl rfl rfl (Nat.le_of_not_lt h1) ?_ fun hb => by simp [hb]
      cases b <;> simp at h1 ⊢ <;> omega

theorem dimRun_sized {b : Bool} {m : CovMode} (ops : List DimOp) (g : Gauss K) (h : Sized b m g) :
    Sized b m (dimRun ops g) := by
  induction ops generalizing g with
  | nil => exact h
  | cons op ops ih =>
    cases op with
    | dim d =>
      have h1 := setDim_sized h d
      by_cases hd : d < minDim b
      · rw [if_pos hd] at h1
        simp only [dimRun, DimOp.prog, h1]; exact ih _ h
      · rw [if_neg hd] at h1
        obtain ⟨g', h2, h3, _⟩ := h1
        simp only [dimRun, DimOp.prog, h2]; exact ih _ h3
    | di d =>
      have h1 := setDi_sized h d
      by_cases hd : g.diMax < d
      · rw [if_pos hd] at h1
        simp only [dimRun, DimOp.prog, h1]; exact ih _ h
      · rw [if_neg hd] at h1
        obtain ⟨g', h2, h3, _⟩ := h1
        simp only [dimRun, DimOp.prog, h2]; exact ih _ h3

/-- C64: after any history of changes of the dimensions of a constructed distribution, whether they were accepted or not:
    the dimension is at least 1 (2 if bimodal); a dimension below that is rejected with `domain_error` and changes nothing,
    any other one is stored and leaves the input dimension as it was; an input dimension not below the dimension is
    rejected with `domain_error` and changes nothing, and in a bimodal distribution any other one is stored; and the
    vectors have the sizes given by the dimensions. -/
theorem C64_dimensions (b : Bool) (dim di : Nat) (m : CovMode) (g0 : Gauss K)
    (h0 : Gauss.construct b dim di m = some g0) (ops : List DimOp) :
    let g := dimRun ops g0
    minDim b ≤ g.dim ∧ (g.di ≤ g.dim → g.WF) ∧
    (∀ d, d < minDim b → setDim d g = .throw .domainError g) ∧
    (∀ d, minDim b ≤ d → ∃ g', setDim d g = .ret () g' ∧ g'.dim = d ∧ g'.di = g.di) ∧
    (∀ d, g.dim ≤ d → setDi d g = .throw .domainError g) ∧
    (b = true → ∀ d, d < g.dim → ∃ g', setDi d g = .ret () g' ∧ g'.dim = g.dim ∧ g'.di = d ∧ g'.WF) := by
  intro g
  have h : Sized b m g := dimRun_sized ops g0 (construct_sized b dim di m g0 h0)
  have wf : ∀ {g : Gauss K}, Sized b m g → g.di ≤ g.dim → g.WF := by
    intro g h hle
    obtain ⟨a1, a2, a3, a4, a5, a6, a7, a8, a9, a10⟩ := h
    subst a1
    rcases mode_cases g with hm | hm <;> rw [hm] at a2 <;> subst a2 <;>
      exact ⟨a7, by rw [hm]; exact a8, by rw [hm]; exact a9, fun hb => by rw [hm]; exact a10 hb, fun _ => hle⟩
  refine ⟨h.dim, wf h, fun d hd => ?_, fun d hd => ?_, fun d hd => ?_, fun hb d hd => ?_⟩
  · have := setDim_sized h d; rwa [if_pos hd] at this
  · have := setDim_sized h d
    rw [if_neg (by omega)] at this
    obtain ⟨g', h1, _, h2, h3⟩ := this
    exact ⟨g', h1, h2, h3⟩
  · have := setDi_sized h d
    rwa [if_pos (by have := h.diMax; omega)] at this
  · have := setDi_sized h d
    rw [if_neg (by have := h.diMaxBi hb; omega)] at this
    obtain ⟨g', h1, h2, h3, h4⟩ := this
    exact ⟨g', h1, h3, h4, wf h2 (by omega)⟩

/-- the hypothesis holds, and the history is not trivial -/
example : ∃ g0 : Gauss ℚ, Gauss.construct true 4 3 .diagonal = some g0 ∧
    (dimRun [.dim 1, .dim 6, .di 6, .di 5] g0).dim = 6 ∧ (dimRun [.dim 1, .dim 6, .di 6, .di 5] g0).di = 5 :=
  ⟨_, rfl, by decide +kernel, by decide +kernel⟩

end Gauss
end Xmm
