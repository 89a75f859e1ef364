import Verif.Props.GaussianJson
set_option linter.unusedSimpArgs false
set_option linter.unusedSectionVars false
/- C33 (reachable cases) and C80: copies of a distribution. -/
namespace Xmm
open Prog (bind_def pure_def get_def set_def modify_def throw_def undef_def)

namespace Gauss
variable {K : Type} [Field K] [LinearOrder K] [IsStrictOrderedRing K]

/-- C33 (the hypotheses are met): a constructed distribution whose mean, covariance and cached values have been filled, with vectors of the same sizes, is `Plain`. -/
theorem C33_constructed (b : Bool) (dim di : Nat) (m : CovMode) (g : Gauss K) (h : Gauss.construct b dim di m = some g) (hd : dim ≤ uintMax)
    (mean cov inv invIn outCov : List K) (det detIn : K) (h1 : mean.length = g.mean.length) (h2 : cov.length = g.cov.length)
    (h3 : inv.length = g.inv.length) (h4 : invIn.length = g.invIn.length) :
    Plain { g with mean := mean, cov := cov, inv := inv, invIn := invIn, outCov := outCov, det := det, detIn := detIn } ∧ g.mode = m := by
  obtain ⟨hw, e1, e2, e3, e4⟩ := C31_sizes_reachable b dim di m g h
  have hdi : (if b then 2 else 1) ≤ dim ∧ di ≤ (if b then dim - 1 else 0) := by
    unfold Gauss.construct at h
    by_cases c1 : dim < (if b then 2 else 1)
    · rw [if_pos c1] at h; cases h
    · rw [if_neg c1] at h
      by_cases c2 : (if b then dim - 1 else 0) < di
      · rw [if_pos c2] at h; cases h
      · exact ⟨Nat.le_of_not_lt c1, Nat.le_of_not_lt c2⟩
  have hnone : b = false → g.invIn = [] := by
    intro hb
    subst hb
    unfold Gauss.construct at h
    by_cases c1 : dim < 1
    · rw [if_pos (by simpa using c1)] at h; cases h
    · rw [if_neg (by simpa using c1)] at h
      by_cases c2 : 0 < di
      · rw [if_pos (by simpa using c2)] at h; cases h
      · rw [if_neg (by simpa using c2)] at h
        have h := (Option.some.inj h).symm
        subst h
        cases m <;> rfl
  refine ⟨⟨by simpa [e1] using hd, ?_, by rw [h1]; exact hw.mean, by rw [h2]; exact hw.cov, by rw [h3]; exact hw.inv,
    fun hb => by rw [h4]; exact hw.invIn hb, fun hb => ?_, ?_⟩, e3⟩
  · have := hdi.2
    show g.di ≤ uintMax
    rw [e2]
    cases b <;> simp at this <;> omega
  · have hb : b = false := by rw [← e4]; exact hb
    have := hdi.2
    rw [hb] at this
    simp at this
    refine ⟨by show g.di = 0; omega, ?_⟩
    rw [hnone hb] at h4
    exact List.length_eq_zero_iff.1 h4
  · show (if g.bimodal then 2 else 1) ≤ g.dim
    rw [e4, e1]; exact hdi.1

end Gauss

/-- a change of a parameter of a distribution -/
inductive GaussOp where
  | dim (d : Nat)
  | di (d : Nat)
  | mode (m : CovMode)

/-- the change as specified: the value is set and the vectors follow (Model/Gaussian.lean) -/
def GaussOp.spec {K : Type} [Field K] [LinearOrder K] : GaussOp → Prog (Gauss K) Unit
  | .dim d => Gauss.setDim d
  | .di d => Gauss.setDi d
  | .mode m => Gauss.setMode m

/-- the call on an object with callbacks -/
def GaussOp.call {K : Type} [Field K] [LinearOrder K] (alive : Nat → Bool) (me : Nat) : GaussOp → Prog (GaussObj K) Unit
  | .dim d => GaussObj.setDim alive me d
  | .di d => GaussObj.setDi alive me d
  | .mode m => GaussObj.setMode alive me m

/-- a history of calls, whose exceptions are caught; `none` after undefined behaviour -/
def runAll {σ : Type} : List (Prog σ Unit) → σ → Option σ
  | [], s => some s
  | p :: ps, s => match p s with
    | .ret _ s' => runAll ps s'
    | .throw _ s' => runAll ps s'
    | .ub => none

namespace GaussObj
variable {K : Type} [Field K] [LinearOrder K] {alive : Nat → Bool} {me : Nat}

/-- every callback is bound to the object itself -/
structure Own (me : Nat) (s : GaussObj K) : Prop where
  dim : s.onDim = some me
  di : s.onDi = some me
  mode : s.onMode = some me

theorem call_own (op : GaussOp) (s : GaussObj K) (h : s.Own me) :
    op.call alive me s = onGauss op.spec s := by
  obtain ⟨h1, h2, h3⟩ := h
  cases op with
  | dim d =>
    simp only [GaussOp.call, GaussOp.spec, setDim, onGauss, Gauss.setDim, bind_def, get_def]
    by_cases hd : d < s.g.dimMin
    · rw [if_pos hd, if_pos hd]; rfl
    · rw [if_neg hd, if_neg hd]
      simp only [bind_def, modify_def, notify, h1, if_true, set_def]
  | di d =>
    simp only [GaussOp.call, GaussOp.spec, setDi, onGauss, Gauss.setDi, bind_def, get_def]
    by_cases hd : s.g.diMax < d
    · rw [if_pos hd, if_pos hd]; rfl
    · rw [if_neg hd, if_neg hd]
      simp only [bind_def, modify_def, notify, h2, if_true, set_def]
  | mode m =>
    simp only [GaussOp.call, GaussOp.spec, setMode, bind_def, get_def, modify_def, notify, h3, if_true, onGauss, Gauss.setMode]

theorem history_own (ops : List GaussOp) (s : GaussObj K) (h : s.Own me) :
    (runAll (ops.map (GaussOp.call alive me)) s).map g = runAll (ops.map GaussOp.spec) s.g := by
  induction ops generalizing s with
  | nil => rfl
  | cons op ops ih =>
    simp only [List.map_cons, runAll, call_own op s h, onGauss]
    cases op.spec s.g with
    | ret a g => exact ih _ ⟨h.1, h.2, h.3⟩
    | throw e g => exact ih _ ⟨h.1, h.2, h.3⟩
    | ub => rfl

/-- C80 (copies): a distribution constructed, or copied by the copy constructor, follows every history of changes of its dimensions and mode exactly as its source
    would; the callbacks of the copy never involve another object, whether the source still exists or not. -/
theorem C80_copy (src : GaussObj K) (ops : List GaussOp) :
    (runAll (ops.map (GaussOp.call alive me)) (copy me src)).map g = runAll (ops.map GaussOp.spec) src.g :=
  history_own ops _ ⟨rfl, rfl, rfl⟩

theorem C80_constructed (b : Bool) (dim di : Nat) (m : CovMode) (s : GaussObj K) (h : construct me b dim di m = some s) (ops : List GaussOp) :
    (runAll (ops.map (GaussOp.call alive me)) s).map g = runAll (ops.map GaussOp.spec) s.g := by
  refine history_own ops _ ?_
  simp only [construct, Option.map_eq_some_iff] at h
  obtain ⟨g, _, rfl⟩ := h
  exact ⟨rfl, rfl, rfl⟩

/-- C80 (false for an assigned distribution, the source living): the assignment restores every value, but then a new dimension is recorded without resizing anything. -/
theorem C80_assigned_violated (other : Nat) (ho : other ≠ me) (ha : alive other = true) (src dst : GaussObj K) (hs : src.Own other) (d : Nat)
    (hd : src.g.dimMin ≤ d) :
    setDim alive me d (assignFrom src dst) = .ret () { src with g := { src.g with dim := d } } := by
  simp only [setDim, assignFrom, bind_def, get_def, if_neg (by omega : ¬ d < src.g.dimMin), modify_def, hs.dim, notify, if_neg ho, ha, if_true, pure_def]

/-- C80 (undefined behaviour for an assigned distribution whose source has been destroyed): any later accepted change of a dimension or of the mode. -/
theorem C80_assigned_ub (other : Nat) (ho : other ≠ me) (ha : alive other = false) (src dst : GaussObj K) (hs : src.Own other) :
    (∀ d, src.g.dimMin ≤ d → setDim alive me d (assignFrom src dst) = .ub) ∧
    (∀ d, d ≤ src.g.diMax → setDi alive me d (assignFrom src dst) = .ub) ∧
    ∀ m, setMode alive me m (assignFrom src dst) = .ub := by
  refine ⟨fun d hd => ?_, fun d hd => ?_, fun m => ?_⟩
  · simp only [setDim, assignFrom, bind_def, get_def, if_neg (by omega : ¬ d < src.g.dimMin), modify_def, hs.dim, notify, if_neg ho, ha]
    rfl
  · simp only [setDi, assignFrom, bind_def, get_def, if_neg (by omega : ¬ src.g.diMax < d), modify_def, hs.di, notify, if_neg ho, ha]
    rfl
  · simp only [setMode, assignFrom, bind_def, get_def, modify_def, hs.mode, notify, if_neg ho, ha]
    rfl

variable [JsonReal K]

/-- C80, C33 (undefined behaviour after `fromJson`): the callbacks are bound to the temporary, which is gone; every later change of the mode is undefined behaviour,
    and so is every accepted change of a dimension. -/
theorem C80_fromJson_ub (tmp : Nat) (ht : tmp ≠ me) (ha : alive tmp = false) (root : Json K) (s s' : GaussObj K)
    (h : fromJson tmp root s = .ret () s') :
    (∀ d, s'.g.dimMin ≤ d → setDim alive me d s' = .ub) ∧ (∀ d, d ≤ s'.g.diMax → setDi alive me d s' = .ub) ∧ ∀ m, setMode alive me m s' = .ub := by
  have hl := fromJson_loaded tmp root s s' h
  exact C80_assigned_ub tmp ht ha s' s ⟨hl.1, hl.2.1, hl.2.2⟩

end GaussObj

/-! ### concrete cases -/

/-- a bimodal distribution in Full mode, with its inverse and its output covariance -/
def someGauss : Gauss ℚ :=
  ⟨true, 2, 2, 1, 1, .full, [1, 2], [2, 1, 1, 2], [2/3, -1/3, -1/3, 2/3], 3, [1/2], 2, [3/2]⟩

example : someGauss.Plain := ⟨by decide, by decide, rfl, rfl, rfl, fun _ => rfl, by simp [someGauss], by decide⟩

/-- it is what the library computes -/
example : ∃ g : Gauss ℚ, Gauss.construct true 2 1 .full = some g ∧
    Gauss.updateInverseCovariance { g with mean := [1, 2], cov := [2, 1, 1, 2] } = .ret () someGauss := by
  refine ⟨_, rfl, ?_⟩
  decide +kernel

/-- its output covariance is lost by the JSON round trip -/
theorem C33_output_covariance_lost : ∃ s', GaussObj.fromJson 7 someGauss.toJson ⟨someGauss, none, none, none⟩ = .ret () s' ∧
    someGauss.outCov = [3/2] ∧ s'.g.outCov = [] := by
  have hp : someGauss.Plain := ⟨by decide, by decide, rfl, rfl, rfl, fun _ => rfl, by simp [someGauss], by decide⟩
  obtain ⟨s', h, _⟩ := GaussObj.C33_round_trip_partial someGauss hp (.inl rfl) 7 ⟨someGauss, none, none, none⟩
  exact ⟨s', h, rfl, (GaussObj.C33_output_covariance_violated someGauss hp rfl 7 _ s' h).2⟩

/-- C33 (undefined behaviour): a JSON in Diagonal mode with a full covariance matrix writes outside the vector. -/
theorem C33_diagonal_ub (s : GaussObj ℚ) : ∃ root, GaussObj.fromJson 7 root s = .ub :=
  ⟨.obj [("bimodal", .bool false), ("dimension", .int 2), ("dimension_input", .int 0), ("covariance_mode", .int 1),
    ("mean", .arr [.real 0, .real 0]), ("covariance", .arr [.real 1, .real 0, .real 0, .real 1])], by
    rw [GaussObj.fromJson_eq]
    rfl⟩

/-- a diagonal distribution -/
example : ∃ g : Gauss ℚ, Gauss.construct false 2 0 .diagonal = some g ∧ g.Plain ∧ g.mode = .diagonal ∧ 2 ≤ g.dim := by
  refine ⟨_, rfl, ?_, rfl, by decide⟩
  exact (Gauss.C33_constructed false 2 0 .diagonal _ rfl (by decide) _ _ _ _ _ _ _ rfl rfl rfl rfl).1

/-- a unimodal distribution whose input dimension can be set: after a change of the dimension -/
example : ∃ g g1 g2 : Gauss ℚ, Gauss.construct false 2 0 .full = some g ∧ Gauss.setDim 2 g = .ret () g1 ∧ Gauss.setDi 1 g1 = .ret () g2 ∧
    g2.bimodal = false ∧ g2.di = 1 ∧ g2.invIn = [] ∧ g2.mean.length = g2.dim ∧ g2.cov.length = g2.dim * g2.dim :=
  ⟨_, _, _, rfl, rfl, rfl, rfl, rfl, rfl, rfl, rfl⟩

/-- an object assigned from a temporary -/
example : (⟨someGauss, some 7, some 7, some 7⟩ : GaussObj ℚ).Own 7 := ⟨rfl, rfl, rfl⟩

end Xmm
