import Verif.Spec.Gaussian
import Verif.Props.Matrix
import Verif.Props.PhraseStats
import Mathlib.Algebra.BigOperators.Fin
import Mathlib.Algebra.BigOperators.Intervals
set_option linter.unusedSimpArgs false
set_option linter.unusedSectionVars false
/- Lemmas on the Gaussian model. -/
namespace Xmm
open Phrase (loop)
variable {K : Type}

namespace Gauss

theorem rd_lt {σ F : Type} {l : List F} {i : Nat} (h : i < l.length) (z : F) (s : σ) :
    rd l i s = .ret (l.getD i z) s := by
  simp [rd, List.getElem?_eq_getElem h, List.getD_eq_getElem?_getD]

theorem loop_ret {σ α : Type} (n : Nat) (a : α) (body : α → Nat → Prog σ α) (f : α → Nat → α) (s : σ)
    (h : ∀ a, ∀ t < n, body a t s = .ret (f a t) s) : loop n a body s = .ret ((List.range n).foldl f a) s :=
  prog_foldlM_ret _ _ _ _ _ fun a t ht => h a t (List.mem_range.1 ht)

theorem loop_sum {σ : Type} [AddCommMonoid K] (n : Nat) (a : K) (body : K → Nat → Prog σ K) (f : Nat → K) (s : σ)
    (h : ∀ a, ∀ t < n, body a t s = .ret (a + f t) s) :
    loop n a body s = .ret (a + ∑ t ∈ Finset.range n, f t) s := by
  rw [loop_ret n a body (fun a t => a + f t) s h]
  congr 1
  induction n with
  | zero => simp
  | succ n ih =>
    rw [List.range_succ, List.foldl_append, ih fun a t ht => h a t (by omega), Finset.sum_range_succ]
    simp [add_assoc]

theorem matrixOf_ret {σ : Type} [Field K] (r c : Nat) (v : List K) (idx : Nat → Nat → Nat) (s : σ)
    (h : ∀ i < r, ∀ j < c, idx i j < v.length) :
    matrixOf r c v idx s = .ret ⟨r, c, Flat.fill r c fun i j => v.getD (idx i j) 0⟩ s := by
  simp [matrixOf, if_pos h]

theorem cells_length (m : Mat K) : (cells m).length = m.nrows * m.ncols := by simp [cells]

theorem cells_getD [Zero K] {r c : Nat} (d : Flat K r c) (i : Fin r) (j : Fin c) :
    (cells ⟨r, c, d⟩).getD (i.val * c + j.val) 0 = d.at i j := by
  have h : i.val * c + j.val < r * c := flat_lt i.isLt j.isLt
  simp [cells, List.getD_eq_getElem?_getD, List.getElem?_ofFn, h, Flat.at]

theorem matOf_cells [Zero K] {r c : Nat} {m : Mat K} {M : Matrix (Fin r) (Fin c) K} (h : m.Holds M) :
    matOf r c (cells m) = M ∧ (cells m).length = r * c := by
  obtain ⟨d, rfl, hd⟩ := h.elim
  refine ⟨?_, cells_length _⟩
  funext i j
  rw [matOf, cells_getD, hd]

theorem holds_fill {r c : Nat} (f : Fin r → Fin c → K) : (⟨r, c, Flat.fill r c f⟩ : Mat K).Holds (fun i j => f i j) :=
  (Mat.holds_iff _ _).2 fun i j => by simp

theorem copyInto_ret {σ F : Type} (src dst : List F) (s : σ) (h : src.length = dst.length) :
    copyInto src dst s = .ret src s := by
  simp [copyInto, h]

theorem resize_length {F : Type} [Zero F] (n : Nat) (l : List F) : (resize n l).length = n := by
  simp [resize]; omega

theorem lift_ok {σ α : Type} (a : α) (s : σ) : lift (.ok a) s = (.ret a s : Res σ α) := rfl

/-! ### Full mode -/

section
variable [Field K] [LinearOrder K]

/-- the matrix of line 395 -/
def covMat (g : Gauss K) : Mat K := ⟨g.dim, g.dim, Flat.fill g.dim g.dim fun i j => g.cov.getD (i.val * g.dim + j.val) 0⟩

/-- the matrix of lines 406-412 -/
def covMatIn (g : Gauss K) : Mat K := ⟨g.di, g.di, Flat.fill g.di g.di fun i j => g.cov.getD (i.val * g.dim + j.val) 0⟩

theorem covMat_holds (g : Gauss K) (hm : g.mode = .full) : (covMat g).Holds g.sigma := by
  unfold sigma; rw [hm]; exact holds_fill _

theorem covMatIn_holds (g : Gauss K) (hm : g.mode = .full) (h : g.di ≤ g.dim) : (covMatIn g).Holds (g.sigmaIn h) := by
  have : g.sigmaIn h = fun i j => g.cov.getD (i.val * g.dim + j.val) 0 := by
    funext i j; simp [sigmaIn, sigma, hm, matOf]
  rw [this]; exact holds_fill _

theorem matrixOf_cov {σ : Type} (g : Gauss K) (hw : g.WF) (hm : g.mode = .full) (s : σ) :
    matrixOf g.dim g.dim g.cov (fun i j => i * g.dim + j) s = .ret (covMat g) s := by
  have hl : g.cov.length = g.dim * g.dim := by have := hw.cov; rw [hm] at this; exact this
  exact matrixOf_ret _ _ _ _ _ fun i hi j hj => by rw [hl]; exact flat_lt hi hj

theorem matrixOf_covIn {σ : Type} (g : Gauss K) (hw : g.WF) (hm : g.mode = .full) (hb : g.bimodal = true) (s : σ) :
    matrixOf g.di g.di g.cov (fun i j => i * g.dim + j) s = .ret (covMatIn g) s := by
  have hl : g.cov.length = g.dim * g.dim := by have := hw.cov; rw [hm] at this; exact this
  have := hw.le hb
  exact matrixOf_ret _ _ _ _ _ fun i hi j hj => by rw [hl]; exact flat_lt (by omega) (by omega)

theorem pinv_cells {n : Nat} [IsStrictOrderedRing K] {m x : Mat K} {d : K} {A : Matrix (Fin n) (Fin n) K}
    (hm : m.Holds A) (h : m.pinv = .ok (x, d)) :
    (cells x).length = n * n ∧ matOf n n (cells x) * A = 1 ∧ A * matOf n n (cells x) = 1 := by
  obtain ⟨X, h1, h2, h3⟩ := C09_inverse_sound m x d A hm h
  obtain ⟨e1, e2⟩ := matOf_cells h1
  rw [e1]; exact ⟨e2, h2, h3⟩

/-- the Full branch, described by the results of the two inversions -/
theorem updateInverseFull_eq [IsStrictOrderedRing K] (g : Gauss K) (hw : g.WF) (hm : g.mode = .full) :
    updateInverseFull g =
      match (covMat g).pinv with
      | .error e => .throw e g
      | .ok (x, d) =>
        if g.bimodal then
          match (covMatIn g).pinv with
          | .error e => .throw e { g with det := d, inv := cells x }
          | .ok (y, d') => .ret () { g with det := d, inv := cells x, detIn := d', invIn := cells y }
        else .ret () { g with det := d, inv := cells x } := by
  have hi : g.inv.length = g.dim * g.dim := by have := hw.inv; rw [hm] at this; exact this
  simp only [updateInverseFull, Prog.bind_def, Prog.get_def, matrixOf_cov g hw hm]
  cases hp : (covMat g).pinv with
  | error e => simp [lift]
  | ok r =>
    obtain ⟨x, d⟩ := r
    have hlen := (pinv_cells (covMat_holds g hm) hp).1
    simp only [lift_ok, copyInto_ret (cells x) g.inv _ (by rw [hlen, hi]), Prog.set_def]
    cases hb : g.bimodal with
    | false => simp
    | true =>
      simp only [if_true]
      rw [Prog.bind_def, matrixOf_covIn g hw hm hb]
      simp only [Prog.bind_def]
      cases hp2 : (covMatIn g).pinv with
      | error e => simp [lift]
      | ok r2 =>
        obtain ⟨y, d'⟩ := r2
        have hlen2 := (pinv_cells (covMatIn_holds g hm (hw.le hb)) hp2).1
        have hii : g.invIn.length = g.di * g.di := by have := hw.invIn hb; rw [hm] at this; exact this
        simp only [lift_ok, copyInto_ret (cells y) g.invIn _ (by rw [hlen2, hii]), Prog.set_def]

/-! ### Diagonal mode -/

/-- the state after `n` iterations of the loop of lines 429-438 -/
def diagState (g : Gauss K) (n : Nat) : Gauss K :=
  { g with
    det := ∏ i ∈ Finset.range n, g.cov.getD i 0,
    detIn := if g.bimodal then ∏ i ∈ Finset.range (min n g.di), g.cov.getD i 0 else 1,
    inv := (List.range n).map (fun i => 1 / g.cov.getD i 0) ++ g.inv.drop n,
    invIn := if g.bimodal then (List.range (min n g.di)).map (fun i => 1 / g.cov.getD i 0) ++ g.invIn.drop (min n g.di)
      else g.invIn }

theorem set_map_range_append {F : Type} (f : Nat → F) (l : List F) (n : Nat) (hn : n < l.length) :
    ((List.range n).map f ++ l.drop n).set n (f n) = (List.range (n + 1)).map f ++ l.drop (n + 1) := by
  rw [List.set_append_right _ _ (by simp), List.range_succ]
  have : n - ((List.range n).map f).length = 0 := by simp
  rw [this, List.drop_eq_getElem_cons hn, List.set_cons_zero]
  simp

/-- the body of the loop -/
def diagBody (_ : Unit) (d : Nat) : Prog (Gauss K) Unit := do
    let g ← Prog.get
    let c ← rd g.cov d
    if c ≤ 0 then Prog.throw .runtimeError
    else do
      let _ ← rd g.inv d
      Prog.modify fun g => { g with inv := g.inv.set d (1 / c), det := g.det * c }
      if g.bimodal && d < g.di then do
        let _ ← rd g.invIn d
        Prog.modify fun g => { g with invIn := g.invIn.set d (1 / c), detIn := g.detIn * c }
      else pure ()

theorem diagBody_step (g : Gauss K) (hw : g.WF) (hm : g.mode = .diagonal) (n : Nat) (hn : n < g.dim) :
    diagBody () n (diagState g n) =
      if g.cov.getD n 0 ≤ 0 then .throw .runtimeError (diagState g n) else .ret () (diagState g (n + 1)) := by
  have hc : g.cov.length = g.dim := by have := hw.cov; rw [hm] at this; exact this
  have hi : g.inv.length = g.dim := by have := hw.inv; rw [hm] at this; exact this
  have hr : rd (diagState g n).cov n (diagState g n) = .ret (g.cov.getD n 0) (diagState g n) :=
    rd_lt (by simp only [diagState]; omega) 0 _
  simp only [diagBody, Prog.bind_def, Prog.get_def, hr]
  split
  · simp
  · have hr2 : rd (diagState g n).inv n (diagState g n) = .ret ((diagState g n).inv.getD n 0) (diagState g n) :=
      rd_lt (by simp [diagState]; omega) 0 _
    simp only [Prog.bind_def, hr2, Prog.modify_def]
    have hinv : ((diagState g n).inv).set n (1 / g.cov.getD n 0) = (diagState g (n + 1)).inv :=
      set_map_range_append (fun i => 1 / g.cov.getD i 0) g.inv n (by omega)
    have hdet : (diagState g n).det * g.cov.getD n 0 = (diagState g (n + 1)).det := by
      simp [diagState, Finset.prod_range_succ]
    cases hb : g.bimodal with
    | false =>
      have hbb : (diagState g n).bimodal = false := hb
      simp only [hbb, Bool.false_and, Bool.false_eq_true, if_false, Prog.pure_def]
      rw [hinv, hdet]
      simp [diagState, hb]
    | true =>
      have hbb : (diagState g n).bimodal = true := hb
      have hii : g.invIn.length = g.di := by have := hw.invIn hb; rw [hm] at this; exact this
      simp only [hbb, Bool.true_and, decide_eq_true_eq]
      by_cases hnd : n < g.di
      · have hnd' : n < (diagState g n).di := hnd
        have h1 : min n g.di = n := by omega
        have h2 : min (n + 1) g.di = n + 1 := by omega
        have hl : (diagState g n).invIn.length = g.di := by simp [diagState, hb, h1]; omega
        simp only [hnd', if_true, Prog.bind_def]
        rw [rd_lt (by rw [hl]; exact hnd) 0]
        simp only [Prog.modify_def]
        have hii2 : ((diagState g n).invIn).set n (1 / g.cov.getD n 0) = (diagState g (n + 1)).invIn := by
          simp only [diagState, hb, if_true, h1, h2]
          exact set_map_range_append (fun i => 1 / g.cov.getD i 0) g.invIn n (by omega)
        have hdi2 : (diagState g n).detIn * g.cov.getD n 0 = (diagState g (n + 1)).detIn := by
          simp [diagState, hb, h1, h2, Finset.prod_range_succ]
        rw [hinv, hdet, hii2, hdi2]
        simp [diagState, hb]
      · have hnd' : ¬ n < (diagState g n).di := hnd
        have h1 : min n g.di = g.di := by omega
        have h2 : min (n + 1) g.di = g.di := by omega
        simp only [hnd', if_false, Prog.pure_def]
        rw [hinv, hdet]
        simp [diagState, hb, h1, h2]

theorem diagLoop (g : Gauss K) (hw : g.WF) (hm : g.mode = .diagonal) (n : Nat) (hn : n ≤ g.dim) :
    ((∀ i < n, 0 < g.cov.getD i 0) → loop n () diagBody (diagState g 0) = .ret () (diagState g n)) ∧
    (∀ j < n, g.cov.getD j 0 ≤ 0 → (∀ i < j, 0 < g.cov.getD i 0) →
      loop n () diagBody (diagState g 0) = .throw .runtimeError (diagState g j)) := by
  induction n with
  | zero => exact ⟨fun _ => rfl, fun j hj => by omega⟩
  | succ n ih =>
    obtain ⟨i1, i2⟩ := ih (by omega)
    refine ⟨fun h => ?_, fun j hj hc hp => ?_⟩
    · rw [loop_succ, i1 fun i hi => h i (by omega)]
      simp only [diagBody_step g hw hm n (by omega)]
      rw [if_neg (not_le.2 (h n (by omega)))]
    · rw [loop_succ]
      rcases Nat.lt_succ_iff_lt_or_eq.1 hj with h | rfl
      · rw [i2 j h hc hp]
      · rw [i1 hp]
        simp only [diagBody_step g hw hm j (by omega)]
        rw [if_pos hc]

theorem updateInverseDiagonal_eq (g : Gauss K) (hw : g.WF) (hm : g.mode = .diagonal) :
    ((∀ i < g.dim, 0 < g.cov.getD i 0) → updateInverseDiagonal g = .ret () (diagState g g.dim)) ∧
    (∀ j < g.dim, g.cov.getD j 0 ≤ 0 → (∀ i < j, 0 < g.cov.getD i 0) →
      updateInverseDiagonal g = .throw .runtimeError (diagState g j)) := by
  have h0 : ({ g with det := 1, detIn := 1 } : Gauss K) = diagState g 0 := by
    cases hb : g.bimodal <;> simp [diagState, hb]
  have : updateInverseDiagonal g = loop g.dim () diagBody (diagState g 0) := by
    simp only [updateInverseDiagonal, Prog.bind_def, Prog.modify_def, Prog.get_def]
    rw [h0]; rfl
  rw [this]
  exact diagLoop g hw hm g.dim (le_refl _)

theorem first_nonpos (f : Nat → K) (n : Nat) : (∀ i < n, 0 < f i) ∨ ∃ j < n, f j ≤ 0 ∧ ∀ i < j, 0 < f i := by
  induction n with
  | zero => left; intro i hi; omega
  | succ n ih =>
    rcases ih with h | ⟨j, h1, h2, h3⟩
    · rcases le_or_gt (f n) 0 with h' | h'
      · exact Or.inr ⟨n, by omega, h', h⟩
      · left; intro i hi
        rcases Nat.lt_succ_iff_lt_or_eq.1 hi with h2 | rfl
        · exact h i h2
        · exact h'
    · exact Or.inr ⟨j, by omega, h2, h3⟩

/-! ### Output covariance -/

theorem updateOutput_diagonal (g : Gauss K) (hw : g.WF) (hm : g.mode = .diagonal) (hb : g.bimodal = true) :
    updateOutputCovariance g = .ret () { g with outCov := g.cov.drop g.di } := by
  have hc : g.cov.length = g.dim := by have := hw.cov; rw [hm] at this; exact this
  have hle := hw.le hb
  have h1 : ¬ g.dim < g.di := by omega
  have h2 : g.cov.take g.dim = g.cov := List.take_of_length_le (by omega)
  simp [updateOutputCovariance, hb, outDim, h1, hm, hc, h2]

/-- `S_oo - S_oi X S_io` -/
theorem updateOutput_full [IsStrictOrderedRing K] (g : Gauss K) (hw : g.WF) (hm : g.mode = .full) (hb : g.bimodal = true) :
    (∀ e, (covMatIn g).pinv = .error e → updateOutputCovariance g = .throw e g) ∧
    (∀ y d, (covMatIn g).pinv = .ok (y, d) → ∃ v, updateOutputCovariance g = .ret () { g with outCov := v } ∧
      v.length = (g.dim - g.di) * (g.dim - g.di) ∧
      matOf (g.dim - g.di) (g.dim - g.di) v = g.sigmaOut - g.sigmaOutIn (hw.le hb) * (matOf g.di g.di (cells y) *
        g.sigmaInOut (hw.le hb))) := by
  have hl : g.cov.length = g.dim * g.dim := by have := hw.cov; rw [hm] at this; exact this
  have hle := hw.le hb
  have h1 : ¬ g.dim < g.di := by omega
  constructor
  · intro e he
    simp only [updateOutputCovariance, Prog.bind_def, Prog.get_def, hb, Bool.not_true, Bool.false_eq_true, if_false, outDim, h1,
      Prog.pure_def, hm, matrixOf_covIn g hw hm hb, he, lift, Prog.throw_def]
  · intro y d he
    obtain ⟨Y, hY, _, _⟩ := C09_inverse_sound _ y d _ (covMatIn_holds g hm hle) he
    have eGs : ∀ s : Gauss K, matrixOf g.di (g.dim - g.di) g.cov (fun d1 d2 => d1 * g.dim + g.di + d2) s =
        .ret ⟨g.di, g.dim - g.di, Flat.fill _ _ fun i j => g.cov.getD (i.val * g.dim + g.di + j.val) 0⟩ s := fun s =>
      matrixOf_ret _ _ _ _ _ fun i hi j hj => by
        rw [hl, Nat.add_assoc]; exact flat_lt (by omega) (by omega)
    have eSg : ∀ s : Gauss K, matrixOf (g.dim - g.di) g.di g.cov (fun d1 d2 => (g.di + d1) * g.dim + d2) s =
        .ret ⟨g.dim - g.di, g.di, Flat.fill _ _ fun i j => g.cov.getD ((g.di + i.val) * g.dim + j.val) 0⟩ s := fun s =>
      matrixOf_ret _ _ _ _ _ fun i hi j hj => by
        rw [hl]; exact flat_lt (by omega) (by omega)
    have eOut : ∀ s : Gauss K, matrixOf (g.dim - g.di) (g.dim - g.di) g.cov
        (fun d1 d2 => (g.di + d1) * g.dim + g.di + d2) s =
        .ret ⟨g.dim - g.di, g.dim - g.di, Flat.fill _ _ fun i j => g.cov.getD ((g.di + i.val) * g.dim + g.di + j.val) 0⟩ s :=
      fun s => matrixOf_ret _ _ _ _ _ fun i hi j hj => by
        rw [hl, Nat.add_assoc]; exact flat_lt (by omega) (by omega)
    have hGs : (⟨g.di, g.dim - g.di, Flat.fill _ _ fun i j => g.cov.getD (i.val * g.dim + g.di + j.val) 0⟩ : Mat K).Holds
        (g.sigmaInOut hle) := by
      have : g.sigmaInOut hle = fun i j => g.cov.getD (i.val * g.dim + g.di + j.val) 0 := by
        funext i j; simp [sigmaInOut, sigma, hm, matOf, outIx, Nat.add_assoc]
      rw [this]; exact holds_fill _
    have hSg : (⟨g.dim - g.di, g.di, Flat.fill _ _ fun i j => g.cov.getD ((g.di + i.val) * g.dim + j.val) 0⟩ : Mat K).Holds
        (g.sigmaOutIn hle) := by
      have : g.sigmaOutIn hle = fun i j => g.cov.getD ((g.di + i.val) * g.dim + j.val) 0 := by
        funext i j; simp [sigmaOutIn, sigma, hm, matOf, outIx]
      rw [this]; exact holds_fill _
    have hOut : (⟨g.dim - g.di, g.dim - g.di,
        Flat.fill _ _ fun i j => g.cov.getD ((g.di + i.val) * g.dim + g.di + j.val) 0⟩ : Mat K).Holds g.sigmaOut := by
      have : g.sigmaOut = fun i j => g.cov.getD ((g.di + i.val) * g.dim + g.di + j.val) 0 := by
        funext i j; simp [sigmaOut, sigma, hm, matOf, outIx, Nat.add_assoc]
      rw [this]; exact holds_fill _
    obtain ⟨tmp, et, ht⟩ := C08_product _ _ _ _ hY hGs
    obtain ⟨mod, em, hmod⟩ := C08_product _ _ _ _ hSg ht
    obtain ⟨c1, l1⟩ := matOf_cells hOut
    obtain ⟨c2, l2⟩ := matOf_cells hmod
    refine ⟨List.zipWith (fun a b => a - b) (cells ⟨g.dim - g.di, g.dim - g.di,
        Flat.fill _ _ fun i j => g.cov.getD ((g.di + i.val) * g.dim + g.di + j.val) 0⟩) (cells mod), ?_, ?_, ?_⟩
    · simp only [updateOutputCovariance, Prog.bind_def, Prog.get_def, hb, Bool.not_true, Bool.false_eq_true, if_false, outDim, h1,
        Prog.pure_def, hm, matrixOf_covIn g hw hm hb, he, lift_ok, eGs, eSg, eOut, et, em, Prog.set_def]
    · rw [List.length_zipWith, l1, l2, Nat.min_self]
    · funext i j
      have hij : i.val * (g.dim - g.di) + j.val < (g.dim - g.di) * (g.dim - g.di) := flat_lt i.isLt j.isLt
      rw [(matOf_cells hY).1]
      have e1 := congrFun (congrFun c1 i) j
      have e2 := congrFun (congrFun c2 i) j
      simp only [matOf] at e1 e2 ⊢
      rw [Matrix.sub_apply, ← e1, ← e2]
      rw [← l1] at hij
      generalize cells (⟨g.dim - g.di, g.dim - g.di,
        Flat.fill _ _ fun i j => g.cov.getD ((g.di + i.val) * g.dim + g.di + j.val) 0⟩ : Mat K) = la at *
      generalize cells mod = lb at *
      have hijb : i.val * (g.dim - g.di) + j.val < lb.length := by omega
      simp [List.getD_eq_getElem?_getD, List.getElem?_zipWith, List.getElem?_eq_getElem hij,
        List.getElem?_eq_getElem hijb]

end
end Gauss
end Xmm
