import Verif.Lemmas.Reads
import Verif.Spec.JsonFile
import Verif.Props.PhraseJson
import Verif.Props.GaussianJson
import Verif.Props.ModelJsonFail
set_option linter.unusedSimpArgs false
set_option linter.unusedSectionVars false
/- C86: loading arbitrary JSON: an exception leaves the object as it was, what is accepted is coherent. -/
namespace Xmm
open Prog (bind_def pure_def get_def set_def modify_def throw_def undef_def)

section
variable {K T σ : Type}

theorem liftE_ret {α : Type} {x : Except Exn α} {s s' : σ} {a : α} (h : liftE x s = .ret a s') : x = .ok a ∧ s' = s := by
  cases x with
  | ok b => injection h with h1 h2; exact ⟨by rw [h1], h2.symm⟩
  | error e => cases h

theorem bindE_inv {α β : Type} {x : Except Exn α} {q : α → Prog σ β} {s s'' : σ} {b : β} (h : (liftE x >>= q) s = .ret b s'') :
    ∃ a, x = .ok a ∧ q a s = .ret b s'' := by
  obtain ⟨a, s', h1, h2⟩ := bind_inv h
  obtain ⟨h3, rfl⟩ := liftE_ret h1
  exact ⟨a, h3, h2⟩

theorem Reads.bind_inv {α β : Type} {p : Prog σ α} {q : α → Prog σ β} {s s'' : σ} {b : β} (hp : p.Reads) (h : (p >>= q) s = .ret b s'') :
    ∃ a, p s = .ret a s ∧ q a s = .ret b s'' := by
  obtain ⟨a, s', h1, h2⟩ := Xmm.bind_inv h
  obtain rfl := hp.ret h1
  exact ⟨a, h1, h2⟩

/-- a reader that returns has replaced a part of the target -/
theorem readLoop_ret (c : JsonCodec K T) (l : List (Json K)) (pre rest a' : List T)
    (h : readLoop c l pre.length (pre ++ rest) = .ret () a') :
    ∃ vs, vs.length = l.length ∧ l.length ≤ rest.length ∧ a' = pre ++ vs ++ rest.drop l.length ∧ l.map c.dec = vs.map .ok := by
  induction l generalizing pre rest with
  | nil =>
    rw [readLoop, pure_def] at h
    injection h with _ h
    exact ⟨[], rfl, by simp, by simp [← h], rfl⟩
  | cons x xs ih =>
    rw [readLoop] at h
    cases hx : c.dec x with
    | error e => rw [hx] at h; cases h
    | ok v =>
      rw [hx] at h
      simp only [bind_def, get_def] at h
      cases rest with
      | nil => simp [undef_def] at h
      | cons r rs =>
        rw [if_pos (by simp)] at h
        simp only [bind_def, set_def] at h
        have e : (pre ++ r :: rs).set pre.length v = (pre ++ [v]) ++ rs := by simp
        rw [e, show pre.length + 1 = (pre ++ [v]).length by simp] at h
        obtain ⟨vs, h1, h2, h3, h4⟩ := ih _ _ h
        exact ⟨v :: vs, by simp [h1], by simpa using h2, by simp [h3], by simp [hx, h4]⟩

theorem json2array_ret (c : JsonCodec K T) (root : Json K) (n : Nat) (a a' : List T) (h : json2array c root n a = .ret () a') :
    ∃ l vs, root = .arr l ∧ l.length = n ∧ vs.length = n ∧ n ≤ a.length ∧ a' = vs ++ a.drop n ∧ l.map c.dec = vs.map .ok := by
  unfold json2array at h
  cases root with
  | arr l =>
    simp only at h
    split at h
    · cases h
    · rename_i hn
      have hn : l.length = n := by simpa using hn
      obtain ⟨vs, h1, h2, h3, h4⟩ := readLoop_ret c l [] a a' h
      exact ⟨l, vs, rfl, hn, h1.trans hn, hn ▸ h2, by rw [h3, hn]; rfl, h4⟩
  | _ => cases h

end

/-! ### Gaussian distributions -/

namespace Gauss
variable {K σ : Type} [Field K] [DecidableEq K] [JsonReal K]

/-- a vector that has been read: it is as long as before, and if anything is declared the node holds exactly that many numbers -/
theorem readVector_ret {node : Json K} {n : Nat} {v v' : List K} {s s' : σ} (h : readVector node n v s = .ret v' s') :
    n ≤ v.length ∧ v'.length = v.length ∧ (n = v.length → n ≠ 0 → ∃ l, node = .arr l ∧ l.map Json.asReal = v'.map .ok) := by
  unfold readVector at h
  split at h
  · rename_i hj
    injection h with h _
    subst h
    unfold json2vector at hj
    split at hj
    · rename_i hn
      rw [pure_def] at hj
      injection hj with _ hj
      exact ⟨by omega, by rw [hj], fun _ h0 => absurd hn h0⟩
    · obtain ⟨l, vs, h1, h2, h3, h4, h5, h6⟩ := json2array_ret _ _ _ _ _ hj
      refine ⟨h4, by rw [h5]; simp; omega, fun hv _ => ⟨l, h1, ?_⟩⟩
      rw [h5, hv]
      simpa [realCodec] using h6
  · cases h
  · cases h

theorem allocate_lengths (g : Gauss K) : (allocate g).mean.length = g.dim ∧
    (allocate g).cov.length = (match g.mode with | .full => g.dim * g.dim | .diagonal => g.dim) ∧
    (allocate g).inv.length = (match g.mode with | .full => g.dim * g.dim | .diagonal => g.dim) ∧
    (g.invIn = [] → (allocate g).invIn.length = if g.bimodal then (match g.mode with | .full => g.di * g.di | .diagonal => g.di) else 0) := by
  have hr : ∀ (n : Nat) (l : List K), (resize n l).length = n := fun n l => by simp [resize]; omega
  unfold allocate
  cases g.mode <;> cases g.bimodal <;> simp [hr]


/-- C86 (distributions, what is accepted): if `fromJson` of any JSON returns, the distribution has the declared dimensions and covariance mode, its mean,
    covariance and inverse covariance have the sizes that these dimensions require and hold exactly the numbers of the file.  In diagonal mode nothing of
    dimension 2 or more is ever accepted. -/
theorem C86_gauss_accepted {root : Json K} {st st' : σ} {g : Gauss K} (h : ofJson root st = .ret g st') :
    HoldsMode root g.bimodal ∧
    HoldsSize root "dimension" (if g.bimodal then 2 else 1) g.dim ∧ HoldsSize root "dimension_input" (if g.bimodal then 1 else 0) g.di ∧
    (∃ j c, root.getKey "covariance_mode" = .ok j ∧ j.asInt = .ok c ∧ (c = 0 ∧ g.mode = .full ∨ c = 1 ∧ g.mode = .diagonal)) ∧
    g.mean.length = g.dim ∧ g.cov.length = g.dim * g.dim ∧ g.inv.length = g.dim * g.dim ∧
    (g.dim ≠ 0 → HoldsArray root "mean" g.mean ∧ HoldsArray root "covariance" g.cov ∧ HoldsArray root "inverse_covariance" g.inv) ∧
    (∃ j, root.getOr "covariance_determinant" (.real 0) = .ok j ∧ j.asReal = .ok g.det) ∧
    (∃ j, root.getOr "covariance_determinant_input" (.real 0) = .ok j ∧ j.asReal = .ok g.detIn) ∧
    (g.di ≠ 0 → g.bimodal = true ∧ g.invIn.length = g.di * g.di ∧ HoldsArray root "inverse_covariance_input" g.invIn) ∧
    (g.mode = .diagonal → g.dim ≤ 1 ∧ g.di ≤ 1) ∧ (g.bimodal = true → g.invIn.length = g.di * g.di) := by
  unfold ofJson at h
  obtain ⟨j1, e1, h⟩ := bindE_inv h
  obtain ⟨b, f1, h⟩ := bindE_inv h
  obtain ⟨j2, e2, h⟩ := bindE_inv h
  obtain ⟨d, f2, h⟩ := bindE_inv h
  obtain ⟨j3, e3, h⟩ := bindE_inv h
  obtain ⟨k, f3, h⟩ := bindE_inv h
  obtain ⟨j4, e4, h⟩ := bindE_inv h
  obtain ⟨c, f4, h⟩ := bindE_inv h
  obtain ⟨m, g4, h⟩ := bindE_inv h
  generalize hG : (allocate ⟨b, uint d, 0, uint k, uintMax, m, [], [], [], 0, [], 0, []⟩ : Gauss K) = G at h
  obtain ⟨j5, e5, h⟩ := bindE_inv h
  obtain ⟨mean, f5, h⟩ := Reads.bind_inv (Reads.vector _ _ _) h
  obtain ⟨j6, e6, h⟩ := bindE_inv h
  obtain ⟨cov, f6, h⟩ := Reads.bind_inv (Reads.vector _ _ _) h
  obtain ⟨j7, e7, h⟩ := bindE_inv h
  obtain ⟨inv, f7, h⟩ := Reads.bind_inv (Reads.vector _ _ _) h
  obtain ⟨j8, e8, h⟩ := bindE_inv h
  obtain ⟨det, f8, h⟩ := bindE_inv h
  obtain ⟨j9, e9, h⟩ := bindE_inv h
  obtain ⟨invIn, f9, h⟩ := Reads.bind_inv (Reads.vector _ _ _) h
  obtain ⟨j10, e10, h⟩ := bindE_inv h
  obtain ⟨detIn, f10, h⟩ := bindE_inv h
  injection h with h _
  have hb : G.bimodal = b ∧ G.dim = uint d ∧ G.di = uint k ∧ G.mode = m := by
    rw [← hG]; unfold allocate; cases m <;> exact ⟨rfl, rfl, rfl, rfl⟩
  obtain ⟨l1, l2, l3, l4⟩ := allocate_lengths (⟨b, uint d, 0, uint k, uintMax, m, [], [], [], 0, [], 0, []⟩ : Gauss K)
  have l4 := l4 rfl
  rw [hG] at l1 l2 l3 l4
  obtain ⟨hb1, hb2, hb3, hb4⟩ := hb
  obtain ⟨a1, a2, a3⟩ := readVector_ret f5
  obtain ⟨b1, b2, b3⟩ := readVector_ret f6
  obtain ⟨c1, c2, c3⟩ := readVector_ret f7
  obtain ⟨d1, d2, d3⟩ := readVector_ret f9
  rw [hb2] at a1 a3 b1 b3 c1 c3
  rw [hb3] at d1 d3
  simp only at l1 l2 l3 l4
  have q2 : G.cov.length = uint d * uint d := by
    cases m with
    | full => exact l2
    | diagonal => simp only at l2; nlinarith [b1, l2, Nat.le_mul_self (uint d)]
  have q3 : G.inv.length = uint d * uint d := by
    cases m with
    | full => exact l3
    | diagonal => simp only at l3; nlinarith [c1, l3, Nat.le_mul_self (uint d)]
  have q4 : uint k ≠ 0 → b = true ∧ G.invIn.length = uint k * uint k := by
    intro hk
    have hk' : uint k ≤ uint k * uint k := Nat.le_mul_self _
    cases b with
    | false => simp only [Bool.false_eq_true, if_false] at l4; omega
    | true =>
      refine ⟨rfl, ?_⟩
      cases m with
      | full => exact l4
      | diagonal => simp only [if_true] at l4; omega
  subst h
  simp only [hb1, hb2, hb3, hb4]
  refine ⟨⟨j1, e1, f1⟩, ⟨j2, d, e2, f2, rfl⟩, ⟨j3, k, e3, f3, rfl⟩, ⟨j4, c, e4, f4, ?_⟩, a2.trans l1, b2.trans q2, c2.trans q3, ?_, ⟨j8, e8, f8⟩,
    ⟨j10, e10, f10⟩, ?_, ?_, ?_⟩
  · unfold modeOf at g4
    split at g4
    · left; injection g4 with g4; exact ⟨by assumption, g4.symm⟩
    · split at g4
      · right; injection g4 with g4; exact ⟨by assumption, g4.symm⟩
      · cases g4
  · intro h0
    obtain ⟨la, x1, y1⟩ := a3 l1.symm h0
    obtain ⟨lb, x2, y2⟩ := b3 q2.symm (Nat.mul_ne_zero h0 h0)
    obtain ⟨lc, x3, y3⟩ := c3 q3.symm (Nat.mul_ne_zero h0 h0)
    exact ⟨⟨la, x1 ▸ e5, y1⟩, ⟨lb, x2 ▸ e6, y2⟩, ⟨lc, x3 ▸ e7, y3⟩⟩
  · intro h0
    obtain ⟨r1, r2⟩ := q4 h0
    obtain ⟨ld, x4, y4⟩ := d3 r2.symm (Nat.mul_ne_zero h0 h0)
    exact ⟨r1, d2.trans r2, ⟨ld, x4 ▸ e9, y4⟩⟩
  · intro hm
    subst hm
    simp only at l2 l4
    constructor
    · by_contra hc
      have : uint d * 2 ≤ uint d * uint d := Nat.mul_le_mul_left _ (by omega)
      omega
    · by_contra hc
      have h0 : uint k ≠ 0 := by omega
      obtain ⟨r1, r2⟩ := q4 h0
      subst r1
      have : uint k * 2 ≤ uint k * uint k := Nat.mul_le_mul_left _ (by omega)
      simp only [if_true] at l4
      omega
  · intro hb
    subst hb
    by_cases h0 : uint k = 0
    · rw [d2, h0]
      cases m <;> simpa [h0] using l4
    · exact d2.trans (q4 h0).2

end Gauss

/-- C86 (distributions, what is refused): if `fromJson` of any JSON throws, the distribution is unchanged. -/
theorem C86_gauss_unchanged {K : Type} [Field K] [DecidableEq K] [JsonReal K] (tmp : Nat) (root : Json K) (s s' : GaussObj K) (e : Exn)
    (h : GaussObj.fromJson tmp root s = .throw e s') : s' = s := by
  unfold GaussObj.fromJson at h
  rw [bind_def] at h
  cases hq : (GaussObj.ofJson tmp root : Prog (GaussObj K) (GaussObj K)) s with
  | ret b t => rw [hq] at h; cases h
  | throw e' t =>
    rw [hq] at h; injection h with _ h; rw [← h]
    exact (Reads.bind (Reads.gauss root) fun _ => Reads.pure _).throw hq
  | ub => rw [hq] at h; cases h

/-- C86 (distributions, a defect): a distribution whose input dimension exceeds its dimension, and one without dimensions, are accepted -/
theorem C86_gauss_dimensions_violated (s : GaussObj ℚ) :
    (∃ root s', GaussObj.fromJson 7 root s = .ret () s' ∧ s'.g.bimodal = true ∧ s'.g.dim = 1 ∧ s'.g.di = 2) ∧
    (∃ root s', GaussObj.fromJson 7 root s = .ret () s' ∧ s'.g.bimodal = false ∧ s'.g.dim = 0) := by
  refine ⟨⟨.obj [("bimodal", .bool true), ("dimension", .int 1), ("dimension_input", .int 2), ("covariance_mode", .int 0),
      ("mean", .arr [.real 0]), ("covariance", .arr [.real 1]), ("inverse_covariance", .arr [.real 1]),
      ("inverse_covariance_input", .arr [.real 1, .real 0, .real 0, .real 1])], ?_⟩,
    ⟨.obj [("dimension", .int 0)], ?_⟩⟩
  · rw [GaussObj.fromJson_eq]; exact ⟨_, rfl, rfl, rfl, rfl⟩
  · rw [GaussObj.fromJson_eq]; exact ⟨_, rfl, rfl, rfl⟩

/-! ### Phrases -/

namespace Phrase
open PhraseSpec
variable {K σ : Type} [Field K] [DecidableEq K] [JsonReal K]

theorem cells_real (l : List (Json K)) (vs : List (Option K)) (h : l.map (cellCodec K).dec = vs.map .ok) :
    ∃ vals : List K, vs = vals.map some ∧ l.map Json.asReal = vals.map .ok := by
  induction l generalizing vs with
  | nil => cases vs with
    | nil => exact ⟨[], rfl, rfl⟩
    | cons v vs => simp at h
  | cons x xs ih => cases vs with
    | nil => simp at h
    | cons v vs =>
      simp only [List.map_cons, List.cons.injEq] at h
      obtain ⟨vals, h1, h2⟩ := ih vs h.2
      have hx := h.1
      simp only [cellCodec] at hx
      cases hr : x.asReal with
      | ok y => rw [hr] at hx; injection hx with hx; exact ⟨y :: vals, by simp [← hx, h1], by simp [hr, h2]⟩
      | error e => rw [hr] at hx; cases hx

theorem readBlock_ret {node : Json K} {n : Nat} {s s' : σ} {p : Ptr K} (h : readBlock node n s = .ret p s') :
    ∃ (l : List (Json K)) (vals : List K), node = .arr l ∧ vals.length = n ∧ p = .cells (vals.map some) ∧ l.map Json.asReal = vals.map .ok := by
  unfold readBlock at h
  split at h
  · rename_i hj
    injection h with h _
    obtain ⟨l, vs, h1, _, h3, _, h5, h6⟩ := json2array_ret _ _ _ _ _ hj
    obtain ⟨vals, rfl, h8⟩ := cells_real l vs h6
    exact ⟨l, vals, h1, by simpa using h3, by rw [← h, h5]; simp, h8⟩
  · cases h
  · cases h

/-- the `n` frames of `d` values in `vals` -/
def frames (d : Nat) : Nat → List K → List (List K)
  | 0, _ => []
  | n + 1, vals => vals.take d :: frames d n (vals.drop d)

omit [Field K] [DecidableEq K] [JsonReal K] in
theorem frames_ok (d n : Nat) (vals : List K) (h : vals.length = n * d) :
    (frames d n vals).length = n ∧ (∀ f ∈ frames d n vals, f.length = d) ∧ (frames d n vals).flatten = vals := by
  induction n generalizing vals with
  | zero => simp at h; subst h; exact ⟨rfl, by simp [frames], rfl⟩
  | succ n ih =>
    have hd : d ≤ vals.length := by rw [h, Nat.succ_mul]; omega
    obtain ⟨h1, h2, h3⟩ := ih (vals.drop d) (by rw [List.length_drop, h, Nat.succ_mul]; omega)
    refine ⟨by simp [frames, h1], ?_, by simp [frames, h3]⟩
    intro f hf
    simp only [frames, List.mem_cons] at hf
    rcases hf with rfl | hf
    · simp; omega
    · exact h2 f hf

/-- the members read before the names -/
theorem readDims_ret {root : Json K} {st st' : σ} {p : Phrase K} (h : readDims root st = .ret p st') :
    ∃ b d k, p = blank K b d k ∧ HoldsMode root b ∧ HoldsSize root "dimension" (if b then 2 else 1) d ∧
      HoldsSize root "dimension_input" (if b then 1 else 0) k ∧ (if b then 2 else 1) ≤ d ∧ (if b then 1 else 0) ≤ k ∧ k ≤ (if b then d - 1 else 0) := by
  unfold readDims at h
  obtain ⟨j1, e1, h⟩ := bindE_inv h
  obtain ⟨b, f1, h⟩ := bindE_inv h
  obtain ⟨j2, e2, h⟩ := bindE_inv h
  obtain ⟨d, f2, h⟩ := bindE_inv h
  by_cases hd : uint d < (if b then 2 else 1)
  · rw [if_pos hd] at h; cases h
  · rw [if_neg hd] at h
    obtain ⟨j3, e3, h⟩ := bindE_inv h
    obtain ⟨k, f3, h⟩ := bindE_inv h
    by_cases hk : uint k < (if b then 1 else 0) ∨ (if b then uint d - 1 else 0) < uint k
    · rw [if_pos hk] at h; cases h
    · rw [if_neg hk] at h
      rw [not_or, not_lt, not_lt] at hk
      injection h with h _
      exact ⟨b, uint d, uint k, h.symm, ⟨j1, e1, f1⟩, ⟨j2, d, e2, f2, rfl⟩, ⟨j3, k, e3, f3, rfl⟩, not_lt.1 hd, hk.1, hk.2⟩

/-- the phrase that a file describes -/
structure Described (root : Json K) (s : S K) : Prop where
  mode : HoldsMode root s.bimodal
  dim : HoldsSize root "dimension" (if s.bimodal then 2 else 1) s.dim
  di : HoldsSize root "dimension_input" (if s.bimodal then 1 else 0) s.di
  dim_pos : (if s.bimodal then 2 else 1) ≤ s.dim
  coherent : s.Coherent
  length : HoldsSize root "length" 0 s.size
  uni : s.bimodal = false → s.di = 0 ∧ HoldsArray root "data" s.ins.flatten ∧ ∀ f ∈ s.ins, f.length = s.dim
  bi : s.bimodal = true → HoldsArray root "data_input" s.ins.flatten ∧ HoldsArray root "data_output" s.outs.flatten ∧ s.ins.length = s.outs.length ∧
    (∀ f ∈ s.ins, f.length = s.di) ∧ ∀ f ∈ s.outs, f.length = s.dim - s.di

theorem ofJson_ret {root : Json K} {st st' : σ} {q : Phrase K} (h : ofJson root st = .ret q st') :
    ∃ s, Described root s ∧ Rep q s ∧ q.maxLength = s.size ∧ q.empty = (s.size == 0) := by
  unfold ofJson at h
  obtain ⟨p, h0, h⟩ := Reads.bind_inv (Reads.dims root) h
  obtain ⟨b, d, k, rfl, hb, hd, hk, r1, r2, r3⟩ := readDims_ret h0
  obtain ⟨jn, e1, h⟩ := bindE_inv h
  obtain ⟨names, e2, h⟩ := Reads.bind_inv (Reads.names _ _ _ _) h
  obtain ⟨jl, e3, h⟩ := bindE_inv h
  obtain ⟨label, e4, h⟩ := bindE_inv h
  obtain ⟨jn, e5, h⟩ := bindE_inv h
  obtain ⟨n, e6, h⟩ := bindE_inv h
  unfold readData at h
  cases b with
  | false =>
    simp only [blank, Bool.false_eq_true, if_false] at h r1 r2 r3
    obtain ⟨j, e7, h⟩ := bindE_inv h
    obtain ⟨a, e8, h⟩ := Reads.bind_inv (Reads.block _ _) h
    obtain ⟨l, vals, rfl, hl, rfl, hv⟩ := readBlock_ret e8
    obtain ⟨f1, f2, f3⟩ := frames_ok d (uint n) vals hl
    injection h with h _
    have hB : Block (.cells (vals.map some)) d (uint n) (frames d (uint n) vals) := by
      have := block_exact f2
      rwa [f1, f3] at this
    refine ⟨⟨false, d, k, 0, 0, frames d (uint n) vals, []⟩, ⟨hb, hd, hk, r1, (fun h => by cases h), ⟨jn, n, e5, e6, f1⟩,
      fun _ => ⟨Nat.le_zero.1 r3, ⟨l, e7, ?_⟩, f2⟩, fun h => by cases h⟩, ?_, ?_, ?_⟩
    · rw [f3]; exact hv
    · rw [← h]
      exact ⟨rfl, rfl, rfl, rfl, rfl, rfl, rfl, rfl, fun _ => ⟨hB, f1.symm, rfl⟩, fun h => by cases h⟩
    · rw [← h]; exact f1.symm
    · rw [← h]; show (uint n == 0) = ((frames d (uint n) vals).length == 0); rw [f1]
  | true =>
    simp only [blank, if_true] at h r1 r2 r3
    obtain ⟨j, e7, h⟩ := bindE_inv h
    obtain ⟨a, e8, h⟩ := Reads.bind_inv (Reads.block _ _) h
    obtain ⟨j', e9, h⟩ := bindE_inv h
    obtain ⟨a', e10, h⟩ := Reads.bind_inv (Reads.block _ _) h
    obtain ⟨l, vals, rfl, hl, rfl, hv⟩ := readBlock_ret e8
    obtain ⟨l', vals', rfl, hl', rfl, hv'⟩ := readBlock_ret e10
    have ho : ∀ P : Phrase K, P.dimension = d → P.dimensionInput = k → P.outDim = d - k := by
      intro P h1 h2
      unfold outDim
      rw [h1, h2, if_pos (by omega)]
    rw [ho _ rfl rfl] at hl'
    obtain ⟨f1, f2, f3⟩ := frames_ok k (uint n) vals hl
    obtain ⟨g1, g2, g3⟩ := frames_ok (d - k) (uint n) vals' hl'
    injection h with h _
    have hB : Block (.cells (vals.map some)) k (uint n) (frames k (uint n) vals) := by
      have := block_exact f2
      rwa [f1, f3] at this
    have hB' : Block (.cells (vals'.map some)) (d - k) (uint n) (frames (d - k) (uint n) vals') := by
      have := block_exact g2
      rwa [g1, g3] at this
    have hz : S.size (⟨true, d, k, 1, d - 1, frames k (uint n) vals, frames (d - k) (uint n) vals'⟩ : S K) = uint n := by simp [S.size, f1, g1]
    refine ⟨⟨true, d, k, 1, d - 1, frames k (uint n) vals, frames (d - k) (uint n) vals'⟩, ⟨hb, hd, hk, r1, (fun _ => ⟨r2, by show k < d; omega⟩),
      ⟨jn, n, e5, e6, hz⟩, (fun h => by cases h), fun _ => ⟨⟨l, e7, ?_⟩, ⟨l', e9, ?_⟩, f1.trans g1.symm, f2, g2⟩⟩, ?_, ?_, ?_⟩
    · rw [f3]; exact hv
    · rw [g3]; exact hv'
    · rw [← h]
      refine ⟨rfl, rfl, rfl, rfl, rfl, rfl, rfl, rfl, (fun h => by cases h), fun _ => ⟨hB, hB', f1.symm, g1.symm, ?_, ?_⟩⟩
      · simp [f1, g1]
      · simp [f1, g1]
    · rw [← h]; exact hz.symm
    · rw [← h, hz]

/-- C86 (phrases, what the constructor accepts): if the construction of a phrase from any JSON returns, the phrase has the declared modality, dimensions and
    length, these are within the limits, it holds exactly the numbers of the file, and from then on every history of calls on it behaves as specified for a
    phrase holding these frames. -/
theorem C86_phrase_constructed {root : Json K} {st st' : σ} {q : Phrase K} (h : ofJson root st = .ret q st') :
    ∃ s, Described root s ∧ Reads q s ∧ q.destroy = true ∧
      ∀ later, S.Admissible later s → ∃ q', Phrase.run later q = some (q', (S.run later s).2) ∧ Reads q' (S.run later s).1 := by
  obtain ⟨s, hs, hr, _, _⟩ := ofJson_ret h
  refine ⟨s, hs, reads_of_rep hr hs.coherent, destroy_of_rep hr, fun later hl => ?_⟩
  obtain ⟨q', e1, r1, c1⟩ := hr.run hs.coherent later hl
  exact ⟨q', e1, reads_of_rep r1 c1⟩

/-- C86 (phrases, what is accepted): the same for `fromJson` on any phrase in own memory, if the file declares at least one frame.  (Without frames the data
    pointers are left uninitialised: `C25_phrase_fromJson_empty_violated`.) -/
theorem C86_phrase_accepted_partial {root : Json K} {p q : Phrase K} (h : fromJson root p = .ret () q) (hq : q.length ≠ 0) :
    ∃ s, Described root s ∧ Reads q s ∧ q.destroy = true ∧
      ∀ later, S.Admissible later s → ∃ q', Phrase.run later q = some (q', (S.run later s).2) ∧ Reads q' (S.run later s).1 := by
  unfold fromJson at h
  obtain ⟨tmp, h0, h⟩ := Reads.bind_inv (Reads.phrase root) h
  obtain ⟨s, hs, hr, hm, _⟩ := ofJson_ret h0
  rw [bind_def, get_def] at h
  simp only at h
  split at h
  · cases h
  · cases hc : tmp.copy with
    | none => rw [hc] at h; cases h
    | some q0 =>
      rw [hc] at h
      simp only at h
      split at h
      · rw [set_def] at h
        injection h with _ h
        subst h
        obtain ⟨x, y, hxy⟩ := copy_same hc
        have hl : q0.length = s.size := by rw [hxy]; exact hr.size
        obtain ⟨q1, e1, r1⟩ := hr.copy hs.coherent (by rw [hm]; omega)
        rw [hc] at e1
        injection e1 with e1
        subst e1
        refine ⟨s, hs, reads_of_rep r1 hs.coherent, destroy_of_rep r1, fun later hl => ?_⟩
        obtain ⟨q', e1, r1, c1⟩ := r1.run hs.coherent later hl
        exact ⟨q', e1, reads_of_rep r1 c1⟩
      · cases h

/-- C86 (phrases, what is refused): if `fromJson` of any JSON throws, the phrase is unchanged. -/
theorem C86_phrase_unchanged {root : Json K} {p p' : Phrase K} {e : Exn} (h : fromJson root p = .throw e p') : p' = p := by
  unfold fromJson at h
  rw [bind_def] at h
  cases hq : (ofJson root : Prog (Phrase K) (Phrase K)) p with
  | ret tmp t =>
    rw [hq] at h
    simp only [bind_def, get_def] at h
    split at h
    · cases h
    · cases hc : tmp.copy with
      | none => rw [hc] at h; cases h
      | some q0 => rw [hc] at h; simp only at h; split at h <;> cases h
  | throw e' t => rw [hq] at h; injection h with _ h; rw [← h]; exact (Reads.phrase root).throw hq
  | ub => rw [hq] at h; cases h

end Phrase
/-! ### Parameters -/

section
variable {K : Type} [Field K] [LinearOrder K] [JsonReal K] (nar : K → K)

/-- C86 (parameters, what is refused): if `fromJson` of any JSON throws, the parameters of a K-Means, GMM or HMM class, the shared parameters and the configuration
    are unchanged. -/
theorem C86_parameters_unchanged (alive : Nat → Bool) (me tmp : Nat) (tiny realMax : K) (root : Json K) (e : Exn) :
    (∀ p p', KMeansAttrs.fromJson me nar tmp tiny realMax root p = .throw e p' → p' = p) ∧
    (∀ p p', GmmAttrs.fromJson me nar tmp tiny realMax root p = .throw e p' → p' = p) ∧
    (∀ p p', HmmAttrs.fromJson me nar tmp tiny realMax root p = .throw e p' → p' = p) ∧
    (∀ p p', SharedParams.fromJson alive nar tmp realMax root p = .throw e p' → p' = p) ∧
    (∀ (P : Type) (T : ParamType P) (read : Nat → Json K → Prog P Unit) (slot tslot : String → Nat) p p',
      Configuration.fromJson T me slot read tmp tslot root p = .throw e p' → p' = p) := by
  refine ⟨fun p p' h => ?_, fun p p' h => ?_, fun p p' h => ?_, fun p p' h => ?_, fun P T read slot tslot p p' h => ?_⟩
  · unfold KMeansAttrs.fromJson at h
    split at h <;> first | (injection h with _ h; exact h.symm) | cases h
  · unfold GmmAttrs.fromJson at h
    split at h <;> first | (injection h with _ h; exact h.symm) | cases h
  · unfold HmmAttrs.fromJson at h
    split at h <;> first | (injection h with _ h; exact h.symm) | cases h
  · unfold SharedParams.fromJson at h
    split at h
    · unfold SharedParams.assignFrom at h
      cases h
    · injection h with _ h; exact h.symm
    · cases h
  · unfold Configuration.fromJson at h
    split at h <;> first | (injection h with _ h; exact h.symm) | cases h

theorem Attr.set_ret {α : Type} {lt : α → α → Bool} {v : α} {a a' : Attr α} {ns : List (Notification α)} (h : Attr.set lt v false a = .ret ns a') :
    (a'.called ns).value = v ∧ lt v a.limitMin = false ∧ lt a.limitMax v = false := by
  unfold Attr.set at h
  rw [bind_def, get_def] at h
  simp only at h
  cases hc : checkLimits lt v a.limitMin a.limitMax with
  | false => rw [hc] at h; cases h
  | true =>
    rw [hc] at h
    simp only [Bool.not_true, Bool.false_eq_true, if_false, bind_def, set_def] at h
    have hv : a'.value = v := by
      cases ho : a.listener with
      | none => rw [ho] at h; injection h with _ h; rw [← h]
      | some o => rw [ho] at h; injection h with _ h; rw [← h]
    simp only [checkLimits, Bool.not_eq_true', Bool.or_eq_false_iff] at hc
    refine ⟨?_, hc.1, hc.2⟩
    unfold Attr.called
    cases ns <;> exact hv

/-- the values of the parameters of a GMM class in a file -/
structure GmmAttrs.Described (root : Json K) (tiny realMax : K) (p : GmmAttrs K) : Prop where
  gaussians : ∃ j z, root.getKey "gaussians" = .ok j ∧ j.asInt = .ok z ∧ p.gaussians.value = uint z
  relReg : ∃ j, root.getKey "relative_regularization" = .ok j ∧ j.asFloat nar = .ok p.relReg.value
  absReg : ∃ j, root.getKey "absolute_regularization" = .ok j ∧ j.asFloat nar = .ok p.absReg.value
  covMode : ∃ j, root.getKey "covariance_mode" = .ok j ∧ j.asInt = .ok p.covMode.value
  gaussians_pos : 1 ≤ p.gaussians.value
  relReg_lim : tiny ≤ p.relReg.value ∧ p.relReg.value ≤ realMax
  absReg_lim : tiny ≤ p.absReg.value ∧ p.absReg.value ≤ realMax
  covMode_lim : p.covMode.value = 0 ∨ p.covMode.value = 1

theorem GmmAttrs.readJson_ret {me : Nat} {tiny realMax : K} {root : Json K} {p : GmmAttrs K}
    (h : GmmAttrs.readJson me nar root (GmmAttrs.fresh me tiny realMax) = .ret () p) : p.Described nar root tiny realMax := by
  unfold GmmAttrs.readJson at h
  obtain ⟨j1, e1, h⟩ := bindE_inv h
  obtain ⟨v1, f1, h⟩ := bindE_inv h
  obtain ⟨_, p1, g1, h⟩ := bind_inv h
  obtain ⟨j2, e2, h⟩ := bindE_inv h
  obtain ⟨v2, f2, h⟩ := bindE_inv h
  obtain ⟨_, p2, g2, h⟩ := bind_inv h
  obtain ⟨j3, e3, h⟩ := bindE_inv h
  obtain ⟨v3, f3, h⟩ := bindE_inv h
  obtain ⟨_, p3, g3, h⟩ := bind_inv h
  obtain ⟨j4, e4, h⟩ := bindE_inv h
  obtain ⟨v4, f4, h⟩ := bindE_inv h
  unfold GmmAttrs.setGaussians at g1
  unfold GmmAttrs.setRelReg at g2
  unfold GmmAttrs.setAbsReg at g3
  unfold GmmAttrs.setCovMode at h
  split at g1
  · rename_i a1 k1
    injection g1 with _ g1
    split at g2
    · rename_i a2 k2
      injection g2 with _ g2
      split at g3
      · rename_i a3 k3
        injection g3 with _ g3
        split at h
        · rename_i a4 k4
          injection h with _ h
          obtain ⟨m1, m2, m3⟩ := Attr.set_ret k1
          obtain ⟨n1, n2, n3⟩ := Attr.set_ret k2
          obtain ⟨o1, o2, o3⟩ := Attr.set_ret k3
          obtain ⟨q1, q2, q3⟩ := Attr.set_ret k4
          subst g1 g2 g3 h
          replace m2 : 1 ≤ uint v1 := not_lt.1 (of_decide_eq_false m2)
          replace n2 : tiny ≤ v2 := not_lt.1 (of_decide_eq_false n2)
          replace n3 : v2 ≤ realMax := not_lt.1 (of_decide_eq_false n3)
          replace o2 : tiny ≤ v3 := not_lt.1 (of_decide_eq_false o2)
          replace o3 : v3 ≤ realMax := not_lt.1 (of_decide_eq_false o3)
          replace q2 : 0 ≤ v4 := not_lt.1 (of_decide_eq_false q2)
          replace q3 : v4 ≤ 1 := not_lt.1 (of_decide_eq_false q3)
          refine ⟨⟨j1, v1, e1, f1, m1⟩, ⟨j2, e2, n1.symm ▸ f2⟩, ⟨j3, e3, o1.symm ▸ f3⟩, ⟨j4, e4, q1.symm ▸ f4⟩, ?_, ?_, ?_, ?_⟩
          · rw [m1]; exact m2
          · rw [n1]; exact ⟨n2, n3⟩
          · rw [o1]; exact ⟨o2, o3⟩
          · rw [q1]; omega
        · cases h
        · cases h
      · cases g3
      · cases g3
    · cases g2
    · cases g2
  · cases g1
  · cases g1

/-- C86 (parameters of a GMM class, what is accepted): after `fromJson` of any JSON that returns, the parameters are the values of the file and within their limits. -/
theorem C86_gmm_parameters_accepted {me tmp : Nat} {tiny realMax : K} {root : Json K} {p p' : GmmAttrs K}
    (h : GmmAttrs.fromJson me nar tmp tiny realMax root p = .ret () p') : p'.Described nar root tiny realMax := by
  unfold GmmAttrs.fromJson at h
  split at h
  · rename_i hr
    injection h with _ h
    have := GmmAttrs.readJson_ret nar hr
    subst h
    exact ⟨this.1, this.2, this.3, this.4, this.5, this.6, this.7, this.8⟩
  · cases h
  · cases h

/-! ### Classes -/

theorem Reads.gmm {σ : Type} (tiny realMax : K) (sh : SharedView) (z : K) (root : Json K) :
    Prog.Reads (Gmm.ofJson nar tiny realMax sh z root : Prog σ (String × Gmm K)) := by
  unfold Gmm.ofJson Gmm.readAttrs
  exact Reads.bind (Reads.lift _) fun _ => Reads.bind (Reads.lift _) fun _ => Reads.bind (Reads.bind (Reads.lift _) fun _ => Reads.build _ _) fun _ =>
    Reads.bind (Reads.build _ _) fun _ => Reads.pure _

/-- C86 (classes, what is refused): if `fromJson` of any JSON throws, the class is unchanged; while it is training it always throws. -/
theorem C86_class_unchanged (tiny realMax z : K) (root : Json K) (m : Gmm K) :
    (∀ e m', Gmm.fromJson nar tiny realMax z root m = .throw e m' → m' = m) ∧
    (m.training = true → Gmm.fromJson nar tiny realMax z root m = .throw .runtimeError m) := by
  constructor
  · intro e m' h
    unfold Gmm.fromJson Gmm.checkTraining at h
    cases ht : m.training with
    | true => simp only [bind_def, get_def, ht, if_true, throw_def] at h; injection h with _ h; exact h.symm
    | false =>
      simp only [bind_def, get_def, ht, Bool.false_eq_true, if_false, pure_def] at h
      cases hq : (Gmm.ofJson nar tiny realMax ⟨m.bimodal, m.dim, m.di, m.window⟩ z root : Prog (Gmm K) (String × Gmm K)) m with
      | ret t m1 =>
        obtain rfl := (Reads.gmm nar tiny realMax _ z root).ret hq
        rw [hq] at h
        simp only [Gmm.assignFrom, bind_def, get_def, ht, Bool.false_or] at h
        by_cases h2 : t.2.training = true
        · rw [if_pos h2] at h; injection h with _ h; exact h.symm
        · rw [if_neg h2] at h; cases h
      | throw e' m1 =>
        rw [hq] at h; injection h with _ h; rw [← h]; exact (Reads.gmm nar tiny realMax _ z root).throw hq
      | ub => rw [hq] at h; cases h
  · intro ht
    simp only [Gmm.fromJson, Gmm.checkTraining, bind_def, get_def, ht, if_true, throw_def]

/-- what a step on a component keeps -/
def Gmm.SameHead (a m : Gmm K) : Prop :=
  ∃ cs, m = { a with comps := cs } ∧ cs.length = a.comps.length

theorem Gmm.SameHead.refl (a : Gmm K) : a.SameHead a := ⟨a.comps, rfl, rfl⟩

theorem Gmm.SameHead.trans {a b c : Gmm K} (h1 : a.SameHead b) (h2 : b.SameHead c) : a.SameHead c := by
  obtain ⟨x, rfl, hx⟩ := h1
  obtain ⟨y, rfl, hy⟩ := h2
  exact ⟨y, rfl, hy.trans hx⟩

theorem Gmm.onComp_head {c : Nat} {f : Prog (Gauss K) Unit} {a m : Gmm K} (h : Gmm.onComp c f a = .ret () m) : a.SameHead m := by
  unfold Gmm.onComp at h
  split at h
  · cases h
  · split at h
    · injection h with _ h; exact ⟨_, h.symm, by simp⟩
    · cases h
    · cases h

theorem Gmm.loop_head (f : Nat → Prog (Gmm K) Unit) (hf : ∀ c a m, f c a = .ret () m → a.SameHead m) (n : Nat) (a m : Gmm K)
    (h : Phrase.loop n () (fun _ c => f c) a = .ret () m) : a.SameHead m := by
  induction n generalizing m with
  | zero => injection h with _ h; exact h ▸ Gmm.SameHead.refl _
  | succ n ih =>
    rw [loop_succ] at h
    obtain ⟨_, m1, h1, h2⟩ := bind_inv h
    exact (ih m1 h1).trans (hf n m1 m h2)

theorem Gmm.readComponents_head (js : List (Json K)) (c : Nat) (a m : Gmm K) (h : Gmm.readComponents js c a = .ret () m) :
    a.SameHead m ∧ (js ≠ [] → c + js.length ≤ a.comps.length) := by
  induction js generalizing c a with
  | nil => injection h with _ h; exact ⟨h ▸ Gmm.SameHead.refl _, fun h => absurd rfl h⟩
  | cons j js ih =>
    unfold Gmm.readComponents at h
    rw [bind_def, get_def] at h
    simp only at h
    split at h
    · rename_i hc
      obtain ⟨g, e, h⟩ := Reads.bind_inv (Reads.gauss j) h
      rw [bind_def, set_def] at h
      obtain ⟨h1, h2⟩ := ih _ _ h
      refine ⟨Gmm.SameHead.trans ⟨_, rfl, by simp⟩ h1, fun _ => ?_⟩
      cases js with
      | nil => simp; omega
      | cons x xs => have := h2 (by simp); simp at this ⊢; omega
    · cases h

theorem Gmm.allocate_head {a m : Gmm K} (h : Gmm.allocate a = .ret () m) :
    ∃ g, m = { a with coeffs := Gauss.resize a.gaussians a.coeffs, beta := Gauss.resize a.gaussians a.beta, comps := List.replicate a.gaussians g } := by
  unfold Gmm.allocate at h
  simp only [bind_def, modify_def, get_def] at h
  cases hc : (Gauss.construct a.bimodal a.dim a.di a.mode : Option (Gauss K)) with
  | none => rw [hc] at h; cases h
  | some g => rw [hc] at h; injection h with _ h; exact ⟨g, h.symm⟩

/-- C86 (classes, what is accepted): if the construction of a class from any JSON returns, the class has the parameters and the coefficients of the file, one
    coefficient and one component for every declared Gaussian, and the file has at most that many components. -/
theorem C86_class_accepted_partial {σ : Type} {tiny realMax z : K} {sh : SharedView} {root : Json K} {st st' : σ} {label : String} {m : Gmm K}
    (h : Gmm.ofJson nar tiny realMax sh z root st = .ret (label, m) st') :
    (∃ j, root.getKey "label" = .ok j ∧ j.asString = .ok label) ∧
    (∃ j p, root.getKey "parameters" = .ok j ∧ GmmAttrs.Described nar j tiny realMax p ∧ m.gaussians = p.gaussians.value ∧ m.relReg = p.relReg.value ∧
      m.absReg = p.absReg.value ∧ m.mode = if p.covMode.value = 0 then .full else .diagonal) ∧
    1 ≤ m.gaussians ∧ m.comps.length = m.gaussians ∧ m.coeffs.length = m.gaussians ∧ HoldsArray root "mixture_coeffs" m.coeffs ∧
    (∃ j, root.getKey "components" = .ok j ∧ j.elements.length ≤ m.gaussians) ∧
    m.training = false ∧ m.bimodal = sh.bimodal ∧ m.dim = sh.dim ∧ m.di = sh.di ∧ m.window = sh.window := by
  unfold Gmm.ofJson at h
  obtain ⟨j1, e1, h⟩ := bindE_inv h
  obtain ⟨l, f1, h⟩ := bindE_inv h
  obtain ⟨p, s1, e2, h⟩ := bind_inv h
  obtain ⟨m1, s2, e3, h⟩ := bind_inv h
  injection h with h _
  injection h with h h'
  subst h h'
  obtain ⟨_, e3⟩ := build_inv e3
  unfold Gmm.readAttrs at e2
  obtain ⟨j2, f2, e2⟩ := bindE_inv e2
  obtain ⟨_, e2⟩ := build_inv e2
  have hp := C86_gmm_parameters_accepted nar e2
  unfold Gmm.readBody at e3
  obtain ⟨_, a1, g1, e3⟩ := bind_inv e3
  obtain ⟨jc, k1, e3⟩ := bindE_inv e3
  obtain ⟨_, a2, g2, e3⟩ := bind_inv e3
  obtain ⟨js, k2, e3⟩ := bindE_inv e3
  obtain ⟨_, a3, g3, e4⟩ := bind_inv e3
  have w1 : ∃ b g, a1 = { Gmm.unread sh z p with coeffs := Gauss.resize p.gaussians.value [], beta := b, comps := List.replicate p.gaussians.value g } := by
    obtain ⟨g, rfl⟩ := Gmm.allocate_head g1
    exact ⟨_, g, rfl⟩
  obtain ⟨b, g, rfl⟩ := w1
  have hr : (Gauss.resize p.gaussians.value ([] : List K)).length = p.gaussians.value := by simp [Gauss.resize]
  have w2 : ∃ c : List K, c.length = p.gaussians.value ∧ HoldsArray root "mixture_coeffs" c ∧
      a2 = { Gmm.unread sh z p with coeffs := c, beta := b, comps := List.replicate p.gaussians.value g } := by
    unfold Gmm.readCoeffs at g2
    rw [bind_def, get_def] at g2
    simp only at g2
    obtain ⟨c, r1, r2⟩ := Reads.bind_inv (Reads.vector _ _ _) g2
    injection r2 with _ r2
    obtain ⟨v1, v2, v3⟩ := Gauss.readVector_ret r1
    obtain ⟨lc, x1, x2⟩ := v3 hr.symm (by have := hp.gaussians_pos; show p.gaussians.value ≠ 0; omega)
    exact ⟨c, v2.trans hr, ⟨lc, x1 ▸ k1, x2⟩, r2.symm⟩
  obtain ⟨c, wc, wh, rfl⟩ := w2
  obtain ⟨hh, hn⟩ := Gmm.readComponents_head _ _ _ _ g3
  have hu : a3.SameHead m1 := by
    unfold Gmm.updateInverseCovariances at e4
    split at e4
    · cases e4
    · unfold Gmm.eachComp at e4
      rw [bind_def, get_def] at e4
      exact Gmm.loop_head _ (fun c a m h => Gmm.onComp_head h) _ _ _ e4
  obtain ⟨cs, rfl, hl⟩ := hh.trans hu
  simp only [List.length_replicate] at hl
  refine ⟨⟨j1, e1, f1⟩, ⟨j2, p, f2, hp, rfl, rfl, rfl, rfl⟩, hp.gaussians_pos, hl, wc, wh, ⟨js, k2, ?_⟩, rfl, rfl, rfl, rfl, rfl⟩
  by_cases h0 : js.elements = []
  · rw [h0]; exact Nat.zero_le _
  · have := hn h0
    simp only [List.length_replicate] at this
    show js.elements.length ≤ p.gaussians.value
    omega

/-- C86 (classes, a defect): a file with more components than declared Gaussians makes the constructor write outside the vector of components (the components
    before the first excessive one being readable). -/
theorem C86_components_ub (js : List (Json K)) (extra : Json K) (m : Gmm K) (hl : js.length = m.comps.length)
    (hj : ∀ j ∈ js, ∃ g, ∀ m, (Gauss.ofJson j : Prog (Gmm K) (Gauss K)) m = .ret g m) :
    Gmm.readComponents (js ++ [extra]) 0 m = .ub := by
  have key : ∀ (js : List (Json K)) (c : Nat) (m : Gmm K), c + js.length = m.comps.length →
      (∀ j ∈ js, ∃ g, ∀ m, (Gauss.ofJson j : Prog (Gmm K) (Gauss K)) m = .ret g m) → Gmm.readComponents (js ++ [extra]) c m = .ub := by
    intro js
    induction js with
    | nil =>
      intro c m h _
      simp only [List.nil_append, Gmm.readComponents, bind_def, get_def]
      rw [if_neg (by simp at h; omega)]
      rfl
    | cons j js ih =>
      intro c m h hj
      obtain ⟨g, hg⟩ := hj j (by simp)
      simp only [List.cons_append, Gmm.readComponents, bind_def, get_def]
      rw [if_pos (by simp at h; omega)]
      simp only [bind_def, hg, set_def]
      exact ih _ _ (by simp at h ⊢; omega) fun j' h' => hj j' (by simp [h'])
  exact key js 0 m (by omega) hj

end

/-- a computation that only reads, and cannot throw -/
def Mild {σ α : Type} (p : Prog σ α) : Prop := ∀ s, (∃ a, p s = .ret a s) ∨ p s = .ub

theorem Mild.bind {σ α β : Type} {p : Prog σ α} {f : α → Prog σ β} (hp : Mild p) (hf : ∀ a, Mild (f a)) : Mild (p >>= f) := by
  intro s
  rcases hp s with ⟨a, h⟩ | h
  · rw [bind_of_ret h]; exact hf a s
  · right; rw [bind_def, h]

theorem Mild.pure {σ α : Type} (a : α) : Mild (Pure.pure a : Prog σ α) := fun _ => .inl ⟨a, rfl⟩

theorem Mild.rd {σ α : Type} (l : List α) (i : Nat) : Mild (Gauss.rd l i : Prog σ α) := by
  intro s
  unfold Gauss.rd
  cases l[i]? with
  | some v => exact .inl ⟨v, rfl⟩
  | none => exact .inr rfl

theorem Mild.loop {σ α : Type} (n : Nat) (body : α → Nat → Prog σ α) (h : ∀ a t, Mild (body a t)) (a : α) : Mild (Phrase.loop n a body) := by
  intro s
  induction n with
  | zero => exact .inl ⟨a, rfl⟩
  | succ n ih =>
    rw [loop_succ]
    rcases ih with ⟨b, hb⟩ | hb
    · rw [hb]; exact h b n s
    · rw [hb]; exact .inr rfl

theorem Mild.loop_ub {σ α : Type} (n k : Nat) (hk : k < n) (body : α → Nat → Prog σ α) (h : ∀ a t, Mild (body a t)) (hb : ∀ a s, body a k s = .ub) (a : α)
    (s : σ) : Phrase.loop n a body s = .ub := by
  induction n with
  | zero => omega
  | succ n ih =>
    rw [loop_succ]
    by_cases hn : k = n
    · subst hn
      rcases Mild.loop k body h a s with ⟨b, e⟩ | e
      · rw [e]; exact hb b s
      · rw [e]
    · rw [ih (by omega)]

/-- an observation shorter than the dimension of the distribution is read outside its bounds -/
theorem Gauss.likelihood_short_ub {F : Type} (A : Gauss.Arith F) (g : Gauss F) (obs : List F) (hm : g.mode = .full) (hd : A.eq g.det (A.lit 0) = false)
    (ho : obs.length < g.dim) : Gauss.likelihood A obs g = .ub := by
  have hdiff : ∀ i, Mild (Gauss.diff A obs g.mean i i : Prog (Gauss F) F) := fun i =>
    Mild.bind (Mild.rd _ _) fun _ => Mild.bind (Mild.rd _ _) fun _ => Mild.pure _
  have h1 : Gauss.diff A obs g.mean obs.length obs.length = (fun _ => .ub : Prog (Gauss F) F) := by
    funext s
    simp [Gauss.diff, bind_def, Gauss.rd, undef_def]
  have hin : ∀ (l : Nat) a t, Mild (do
        let a' ← Gauss.rd g.inv (l * g.dim + t)
        let b ← Gauss.diff A obs g.mean t t
        Pure.pure (A.add a (A.mul a' b)) : Prog (Gauss F) F) := fun l a t =>
    Mild.bind (Mild.rd _ _) fun _ => Mild.bind (hdiff _) fun _ => Mild.pure _
  have hdist : Gauss.distance A g obs g = .ub := by
    unfold Gauss.distance
    rw [hm]
    simp only
    refine Mild.loop_ub g.dim obs.length ho _ (fun a t => Mild.bind (Mild.loop _ _ (hin t) _) fun _ => Mild.bind (hdiff _) fun _ => Mild.pure _) ?_ _ _
    intro a s
    rw [bind_def, Mild.loop_ub g.dim obs.length ho _ (hin _) ?_ _ s]
    intro a s
    rw [bind_def]
    rcases Mild.rd (σ := Gauss F) g.inv (obs.length * g.dim + obs.length) s with ⟨b, e⟩ | e
    · rw [e]; simp only; rw [bind_def, h1]
    · rw [e]
  simp only [Gauss.likelihood, bind_def, get_def, hd, Bool.false_eq_true, if_false, hdist]

/-- a file whose component has 2 dimensions -/
def wideFile : Json ℚ := .obj
  [("label", .str "a"), ("mixture_coeffs", .arr [.real 1]),
   ("parameters", .obj [("gaussians", .int 1), ("relative_regularization", .real 1), ("absolute_regularization", .real 1), ("covariance_mode", .int 0)]),
   ("components", .arr [.obj [("dimension", .int 2), ("mean", .arr [.real 0, .real 0]), ("covariance", .arr [.real 1, .real 0, .real 0, .real 1]),
     ("inverse_covariance", .arr [.real 1, .real 0, .real 0, .real 1])]])]

/-- the class of the file, in a model of dimension 1 -/
def wideClass : Option (Gmm ℚ) :=
  match (Gmm.ofJson id 0 10 ⟨false, 1, 0, 1⟩ 0 wideFile () : Res Unit (String × Gmm ℚ)) with
  | .ret r _ => some r.2
  | _ => none

/-- C86 (classes, a defect): the dimensions of the components are not compared with those of the model: a class for observations of dimension 1 is accepted
    although its component has dimension 2, full covariance and a determinant other than 0.  For every such component, computing the likelihood of an
    observation of dimension 1, in any arithmetic, reads outside the observation. -/
theorem C86_class_dimensions_violated :
    (∃ m, wideClass = some m ∧ m.dim = 1 ∧ ∃ g ∈ m.comps, g.dim = 2 ∧ g.mode = .full ∧ g.det ≠ 0) ∧
    ∀ (F : Type) (A : Gauss.Arith F) (g : Gauss F) (x : F), g.mode = .full → A.eq g.det (A.lit 0) = false → g.dim = 2 →
      Gauss.likelihood A [x] g = .ub := by
  constructor
  · have h : (match wideClass with
      | some m => decide (m.dim = 1) && m.comps.any fun g => decide (g.dim = 2) && (g.mode == .full) && decide (g.det ≠ 0)
      | none => false) = true := by decide +kernel
    cases hw : wideClass with
    | none => rw [hw] at h; cases h
    | some m =>
      rw [hw] at h
      simp only [Bool.and_eq_true, decide_eq_true_eq, List.any_eq_true] at h
      obtain ⟨h1, g, h2, ⟨h3, h4⟩, h5⟩ := h
      exact ⟨m, rfl, h1, g, h2, h3, by simpa using h4, h5⟩
  · intro F A g x hm hd h2
    exact Gauss.likelihood_short_ub A g [x] hm hd (by rw [h2]; simp)

/-! ### The hypotheses are met -/

/-- a file that is refused: the mean has the wrong size -/
example (s : GaussObj ℚ) : GaussObj.fromJson 7 (.obj [("dimension", .int 2), ("mean", .arr [.real 0])]) s = .throw .jsonValueError s := by
  rw [GaussObj.fromJson_eq]; rfl

/-- a file that is refused: the covariance mode is unknown -/
example (s : GaussObj ℚ) : GaussObj.fromJson 7 (.obj [("dimension", .int 0), ("covariance_mode", .int 2)]) s = .throw .domainError s := by
  rw [GaussObj.fromJson_eq]; rfl

/-- a file that is accepted -/
example (s : GaussObj ℚ) : ∃ s', GaussObj.fromJson 7 (.obj [("mean", .arr [.real 3]), ("covariance", .arr [.int 2]), ("inverse_covariance", .arr [.int 1])]) s =
    .ret () s' ∧ s'.g.dim = 1 ∧ s'.g.mean = [3] ∧ s'.g.cov = [((2 : Int) : ℚ)] := by
  rw [GaussObj.fromJson_eq]; exact ⟨_, rfl, rfl, rfl, rfl⟩

/-- a phrase that is accepted by hand-written JSON: integers are accepted as numbers, members may be missing -/
example : ∃ q, (Phrase.ofJson (.obj [("length", .int 2), ("data", .arr [.int 1, .null]), ("label", .str "a")]) : Prog Unit (Phrase ℚ)) () = .ret q () ∧
    q.length = 2 ∧ q.dimension = 1 := ⟨_, rfl, rfl, rfl⟩

/-- a phrase that is refused: it declares more data than there is -/
example : (Phrase.ofJson (.obj [("length", .int 3), ("data", .arr [.int 1, .null]), ("label", .str "a")]) : Prog Unit (Phrase ℚ)) () =
    .throw .jsonValueError () := rfl

/-- parameters that are refused: no Gaussian -/
example : ∃ p, GmmAttrs.fromJson 0 id 1 (0 : ℚ) 10 (.obj [("gaussians", .int 0)]) p = .throw .domainError p :=
  ⟨GmmAttrs.fresh 0 0 10, rfl⟩

end Xmm
