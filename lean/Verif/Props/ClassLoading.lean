import Verif.Spec.ClassFile
import Verif.Props.JsonLoading
import Verif.Props.GaussianUpdate
set_option linter.unusedSimpArgs false
set_option linter.unusedSectionVars false
/- C86: the components of a class that was read from a file. -/
namespace Xmm
open Prog (bind_def pure_def get_def set_def modify_def throw_def undef_def)
variable {K : Type} [Field K] [LinearOrder K] [JsonReal K] (nar : K → K)

theorem Gmm.onComp_inv {c : Nat} {f : Prog (Gauss K) Unit} {a m : Gmm K} (h : Gmm.onComp c f a = .ret () m) :
    ∃ g g', a.comps[c]? = some g ∧ f g = .ret () g' ∧ m = { a with comps := a.comps.set c g' } := by
  unfold Gmm.onComp at h
  split at h
  · cases h
  · rename_i g hg
    split at h
    · rename_i g' hg'
      injection h with _ h
      exact ⟨g, g', hg, hg', h.symm⟩
    · cases h
    · cases h

/-- a loop over the components that returns has applied the function to each of them -/
theorem Gmm.loop_comps_ret (f : Prog (Gauss K) Unit) (k : Nat) {a m : Gmm K} (h : Phrase.loop k () (fun _ i => Gmm.onComp i f) a = .ret () m) :
    ∃ cs, m = { a with comps := cs } ∧ cs.length = a.comps.length ∧
      (∀ i, i < k → ∃ g g', a.comps[i]? = some g ∧ cs[i]? = some g' ∧ f g = .ret () g') ∧ ∀ i, k ≤ i → cs[i]? = a.comps[i]? := by
  induction k generalizing m with
  | zero => injection h with _ h; exact ⟨a.comps, h.symm, rfl, fun i hi => by omega, fun _ _ => rfl⟩
  | succ k ih =>
    rw [loop_succ] at h
    obtain ⟨_, m1, h1, h2⟩ := bind_inv h
    obtain ⟨cs, rfl, q1, q2, q3⟩ := ih h1
    obtain ⟨g, g', e1, e2, rfl⟩ := Gmm.onComp_inv h2
    simp only at e1
    have hk : k < cs.length := (List.getElem?_eq_some_iff.1 e1).1
    refine ⟨cs.set k g', rfl, by simpa using q1, fun i hi => ?_, fun i hi => ?_⟩
    · by_cases hik : i = k
      · subst hik
        exact ⟨g, g', (q3 i le_rfl) ▸ e1, by simp [hk], e2⟩
      · obtain ⟨a1, a2, b1, b2, b3⟩ := q2 i (by omega)
        exact ⟨a1, a2, b1, by rw [List.getElem?_set_ne (by omega)]; exact b2, b3⟩
    · rw [List.getElem?_set_ne (by omega)]
      exact q3 i (by omega)

theorem Gmm.readComponents_ret (js : List (Json K)) (c : Nat) {a m : Gmm K} (h : Gmm.readComponents js c a = .ret () m) :
    ∃ cs, m = { a with comps := cs } ∧ cs.length = a.comps.length ∧ (js ≠ [] → c + js.length ≤ a.comps.length) ∧
      (∀ (i : Nat) (j : Json K), js[i]? = some j → ∃ (g : Gauss K) (s s' : Gmm K), cs[c + i]? = some g ∧ Gauss.ofJson j s = .ret g s') ∧
      (∀ i, i < c ∨ c + js.length ≤ i → cs[i]? = a.comps[i]?) := by
  induction js generalizing c a with
  | nil =>
    unfold Gmm.readComponents at h
    injection h with _ h
    exact ⟨a.comps, h.symm, rfl, fun h => absurd rfl h, fun i j h => by simp at h, fun _ _ => rfl⟩
  | cons j js ih =>
    unfold Gmm.readComponents at h
    rw [bind_def, get_def] at h
    simp only at h
    split at h
    · rename_i hc
      obtain ⟨g, e, h⟩ := Reads.bind_inv (Reads.gauss j) h
      rw [bind_def, set_def] at h
      obtain ⟨cs, rfl, g1, g2, g3, g4⟩ := ih (c + 1) h
      simp only [List.length_set] at g1 g2
      refine ⟨cs, rfl, g1, fun _ => ?_, fun i j' hj => ?_, fun i hi => ?_⟩
      · cases js with
        | nil => simp; omega
        | cons x xs => have := g2 (by simp); simp at this ⊢; omega
      · cases i with
        | zero =>
          simp only [List.getElem?_cons_zero, Option.some.injEq] at hj
          subst hj
          refine ⟨g, a, a, ?_, e⟩
          rw [Nat.add_zero, g4 c (.inl (by omega))]
          simp [hc]
        | succ i =>
          rw [List.getElem?_cons_succ] at hj
          obtain ⟨g, s, s', k1, k2⟩ := g3 i j' hj
          exact ⟨g, s, s', by rw [← k1]; congr 1; omega, k2⟩
      · simp only [List.length_cons] at hi
        rw [g4 i (by omega)]
        simp only
        rw [List.getElem?_set_ne (by omega)]
    · cases h

/-- with a covariance that is large enough, the update of a bimodal distribution with more input dimensions than dimensions is undefined -/
theorem Gauss.updated_le {g g' : Gauss K} (hc : g.cov.length = g.dim * g.dim) (hd : g.mode = .diagonal → g.dim ≤ 1 ∧ g.di ≤ 1)
    (h : updateInverseCovariance g = .ret () g') (hb : g.bimodal = true) : g.di ≤ g.dim := by
  by_contra hlt
  have hlt : g.dim < g.di := by omega
  unfold updateInverseCovariance at h
  rw [bind_def, get_def] at h
  simp only at h
  cases hm : g.mode with
  | full =>
    rw [hm] at h
    obtain ⟨_, g1, h1, h2⟩ := bind_inv h
    unfold updateInverseFull at h1
    rw [bind_def, get_def] at h1
    simp only at h1
    obtain ⟨_, s1, _, h1⟩ := bind_inv h1
    obtain ⟨x, s2, _, h1⟩ := bind_inv h1
    obtain ⟨y, z⟩ := x
    obtain ⟨_, s3, _, h1⟩ := bind_inv h1
    rw [bind_def, set_def] at h1
    simp only [hb, if_true] at h1
    obtain ⟨_, s4, h3, _⟩ := bind_inv h1
    unfold matrixOf at h3
    split at h3
    · rename_i hi
      have := hi (g.di - 1) (by omega) 0 (by omega)
      simp only [hc] at this
      have h5 : g.dim * g.dim ≤ (g.di - 1) * g.dim := Nat.mul_le_mul_right _ (by omega)
      omega
    · cases h3
  | diagonal =>
    obtain ⟨d1, d2⟩ := hd hm
    have h0 : g.dim = 0 := by omega
    rw [hm] at h
    obtain ⟨_, g1, h1, h2⟩ := bind_inv h
    unfold updateInverseDiagonal at h1
    rw [bind_def, modify_def] at h1
    simp only at h1
    rw [bind_def, get_def] at h1
    simp only [h0] at h1
    injection h1 with _ h1
    subst h1
    unfold updateOutputIfBimodal at h2
    rw [bind_def, get_def] at h2
    simp only [hb, if_true] at h2
    unfold updateOutputCovariance at h2
    rw [bind_def, get_def] at h2
    simp only [hb, Bool.not_true, Bool.false_eq_true, if_false] at h2
    obtain ⟨_, s4, h3, _⟩ := bind_inv h2
    unfold outDim at h3
    simp only at h3
    rw [if_pos (h0 ▸ hlt)] at h3
    cases h3

section
variable [IsStrictOrderedRing K]

/-- a component that was read from a file and then updated is the one of the file, and coherent -/
theorem Gauss.updated_described {σ : Type} {root : Json K} {st st' : σ} {g g' : Gauss K} (h : ofJson root st = .ret g st')
    (hu : updateInverseCovariance g = .ret () g') : g'.Described root ∧ g'.Coherent := by
  obtain ⟨q1, q2, q3, q4, q5, q6, q7, q8, _, _, q11, q12, q13⟩ := C86_gauss_accepted h
  have hle := updated_le q6 q12 hu
  have hd : g.mode = .diagonal → g.dim * g.dim = g.dim ∧ g.di * g.di = g.di := by
    intro hm
    obtain ⟨d1, d2⟩ := q12 hm
    constructor
    · interval_cases g.dim <;> rfl
    · interval_cases g.di <;> rfl
  have hw : g.WF := by
    refine ⟨q5, ?_, ?_, fun hb => ?_, hle⟩
    · rw [q6]; cases hm : g.mode with
      | full => rfl
      | diagonal => exact (hd hm).1
    · rw [q7]; cases hm : g.mode with
      | full => rfl
      | diagonal => exact (hd hm).1
    · rw [q13 hb]; cases hm : g.mode with
      | full => rfl
      | diagonal => exact (hd hm).2
  obtain ⟨w, sp, i1, i2, i3⟩ := C31_inverse g g' hw hu
  obtain ⟨s1, s2, s3, s4, s5, s6⟩ := sp
  refine ⟨⟨?_, ?_, ?_, ?_, ?_⟩, ⟨w, i1, i2, fun hb => i3 (by simpa [*] using hb)⟩⟩
  all_goals simp_all

/-- a constructed distribution that was not filled cannot be updated -/
theorem Gauss.construct_not_updated {b : Bool} {dim di : Nat} {m : CovMode} {g g' : Gauss K} (h : Gauss.construct b dim di m = some g)
    (hu : updateInverseCovariance g = .ret () g') : False := by
  obtain ⟨hw, e1, e2, e3, e4⟩ := C31_sizes_reachable b dim di m g h
  obtain ⟨w, sp, i1, _⟩ := C31_inverse g g' hw hu
  have hpos : 0 < g'.dim := by
    rw [sp.dim, e1]
    unfold Gauss.construct at h
    by_contra hc
    rw [if_pos (by split <;> omega)] at h
    cases h
  have hz : ∀ k, g'.cov.getD k 0 = 0 := by
    intro k
    rw [sp.cov]
    unfold Gauss.construct at h
    by_cases c1 : dim < (if b then 2 else 1)
    · rw [if_pos c1] at h; cases h
    · rw [if_neg c1] at h
      by_cases c2 : (if b then dim - 1 else 0) < di
      · rw [if_pos c2] at h; cases h
      · rw [if_neg c2] at h
        have h := (Option.some.inj h).symm
        subst h
        cases m <;> simp [allocate, resize, List.getD_eq_getElem?_getD, List.getElem?_replicate] <;> split <;> rfl
  have hs : g'.sigma = 0 := by
    ext i j
    unfold sigma
    cases g'.mode with
    | full => exact hz _
    | diagonal =>
      simp only [Matrix.diagonal_apply, vecOf, hz, ite_self, Matrix.zero_apply]
  rw [hs, mul_zero] at i1
  have := congrFun (congrFun i1 ⟨0, hpos⟩) ⟨0, hpos⟩
  simp at this

/-- C86 (classes, the components): if the construction of a class from any JSON returns, the file has exactly as many components as it declares Gaussians, and
    the components of the class are those of the file, in their order.  The vectors of each have the sizes its dimensions require and the cached inverses are
    those of its covariance, whatever inverses the file has. -/
theorem C86_class_components {σ : Type} {tiny realMax z : K} {sh : SharedView} {root : Json K} {st st' : σ} {label : String} {m : Gmm K}
    (h : Gmm.ofJson nar tiny realMax sh z root st = .ret (label, m) st') : m.HasComponents root := by
  unfold Gmm.ofJson at h
  obtain ⟨j1, e1, h⟩ := bindE_inv h
  obtain ⟨l, f1, h⟩ := bindE_inv h
  obtain ⟨p, s1, e2, h⟩ := bind_inv h
  obtain ⟨m1, s2, e3, h⟩ := bind_inv h
  injection h with h _
  injection h with h h'
  subst h h'
  obtain ⟨_, e3⟩ := build_inv e3
  unfold Gmm.readBody at e3
  obtain ⟨_, a1, g1, e3⟩ := bind_inv e3
  obtain ⟨jc, k1, e3⟩ := bindE_inv e3
  obtain ⟨_, a2, g2, e3⟩ := bind_inv e3
  obtain ⟨js, k2, e3⟩ := bindE_inv e3
  obtain ⟨_, a3, g3, e4⟩ := bind_inv e3
  have w1 : ∃ g, (Gauss.construct sh.bimodal sh.dim sh.di (covModeOf p.covMode.value) : Option (Gauss K)) = some g ∧
      a1.comps = List.replicate p.gaussians.value g ∧ a1.gaussians = p.gaussians.value := by
    unfold Gmm.allocate at g1
    simp only [bind_def, modify_def, get_def] at g1
    cases hc : (Gauss.construct sh.bimodal sh.dim sh.di (covModeOf p.covMode.value) : Option (Gauss K)) with
    | none => simp only [Gmm.unread] at g1; rw [hc] at g1; cases g1
    | some g =>
      simp only [Gmm.unread] at g1
      rw [hc] at g1
      injection g1 with _ g1
      subst g1
      exact ⟨g, rfl, rfl, rfl⟩
  obtain ⟨g0, c0, v1, v2⟩ := w1
  have w2 : a2.comps = a1.comps ∧ a2.gaussians = a1.gaussians := by
    unfold Gmm.readCoeffs at g2
    rw [bind_def, get_def] at g2
    simp only at g2
    obtain ⟨c, r1, r2⟩ := Reads.bind_inv (Reads.vector _ _ _) g2
    injection r2 with _ r2
    subst r2
    exact ⟨rfl, rfl⟩
  obtain ⟨cs, rfl, r1, r2, r3, r4⟩ := Gmm.readComponents_ret _ _ g3
  rw [w2.1, v1, List.length_replicate] at r1 r2
  have hu : ∃ cs', m1 = { a2 with comps := cs' } ∧ ∀ i, i < p.gaussians.value → ∃ g g', cs[i]? = some g ∧ cs'[i]? = some g' ∧ Gauss.updateInverseCovariance g = .ret () g' := by
    unfold Gmm.updateInverseCovariances at e4
    split at e4
    · cases e4
    · unfold Gmm.eachComp at e4
      rw [bind_def, get_def] at e4
      obtain ⟨cs', u1, u2, u3, _⟩ := Gmm.loop_comps_ret _ _ e4
      subst u1
      exact ⟨cs', rfl, fun i hi => u3 i (by simpa [r1] using hi)⟩
  obtain ⟨cs', rfl, hu⟩ := hu
  have hlen : js.elements.length ≤ p.gaussians.value := by
    by_cases h0 : js.elements = []
    · rw [h0]; exact Nat.zero_le _
    · have := r2 h0; omega
  refine ⟨js, k2, ?_, fun i j hj => ?_⟩
  · simp only [w2.2, v2]
    by_contra hne
    obtain ⟨g, g', t1, t2, t3⟩ := hu js.elements.length (by omega)
    rw [r4 _ (.inr (by omega)), w2.1, v1, List.getElem?_replicate_of_lt (by omega)] at t1
    injection t1 with t1
    subst t1
    exact Gauss.construct_not_updated c0 t3
  · have hi : i < js.elements.length := (List.getElem?_eq_some_iff.1 hj).1
    obtain ⟨g, s, s', t1, t2⟩ := r3 i j hj
    obtain ⟨g1, g', x1, x2, x3⟩ := hu i (by omega)
    rw [Nat.zero_add, x1] at t1
    injection t1 with t1
    subst t1
    exact ⟨g', x2, Gauss.updated_described t2 x3⟩

end
end Xmm
