import Verif.Spec.Repeated
import Verif.Lemmas.Copies
import Verif.Props.PhraseOrder
set_option linter.unusedSimpArgs false
set_option linter.unusedSectionVars false
/- C110: every phrase recorded several times. -/
namespace Xmm
open Prog (bind_def pure_def get_def set_def modify_def throw_def undef_def)
open Phrase (loop)
open Gauss (rd resize)
open GmmSpec

/-! ### The data -/

namespace KData
variable {K : Type} {k : Nat} {data data' : KData K}

theorem Repeated.copies (h : data.Repeated k data') : Copies k data.phrases data'.phrases := h.perm

theorem Repeated.frames (h : data.Repeated k data') : Copies k data.frames data'.frames := h.copies.flatten

theorem Repeated.isEmpty (h : data.Repeated k data') : data'.phrases.isEmpty = data.phrases.isEmpty := by
  rw [Bool.eq_iff_iff, List.isEmpty_iff, List.isEmpty_iff]
  exact h.copies.eq_nil h.times

theorem Repeated.mem_frames (h : data.Repeated k data') {x : List K} : x ∈ data'.frames ↔ x ∈ data.frames := h.frames.mem h.times

end KData

theorem times_ne {K : Type} [Field K] [LinearOrder K] [IsStrictOrderedRing K] {k : Nat} (hk : 1 ≤ k) : (k : K) ≠ 0 := by
  exact_mod_cast (by omega : k ≠ 0)

section field
variable {K : Type} [Field K] [LinearOrder K] [IsStrictOrderedRing K] {k : Nat}

theorem GmmSpec.average_copies (hk : 1 ≤ k) {l l' : List (List K)} (h : Copies k l l') (f : List K → K) : average l' f = average l f := by
  unfold average
  rw [(h.map f).sum, h.length, nsmul_eq_mul, Nat.cast_mul, mul_div_mul_left _ _ (times_ne hk)]

theorem GmmSpec.covariance_copies (hk : 1 ≤ k) {l l' : List (List K)} (h : Copies k l l') (i j : Nat) : covariance l' i j = covariance l i j := by
  unfold covariance
  rw [average_copies hk h, average_copies hk h, average_copies hk h]

theorem GmmSpec.wsum_copies {l l' : List (List K)} (h : Copies k l l') (n : Nat) (w : Nat → K) (dens : List K → Nat → K) (c : Nat) (f : List K → K) :
    wsum n w dens l' c f = k * wsum n w dens l c f := by
  unfold wsum
  rw [(h.map _).sum, nsmul_eq_mul]

theorem GmmSpec.wavg_copies (hk : 1 ≤ k) {l l' : List (List K)} (h : Copies k l l') (n : Nat) (w : Nat → K) (dens : List K → Nat → K) (c : Nat) (f : List K → K) :
    wavg n w dens l' c f = wavg n w dens l c f := by
  unfold wavg
  rw [wsum_copies h, wsum_copies h, mul_div_mul_left _ _ (times_ne hk)]

theorem GmmSpec.wcov_copies (hk : 1 ≤ k) {l l' : List (List K)} (h : Copies k l l') (n : Nat) (w : Nat → K) (dens : List K → Nat → K) (c i j : Nat) :
    wcov n w dens l' c i j = wcov n w dens l c i j := by
  unfold wcov wmean
  simp only [wavg_copies hk h]

end field

/-- **C110** (standard deviations): recording every phrase `k` times does not change the standard deviations. -/
theorem C110_deviations (k : Nat) (data data' : KData ℝ) (h : data.Repeated k data') (d : Nat) : deviations d data'.frames = deviations d data.frames := by
  unfold deviations
  congr 1
  funext i
  rw [covariance_copies h.times h.frames]

/-! ### k-means -/

namespace KMeans

theorem members_copies {k clusters dim : Nat} (prev : List ℝ) {l l' : List (List ℝ)} (h : Copies k l l') (c : Nat) :
    Copies k (members clusters dim prev l c) (members clusters dim prev l' c) := by
  unfold members
  exact h.filter _

theorem updateCenters_copies {σ : Type} {k clusters dim : Nat} (hk : 1 ≤ k) (h1 : 1 ≤ clusters) {prev : List ℝ} (hp : prev.length = clusters * dim) {l l' : List (List ℝ)}
    (h : Copies k l l') (hf : ∀ x ∈ l, x.length = dim) (s : σ) :
    ∃ c, updateCenters Real.sqrt prev clusters dim l' s = .ret c s ∧ updateCenters Real.sqrt prev clusters dim l s = .ret c s ∧ c.length = clusters * dim := by
  obtain ⟨-, c, a1, a2, a3⟩ := C34_update_is_mean clusters dim prev l hf hp h1 s
  obtain ⟨-, c', b1, b2, b3⟩ := C34_update_is_mean clusters dim prev l' (fun x hx => hf x ((h.mem hk).1 hx)) hp h1 s
  have e : c' = c := by
    refine ext_centers b2 a2 fun q hq d hd => ?_
    rw [a3 q hq d hd, b3 q hq d hd]
    have hm := members_copies (clusters := clusters) (dim := dim) prev h q
    by_cases he : members clusters dim prev l q = []
    · rw [if_pos he, if_pos ((hm.eq_nil hk).2 he)]
    · rw [if_neg he, if_neg fun e => he ((hm.eq_nil hk).1 e)]
      unfold meanOf
      rw [(hm.map _).sum, hm.length, nsmul_eq_mul, Nat.cast_mul, mul_div_mul_left _ _ (times_ne hk)]
  subst e
  exact ⟨c', b1, a1, a2⟩

theorem iterate_copies {σ : Type} {k clusters dim : Nat} (hk : 1 ≤ k) (thr : ℝ) (h1 : 1 ≤ clusters) {l l' : List (List ℝ)} (h : Copies k l l') (hf : ∀ x ∈ l, x.length = dim) :
    ∀ (n : Nat) (c : List ℝ), c.length = clusters * dim → ∀ s : σ, iterate Real.sqrt thr clusters dim l' n c s = iterate Real.sqrt thr clusters dim l n c s
  | 0, _, _, _ => rfl
  | n + 1, c, hc, s => by
    obtain ⟨c1, a1, a2, a3⟩ := updateCenters_copies hk h1 hc h hf s
    simp only [iterate]
    rw [bind_of_ret a1, bind_of_ret a2, bind_of_ret (converged_ret thr c c1 hc a3 s), bind_of_ret (converged_ret thr c c1 hc a3 s)]
    split_ifs
    · rfl
    · exact iterate_copies hk thr h1 h hf n c1 a3 s

/-- **C110** (k-means): recording every phrase `k` times gives the same clusters. -/
theorem C110_clusters (m : KMeans ℝ) (rnd : Nat → Nat → ℝ) (sd : List ℝ) (k : Nat) (data data' : KData ℝ) (hw : data.WF sd) (h1 : 1 ≤ m.clusters) (h : data.Repeated k data') :
    train Real.sqrt rnd sd data' m = train Real.sqrt rnd sd data m := by
  cases hp : data.phrases with
  | nil =>
    have hp' : data'.phrases = [] := (h.copies.eq_nil h.times).2 hp
    simp only [train, hp, hp']
  | cons first rest =>
    cases hp' : data'.phrases with
    | nil =>
      have := (h.copies.eq_nil h.times).1 hp'
      rw [hp] at this
      cases this
    | cons first' rest' =>
      have hff : first' = first := by
        have := h.first
        rw [hp, hp'] at this
        simpa using this
      subst hff
      have hframe : ∀ q : List (List ℝ), q ∈ data.phrases → ∀ x ∈ q, x.length = data.dim := fun q hq x hx => hw.frames x (List.mem_flatten.2 ⟨q, hq, hx⟩)
      set m1 : KMeans ℝ := { m with dim := data.dim, centers := resize (m.clusters * data.dim) m.centers } with hm1
      have hl1 : m1.centers.length = m.clusters * data.dim := Gauss.resize_length _ _
      have hinit : ∃ c0 : List ℝ, initCenters (σ := KMeans ℝ) rnd sd first' m1 m1 = .ret c0 m1 ∧ c0.length = m.clusters * data.dim := by
        by_cases hb1 : m1.biased = true
        · obtain ⟨c, e1, e2, e3, _⟩ := C66_biased_init (σ := KMeans ℝ) first' m1.centers (hframe first' (by rw [hp]; simp)) hl1 m1
          refine ⟨c, ?_, e2⟩
          rw [initCenters, if_pos hb1]; exact e1
        · obtain ⟨c, e1, e2, e3, _⟩ := C66_random_init (σ := KMeans ℝ) rnd sd m1.centers hw.sd hl1 m1
          refine ⟨c, ?_, e2⟩
          rw [initCenters, if_neg hb1]; exact e1
      obtain ⟨c0, i1, i3⟩ := hinit
      simp only [train, hp, hp', bind_def, modify_def, get_def, h.dim]
      rw [← hm1, i1]
      simp only [set_def]
      rw [iterate_copies h.times m1.threshold h1 h.frames hw.frames m1.maxIter c0 i3 m1]

end KMeans

/-! ### Mixtures -/

namespace Gmm

theorem kmeansCenters_repeated {σ : Type} {k : Nat} {sd : List ℝ} {data data' : KData ℝ} (hw : data.WF sd) {clusters : Nat} (h1 : 1 ≤ clusters) (h : data.Repeated k data') :
    (kmeansCenters Real.sqrt sd data' clusters : Prog σ (List ℝ)) = kmeansCenters Real.sqrt sd data clusters := by
  funext s
  unfold kmeansCenters
  rw [KMeans.C110_clusters (initialKMeans clusters) (fun _ _ => 0) sd k data data' hw h1 h]

section sums
variable {K : Type} [Field K] [LinearOrder K] [IsStrictOrderedRing K] {σ : Type} {k : Nat}

theorem segmentSum_repeated {data data' : KData K} (h : data.Repeated k data') (parts n : Nat) {f : List K → Prog σ K} (hf : ∀ x, (f x).Calm) :
    (∃ S, (∀ s, segmentSum data parts n f s = .ret S s) ∧ ∀ s, segmentSum data' parts n f s = .ret (k * S) s) ∨
      ((∀ s, segmentSum data parts n f s = .ub) ∧ ∀ s, segmentSum data' parts n f s = .ub) := by
  have hg : ∀ (phrase : List (List K)) (t : Nat), (do let x ← rd phrase (n * (phrase.length / parts) + t); f x : Prog σ K).Calm := fun phrase t =>
    Prog.Calm.bind (Prog.Calm.rd _ _) fun x => hf x
  have e : ∀ data : KData K, segmentSum data parts n f = data.phrases.foldlM (addTo fun phrase =>
      loop (phrase.length / parts) 0 (fun a t => addTo (fun t => do let x ← rd phrase (n * (phrase.length / parts) + t); f x) a t)) 0 := by
    intro data
    unfold segmentSum
    congr 1
    funext acc phrase
    rw [addTo, ← addTo_loop (hg phrase) acc]
    congr 1
    funext a t s
    simp only [addTo, bind_def]
    cases rd phrase (n * (phrase.length / parts) + t) s <;> rfl
  rw [e, e]
  rcases sumM_copies (σ := σ) (K := K) (g := fun phrase : List (List K) => loop (phrase.length / parts) 0
      (fun a t => addTo (fun t => do let x ← rd phrase (n * (phrase.length / parts) + t); f x) a t)) (fun phrase => Prog.Calm.loop fun a t => Prog.Calm.bind (hg phrase t) fun v => Prog.Calm.pure _) h.times h.copies with ⟨S, a1, a2⟩ | ⟨a1, a2⟩
  · refine Or.inl ⟨S, fun s => ?_, fun s => ?_⟩
    · rw [a1, zero_add]
    · rw [a2, zero_add, nsmul_eq_mul]
  · exact Or.inr ⟨a1 0, a2 0⟩

theorem segmentFrames_repeated {data data' : KData K} (h : data.Repeated k data') (parts : Nat) : segmentFrames data' parts = k * segmentFrames data parts := by
  unfold segmentFrames
  rw [(h.copies.map _).sum, smul_eq_mul]

theorem initCov_repeated {data data' : KData K} (h : data.Repeated k data') (parts n d1 d2 : Nat) :
    (initCov data' parts n d1 d2 : Prog σ K) = initCov data parts n d1 d2 := by
  have hk : (k : K) ≠ 0 := times_ne h.times
  funext s
  unfold initCov
  rcases segmentSum_repeated (σ := σ) h parts n (f := fun x => do let a ← rd x d1; let b ← rd x d2; pure (a * b)) fun x =>
      Prog.Calm.bind (Prog.Calm.rd _ _) fun a => Prog.Calm.bind (Prog.Calm.rd _ _) fun b => Prog.Calm.pure _ with ⟨S, a1, a2⟩ | ⟨a1, a2⟩
  · rw [bind_of_ret (a1 s), bind_of_ret (a2 s)]
    rcases segmentSum_repeated (σ := σ) h parts n (f := fun x => rd x d1) fun x => Prog.Calm.rd _ _ with ⟨S1, b1, b2⟩ | ⟨b1, b2⟩
    · rw [bind_of_ret (b1 s), bind_of_ret (b2 s)]
      rcases segmentSum_repeated (σ := σ) h parts n (f := fun x => rd x d2) fun x => Prog.Calm.rd _ _ with ⟨S2, c1, c2⟩ | ⟨c1, c2⟩
      · rw [bind_of_ret (c1 s), bind_of_ret (c2 s), segmentFrames_repeated h, Nat.cast_mul, mul_div_mul_left _ _ hk, mul_div_mul_left _ _ hk, mul_div_mul_left _ _ hk]
      · rw [bind_def, bind_def, c1, c2]
    · rw [bind_def, bind_def, b1, b2]
  · rw [bind_def, bind_def, a1, a2]

theorem initCovariances_repeated {data data' : KData K} (h : data.Repeated k data') : initCovariances data' = initCovariances data := by
  have e : ∀ mode parts n dim, (initCovMode mode data' parts n dim : Prog (Gmm K) (List K)) = initCovMode mode data parts n dim := by
    intro mode parts n dim
    unfold initCovMode
    cases mode <;> simp only [initCov_repeated h]
  have e1 : ∀ n, initCovComp data' n = initCovComp data n := by
    intro n
    unfold initCovComp
    simp only [e]
  have hk : k ≠ 0 := by have := h.times; omega
  have e2 : ∀ parts, decide (segmentFrames data' parts ≠ 0) = decide (segmentFrames data parts ≠ 0) := fun parts => by
    rw [segmentFrames_repeated h]
    simp [hk]
  unfold initCovariances
  simp only [e1, e2, h.isEmpty]

/-- the parameters after a step are determined -/
theorem Updated.unique {m : Gmm K} {frames frames' : List (List K)} {dens : List K → Nat → K} {a b : Gmm K} (ha : m.Updated frames dens a) (hb : m.Updated frames' dens b)
    (ka : ∀ (c : Nat) (g2 : Gauss K), a.comps[c]? = some g2 → ∃ g : Gauss K, m.comps[c]? = some g ∧ g2 = { g with mean := g2.mean, cov := g2.cov })
    (kb : ∀ (c : Nat) (g2 : Gauss K), b.comps[c]? = some g2 → ∃ g : Gauss K, m.comps[c]? = some g ∧ g2 = { g with mean := g2.mean, cov := g2.cov })
    (hc : ∀ c, wsum m.gaussians (weights m) dens frames' c (fun _ => 1) / (frames'.length : K) = wsum m.gaussians (weights m) dens frames c (fun _ => 1) / (frames.length : K))
    (hm : ∀ c i, wmean m.gaussians (weights m) dens frames' c i = wmean m.gaussians (weights m) dens frames c i)
    (hv : ∀ c i j, wcov m.gaussians (weights m) dens frames' c i j = wcov m.gaussians (weights m) dens frames c i j) : b = a := by
  have ga : a.gaussians = m.gaussians := by rw [ha.same]
  have gb : b.gaussians = m.gaussians := by rw [hb.same]
  have da : a.dim = m.dim := by rw [ha.same]
  have db : b.dim = m.dim := by rw [hb.same]
  have hcoef : b.coeffs = a.coeffs := by
    apply List.ext_getElem (by rw [ha.wf.coeffs, hb.wf.coeffs, ga, gb])
    intro c h1 h2
    have hlt : c < m.gaussians := by rw [hb.wf.coeffs, gb] at h1; exact h1
    have e1 := ha.coeff c hlt
    have e2 := hb.coeff c hlt
    rw [List.getD_eq_getElem?_getD, List.getElem?_eq_getElem h2, Option.getD_some] at e1
    rw [List.getD_eq_getElem?_getD, List.getElem?_eq_getElem h1, Option.getD_some] at e2
    rw [e1, e2, hc]
  have hcomp : b.comps = a.comps := by
    apply List.ext_getElem (by rw [ha.wf.comps, hb.wf.comps, ga, gb])
    intro c h1 h2
    have p1 := List.getElem?_eq_getElem h1
    have p2 := List.getElem?_eq_getElem h2
    obtain ⟨g, q1, r1⟩ := kb c _ p1
    obtain ⟨g', q2, r2⟩ := ka c _ p2
    rw [q1] at q2
    cases q2
    obtain ⟨w1, x1, -, y1, -⟩ := hb.wf.comp _ (List.getElem_mem h1)
    obtain ⟨w2, x2, -, y2, -⟩ := ha.wf.comp _ (List.getElem_mem h2)
    have mo : (b.comps[c]).mode = (a.comps[c]).mode := by rw [r1, r2]
    have hmean : (b.comps[c]).mean = (a.comps[c]).mean := by
      apply List.ext_getElem (by rw [w1.mean, w2.mean, x1, x2, da, db])
      intro i h3 h4
      have hi : i < m.dim := by rw [w1.mean, x1, db] at h3; exact h3
      have e1 := hb.mean c _ p1 i hi
      have e2 := ha.mean c _ p2 i hi
      rw [List.getD_eq_getElem?_getD, List.getElem?_eq_getElem h3, Option.getD_some] at e1
      rw [List.getD_eq_getElem?_getD, List.getElem?_eq_getElem h4, Option.getD_some] at e2
      rw [e1, e2, hm]
    have hcov : (b.comps[c]).cov = (a.comps[c]).cov := by
      have hat : ∀ i < m.dim, ∀ j < m.dim, (b.comps[c]).covAt i j = (a.comps[c]).covAt i j := fun i hi j hj => by
        rw [hb.cov c _ p1 i hi j hj, ha.cov c _ p2 i hi j hj, hv]
      apply List.ext_getElem (by rw [w1.cov, w2.cov, x1, x2, da, db, mo])
      intro i h3 h4
      have hl := w1.cov
      cases hmode : (b.comps[c]).mode with
      | full =>
        have hmode' := hmode
        rw [mo] at hmode'
        rw [hmode] at hl
        simp only at hl
        have h5 : i < m.dim * m.dim := by rw [hl, x1, db] at h3; exact h3
        have hd : 0 < m.dim := Nat.pos_of_ne_zero fun h0 => by simp [h0] at h5
        have := hat (i / m.dim) ((Nat.div_lt_iff_lt_mul hd).2 h5) (i % m.dim) (Nat.mod_lt _ hd)
        simp only [Gauss.covAt, hmode, hmode', x1, x2, da, db, Nat.div_add_mod', List.getD_eq_getElem?_getD, List.getElem?_eq_getElem h3, List.getElem?_eq_getElem h4,
          Option.getD_some] at this
        exact this
      | diagonal =>
        have hmode' := hmode
        rw [mo] at hmode'
        rw [hmode] at hl
        simp only at hl
        have h5 : i < m.dim := by rw [hl, x1, db] at h3; exact h3
        have := hat i h5 i h5
        simp only [Gauss.covAt, hmode, hmode', if_true, List.getD_eq_getElem?_getD, List.getElem?_eq_getElem h3, List.getElem?_eq_getElem h4, Option.getD_some] at this
        exact this
    rw [r1, r2, hmean, hcov]
  rw [hb.same, ha.same, hcoef, hcomp]

end sums

/-- a step with the copies gives the same mixture, and a multiple of the log-likelihood -/
theorem emUpdate_repeated (D : Dens ℝ) (log : ℝ → ℝ) {k : Nat} {data data' : KData ℝ} (h : data.Repeated k data') (m : Gmm ℝ) (hw : m.WF) (ht : m.Trains data)
    (dens : List ℝ → Nat → ℝ) (hd : Densities D m data.frames dens) {v : ℝ} {m' : Gmm ℝ} (he : emUpdate D log data m = .ret v m') :
    emUpdate D log data' m = .ret (k * v) m' := by
  have ht' : m.Trains data' := ⟨fun x hx => ht.frame x (h.mem_frames.1 hx), fun e => ht.some ((h.frames.eq_nil h.times).1 e), ht.reg⟩
  obtain ⟨a, a1, a2, a3⟩ := emUpdate_run_keeps D log data m hw ht dens hd
  obtain ⟨b, b1, b2, b3⟩ := emUpdate_run_keeps D log data' m hw ht' dens (fun x hx => hd x (h.mem_frames.1 hx))
  have e : b = a := Updated.unique a1 b1 a2 b2 (fun c => by rw [wsum_copies h.frames, h.frames.length, Nat.cast_mul, mul_div_mul_left _ _ (times_ne h.times)])
    (fun c i => wavg_copies h.times h.frames _ _ _ _ _) (fun c i j => wcov_copies h.times h.frames _ _ _ _ _ _)
  subst e
  rw [b3, (h.frames.map fun x => log (∑ c ∈ Finset.range m.gaussians, score (weights m) (dens x) c)).sum, nsmul_eq_mul]
  rw [a3] at he
  simp only [bind_def, pure_def] at he ⊢
  cases hu : updateInverseCovariances b with
  | ub => rw [hu] at he; cases he
  | throw e s => rw [hu] at he; cases he
  | ret u s =>
    rw [hu] at he
    simp only at he ⊢
    injection he with e1 e2
    rw [e1, e2]

theorem emInit_repeated {k : Nat} {sd : List ℝ} {data data' : KData ℝ} (h : data.Repeated k data') (m : Gmm ℝ) (hm : m.WF) (hf : m.Fed sd data) :
    emInit Real.sqrt sd data' m = emInit Real.sqrt sd data m := by
  have hw : data.WF sd := ⟨fun x hx => by rw [hf.dim]; exact hf.frame x hx, by rw [hf.dim, hf.sd]⟩
  obtain ⟨l, hi, -⟩ := C36_default_parameters m hm sd hf.sd
  have e : ∀ s : Gmm ℝ, 1 ≤ s.gaussians → initMeansWithKMeans Real.sqrt sd data' s = initMeansWithKMeans Real.sqrt sd data s := by
    intro s hs
    unfold initMeansWithKMeans
    rw [h.isEmpty]
    split_ifs
    · rfl
    · rw [bind_of_ret (Prog.get_def s), bind_of_ret (Prog.get_def s), kmeansCenters_repeated hw hs h]
  unfold emInit
  rw [initCovariances_repeated h, bind_of_ret hi, bind_of_ret hi, bind_def, bind_def, e { m with
    reg := regularization m sd, coeffs := List.replicate m.gaussians (1 / (m.gaussians : ℝ)), comps := l } hm.pos]

end Gmm

/-! ### Two trainings side by side, with other log-likelihoods -/

namespace Trainer
variable {V : Type}

/-- the loops of two trainings that see related log-likelihoods -/
theorem emLoop_scaled {E E' : EmEnv V} {P : EmParams} (hP : 1 ≤ P.minIter) (hP2 : P.minIter ≤ P.maxIter ∨ 2 ≤ P.minIter) (S : V → V → Prop)
    (hu : ∀ n, ∃ v v', E.update n = some v ∧ E'.update n = some v' ∧ S v v') (hc : E'.cancel = E.cancel)
    (hn : ∀ l l' o o', S l l' → S o o' → E'.isNan l' o' = E.isNan l o) (hcl : ∀ l l' o o', S l l' → S o o' → E'.close l' o' = E.close l o) :
    ∀ (fuel : Nat) (old old' : V) (s s' : Trainer V), s' = { s with logLik := s'.logLik } → s.updates = s.iterations →
      (s.updates = 0 ∧ s'.logLik = s.logLik ∨ 0 < s.updates ∧ S s.logLik s'.logLik) → (s.iterations ≤ 1 ∨ S old old') →
      ∃ r t t', emLoop E P fuel false old s = .ret r t ∧ emLoop E' P fuel false old' s' = .ret r t' ∧ t' = { t with logLik := t'.logLik } ∧
        (t.updates = 0 ∧ t'.logLik = t.logLik ∨ 0 < t.updates ∧ S t.logLik t'.logLik)
  | 0, _, _, s, s', hs, _, hl, _ => ⟨.running, s, s', rfl, rfl, hs, hl⟩
  | fuel + 1, old, old', s, s', hs, hit, hl, ho => by
    have hi : s'.iterations = s.iterations := by rw [hs]
    have hch : s'.checks = s.checks := by rw [hs]
    have hup : s'.updates = s.updates := by rw [hs]
    have hconv : hasConverged E' P s'.iterations s'.logLik old' = hasConverged E P s.iterations s.logLik old := by
      unfold hasConverged
      rw [hi]
      split_ifs with q1 q2
      · rfl
      · rfl
      · by_cases q3 : P.minIter ≤ s.iterations
        · have q4 : 1 < s.iterations := by omega
          rcases hl with ⟨h0, -⟩ | ⟨-, hS⟩
          · omega
          · rw [hcl _ _ _ _ hS (ho.resolve_left (by omega))]
        · simp [q3]
    unfold emLoop
    rw [bind_of_ret (get_def s), bind_of_ret (get_def s'), hconv]
    by_cases hcv : hasConverged E P s.iterations s.logLik old = true
    · rw [if_pos hcv, if_pos hcv]
      exact ⟨.converged, s, s', rfl, rfl, hs, hl⟩
    · rw [if_neg hcv, if_neg hcv]
      by_cases hcan : E.cancel s.checks = true
      · have hcan' : E'.cancel s'.checks = true := by rw [hc, hch]; exact hcan
        rw [bind_of_ret (cancel_yes hcan), bind_of_ret (cancel_yes hcan'), if_pos rfl, if_pos rfl, pure_def]
        refine ⟨.returned, _, _, rfl, rfl, ?_, hl.imp (fun h => h) fun h => h⟩
        rw [hs]
      · have hcan : E.cancel s.checks = false := by simpa using hcan
        have hcan' : E'.cancel s'.checks = false := by rw [hc, hch]; exact hcan
        obtain ⟨v, v', u1, u2, u3⟩ := hu s.updates
        rw [bind_of_ret (cancel_no hcan), bind_of_ret (cancel_no hcan'), if_neg (by simp), if_neg (by simp)]
        have hrest : ∀ (E : EmEnv V) (s : Trainer V) (v : V), E.update s.updates = some v → emUpdate E false s = .ret false { s with updates := s.updates + 1, logLik := v } := by
          intro E s v h
          unfold emUpdate
          simp only [Bool.false_eq_true, if_false, bind_def, get_def, set_def, h, modify_def, pure_def]
        simp only [bind_def, get_def, hrest E { s with checks := s.checks + 1 } v u1, hrest E' { s' with checks := s'.checks + 1 } v' (by simp only [hup]; exact u2)]
        have hnan : (E'.isNan v' s'.logLik && decide (1 < s'.iterations)) = (E.isNan v s.logLik && decide (1 < s.iterations)) := by
          rw [hi]
          by_cases q : 1 < s.iterations
          · rcases hl with ⟨h0, -⟩ | ⟨-, hS⟩
            · omega
            · rw [hn _ _ _ _ u3 hS]
          · simp [q]
        simp only [hnan, Bool.false_or]
        by_cases hna : (E.isNan v s.logLik && decide (1 < s.iterations)) = true
        · simp only [hna, if_true, modify_def, notify, pure_def]
          refine ⟨.returned, _, _, rfl, rfl, ?_, Or.inr ⟨Nat.succ_pos _, u3⟩⟩
          rw [hs]
        · simp only [hna, Bool.false_eq_true, if_false, modify_def, notify]
          refine emLoop_scaled hP hP2 S hu hc hn hcl fuel s.logLik s'.logLik _ _ ?_ ?_ (Or.inr ⟨Nat.succ_pos _, u3⟩) ?_
          · rw [hs]
          · simp only [hit]
          · simp only
            rcases hl with ⟨h0, -⟩ | ⟨h0, hS⟩
            · left; omega
            · exact Or.inr hS

/-- two trainings that see related log-likelihoods -/
theorem train_scaled {E E' : EmEnv V} {P : EmParams} (hP : 1 ≤ P.minIter) (hP2 : P.minIter ≤ P.maxIter ∨ 2 ≤ P.minIter) (S : V → V → Prop)
    (hi : E.init = true) (hi' : E'.init = true) (hu : ∀ n, ∃ v v', E.update n = some v ∧ E'.update n = some v' ∧ S v v') (hc : E'.cancel = E.cancel) (hlow : E'.lowest = E.lowest)
    (hn : ∀ l l' o o', S l l' → S o o' → E'.isNan l' o' = E.isNan l o) (hcl : ∀ l l' o o', S l l' → S o o' → E'.close l' o' = E.close l o)
    (fuel : Nat) (s : Trainer V) (h0 : s.updates = 0) :
    ∃ r t t', train E P true true fuel s = .ret r t ∧ train E' P true true fuel s = .ret r t' ∧ t' = { t with logLik := t'.logLik } ∧
      (t.updates = 0 ∧ t'.logLik = t.logLik ∨ 0 < t.updates ∧ S t.logLik t'.logLik) := by
  unfold train
  rw [bind_of_ret (modify_def _ _), bind_of_ret (modify_def _ _), if_neg (by simp), if_neg (by simp)]
  by_cases hcan : E.cancel s.checks = true
  · rw [bind_of_ret (cancel_yes (E := E) (s := { s with locked := true, status := .run }) hcan),
      bind_of_ret (cancel_yes (E := E') (s := { s with locked := true, status := .run }) (by rw [hc]; exact hcan)), if_pos rfl, if_pos rfl, pure_def]
    exact ⟨true, _, _, rfl, rfl, rfl, Or.inl ⟨h0, rfl⟩⟩
  · have hcan : E.cancel s.checks = false := by simpa using hcan
    rw [bind_of_ret (cancel_no (E := E) (s := { s with locked := true, status := .run }) hcan),
      bind_of_ret (cancel_no (E := E') (s := { s with locked := true, status := .run }) (by rw [hc]; exact hcan)), if_neg (by simp), if_neg (by simp)]
    rw [bind_of_ret (modify_def _ _), bind_of_ret (modify_def _ _)]
    simp only [hi, hi', Bool.not_true, Bool.or_self, hlow]
    obtain ⟨r, t, t', k1, k2, k3, k4⟩ := emLoop_scaled hP hP2 S hu hc hn hcl fuel E.lowest E.lowest
      { s with locked := true, status := .run, checks := s.checks + 1, logLik := E.lowest, iterations := 0 }
      { s with locked := true, status := .run, checks := s.checks + 1, logLik := E.lowest, iterations := 0 } rfl h0 (Or.inl ⟨h0, rfl⟩) (Or.inl (by simp))
    simp only [bind_def, k1, k2]
    cases r with
    | running => exact ⟨false, t, t', rfl, rfl, k3, k4⟩
    | returned => exact ⟨true, t, t', rfl, rfl, k3, k4⟩
    | converged =>
      have hch : t'.checks = t.checks := by rw [k3]
      by_cases hcan2 : E.cancel t.checks = true
      · have hcan2' : E'.cancel t'.checks = true := by rw [hc, hch]; exact hcan2
        simp only [bind_def, cancel_yes hcan2, cancel_yes hcan2', if_true, pure_def]
        refine ⟨true, _, _, rfl, rfl, ?_, k4.imp (fun h => h) fun h => h⟩
        rw [k3]
      · have hcan2 : E.cancel t.checks = false := by simpa using hcan2
        have hcan2' : E'.cancel t'.checks = false := by rw [hc, hch]; exact hcan2
        simp only [bind_def, cancel_no hcan2, cancel_no hcan2', Bool.false_eq_true, if_false, emTerminate, notify, modify_def, pure_def]
        refine ⟨true, _, _, rfl, rfl, ?_, k4.imp (fun h => h) fun h => h⟩
        rw [k3]

end Trainer

namespace Trainee
variable {σ V : Type}

/-- two trainings that see related log-likelihoods go through the same states -/
theorem train_scaled [Zero V] (T T' : Trainee σ V) (C : Compare V) (P : EmParams) (hP : 1 ≤ P.minIter) (hP2 : P.minIter ≤ P.maxIter ∨ 2 ≤ P.minIter) (cancel : Nat → Bool)
    {s s1 s2 : σ} {ok : Bool} (S : V → V → Prop) (hn : ∀ l l' o o', S l l' → S o o' → C.isNan l' o' = C.isNan l o) (hcl : ∀ l l' o o', S l l' → S o o' → C.close l' o' = C.close l o)
    (ha : T.allocate s = .ret () s1) (ha' : T'.allocate s = .ret () s1) (hi : T.init s1 = .ret ok s2) (hi' : T'.init s1 = .ret ok s2)
    (I : Nat → σ → Prop) (h0 : I 0 s2) (hstep : ∀ k a, I k a → ∃ v v' b, T.update ok k a = .ret v b ∧ T'.update ok k a = .ret v' b ∧ S v v' ∧ I (k + 1) b)
    (hidle : T'.idle = T.idle) (hd : ∀ k a, I k a → ∃ b, T.terminate a = .ret () b ∧ T'.terminate a = .ret () b) :
    ∃ t t' u, T.train C P cancel s = .ret t u ∧ T'.train C P cancel s = .ret t' u ∧ t' = { t with logLik := t'.logLik } ∧
      (t.updates = 0 ∧ t'.logLik = t.logLik ∨ 0 < t.updates ∧ S t.logLik t'.logLik) := by
  by_cases hcan : cancel 0 = true
  · have h : ∃ t : Trainer V, t.updates = 0 ∧ t.status = .cancel ∧ ∀ E : EmEnv V, E.cancel 0 = true → Trainer.train E P true true 1001 (start V) = .ret true t := by
      refine ⟨{ start V with locked := false, status := .cancel, isTraining := false, checks := 1, events := [⟨.cancel, 0, 0⟩] }, rfl, rfl, fun E hE => ?_⟩
      unfold Trainer.train
      rw [bind_of_ret (modify_def _ _), if_neg (by simp)]
      refine (bind_of_ret (Trainer.cancel_yes (E := E) (s := { start V with locked := true, status := .run }) hE)).trans ?_
      rw [if_pos rfl, pure_def]
      rfl
    obtain ⟨t, h1, h2, h3⟩ := h
    have key : ∀ (T : Trainee σ V) (s s1 : σ), T.allocate s = .ret () s1 → T.train C P cancel s = .ret t (T.idle s1) := by
      intro T s s1 ha
      unfold train
      rw [bind_of_ret ha]
      refine (bind_of_ret (s := s1) (s' := s1) (a := some true) (by rw [begin', if_pos hcan]; rfl)).trans ?_
      refine (bind_of_ret (get_def s1)).trans ?_
      rw [h3 _ hcan]
      simp only [h1, after, finish, h2]
      rfl
    exact ⟨t, t, _, key T s s1 ha, by rw [key T' s s1 ha', hidle], rfl, Or.inl ⟨h1, rfl⟩⟩
  · have hcan : cancel 0 = false := by simpa using hcan
    have hafter : ∀ n, ∃ a, after (T.update ok) s2 n = some a ∧ after (T'.update ok) s2 n = some a ∧ I n a := by
      intro n
      induction n with
      | zero => exact ⟨s2, rfl, rfl, h0⟩
      | succ n ih =>
        obtain ⟨a, k1, k2, k3⟩ := ih
        obtain ⟨v, v', b, q1, q2, -, q3⟩ := hstep n a k3
        exact ⟨b, by simp [after, k1, q1], by simp [after, k2, q2], q3⟩
    obtain ⟨r, t, t', k1, k2, k3, k4⟩ := Trainer.train_scaled (E := env C true (T.update ok) s2 cancel) (E' := env C true (T'.update ok) s2 cancel) hP hP2 S rfl rfl
      (fun n => by
        obtain ⟨a, e1, e2, e3⟩ := hafter n
        obtain ⟨v, v', b, q1, q2, q3, -⟩ := hstep n a e3
        exact ⟨v, v', by simp only [env, e1, Option.bind_some, q1], by simp only [env, e2, Option.bind_some, q2], q3⟩) rfl rfl hn hcl 1001 (start V) rfl
    obtain ⟨t0, k, h1, -⟩ := Trainer.train_trained (env C true (T.update ok) s2 cancel) P hP true true (fun _ => rfl) 1001 (by omega) (start V) ⟨rfl, rfl, rfl⟩
    rw [k1] at h1
    injection h1 with hr _
    subst hr
    have hup : t'.updates = t.updates := by rw [k3]
    have hst : t'.status = t.status := by rw [k3]
    obtain ⟨a, e1, e2, e3⟩ := hafter t.updates
    have hfin : ∃ u, finish T t a = .ret t u ∧ finish T' t' a = .ret t' u := by
      unfold finish
      rw [hst, hidle]
      by_cases hs : t.status = .done
      · obtain ⟨b, q1, q2⟩ := hd _ _ e3
        simp only [hs, if_true]
        exact ⟨T.idle b, by rw [bind_of_ret q1]; rfl, by rw [bind_of_ret q2]; rfl⟩
      · simp only [hs, if_false]
        exact ⟨T.idle a, rfl, rfl⟩
    obtain ⟨u, f1, f2⟩ := hfin
    refine ⟨t, t', u, ?_, ?_, k3, k4⟩
    · unfold train
      rw [bind_of_ret ha]
      refine (bind_of_ret (s := s1) (s' := s2) (a := some ok) (by simp [begin', hcan, attempt, hi])).trans ?_
      refine (bind_of_ret (get_def s2)).trans ?_
      simp only [Option.isSome_some, Option.getD_some, k1, e1]
      simp [bind_def, set_def, f1]
    · unfold train
      rw [bind_of_ret ha']
      refine (bind_of_ret (s := s1) (s' := s2) (a := some ok) (by simp [begin', hcan, attempt, hi'])).trans ?_
      refine (bind_of_ret (get_def s2)).trans ?_
      simp only [Option.isSome_some, Option.getD_some, k2, hup, e2]
      simp [bind_def, set_def, f2]

end Trainee

theorem Compare.exact_scaled {k : Nat} (hk : 1 ≤ k) (lowest pct : ℝ) {l l' o o' : ℝ} (hl : l' = k * l) (ho : o' = k * o) :
    (Compare.exact lowest pct).isNan l' o' = (Compare.exact lowest pct).isNan l o ∧ (Compare.exact lowest pct).close l' o' = (Compare.exact lowest pct).close l o := by
  have h : (k : ℝ) ≠ 0 := times_ne hk
  subst hl ho
  simp only [Compare.exact, mul_eq_zero, h, false_or, ne_eq, ← mul_sub, mul_div_mul_left _ _ h, and_self]

/-- **C110** (mixtures): recording every phrase `k` times gives the same class: the training has the same iterations and events, its outcome is the same, and so is the mixture;
    only the log-likelihood is `k` times as large. -/
theorem Gmm.C110_training (D : Dens ℝ) (hD : D.Sound) (log : ℝ → ℝ) (m : Gmm ℝ) (ha : m.Admissible) (sd : List ℝ) (k : Nat) (data data' : KData ℝ) (hf : m.Fed sd data)
    (hreg : 1 / 10 ^ 9 ≤ m.absReg) (h : data.Repeated k data') (lowest pct : ℝ) (P : EmParams) (hP : 1 ≤ P.minIter) (hP2 : P.minIter ≤ P.maxIter ∨ 2 ≤ P.minIter)
    (cancel : Nat → Bool) :
    ∃ t m', (trainee D log Real.sqrt sd data).train (Compare.exact lowest pct) P cancel m = .ret t m' ∧
      (trainee D log Real.sqrt sd data').train (Compare.exact lowest pct) P cancel m =
        .ret { t with logLik := if t.updates = 0 then t.logLik else k * t.logLik } m' := by
  obtain ⟨m1, ok, m2, e1, e2, -, e4, e5, -⟩ := start_ret m ha sd data hf hreg
  obtain ⟨g, g1, hw⟩ := Gmm.allocate_ret m ha.gaussians ha.dim ha.di
  rw [e1] at g1
  injection g1 with _ g1
  have hw1 : m1.WF := by rw [g1]; exact hw
  have hf1 : m1.Fed sd data := by rw [g1]; exact ⟨hf.dim, hf.frame, hf.some, hf.sd⟩
  have e2' : emInit Real.sqrt sd data' m1 = .ret ok m2 := by rw [emInit_repeated h m1 hw1 hf1, e2]
  obtain ⟨t, t', u, k1, k2, k3, k4⟩ := Trainee.train_scaled (trainee D log Real.sqrt sd data) (trainee D log Real.sqrt sd data') (Compare.exact lowest pct) P hP hP2 cancel
    (fun v v' => v' = k * v) (fun l l' o o' hl ho => (Compare.exact_scaled h.times lowest pct hl ho).1) (fun l l' o o' hl ho => (Compare.exact_scaled h.times lowest pct hl ho).2)
    e1 e1 e2 e2' (fun n a => Going m data a ∧ (ok = true ∨ 0 < n → a.Ready)) ⟨e4, fun h => e5 (by simpa using h)⟩ (fun n a hk => by
      obtain ⟨hg, hr⟩ := hk
      obtain ⟨v, b, q1, q2, q3, -⟩ := trainStep_ret D hD log data ok n m a hg hr
      refine ⟨v, k * v, b, q1, ?_, rfl, q2, fun _ => q3⟩
      show trainStep D log data' ok n a = .ret (k * v) b
      unfold trainStep at q1 ⊢
      by_cases hk : (ok || 0 < n) = true
      · rw [if_pos hk] at q1 ⊢
        obtain ⟨dens, hd, -⟩ := densities_exist D hD a (hr (by simpa using hk)) data.frames hg.trains.frame
        exact emUpdate_repeated D log h a hg.wf hg.trains dens hd q1
      · rw [if_neg hk] at q1 ⊢
        exact emUpdate_repeated Dens.floor log h a hg.wf hg.trains _ (floor_densities a data.frames) q1)
    rfl (fun n a _ => ⟨a, rfl, rfl⟩)
  refine ⟨t, u, k1, ?_⟩
  rw [k2, k3]
  congr 2
  rcases k4 with ⟨h0, hl⟩ | ⟨h0, hl⟩
  · rw [if_pos h0, hl]
  · rw [if_neg (by omega), hl]

/-- the hypotheses of the theorem are met: two phrases, and each of them twice -/
example : ({ dim := 1, phrases := [[[0], [1]], [[2]]] } : KData ℝ).Repeated 2 { dim := 1, phrases := [[[0], [1]], [[0], [1]], [[2]], [[2]]] } :=
  ⟨by omega, rfl, by
    show List.Perm [[[0], [1]], [[0], [1]], [[2]], [[2]]] [[[0], [1]], [[2]], [[0], [1]], [[2]]]
    exact List.Perm.cons _ (List.Perm.swap _ _ _), rfl⟩

end Xmm
