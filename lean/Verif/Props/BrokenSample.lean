import Verif.Spec.BrokenSample
import Verif.Props.HierProperties
import Verif.Props.WindowMemory
import Verif.Props.HierFlatWindow
set_option linter.unusedSimpArgs false
set_option linter.unusedSectionVars false
/- C96: samples that are no numbers carry no information and do no harm. -/
namespace Xmm
open Gauss Phrase
open Prog (bind_def pure_def get_def set_def modify_def throw_def undef_def)

/-- a loop that once meets a broken number -/
theorem loop_broken {σ : Type} (n i : Nat) (a : Fl) (body : Fl → Nat → Prog σ Fl) (s : σ)
    (h : ∀ a, ∀ t < n, ∃ b, body a t s = .ret b s ∧ (a.Broken → b.Broken) ∧ (t = i → b.Broken)) :
    ∃ b, loop n a body s = .ret b s ∧ (i < n → b.Broken) := by
  induction n with
  | zero => exact ⟨a, rfl, fun h => absurd h (Nat.not_lt_zero _)⟩
  | succ n ih =>
    obtain ⟨b, h1, h2⟩ := ih fun a t ht => h a t (by omega)
    obtain ⟨c, g1, g2, g3⟩ := h b n (by omega)
    refine ⟨c, by rw [loop_succ, h1]; exact g1, fun hi => ?_⟩
    by_cases hn : n = i
    · exact g3 hn
    · exact g2 (h2 (by omega))

theorem rd_ex {σ F : Type} {l : List F} {i : Nat} (h : i < l.length) (s : σ) : ∃ a, rd l i s = .ret a s ∧ l[i]? = some a :=
  ⟨l[i], by simp [rd, h], List.getElem?_eq_getElem h⟩

/-- the difference to the mean is broken if the sample is -/
theorem diff_ex {σ : Type} {A : Arith Fl} (hA : A.Propagates) {obs mean : List Fl} {i j : Nat} (h : i < obs.length) (h' : j < mean.length) (s : σ) :
    ∃ a b, diff A obs mean i j s = .ret b s ∧ obs[i]? = some a ∧ (a.Broken → b.Broken) := by
  obtain ⟨a, h1, h2⟩ := rd_ex h s
  obtain ⟨m, h3, -⟩ := rd_ex h' s
  exact ⟨a, A.sub a m, by simp only [diff, bind_def, h1, h3, pure_def], h2, hA.sub_left _ _⟩

theorem density_broken {A : Arith Fl} (hA : A.Propagates) (dist det : Fl) (n : Nat) (hd : dist.Broken) : density A dist det n = .fin (1 / 10 ^ 180) := by
  unfold density
  have h1 := hA.exp _ (hA.mul_right (A.lit (-1 / 2)) dist hd)
  generalize A.exp (A.mul (A.lit (-1 / 2)) dist) = e at h1
  generalize A.sqrt _ = r
  have h2 : A.div e r = .fin 0 ∨ (A.div e r).Broken := by
    rcases h1 with rfl | h1
    · exact hA.zero_div r
    · exact Or.inr (hA.div_left _ _ h1)
  simp only [hA.lt, hA.isnan, hA.isinf, hA.floor]
  generalize A.div e r = p at h2
  cases p with
  | nan => simp [Fl.isnan]
  | inf s => simp [Fl.isinf]
  | fin x =>
    rcases h2 with h2 | h2
    · cases h2
      have : (0 : ℝ) < 1 / 10 ^ 180 := by positivity
      simp only [Fl.lt, this, decide_true, Bool.true_or, if_true]
    · exact h2.elim

/-- the loops of the squared distance, over a matrix -/
theorem quad_broken {σ : Type} {A : Arith Fl} (hA : A.Propagates) (n : Nat) (inv obs mean : List Fl) (hi : inv.length = n * n) (ho : n ≤ obs.length)
    (hm : n ≤ mean.length) (hb : BrokenBelow n obs) (s : σ) :
    ∃ b, loop n (A.lit 0) (fun dist l => do
      let tmp ← loop n (A.lit 0) (fun tmp k => do
        let a ← rd inv (l * n + k)
        let b ← diff A obs mean k k
        pure (A.add tmp (A.mul a b)))
      let c ← diff A obs mean l l
      pure (A.add dist (A.mul c tmp))) s = .ret b s ∧ b.Broken := by
  obtain ⟨i, hin, a, ha, hab⟩ := hb
  obtain ⟨b, h1, h2⟩ := loop_broken n i (A.lit 0) (fun dist l => do
      let tmp ← loop n (A.lit 0) (fun tmp k => do
        let a ← rd inv (l * n + k)
        let b ← diff A obs mean k k
        pure (A.add tmp (A.mul a b)))
      let c ← diff A obs mean l l
      pure (A.add dist (A.mul c tmp))) s (by
    intro d l hl
    obtain ⟨t, h1, h2⟩ := loop_broken n i (A.lit 0) (fun tmp k => do
        let a ← rd inv (l * n + k)
        let b ← diff A obs mean k k
        pure (A.add tmp (A.mul a b))) s (by
      intro e k hk
      obtain ⟨x, g1, -⟩ := rd_ex (l := inv) (i := l * n + k) (by rw [hi]; exact flat_lt hl hk) s
      obtain ⟨y, z, g2, g3, g4⟩ := diff_ex hA (obs := obs) (mean := mean) (i := k) (j := k) (by omega) (by omega) s
      refine ⟨A.add e (A.mul x z), by simp only [bind_def, g1, g2, pure_def], hA.add_left _ _, fun hki => ?_⟩
      subst hki
      rw [ha] at g3
      cases g3
      exact hA.add_right _ _ (hA.mul_right _ _ (g4 hab)))
    obtain ⟨y, z, g2, g3, g4⟩ := diff_ex hA (obs := obs) (mean := mean) (i := l) (j := l) (by omega) (by omega) s
    refine ⟨A.add d (A.mul z t), by simp only [bind_def, h1, g2, pure_def], hA.add_left _ _, fun hli => ?_⟩
    exact hA.add_right _ _ (hA.mul_right _ _ (h2 hin)))
  exact ⟨b, h1, h2 hin⟩

/-- the loop of the squared distance, over variances -/
theorem diag_broken {σ : Type} {A : Arith Fl} (hA : A.Propagates) (n : Nat) (inv obs mean : List Fl) (hi : n ≤ inv.length) (ho : n ≤ obs.length)
    (hm : n ≤ mean.length) (hb : BrokenBelow n obs) (s : σ) :
    ∃ b, loop n (A.lit 0) (fun dist l => do
      let a ← rd inv l
      let b ← diff A obs mean l l
      let c ← diff A obs mean l l
      pure (A.add dist (A.mul (A.mul a b) c))) s = .ret b s ∧ b.Broken := by
  obtain ⟨i, hin, a, ha, hab⟩ := hb
  obtain ⟨b, h1, h2⟩ := loop_broken n i (A.lit 0) (fun dist l => do
      let a ← rd inv l
      let b ← diff A obs mean l l
      let c ← diff A obs mean l l
      pure (A.add dist (A.mul (A.mul a b) c))) s (by
    intro e k hk
    obtain ⟨x, g1, -⟩ := rd_ex (l := inv) (i := k) (by omega) s
    obtain ⟨y, z, g2, g3, g4⟩ := diff_ex hA (obs := obs) (mean := mean) (i := k) (j := k) (by omega) (by omega) s
    refine ⟨A.add e (A.mul (A.mul x z) z), by simp only [bind_def, g1, g2, pure_def], hA.add_left _ _, fun hki => ?_⟩
    subst hki
    rw [ha] at g3
    cases g3
    exact hA.add_right _ _ (hA.mul_right _ _ (g4 hab)))
  exact ⟨b, h1, h2 hin⟩

/-- C96: with the rules of IEEE 754 for NaN and the infinities, and any rounding, the likelihood of an observation with a sample that is not a number is
    exactly 1e-180, the smallest likelihood there is, whatever the distribution (its determinant not being 0) and whatever the other samples. -/
theorem C96_likelihood (A : Arith Fl) (hA : A.Propagates) (g : Gauss Fl) (hw : g.WF) (hd : A.eq g.det (A.lit 0) = false) (obs : List Fl)
    (ho : g.dim ≤ obs.length) (hb : BrokenBelow g.dim obs) : likelihood A obs g = .ret (.fin (1 / 10 ^ 180)) g := by
  have hi := hw.inv
  have hm := hw.mean
  obtain ⟨b, h1, h2⟩ : ∃ b, distance A g obs g = .ret b g ∧ b.Broken := by
    unfold distance
    cases hmode : g.mode with
    | full =>
      rw [hmode] at hi
      exact quad_broken hA g.dim g.inv obs g.mean hi ho hm.ge hb g
    | diagonal =>
      rw [hmode] at hi
      exact diag_broken hA g.dim g.inv obs g.mean hi.ge ho hm.ge hb g
  unfold likelihood
  simp only [bind_def, get_def, hd, Bool.false_eq_true, if_false, h1, pure_def, density_broken hA b g.det g.dim h2]

/-- C96, for the likelihood of an input -/
theorem C96_likelihood_input (A : Arith Fl) (hA : A.Propagates) (g : Gauss Fl) (hw : g.WF) (hbi : g.bimodal = true) (hd : A.eq g.detIn (A.lit 0) = false)
    (obs : List Fl) (ho : g.di ≤ obs.length) (hb : BrokenBelow g.di obs) : likelihoodInput A obs g = .ret (.fin (1 / 10 ^ 180)) g := by
  have hi := hw.inv
  have hin := hw.invIn hbi
  have hm := hw.mean
  have hle := hw.le hbi
  obtain ⟨b, h1, h2⟩ : ∃ b, distanceInput A g obs g = .ret b g ∧ b.Broken := by
    unfold distanceInput
    cases hmode : g.mode with
    | full =>
      rw [hmode] at hin
      exact quad_broken hA g.di g.invIn obs g.mean hin ho (by omega) hb g
    | diagonal =>
      rw [hmode] at hi
      simp only at hi
      exact diag_broken hA g.di g.inv obs g.mean (by omega) ho (by omega) hb g
  unfold likelihoodInput
  simp only [bind_def, get_def, hbi, Bool.not_true, Bool.false_eq_true, if_false, hd, h1, pure_def, density_broken hA b g.detIn g.di h2]

/-- C96, for the likelihood of an input and an output -/
theorem C96_likelihood_bimodal (A : Arith Fl) (hA : A.Propagates) (g : Gauss Fl) (hw : g.WF) (hbi : g.bimodal = true) (hd : A.eq g.det (A.lit 0) = false)
    (x y : List Fl) (hx : x.length = g.di) (hy : g.dim - g.di ≤ y.length) (hb : BrokenBelow g.dim (x ++ y)) :
    likelihoodBimodal A x y g = .ret (.fin (1 / 10 ^ 180)) g := by
  rw [C61_bimodal_is_joint A g hbi (hw.le hbi) x y hx]
  exact C96_likelihood A hA g hw hd (x ++ y) (by rw [List.length_append]; have := hw.le hbi; omega) hb

theorem broken_ite {p : Prop} [Decidable p] {a b : Fl} (ha : a.Broken) (hb : b.Broken) : (if p then a else b).Broken := by
  split
  · exact ha
  · exact hb

/-- arithmetic without rounding follows these rules -/
theorem exact_propagates : Fl.exact.Propagates where
  toIeee := exact_ieee
  add_left a b h := by cases a <;> cases b <;> first | exact h.elim | trivial | exact broken_ite trivial trivial
  add_right a b h := by cases a <;> cases b <;> first | exact h.elim | trivial | exact broken_ite trivial trivial
  sub_left a b h := by cases a <;> cases b <;> first | exact h.elim | trivial | exact broken_ite trivial trivial
  mul_left a b h := by cases a <;> cases b <;> first | exact h.elim | trivial | exact broken_ite trivial trivial
  mul_right a b h := by cases a <;> cases b <;> first | exact h.elim | trivial | exact broken_ite trivial trivial
  exp a h := by
    cases a with
    | nan => exact Or.inr trivial
    | fin x => exact h.elim
    | inf s => cases s <;> simp [Fl.exact, Fl.exp, Fl.Broken]
  div_left a b h := by cases a <;> cases b <;> simp [Fl.exact, Fl.div, Fl.Broken] at h ⊢
  zero_div b := by
    cases b with
    | nan => exact Or.inr trivial
    | inf s => exact Or.inl rfl
    | fin x =>
      by_cases hx : x = 0
      · right; simp [Fl.exact, Fl.div, hx, Fl.Broken]
      · left; simp [Fl.exact, Fl.div, hx]

/-! ## Models -/

/-- on words that stand for numbers these are the likelihood functions of all other theorems -/
theorem Dens.reading_fin : Dens.reading Fl.fin = Dens.real := rfl

theorem toFl_wf {g : Gauss ℝ} (w : g.WF) : g.toFl.WF :=
  ⟨by simp [Gauss.toFl, w.mean], by simp [Gauss.toFl, w.cov], by simp [Gauss.toFl, w.inv],
    fun hb => by have := w.invIn hb; simp [Gauss.toFl, this], w.le⟩

theorem exact_ne {x : ℝ} (hx : x ≠ 0) : Fl.exact.eq (.fin x) (Fl.exact.lit 0) = false := by simp [Fl.exact, Fl.eq, hx]

/-- the likelihood functions are defined and bounded below whatever the samples are -/
theorem Dens.reading_sound (read : ℝ → Fl) : (Dens.reading read).Sound := by
  refine ⟨fun g w obs ho hd => ?_, fun g w hb x hx hd => ?_, fun g w hb x y hx hy hd => ?_⟩
  · obtain ⟨p, hp⟩ := (C29_likelihood_defined Fl.exact g.toFl (toFl_wf w) (obs.map read) (by simpa [Gauss.toFl] using ho)).2 (exact_ne hd)
    obtain ⟨x, rfl, hx⟩ := C29_likelihood_floor Fl.exact exact_ieee _ _ _ _ hp
    exact ⟨x, by simp only [Dens.reading, Dens.onReals, hp], hx⟩
  · obtain ⟨p, hp⟩ := (C29_likelihood_input_defined Fl.exact g.toFl (toFl_wf w) (x.map read) (by simpa [Gauss.toFl] using hx)).2.2 hb (exact_ne hd)
    obtain ⟨z, rfl, hz⟩ := C29_likelihood_input_floor Fl.exact exact_ieee _ _ _ _ hp
    exact ⟨z, by simp only [Dens.reading, Dens.onReals, hp], hz⟩
  · obtain ⟨p, hp⟩ := (C29_likelihood_bimodal_defined Fl.exact g.toFl (toFl_wf w) (x.map read) (y.map read)
      (by simpa [Gauss.toFl] using hx) (by simpa [Gauss.toFl] using hy)).2.2 hb (exact_ne hd)
    obtain ⟨z, rfl, hz⟩ := C29_likelihood_bimodal_floor Fl.exact exact_ieee _ _ _ _ _ hp
    exact ⟨z, by simp only [Dens.reading, Dens.onReals, hp], hz⟩

open GmmSpec RecSpec

variable (read : ℝ → Fl)

/-- every component gives a broken observation the likelihood 1e-180, and so does the mixture -/
theorem broken_mixture (m : Gmm ℝ) (hr : m.Ready) (hb : m.bimodal = false) (x : List ℝ) (hx : m.Fits x) (hbr : BrokenBelow m.dim (x.map read)) (d : Nat → ℝ)
    (hd : ObsDensities (Dens.reading read) m x d) : mixture m.gaussians (weights m) d = 1 / 10 ^ 180 := by
  have h1 : ∀ c < m.gaussians, d c = 1 / 10 ^ 180 := by
    intro c hc
    obtain ⟨g, hg, hg'⟩ := Gmm.getElem_comp hr.wf hc
    obtain ⟨w, e1, -, -, -⟩ := hr.wf.comp g hg
    have h := hd c g hg'
    rw [if_neg (by simp [hb])] at h
    have hl : m.dim ≤ x.length := by unfold Gmm.Fits at hx; rwa [if_neg (by simp [hb])] at hx
    have := C96_likelihood Fl.exact exact_propagates g.toFl (toFl_wf w) (exact_ne (hr.det g hg).1) (x.map read) (by simpa [Gauss.toFl, e1] using hl)
      (by simpa [Gauss.toFl, e1] using hbr)
    simp only [Dens.reading, Dens.onReals, this] at h
    injection h with h _
    exact h.symm
  unfold mixture
  rw [Finset.sum_congr rfl fun c hc => by rw [h1 c (Finset.mem_range.1 hc)], ← Finset.sum_mul, Gmm.weights_sum hr.wf hr.coeffs, one_mul]

/-- C96, mixture models: `filter(x)` on an observation with a sample that is not a number returns.  Every class has the likelihood 1e-180, the normalised
    likelihoods are all equal, and the model is as usable as before. -/
theorem GmmModel.C96_no_evidence (log exp : ℝ → ℝ) (hexp : ∀ x, 0 < exp x) (M : GmmModel ℝ) (hu : M.Usable) (hne : M.models ≠ []) (hb : M.bimodal = false)
    (x : List ℝ) (hx : ∀ lc ∈ M.models, lc.2.Fits x ∧ BrokenBelow lc.2.dim (x.map read)) :
    ∃ M', filter (Dens.reading read) log exp x M = .ret () M' ∧ M'.Usable ∧ M'.results.inst = M.models.map (fun _ => 1 / 10 ^ 180) ∧
      M'.results.instNorm = M.models.map (fun _ => 1 / (M.models.length : ℝ)) ∧
      List.Forall₂ (fun a b : String × Gmm ℝ => b.1 = a.1 ∧ Gmm.SameModel a.2 b.2 ∧
        ∀ hist, Logs a.2.buf a.2.window hist → b.2.logLik = avgLast a.2.window (hist ++ [log (1 / 10 ^ 180)])) M.models M'.models := by
  obtain ⟨M', h1, h2, h3, h4, -, -, -, -⟩ := C39_filter (Dens.reading read) (Dens.reading_sound read) log exp hexp M hu hne x (fun lc h => (hx lc h).1)
  have key : ∀ a ∈ M.models, ∀ b : String × Gmm ℝ, Step (Dens.reading read) log x a b → b.2.instant = 1 / 10 ^ 180 ∧
      ∀ hist, Logs a.2.buf a.2.window hist → b.2.logLik = avgLast a.2.window (hist ++ [log (1 / 10 ^ 180)]) := by
    intro a ha b hs
    have hc := (hu.cls a ha).1
    have hbi := (hu.cls a ha).2.1.trans hb
    obtain ⟨d, hd⟩ := Gmm.obsDensities_exist (Dens.reading read) (Dens.reading_sound read) a.2 hc.ready
    have hmix := broken_mixture read a.2 hc.ready hbi x (hx a ha).1 (hx a ha).2 (d x) (hd x (hx a ha).1).1
    have hf : ∀ hist, Logs a.2.buf a.2.window hist → b.2.instant = 1 / 10 ^ 180 ∧ b.2.logLik = avgLast a.2.window (hist ++ [log (1 / 10 ^ 180)]) := by
      intro hist hl
      obtain ⟨m', e1, e2, -⟩ := Gmm.filter_ret (Dens.reading read) log a.2 hc x (fun h => by rw [hbi] at h; cases h) (d x) (hd x (hx a ha).1).1
        (fun _ => []) (fun h => by rw [hbi] at h; cases h) hist hl
      obtain ⟨p, hp, -, -⟩ := hs.2.1
      rw [e1] at hp
      injection hp with _ hp
      rw [← hp, e2.instant, e2.logLik, hmix]
      exact ⟨rfl, rfl⟩
    obtain ⟨hist, hl⟩ := hu.buf a ha
    exact ⟨(hf hist hl).1, fun hist hl => (hf hist hl).2⟩
  have hlen := h3.length_eq
  have hg := List.forall₂_iff_get.1 h3
  have hi : M'.results.inst = M.models.map (fun _ => 1 / 10 ^ 180) := by
    rw [h4.inst]
    refine List.ext_getElem (by simp [classes, hlen]) fun i h1 h2 => ?_
    simp [classes] at h1 h2
    simpa [classes, Gmm.results] using (key _ (List.getElem_mem h2) _ (hg.2 i h2 h1)).1
  have hi' : (M'.classes.map fun c => c.2.instant) = M.models.map (fun _ => (1 : ℝ) / 10 ^ 180) := by rw [← h4.inst, hi]
  refine ⟨M', h1, h2, hi, ?_, ?_⟩
  · have hpos : (0 : ℝ) < M.models.length := by
      have : 0 < M.models.length := List.length_pos_iff.2 hne
      exact_mod_cast this
    have : ∀ s, (M'.classes.map fun c => c.2.instant / s) = (M'.classes.map fun c => c.2.instant).map (· / s) := fun s => by simp [Function.comp_def]
    rw [h4.instNorm, this, hi', List.map_map]
    refine List.map_congr_left fun a _ => ?_
    have h180 : (10 : ℝ) ^ 180 ≠ 0 := by positivity
    simp only [Function.comp_apply, List.map_const', List.sum_replicate, nsmul_eq_mul]
    generalize (10 : ℝ) ^ 180 = z at h180
    field_simp
  · refine List.forall₂_iff_get.2 ⟨hlen, fun i h1 h2 => ?_⟩
    have := hg.2 i h1 h2
    exact ⟨this.1, this.2.2.2.1, (key _ (List.getElem_mem h1) _ this).2⟩

/-- C96, mixture models: as soon as `likelihood_window` further observations have been heard, the model reports what it would report if it had never heard the
    broken ones (`pre` is any stream, with broken observations or not). -/
theorem GmmModel.C96_recovers (log exp : ℝ → ℝ) (hexp : ∀ x, 0 < exp x) (M : GmmModel ℝ) (hu : M.Usable) (hne : M.models ≠ []) (hb : M.bimodal = false)
    (pre xs : List (List ℝ)) (hw : ∀ lc ∈ M.models, lc.2.window ≤ xs.length) (hx : ∀ x ∈ pre ++ xs, ∀ lc ∈ M.models, lc.2.Fits x) :
    ∃ M0 M' N', filterAll (Dens.reading read) log exp pre M = .ret () M0 ∧ filterAll (Dens.reading read) log exp xs M0 = .ret () M' ∧
      filterAll (Dens.reading read) log exp xs M = .ret () N' ∧
      M'.results = { N'.results with outVals := M'.results.outVals, outCov := M'.results.outCov } := by
  obtain ⟨M0, M', N', h1, h2, h3, h4, -⟩ := C97_history (Dens.reading read) (Dens.reading_sound read) log exp hexp M hu hne pre xs hw hx
  exact ⟨M0, M', N', h1, h2, h3, h4⟩

open HmmSpec

/-- a broken observation is equally likely in every state of a hidden Markov model -/
theorem broken_emits (m : Hmm ℝ) (hm : m.CanFilter) (hb : m.bimodal = false) (x : List ℝ) (hx : m.Fits x) (hbr : BrokenBelow m.dim (x.map read)) (b : Nat → ℝ)
    (he : HmmSpec.Emits (Dens.reading read) m x b) : ∀ i < m.n, b i = 1 / 10 ^ 180 := by
  intro i hi
  have hi' : i < m.sts.length := by rw [hm.wf.sts]; exact hi
  have hs := List.getElem?_eq_getElem hi'
  have hmem : m.sts[i] ∈ m.sts := List.getElem_mem hi'
  obtain ⟨d, h1, h2⟩ := he i _ hs
  obtain ⟨-, -, e1, e2, -⟩ := hm.wf.state _ hmem
  rw [h2]
  refine broken_mixture read _ (hm.state _ hmem).1.ready (e1.trans hb) x ?_ (by rw [e2]; exact hbr) d h1
  unfold Hmm.Fits at hx
  unfold Gmm.Fits
  rw [e1, e2]
  rw [if_neg (by simp [hb])] at hx ⊢
  exact hx

/-- C96, hidden Markov models: after `reset()` and any stream, an observation with a sample that is not a number moves the state probabilities by one
    transition and nothing else; with transition probabilities that sum to 1 the reported likelihood is 1e-180. -/
theorem Hmm.C96_no_evidence (log : ℝ → ℝ) (m : Hmm ℝ) (hm : m.Usable) (hb : m.bimodal = false) (pre : List (List ℝ)) (hpre : ∀ y ∈ pre, m.Fits y)
    (x : List ℝ) (hx : m.Fits x) (hbr : BrokenBelow m.dim (x.map read)) :
    ∃ m0 ps mp q m', reset m = .ret () m0 ∧ filterAll (Dens.reading read) log pre m0 = .ret ps mp ∧ filter (Dens.reading read) log x mp = .ret q m' ∧
      (mp.started = true ↔ pre ≠ []) ∧ m0.SameModel mp ∧ q = 1 / 10 ^ 180 * ∑ j ∈ Finset.range m.n, foreseen mp j ∧
      m'.alpha = (List.range m.n).map (fun j => foreseen mp j / ∑ i ∈ Finset.range m.n, foreseen mp i) ∧ IsDistribution m'.alpha ∧
      (m0.Stochastic → q = 1 / 10 ^ 180 ∧ m'.alpha = (List.range m.n).map (foreseen mp)) := by
  obtain ⟨m0, b, v, c, h1, ⟨bf, h2⟩, h3, h4, h5⟩ := run_ret (Dens.reading read) (Dens.reading_sound read) log m hm
  obtain ⟨ps, mp, g1, g2, g3, -⟩ := h5 pre hpre
  have e1 : m0.n = m.n := by rw [h2]; rfl
  have e2 : m0.bimodal = false := by rw [h2]; exact hb
  have e3 : m0.dim = m.dim := by rw [h2]; rfl
  have e4 : m0.hier = false := by rw [h2]; exact hm.flat
  have hf : m0.Fits x := by unfold Hmm.Fits at hx ⊢; rw [e2, e3]; rw [hb] at hx; exact hx
  have hb0 := broken_emits read m0 h3 e2 x hf (by rw [e3]; exact hbr) (b x) (h4 x hx)
  obtain ⟨m', k1, k2, k3⟩ := heard_step (Dens.reading read) log h3 e4 g2 x hf (b x) (h4 x hx) (fun i hi => (hb0 i hi).ge) (v x) (c x)
    (fun h => by rw [e2] at h; cases h)
  have e5 := g2.same.facts
  have hw : ∀ j < m.n, HmmSpec.weight mp (b x) j = 1 / 10 ^ 180 * foreseen mp j := by
    intro j hj
    unfold HmmSpec.weight foreseen
    rw [hb0 j (by rw [e1]; exact hj), mul_comm]
  have hev : HmmSpec.evidence mp (b x) = 1 / 10 ^ 180 * ∑ j ∈ Finset.range m.n, foreseen mp j := by
    unfold HmmSpec.evidence
    rw [e5.1, e1, Finset.mul_sum]
    exact Finset.sum_congr rfl fun j hj => hw j (Finset.mem_range.1 hj)
  have hal : m'.alpha = (List.range m.n).map (fun j => foreseen mp j / ∑ i ∈ Finset.range m.n, foreseen mp i) := by
    rw [k2.alpha, e5.1, e1]
    refine List.map_congr_left fun j hj => ?_
    rw [hw j (List.mem_range.1 hj), hev]
    exact mul_div_mul_left _ _ (by positivity)
  refine ⟨m0, ps, mp, _, m', h1, g1, k1, ?_, g2.same, hev, hal, (heard_dist k3 k2.started).1, fun hst => ?_⟩
  · rw [g2.started]
    cases pre <;> simp
  · have hs : ∑ j ∈ Finset.range m.n, foreseen mp j = 1 := by
      unfold foreseen
      rcases bool_cases mp.started with h | h
      · simp only [h, Bool.false_eq_true, if_false]
        rw [e5.2.2.1, ← e1]
        exact hst.start_sum
      · simp only [h, if_true]
        rw [Finset.sum_comm, e5.2.2.2.1, e5.1, ← e1]
        calc ∑ i ∈ Finset.range m0.n, ∑ j ∈ Finset.range m0.n, mp.alpha.getD i 0 * HmmSpec.step m0 i j
            = ∑ i ∈ Finset.range m0.n, mp.alpha.getD i 0 := Finset.sum_congr rfl fun i hi => by
              rw [← Finset.mul_sum, hst.step_sum i (Finset.mem_range.1 hi), mul_one]
          _ = 1 := g2.sum h
    rw [hev, hal, hs, mul_one]
    exact ⟨rfl, by simp⟩

open HierHmm HierSpec in
/-- C96, hierarchical models: after `reset()` and any stream, an observation with a sample that is not a number changes the forward variables as an observation
    does that is equally likely in all states of all classes (`fun _ _ => 1`), and each class gets 1e-180 times its predicted probability as likelihood.
    (The first observation: for classes that are not ergodic.) -/
theorem HierHmm.C96_no_evidence (log exp : ℝ → ℝ) (M : HierHmm ℝ) (hM : M.Trained) (hne : M.models ≠ []) (hb : M.bimodal = false)
    (pre : List (List ℝ)) (x : List ℝ) (hx : ∀ y ∈ pre ++ [x], ∀ lc ∈ M.models, lc.2.Fits y) (hbr : ∀ lc ∈ M.models, BrokenBelow lc.2.dim (x.map read))
    (hp : pre = [] → ∀ lc ∈ M.models, lc.2.ergodic = false) :
    ∃ M0 ps Mp M', reset M = .ret () M0 ∧ filterAll (Dens.reading read) log exp pre M0 = .ret ps Mp ∧ filter (Dens.reading read) log exp x Mp = .ret () M' ∧
      SameClasses M Mp ∧
      (∀ e c k, c < M.models.length → k < states M c →
        HierSpec.alpha M' e c k = if pre = [] then first3 Mp (fun _ _ => 1) e c k else next3 Mp (fun _ _ => 1) e c k) ∧
      (∀ c < M.models.length, M'.results.inst.getD c 0 = 1 / 10 ^ 180 * if pre = [] then ∑ k ∈ Finset.range (states M c), joint0 Mp (fun _ _ => 1) c k
        else ∑ k ∈ Finset.range (states M c), joint Mp (fun _ _ => 1) c k) := by
  obtain ⟨M0, ps, Mp, b, M', h1, h2, h3, h4, h5, h6, h7⟩ := C74_forward_recursion (Dens.reading read) (Dens.reading_sound read) log exp M hM hne pre x hx
  have hcls : ∀ (c : Nat) (q : String × Hmm ℝ), Mp.models[c]? = some q → ∃ lc ∈ M.models, lc.2.SameClass q.2 ∧ states M c = q.2.n ∧ M.models[c]? = some lc := by
    intro c q hq
    obtain ⟨lc, hlc⟩ := get_class (M := M) (c := c) (by rw [← h5.1]; exact lt_of_get hq)
    obtain ⟨m', e1, e2⟩ := h5.2 c lc hlc
    rw [hq] at e1
    cases e1
    exact ⟨lc, mem_of_get hlc, e2, by rw [states_of hlc, e2.facts.1], hlc⟩
  have hbf : ∀ c < M.models.length, ∀ k < states M c, b c k = 1 / 10 ^ 180 := by
    intro c hc k hk
    obtain ⟨q, hq⟩ := get_class (M := Mp) (c := c) (by rw [h5.1]; exact hc)
    obtain ⟨lc, hlc, e2, e3, -⟩ := hcls c q hq
    obtain ⟨i1, i2, i3, -⟩ := hM.cls lc hlc
    have f := e2.facts
    have hbi : q.2.bimodal = false := by rw [f.2.2.2.2.2.2.1, i2, hb]
    have hdim : q.2.dim = lc.2.dim := f.2.2.2.2.2.2.2.2.1
    refine broken_emits read q.2 (e2.canFilter i1.can) hbi x ?_ (by rw [hdim]; exact hbr lc hlc) (b c) (h4 c q hq) k (by rw [← e3]; exact hk)
    have := hx x (by simp) lc hlc
    unfold Hmm.Fits at this ⊢
    rw [if_neg (by simp [hbi]), hdim]
    rwa [if_neg (by rw [i2, hb]; simp)] at this
  have hj : ∀ c < M.models.length, ∀ k < states M c, joint Mp b c k = 1 / 10 ^ 180 * joint Mp (fun _ _ => 1) c k ∧
      joint0 Mp b c k = 1 / 10 ^ 180 * joint0 Mp (fun _ _ => 1) c k := by
    intro c hc k hk
    obtain ⟨q, hq⟩ := get_class (M := Mp) (c := c) (by rw [h5.1]; exact hc)
    unfold joint joint0
    simp [hq, hbf c hc k hk]
  have hs : ∀ c < M.models.length, (∑ k ∈ Finset.range (states M c), joint Mp b c k = 1 / 10 ^ 180 * ∑ k ∈ Finset.range (states M c), joint Mp (fun _ _ => 1) c k) ∧
      ∑ k ∈ Finset.range (states M c), joint0 Mp b c k = 1 / 10 ^ 180 * ∑ k ∈ Finset.range (states M c), joint0 Mp (fun _ _ => 1) c k := by
    intro c hc
    rw [Finset.mul_sum, Finset.mul_sum]
    exact ⟨Finset.sum_congr rfl fun k hk => (hj c hc k (Finset.mem_range.1 hk)).1, Finset.sum_congr rfl fun k hk => (hj c hc k (Finset.mem_range.1 hk)).2⟩
  have he : HierSpec.evidence Mp b = 1 / 10 ^ 180 * HierSpec.evidence Mp (fun _ _ => 1) := by
    unfold HierSpec.evidence
    rw [Finset.mul_sum, h5.1]
    exact Finset.sum_congr rfl fun c hc => by rw [h5.states]; exact (hs c (Finset.mem_range.1 hc)).1
  have he0 : evidence0 Mp b = 1 / 10 ^ 180 * evidence0 Mp (fun _ _ => 1) := by
    unfold evidence0
    rw [Finset.mul_sum, h5.1]
    exact Finset.sum_congr rfl fun c hc => by rw [h5.states]; exact (hs c (Finset.mem_range.1 hc)).2
  have hst : pre = [] → ∀ c : Nat, (Mp.models[c]?.map fun (lc : String × Hmm ℝ) => if lc.2.ergodic then lc.2.instant else 0).getD 0 = 0 := by
    intro h c
    cases hq : Mp.models[c]? with
    | none => rfl
    | some q =>
      obtain ⟨lc, hlc, e2, -, -⟩ := hcls c q hq
      simp [e2.facts.2.1, hp h lc hlc]
  have h180 : (1 : ℝ) / 10 ^ 180 ≠ 0 := by positivity
  refine ⟨M0, ps, Mp, M', h1, h2, h3, h5, fun e c k hc hk => ?_, fun c hc => ?_⟩
  · rw [h6 e c k hc hk]
    split
    · rename_i h
      have h0 : stale Mp = 0 := Finset.sum_eq_zero fun c _ => hst h c
      unfold first3
      cases e with
      | zero => simp only [h0, add_zero]; rw [(hj c hc k hk).2, he0, mul_div_mul_left _ _ h180]
      | succ e => rfl
    · unfold next3
      rw [(hj c hc k hk).1, he, mul_div_mul_left _ _ h180]
  · rw [h7 c hc]
    split
    · rename_i h
      rw [hst h c, zero_add, (hs c hc).2]
    · exact (hs c hc).1

/-! ## The hypotheses are met -/

open HierHmm (stdNormal stdNormal_wf oneComponent oneComponent_can oneState oneClass)

/-- the word 0 stands for NaN, the word 7 for an infinity, all others for themselves -/
noncomputable def sampleReading (w : ℝ) : Fl := if w = 0 then .nan else if w = 7 then .inf true else .fin w

example : BrokenBelow 1 ([0].map sampleReading) ∧ BrokenBelow 2 ([3, 7].map sampleReading) ∧ ¬ BrokenBelow 2 ([3, 4].map sampleReading) := by
  refine ⟨⟨0, by norm_num, .nan, by simp [sampleReading], trivial⟩, ⟨1, by norm_num, .inf true, by simp [sampleReading], trivial⟩, ?_⟩
  rintro ⟨i, hi, a, h1, h2⟩
  interval_cases i <;> simp [sampleReading] at h1 <;> subst h1 <;> exact h2

/-- a Gaussian distribution that meets the hypotheses of `C96_likelihood` -/
example : Fl.exact.Propagates ∧ stdNormal.toFl.WF ∧ Fl.exact.eq stdNormal.toFl.det (Fl.exact.lit 0) = false ∧ BrokenBelow stdNormal.toFl.dim [.nan] :=
  ⟨exact_propagates, toFl_wf stdNormal_wf, exact_ne (by simp [stdNormal]), 0, by simp [Gauss.toFl, stdNormal], .nan, rfl, trivial⟩

/-- a model of two classes, one observation that is NaN -/
theorem GmmModel.broken_exists : ∃ M : GmmModel ℝ, M.Usable ∧ M.models.length = 2 ∧ M.bimodal = false ∧
    (∀ lc ∈ M.models, (lc.2.Fits [0] ∧ BrokenBelow lc.2.dim ([0].map sampleReading)) ∧ lc.2.window ≤ [[1], [2]].length ∧ lc.2.Fits [1] ∧ lc.2.Fits [2]) := by
  refine ⟨{
    models := [("a", oneComponent), ("b", oneComponent)], nulls := [], bimodal := false, dout := 1, mode := .full, est := .mixture, training := false,
    results := ⟨[0, 0], [0, 0], [0, 0], [0, 0], [0, 0], "", [], []⟩ }, ⟨rfl, rfl, ?_, ⟨rfl, rfl, rfl, rfl, rfl⟩, ?_, fun h => (by cases h), ?_⟩, rfl, rfl, ?_⟩
  · have : ("a" : String) < "b" := by decide
    simpa [SMap.Sorted] using this
  · intro lc hlc
    simp only [List.mem_cons, List.not_mem_nil, or_false] at hlc
    rcases hlc with rfl | rfl <;> exact ⟨oneComponent_can, rfl, rfl⟩
  · intro lc hlc
    simp only [List.mem_cons, List.not_mem_nil, or_false] at hlc
    rcases hlc with rfl | rfl <;> exact ⟨[], CBuf.Holds.init 0 2 (by omega)⟩
  · intro lc hlc
    have hbr : BrokenBelow oneComponent.dim ([0].map sampleReading) := ⟨0, by simp [oneComponent], .nan, by simp [sampleReading], trivial⟩
    simp only [List.mem_cons, List.not_mem_nil, or_false] at hlc
    rcases hlc with rfl | rfl <;> exact ⟨⟨by simp [Gmm.Fits, oneComponent], hbr⟩, by simp [oneComponent], by simp [Gmm.Fits, oneComponent], by simp [Gmm.Fits, oneComponent]⟩

/-- a class of two states, left-right, unimodal -/
noncomputable def twoStates (hier : Bool) : Hmm ℝ :=
  { oneState with
    n := 2, sts := [oneComponent, oneComponent], prior := [1 / 2, 1 / 2], trans := [1 / 2, 1 / 2, 1, 0], alpha := [0, 0], prevAlpha := [0, 0],
    exitP := [0, 1 / 10], hier := hier }

theorem twoStates_can (h : Bool) : (twoStates h).CanFilter := by
  refine ⟨⟨by simp [twoStates], rfl, fun h => (by cases h), rfl, ?_⟩, ⟨?_, ?_, ?_, ?_⟩, rfl, by simp [twoStates, oneState], ?_⟩
  · intro s hs
    have : s = oneComponent := by simpa [twoStates] using hs
    subst this
    exact ⟨rfl, rfl, rfl, rfl, rfl⟩
  · intro i hi
    replace hi : i < 2 := hi
    interval_cases i <;> norm_num [start, twoStates, oneState]
  · norm_num [start, twoStates, oneState, Finset.sum_range_succ]
  · intro i hi j hj
    replace hi : i < 2 := hi
    replace hj : j < 2 := hj
    interval_cases i <;> interval_cases j <;> norm_num [HmmSpec.step, twoStates, oneState]
  · intro i hi
    replace hi : i < 2 := hi
    interval_cases i <;> norm_num [HmmSpec.step, twoStates, oneState, Finset.sum_range_succ]
  · intro s hs
    have : s = oneComponent := by simpa [twoStates] using hs
    subst this
    exact ⟨oneComponent_can, 2, [], CBuf.Holds.init 0 2 (by omega)⟩

theorem twoStates_broken (h : Bool) : (twoStates h).Fits [0] ∧ BrokenBelow (twoStates h).dim ([0].map sampleReading) ∧ (twoStates h).Fits [1] :=
  ⟨by simp [Hmm.Fits, twoStates, oneState], ⟨0, by simp [twoStates, oneState], .nan, by simp [sampleReading], trivial⟩,
    by simp [Hmm.Fits, twoStates, oneState]⟩

/-- the hypotheses of `Hmm.C96_no_evidence` -/
example : (twoStates false).Usable ∧ (twoStates false).bimodal = false ∧ (∀ y ∈ [[(1 : ℝ)], [0]], (twoStates false).Fits y) ∧ (twoStates false).Fits [0] ∧
    BrokenBelow (twoStates false).dim ([0].map sampleReading) :=
  ⟨⟨twoStates_can false, rfl, rfl, fun h => (by cases h)⟩, rfl, fun y hy => by
    simp only [List.mem_cons, List.not_mem_nil, or_false] at hy
    rcases hy with rfl | rfl
    · exact (twoStates_broken false).2.2
    · exact (twoStates_broken false).1, (twoStates_broken false).1, (twoStates_broken false).2.1⟩

/-- the hypotheses of `HierHmm.C96_no_evidence` -/
theorem HierHmm.broken_exists : ∃ M : HierHmm ℝ, M.Trained ∧ M.models.length = 2 ∧ M.bimodal = false ∧
    ∀ lc ∈ M.models, lc.2.ergodic = false ∧ lc.2.n = 2 ∧ lc.2.Fits [0] ∧ lc.2.Fits [1] ∧ BrokenBelow lc.2.dim ([0].map sampleReading) := by
  refine ⟨{ oneClass with
    models := [("a", twoStates true), ("b", twoStates true)], prior := [1 / 2, 1 / 2], exitTrans := [1 / 10, 1 / 10],
    trans := [[1 / 2, 1 / 2], [1 / 4, 3 / 4]], hier := true },
    ⟨rfl, ⟨rfl, rfl, rfl, by simp, by norm_num, by norm_num, by norm_num, by norm_num, by norm_num, by norm_num⟩, rfl, rfl, ?_, ?_, ?_, ?_⟩, rfl, rfl, ?_⟩
  · have : ("a" : String) < "b" := by decide +kernel
    simpa [SMap.Sorted, SMap.keys] using this
  · intro lc hlc
    simp only [List.mem_cons, List.not_mem_nil, or_false] at hlc
    have hI : (twoStates true).InHierarchy := by
      refine ⟨twoStates_can true, rfl, rfl, ?_, ?_, ?_, ?_⟩
      · intro k hk
        replace hk : k < 2 := hk
        interval_cases k <;> norm_num [twoStates]
      · intro k hk
        replace hk : k < 2 := hk
        interval_cases k <;> norm_num [twoStates]
      · intro v hv
        simp only [twoStates, List.mem_cons, List.not_mem_nil, or_false] at hv
        rcases hv with rfl | rfl | rfl | rfl <;> norm_num
      · intro _
        norm_num [twoStates]
    rcases hlc with rfl | rfl <;> exact ⟨hI, rfl, rfl, rfl⟩
  · intro h
    cases h
  · intro lc hlc he
    simp only [List.mem_cons, List.not_mem_nil, or_false] at hlc
    rcases hlc with rfl | rfl <;> cases he
  · intro lc hlc
    simp only [List.mem_cons, List.not_mem_nil, or_false] at hlc
    have := twoStates_broken true
    rcases hlc with rfl | rfl <;> exact ⟨rfl, rfl, this.1, this.2.2, this.2.1⟩

end Xmm
