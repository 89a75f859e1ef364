import Verif.Spec.PhraseOrder
import Verif.Spec.Axes
import Verif.Lemmas.Calm
import Verif.Props.ClassTraining
import Verif.Props.KMeansTrain
set_option linter.unusedSimpArgs false
set_option linter.unusedSectionVars false
/- C100: the order of the phrases. -/
namespace Xmm
open Prog (bind_def pure_def get_def set_def modify_def throw_def undef_def)
open Phrase (loop)
open Gauss (rd resize)
open GmmSpec

/-! ### The data -/

namespace KData
variable {K : Type} {data data' : KData K}

theorem Shuffled.frames (h : data.Shuffled data') : data'.frames.Perm data.frames := h.perm.flatten

theorem Shuffled.isEmpty (h : data.Shuffled data') : data'.phrases.isEmpty = data.phrases.isEmpty := by
  rw [Bool.eq_iff_iff, List.isEmpty_iff, List.isEmpty_iff]
  constructor
  · intro e
    have := h.perm
    rw [e] at this
    exact this.symm.eq_nil
  · intro e
    have := h.perm
    rw [e] at this
    exact this.eq_nil

end KData

theorem GmmSpec.average_perm {l l' : List (List ℝ)} (h : l'.Perm l) (f : List ℝ → ℝ) : average l' f = average l f := by
  unfold average
  rw [(h.map f).sum_eq, h.length_eq]

theorem GmmSpec.covariance_perm {l l' : List (List ℝ)} (h : l'.Perm l) (i j : Nat) : covariance l' i j = covariance l i j := by
  unfold covariance
  rw [average_perm h, average_perm h, average_perm h]

theorem deviations_perm (d : Nat) {l l' : List (List ℝ)} (h : l'.Perm l) : deviations d l' = deviations d l := by
  unfold deviations
  congr 1
  funext k
  rw [covariance_perm h]

/-! ### k-means -/

namespace KMeans

theorem ext_centers {clusters dim : Nat} {a b : List ℝ} (ha : a.length = clusters * dim) (hb : b.length = clusters * dim)
    (h : ∀ k < clusters, ∀ d < dim, center a dim k d = center b dim k d) : a = b := by
  apply List.ext_getElem (by rw [ha, hb])
  intro i hi hi'
  have hi2 : i < clusters * dim := by omega
  have hd : 0 < dim := Nat.pos_of_ne_zero fun h0 => by simp [h0] at hi2
  have := h (i / dim) ((Nat.div_lt_iff_lt_mul hd).2 hi2) (i % dim) (Nat.mod_lt _ hd)
  simp only [center, Nat.div_add_mod', List.getD_eq_getElem?_getD, List.getElem?_eq_getElem hi,
    List.getElem?_eq_getElem hi', Option.getD_some] at this
  exact this

theorem members_perm {clusters dim : Nat} (prev : List ℝ) {l l' : List (List ℝ)} (h : l'.Perm l) (k : Nat) :
    (members clusters dim prev l' k).Perm (members clusters dim prev l k) := by
  unfold members
  exact h.filter _

theorem updateCenters_perm {σ : Type} {clusters dim : Nat} (h1 : 1 ≤ clusters) {prev : List ℝ} (hp : prev.length = clusters * dim) {l l' : List (List ℝ)} (h : l'.Perm l)
    (hf : ∀ x ∈ l, x.length = dim) (s : σ) :
    ∃ c, updateCenters Real.sqrt prev clusters dim l' s = .ret c s ∧ updateCenters Real.sqrt prev clusters dim l s = .ret c s ∧ c.length = clusters * dim := by
  obtain ⟨-, c, a1, a2, a3⟩ := C34_update_is_mean clusters dim prev l hf hp h1 s
  obtain ⟨-, c', b1, b2, b3⟩ := C34_update_is_mean clusters dim prev l' (fun x hx => hf x (h.subset hx)) hp h1 s
  have e : c' = c := by
    refine ext_centers b2 a2 fun k hk d hd => ?_
    rw [a3 k hk d hd, b3 k hk d hd]
    have hm := members_perm (clusters := clusters) (dim := dim) prev h k
    by_cases he : members clusters dim prev l k = []
    · rw [he] at hm
      rw [if_pos he, if_pos hm.eq_nil]
    · rw [if_neg he, if_neg fun e => he (by rw [e] at hm; exact hm.symm.eq_nil)]
      unfold meanOf
      rw [(hm.map _).sum_eq, hm.length_eq]
  subst e
  exact ⟨c', b1, a1, a2⟩

theorem iterate_perm {σ : Type} {clusters dim : Nat} (thr : ℝ) (h1 : 1 ≤ clusters) {l l' : List (List ℝ)} (h : l'.Perm l) (hf : ∀ x ∈ l, x.length = dim) :
    ∀ (n : Nat) (c : List ℝ), c.length = clusters * dim → ∀ s : σ, iterate Real.sqrt thr clusters dim l' n c s = iterate Real.sqrt thr clusters dim l n c s
  | 0, _, _, _ => rfl
  | n + 1, c, hc, s => by
    obtain ⟨c1, a1, a2, a3⟩ := updateCenters_perm h1 hc h hf s
    simp only [iterate]
    rw [bind_of_ret a1, bind_of_ret a2, bind_of_ret (converged_ret thr c c1 hc a3 s), bind_of_ret (converged_ret thr c c1 hc a3 s)]
    split_ifs
    · rfl
    · exact iterate_perm thr h1 h hf n c1 a3 s

/-- **C100** (k-means): the order of the phrases does not matter, except which one is the first in the Biased mode. -/
theorem C100_clusters (m : KMeans ℝ) (rnd : Nat → Nat → ℝ) (sd : List ℝ) (data data' : KData ℝ) (hw : data.WF sd) (h1 : 1 ≤ m.clusters) (h : data.Shuffled data')
    (hb : m.biased = true → data'.phrases.head? = data.phrases.head?) :
    train Real.sqrt rnd sd data' m = train Real.sqrt rnd sd data m := by
  cases hp : data.phrases with
  | nil =>
    have hp' : data'.phrases = [] := (h.perm.trans (by rw [hp])).eq_nil
    simp only [train, hp, hp']
  | cons first rest =>
    cases hp' : data'.phrases with
    | nil =>
      have := h.perm
      rw [hp', hp] at this
      exact absurd this.symm.eq_nil (by simp)
    | cons first' rest' =>
      have hframe : ∀ q : List (List ℝ), q ∈ data.phrases → ∀ x ∈ q, x.length = data.dim := fun q hq x hx => hw.frames x (List.mem_flatten.2 ⟨q, hq, hx⟩)
      set m1 : KMeans ℝ := { m with dim := data.dim, centers := resize (m.clusters * data.dim) m.centers } with hm1
      have hl1 : m1.centers.length = m.clusters * data.dim := Gauss.resize_length _ _
      have hinit : ∃ c0 : List ℝ, initCenters (σ := KMeans ℝ) rnd sd first m1 m1 = .ret c0 m1 ∧ initCenters (σ := KMeans ℝ) rnd sd first' m1 m1 = .ret c0 m1 ∧
          c0.length = m.clusters * data.dim := by
        by_cases hb1 : m1.biased = true
        · have hff : first' = first := by
            have := hb hb1
            rw [hp, hp'] at this
            simpa using this
          obtain ⟨c, e1, e2, e3, _⟩ := C66_biased_init (σ := KMeans ℝ) first m1.centers (hframe first (by rw [hp]; simp)) hl1 m1
          refine ⟨c, ?_, ?_, e2⟩
          · rw [initCenters, if_pos hb1]; exact e1
          · rw [hff, initCenters, if_pos hb1]; exact e1
        · obtain ⟨c, e1, e2, e3, _⟩ := C66_random_init (σ := KMeans ℝ) rnd sd m1.centers hw.sd hl1 m1
          refine ⟨c, ?_, ?_, e2⟩
          · rw [initCenters, if_neg hb1]; exact e1
          · rw [initCenters, if_neg hb1]; exact e1
      obtain ⟨c0, i1, i2, i3⟩ := hinit
      simp only [train, hp, hp', bind_def, modify_def, get_def, h.dim]
      rw [← hm1, i1, i2]
      simp only [set_def]
      rw [iterate_perm m1.threshold h1 h.frames hw.frames m1.maxIter c0 i3 m1]

end KMeans

/-! ### Mixtures -/

namespace Gmm

theorem kmeansCenters_reordered {σ : Type} {sd : List ℝ} {data data' : KData ℝ} (hw : data.WF sd) {clusters : Nat} (h1 : 1 ≤ clusters) (h : data.Reordered data') :
    (kmeansCenters Real.sqrt sd data' clusters : Prog σ (List ℝ)) = kmeansCenters Real.sqrt sd data clusters := by
  funext s
  unfold kmeansCenters
  rw [KMeans.C100_clusters (initialKMeans clusters) (fun _ _ => 0) sd data data' hw h1 h.toShuffled fun _ => h.first]

section sums
variable {K : Type} [Field K] [LinearOrder K] {σ : Type}

theorem segmentSum_shuffled {data data' : KData K} (h : data.Shuffled data') (parts n : Nat) {f : List K → Prog σ K} (hf : ∀ x, (f x).Calm) :
    segmentSum data' parts n f = segmentSum data parts n f := by
  have hg : ∀ (phrase : List (List K)) (t : Nat), (do let x ← rd phrase (n * (phrase.length / parts) + t); f x : Prog σ K).Calm := fun phrase t =>
    Prog.Calm.bind (Prog.Calm.rd _ _) fun x => hf x
  have e : ∀ data : KData K, segmentSum data parts n f = data.phrases.foldlM (addTo fun phrase =>
      loop (phrase.length / parts) 0 (fun a t => addTo (fun t => do let x ← rd phrase (n * (phrase.length / parts) + t); f x) a t)) 0 := by
    intro data
    unfold segmentSum
    congr 1
    funext acc phrase
    rw [addTo, ← addTo_loop (hg phrase) acc]
    congr 1
    funext a t s
    simp only [addTo, bind_def]
    cases rd phrase (n * (phrase.length / parts) + t) s <;> rfl
  rw [e, e]
  exact sumM_perm (fun phrase => Prog.Calm.loop fun a t => Prog.Calm.bind (hg phrase t) fun v => Prog.Calm.pure _) h.perm 0

theorem segmentFrames_shuffled {data data' : KData K} (h : data.Shuffled data') (parts : Nat) : segmentFrames data' parts = segmentFrames data parts := by
  unfold segmentFrames
  rw [(h.perm.map _).sum_eq]

theorem initCov_shuffled {data data' : KData K} (h : data.Shuffled data') (parts n d1 d2 : Nat) :
    (initCov data' parts n d1 d2 : Prog σ K) = initCov data parts n d1 d2 := by
  unfold initCov
  rw [segmentFrames_shuffled h, segmentSum_shuffled h parts n (f := fun x => do let a ← rd x d1; let b ← rd x d2; pure (a * b)) fun x =>
      Prog.Calm.bind (Prog.Calm.rd _ _) fun a => Prog.Calm.bind (Prog.Calm.rd _ _) fun b => Prog.Calm.pure _,
    segmentSum_shuffled h parts n (f := fun x => rd x d1) fun x => Prog.Calm.rd _ _, segmentSum_shuffled h parts n (f := fun x => rd x d2) fun x => Prog.Calm.rd _ _]

theorem initCovariances_shuffled {data data' : KData K} (h : data.Shuffled data') : initCovariances data' = initCovariances data := by
  have e : ∀ mode parts n dim, (initCovMode mode data' parts n dim : Prog (Gmm K) (List K)) = initCovMode mode data parts n dim := by
    intro mode parts n dim
    unfold initCovMode
    cases mode <;> simp only [initCov_shuffled h]
  have e1 : ∀ n, initCovComp data' n = initCovComp data n := by
    intro n
    unfold initCovComp
    simp only [e]
  unfold initCovariances
  simp only [e1, segmentFrames_shuffled h, h.isEmpty]

theorem weighted_perm {ι : Type} {l l' : List ι} (h : l'.Perm l) (p y : ι → List K) (c : Nat) {f : List K → Prog σ K} (hf : ∀ x, (f x).Calm) :
    weighted (l'.map p) (l'.map y) c f = weighted (l.map p) (l.map y) c f := by
  have e : ∀ l : List ι, weighted (l.map p) (l.map y) c f = l.foldlM (addTo fun x => do let q ← rd (p x) c; let v ← f (y x); pure (q * v)) 0 := by
    intro l
    unfold weighted
    rw [List.zip_map']
    generalize (0 : K) = a
    induction l generalizing a with
    | nil => rfl
    | cons x l ih =>
      rw [List.map_cons, List.foldlM_cons, List.foldlM_cons]
      funext s
      simp only [addTo, bind_def]
      cases rd (p x) c s with
      | ub => rfl
      | throw e s => rfl
      | ret q s1 =>
        simp only
        cases f (y x) s1 with
        | ub => rfl
        | throw e s => rfl
        | ret v s2 =>
          simp only [pure_def]
          exact congrFun (ih _) s2
  rw [e, e]
  exact sumM_perm (fun x => Prog.Calm.bind (Prog.Calm.rd _ _) fun q => Prog.Calm.bind (hf (y x)) fun v => Prog.Calm.pure _) h 0

theorem totalOf_perm {ι : Type} {l l' : List ι} (h : l'.Perm l) (p : ι → List K) (c : Nat) : totalOf (l'.map p) c = totalOf (l.map p) c := by
  unfold totalOf
  rw [((h.map p).map _).sum_eq]

theorem newMean_perm {ι : Type} {l l' : List ι} (h : l'.Perm l) (p y : ι → List K) (dim c : Nat) (e : K) :
    (newMean (l'.map p) (l'.map y) dim c e : Prog σ (List K)) = newMean (l.map p) (l.map y) dim c e := by
  unfold newMean
  congr 1
  funext d
  rw [weighted_perm h p y c (f := fun x => rd x d) fun x => Prog.Calm.rd _ _]

theorem newCov_perm {ι : Type} {l l' : List ι} (h : l'.Perm l) (p y : ι → List K) (mean : List K) (c : Nat) (e : K) (i j : Nat) :
    (newCov (l'.map p) (l'.map y) mean c e i j : Prog σ K) = newCov (l.map p) (l.map y) mean c e i j := by
  unfold newCov
  rw [weighted_perm h p y c (f := fun x => do let xi ← rd x i; let mi ← rd mean i; let xj ← rd x j; let mj ← rd mean j; pure ((xi - mi) * (xj - mj)))
    fun x => Prog.Calm.bind (Prog.Calm.rd _ _) fun _ => Prog.Calm.bind (Prog.Calm.rd _ _) fun _ => Prog.Calm.bind (Prog.Calm.rd _ _) fun _ =>
      Prog.Calm.bind (Prog.Calm.rd _ _) fun _ => Prog.Calm.pure _]

theorem newCovMode_perm {ι : Type} {l l' : List ι} (h : l'.Perm l) (p y : ι → List K) (mode : CovMode) (mean : List K) (dim c : Nat) (e : K) (cov : List K) :
    (newCovMode mode (l'.map p) (l'.map y) mean dim c e cov : Prog σ (List K)) = newCovMode mode (l.map p) (l.map y) mean dim c e cov := by
  unfold newCovMode newCovFull newCovDiagonal
  cases mode <;> simp only [newCov_perm h]

theorem mStep_perm {l l' : List (List K)} (h : l'.Perm l) (p : List K → List K) : mStep (l'.map p) l' = mStep (l.map p) l := by
  have hM : ∀ dim c e, (newMean (l'.map p) l' dim c e : Prog (Gmm K) (List K)) = newMean (l.map p) l dim c e := fun dim c e => by
    have := newMean_perm (σ := Gmm K) h p id dim c e
    rwa [List.map_id, List.map_id] at this
  have hC : ∀ mode mean dim c e cov, (newCovMode mode (l'.map p) l' mean dim c e cov : Prog (Gmm K) (List K)) = newCovMode mode (l.map p) l mean dim c e cov :=
    fun mode mean dim c e cov => by
      have := newCovMode_perm (σ := Gmm K) h p id mode mean dim c e cov
      rwa [List.map_id, List.map_id] at this
  have h1 : ∀ c, updateCoeff (l'.map p) c = updateCoeff (l.map p) c := by
    intro c
    unfold updateCoeff
    simp only [totalOf_perm h, List.length_map, h.length_eq]
  have h2 : ∀ c, updateMean (l'.map p) l' c = updateMean (l.map p) l c := by
    intro c
    unfold updateMean
    simp only [hM, totalOf_perm h]
  have h3 : ∀ c, updateCov (l'.map p) l' c = updateCov (l.map p) l c := by
    intro c
    unfold updateCov
    simp only [hC, totalOf_perm h]
  unfold mStep
  simp only [h1, h2, h3]

end sums

theorem emUpdate_perm (D : Dens ℝ) (log : ℝ → ℝ) {data data' : KData ℝ} (h : data.Shuffled data') (m : Gmm ℝ) (hw : m.WF) (dens : List ℝ → Nat → ℝ)
    (hd : Densities D m data.frames dens) : emUpdate D log data' m = emUpdate D log data m := by
  have e : ∀ l : List (List ℝ), (∀ x ∈ l, x ∈ data.frames) → l.mapM (posterior D m) m = .ret (l.map fun x => (row m dens x,
      ∑ j ∈ Finset.range m.gaussians, score (weights m) (dens x) j)) m := fun l hl =>
    prog_mapM_ret l (posterior D m) (fun x => (row m dens x, ∑ j ∈ Finset.range m.gaussians, score (weights m) (dens x) j)) m
      (fun x hx => posterior_ret D m hw data.frames dens hd x (hl x hx) m)
  have hs := mStep_perm h.frames (row m dens)
  have hp := h.frames
  unfold emUpdate
  rw [bind_of_ret (Prog.get_def m), bind_of_ret (Prog.get_def m), bind_of_ret (e _ fun x hx => hp.subset hx), bind_of_ret (e _ fun x hx => hx)]
  simp only [List.map_map, Function.comp_def]
  rw [hs, (hp.map fun x => log (∑ j ∈ Finset.range m.gaussians, score (weights m) (dens x) j)).sum_eq]

theorem emInit_reordered {sd : List ℝ} {data data' : KData ℝ} (h : data.Reordered data') (m : Gmm ℝ) (hm : m.WF) (hf : m.Fed sd data) :
    emInit Real.sqrt sd data' m = emInit Real.sqrt sd data m := by
  have hw : data.WF sd := ⟨fun x hx => by rw [hf.dim]; exact hf.frame x hx, by rw [hf.dim, hf.sd]⟩
  obtain ⟨l, hi, -⟩ := C36_default_parameters m hm sd hf.sd
  have e : ∀ s : Gmm ℝ, 1 ≤ s.gaussians → initMeansWithKMeans Real.sqrt sd data' s = initMeansWithKMeans Real.sqrt sd data s := by
    intro s hs
    unfold initMeansWithKMeans
    rw [h.isEmpty]
    split_ifs
    · rfl
    · rw [bind_of_ret (Prog.get_def s), bind_of_ret (Prog.get_def s), kmeansCenters_reordered hw hs h]
  unfold emInit
  rw [initCovariances_shuffled h.toShuffled, bind_of_ret hi, bind_of_ret hi, bind_def, bind_def, e { m with
    reg := regularization m sd, coeffs := List.replicate m.gaussians (1 / (m.gaussians : ℝ)), comps := l } hm.pos]

end Gmm

/-! ### Two trainings side by side -/

namespace Trainee
variable {σ V : Type}

/-- the states after each update of two trainings -/
theorem after_related {u u' : Nat → Prog σ V} {s s' : σ} (I : Nat → σ → σ → Prop) (h0 : I 0 s s')
    (hstep : ∀ k a a', I k a a' → ∃ v b b', u k a = .ret v b ∧ u' k a' = .ret v b' ∧ I (k + 1) b b') :
    ∀ n, ∃ a a', after u s n = some a ∧ after u' s' n = some a' ∧ I n a a'
  | 0 => ⟨s, s', rfl, rfl, h0⟩
  | n + 1 => by
    obtain ⟨a, a', h1, h2, h3⟩ := after_related I h0 hstep n
    obtain ⟨v, b, b', k1, k2, k3⟩ := hstep n a a' h3
    exact ⟨b, b', by simp [after, h1, k1], by simp [after, h2, k2], k3⟩

/-- two classes whose updates return the same log-likelihoods go through the same training -/
theorem train_related [Zero V] (T T' : Trainee σ V) (C : Compare V) (P : EmParams) (hP : 1 ≤ P.minIter) (cancel : Nat → Bool) {s s' s1 s1' s2 s2' : σ} {ok : Bool}
    (ha : T.allocate s = .ret () s1) (ha' : T'.allocate s' = .ret () s1') (hi : T.init s1 = .ret ok s2) (hi' : T'.init s1' = .ret ok s2')
    (I : Nat → σ → σ → Prop) (h0 : I 0 s2 s2')
    (hstep : ∀ k a a', I k a a' → ∃ v b b', T.update ok k a = .ret v b ∧ T'.update ok k a' = .ret v b' ∧ I (k + 1) b b')
    (R : σ → σ → Prop) (hc : R (T.idle s1) (T'.idle s1')) (hr : ∀ k a a', I k a a' → R (T.idle a) (T'.idle a'))
    (hd : ∀ k a a', I k a a' → ∃ b b', T.terminate a = .ret () b ∧ T'.terminate a' = .ret () b' ∧ R (T.idle b) (T'.idle b')) :
    ∃ t u u', T.train C P cancel s = .ret t u ∧ T'.train C P cancel s' = .ret t u' ∧ R u u' := by
  by_cases hcan : cancel 0 = true
  · have h : ∃ t : Trainer V, t.updates = 0 ∧ t.status = .cancel ∧ ∀ E : EmEnv V, E.cancel 0 = true → Trainer.train E P true true 1001 (start V) = .ret true t := by
      refine ⟨{ start V with locked := false, status := .cancel, isTraining := false, checks := 1, events := [⟨.cancel, 0, 0⟩] }, rfl, rfl, fun E hE => ?_⟩
      unfold Trainer.train
      rw [bind_of_ret (modify_def _ _), if_neg (by simp)]
      refine (bind_of_ret (Trainer.cancel_yes (E := E) (s := { start V with locked := true, status := .run }) hE)).trans ?_
      rw [if_pos rfl, pure_def]
      rfl
    obtain ⟨t, h1, h2, h3⟩ := h
    have key : ∀ (T : Trainee σ V) (s s1 : σ), T.allocate s = .ret () s1 → T.train C P cancel s = .ret t (T.idle s1) := by
      intro T s s1 ha
      unfold train
      rw [bind_of_ret ha]
      refine (bind_of_ret (s := s1) (s' := s1) (a := some true) (by rw [begin', if_pos hcan]; rfl)).trans ?_
      refine (bind_of_ret (get_def s1)).trans ?_
      rw [h3 _ hcan]
      simp only [h1, after, finish, h2]
      rfl
    exact ⟨t, _, _, key T s s1 ha, key T' s' s1' ha', hc⟩
  · have hcan : cancel 0 = false := by simpa using hcan
    obtain ⟨t, k, h1, h2⟩ := Trainer.train_trained (env C true (T.update ok) s2 cancel) P hP true true (fun _ => rfl) 1001 (by omega) (start V) ⟨rfl, rfl, rfl⟩
    have henv : env C true (T'.update ok) s2' cancel = env C true (T.update ok) s2 cancel := by
      unfold env
      congr 1
      funext n
      obtain ⟨a, a', k1, k2, k3⟩ := after_related I h0 hstep n
      obtain ⟨v, b, b', e1, e2, -⟩ := hstep n a a' k3
      simp only [k1, k2, Option.bind_some, e1, e2]
    obtain ⟨a, a', k1, k2, k3⟩ := after_related I h0 hstep t.updates
    have hfin : ∃ u u', finish T t a = .ret t u ∧ finish T' t a' = .ret t u' ∧ R u u' := by
      unfold finish
      by_cases hs : t.status = .done
      · obtain ⟨b, b', e1, e2, e3⟩ := hd _ _ _ k3
        simp only [hs, if_true]
        exact ⟨T.idle b, T'.idle b', by rw [bind_of_ret e1]; rfl, by rw [bind_of_ret e2]; rfl, e3⟩
      · simp only [hs, if_false]
        exact ⟨T.idle a, T'.idle a', rfl, rfl, hr _ _ _ k3⟩
    obtain ⟨u, u', f1, f2, f3⟩ := hfin
    refine ⟨t, u, u', ?_, ?_, f3⟩
    · unfold train
      rw [bind_of_ret ha]
      refine (bind_of_ret (s := s1) (s' := s2) (a := some ok) (by simp [begin', hcan, attempt, hi])).trans ?_
      refine (bind_of_ret (get_def s2)).trans ?_
      simp only [Option.isSome_some, Option.getD_some, h1, k1]
      simp [bind_def, set_def, f1]
    · unfold train
      rw [bind_of_ret ha']
      refine (bind_of_ret (s := s1') (s' := s2') (a := some ok) (by simp [begin', hcan, attempt, hi'])).trans ?_
      refine (bind_of_ret (get_def s2')).trans ?_
      simp only [Option.isSome_some, Option.getD_some, henv, h1, k2]
      simp [bind_def, set_def, f2]

end Trainee

/-- **C100** (mixtures): training with the same phrases in another order, the first one being the same, gives the same result: the same number of iterations, the same
    log-likelihoods and events, and the same mixture. -/
theorem Gmm.C100_training (D : Dens ℝ) (hD : D.Sound) (log : ℝ → ℝ) (m : Gmm ℝ) (ha : m.Admissible) (sd : List ℝ) (data data' : KData ℝ) (hf : m.Fed sd data)
    (hreg : 1 / 10 ^ 9 ≤ m.absReg) (h : data.Reordered data') (C : Compare ℝ) (P : EmParams) (hP : 1 ≤ P.minIter) (cancel : Nat → Bool) :
    ∃ t m', (trainee D log Real.sqrt sd data).train C P cancel m = .ret t m' ∧ (trainee D log Real.sqrt sd data').train C P cancel m = .ret t m' := by
  obtain ⟨m1, ok, m2, e1, e2, -, e4, e5, -⟩ := start_ret m ha sd data hf hreg
  obtain ⟨g, g1, hw⟩ := Gmm.allocate_ret m ha.gaussians ha.dim ha.di
  rw [e1] at g1
  injection g1 with _ g1
  have hw1 : m1.WF := by rw [g1]; exact hw
  have hf1 : m1.Fed sd data := by rw [g1]; exact ⟨hf.dim, hf.frame, hf.some, hf.sd⟩
  have e2' : emInit Real.sqrt sd data' m1 = .ret ok m2 := by rw [emInit_reordered h m1 hw1 hf1, e2]
  obtain ⟨t, u, u', k1, k2, rfl⟩ := Trainee.train_related (trainee D log Real.sqrt sd data) (trainee D log Real.sqrt sd data') C P hP cancel e1 e1 e2 e2'
    (fun k a a' => a = a' ∧ Going m data a ∧ (ok = true ∨ 0 < k → a.Ready)) ⟨rfl, e4, fun h => e5 (by simpa using h)⟩ (fun k a a' hk => by
      obtain ⟨rfl, hg, hr⟩ := hk
      obtain ⟨v, b, q1, q2, q3, -⟩ := trainStep_ret D hD log data ok k m a hg hr
      refine ⟨v, b, b, q1, ?_, rfl, q2, fun _ => q3⟩
      show trainStep D log data' ok k a = .ret v b
      rw [← q1]
      unfold trainStep
      by_cases hk : (ok || 0 < k) = true
      · rw [if_pos hk, if_pos hk]
        obtain ⟨dens, hd, -⟩ := densities_exist D hD a (hr (by simpa using hk)) data.frames hg.trains.frame
        exact emUpdate_perm D log h.toShuffled a hg.wf dens hd
      · rw [if_neg hk, if_neg hk]
        exact emUpdate_perm Dens.floor log h.toShuffled a hg.wf _ (floor_densities a data.frames))
    (fun a b => a = b) rfl (fun k a a' hk => by rw [hk.1]; rfl) (fun k a a' hk => ⟨a, a', rfl, rfl, by rw [hk.1]; rfl⟩)
  exact ⟨t, u, k1, k2⟩

end Xmm
