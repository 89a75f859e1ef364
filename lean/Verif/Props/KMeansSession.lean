import Verif.Spec.KMeansTrain
import Verif.Props.KMeansTrain
import Verif.Props.GmmTrain
set_option linter.unusedSectionVars false
/- C111: from the recordings to the clusters. -/
namespace Xmm
open TS PhraseSpec

/-- every frame of the takes has the dimension of the session -/
theorem TS.Sim.frames_length {f : Format} {i : Nat} {w : World ℝ String} {t : TSet String} {τ : Takes ℝ String} (h : Sim f i w t τ) (hv : f.Valid) :
    ∀ x ∈ KData.frames ⟨f.dim, τ.frames⟩, x.length = f.dim := by
  intro x hx
  simp only [KData.frames, Takes.frames, List.mem_flatten, List.mem_map] at hx
  obtain ⟨fr, ⟨e, he, rfl⟩, hx⟩ := hx
  have hz := h.items
  unfold SMap.Zip at hz
  obtain ⟨n, h2, rfl⟩ := List.getElem_of_mem he
  have hi := ((List.forall₂_iff_get.1 hz).2 n (by rw [hz.length_eq]; exact h2) h2).2
  rw [hi.rep.frames_row (hi.coh hv) hx, hi.dim]

/-- what training reads of the set -/
theorem KMeans.trainSet_sim {f : Format} {i : Nat} {w : World ℝ String} {t : TSet String} {τ : Takes ℝ String} (h : Sim f i w t τ) (hv : f.Valid)
    (rnd : Nat → Nat → ℝ) (m : KMeans ℝ) :
    KMeans.trainSet Real.sqrt rnd w t m = KMeans.train Real.sqrt rnd (if m.biased then [] else KData.deviation ⟨f.dim, τ.frames⟩) ⟨f.dim, τ.frames⟩ m := by
  unfold KMeans.trainSet
  by_cases he : t.phrases = []
  · have : τ = [] := by
      have hz := h.items
      unfold SMap.Zip at hz
      rw [he] at hz
      exact List.forall₂_nil_left_iff.1 hz
    rw [if_pos (by simp [he]), this]
    simp [KMeans.train, Takes.frames, Prog.pure_def]
  · rw [if_neg (by simpa using he)]
    simp only [Prog.bind_def, Prog.get_def, GmmModel.reading_ret (allFrames_zip hv _ _ h.items), h.dim]
    cases hb : m.biased
    · simp only [Bool.false_eq_true, if_false, Prog.bind_def, GmmModel.reading_ret (deviation_ret hv h.items h.nodup)]
    · simp [Prog.pure_def]

theorem recordAndCluster_sim (f : Format) (hv : f.Valid) (i : Nat) (w0 : World ℝ String) (h0 : w0.sets i = none) (ops : List (RecOp ℝ String)) (ha : Takes.Admissible f ops [])
    (rnd : Nat → Nat → ℝ) (m : KMeans ℝ) :
    (∀ x ∈ (Takes.run f ops []).1.frames.flatten, x.length = f.dim) ∧
    recordAndCluster Real.sqrt rnd f i ops w0 m = KMeans.train Real.sqrt rnd (if m.biased then [] else KData.deviation ⟨f.dim, (Takes.run f ops []).1.frames⟩)
      ⟨f.dim, (Takes.run f ops []).1.frames⟩ m := by
  obtain ⟨w1, t1, e1, s1, x1⟩ := sim_open (i := i) hv h0
  obtain ⟨w, t, e2, s2, x2⟩ := Sim.run hv ops s1 x1 ha
  refine ⟨s2.frames_length hv, ?_⟩
  unfold recordAndCluster
  rw [e1]
  simp only [e2, s2.set]
  exact KMeans.trainSet_sim s2 hv rnd m

/-- the centers of the trained model do not depend on the standard deviation in the Biased mode -/
theorem KMeans.train_biased (m : KMeans ℝ) (hb : m.biased = true) (rnd : Nat → Nat → ℝ) (sd sd' : List ℝ) (data : KData ℝ) :
    train Real.sqrt rnd sd data m = train Real.sqrt rnd sd' data m := by
  unfold train
  cases data.phrases with
  | nil => rfl
  | cons first rest => simp [Prog.bind_def, Prog.modify_def, Prog.get_def, initCenters, hb]

/-- C111 (training): after any recording session, training a k-means model with at least one cluster terminates normally, whatever the random numbers are.  The centers are
    the k-means clustering of the complete frames of all takes, whatever their labels, in the order of the numbers of the takes; nothing else of the model changes
    but its dimension, which becomes that of the session.  If no take is left, nothing changes. -/
theorem KMeans.C111_train (f : Format) (hv : f.Valid) (i : Nat) (w0 : World ℝ String) (h0 : w0.sets i = none) (ops : List (RecOp ℝ String)) (ha : Takes.Admissible f ops [])
    (rnd : Nat → Nat → ℝ) (m : KMeans ℝ) (h1 : 1 ≤ m.clusters) :
    ((Takes.run f ops []).1 = [] → recordAndCluster Real.sqrt rnd f i ops w0 m = .ret () m) ∧
    ((Takes.run f ops []).1 ≠ [] → ∃ c, recordAndCluster Real.sqrt rnd f i ops w0 m = .ret () { m with dim := f.dim, centers := c } ∧ c.length = m.clusters * f.dim ∧
      IsClustering m.threshold m.clusters m.maxIter f.dim (Takes.run f ops []).1.frames.flatten (Takes.start f (Takes.run f ops []).1 m.biased m.clusters rnd) c) := by
  obtain ⟨hl, he⟩ := recordAndCluster_sim f hv i w0 h0 ops ha rnd m
  set τ := (Takes.run f ops []).1 with hτ
  constructor
  · intro h
    rw [he, h]
    simp [train, Takes.frames, Prog.pure_def]
  · intro h
    have hd : train Real.sqrt rnd (if m.biased then [] else KData.deviation ⟨f.dim, τ.frames⟩) ⟨f.dim, τ.frames⟩ m =
        train Real.sqrt rnd (KData.deviation ⟨f.dim, τ.frames⟩) ⟨f.dim, τ.frames⟩ m := by
      cases hb : m.biased
      · rfl
      · exact train_biased m hb rnd _ _ _
    have hdl : (KData.deviation ⟨f.dim, τ.frames⟩).length = f.dim := by simp [KData.deviation]
    obtain ⟨c, c1, c2, n, cs, g1, g2, g3, g4⟩ := C35_clustering m rnd (KData.deviation ⟨f.dim, τ.frames⟩) ⟨f.dim, τ.frames⟩ ⟨hl, hdl.ge⟩
      (by simpa [Takes.frames] using h) h1
    refine ⟨c, by rw [he, hd]; exact c1, c2, n, cs, g1, g2, fun k hk d hdd => ?_, g4⟩
    rw [g3 k hk d hdd, Takes.start]
    have : (KData.deviation ⟨f.dim, τ.frames⟩).getD d 0 = Real.sqrt (GmmSpec.covariance τ.frames.flatten d d) := by
      have hdd' : d < f.dim := hdd
      simp [KData.deviation, KData.frames, List.getD_eq_getElem?_getD, hdd']
    beta_reduce
    rw [this]

/-- C111 (labels): the labels of the takes do not matter, nor do their numbers as long as the order is the same: two sessions that leave the same recordings give the same model. -/
theorem KMeans.C111_labels (f : Format) (hv : f.Valid) (i j : Nat) (w0 v0 : World ℝ String) (h0 : w0.sets i = none) (g0 : v0.sets j = none)
    (ops ops' : List (RecOp ℝ String)) (ha : Takes.Admissible f ops []) (ha' : Takes.Admissible f ops' [])
    (hs : (Takes.run f ops []).1.frames = (Takes.run f ops' []).1.frames) (rnd : Nat → Nat → ℝ) (m : KMeans ℝ) :
    recordAndCluster Real.sqrt rnd f i ops w0 m = recordAndCluster Real.sqrt rnd f j ops' v0 m := by
  rw [(recordAndCluster_sim f hv i w0 h0 ops ha rnd m).2, (recordAndCluster_sim f hv j v0 g0 ops' ha' rnd m).2, hs]

/-- observations leave the centers -/
theorem KMeans.follow_ret (fmax : ℝ) (m : KMeans ℝ) (hc : m.centers.length = m.clusters * m.dim) (h1 : 1 ≤ m.clusters) (pre : List (List ℝ)) :
    ∀ m0 : KMeans ℝ, (∃ ds l, m0 = { m with distances := ds, likeliest := l } ∧ ds.length = m.clusters) →
      (∀ x ∈ pre, x.length = m.dim → ∀ k < m.clusters, Real.sqrt (sqDist m.dim x m.centers k) < fmax) →
      ∃ ds l, follow Real.sqrt fmax pre m0 = some { m with distances := ds, likeliest := l } ∧ ds.length = m.clusters := by
  induction pre with
  | nil => rintro m0 ⟨ds, l, rfl, h⟩ -; exact ⟨ds, l, rfl, h⟩
  | cons x xs ih =>
    rintro m0 ⟨ds, l, rfl, h⟩ hf
    unfold follow
    by_cases hx : x.length = m.dim
    · obtain ⟨m', e1, e2, -, e4, -⟩ := C34_filter { m with distances := ds, likeliest := l } fmax x hx hc h h1 (hf x (by simp) hx)
      rw [e1]
      exact ih m' ⟨m'.distances, m'.likeliest, e2, e4⟩ fun y hy => hf y (by simp [hy])
    · have hw := C34_filter_wrong_dimension { m with distances := ds, likeliest := l } fmax x hx
      rw [hw]
      exact ih _ ⟨ds, l, rfl, h⟩ fun y hy => hf y (by simp [hy])

/-- C111 (performance): record, train, `reset()`, then any observations: none of this is undefined; an observation of another dimension raises an exception and changes
    nothing; every other one at a finite distance from the centers is assigned to the nearest of the centers found by the training, whatever came before, and its
    distances to all centers are reported. -/
theorem KMeans.C111_performance (f : Format) (hv : f.Valid) (i : Nat) (w0 : World ℝ String) (h0 : w0.sets i = none) (ops : List (RecOp ℝ String)) (ha : Takes.Admissible f ops [])
    (hne : (Takes.run f ops []).1 ≠ []) (rnd : Nat → Nat → ℝ) (m : KMeans ℝ) (h1 : 1 ≤ m.clusters) (fmax : ℝ) :
    ∃ c m1, IsClustering m.threshold m.clusters m.maxIter f.dim (Takes.run f ops []).1.frames.flatten (Takes.start f (Takes.run f ops []).1 m.biased m.clusters rnd) c ∧
      (recordAndCluster Real.sqrt rnd f i ops w0 >>= fun _ => reset) m = .ret () m1 ∧
      ∀ pre : List (List ℝ), (∀ x ∈ pre, x.length = f.dim → ∀ k < m.clusters, Real.sqrt (sqDist f.dim x c k) < fmax) →
        ∃ m2, follow Real.sqrt fmax pre m1 = some m2 ∧
          ∀ x : List ℝ, (x.length ≠ f.dim → filter Real.sqrt fmax x m2 = .throw .runtimeError m2) ∧
            (x.length = f.dim → (∀ k < m.clusters, Real.sqrt (sqDist f.dim x c k) < fmax) →
              ∃ m3, filter Real.sqrt fmax x m2 = .ret () m3 ∧ m3.centers = c ∧ Nearest m.clusters f.dim c x m3.likeliest ∧ m3.distances.length = m.clusters ∧
                ∀ k < m.clusters, m3.distances.getD k 0 = Real.sqrt (sqDist f.dim x c k)) := by
  obtain ⟨c, c1, c2, c3⟩ := (C111_train f hv i w0 h0 ops ha rnd m h1).2 hne
  set m1 : KMeans ℝ := { m with dim := f.dim, centers := c, distances := Gauss.resize m.clusters m.distances } with hm1
  refine ⟨c, m1, c3, by simp only [Prog.bind_def, c1, reset, Prog.modify_def]; rfl, fun pre hpre => ?_⟩
  obtain ⟨ds, l, e1, e2⟩ := follow_ret fmax m1 c2 h1 pre m1 ⟨m1.distances, m1.likeliest, rfl, by simp [hm1, Gauss.resize_length]⟩ hpre
  refine ⟨_, e1, fun x => ⟨fun hx => C34_filter_wrong_dimension _ fmax x hx, fun hx hf => ?_⟩⟩
  obtain ⟨m3, g1, g2, g3, g4, g5⟩ := C34_filter { m1 with distances := ds, likeliest := l } fmax x hx c2 e2 h1 hf
  exact ⟨m3, g1, by rw [g2], g3, g4, g5⟩

/-- the hypotheses of C111 are met by two bimodal sessions; relabelling a take gives the same recordings -/
theorem KMeans.C111_example : ∃ (w0 : World ℝ String) (ops' : List (RecOp ℝ String)), sessionFormat.Valid ∧ w0.sets 0 = none ∧ Takes.Admissible sessionFormat sessionA [] ∧
    (Takes.run sessionFormat sessionA []).1 ≠ [] ∧ Takes.Admissible sessionFormat ops' [] ∧ ops' ≠ sessionA ∧
    (Takes.run sessionFormat sessionA []).1.frames = (Takes.run sessionFormat ops' []).1.frames := by
  obtain ⟨w0, -, -, hv, h0, -, -, ha, -⟩ := session_example
  obtain ⟨c1, -⟩ := session_classes
  refine ⟨w0, .add 5 "z" :: .remove 5 :: sessionA, hv, h0, ha, ?_, ?_, ?_, ?_⟩
  · intro h; rw [h] at c1; simp at c1
  · refine ⟨trivial, trivial, ?_⟩
    have : ((Takes.step sessionFormat (Takes.step sessionFormat [] (.add 5 "z")).1 (.remove 5)).1 : Takes ℝ String) = [] := by
      simp [Takes.step, SMap.assign, SMap.erase]
    rw [this]; exact ha
  · intro h
    have := congrArg List.length h
    simp only [List.length_cons] at this
    omega
  · have : ((Takes.step sessionFormat (Takes.step sessionFormat [] (.add 5 "z")).1 (.remove 5)).1 : Takes ℝ String) = [] := by
      simp [Takes.step, SMap.assign, SMap.erase]
    simp only [Takes.run]
    rw [this]

end Xmm
