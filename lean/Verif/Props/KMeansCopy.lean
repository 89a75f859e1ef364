import Verif.Model.KMeansCopy
import Verif.Props.KMeansTrain
import Verif.Lemmas.Sim
/- C89: copies of a k-means model, and saving it. -/
namespace Xmm
namespace KMeansObj
open Prog KMeans
open Gauss (Quiet resize resize_length)
open Phrase (loop)

/-- `reset()`, then `filter(x)`: what the object reports.  An exception, or the distances to the centers and the index of the nearest one. -/
noncomputable def answer (fmax : ℝ) (x : List ℝ) (m : KMeansObj ℝ) : Res Unit (List ℝ × Nat) :=
  match (reset >>= fun _ => filter Real.sqrt fmax x) m with
  | .ret _ m' => .ret (m'.body.distances, m'.body.likeliest) ()
  | .throw e _ => .throw e ()
  | .ub => .ub

theorem filter_using (fmax : ℝ) (x : List ℝ) (m : KMeansObj ℝ) (hs : m.shared = true) : (reset >>= fun _ => filter Real.sqrt fmax x) m =
    match KMeans.filter Real.sqrt fmax x { m.body with distances := Gauss.resize m.body.clusters m.body.distances } with
    | .ret _ b => .ret () { m with body := b }
    | .throw e b => .throw e { m with body := b }
    | .ub => .ub := by
  simp only [bind_def, reset, modify_def, filter, using_, hs, if_true]
  cases KMeans.filter Real.sqrt fmax x { m.body with distances := Gauss.resize m.body.clusters m.body.distances } <;> simp

/-- **C89** (assignment): an object that is assigned a model with one center per cluster, and whose own dimension is the dimension of that model, answers to every observation
    at a finite distance from the centers as the original: the same distances, the same cluster; observations of another dimension are refused by both. -/
theorem C89_assign_partial (src tgt : KMeansObj ℝ) (hs : src.shared = true) (ht : tgt.shared = true) (hd : tgt.body.dim = src.body.dim) (h1 : 1 ≤ src.body.clusters)
    (hc : src.body.centers.length = src.body.clusters * src.body.dim) (fmax : ℝ) (x : List ℝ)
    (hfin : ∀ k < src.body.clusters, Real.sqrt (sqDist src.body.dim x src.body.centers k) < fmax) :
    answer fmax x (assign src tgt) = answer fmax x src ∧ answer fmax x src ≠ .ub := by
  have hta : (assign src tgt).shared = true := ht
  unfold answer
  rw [filter_using fmax x src hs, filter_using fmax x _ hta]
  by_cases hx : x.length = src.body.dim
  · obtain ⟨m1, e1, -, n1, l1, d1⟩ := C34_filter { src.body with distances := Gauss.resize src.body.clusters src.body.distances } fmax x hx hc
      (resize_length _ _) h1 hfin
    obtain ⟨m2, e2, -, n2, l2, d2⟩ := C34_filter { (assign src tgt).body with distances := Gauss.resize (assign src tgt).body.clusters (assign src tgt).body.distances } fmax x
      (hx.trans hd.symm) (by simp only [assign, hc, hd]) (resize_length _ _) h1 (by simpa only [assign, hd] using hfin)
    rw [e1, e2]
    simp only [assign, hd] at n2 l2 d2
    have hlk : m2.likeliest = m1.likeliest := Nearest.unique n2 n1
    have hds : m2.distances = m1.distances := by
      apply List.ext_getElem (by rw [l1, l2])
      intro i hi hi'
      have a1 := d1 i (by simpa only [l1] using hi')
      have a2 := d2 i (by simpa only [l2] using hi)
      simp only [List.getD_eq_getElem?_getD, List.getElem?_eq_getElem hi, List.getElem?_eq_getElem hi', Option.getD_some] at a1 a2
      rw [a1, a2]
    simp only [hlk, hds]
    exact ⟨trivial, by simp⟩
  · rw [C34_filter_wrong_dimension { src.body with distances := Gauss.resize src.body.clusters src.body.distances } fmax x hx,
      C34_filter_wrong_dimension { (assign src tgt).body with distances := Gauss.resize (assign src tgt).body.clusters (assign src tgt).body.distances } fmax x
        (fun h => hx (h.trans hd))]
    exact ⟨rfl, by simp⟩

/-! ### training does not depend on the results of earlier observations -/

theorem quiet_rd {σ β : Type} (l : List β) (i : Nat) : Quiet (Gauss.rd l i : Prog σ β) := by
  unfold Gauss.rd
  split
  · exact Quiet.pure _
  · exact Quiet.undef

theorem quiet_foldlM {σ α β : Type} (f : α → β → Prog σ α) (h : ∀ a b, Quiet (f a b)) : ∀ (l : List β) (a : α), Quiet (l.foldlM f a)
  | [], a => Quiet.pure a
  | b :: l, a => by rw [List.foldlM_cons]; exact Quiet.bind (h a b) fun a' => quiet_foldlM f h l a'

theorem quiet_dist {σ : Type} (a : List ℝ) (ia : Nat) (b : List ℝ) (ib dim : Nat) : Quiet (dist Real.sqrt a ia b ib dim : Prog σ ℝ) :=
  Quiet.bind (Quiet.loop _ _ _ fun _ _ => Quiet.bind (quiet_rd _ _) fun _ => Quiet.bind (quiet_rd _ _) fun _ => Quiet.pure _) fun _ => Quiet.pure _

theorem quiet_initCenters {σ : Type} (rnd : Nat → Nat → ℝ) (sd : List ℝ) (first : List (List ℝ)) (m : KMeans ℝ) : Quiet (initCenters rnd sd first m : Prog σ (List ℝ)) := by
  unfold initCenters
  refine Quiet.ite ?_ ?_
  · exact Quiet.loop _ _ _ fun _ _ => Quiet.bind (Quiet.loop _ _ _ fun _ _ => Quiet.bind (quiet_rd _ _) fun _ => Quiet.pure _) fun _ =>
      Quiet.loop _ _ _ fun _ _ => Quiet.loop _ _ _ fun _ _ => Quiet.bind (quiet_rd _ _) fun _ => Quiet.bind (quiet_rd _ _) fun _ =>
        Quiet.bind (quiet_rd _ _) fun _ => Quiet.pure _
  · exact Quiet.loop _ _ _ fun _ _ => Quiet.loop _ _ _ fun _ _ => Quiet.bind (quiet_rd _ _) fun _ => Quiet.bind (quiet_rd _ _) fun _ => Quiet.pure _

theorem quiet_updateCenters {σ : Type} (prev : List ℝ) (clusters dim : Nat) (frames : List (List ℝ)) :
    Quiet (updateCenters Real.sqrt prev clusters dim frames : Prog σ (List ℝ)) := by
  refine Quiet.bind (quiet_foldlM _ (fun acc frame => Quiet.bind ?_ fun k => ?_) _ _) fun acc => ?_
  · exact Quiet.bind (quiet_dist _ _ _ _ _) fun _ => Quiet.bind (Quiet.loop _ _ _ fun _ _ => Quiet.bind (quiet_dist _ _ _ _ _) fun _ => Quiet.pure _) fun _ => Quiet.pure _
  · exact Quiet.bind (quiet_rd _ _) fun _ => Quiet.bind (Quiet.loop _ _ _ fun _ _ => Quiet.bind (quiet_rd _ _) fun _ => Quiet.bind (quiet_rd _ _) fun _ => Quiet.pure _)
      fun _ => Quiet.pure _
  · exact Quiet.loop _ _ _ fun _ _ => Quiet.bind (quiet_rd _ _) fun _ => Quiet.ite
      (Quiet.loop _ _ _ fun _ _ => Quiet.bind (quiet_rd _ _) fun _ => Quiet.pure _) (Quiet.pure _)

theorem quiet_converged {σ : Type} (threshold : ℝ) (clusters dim : Nat) (prev centers : List ℝ) :
    Quiet (converged Real.sqrt threshold clusters dim prev centers : Prog σ Bool) := by
  refine Quiet.bind (Quiet.loop _ _ _ fun _ _ => Quiet.loop _ _ _ fun _ _ => Quiet.ite (Quiet.bind (quiet_dist _ _ _ _ _) fun _ => Quiet.pure _) (Quiet.pure _)) fun _ => ?_
  refine Quiet.bind (Quiet.loop _ _ _ fun _ _ => Quiet.bind (quiet_dist _ _ _ _ _) fun _ => Quiet.pure _) fun _ => ?_
  exact Quiet.ite (Quiet.pure _) (Quiet.pure _)

theorem quiet_iterate {σ : Type} (threshold : ℝ) (clusters dim : Nat) (frames : List (List ℝ)) : ∀ (n : Nat) (c : List ℝ),
    Quiet (iterate Real.sqrt threshold clusters dim frames n c : Prog σ (List ℝ))
  | 0, c => Quiet.pure c
  | n + 1, c => Quiet.bind (quiet_updateCenters _ _ _ _) fun _ => Quiet.bind (quiet_converged _ _ _ _ _) fun _ =>
      Quiet.ite (Quiet.pure _) (quiet_iterate threshold clusters dim frames n _)

/-- two models that differ in their results and their dimension only have the same centers after training -/
theorem train_body (m : KMeans ℝ) (rnd : Nat → Nat → ℝ) (sd : List ℝ) (data : KData ℝ) (hne : data.phrases ≠ []) (dim lik : Nat) (ds : List ℝ) :
    KMeans.train Real.sqrt rnd sd data { m with dim := dim, distances := ds, likeliest := lik } =
      match KMeans.train Real.sqrt rnd sd data m with
      | .ret _ b => .ret () { b with distances := ds, likeliest := lik }
      | .throw e b => .throw e { b with distances := ds, likeliest := lik }
      | .ub => .ub := by
  cases hp : data.phrases with
  | nil => exact absurd hp hne
  | cons first rest =>
    have hi : initCenters (σ := KMeans ℝ) rnd sd first
          { m with dim := data.dim, centers := resize (m.clusters * data.dim) m.centers, distances := ds, likeliest := lik } =
        initCenters rnd sd first { m with dim := data.dim, centers := resize (m.clusters * data.dim) m.centers } := rfl
    simp only [KMeans.train, hp, bind_def, modify_def, get_def]
    rw [hi]
    obtain ⟨o, ho⟩ := quiet_initCenters (σ := KMeans ℝ) rnd sd first { m with dim := data.dim, centers := resize (m.clusters * data.dim) m.centers }
    rw [ho, ho]
    match o with
    | none => rfl
    | some (.error e) => rfl
    | some (.ok c) =>
      obtain ⟨o', ho'⟩ := quiet_iterate (σ := KMeans ℝ) m.threshold m.clusters data.dim data.frames m.maxIter c
      simp only
      rw [ho', ho']
      match o' with
      | none => rfl
      | some (.error e) => rfl
      | some (.ok c') => rfl

/-- **C89** (assignment): an object that is assigned a model can be trained like the original, whatever dimension it had: with the same data and random numbers both end in the
    same way, and if they end normally they have the same centers and the same dimension. -/
theorem C89_assign_train (src tgt : KMeansObj ℝ) (hs : src.shared = true) (ht : tgt.shared = true) (rnd : Nat → Nat → ℝ) (sd : List ℝ) (data : KData ℝ) :
    match train Real.sqrt rnd sd data src, train Real.sqrt rnd sd data (assign src tgt) with
    | .ret _ a, .ret _ b => b.body.centers = a.body.centers ∧ b.body.clusters = a.body.clusters ∧ (data.phrases ≠ [] → b.body.dim = a.body.dim)
    | .throw e _, .throw e' _ => e = e'
    | .ub, .ub => True
    | _, _ => False := by
  have hta : (assign src tgt).shared = true := ht
  by_cases hne : data.phrases = []
  · have hemp : data.phrases.isEmpty = true := by rw [hne]; rfl
    simp only [train, hemp, if_true, pure_def]
    exact ⟨rfl, rfl, fun h => absurd hne h⟩
  · have hemp : data.phrases.isEmpty = false := by simpa using hne
    have hb := train_body src.body rnd sd data hne tgt.body.dim tgt.body.likeliest tgt.body.distances
    have he : (assign src tgt).body = { src.body with dim := tgt.body.dim, distances := tgt.body.distances, likeliest := tgt.body.likeliest } := rfl
    simp only [train, hemp, Bool.false_eq_true, if_false, using_, hs, hta, if_true]
    rw [he, hb]
    cases KMeans.train Real.sqrt rnd sd data src.body with
    | ret a b => exact ⟨rfl, rfl, fun _ => rfl⟩
    | throw e b => exact rfl
    | ub => exact trivial

/-- **C89** (assignment), the normal case: with frames of the declared dimension and at least one cluster the training ends normally, and then the assigned object answers to
    every observation at a finite distance from the centers as the original. -/
theorem C89_assign_trained (src tgt : KMeansObj ℝ) (hs : src.shared = true) (ht : tgt.shared = true) (rnd : Nat → Nat → ℝ) (sd : List ℝ) (data : KData ℝ) (hw : data.WF sd)
    (hne : data.phrases ≠ []) (h1 : 1 ≤ src.body.clusters) :
    ∃ a b, train Real.sqrt rnd sd data src = .ret () a ∧ train Real.sqrt rnd sd data (assign src tgt) = .ret () b ∧
      ∀ (fmax : ℝ) (x : List ℝ), (∀ k < src.body.clusters, Real.sqrt (sqDist data.dim x a.body.centers k) < fmax) →
        answer fmax x b = answer fmax x a ∧ answer fmax x a ≠ .ub := by
  have hta : (assign src tgt).shared = true := ht
  have hemp : data.phrases.isEmpty = false := by simpa using hne
  have hb := train_body src.body rnd sd data hne tgt.body.dim tgt.body.likeliest tgt.body.distances
  have he : (assign src tgt).body = { src.body with dim := tgt.body.dim, distances := tgt.body.distances, likeliest := tgt.body.likeliest } := rfl
  obtain ⟨k, c, -, e1, l1, -⟩ := C35_train_terminates src.body rnd sd data hw hne h1
  rw [e1, ← he] at hb
  refine ⟨⟨src.shared, { src.body with dim := data.dim, centers := c k }⟩,
    assign ⟨src.shared, { src.body with dim := data.dim, centers := c k }⟩ ⟨tgt.shared, { tgt.body with dim := data.dim }⟩, ?_, ?_, fun fmax x hfin => ?_⟩
  · simp only [train, hemp, using_, hs, if_true, e1, Bool.false_eq_true, if_false]
  · simp only [train, hemp, using_, hta, if_true, hb, Bool.false_eq_true, if_false]
    exact congrArg (fun z => Res.ret () (KMeansObj.mk z _)) ht.symm
  · exact C89_assign_partial ⟨src.shared, { src.body with dim := data.dim, centers := c k }⟩ ⟨tgt.shared, { tgt.body with dim := data.dim }⟩ hs ht rfl h1 (l1 k le_rfl) fmax x hfin

/-- **C89** violated by the copy constructor: a copy has no shared parameters.  Whatever the original, `filter` with a copy is undefined behaviour for every observation, and so is
    training it with a training set that is not empty. -/
theorem C89_copy_ub (src : KMeansObj ℝ) (fmax : ℝ) (x : List ℝ) (rnd : Nat → Nat → ℝ) (sd : List ℝ) (data : KData ℝ) (hne : data.phrases ≠ []) :
    answer fmax x (copy src) = .ub ∧ filter Real.sqrt fmax x (copy src) = .ub ∧ train Real.sqrt rnd sd data (copy src) = .ub := by
  have hemp : data.phrases.isEmpty = false := by simpa using hne
  refine ⟨?_, ?_, ?_⟩
  · simp [answer, bind_def, reset, modify_def, filter, using_, copy]
  · simp [filter, using_, copy]
  · simp [train, hemp, using_, copy]

/-- **C89** violated by the assignment: the dimension is not assigned.  If the target had another dimension (a new object has dimension 1), it refuses every observation that the
    original accepts, although it has the clusters and the centers of the original. -/
theorem C89_assign_violated (src tgt : KMeansObj ℝ) (hs : src.shared = true) (ht : tgt.shared = true) (hd : tgt.body.dim ≠ src.body.dim) (h1 : 1 ≤ src.body.clusters)
    (hc : src.body.centers.length = src.body.clusters * src.body.dim) (fmax : ℝ) (x : List ℝ) (hx : x.length = src.body.dim)
    (hfin : ∀ k < src.body.clusters, Real.sqrt (sqDist src.body.dim x src.body.centers k) < fmax) :
    (∃ r, answer fmax x src = .ret r ()) ∧ answer fmax x (assign src tgt) = .throw .runtimeError () := by
  have hta : (assign src tgt).shared = true := ht
  unfold answer
  rw [filter_using fmax x src hs, filter_using fmax x _ hta]
  obtain ⟨m1, e1, -⟩ := C34_filter { src.body with distances := Gauss.resize src.body.clusters src.body.distances } fmax x hx hc (resize_length _ _) h1 hfin
  rw [e1, C34_filter_wrong_dimension { (assign src tgt).body with distances := Gauss.resize (assign src tgt).body.clusters (assign src tgt).body.distances } fmax x
    (fun h => hd (h.symm.trans hx))]
  exact ⟨⟨_, rfl⟩, rfl⟩

/-- **C89** violated by the assignment, with wrong results: a new object (of dimension 1) that is assigned a model with the centers (0, 5) and (9, 9) compares an observation of
    one value with the numbers 0 and 5, which belong to the first center. -/
theorem C89_assign_wrong_violated : ∃ src : KMeansObj ℝ, src.shared = true ∧ src.body.dim = 2 ∧ src.body.centers = [0, 5, 9, 9] ∧
    answer 100 [5] (assign src (make 1 50 (1/100000))) = .ret ([5, 0], 1) () := by
  refine ⟨⟨true, ⟨2, 50, 1/100000, false, 2, [0, 5, 9, 9], [0, 0], 0⟩⟩, rfl, rfl, rfl, ?_⟩
  have h25 : Real.sqrt 25 = 5 := by rw [show (25 : ℝ) = 5 * 5 by norm_num]; exact Real.sqrt_mul_self (by norm_num)
  unfold answer
  rw [filter_using _ _ _ rfl]
  norm_num [assign, make, KMeans.filter, bind_def, get_def, set_def, pure_def, loop, KMeans.dist, Gauss.rd, Gauss.resize, List.range, List.range.loop, h25]
  rfl

/-- **C89** violated by the JSON: what is saved of a k-means model is `null`, the same for all models, and loading it, like loading anything else, changes nothing: the clusters
    are lost. -/
theorem C89_json_violated : (∀ a b : KMeansObj ℝ, toJson a = toJson b) ∧ (∀ a tgt : KMeansObj ℝ, fromJson (toJson a) tgt = .ret () tgt) := ⟨fun _ _ => rfl, fun _ _ => rfl⟩

/-- the hypotheses of the theorems on the assignment are met: two centers in the plane -/
example : ∃ src tgt : KMeansObj ℝ, src.shared = true ∧ tgt.shared = true ∧ tgt.body.dim = src.body.dim ∧ 1 ≤ src.body.clusters ∧ tgt.body.centers ≠ src.body.centers ∧
    src.body.centers.length = src.body.clusters * src.body.dim ∧ ∀ k < src.body.clusters, Real.sqrt (sqDist src.body.dim [0, 0] src.body.centers k) < 1000 := by
  refine ⟨⟨true, ⟨2, 50, 1, false, 2, [0, 3, 4, 4], [], 0⟩⟩, ⟨true, ⟨1, 50, 1, false, 2, [], [], 0⟩⟩, rfl, rfl, rfl, by norm_num, by simp, rfl, ?_⟩
  intro k hk
  rw [Real.sqrt_lt' (by norm_num)]
  simp only at hk
  have : k = 0 ∨ k = 1 := by omega
  rcases this with rfl | rfl <;> norm_num [sqDist, Finset.sum_range_succ, center]

end KMeansObj
end Xmm
