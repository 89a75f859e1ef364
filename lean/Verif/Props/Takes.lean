import Verif.Lemmas.Takes
import Mathlib.Data.Rat.Defs
/- C102: a training set filled in a recording session holds exactly the takes the user has in mind, class by class. -/
namespace Xmm.TS
open PhraseSpec
variable {K L : Type} [LinearOrder L]

/-- C102: for every valid format and every session of calls on a new training set (adding numbered takes, recording into them or clearing them,
    changing labels, removing takes, removing classes, clearing the set; exceptions are caught), the program is defined, raises exactly
    the exceptions that are specified, and at the end the set shows the takes: the classes are the labels of the takes, and
    the set of a class gives, in the order of the numbers, exactly the complete frames recorded in the takes with that label. -/
theorem C102_takes [Zero K] [Inhabited L] (f : Format) (hv : f.Valid) (i : Nat) (w0 : World K L) (h0 : w0.sets i = none)
    (ops : List (RecOp K L)) (ha : Takes.Admissible f ops []) :
    ∃ w1 w t, openSet i f.bimodal f.dim f.di w0 = .ret () w1 ∧ recRun i ops w1 = some (w, (Takes.run f ops []).2) ∧
      w.sets i = some t ∧ Presents f w t (Takes.run f ops []).1 := by
  obtain ⟨w1, t1, e1, s1, x1⟩ := sim_open (i := i) hv h0
  obtain ⟨w, t, e2, s2, x2⟩ := Sim.run hv ops s1 x1 ha
  exact ⟨w1, w, t, e1, e2, s2.set, s2.presents x2 hv⟩

/-- the calls that record one take: `addPhrase(k, l)`, then `record(frame)` for each frame -/
def oneTake (k : Int) (l : L) (frames : List (List K)) : List (RecOp K L) := .add k l :: frames.map fun x => .call k (.record x)

theorem run_append (f : Format) (a b : List (RecOp K L)) (τ : Takes K L) :
    (Takes.run f (a ++ b) τ).1 = (Takes.run f b (Takes.run f a τ).1).1 := by
  induction a generalizing τ with
  | nil => rfl
  | cons op a ih => simp only [List.cons_append, Takes.run, ih]

theorem admissible_append (f : Format) (a b : List (RecOp K L)) (τ : Takes K L) (h1 : Takes.Admissible f a τ)
    (h2 : Takes.Admissible f b (Takes.run f a τ).1) : Takes.Admissible f (a ++ b) τ := by
  induction a generalizing τ with
  | nil => exact h2
  | cons op a ih => exact ⟨h1.1, ih _ h1.2 h2⟩

theorem change_assign (k : Int) (g : L × S K → L × S K) (e : L × S K) (τ : Takes K L) (hs : SMap.Sorted τ) :
    Takes.change k g (SMap.assign k e τ) = SMap.assign k (g e) τ := by
  have hid : ∀ τ : Takes K L, (∀ x ∈ τ, x.1 ≠ k) → Takes.change k g τ = τ := by
    intro τ h
    unfold Takes.change
    conv_rhs => rw [← List.map_id τ]
    exact List.map_congr_left fun x hx => by simp [h x hx]
  induction τ with
  | nil => simp [SMap.assign, Takes.change]
  | cons x τ ih =>
    obtain ⟨k', v⟩ := x
    have hlt : ∀ y ∈ τ, k' < y.1 := fun y hy => (SMap.sorted_cons.1 hs).1 y hy
    simp only [SMap.assign]
    split
    · rename_i h
      have : Takes.change k g ((k', v) :: τ) = (k', v) :: τ := hid _ (by
        intro y hy
        rcases List.mem_cons.1 hy with rfl | hy
        · exact ne_of_gt h
        · exact ne_of_gt (h.trans (hlt y hy)))
      simp only [Takes.change, List.map_cons, if_true] at this ⊢
      rw [this]
    · split
      · rename_i h
        subst h
        have := hid τ fun y hy => ne_of_gt (hlt y hy)
        simp only [Takes.change, List.map_cons, if_true] at this ⊢
        rw [this]
      · rename_i h h'
        have := ih (SMap.sorted_cons.1 hs).2
        simp only [Takes.change, List.map_cons, if_neg (Ne.symm h')] at this ⊢
        rw [this]

/-- the recording of complete frames -/
def Format.recorded (f : Format) (frames : List (List K)) : S K :=
  if f.bimodal then { (f.blank : S K) with ins := frames.map (List.take f.di), outs := frames.map (List.drop f.di) }
  else { (f.blank : S K) with ins := frames }

theorem recorded_frames (f : Format) (frames : List (List K)) : (f.recorded frames).frames = frames := by
  cases hb : f.bimodal with
  | false => simp [Format.recorded, hb, S.frames, Format.blank]
  | true =>
    simp only [Format.recorded, hb, if_true, S.frames, Format.blank]
    induction frames with
    | nil => rfl
    | cons x xs ih => simp [ih]

theorem recorded_step (f : Format) (frames : List (List K)) (x : List K) (hx : x.length = f.dim) :
    (f.recorded frames).step (.record x) = (f.recorded (frames ++ [x]), none) := by
  cases hb : f.bimodal <;> simp [Format.recorded, hb, S.step, Format.blank, hx]

theorem sorted_step (f : Format) (τ : Takes K L) (hs : SMap.Sorted τ) (op : RecOp K L) : SMap.Sorted (τ.step f op).1 := by
  have hch : ∀ k g, SMap.Sorted (Takes.change k g τ) := by
    intro k g
    unfold Takes.change SMap.Sorted
    rw [List.pairwise_map]
    refine List.Pairwise.imp ?_ hs
    intro a b hab
    split <;> split <;> exact hab
  cases op with
  | add k l => exact hs.assign
  | call k op => simp only [Takes.step]; exact hch k _
  | relabel k l => simp only [Takes.step]; exact hch k _
  | remove k => exact hs.erase
  | removeClass l => exact hs.filter _
  | clear => exact SMap.sorted_nil

theorem sorted_run (f : Format) (ops : List (RecOp K L)) (τ : Takes K L) (hs : SMap.Sorted τ) : SMap.Sorted (Takes.run f ops τ).1 := by
  induction ops generalizing τ with
  | nil => exact hs
  | cons op ops ih => exact ih _ (sorted_step f τ hs op)

/-- C102 (recording a take): `addPhrase` and `record` for each frame is an admissible session; it makes take `k` consist of exactly these frames,
    with this label, whatever the take was before, and leaves all the other takes as they are. -/
theorem C102_one_take (f : Format) (τ : Takes K L) (hs : SMap.Sorted τ) (k : Int) (l : L) (frames : List (List K))
    (hf : ∀ x ∈ frames, x.length = f.dim) :
    Takes.Admissible f (oneTake k l frames) τ ∧
      ∃ s : S K, s.frames = frames ∧ (Takes.run f (oneTake k l frames) τ).1 = SMap.assign k (l, s) τ := by
  have key : ∀ (done rest : List (List K)), (∀ x ∈ rest, x.length = f.dim) →
      Takes.Admissible f (rest.map fun x => RecOp.call k (.record x)) (SMap.assign k (l, f.recorded done) τ) ∧
      (Takes.run f (rest.map fun x => RecOp.call k (.record x)) (SMap.assign k (l, f.recorded done) τ)).1 =
        SMap.assign k (l, f.recorded (done ++ rest)) τ := by
    intro done rest
    induction rest generalizing done with
    | nil => intro _; simp [Takes.Admissible, Takes.run]
    | cons x rest ih =>
      intro h
      have hstep : (Takes.step f (SMap.assign k (l, f.recorded done) τ) (.call k (.record x))).1 =
          SMap.assign k (l, f.recorded (done ++ [x])) τ := by
        simp only [Takes.step]
        rw [change_assign k _ _ _ hs, recorded_step f done x (h x List.mem_cons_self)]
      obtain ⟨h1, h2⟩ := ih (done ++ [x]) fun y hy => h y (List.mem_cons_of_mem _ hy)
      simp only [List.map_cons, Takes.Admissible, Takes.run]
      rw [hstep]
      refine ⟨⟨⟨?_, trivial⟩, h1⟩, by rw [h2]; simp⟩
      exact SMap.mem_keys_iff.2 ⟨_, by rw [SMap.find?_assign, if_pos rfl]⟩
  have hb : (f.blank : S K) = f.recorded [] := by cases hb : f.bimodal <;> simp [Format.recorded, hb, Format.blank]
  obtain ⟨h1, h2⟩ := key [] frames hf
  refine ⟨⟨trivial, ?_⟩, f.recorded frames, recorded_frames f frames, ?_⟩
  · simp only [Takes.step, hb]; exact h1
  · simp only [oneTake, Takes.run, Takes.step, hb]
    simpa using h2

/-- several takes in a row -/
def manyTakes : List (Int × L × List (List K)) → List (RecOp K L)
  | [] => []
  | x :: xs => oneTake x.1 x.2.1 x.2.2 ++ manyTakes xs

/-- C102 (any collection of takes can be recorded): the session that records the takes one after the other is admissible, and each
    take holds the frames of the last recording with its number. -/
theorem C102_any_takes (f : Format) (xs : List (Int × L × List (List K))) (hf : ∀ x ∈ xs, ∀ y ∈ x.2.2, y.length = f.dim) :
    Takes.Admissible f (manyTakes xs) [] ∧
      (Takes.run f (manyTakes xs) []).1.map (fun e => (e.1, e.2.1, e.2.2.frames)) = xs.foldl (fun m x => SMap.assign x.1 x.2 m) [] := by
  have hmap : ∀ (k : Int) (e : L × S K) (τ : Takes K L), (SMap.assign k e τ).map (fun e => (e.1, e.2.1, e.2.2.frames)) =
      SMap.assign k (e.1, e.2.frames) (τ.map fun e => (e.1, e.2.1, e.2.2.frames)) := by
    intro k e τ
    induction τ with
    | nil => rfl
    | cons x τ ih =>
      obtain ⟨k', v⟩ := x
      simp only [SMap.assign, List.map_cons]
      split
      · rfl
      · split
        · rfl
        · simp [ih]
  have key : ∀ (τ : Takes K L), SMap.Sorted τ → Takes.Admissible f (manyTakes xs) τ ∧
      (Takes.run f (manyTakes xs) τ).1.map (fun e => (e.1, e.2.1, e.2.2.frames)) =
        xs.foldl (fun m x => SMap.assign x.1 x.2 m) (τ.map fun e => (e.1, e.2.1, e.2.2.frames)) := by
    induction xs with
    | nil => intro τ _; exact ⟨trivial, rfl⟩
    | cons x xs ih =>
      intro τ hs
      obtain ⟨h1, s, h2, h3⟩ := C102_one_take f τ hs x.1 x.2.1 x.2.2 (hf x List.mem_cons_self)
      obtain ⟨h4, h5⟩ := ih (fun y hy => hf y (List.mem_cons_of_mem _ hy)) _ (sorted_run f (oneTake x.1 x.2.1 x.2.2) τ hs)
      refine ⟨admissible_append f _ _ _ h1 h4, ?_⟩
      simp only [manyTakes, run_append, List.foldl_cons]
      rw [h5, h3, hmap, h2]
  exact key [] SMap.sorted_nil

/-- a bimodal session with two classes, a relabelled take, an incomplete take and a refused frame -/
def demoSession : List (RecOp ℚ Nat) :=
  [.add 7 1, .call 7 (.record [1, 2, 3]), .call 7 (.record [4, 5]), .add 3 2, .call 3 (.recordInput [6]), .call 3 (.recordOutput [7, 8]),
    .call 3 (.recordInput [9]), .add 5 1, .call 5 (.record [0, 0, 1]), .relabel 5 2, .add 9 4, .removeClass 4]

def demoFormat : Format := ⟨true, 3, 1⟩

example : demoFormat.Valid := by simp [demoFormat, Format.Valid]

instance (s : S ℚ) : Decidable s.Coherent := by unfold S.Coherent; infer_instance

/-- the hypothesis of `C102_takes` is met by a session with every kind of call, whose takes are not trivial -/
theorem demoSession_ok : Takes.Admissible demoFormat demoSession [] ∧
    (Takes.run demoFormat demoSession []).2 = [none, none, some .invalidArgument, none, none, none, none, none, none, none, none, none] ∧
    ((Takes.run demoFormat demoSession []).1.ofClass 1).frames = [[[1, 2, 3]]] ∧
    ((Takes.run demoFormat demoSession []).1.ofClass 2).frames = [[[6, 7, 8]], [[0, 0, 1]]] ∧
    ((Takes.run demoFormat demoSession []).1.ofClass 4) = [] := by
  refine ⟨?_, by decide +kernel, by decide +kernel, by decide +kernel, ?_⟩
  · refine ⟨trivial, ⟨?_, trivial⟩, ⟨?_, trivial⟩, trivial, ⟨?_, trivial⟩, ⟨?_, trivial⟩, ⟨?_, trivial⟩, trivial, ⟨?_, trivial⟩, ?_, trivial,
      trivial, trivial⟩ <;> first | decide +kernel | (show _ ∈ _; decide +kernel)
  · exact List.length_eq_zero_iff.1 (by decide +kernel)

end Xmm.TS
