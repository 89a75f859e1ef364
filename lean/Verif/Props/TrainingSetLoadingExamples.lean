import Verif.Props.TrainingSetLoading
/- C86 (training sets): defects and concrete cases. -/
namespace Xmm.TS
open Prog (bind_def pure_def get_def set_def modify_def throw_def undef_def)

/-- a file of a training set of dimension 1 with one phrase of one frame of dimension `d`, at the index 3 -/
def fileWith (label : Json ℚ) (d : Nat) (frame : List ℚ) : Json ℚ := .obj
  [("dimension", .int 1), ("column_names", .arr []),
   ("phrases", .arr [.obj [("index", .int 3), ("dimension", .int d), ("column_names", .arr []), ("label", label), ("length", .int 1),
      ("data", .arr (frame.map .real))]])]

/-- what there is at `i`: the index, label and values of the phrases -/
def seenAt (i : Nat) (w : World ℚ String) : Option (List (Int × String × List (Option ℚ))) :=
  (w.sets i).map fun t => t.phrases.map fun e => (e.1, (w.obj e.2).label,
    (List.range (w.obj e.2).ph.length).flatMap fun k => (List.range (w.obj e.2).ph.dimension).map fun d => match Phrase.getValue k d (w.obj e.2).ph with
      | .ret x _ => some x
      | _ => none)

instance : DecidableEq (List (Int × String × List (Option ℚ))) := inferInstance

instance : DecidableEq (Option Exn × Option (List (Int × String × List (Option ℚ)))) := inferInstance

def outcome (i : Nat) (r : Res (World ℚ String) Unit) : Option (Option Exn × Option (List (Int × String × List (Option ℚ)))) :=
  match r with
  | .ret _ w => some (none, seenAt i w)
  | .throw e w => some (some e, seenAt i w)
  | .ub => none

/-- the world with one empty training set at 0 -/
def oneSet : List (Op ℚ String) := [.newSet 0 true false]

theorem oneSet_run : ∃ w, run oneSet World.empty = some (w, [none]) ∧ w.sets 1 = none ∧ (w.sets 0).isSome = true := by
  have h : (run oneSet World.empty).map (fun p => (p.2, (p.1.sets 1).isNone, (p.1.sets 0).isSome)) = some ([none], true, true) := by decide +kernel
  cases hr : run oneSet World.empty with
  | none => rw [hr] at h; cases h
  | some p =>
    rw [hr] at h
    simp only [Option.map_some, Option.some.injEq, Prod.mk.injEq] at h
    exact ⟨p.1, by rw [← h.1], by simpa using h.2.1, h.2.2⟩

/-- C86 (training sets, a defect): the dimensions of the phrases are not compared with those of the training set: a training set of dimension 1 with a phrase of
    dimension 2 is accepted. -/
theorem C86_trainingset_dimensions_violated : ∃ (root : Json ℚ) (w : World ℚ String) (t : TSet String) (r : Nat),
    ofJson 0 root World.empty = .ret () w ∧ w.sets 0 = some t ∧ t.dims.dim = 1 ∧ t.Holds 3 r ∧ (w.obj r).ph.dimension = 2 := by
  have h : (match ofJson 0 (fileWith (.str "a") 2 [5, 7]) World.empty with
      | .ret _ w => (w.sets 0).map fun t => (t.dims.dim, (t.phrases.find? 3).map fun r => (w.obj r).ph.dimension)
      | _ => none) = some (1, some 2) := by decide +kernel
  cases hr : ofJson 0 (fileWith (.str "a") 2 [5, 7]) World.empty with
  | throw e w => rw [hr] at h; cases h
  | ub => rw [hr] at h; cases h
  | ret x w =>
    rw [hr] at h
    simp only at h
    cases ht : w.sets 0 with
    | none => rw [ht] at h; cases h
    | some t =>
      rw [ht] at h
      simp only [Option.map_some, Option.some.injEq, Prod.mk.injEq] at h
      cases hk : SMap.find? 3 t.phrases with
      | none => rw [hk] at h; simp at h
      | some r =>
        rw [hk] at h
        simp only [Option.map_some, Option.some.injEq] at h
        exact ⟨_, w, t, r, hr, ht, h.1, hk, h.2⟩

/-- C86 (training sets, a defect): a file with more column names than dimensions makes the constructor, and so `fromJson`, write outside the vector of names. -/
theorem C86_trainingset_names_ub {K : Type} [Field K] [DecidableEq K] [JsonReal K] (w : World K String) (j i : Nat) (hj : w.sets j = none)
    (names : List String) (hn : 1 < names.length) :
    ofJson j (.obj [("column_names", .arr (names.map .str))] : Json K) w = .ub ∧
    fromJson i (.obj [("column_names", .arr (names.map .str))] : Json K) j w = .ub := by
  have key : ofJson j (.obj [("column_names", .arr (names.map .str))] : Json K) w = .ub := by
    have k1 : ∀ d, (Json.obj [("column_names", .arr (names.map .str))] : Json K).getOr "bimodal" d = .ok d := fun d => by
      simp [Json.getOr, Json.member, List.find?]
    have k2 : ∀ d, (Json.obj [("column_names", .arr (names.map .str))] : Json K).getOr "dimension" d = .ok d := fun d => by
      simp [Json.getOr, Json.member, List.find?]
    have k3 : ∀ d, (Json.obj [("column_names", .arr (names.map .str))] : Json K).getOr "dimension_input" d = .ok d := fun d => by
      simp [Json.getOr, Json.member, List.find?]
    have k4 : (Json.obj [("column_names", .arr (names.map .str))] : Json K).getKey "column_names" = .ok (.arr (names.map .str)) := by
      simp [Json.getKey, Json.member, List.find?]
    have s1 := setDim_bare (K := K) (w.putSet j (some (TSet.blank false))) j (TSet.blank false) (by simp [putSet_sets]) rfl rfl 1 (le_refl _)
    rw [putSet_putSet] at s1
    have s2 := setDi_bare (K := K) (w.putSet j (some { TSet.blank false with dims := { (TSet.blank false).dims with dim := 1, diMax := 1 - 1 }, cols := resizeCols 1 (TSet.blank false).cols })) j _ (by simp [putSet_sets]; rfl) rfl rfl 0 (by simp [TSet.blank])
    rw [putSet_putSet] at s2
    have hread : readJson j (.obj [("column_names", .arr (names.map .str))] : Json K) false (w.putSet j (some (TSet.blank false))) = .ub := by
      unfold readJson
      rw [k2, bind_of_ret (SharedParams.liftE_ok _ _), show (Json.int (if false then 2 else 1) : Json K).asInt = .ok 1 from rfl,
        bind_of_ret (SharedParams.liftE_ok _ _), show uint 1 = 1 from rfl, bind_of_ret (a := ()) s1,
        k3, bind_of_ret (SharedParams.liftE_ok _ _), show (Json.int (if false then 1 else 0) : Json K).asInt = .ok 0 from rfl,
        bind_of_ret (SharedParams.liftE_ok _ _), show uint 0 = 0 from rfl, bind_of_ret (a := ()) s2]
      have hg : ∀ t : TSet String, getSet j (w.putSet j (some t)) = .ret t (w.putSet j (some t)) := fun t => by simp [getSet, putSet_sets]
      rw [bind_of_ret (hg _), k4, bind_of_ret (SharedParams.liftE_ok _ _)]
      exact bind_of_ub (Phrase.readNames_ub names _ _ 0 _ (by simp [Json.size]) (Nat.zero_le _) (by simpa using hn))
    unfold ofJson
    simp only [bind_def, get_def, hj, k1, liftE, pure_def, Json.asBool]
    have hb : ∀ f : Unit → World K String → Res (World K String) Unit,
        (Prog.set (w.putSet j (some (TSet.blank false))) >>= f : Prog (World K String) Unit) w = f () (w.putSet j (some (TSet.blank false))) :=
      fun f => bind_of_ret (f := f) rfl
    rw [hb, hread]
  exact ⟨key, by rw [fromJson_eq, key]⟩

/-- what `fromJson` into an empty training set answers, and what it then holds -/
def loadInto (root : Json ℚ) : Option (Option Exn × Option (List (Int × String × List (Option ℚ)))) :=
  match run oneSet World.empty with
  | some (w, _) => outcome 0 (fromJson 0 root 1 w)
  | none => none

/-- an accepted file -/
example : loadInto (fileWith (.str "a") 1 [5]) = some (none, some [(3, "a", [some 5])]) := by decide +kernel

/-- a refused one: the label is not a string -/
example : loadInto (fileWith (.arr []) 1 [5]) = some (some .jsonLogicError, some []) := by decide +kernel

/-- a refused one: too few numbers -/
example : loadInto (fileWith (.str "a") 2 [5]) = some (some .jsonValueError, some []) := by decide +kernel

end Xmm.TS
