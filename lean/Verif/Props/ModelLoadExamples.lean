import Verif.Props.ModelLoad
import Verif.Props.LoadedFilterExamples
/- C91: the hypotheses are met by concrete programs. -/
namespace Xmm
namespace ModelJsonExamples
open Copies Copies.World

/-- a `GMM` without class that has reported the class "old" -/
def idleGmm : GmmModel ℚ := ⟨[], [], false, 1, .full, .likeliest, false, { MultiRes.empty with likeliest := "old" }⟩

/-- a `HierarchicalHMM` without class -/
def idleHmm : HierHmm ℚ := ⟨[], [], [], [], [], [], [], false, false, fun _ => ⟨1, 1, false, .full, 0, 0, .full⟩, true, .full, .likeliest, false, 1, 0, 1, MultiRes.empty⟩

/-- a program: one model, number 0, to which the object number 7 listens -/
def program {M : Type} (m : M) : Heard M Unit := ⟨(World.empty.allocShared ⟨false, 1, 0, 1⟩).put 0 (some ⟨0, fun _ => 0, m⟩), fun j => if j = 0 then [(7, ())] else []⟩

theorem program_reached {M : Type} (F : Family M) (m : M) : Reached F (program m) :=
  .step (.create 0 ⟨false, 1, 0, 1⟩ m) _ .start rfl

/-- The hypotheses of `C91_gmm_loaded`, `C91_gmm_results_violated`, `C91_gmm_recognises_partial` and `C91_gmm_params_violated` are met: the JSON of a model with two classes is loaded into a model to which
    an object listens; the object still listens afterwards. -/
example (ids : JsonIds) : ∃ (B B' : GmmBody ℚ) (root : Json ℚ) (s' : Heard (GmmModel ℚ) Unit), GmmBody.toJson B = .ret root B ∧ B'.models.length = 2 ∧
    Reached (gmmFamily 0) (program idleGmm) ∧ (program idleGmm).world.view (gmmFamily 0) 0 = some idleGmm ∧ idleGmm.training = false ∧ (program idleGmm).world.obj 1 = none ∧
    GmmBody.ofJson (fun _ => true) ids id (1 / 1000) 1000 0 root = .ret () B' ∧ (∀ lc ∈ B'.models, lc.1 ≠ idleGmm.results.likeliest) ∧
    gmmFromJson (fun _ => true) ids id (1 / 1000) 1000 0 root 0 1 (program idleGmm) = .ret () s' ∧ s'.listeners 0 = [(7, ())] := by
  obtain ⟨B, c, h1, h2, h3, h4, h5, h6⟩ := gmm_saved
  obtain ⟨root, B', b1, b2, b3, b4, b5⟩ := gmm_loads (alive := fun _ => true) ids 0 (by constructor <;> norm_num) (by constructor <;> norm_num) B c h1 h2 h3 h4
  obtain ⟨s1, s', C, _, _, g1, _, g2, _⟩ := C91_gmm_loaded (alive := fun _ => true) (nar := id) (tiny := 1 / 1000) (realMax := 1000) ids 0 root 0 1 1 (program idleGmm) (program_reached _ _) idleGmm rfl rfl rfl rfl B' b2
  have hl : B'.models.map Prod.fst = ["a", "b"] := by rw [b5, List.map_map, ← h5]; rfl
  refine ⟨B, B', root, s', b1, by simpa using congrArg List.length hl, program_reached _ _, rfl, rfl, rfl, b2, fun lc hlc => ?_, g1, g2⟩
  have := List.mem_map_of_mem (f := Prod.fst) hlc
  rw [hl] at this
  intro e
  rw [e] at this
  exact absurd this (by decide +kernel)

/-- The hypotheses of `C91_hierarchical_loaded_partial`, `C91_hierarchical_recognises_partial`, `C91_hierarchical_listeners_violated` and `C91_hierarchical_params_violated` are met: the JSON of a model with
    two classes is loaded into a model to which an object listens; it does not listen afterwards. -/
example (ids : JsonIds) : ∃ (B B' : HierBody ℚ) (B0 : ModelBody ℚ (HmmAttrs ℚ) (Hmm ℚ)) (root : Json ℚ) (s' : Heard (HierHmm ℚ) Unit), HierBody.toJson true B = .ret root B ∧
    B'.body.models.length = 2 ∧ Reached (hmmFamily 0) (program idleHmm) ∧ (program idleHmm).world.view (hmmFamily 0) 0 = some idleHmm ∧ idleHmm.training = false ∧
    (program idleHmm).world.obj 1 = none ∧ HierBody.ofJson (fun _ => true) ids id (1 / 1000) 1000 0 root = .ret B' B0 ∧
    hmmFromJson (fun _ => true) ids id (1 / 1000) 1000 0 root 0 1 (program idleHmm) = .ret () s' ∧ (program idleHmm).listeners 0 = [(7, ())] ∧ s'.listeners 0 = [] := by
  obtain ⟨B, c, h1, h2, h4, hM, h5, h6⟩ := hmm_saved
  obtain ⟨root, B', B0, b1, b2, b3, b4, ⟨a, b5⟩, _⟩ := hmm_loads (alive := fun _ => true) ids 0 (by constructor <;> norm_num) (by constructor <;> norm_num) true B c h1 h2 hM.sorted h4 hM.idle
    hM.top.prior hM.top.trans hM.top.row hM.top.exitTrans
  obtain ⟨s1, s', C, _, _, g1, _⟩ := C91_hierarchical_loaded_partial (alive := fun _ => true) (nar := id) (tiny := 1 / 1000) (realMax := 1000) ids 0 root 0 1 1 (program idleHmm) (program_reached _ _)
    idleHmm rfl rfl rfl rfl B' B0 b2
  have hl : B'.body.models.map Prod.fst = ["a", "b"] := by rw [b5, List.map_map, ← h5]; rfl
  exact ⟨B, B', B0, root, s', b1, by simpa using congrArg List.length hl, program_reached _ _, rfl, rfl, rfl, b2, g1, rfl, (loadHier_pointers g1).2⟩

/-- The hypotheses of `C91_gmm_unchanged` and of `C91_hierarchical_unchanged` are met: a document that is not an object is rejected. -/
example (ids : JsonIds) : (∃ e s', gmmFromJson (fun _ => true) ids id (1 / 1000) 1000 (0 : ℚ) (.str "x") 0 1 (program idleGmm) = .throw e s') ∧
    ∃ e s', hmmFromJson (fun _ => true) ids id (1 / 1000) 1000 (0 : ℚ) (.str "x") 0 1 (program idleHmm) = .throw e s' := ⟨⟨_, _, rfl⟩, ⟨_, _, rfl⟩⟩

end ModelJsonExamples
end Xmm
