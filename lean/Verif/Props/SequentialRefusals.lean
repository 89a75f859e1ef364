import Verif.Props.SequentialClass
/- C108, C109: what `train(set, label)` refuses in the multithreading mode Sequential. -/
namespace Xmm
open TS
open Prog (bind_def get_def)

namespace GmmModel

section session
variable (f : Format) (hv : f.Valid) (i : Nat) (w0 : World ℝ String) (h0 : w0.sets i = none) (ops : List (RecOp ℝ String)) (ha : Takes.Admissible f ops [])
  (S : GmmSettings ℝ) (D : Dens ℝ) (log : ℝ → ℝ) (M : GmmModel ℝ)
include hv h0 ha

/-- C108, mode Sequential: `train(set, label)` for a label that the training set does not have raises `out_of_range` and changes nothing. -/
theorem C108_sequential_unknown_label (C : Compare ℝ) (cancel : Nat → Bool) (label : String) (hl : ∀ e ∈ (Takes.run f ops []).1, e.2.1 ≠ label) :
    recordAndTrainClassSequential S D log C cancel f i ops w0 label M = .throw .outOfRange M := by
  obtain ⟨w, t, h1, h2, h3, -⟩ := recordThen_sim f hv i w0 h0 ops ha
  unfold recordAndTrainClassSequential
  rw [h3]
  unfold trainLabelSequential
  rw [if_pos (fun h => ?_)]
  · rfl
  · obtain ⟨e, he, h⟩ := (labels_of_sim h1 h2 hv label).1 h
    exact hl e he h

/-- C108, mode Sequential: `train(set, label)` for a training set whose dimensions are not those of the classes of the model raises `runtime_error` and changes nothing. -/
theorem C108_sequential_other_dimensions (C : Compare ℝ) (cancel : Nat → Bool) (label : String) (hl : ∃ e ∈ (Takes.run f ops []).1, e.2.1 = label) (g : Format) (window : Nat)
    (hM : M.Holds g window) (hne : M.models ≠ []) (hd : g.dim ≠ f.dim ∨ g.bimodal = true ∧ g.di ≠ f.di) :
    recordAndTrainClassSequential S D log C cancel f i ops w0 label M = .throw .runtimeError M := by
  obtain ⟨w, t, h1, h2, h3, -⟩ := recordThen_sim f hv i w0 h0 ops ha
  unfold recordAndTrainClassSequential
  rw [h3]
  unfold trainLabelSequential
  rw [if_neg (not_not.2 ((labels_of_sim h1 h2 hv label).2 hl)), bind_def, get_def]
  dsimp only
  rw [if_pos]
  · rfl
  · unfold otherDimensions
    obtain ⟨lc, ms, hm⟩ := List.exists_cons_of_ne_nil hne
    obtain ⟨-, -, h3, h4, -⟩ := hM.cls lc (by rw [hm]; exact List.mem_cons_self)
    simp only [hm, h1.dim, h1.di, h3, h4, hM.bimodal]
    rcases hd with hd | ⟨hb, hd⟩
    · simp [hd]
    · simp [hb, hd]

end session

/-- the hypotheses of `C108_sequential_other_dimensions` are met (those of `C108_sequential_unknown_label` by any session and any label it does not use) -/
theorem refusals_example (S : GmmSettings ℝ) (D : Dens ℝ) (log : ℝ → ℝ) (C : Compare ℝ) (cancel : Nat → Bool) : ∃ (f : Format) (ops : List (RecOp ℝ String)) (M : GmmModel ℝ), M.models ≠ [] ∧
    recordAndTrainClassSequential S D log C cancel f 0 ops emptyWorld "c" M = .throw .runtimeError M := by
  obtain ⟨f, g, ops, M, h1, h2, h3, h4, h5, h6⟩ := other_dimensions_example
  exact ⟨f, ops, M, h5, C108_sequential_other_dimensions f h1 0 emptyWorld rfl ops h2 S D log M C cancel "c" h3 g 3 h4 h5 h6⟩

end GmmModel

namespace HierHmm

section session
variable (f : Format) (hv : f.Valid) (i : Nat) (w0 : World ℝ String) (h0 : w0.sets i = none) (ops : List (RecOp ℝ String)) (ha : Takes.Admissible f ops [])
  (z : ℝ) (D : Dens ℝ) (log : ℝ → ℝ) (P : EmParams) (M : HierHmm ℝ)
include hv h0 ha

/-- C109, mode Sequential: `train(set, label)` for a label that the training set does not have raises `out_of_range` and changes nothing. -/
theorem C109_sequential_unknown_label (C : Compare ℝ) (cancel : Nat → Bool) (label : String) (hl : ∀ e ∈ (Takes.run f ops []).1, e.2.1 ≠ label) :
    recordAndTrainHmmClassSequential z D log C P cancel f i ops w0 label M = .throw .outOfRange M := by
  obtain ⟨w, t, h1, h2, h3, -⟩ := recordThen_sim f hv i w0 h0 ops ha
  unfold recordAndTrainHmmClassSequential
  rw [h3]
  unfold trainLabelSequential
  rw [if_pos (fun h => ?_)]
  · rfl
  · obtain ⟨e, he, h⟩ := (GmmModel.labels_of_sim h1 h2 hv label).1 h
    exact hl e he h

/-- C109, mode Sequential: `train(set, label)` for a training set whose dimensions are not those of the classes of the model raises `runtime_error` and changes nothing. -/
theorem C109_sequential_other_dimensions (C : Compare ℝ) (cancel : Nat → Bool) (label : String) (hl : ∃ e ∈ (Takes.run f ops []).1, e.2.1 = label) (g : Format)
    (hM : M.Holds g) (hne : M.models ≠ []) (hd : g.dim ≠ f.dim ∨ g.bimodal = true ∧ g.di ≠ f.di) :
    recordAndTrainHmmClassSequential z D log C P cancel f i ops w0 label M = .throw .runtimeError M := by
  obtain ⟨w, t, h1, h2, h3, -⟩ := recordThen_sim f hv i w0 h0 ops ha
  unfold recordAndTrainHmmClassSequential
  rw [h3]
  unfold trainLabelSequential
  rw [if_neg (not_not.2 ((GmmModel.labels_of_sim h1 h2 hv label).2 hl)), bind_def, get_def]
  dsimp only
  rw [if_pos]
  · rfl
  · unfold otherDimensions
    obtain ⟨lc, ms, hm⟩ := List.exists_cons_of_ne_nil hne
    obtain ⟨-, -, h3, h4, -⟩ := hM.cls lc (by rw [hm]; exact List.mem_cons_self)
    simp only [hm, h1.dim, h1.di, h3, h4, hM.bimodal]
    rcases hd with hd | ⟨hb, hd⟩
    · simp [hd]
    · simp [hb, hd]

end session

/-- the hypotheses of `C109_sequential_other_dimensions` are met (those of `C109_sequential_unknown_label` by any session and any label it does not use) -/
theorem refusals_example (z : ℝ) (D : Dens ℝ) (log : ℝ → ℝ) (C : Compare ℝ) (P : EmParams) (cancel : Nat → Bool) : ∃ (f : Format) (ops : List (RecOp ℝ String)) (M : HierHmm ℝ),
    M.models ≠ [] ∧ recordAndTrainHmmClassSequential z D log C P cancel f 0 ops emptyWorld "c" M = .throw .runtimeError M := by
  obtain ⟨f, g, ops, M, h1, h2, h3, h4, h5, h6⟩ := other_dimensions_example
  exact ⟨f, ops, M, h5, C109_sequential_other_dimensions f h1 0 emptyWorld rfl ops h2 z D log P M C cancel "c" h3 g h4 h5 h6⟩

end HierHmm
end Xmm
