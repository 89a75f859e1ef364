import Verif.Props.SequentialRefusals
/- C104, C105, C107: training with a set that has no takes. -/
namespace Xmm
open TS

theorem no_phrases {f : Format} {i : Nat} {w : World ℝ String} {t : TSet String} {τ : Takes ℝ String} (h : Sim f i w t τ) (he : τ = []) : t.phrases = [] := by
  have hz := h.items
  unfold SMap.Zip at hz
  rw [he] at hz
  exact List.forall₂_nil_right_iff.1 hz

section session
variable (f : Format) (hv : f.Valid) (i : Nat) (w0 : World ℝ String) (h0 : w0.sets i = none) (ops : List (RecOp ℝ String)) (ha : Takes.Admissible f ops [])
  (he : (Takes.run f ops []).1 = [])
include hv h0 ha he

/-- C104, no takes: for every recording session that leaves no take, training a mixture model changes nothing: the classes of an earlier training remain and a recognition goes on. -/
theorem GmmModel.C104_no_takes (S : GmmSettings ℝ) (D : Dens ℝ) (log : ℝ → ℝ) (C : Compare ℝ) (cancel : String → Nat → Bool) (M : GmmModel ℝ) :
    recordAndTrain S D log Real.sqrt C cancel f i ops w0 M = .ret () M := by
  obtain ⟨w, t, h1, -, -, h4, -⟩ := recordThen_sim f hv i w0 h0 ops ha
  rw [h4, GmmModel.train, if_pos (by simp [no_phrases h1 he])]
  rfl

/-- C105, no takes: the same for hidden Markov models, in a hierarchy or not. -/
theorem HierHmm.C105_no_takes (z : ℝ) (D : Dens ℝ) (log : ℝ → ℝ) (C : Compare ℝ) (P : EmParams) (cancel : String → Nat → Bool) (M : HierHmm ℝ) :
    recordAndTrainHmm z D log C P cancel f i ops w0 M = .ret () M := by
  obtain ⟨w, t, h1, -, -, -, h5⟩ := recordThen_sim f hv i w0 h0 ops ha
  rw [h5, HierHmm.trainSet, if_pos (by simp [no_phrases h1 he])]
  rfl

/-- C107, no takes: in the mode Sequential training a mixture model changes nothing either; no call of `reset()` is needed. -/
theorem GmmModel.C107_gmm_no_takes (S : GmmSettings ℝ) (D : Dens ℝ) (log : ℝ → ℝ) (C : Compare ℝ) (cancel : String → Nat → Bool) (M : GmmModel ℝ) :
    recordAndTrainSequential S D log C cancel f i ops w0 M = .ret () M := by
  obtain ⟨w, t, h1, -, h3, -⟩ := recordThen_sim f hv i w0 h0 ops ha
  rw [recordAndTrainSequential, h3, GmmModel.trainSequential, if_pos (by simp [no_phrases h1 he])]
  rfl

/-- C107, no takes: the same for hidden Markov models. -/
theorem HierHmm.C107_hmm_no_takes (z : ℝ) (D : Dens ℝ) (log : ℝ → ℝ) (C : Compare ℝ) (P : EmParams) (cancel : String → Nat → Bool) (M : HierHmm ℝ) :
    recordAndTrainHmmSequential z D log C P cancel f i ops w0 M = .ret () M := by
  obtain ⟨w, t, h1, -, h3, -⟩ := recordThen_sim f hv i w0 h0 ops ha
  rw [recordAndTrainHmmSequential, h3, HierHmm.trainSequential, if_pos (by simp [no_phrases h1 he])]
  rfl

end session

/-- the hypotheses of the four theorems above are met by a session that records three takes of two classes and then clears the training set -/
theorem no_takes_example : sessionFormat.Valid ∧ Takes.Admissible sessionFormat (HierHmm.frameSession ++ [.clear]) [] ∧ (Takes.run sessionFormat HierHmm.frameSession []).1 ≠ [] ∧
    (Takes.run sessionFormat (HierHmm.frameSession ++ [.clear]) []).1 = [] := by
  obtain ⟨-, -, -, a4, a5, -⟩ := HierHmm.flat_session_example
  obtain ⟨e, he, -⟩ := HierHmm.sequential_example.2.2.2.2.2.2.2.2.2.2 0 0 0
  refine ⟨a4, admissible_append _ _ _ _ a5 ⟨trivial, trivial⟩, List.ne_nil_of_mem he, ?_⟩
  rw [run_append]
  rfl

end Xmm
