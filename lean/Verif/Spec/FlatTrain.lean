import Verif.Spec.HmmTrain
import Verif.Spec.FlatHmm
/- What training a model of several hidden Markov models without hierarchy on a recording session must do. -/
namespace Xmm
open TS

/-- The training of the class `l` alone on its own takes is done, and yields the class `m`. -/
def HierHmm.Done (z : ℝ) (D : Dens ℝ) (log : ℝ → ℝ) (C : Compare ℝ) (P : EmParams) (cancel : String → Nat → Bool) (f : Format) (τ : Takes ℝ String)
    (conf : String → HmmParams ℝ) (window : Nat) (l : String) (m : Hmm ℝ) : Prop :=
  ∃ tr, Hmm.trainedAlone D log C P (cancel l) (Hmm.fresh f window (conf l) z) (Takes.data f τ l) = .ret tr m ∧ tr.status = .done

end Xmm
