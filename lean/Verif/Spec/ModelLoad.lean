import Verif.Model.ModelLoad
/- C91: the programs that load JSON into their models, and what it means that a model is unchanged. -/
namespace Xmm.Copies
variable {M μ : Type} (F : Family M)

/-- The states of a program: it constructs, copies, assigns, trains, uses and destroys models, lets anybody listen to them, and loads JSON into them. -/
inductive Reached : Heard M μ → Prop
  | start : Reached ⟨World.empty, fun _ => []⟩
  | step {s : Heard M μ} {w : World M} (op : Op M) (listeners : Nat → EventGen μ) : Reached s → (step F op s.world).stateAfter = some w → Reached ⟨w, listeners⟩
  | construct {s s' : Heard M μ} (read : ReadModel M) (i : Nat) : Reached s → (construct read i s).stateAfter = some s' → Reached s'
  | load {s s' : Heard M μ} (keep : M → M → M) (read : ReadModel M) (i tmp : Nat) : Reached s → (modelFromJson F keep read i tmp s).stateAfter = some s' → Reached s'
  | loadHier {s s' : Heard M μ} (read : ReadModel M) (i tmp : Nat) : Reached s → (hierFromJson F read i tmp s).stateAfter = some s' → Reached s'

/-- for the model number `j` nothing has changed: its functions see the same members, and the same objects listen to it -/
def Unchanged (s s' : Heard M μ) (j : Nat) : Prop := s'.world.view F j = s.world.view F j ∧ s'.listeners j = s.listeners j

end Xmm.Copies
