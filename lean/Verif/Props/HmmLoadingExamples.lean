import Verif.Props.HmmLoading
/- C86: concrete files for the classes of a hidden Markov model. -/
namespace Xmm

/-- a mixture with one component of dimension 1 -/
def stateFile (gaussians : Int) (coeffs : List (Json ℚ)) : Json ℚ := .obj
  [("label", .str ""), ("mixture_coeffs", .arr coeffs),
   ("parameters", .obj [("gaussians", .int gaussians), ("relative_regularization", .real 1), ("absolute_regularization", .real 1), ("covariance_mode", .int 0)]),
   ("components", .arr (coeffs.map fun _ => .obj [("dimension", .int 1), ("mean", .arr [.real 3]), ("covariance", .arr [.real 1]),
     ("inverse_covariance", .arr [.real 1])]))]

/-- a left-right class that declares `n` states of 1 Gaussian -/
def classFile (n : Int) (trans states : List (Json ℚ)) : Json ℚ := .obj
  [("label", .str "a"), ("transition", .arr trans),
   ("parameters", .obj [("states", .int n), ("gaussians", .int 1), ("relative_regularization", .real 1), ("absolute_regularization", .real 1),
     ("covariance_mode", .int 0), ("transition_mode", .int 1), ("regression_estimator", .int 0), ("hierarchical", .bool true)]),
   ("states", .arr states)]

/-- the class of a file, in a model of dimension 1 -/
def loadClass (root : Json ℚ) : Res Unit (String × Hmm ℚ) := Hmm.ofJson id 0 10 ⟨false, 1, 0, 1⟩ 0 root ()

/-- whether the class that was loaded has this label, number of states, Gaussians and transition, and its states these coefficients -/
def ClassIs (l : String) (n g : Nat) (t : List ℚ) (c : List (List ℚ)) : Res Unit (String × Hmm ℚ) → Bool
  | .ret r _ => decide (r.1 = l) && decide (r.2.n = n) && decide (r.2.gaussians = g) && decide (r.2.trans = t) && decide ((r.2.sts.map fun s => s.coeffs) = c)
  | _ => false

/-- a file that is accepted -/
example : ClassIs "a" 2 1 [1, 0, 1, 0] [[1], [1]]
    (loadClass (classFile 2 [.real 1, .real 0, .int 1, .null] [stateFile 1 [.real 1], stateFile 1 [.real 1]])) = true := by decide +kernel

/-- files that are refused: too few transition probabilities, no states -/
example : (match loadClass (classFile 2 [.real 1] [stateFile 1 [.real 1]]) with | .throw e _ => decide (e = .jsonValueError) | _ => false) = true ∧
    (match loadClass (classFile 0 [] []) with | .throw e _ => decide (e = .domainError) | _ => false) = true := by
  constructor <;> decide +kernel

/-- a file with more states than declared -/
example : (match loadClass (classFile 1 [.real 1, .real 0] [stateFile 1 [.real 1], stateFile 1 [.real 1]]) with | .ub => true | _ => false) = true := by
  decide +kernel

/-- C86 (HMM classes, a defect): the states of the file are compared neither with the declared number of states nor with the declared number of Gaussians: a class
    of two states of one Gaussian is accepted although the file has one state, with two Gaussians.  The missing state has the mixture coefficient 0. -/
theorem C86_hmm_class_states_violated :
    ∃ root m, loadClass root = .ret ("a", m) () ∧ m.n = 2 ∧ m.gaussians = 1 ∧ (m.sts.map fun s => s.coeffs) = [[1, 0], [0]] := by
  refine ⟨classFile 2 [.real 1, .real 0, .real 1, .real 0] [stateFile 2 [.real 1, .real 0]], ?_⟩
  have h : ClassIs "a" 2 1 [1, 0, 1, 0] [[1, 0], [0]] (loadClass (classFile 2 [.real 1, .real 0, .real 1, .real 0] [stateFile 2 [.real 1, .real 0]])) = true := by
    decide +kernel
  generalize loadClass (classFile 2 [.real 1, .real 0, .real 1, .real 0] [stateFile 2 [.real 1, .real 0]]) = r at h
  cases r with
  | ret r s =>
    simp only [ClassIs, Bool.and_eq_true, decide_eq_true_eq] at h
    obtain ⟨⟨⟨⟨h1, h2⟩, h3⟩, _⟩, h5⟩ := h
    obtain ⟨l, m⟩ := r
    subst h1
    exact ⟨m, rfl, h2, h3, h5⟩
  | throw e s => cases h
  | ub => cases h

end Xmm
