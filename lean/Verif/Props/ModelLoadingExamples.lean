import Verif.Props.ModelLoading
import Verif.Props.HmmLoadingExamples
/- C86: concrete files of configurations and models. -/
namespace Xmm

/-- the parameters of a GMM class, in a file -/
def gmmParamsFile (gaussians : Int) : Json ℚ := .obj
  [("gaussians", .int gaussians), ("relative_regularization", .real 1), ("absolute_regularization", .real 1), ("covariance_mode", .int 0)]

/-- a configuration -/
def configFile (mode estimator : Int) (p : Json ℚ) (classes : List (String × Json ℚ)) : Json ℚ := .obj
  [("multithreading", .int mode), ("multiClass_regression_estimator", .int estimator), ("default_parameters", p), ("class_parameters", .obj classes)]

/-- the values of a configuration that was loaded -/
def configSeen (c : Configuration (GmmAttrs ℚ)) : Int × Int × Nat × List (String × Nat) :=
  (c.multithreading, c.estimator, c.base.gaussians.value, c.classParams.map fun lp => (lp.1, lp.2.gaussians.value))

/-- `fromJson` of the configuration of a GMM -/
def loadConfig (root : Json ℚ) : Prog (Configuration (GmmAttrs ℚ)) Unit :=
  Configuration.fromJson (GmmAttrs.type 0 10) 0 (fun _ => 1) (fun i => GmmAttrs.fromJson i id (i + 1) 0 10) 2 (fun _ => 3) root

/-- a number that `asInt` reads -/
def IsInt32 (z : Int) : Prop := -2147483648 ≤ z ∧ z ≤ 2147483647

theorem asInt_int {z : Int} (h : IsInt32 z) : (Json.int z : Json ℚ).asInt = .ok z := by
  exact if_pos h

/-- C86 (configurations, a defect): a file whose number of multithreading mode or of regression estimator is none of the modes is accepted, and the configuration has this number, whatever it is.
    For what training then does, see `C53_unknown_mode_violated`. -/
theorem C86_configuration_modes_violated (mode estimator : Int) (h1 : IsInt32 mode) (h2 : IsInt32 estimator) (c : Configuration (GmmAttrs ℚ)) :
    ∃ root c', loadConfig root c = .ret () c' ∧ c'.multithreading = mode ∧ c'.estimator = estimator := by
  refine ⟨configFile mode estimator (gmmParamsFile 3) [], ?_⟩
  have h3 : ∃ q, Configuration.editDefault (GmmAttrs.fromJson 2 id 3 0 10 (gmmParamsFile 3)) (Configuration.fresh (GmmAttrs.type (0 : ℚ) 10) 2) = .ret () q :=
    ⟨_, by with_unfolding_all rfl⟩
  obtain ⟨q, hq⟩ := h3
  have e1 : (configFile mode estimator (gmmParamsFile 3) []).getKey "default_parameters" = .ok (gmmParamsFile 3) := rfl
  have e2 : (configFile mode estimator (gmmParamsFile 3) []).getOr "multithreading" (.int 0) = .ok (.int mode) := rfl
  have e3 : (configFile mode estimator (gmmParamsFile 3) []).getOr "multiClass_regression_estimator" (.int 0) = .ok (.int estimator) := rfl
  have e4 : (configFile mode estimator (gmmParamsFile 3) []).getKey "class_parameters" = .ok (.obj []) := rfl
  have key : Configuration.readJson (GmmAttrs.type 0 10) 2 (fun _ => 3) (fun i => GmmAttrs.fromJson i id (i + 1) 0 10) (configFile mode estimator (gmmParamsFile 3) [])
      (Configuration.fresh (GmmAttrs.type (0 : ℚ) 10) 2) = .ret () { q with multithreading := mode, estimator := estimator, classParams := [] } := by
    unfold Configuration.readJson
    rw [e1, e2, e3, e4]
    simp only [Prog.bind_def, liftE, hq, asInt_int h1, asInt_int h2, Prog.modify_def, Configuration.memberNames, List.map_nil, Configuration.readClasses, Prog.pure_def]
  have h4 : loadConfig (configFile mode estimator (gmmParamsFile 3) []) c =
      .ret () (Configuration.assignFrom (GmmAttrs.type 0 10) 0 (fun _ => 1) { q with multithreading := mode, estimator := estimator, classParams := [] } c) := by
    unfold loadConfig Configuration.fromJson
    rw [key]
  exact ⟨_, h4, rfl, rfl⟩

/-- a configuration that is accepted, with parameters for two classes -/
example : (match loadConfig (configFile 2 1 (gmmParamsFile 3) [("a", gmmParamsFile 4), ("b", gmmParamsFile 5)]) (Configuration.fresh (GmmAttrs.type 0 10) 0) with
    | .ret _ c => decide (configSeen c = (2, 1, 3, [("a", 4), ("b", 5)])) | _ => false) = true := by decide +kernel

/-- a configuration that is refused: a class without Gaussians -/
example : (match loadConfig (configFile 2 1 (gmmParamsFile 3) [("a", gmmParamsFile 0)]) (Configuration.fresh (GmmAttrs.type 0 10) 0) with
    | .throw e _ => decide (e = .domainError) | _ => false) = true := by decide +kernel

/-! ### Models -/

/-- a GMM class -/
def gmmClassFile (label : String) (coeff : ℚ) : Json ℚ := .obj
  [("label", .str label), ("mixture_coeffs", .arr [.real coeff]), ("parameters", gmmParamsFile 1),
   ("components", .arr [.obj [("dimension", .int 1), ("mean", .arr [.real 3]), ("covariance", .arr [.real 1]), ("inverse_covariance", .arr [.real 1])]])]

/-- a GMM -/
def gmmFile (models : List (Json ℚ)) : Json ℚ := .obj
  [("shared_parameters", .obj []), ("configuration", configFile 0 0 (gmmParamsFile 3) []), ("models", .arr models)]

/-- the construction of a GMM -/
def loadGmm (root : Json ℚ) : Res (GmmBody ℚ) Unit := GmmBody.ofJson (fun _ => true) ⟨0, 1, 2, fun _ => 3, 4, fun _ => 5⟩ id 0 10 0 root

/-- a file that is accepted: the first of two classes with the same label is taken -/
example : (match loadGmm (gmmFile [gmmClassFile "b" 1, gmmClassFile "a" (1 / 2), gmmClassFile "b" 0]) with
    | .ret _ B => decide ((B.models.map fun lc => (lc.1, lc.2.coeffs)) = [("a", [1 / 2]), ("b", [1])]) | _ => false) = true := by decide +kernel

/-- a file that is refused: the class has no label that reads as a text -/
example : (match loadGmm (gmmFile [.obj [("label", .arr [])]]) with | .throw e _ => decide (e = .jsonLogicError) | _ => false) = true := by decide +kernel

/-- a class with the given components -/
def componentsFile (n : Nat) (comps : List (Json ℚ)) : Json ℚ := .obj
  [("label", .str "a"), ("mixture_coeffs", .arr (List.replicate n (.real (1 / 2)))), ("parameters", gmmParamsFile n), ("components", .arr comps)]

/-- a component whose inverse in the file need not be that of its covariance -/
def componentFile (mean cov inv : ℚ) : Json ℚ :=
  .obj [("dimension", .int 1), ("covariance_mode", .int 0), ("mean", .arr [.real mean]), ("covariance", .arr [.real cov]), ("inverse_covariance", .arr [.real inv])]

/-- the construction of a class -/
def loadGmmClass (root : Json ℚ) : Res Unit (String × Gmm ℚ) := Gmm.ofJson id 0 10 ⟨false, 1, 0, 1⟩ 0 root ()

/-- two components are accepted, a wrong inverse of the file is replaced -/
example : (match loadGmmClass (componentsFile 2 [componentFile 3 4 7, componentFile 5 2 (1 / 2)]) with
    | .ret (_, m) _ => decide ((m.comps.map fun g => (g.mean, g.cov, g.inv)) = [([3], [4], [1 / 4]), ([5], [2], [1 / 2])]) | _ => false) = true := by decide +kernel

/-- with a component less than declared the file is refused -/
example : (match loadGmmClass (componentsFile 2 [componentFile 3 4 7]) with | .throw e _ => decide (e = .runtimeError) | _ => false) = true := by decide +kernel

/-- a hierarchical HMM -/
def hmmFile (models prior exit trans : List (Json ℚ)) : Json ℚ := .obj
  [("shared_parameters", .obj []),
   ("configuration", configFile 0 0 (.obj [("states", .int 2), ("gaussians", .int 1), ("relative_regularization", .real 1), ("absolute_regularization", .real 1),
     ("covariance_mode", .int 0), ("transition_mode", .int 1), ("regression_estimator", .int 0), ("hierarchical", .bool true)]) []),
   ("models", .arr models), ("prior", .arr prior), ("exit_transition", .arr exit), ("transition", .arr trans)]

/-- the construction of a hierarchical HMM -/
def loadHmm (root : Json ℚ) : Res (ModelBody ℚ (HmmAttrs ℚ) (Hmm ℚ)) (HierBody ℚ) :=
  HierBody.ofJson (fun _ => true) ⟨0, 1, 2, fun _ => 3, 4, fun _ => 5⟩ id 0 10 0 root

/-- the HMM class "a" -/
def hmmClassFile : Json ℚ := classFile 1 [.real 1, .real 0] [stateFile 1 [.real 1]]

/-- a file that is accepted -/
example : (match loadHmm (hmmFile [hmmClassFile] [.real 1] [.real (1 / 10)] [.arr [.real (1 / 2)]]) with
    | .ret M _ => decide ((M.body.models.map Prod.fst) = ["a"] ∧ M.prior = [1] ∧ M.exitTrans = [1 / 10] ∧ M.trans = [[1 / 2]]) | _ => false) = true := by decide +kernel

/-- a file that is refused: two priors for one label -/
example : (match loadHmm (hmmFile [hmmClassFile, hmmClassFile] [.real (1 / 2), .real (1 / 2)] [.real 1, .real 1] [.arr [.real 1, .real 1], .arr [.real 1, .real 1]]) with
    | .throw e _ => decide (e = .jsonValueError) | _ => false) = true := by decide +kernel

end Xmm
