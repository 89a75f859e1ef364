import Verif.Props.ModelJsonExamples
/- C54: `toJson` of a model in training. -/
namespace Xmm
open Prog (bind_def get_def pure_def throw_def)

theorem mapM_throws {σ α β : Type} (f : α → Prog σ β) (e : Exn) (s : σ) (l : List α) (h : ∀ a ∈ l, (∃ b, f a s = .ret b s) ∨ f a s = .throw e s) (hex : ∃ a ∈ l, f a s = .throw e s) :
    (l.mapM f) s = .throw e s := by
  have key : ∀ (l : List α) (acc : List β), (∀ a ∈ l, (∃ b, f a s = .ret b s) ∨ f a s = .throw e s) → (∃ a ∈ l, f a s = .throw e s) → List.mapM.loop f l acc s = .throw e s := by
    intro l
    induction l with
    | nil => intro _ _ h; obtain ⟨a, h, -⟩ := h; cases h
    | cons a l ih =>
      intro acc h hex
      rw [List.mapM.loop, bind_def]
      rcases h a List.mem_cons_self with ⟨b, hb⟩ | hb
      · rw [hb]
        simp only
        obtain ⟨c, hc, hc'⟩ := hex
        rcases List.mem_cons.1 hc with rfl | hc
        · rw [hb] at hc'; cases hc'
        · exact ih _ (fun a ha => h a (List.mem_cons_of_mem _ ha)) ⟨c, hc, hc'⟩
      · rw [hb]
  exact key l [] h hex

section
variable {K : Type} [Field K] [LinearOrder K] [JsonReal K]

/-- **C54** `toJson` of a hierarchical HMM in training throws runtime_error and changes nothing. -/
theorem C54_hmm_json (h : Bool) (M : HierBody K) (ht : M.training = true) : HierBody.toJson h M = .throw .runtimeError M := by
  simp [HierBody.toJson, bind_def, get_def, ht, throw_def]

/-- **C54** `toJson` of a class in training (of either kind of model) throws runtime_error and changes nothing. -/
theorem C54_class_json (label : String) : (∀ c : Gmm K, c.training = true → Gmm.toJson label c = .throw .runtimeError c) ∧
    (∀ (h : Bool) (c : Hmm K), c.training = true → Hmm.toJson h label c = .throw .runtimeError c) := by
  refine ⟨fun c hc => ?_, fun h c hc => ?_⟩
  · simp [Gmm.toJson, Gmm.checkTraining, bind_def, get_def, hc, throw_def]
  · simp [Hmm.toJson, Hmm.checkTraining, bind_def, get_def, hc, throw_def]

/-- **C54** `toJson` of a GMM throws runtime_error and changes nothing while any of its classes is being trained.  The other classes may have finished (they have all their components) or be in
    training too.  `GMM::toJson` does not look at the flag of the model: it is the class in training that throws. -/
theorem C54_gmm_json (M : GmmBody K) (hs : M.shared.columnNames.size = M.shared.columnNames.value.length)
    (hc : ∀ lc ∈ M.models, lc.2.training = false → lc.2.comps.length = lc.2.gaussians) (ht : ∃ lc ∈ M.models, lc.2.training = true) : GmmBody.toJson M = .throw .runtimeError M := by
  unfold GmmBody.toJson ModelBody.toJson
  rw [bind_of_ret (get_def M), bind_of_ret (apart_of_ret (SharedParams.toJson_eq hs) M)]
  have hthrow : ∀ lc ∈ M.models, lc.2.training = true → (Prog.apart (Gmm.toJson lc.1) lc.2 : Prog (GmmBody K) (Json K)) M = .throw .runtimeError M := by
    intro lc _ h
    unfold Prog.apart
    rw [(C54_class_json lc.1).1 lc.2 h]
  have hm : (M.models.mapM fun lc => (Prog.apart (Gmm.toJson lc.1) lc.2 : Prog (GmmBody K) (Json K))) M = .throw .runtimeError M := by
    refine mapM_throws _ .runtimeError M M.models (fun lc hlc => ?_) ?_
    · cases h : lc.2.training with
      | true => exact Or.inr (hthrow lc hlc h)
      | false => exact Or.inl ⟨_, apart_of_ret (Gmm.toJson_eq lc.2 lc.1 h (hc lc hlc h)) M⟩
    · obtain ⟨lc, h1, h2⟩ := ht
      exact ⟨lc, h1, hthrow lc h1 h2⟩
  rw [bind_def, hm]

end

/-- Non-vacuity: of two classes, the second is being trained; the first has been trained. -/
example : ∃ M : GmmBody ℚ, M.shared.columnNames.size = M.shared.columnNames.value.length ∧ (∀ lc ∈ M.models, lc.2.training = false → lc.2.comps.length = lc.2.gaussians) ∧
    (∃ lc ∈ M.models, lc.2.training = true) ∧ (∃ lc ∈ M.models, lc.2.training = false) ∧ GmmBody.toJson M = .throw .runtimeError M := by
  have h1 : (SharedParams.fresh 0 1000 : SharedParams ℚ).columnNames.size = (SharedParams.fresh 0 1000 : SharedParams ℚ).columnNames.value.length := rfl
  let M : GmmBody ℚ := ⟨SharedParams.fresh 0 1000, Configuration.fresh (GmmAttrs.type (1 / 1000) 1000) 0, [("a", ModelJsonExamples.gmm ModelJsonExamples.gauss), ("b", { ModelJsonExamples.gmm ModelJsonExamples.gauss with training := true, comps := [] })]⟩
  have h2 : ∀ lc ∈ M.models, lc.2.training = false → lc.2.comps.length = lc.2.gaussians := by
    intro lc hlc ht
    simp only [M, List.mem_cons, List.not_mem_nil, or_false] at hlc
    rcases hlc with rfl | rfl
    · rfl
    · cases ht
  have h3 : ∃ lc ∈ M.models, lc.2.training = true := ⟨_, .tail _ (.head _), rfl⟩
  exact ⟨M, h1, h2, h3, ⟨_, .head _, rfl⟩, C54_gmm_json M h1 h2 h3⟩

end Xmm
