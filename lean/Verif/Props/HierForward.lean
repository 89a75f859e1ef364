import Verif.Props.HierClass
import Verif.Props.HmmRecognition
set_option linter.unusedSimpArgs false
set_option linter.unusedSectionVars false
/- C48: the forward variables of a hierarchical model. -/
namespace Xmm
open Phrase (loop)
open Gauss (rd rd_lt)
open Prog (bind_def pure_def get_def set_def modify_def throw_def undef_def)
namespace HierHmm
variable {K : Type} [Field K] [LinearOrder K] [IsStrictOrderedRing K]
open HierSpec Hmm

/-- a loop over the classes, when the effect on each class is a function -/
theorem eachClass_fun (M : HierHmm K) (f : Nat → Prog (Hmm K) K) (p : Nat → Hmm K → K) (g : Nat → Hmm K → Hmm K)
    (h : ∀ (i : Nat) (lc : String × Hmm K), M.models[i]? = some lc → f i lc.2 = .ret (p i lc.2) (g i lc.2)) :
    loop M.models.length 0 (fun acc c => do
      let q ← onClass c (f c)
      pure (acc + q)) M =
    .ret (∑ i ∈ Finset.range M.models.length, (M.models[i]?.map fun lc => p i lc.2).getD 0)
      { M with models := M.models.mapIdx fun i lc => (lc.1, g i lc.2) } := by
  obtain ⟨a, s, h1, h2, l, h3, h4⟩ := loop_state M.models.length (0 : K) (fun acc c => do
      let q ← onClass c (f c)
      pure (acc + q)) M
    (fun t a s => a = ∑ i ∈ Finset.range t, (M.models[i]?.map fun lc => p i lc.2).getD 0 ∧ ∃ l, s = { M with models := l } ∧
      ∀ i : Nat, l[i]? = M.models[i]?.map fun lc => if i < t then (lc.1, g i lc.2) else lc)
    ⟨by simp, M.models, rfl, fun i => by simp⟩ (by
      rintro t ht a s ⟨rfl, l, rfl, hl⟩
      have hg : M.models[t]? = some M.models[t] := List.getElem?_eq_getElem ht
      have hlt : l[t]? = some M.models[t] := by rw [hl t, hg]; simp
      refine ⟨_, { M with models := l.set t (M.models[t].1, g t M.models[t].2) }, ?_, rfl, _, rfl, fun i => ?_⟩
      · simp only [bind_def, onClass, hlt, h t _ hg, pure_def, Finset.sum_range_succ, hg, Option.map_some, Option.getD_some]
      · by_cases hi : i = t
        · subst hi
          rw [List.getElem?_set_self (by
            by_contra hc
            rw [List.getElem?_eq_none (by omega)] at hlt
            cases hlt), hg]
          simp
        · rw [List.getElem?_set_ne (Ne.symm hi), hl i]
          by_cases h' : i < t
          · simp [h', Nat.lt_succ_of_lt h']
          · have : ¬ i < t + 1 := by omega
            simp [h', this])
  rw [h1, h2, h3]
  congr 2
  refine List.ext_getElem? fun i => ?_
  rw [h4 i, List.getElem?_mapIdx]
  by_cases hi : i < M.models.length
  · simp [hi]
  · rw [List.getElem?_eq_none (by omega)]; rfl

theorem eachClass_unit (M : HierHmm K) (f : Nat → Prog (Hmm K) Unit) (g : Nat → Hmm K → Hmm K)
    (h : ∀ (i : Nat) (lc : String × Hmm K), M.models[i]? = some lc → f i lc.2 = .ret () (g i lc.2)) :
    loop M.models.length () (fun _ c => onClass c (f c)) M =
    .ret () { M with models := M.models.mapIdx fun i lc => (lc.1, g i lc.2) } := by
  obtain ⟨a, s, h1, l, h3, h4⟩ := loop_state M.models.length () (fun _ c => onClass c (f c)) M
    (fun t _ s => ∃ l, s = { M with models := l } ∧
      ∀ i : Nat, l[i]? = M.models[i]?.map fun lc => if i < t then (lc.1, g i lc.2) else lc)
    ⟨M.models, rfl, fun i => by simp⟩ (by
      rintro t ht a s ⟨l, rfl, hl⟩
      have hg : M.models[t]? = some M.models[t] := List.getElem?_eq_getElem ht
      have hlt : l[t]? = some M.models[t] := by rw [hl t, hg]; simp
      refine ⟨(), { M with models := l.set t (M.models[t].1, g t M.models[t].2) }, ?_, _, rfl, fun i => ?_⟩
      · simp only [onClass, hlt, h t _ hg]
      · by_cases hi : i = t
        · subst hi
          rw [List.getElem?_set_self (by
            by_contra hc
            rw [List.getElem?_eq_none (by omega)] at hlt
            cases hlt), hg]
          simp
        · rw [List.getElem?_set_ne (Ne.symm hi), hl i]
          by_cases h' : i < t
          · simp [h', Nat.lt_succ_of_lt h']
          · have : ¬ i < t + 1 := by omega
            simp [h', this])
  rw [h1, h3]
  congr 2
  refine List.ext_getElem? fun i => ?_
  rw [h4 i, List.getElem?_mapIdx]
  by_cases hi : i < M.models.length
  · simp [hi]
  · rw [List.getElem?_eq_none (by omega)]; rfl

theorem checkTraining_idle {M : HierHmm K} (h : M.training = false) : checkTraining M = .ret () M := by
  simp [checkTraining, h]

theorem mem_of_get {M : HierHmm K} {c : Nat} {lc : String × Hmm K} (h : M.models[c]? = some lc) : lc ∈ M.models := List.mem_of_getElem? h

theorem lt_of_get {M : HierHmm K} {c : Nat} {lc : String × Hmm K} (h : M.models[c]? = some lc) : c < M.models.length := by
  by_contra hc
  rw [List.getElem?_eq_none (by omega)] at h
  cases h

/-- the sum of the instantaneous likelihoods of the classes at the first observation: in an ergodic class the previous value is added -/
def initNorm (M : HierHmm K) (b : Nat → Nat → K) : K :=
  ∑ c ∈ Finset.range M.models.length, (M.models[c]?.map fun lc => (begun (M.prior.getD c 0) (b c) lc.2).instant).getD 0

theorem forwardInit_any (D : Dens K) (M : HierHmm K) (hidle : M.training = false) (hprior : M.prior.length = M.models.length)
    (hcls : ∀ lc ∈ M.models, lc.2.InHierarchy ∧ lc.2.bimodal = M.bimodal) (x : List K) (b : Nat → Nat → K) (hb : HierSpec.Emits D M x b) :
    forwardInit D x M = .ret () { M with
      models := M.models.mapIdx fun c lc => (lc.1, divided (initNorm M b) (begun (M.prior.getD c 0) (b c) lc.2))
      started := true } := by
  unfold forwardInit
  rw [bind_of_ret (checkTraining_idle hidle), bind_of_ret (get_def M)]
  rw [bind_of_ret (eachClass_fun M (fun c => hierInit D M.bimodal M.prior c x) (fun c m => (begun (M.prior.getD c 0) (b c) m).instant)
    (fun c m => begun (M.prior.getD c 0) (b c) m) (fun i lc hlc => by
      obtain ⟨h1, h2⟩ := hcls lc (mem_of_get hlc)
      rw [← h2]
      exact hierInit_ret D lc.2 h1.can x (b i) (hb i lc hlc) M.prior i (by rw [hprior]; exact lt_of_get hlc)))]
  have e := eachClass_unit ({ M with models := M.models.mapIdx fun i lc => (lc.1, begun (M.prior.getD i 0) (b i) lc.2) } : HierHmm K)
    (fun _ => hierDivide (initNorm M b)) (fun _ m => divided (initNorm M b) m) (fun i lc hlc => by
      rw [List.getElem?_mapIdx, Option.map_eq_some_iff] at hlc
      obtain ⟨a, _, rfl⟩ := hlc
      exact hierDivide_ret _ _ (by simp [begun]) (by simp [begun]) (by simp [begun]))
  simp only [List.length_mapIdx] at e
  have hz : (∑ i ∈ Finset.range M.models.length, (M.models[i]?.map fun lc => (begun (M.prior.getD i 0) (b i) lc.2).instant).getD 0) =
      initNorm M b := rfl
  rw [hz, bind_of_ret e, modify_def]
  simp only [List.mapIdx_mapIdx]
  rfl

theorem forwardInit_ret (D : Dens K) (M : HierHmm K) (hM : M.Ready) (x : List K) (b : Nat → Nat → K) (hb : HierSpec.Emits D M x b) :
    forwardInit D x M = .ret () { M with
      models := M.models.mapIdx fun c lc => (lc.1, divided (initNorm M b) (begun (M.prior.getD c 0) (b c) lc.2))
      started := true } :=
  forwardInit_any D M hM.idle hM.top.prior hM.cls x b hb

/-- all classes have forward variables -/
def AllSized (M : HierHmm K) : Prop := ∀ lc ∈ M.models, lc.2.HierSized

theorem likelihoodAlpha_ret {σ : Type} (M : HierHmm K) (e : Nat) (he : e = 1 ∨ e = 2) (hs : M.AllSized) (v : List K) (hv : v.length = M.models.length) (t : σ) :
    likelihoodAlpha e M.models v t = .ret ((List.range M.models.length).map (leaving M e)) t := by
  unfold likelihoodAlpha
  obtain ⟨a, h1, h2, h3⟩ := loop_inv M.models.length v (fun v l => do
    let lc ← rd M.models l
    let s ← Hmm.sumAlpha e lc.2
    MultiRes.wr v l s) t (fun i l => l.length = M.models.length ∧ ∀ c < i, l.getD c 0 = leaving M e c)
    ⟨hv, fun c hc => by omega⟩ (by
      rintro i hi l ⟨i1, i2⟩
      have hg : M.models[i]? = some M.models[i] := List.getElem?_eq_getElem hi
      have hsz := hs M.models[i] (List.getElem_mem hi)
      have hlen : (M.models[i].2.alphaOf e).length = M.models[i].2.n := by
        rcases he with rfl | rfl
        · exact hsz.a1
        · exact hsz.a2
      have hval : ∑ k ∈ Finset.range M.models[i].2.n, (M.models[i].2.alphaOf e).getD k 0 = leaving M e i := by
        simp [leaving, states, HierSpec.alpha, hg]
      refine ⟨l.set i (leaving M e i), ?_, by simpa using i1, fun c hc => ?_⟩
      · rw [bind_of_ret (rd_lt hi M.models[i] t)]
        have : M.models.getD i M.models[i] = M.models[i] := by simp [hi]
        rw [this, bind_of_ret (sumAlpha_ret e _ hlen t), hval]
        unfold MultiRes.wr
        rw [if_pos (by omega)]
        rfl
      · rw [getD_set _ _ _ _ _ (by omega)]
        by_cases h : c = i
        · rw [if_pos h, h]
        · rw [if_neg h]; exact i2 c (by omega))
  rw [h1, eq_map_range_of_getD a _ _ h2 h3]

/-- the models after the next observation -/
def next (M : HierHmm K) (b : Nat → Nat → K) : HierHmm K :=
  { M with
    front1 := (List.range M.models.length).map (leaving M 1)
    front2 := (List.range M.models.length).map (leaving M 2)
    models := M.models.mapIdx fun c lc => (lc.1, divided (evidence M b)
      (updated (M.exitTrans.getD c 0) (fun k => b c k * predicted lc.2 (entering M c) k) lc.2)) }

theorem forwardUpdate_ret (D : Dens K) (M : HierHmm K) (hM : M.Ready) (hs : M.AllSized) (x : List K) (b : Nat → Nat → K)
    (hb : HierSpec.Emits D M x b) : forwardUpdate D x M = .ret () (next M b) := by
  unfold forwardUpdate
  rw [bind_of_ret (checkTraining_idle hM.idle), bind_of_ret (get_def M), bind_of_ret (likelihoodAlpha_ret M 1 (Or.inl rfl) hs _ hM.front1 M),
    bind_of_ret (likelihoodAlpha_ret M 2 (Or.inr rfl) hs _ hM.front2 M), bind_of_ret (set_def _ _), bind_of_ret (get_def _)]
  generalize hM1 : ({ M with
    front1 := (List.range M.models.length).map (leaving M 1)
    front2 := (List.range M.models.length).map (leaving M 2) } : HierHmm K) = M1
  have hmod : M1.models = M.models := by subst hM1; rfl
  have hent : ∀ c < M.models.length, ∀ s < M.models.length, ∀ t : Hmm K, entry M1 c s t =
      .ret (leaving M 1 s * (M.trans.getD s []).getD c 0 + M.prior.getD c 0 * leaving M 2 s) t := by
    intro c hc s hs' t
    have hrow : s < M.trans.length := by rw [hM.top.trans]; exact hs'
    have hr : (M.trans.getD s []).length = M.models.length := by
      rw [List.getD_eq_getElem?_getD, List.getElem?_eq_getElem hrow]
      exact hM.top.row _ (List.getElem_mem hrow)
    subst hM1
    unfold entry
    rw [bind_of_ret (rd_lt (by simpa using hs') 0 t), bind_of_ret (rd_lt hrow [] t), bind_of_ret (rd_lt (by rw [hr]; exact hc) 0 t),
      bind_of_ret (rd_lt (by rw [hM.top.prior]; exact hc) 0 t), bind_of_ret (rd_lt (by simpa using hs') 0 t), pure_def,
      getD_map_range' _ _ _ hs', getD_map_range' _ _ _ hs']
  rw [bind_of_ret (eachClass_fun M1 (fun c => hierUpdate D M1.bimodal M1.exitTrans c M1.models.length (entry M1 c) x)
    (fun c m => ∑ k ∈ Finset.range m.n, b c k * predicted m (entering M c) k)
    (fun c m => updated (M.exitTrans.getD c 0) (fun k => b c k * predicted m (entering M c) k) m) (fun i lc hlc => by
      rw [hmod] at hlc
      obtain ⟨h1, h2⟩ := hM.cls lc (mem_of_get hlc)
      have e1 : M1.bimodal = lc.2.bimodal := by subst hM1; exact h2.symm
      have e2 : M1.exitTrans = M.exitTrans := by subst hM1; rfl
      rw [e1, e2, hmod]
      exact hierUpdate_ret D lc.2 h1.can (hs lc (mem_of_get hlc)) x (b i) (hb i lc hlc) M.exitTrans i M.models.length
        (by rw [hM.top.exitTrans]; exact lt_of_get hlc) (entry M1 i) _ (fun s hs' => hent i (lt_of_get hlc) s hs' lc.2)))]
  have hz : (∑ i ∈ Finset.range M1.models.length, (M1.models[i]?.map fun lc => ∑ k ∈ Finset.range lc.2.n, b i k * predicted lc.2 (entering M i) k).getD 0) =
      evidence M b := by
    rw [hmod]
    unfold evidence
    refine Finset.sum_congr rfl fun c hc => ?_
    have hg := List.getElem?_eq_getElem (Finset.mem_range.1 hc)
    simp [hg, states, joint]
  rw [hz]
  have e := eachClass_unit ({ M1 with models := M1.models.mapIdx fun c lc => (lc.1,
      updated (M.exitTrans.getD c 0) (fun k => b c k * predicted lc.2 (entering M c) k) lc.2) } : HierHmm K)
    (fun _ => hierDivide (evidence M b)) (fun _ m => divided (evidence M b) m) (fun i lc hlc => by
      rw [List.getElem?_mapIdx, Option.map_eq_some_iff] at hlc
      obtain ⟨a, _, rfl⟩ := hlc
      exact hierDivide_ret _ _ (by simp [updated]) (by simp [updated]) (by simp [updated]))
  simp only [List.length_mapIdx] at e
  rw [e]
  subst hM1
  simp only [List.mapIdx_mapIdx]
  rfl

end HierHmm
end Xmm
