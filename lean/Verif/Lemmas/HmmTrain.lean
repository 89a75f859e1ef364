import Verif.Spec.HmmTrain
import Verif.Props.HierRecognition
import Verif.Props.HierClasses
set_option linter.unusedSectionVars false
/- The classes that training adds to a hierarchy, and the end of training. -/
namespace Xmm
open TS
open Phrase (loop)
open Gauss (rd rd_lt resize)
open Prog (bind_def get_def set_def modify_def throw_def undef_def)

namespace Hmm

/-- the exit probabilities of a class: it is left from its last state only -/
noncomputable def lastExit (n : Nat) : List ℝ := (List.range n).map fun k => if k + 1 = n then 1 / 10 else 0

theorem exit_new {n : Nat} (hn : 1 ≤ n) : (resize n ([] : List ℝ)).set (n - 1) (1 / 10) = lastExit n := by
  refine List.ext_getElem (by simp [resize, lastExit]) fun k h1 h2 => ?_
  simp only [lastExit, List.length_map, List.length_range] at h2
  rw [List.getElem_set]
  simp only [lastExit, List.getElem_map, List.getElem_range]
  by_cases hk : n - 1 = k
  · rw [if_pos hk, if_pos (by omega)]
  · rw [if_neg hk, if_neg (by omega)]
    simp [resize]

theorem exit_again {n : Nat} (hn : 1 ≤ n) : (resize n (lastExit n)).set (n - 1) (1 / 10) = lastExit n := by
  have e : resize n (lastExit n) = lastExit n := by simp [resize, lastExit]
  rw [e]
  refine List.ext_getElem (by simp) fun k h1 h2 => ?_
  rw [List.getElem_set]
  simp only [lastExit, List.length_map, List.length_range] at h2
  split
  · next h => simp only [lastExit, List.getElem_map, List.getElem_range]; rw [if_pos (by omega)]
  · rfl

theorem exit_write {m : Hmm ℝ} (hh : m.hier = true) (hn : 1 ≤ m.n) :
    updateExitProbabilities m = .ret () { m with exitP := (resize m.n m.exitP).set (m.n - 1) (1 / 10) } := by
  unfold updateExitProbabilities
  rw [bind_of_ret (get_def m), if_neg (by simp [hh])]
  have hl : m.n - 1 < (resize m.n m.exitP).length := by rw [length_resize]; omega
  rw [bind_of_ret (rd_lt hl 0 m), set_def]
  rfl

theorem lastExit_exits {m : Hmm ℝ} (h : m.exitP = lastExit m.n) : ∀ k < m.n, 0 ≤ m.exitP.getD k 0 ∧ m.exitP.getD k 0 < 1 := by
  intro k hk
  have : m.exitP.getD k 0 = if k + 1 = m.n then 1 / 10 else 0 := by
    rw [h]
    simp [lastExit, List.getD_eq_getElem?_getD, hk]
  rw [this]
  split <;> norm_num

end Hmm

namespace HierHmm
open HierSpec Hmm

theorem map_ext {l l' : SMap String (Hmm ℝ)} (hl : l'.length = l.length) (g : String × Hmm ℝ → Hmm ℝ)
    (h : ∀ (i : Nat) (lc : String × Hmm ℝ), l[i]? = some lc → ∃ m', l'[i]? = some (lc.1, m') ∧ m' = g lc) : l' = l.map fun lc => (lc.1, g lc) := by
  refine List.ext_getElem (by simp [hl]) fun i h1 h2 => ?_
  obtain ⟨m', e1, e2⟩ := h i l[i] (List.getElem?_eq_getElem (by omega))
  rw [List.getElem?_eq_getElem h1] at e1
  rw [Option.some.inj e1, e2]
  simp

/-- `updateTransitionParameters` when the number of classes has changed -/
theorem update_uniform (M : HierHmm ℝ) (hn : M.nulls = []) (hc : M.models.length ≠ M.prior.length) (h : ∀ lc ∈ M.models, lc.2.hier = true ∧ 1 ≤ lc.2.n) :
    ∃ M', updateTransitionParameters M = .ret () M' ∧ TopAt M'.models.length M' ∧ M'.UniformAt M.models.length ∧
      M' = { M with prior := M'.prior, trans := M'.trans, exitTrans := M'.exitTrans,
                    models := M.models.map fun lc => (lc.1, { lc.2 with exitP := (resize lc.2.n lc.2.exitP).set (lc.2.n - 1) (1 / 10) }) } := by
  have hsz : M.size = M.models.length := by simp [size, hn]
  unfold updateTransitionParameters
  rw [bind_of_ret (get_def M), if_neg (by rw [hsz]; exact hc), bind_of_ret (modify_def _ _), bind_of_ret (modify_def _ _)]
  have hu := uniform_top M
  rw [hsz] at hu
  generalize hM1 : updateTransition (updatePrior M) = M1 at hu
  have hM1' : M1 = { M with prior := M1.prior, trans := M1.trans, exitTrans := M1.exitTrans } := by rw [← hM1]; rfl
  have f1 : M1.models = M.models := by rw [hM1']
  have f2 : M1.nulls = M.nulls := by rw [hM1']
  unfold HierHmm.updateExitProbabilities
  rw [bind_of_ret (get_def _), if_neg (by simp [f2, hn])]
  obtain ⟨ms, g1, g2, g3⟩ := eachClass_rel M1 (fun _ => Hmm.updateExitProbabilities)
    (fun _ lc m' => m' = { lc.2 with exitP := (resize lc.2.n lc.2.exitP).set (lc.2.n - 1) (1 / 10) }) (fun i lc hlc => by
      rw [f1] at hlc
      obtain ⟨h1, h2⟩ := h lc (mem_of_get hlc)
      exact ⟨_, exit_write h1 h2, rfl⟩)
  have := map_ext g2 _ g3
  rw [f1] at this
  refine ⟨_, g1, ?_, ?_, ?_⟩
  · show TopAt ms.length _
    rw [g2, f1]
    exact hu.congr rfl rfl rfl
  · rw [← hM1, ← hsz]
    exact ⟨rfl, rfl, rfl⟩
  · rw [this, hM1']

theorem update_changed (M : HierHmm ℝ) (hn : M.nulls = []) (hc : M.models.length ≠ M.prior.length) (h : ∀ lc ∈ M.models, lc.2.hier = true ∧ 1 ≤ lc.2.n) :
    ∃ M', updateTransitionParameters M = .ret () M' ∧ TopAt M'.models.length M' ∧
      M' = { M with prior := M'.prior, trans := M'.trans, exitTrans := M'.exitTrans,
                    models := M.models.map fun lc => (lc.1, { lc.2 with exitP := (resize lc.2.n lc.2.exitP).set (lc.2.n - 1) (1 / 10) }) } := by
  obtain ⟨M', g1, g2, -, g3⟩ := update_uniform M hn hc h
  exact ⟨M', g1, g2, g3⟩

/-- the classes of the model are new, with the current settings -/
structure AllFresh (f : Format) (z : ℝ) (M : HierHmm ℝ) : Prop where
  nulls : M.nulls = []
  sorted : SMap.Sorted M.models
  top : TopAt M.models.length M
  uniform : M.UniformAt M.models.length
  bimodal : M.bimodal = f.bimodal
  dim : M.dim = f.dim
  di : M.di = f.di
  cls : ∀ lc ∈ M.models, lc.2 = { Hmm.fresh f M.window (M.conf lc.1) z with training := false }

/-- only the classes and the hierarchy differ -/
def SameBut (M M' : HierHmm ℝ) : Prop := M' = { M with models := M'.models, prior := M'.prior, trans := M'.trans, exitTrans := M'.exitTrans }

theorem add_fresh {f : Format} {z : ℝ} {M : HierHmm ℝ} (h : AllFresh f z M) (hn : ∀ l, 1 ≤ (M.conf l).n) {l : String} (hl : l ∉ SMap.keys M.models) :
    ∃ M', addModelForClass z l M = .ret () M' ∧ AllFresh f z M' ∧ SameBut M M' ∧ ∀ k, k ∈ SMap.keys M'.models ↔ k = l ∨ k ∈ SMap.keys M.models := by
  unfold addModelForClass
  have hfind : SMap.find? l M.models = none := by
    cases hf : SMap.find? l M.models with
    | none => rfl
    | some c => exact absurd ((SMap.mem_keys_iff (m := M.models) (k := l)).2 (by simp [hf])) hl
  rw [bind_of_ret (get_def M), hfind, bind_of_ret (set_def _ _)]
  dsimp only
  generalize hms : SMap.assign l (newClass M (M.conf l) z) M.models = ms
  have hlen : ms.length = M.models.length + 1 := by rw [← hms]; exact length_assign_new hl
  have hmem : ∀ x, x ∈ ms ↔ x = (l, newClass M (M.conf l) z) ∨ x ∈ M.models := by rw [← hms]; exact mem_assign_new hl
  obtain ⟨M', g1, g2, gu, g3⟩ := update_uniform { M with models := ms } h.nulls (by show ms.length ≠ M.prior.length; rw [h.top.prior, hlen]; omega) (fun lc hlc => by
    rcases (hmem lc).1 hlc with e | e
    · rw [e]; exact ⟨rfl, hn l⟩
    · rw [h.cls _ e]; exact ⟨rfl, hn lc.1⟩)
  dsimp only at g3
  have hmod : M'.models = ms.map fun lc => (lc.1, { lc.2 with exitP := (resize lc.2.n lc.2.exitP).set (lc.2.n - 1) (1 / 10) }) := by rw [g3]
  have hkeys : SMap.keys M'.models = SMap.keys ms := by rw [hmod]; simp [SMap.keys, Function.comp_def]
  refine ⟨M', g1, ⟨?_, ?_, g2, by rw [hmod, List.length_map]; exact gu, ?_, ?_, ?_, ?_⟩, ?_, fun k => ?_⟩
  · rw [g3]; exact h.nulls
  · have : SMap.Sorted ms := by rw [← hms]; exact h.sorted.assign
    exact sorted_of_keys hkeys this
  · rw [g3]; exact h.bimodal
  · rw [g3]; exact h.dim
  · rw [g3]; exact h.di
  · intro lc hlc
    have e1 : M'.window = M.window := by rw [g3]
    have e2 : M'.conf = M.conf := by rw [g3]
    rw [hmod] at hlc
    obtain ⟨a, ha, rfl⟩ := List.mem_map.1 hlc
    rw [e1, e2]
    rcases (hmem a).1 ha with e | e
    · subst e
      simp only [newClass, fresh, h.bimodal, h.dim, h.di]
      rw [exit_new (hn l)]
      rfl
    · have ec := h.cls a e
      dsimp only
      rw [ec]
      simp only [fresh]
      rw [show (List.map (fun k => if k + 1 = (M.conf a.1).n then (1 / 10 : ℝ) else 0) (List.range (M.conf a.1).n)) = lastExit (M.conf a.1).n from rfl,
        exit_again (hn a.1)]
  · unfold SameBut
    rw [g3]
  · rw [hkeys]
    simp only [SMap.keys, List.mem_map, hmem]
    constructor
    · rintro ⟨a, rfl | ha, rfl⟩
      · exact .inl rfl
      · exact .inr ⟨a, ha, rfl⟩
    · rintro (rfl | ⟨a, ha, rfl⟩)
      · exact ⟨_, .inl rfl, rfl⟩
      · exact ⟨a, .inr ha, rfl⟩

theorem adds_fresh {f : Format} {z : ℝ} : ∀ (ls : List String) {M : HierHmm ℝ}, AllFresh f z M → (∀ l, 1 ≤ (M.conf l).n) → ls.Nodup → (∀ l ∈ ls, l ∉ SMap.keys M.models) →
    ∃ M', (ls.foldlM (fun _ l => addModelForClass z l) () : Prog (HierHmm ℝ) Unit) M = .ret () M' ∧ AllFresh f z M' ∧ SameBut M M' ∧
      ∀ k, k ∈ SMap.keys M'.models ↔ k ∈ ls ∨ k ∈ SMap.keys M.models
  | [], M, h, _, _, _ => ⟨M, rfl, h, rfl, by simp⟩
  | l :: ls, M, h, hn, hd, hl => by
    obtain ⟨M1, a1, a2, a3, a4⟩ := add_fresh h hn (hl l List.mem_cons_self)
    have hc : M1.conf = M.conf := by rw [a3]
    have hd' := List.nodup_cons.1 hd
    obtain ⟨M', b1, b2, b3, b4⟩ := adds_fresh ls a2 (by rw [hc]; exact hn) hd'.2 (fun k hk hk' => by
      rcases (a4 k).1 hk' with e | e
      · exact hd'.1 (e ▸ hk)
      · exact hl k (List.mem_cons_of_mem _ hk) e)
    refine ⟨M', ?_, b2, ?_, fun k => ?_⟩
    · rw [List.foldlM_cons, bind_of_ret a1]
      exact b1
    · unfold SameBut at a3 b3 ⊢
      rw [b3, a3]
    · rw [b4, a4, List.mem_cons]; tauto

/-- `reset()` writes nothing of the hierarchy -/
theorem reset_classes (M : HierHmm ℝ) (hi : M.training = false) (hh : M.hier = true) (hn : M.nulls = []) (hc : ∀ lc ∈ M.models, lc.2.InHierarchy ∧ BufOk lc.2.buf) :
    ∃ M', reset M = .ret () M' ∧
      M' = { M with models := M'.models, results := M'.results, front1 := M'.front1, front2 := M'.front2, started := false } ∧
      M'.models.length = M.models.length ∧ M'.front1.length = M.models.length ∧ M'.front2.length = M.models.length ∧ M'.results.Sized M.models.length ∧
      ∀ (c : Nat) (lc : String × Hmm ℝ), M.models[c]? = some lc → ∃ m', M'.models[c]? = some (lc.1, m') ∧ lc.2.SameClass m' ∧ Logs m'.buf m'.window [] := by
  obtain ⟨l1, p1, p2, p3⟩ := eachClass_rel M (fun _ => Hmm.reset) (fun _ lc m' => lc.2.Restarted m') (fun i lc hlc => by
    obtain ⟨h1, h4⟩ := hc lc (mem_of_get hlc)
    exact reset_hier lc.2 h1 h4)
  have hz : l1.length + M.nulls.length = M.models.length := by rw [hn, p2]; rfl
  generalize hM1 : ({ M with
      models := l1
      results := MultiRes.resetResults (l1.length + M.nulls.length) M.bimodal (M.dim - M.di) M.mode M.results
      front1 := resize (l1.length + M.nulls.length) M.front1
      front2 := resize (l1.length + M.nulls.length) M.front2
      started := false } : HierHmm ℝ) = M1
  have e1 : M1.models = l1 := by rw [← hM1]
  obtain ⟨l2, k1, k2, k3⟩ := eachClass_rel M1 (fun _ => resetClass M.hier) (fun _ lc m' => lc.2.Restarted m') (fun i lc hlc => by
    rw [e1] at hlc
    obtain ⟨a, ha⟩ := get_class (M := M) (c := i) (by rw [← p2]; exact (List.getElem?_eq_some_iff.1 hlc).1)
    obtain ⟨m', h1, h2⟩ := p3 i a ha
    rw [hlc] at h1
    cases h1
    obtain ⟨g1, _⟩ := hc a (mem_of_get ha)
    rw [hh]
    exact resetClass_hier _ ((h2.sameClass g1.can).inHierarchy g1) (Logs.bufOk h2.2))
  rw [e1, p2] at k1 k2
  refine ⟨{ M1 with models := l2 }, ?_, ?_, k2, ?_, ?_, ?_, fun c a ha => ?_⟩
  · unfold reset
    rw [bind_of_ret (checkTraining_idle hi), bind_of_ret (get_def M), if_neg (by simp [hn]), bind_of_ret p1, bind_of_ret (modify_def _ _)]
    subst hM1
    exact k1
  · subst hM1; rfl
  · subst hM1; show (resize _ M.front1).length = _; rw [length_resize, hz]
  · subst hM1; show (resize _ M.front2).length = _; rw [length_resize, hz]
  · subst hM1
    show (MultiRes.resetResults _ _ _ _ M.results).Sized _
    rw [hz]
    constructor <;> simp [MultiRes.resetResults, resize] <;> omega
  · obtain ⟨m', h1, h2⟩ := p3 c a ha
    obtain ⟨m'', g1, g2⟩ := k3 c (a.1, m') (by rw [e1]; exact h1)
    have hcf := (hc a (mem_of_get ha)).1.can
    have hs := h2.sameClass hcf
    exact ⟨m'', g1, hs.trans (g2.sameClass (hs.canFilter hcf)), g2.2⟩

/-- the end of training -/
theorem finish (M : HierHmm ℝ) (hi : M.training = false) (hh : M.hier = true) (hn : M.nulls = []) (hs : SMap.Sorted M.models) {n : Nat} (ht : TopAt n M)
    (hc : ∀ lc ∈ M.models, lc.2.InHierarchy ∧ BufOk lc.2.buf ∧ lc.2.bimodal = M.bimodal ∧ lc.2.dim - lc.2.di = M.dim - M.di ∧ lc.2.ergodic = false ∧
      lc.2.exitP = lastExit lc.2.n) (hmode : M.bimodal = true → ∀ lc ∈ M.models, lc.2.mode = M.mode) :
    ∃ M', (do reset; updateTransitionParameters : Prog (HierHmm ℝ) Unit) M = .ret () M' ∧ M'.Usable ∧ M'.started = false ∧ M'.models.length = M.models.length ∧
      M'.bimodal = M.bimodal ∧ M'.dim = M.dim ∧ M'.di = M.di ∧ M'.window = M.window ∧ M'.conf = M.conf ∧ M'.mode = M.mode ∧ M'.est = M.est ∧
      ∀ (c : Nat) (lc : String × Hmm ℝ), M.models[c]? = some lc → ∃ m', M'.models[c]? = some (lc.1, m') ∧ lc.2.SameClass m' := by
  obtain ⟨N, a1, a2, a3, a4, a5, a6, a7⟩ := reset_classes M hi hh hn fun lc hlc => ⟨(hc lc hlc).1, (hc lc hlc).2.1⟩
  have hsame : SameClasses M N := ⟨a3, fun c lc hlc => by obtain ⟨m', h1, h2, _⟩ := a7 c lc hlc; exact ⟨m', h1, h2⟩⟩
  have hbk : ∀ lc ∈ N.models, ∃ a ∈ M.models, lc.1 = a.1 ∧ a.2.SameClass lc.2 ∧ Logs lc.2.buf lc.2.window [] := by
    intro lc hlc
    obtain ⟨i, hi, rfl⟩ := List.getElem_of_mem hlc
    obtain ⟨a, ha⟩ := get_class (M := M) (c := i) (by rw [← a3]; exact hi)
    obtain ⟨m', h1, h2⟩ := a7 i a ha
    rw [List.getElem?_eq_getElem hi] at h1
    rw [Option.some.inj h1]
    exact ⟨a, mem_of_get ha, rfl, h2⟩
  have hex : ∀ lc ∈ N.models, lc.2.exitP = lastExit lc.2.n ∧ 1 ≤ lc.2.n ∧ lc.2.hier = true := by
    intro lc hlc
    obtain ⟨a, ha, -, h2, -⟩ := hbk lc hlc
    obtain ⟨q1, -, -, -, -, q2⟩ := hc a ha
    have hq := h2.inHierarchy q1
    have e := h2.1
    refine ⟨?_, hq.can.wf.pos, hq.hier⟩
    rw [e]; exact q2
  have hNt : TopAt n N := ht.congr (by rw [a2]) (by rw [a2]) (by rw [a2])
  -- the update of the hierarchy
  obtain ⟨M', u1, u2, u3⟩ : ∃ M', updateTransitionParameters N = .ret () M' ∧ TopAt M'.models.length M' ∧
      M' = { N with prior := M'.prior, trans := M'.trans, exitTrans := M'.exitTrans } := by
    have hNn : N.nulls = [] := by rw [a2]; exact hn
    by_cases hq : N.models.length = N.prior.length
    · refine ⟨N, ?_, ?_, rfl⟩
      · unfold updateTransitionParameters
        rw [bind_of_ret (get_def N), if_pos (by simp [size, hNn, hq]), Prog.pure_def]
      · rw [hq, hNt.prior]; exact hNt
    · obtain ⟨M', g1, g2, g3⟩ := update_changed N hNn hq fun lc hlc => ⟨(hex lc hlc).2.2, (hex lc hlc).2.1⟩
      refine ⟨M', g1, g2, ?_⟩
      have : (N.models.map fun lc => (lc.1, { lc.2 with exitP := (resize lc.2.n lc.2.exitP).set (lc.2.n - 1) (1 / 10) })) = N.models := by
        refine (List.map_congr_left fun lc hlc => ?_).trans (List.map_id _)
        obtain ⟨e1, e2, -⟩ := hex lc hlc
        rw [e1, exit_again e2, ← e1]
        rfl
      rw [this] at g3
      exact g3
  have hmod : M'.models = N.models := by rw [u3]
  refine ⟨M', by rw [bind_of_ret a1]; exact u1, ⟨⟨?_, u2.top, ?_, ?_, ?_⟩, ?_, ?_, ?_, ?_, ?_, ?_, ?_, ?_, ?_⟩, ?_, ?_, ?_, ?_, ?_, ?_, ?_, ?_, ?_, ?_⟩
  · rw [u3, a2]; exact hi
  · intro lc hlc
    rw [hmod] at hlc
    obtain ⟨a, ha, -, h2, -⟩ := hbk lc hlc
    obtain ⟨q1, -, q3, -⟩ := hc a ha
    refine ⟨h2.inHierarchy q1, ?_⟩
    rw [h2.facts.2.2.2.2.2.2.1, q3, u3, a2]
  · rw [hmod, a3, ← a4, u3]
  · rw [hmod, a3, ← a5, u3]
  · rw [u3, a2]; exact hh
  · rw [u3, a2]; exact hn
  · rw [hmod]; exact hsame.sorted hs
  · rw [hmod, a3]
    have : M'.results = N.results := by rw [u3]
    rw [this]; exact a6
  · intro lc hlc
    rw [hmod] at hlc
    obtain ⟨a, ha, -, h2, -⟩ := hbk lc hlc
    obtain ⟨-, -, -, q4, -⟩ := hc a ha
    obtain ⟨_, _, _, _, _, _, _, _, f1, f2, _⟩ := h2.facts
    rw [f1, f2, q4, u3, a2]
  · intro hb lc hlc
    rw [hmod] at hlc
    obtain ⟨a, ha, -, h2, -⟩ := hbk lc hlc
    rw [h2.facts.2.2.2.2.2.2.2.2.2.2.1, hmode (by rw [← hb, u3, a2]) a ha, u3, a2]
  · intro lc hlc
    rw [hmod] at hlc
    obtain ⟨_, _, _, _, h3⟩ := hbk lc hlc
    exact ⟨_, h3⟩
  · intro h
    rw [u3, a2] at h
    cases h
  · intro lc hlc he
    rw [hmod] at hlc
    obtain ⟨a, ha, -, h2, -⟩ := hbk lc hlc
    rw [h2.facts.2.1, (hc a ha).2.2.2.2.1] at he
    cases he
  · rw [u3, a2]
  · rw [hmod, a3]
  · rw [u3, a2]
  · rw [u3, a2]
  · rw [u3, a2]
  · rw [u3, a2]
  · rw [u3, a2]
  · rw [u3, a2]
  · rw [u3, a2]
  · intro c lc hlc
    rw [hmod]
    exact hsame.2 c lc hlc

/-- and the hierarchy is uniform afterwards, if it was -/
theorem finish_uniform (M : HierHmm ℝ) (hi : M.training = false) (hh : M.hier = true) (hn : M.nulls = []) {n : Nat} (hu : M.models.length = n → M.UniformAt n)
    (hp : M.prior.length = n) (hc : ∀ lc ∈ M.models, lc.2.InHierarchy ∧ BufOk lc.2.buf) {M' : HierHmm ℝ}
    (r1 : (do reset; updateTransitionParameters : Prog (HierHmm ℝ) Unit) M = .ret () M') : M'.UniformAt M'.models.length := by
  obtain ⟨N, n1, n2, n3, -, -, -, n4⟩ := reset_classes M hi hh hn hc
  have hNn : N.nulls = [] := by rw [n2]; exact hn
  have hNp : N.prior.length = n := by rw [n2]; exact hp
  rw [bind_of_ret n1] at r1
  by_cases hq : N.models.length = N.prior.length
  · have e : updateTransitionParameters N = .ret () N := by
      unfold updateTransitionParameters
      rw [bind_of_ret (get_def N), if_pos (by simp [size, hNn, hq])]
      rfl
    rw [e] at r1
    injection r1 with _ r1
    subst r1
    have hn3 : M.models.length = n := by rw [← n3, hq, hNp]
    rw [n3, hn3]
    obtain ⟨u1, u2, u3⟩ := hu hn3
    rw [n2]
    exact ⟨u1, u2, u3⟩
  · obtain ⟨N', g1, g2, g3, g4⟩ := update_uniform N hNn hq fun lc hlc => by
      obtain ⟨k, hk, ek⟩ := List.getElem_of_mem hlc
      obtain ⟨a, ha⟩ := get_class (M := M) (c := k) (by rw [← n3]; exact hk)
      obtain ⟨m', s1, s2, -⟩ := n4 k a ha
      rw [List.getElem?_eq_getElem hk, ek] at s1
      injection s1 with s1
      have h1 := s2.inHierarchy (hc a (mem_of_get ha)).1
      rw [s1]
      exact ⟨h1.hier, h1.can.wf.pos⟩
    rw [g1] at r1
    injection r1 with _ r1
    subst r1
    have : N'.models.length = N.models.length := by rw [g4]; simp
    rw [this]
    exact g3

end HierHmm
end Xmm
