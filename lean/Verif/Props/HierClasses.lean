import Verif.Props.HierResults
import Verif.Lemmas.StdMap
set_option linter.unusedSimpArgs false
set_option linter.unusedSectionVars false
/- C49: the parameters of the hierarchy follow the set of classes. -/
namespace Xmm
open Phrase (loop)
open Gauss (rd rd_lt resize)
open Prog (bind_def pure_def get_def set_def modify_def throw_def undef_def)

namespace HierHmm
variable {K : Type} [Field K] [LinearOrder K] [IsStrictOrderedRing K]
open HierSpec Hmm

/-- parameters for `n` classes -/
structure TopAt (n : Nat) (M : HierHmm K) : Prop where
  prior : M.prior.length = n
  exitTrans : M.exitTrans.length = n
  trans : M.trans.length = n
  row : ∀ r ∈ M.trans, r.length = n
  prior_pos : ∀ p ∈ M.prior, 0 < p
  prior_sum : n ≠ 0 → M.prior.sum = 1
  row_nonneg : ∀ r ∈ M.trans, ∀ p ∈ r, 0 ≤ p
  row_sum : ∀ r ∈ M.trans, r.sum = 1
  exit_nonneg : ∀ p ∈ M.exitTrans, 0 ≤ p
  exit_le : ∀ p ∈ M.exitTrans, p ≤ 1

theorem TopAt.top {M : HierHmm K} (h : TopAt M.models.length M) : M.Top :=
  ⟨h.prior, h.exitTrans, h.trans, h.row, h.prior_pos, fun hne => h.prior_sum (fun h0 => hne (List.eq_nil_of_length_eq_zero h0)), h.row_nonneg, h.row_sum,
    h.exit_nonneg, h.exit_le⟩

theorem Top.at {M : HierHmm K} (h : M.Top) : TopAt M.models.length M :=
  ⟨h.prior, h.exitTrans, h.trans, h.row, h.prior_pos, fun hne => h.prior_sum (fun h0 => hne (by rw [h0]; rfl)), h.row_nonneg, h.row_sum,
    h.exit_nonneg, h.exit_le⟩

theorem TopAt.congr {n : Nat} {M N : HierHmm K} (h : TopAt n M) (h1 : N.prior = M.prior) (h2 : N.exitTrans = M.exitTrans) (h3 : N.trans = M.trans) :
    TopAt n N := by
  refine ⟨?_, ?_, ?_, ?_, ?_, ?_, ?_, ?_, ?_, ?_⟩ <;> (try rw [h1]) <;> (try rw [h2]) <;> (try rw [h3])
  exacts [h.prior, h.exitTrans, h.trans, h.row, h.prior_pos, h.prior_sum, h.row_nonneg, h.row_sum, h.exit_nonneg, h.exit_le]

theorem uniform_top (M : HierHmm K) : TopAt M.size (updateTransition (updatePrior M)) := by
  have hs : (updatePrior M).size = M.size := rfl
  have hsum : M.size ≠ 0 → (List.replicate M.size (1 / (M.size : K))).sum = 1 := fun h0 => by
    rw [List.sum_replicate, nsmul_eq_mul]
    exact mul_one_div_cancel (Nat.cast_ne_zero.2 h0)
  have hpos : M.size ≠ 0 → (0 : K) < 1 / (M.size : K) := fun h0 => one_div_pos.2 (Nat.cast_pos.2 (Nat.pos_of_ne_zero h0))
  refine ⟨by simp [updateTransition, updatePrior], by simp [updateTransition, updatePrior, size], by simp [updateTransition, updatePrior, size], ?_, ?_, ?_, ?_, ?_, ?_, ?_⟩
  · intro r hr
    simp only [updateTransition, hs, List.mem_replicate] at hr
    rw [hr.2]; simp
  · intro p hp
    simp only [updateTransition, updatePrior, List.mem_replicate] at hp
    rw [hp.2]; exact hpos hp.1
  · intro h0
    exact hsum h0
  · intro r hr p hp
    simp only [updateTransition, hs, List.mem_replicate] at hr
    rw [hr.2, List.mem_replicate] at hp
    rw [hp.2]; exact (hpos hp.1).le
  · intro r hr
    simp only [updateTransition, hs, List.mem_replicate] at hr
    rw [hr.2]; exact hsum hr.1
  · intro p hp
    simp only [updateTransition, hs, List.mem_replicate] at hp
    rw [hp.2]; norm_num [defaultExitTransition]
  · intro p hp
    simp only [updateTransition, hs, List.mem_replicate] at hp
    rw [hp.2]; norm_num [defaultExitTransition]

/-- a call on each class that returns and keeps a property of the classes -/
theorem eachClass_keep (f : Nat → Prog (Hmm K) Unit) (P : Hmm K → Prop) (M : HierHmm K)
    (hf : ∀ i m, P m → ∃ m', f i m = .ret () m' ∧ P m') (hP : ∀ lc ∈ M.models, P lc.2) :
    ∃ ms : SMap String (Hmm K), loop M.models.length () (fun _ i => onClass i (f i)) M = .ret () { M with models := ms } ∧
      ms.map Prod.fst = M.models.map Prod.fst ∧ ∀ lc ∈ ms, P lc.2 := by
  have key : ∀ n ≤ M.models.length, ∃ ms : SMap String (Hmm K), loop n () (fun _ i => onClass i (f i)) M = .ret () { M with models := ms } ∧
      ms.map Prod.fst = M.models.map Prod.fst ∧ ∀ lc ∈ ms, P lc.2 := by
    intro n
    induction n with
    | zero => exact fun _ => ⟨M.models, rfl, rfl, hP⟩
    | succ n ih =>
      intro hn
      obtain ⟨ms, h1, h2, h3⟩ := ih (by omega)
      have hl : n < ms.length := by
        have := congrArg List.length h2
        simp only [List.length_map] at this
        omega
      obtain ⟨m', e1, e2⟩ := hf n ms[n].2 (h3 _ (List.getElem_mem hl))
      refine ⟨ms.set n (ms[n].1, m'), ?_, ?_, ?_⟩
      · rw [loop_succ, h1]
        simp only [onClass]
        rw [show ({ M with models := ms } : HierHmm K).models[n]? = some ms[n] from List.getElem?_eq_getElem hl]
        simp only [e1]
      · rw [List.map_set, ← h2]
        show (ms.map Prod.fst).set n ms[n].1 = ms.map Prod.fst
        rw [show ms[n].1 = (ms.map Prod.fst)[n]'(by simpa using hl) by simp, List.set_getElem_self]
      · intro lc hlc
        rcases List.mem_or_eq_of_mem_set hlc with h | h
        · exact h3 lc h
        · rw [h]; exact e2
  exact key _ le_rfl

/-- what the operations need -/
structure Base (M : HierHmm K) : Prop where
  hier : M.hier = true
  nulls : M.nulls = []
  conf : ∀ l, 1 ≤ (M.conf l).n
  window : 1 ≤ M.window
  cls : ∀ lc ∈ M.models, lc.2.Idle
  sorted : SMap.Sorted M.models

theorem sorted_of_keys {ms ms' : SMap String (Hmm K)} (h : ms.map Prod.fst = ms'.map Prod.fst) (hs : SMap.Sorted ms') : SMap.Sorted ms := by
  have := SMap.keys_sorted hs
  unfold SMap.keys at this
  rw [← h, List.pairwise_map] at this
  exact this

theorem Idle.reset_ret {m : Hmm K} (hm : m.Idle) : ∃ m', Hmm.reset m = .ret () m' ∧ m'.Idle := by
  obtain ⟨b, h1, h2⟩ := resetBuffer_ret hm.buf m.window hm.window
  unfold Hmm.reset
  rw [bind_of_ret (Hmm.checkTraining_idle hm.idle), bind_of_ret (get_def m), bind_of_ret (onBuf_ret h1), bind_of_ret (modify_def _ _), if_pos hm.hier, modify_def]
  exact ⟨_, rfl, hm.idle, Logs.bufOk h2, hm.n, hm.window, hm.hier⟩

theorem reset_base {M : HierHmm K} (hM : Base M) (hi : M.training = false) :
    ∃ M', reset M = .ret () M' ∧ Base M' ∧ M'.training = false ∧ M'.models.map Prod.fst = M.models.map Prod.fst ∧ M'.prior = M.prior ∧
      M'.exitTrans = M.exitTrans ∧ M'.trans = M.trans := by
  unfold reset
  have hct : checkTraining M = .ret () M := by
    unfold checkTraining
    rw [bind_of_ret (get_def M), if_neg (by simp [hi]), pure_def]
  rw [bind_of_ret hct, bind_of_ret (get_def M), if_neg (by simp [hM.nulls])]
  obtain ⟨ms, h1, h2, h3⟩ := eachClass_keep (fun _ => Hmm.reset) Hmm.Idle M (fun _ m hm => Idle.reset_ret hm) hM.cls
  rw [bind_of_ret h1, bind_of_ret (modify_def _ _)]
  generalize hM1 : ({ ({ M with models := ms } : HierHmm K) with
      results := MultiRes.resetResults (HierHmm.size { M with models := ms }) M.bimodal (M.dim - M.di) M.mode M.results
      front1 := resize (HierHmm.size { M with models := ms }) M.front1
      front2 := resize (HierHmm.size { M with models := ms }) M.front2
      started := false } : HierHmm K) = M1
  have hlen : M.models.length = M1.models.length := by
    rw [← hM1]
    have := congrArg List.length h2
    simpa using this.symm
  obtain ⟨ms', g1, g2, g3⟩ := eachClass_keep (fun _ => resetClass M.hier) Hmm.Idle M1 (fun _ m hm => by
    unfold resetClass
    rw [bind_of_ret (modify_def _ _)]
    exact Idle.reset_ret ⟨hm.idle, hm.buf, hm.n, hm.window, hM.hier⟩) (by rw [← hM1]; exact h3)
  rw [hlen]
  refine ⟨_, g1, ?_⟩
  rw [← hM1] at g2 ⊢
  exact ⟨⟨hM.hier, hM.nulls, hM.conf, hM.window, g3, sorted_of_keys (g2.trans h2) hM.sorted⟩, hi, g2.trans h2, rfl, rfl, rfl⟩

theorem Idle.exit_ret {m : Hmm K} (hm : m.Idle) : ∃ m', Hmm.updateExitProbabilities m = .ret () m' ∧ m'.Idle := by
  unfold Hmm.updateExitProbabilities
  rw [bind_of_ret (get_def m), if_neg (by simp [hm.hier])]
  have hl : m.n - 1 < (resize m.n m.exitP).length := by
    rw [length_resize]; have := hm.n; omega
  rw [bind_of_ret (rd_lt hl 0 m), set_def]
  exact ⟨_, rfl, hm.idle, hm.buf, hm.n, hm.window, hm.hier⟩

theorem update_base {M : HierHmm K} (hM : Base M) {n : Nat} (ht : TopAt n M) :
    ∃ M', updateTransitionParameters M = .ret () M' ∧ Base M' ∧ M'.training = M.training ∧ M'.models.map Prod.fst = M.models.map Prod.fst ∧
      TopAt M'.models.length M' := by
  unfold updateTransitionParameters
  rw [bind_of_ret (get_def M)]
  have hsz : M.size = M.models.length := by simp [size, hM.nulls]
  by_cases hs : M.size = M.prior.length
  · rw [if_pos hs, pure_def]
    refine ⟨M, rfl, hM, rfl, rfl, ?_⟩
    rw [ht.prior] at hs
    rw [← hsz, hs]
    exact ht
  · rw [if_neg hs, bind_of_ret (modify_def _ _), bind_of_ret (modify_def _ _)]
    have hu := uniform_top M
    rw [hsz] at hu
    generalize hM1 : updateTransition (updatePrior M) = M1 at hu
    have hf : M1.models = M.models ∧ M1.nulls = M.nulls ∧ M1.hier = M.hier ∧ M1.conf = M.conf ∧ M1.window = M.window ∧ M1.training = M.training := by
      rw [← hM1]; exact ⟨rfl, rfl, rfl, rfl, rfl, rfl⟩
    obtain ⟨f1, f2, f3, f4, f5, f6⟩ := hf
    unfold updateExitProbabilities
    rw [bind_of_ret (get_def _), if_neg (by simp [f2, hM.nulls])]
    obtain ⟨ms, g1, g2, g3⟩ := eachClass_keep (fun _ => Hmm.updateExitProbabilities) Hmm.Idle M1 (fun _ m hm => Idle.exit_ret hm)
      (by rw [f1]; exact hM.cls)
    have hl : ms.length = M.models.length := by
      have := congrArg List.length g2
      simpa [f1] using this
    refine ⟨_, g1, ⟨f3.trans hM.hier, f2.trans hM.nulls, by rw [f4]; exact hM.conf, by rw [f5]; exact hM.window, g3, sorted_of_keys (by rw [← f1]; exact g2) hM.sorted⟩, f6, by rw [← f1]; exact g2, ?_⟩
    show TopAt ms.length _
    rw [hl]
    exact hu.congr rfl rfl rfl

theorem find_mem {l : String} {ms : SMap String (Hmm K)} {c : Hmm K} (h : SMap.find? l ms = some c) : ∃ k, (k, c) ∈ ms := by
  induction ms with
  | nil => simp [SMap.find?] at h
  | cons e ms ih =>
    obtain ⟨k, v⟩ := e
    simp only [SMap.find?] at h
    split at h
    · simp only [Option.some.injEq] at h
      exact ⟨k, by rw [h]; exact List.mem_cons_self⟩
    · obtain ⟨k', hk'⟩ := ih h
      exact ⟨k', List.mem_cons_of_mem _ hk'⟩

theorem add_base {M : HierHmm K} (hM : Base M) {n : Nat} (ht : TopAt n M) (z : K) (l : String) :
    ∃ M', addModelForClass z l M = .ret () M' ∧ Base M' ∧ M'.training = M.training ∧ TopAt M'.models.length M' ∧
      ∀ k, k ∈ SMap.keys M'.models ↔ k = l ∨ k ∈ SMap.keys M.models := by
  unfold addModelForClass
  rw [bind_of_ret (get_def M), bind_of_ret (set_def _ _)]
  have key : ∀ c : Hmm K, c.Idle → ∃ M', updateTransitionParameters ({ M with models := SMap.assign l c M.models } : HierHmm K) = .ret () M' ∧
      Base M' ∧ M'.training = M.training ∧ TopAt M'.models.length M' ∧ ∀ k, k ∈ SMap.keys M'.models ↔ k = l ∨ k ∈ SMap.keys M.models := by
    intro c hc
    have hB : Base ({ M with models := SMap.assign l c M.models } : HierHmm K) := by
      refine ⟨hM.hier, hM.nulls, hM.conf, hM.window, ?_, hM.sorted.assign⟩
      intro lc hlc
      rcases SMap.mem_assign hlc with h | h
      · rw [h]; exact hc
      · exact hM.cls _ h
    obtain ⟨M', h1, h2, h3, h4, h5⟩ := update_base hB (n := n) (ht.congr rfl rfl rfl)
    refine ⟨M', h1, h2, h3, h5, fun k => ?_⟩
    have h4' : SMap.keys M'.models = SMap.keys (SMap.assign l c M.models) := h4
    rw [h4', SMap.mem_keys_iff, SMap.mem_keys_iff]
    simp only [SMap.find?_assign]
    by_cases hk : k = l <;> simp [hk]
  cases hf : SMap.find? l M.models with
  | none => exact key _ ⟨rfl, by simp [newClass, BufOk, CBuf.construct, CBuf.vecResize], hM.conf l, hM.window, rfl⟩
  | some c =>
    obtain ⟨k, hk⟩ := find_mem hf
    have := hM.cls _ hk
    exact key _ ⟨this.idle, this.buf, hM.conf l, this.window, this.hier⟩

theorem clear_base {M : HierHmm K} (hM : Base M) (hi : M.training = false) :
    ∃ M', clear M = .ret () M' ∧ Base M' ∧ M'.training = false ∧ M'.models = [] ∧ TopAt 0 M' := by
  unfold clear
  rw [bind_of_ret (modify_def _ _)]
  have hB : Base ({ M with models := [], nulls := [] } : HierHmm K) :=
    ⟨hM.hier, rfl, hM.conf, hM.window, fun lc hlc => absurd hlc List.not_mem_nil, SMap.sorted_nil⟩
  obtain ⟨M', h1, h2, h3, h4, -⟩ := reset_base hB hi
  have h0 : M'.models = [] := List.map_eq_nil_iff.mp h4
  rw [bind_of_ret h1, modify_def]
  refine ⟨_, rfl, ⟨h2.hier, h2.nulls, h2.conf, h2.window, h2.cls, h2.sorted⟩, h3, h0, ?_⟩
  constructor <;> simp

theorem join_base {M : HierHmm K} (hM : Base M) {n : Nat} (ht : TopAt n M) (t : Training K) (htr : ∀ l c, c.Idle → (t.result l c).Idle) :
    ∃ M', joinTraining t M = .ret () M' ∧ Base M' ∧ M'.training = false ∧ TopAt M'.models.length M' ∧
      ∀ k, k ∈ SMap.keys M'.models ↔ k ∈ SMap.keys M.models ∧ t.ok k = true := by
  unfold joinTraining
  rw [bind_of_ret (modify_def _ _)]
  generalize hms : (M.models.filterMap fun lc => if t.ok lc.1 then some (lc.1, t.result lc.1 lc.2) else none : SMap String (Hmm K)) = ms
  have hB : Base ({ M with models := ms, training := false } : HierHmm K) := by
    refine ⟨hM.hier, hM.nulls, hM.conf, hM.window, ?_, ?_⟩
    rotate_left
    · show SMap.Sorted ms
      rw [← hms]
      refine List.Pairwise.filterMap _ ?_ hM.sorted
      intro a a' haa b hb b' hb'
      split at hb
      · split at hb'
        · simp only [Option.some.injEq] at hb hb'
          rw [← hb, ← hb']
          exact haa
        · simp at hb'
      · simp at hb
    intro lc hlc
    rw [← hms] at hlc
    obtain ⟨a, ha, hh⟩ := List.mem_filterMap.mp hlc
    split at hh
    · simp only [Option.some.injEq] at hh
      rw [← hh]
      exact htr _ _ (hM.cls _ ha)
    · exact absurd hh (by simp)
  obtain ⟨M1, h1, h2, h3, h4, h5, h6, h7⟩ := reset_base hB rfl
  rw [bind_of_ret h1]
  obtain ⟨M', g1, g2, g3, g4, g5⟩ := update_base h2 (n := n) (ht.congr h5 h6 h7)
  refine ⟨M', g1, g2, g3.trans h3, g5, fun k => ?_⟩
  have hk : SMap.keys M'.models = SMap.keys ms := g4.trans h4
  rw [hk, ← hms]
  simp only [SMap.keys, List.mem_map, List.mem_filterMap]
  constructor
  · rintro ⟨a, ⟨b, hb, hh⟩, rfl⟩
    split at hh
    · rename_i hok
      simp only [Option.some.injEq] at hh
      rw [← hh]
      exact ⟨⟨b, hb, rfl⟩, hok⟩
    · simp at hh
  · rintro ⟨⟨b, hb, rfl⟩, hok⟩
    exact ⟨(b.1, t.result b.1 b.2), ⟨b, hb, by rw [if_pos hok]⟩, rfl⟩

theorem end_base {M : HierHmm K} (hM : Base M) (ht : TopAt M.models.length M) (t : Training K) (htr : ∀ l c, c.Idle → (t.result l c).Idle) :
    ∃ M', endTraining t M = .ret () M' ∧ Base M' ∧ M'.training = false ∧ TopAt M'.models.length M' ∧
      SMap.keys M'.models = SMap.keys M.models := by
  unfold endTraining
  rw [modify_def]
  have hkeys : (M.models.map fun lc => (lc.1, t.result lc.1 lc.2)).map Prod.fst = M.models.map Prod.fst := by
    rw [List.map_map]; rfl
  refine ⟨_, rfl, ⟨hM.hier, hM.nulls, hM.conf, hM.window, ?_, sorted_of_keys hkeys hM.sorted⟩, rfl, ?_, hkeys⟩
  · intro lc hlc
    obtain ⟨a, ha, hh⟩ := List.mem_map.mp hlc
    rw [← hh]
    exact htr _ _ (hM.cls _ ha)
  · show TopAt (List.map _ M.models).length _
    rw [List.length_map]
    exact ht.congr rfl rfl rfl

theorem adds_base (z : K) : ∀ (ls : List String) {M : HierHmm K} (_ : Base M) (_ : TopAt M.models.length M),
    ∃ M', (ls.foldlM (fun _ l => addModelForClass z l) () : Prog (HierHmm K) Unit) M = .ret () M' ∧ Base M' ∧ M'.training = M.training ∧
      TopAt M'.models.length M' ∧ ∀ k, k ∈ SMap.keys M'.models ↔ k ∈ ls ∨ k ∈ SMap.keys M.models
  | [], M, hM, ht => ⟨M, rfl, hM, rfl, ht, by simp⟩
  | l :: ls, M, hM, ht => by
    obtain ⟨M1, h1, h2, h3, h4, h5⟩ := add_base hM ht z l
    obtain ⟨M', g1, g2, g3, g4, g5⟩ := adds_base z ls h2 h4
    refine ⟨M', ?_, g2, g3.trans h3, g4, ?_⟩
    · rw [List.foldlM_cons, bind_of_ret h1]
      exact g1
    · intro k
      rw [g5, h5, List.mem_cons]
      tauto

/-- an operation returns, or throws because there is no class to remove; the parameters of the hierarchy follow the classes -/
theorem call_base {M : HierHmm K} (hM : Base M) (hi : M.training = false) (ht : TopAt M.models.length M) (o : ClassOp K) (ho : o.Ok) :
    ∃ M', (o.call M = .ret () M' ∨ o.call M = .throw .outOfRange M' ∧ M' = M ∧ ∃ l, o = .removeClass l ∧ l ∉ SMap.keys M.models) ∧
      Base M' ∧ M'.training = false ∧ TopAt M'.models.length M' ∧ ∀ k, k ∈ SMap.keys M'.models ↔ o.labels (· ∈ SMap.keys M.models) k := by
  cases o with
  | configure conf => exact ⟨_, .inl rfl, ⟨hM.hier, hM.nulls, ho, hM.window, hM.cls, hM.sorted⟩, hi, ht.congr rfl rfl rfl, fun _ => Iff.rfl⟩
  | train z labels parallel t =>
    simp only [ClassOp.call, train, ClassOp.labels]
    by_cases hl : labels = []
    · rw [if_pos (by simp [hl]), pure_def]
      exact ⟨M, .inl rfl, hM, hi, ht, fun k => by simp [hl]⟩
    · rw [if_neg (by simpa using hl)]
      simp only [if_neg hl]
      obtain ⟨M1, h1, h2, h3, h4, h5⟩ := clear_base hM hi
      rw [bind_of_ret h1, bind_of_ret (modify_def _ _)]
      have hB : Base ({ M1 with training := true } : HierHmm K) := ⟨h2.hier, h2.nulls, h2.conf, h2.window, h2.cls, h2.sorted⟩
      obtain ⟨M2, g1, g2, -, g4, g5⟩ := adds_base z labels hB (by
        show TopAt M1.models.length _
        rw [h4]; exact h5.congr rfl rfl rfl)
      have g5' : ∀ k, k ∈ SMap.keys M2.models ↔ k ∈ labels := fun k => by
        rw [g5]
        simp [h4, SMap.keys]
      rw [bind_of_ret g1]
      cases parallel with
      | true =>
        obtain ⟨M3, k1, k2, k3, k4, k5⟩ := join_base g2 g4 t ho
        exact ⟨M3, .inl k1, k2, k3, k4, fun k => by rw [k5, g5']; simp⟩
      | false =>
        obtain ⟨M3, k1, k2, k3, k4, k5⟩ := end_base g2 g4 t ho
        exact ⟨M3, .inl k1, k2, k3, k4, fun k => by rw [k5, g5']; simp⟩
  | trainClass z label parallel t =>
    simp only [ClassOp.call, trainClass, ClassOp.labels]
    rw [bind_of_ret (modify_def _ _)]
    have hB : Base ({ M with training := true } : HierHmm K) := ⟨hM.hier, hM.nulls, hM.conf, hM.window, hM.cls, hM.sorted⟩
    obtain ⟨M2, g1, g2, -, g4, g5⟩ := add_base hB (n := M.models.length) (ht.congr rfl rfl rfl) z label
    rw [bind_of_ret g1]
    have ht' : ∀ l c, c.Idle → (if l = label then t.result l c else c).Idle := by
      intro l c hc
      split
      · exact ho l c hc
      · exact hc
    cases parallel with
    | true =>
      obtain ⟨M3, k1, k2, k3, k4, k5⟩ := join_base g2 g4 ⟨fun l c => if l = label then t.result l c else c, fun l => l ≠ label ∨ t.ok l⟩ ht'
      refine ⟨M3, .inl k1, k2, k3, k4, fun k => ?_⟩
      rw [k5, g5]
      by_cases hk : k = label <;> simp [hk]
    | false =>
      obtain ⟨M3, k1, k2, k3, k4, k5⟩ := end_base g2 g4 ⟨fun l c => if l = label then t.result l c else c, fun l => l ≠ label ∨ t.ok l⟩ ht'
      refine ⟨M3, .inl k1, k2, k3, k4, fun k => ?_⟩
      rw [k5, g5]
      by_cases hk : k = label <;> simp [hk]
  | removeClass label =>
    simp only [ClassOp.call, removeClass, ClassOp.labels]
    rw [bind_of_ret (get_def M)]
    cases hf : SMap.find? label M.models with
    | none =>
      have hn : label ∉ SMap.keys M.models := by
        intro h
        obtain ⟨v, hv⟩ := SMap.mem_keys_iff.mp h
        rw [hf] at hv
        simp at hv
      exact ⟨M, .inr ⟨rfl, rfl, label, rfl, hn⟩, hM, hi, ht, fun k => ⟨fun h => ⟨fun he => hn (he ▸ h), h⟩, fun h => h.2⟩⟩
    | some c =>
      simp only
      rw [bind_of_ret (set_def _ _)]
      have hB : Base ({ M with models := SMap.erase label M.models } : HierHmm K) :=
        ⟨hM.hier, hM.nulls, hM.conf, hM.window, fun lc hlc => hM.cls _ (SMap.mem_erase hlc), hM.sorted.erase⟩
      obtain ⟨M1, h1, h2, h3, h4, h5, h6, h7⟩ := reset_base hB hi
      rw [bind_of_ret h1]
      obtain ⟨M', g1, g2, g3, g4, g5⟩ := update_base h2 (n := M.models.length) (ht.congr h5 h6 h7)
      refine ⟨M', .inl g1, g2, g3.trans h3, g5, fun k => ?_⟩
      have hk : SMap.keys M'.models = SMap.keys (SMap.erase label M.models) := g4.trans h4
      rw [hk, SMap.mem_keys_iff, SMap.mem_keys_iff]
      simp only [SMap.find?_erase hM.sorted]
      by_cases hk : k = label <;> simp [hk]
  | clear =>
    obtain ⟨M1, h1, h2, h3, h4, h5⟩ := clear_base hM hi
    exact ⟨M1, .inl h1, h2, h3, by rw [h4]; exact h5, fun k => by simp [h4, SMap.keys, ClassOp.labels]⟩
  | reset =>
    obtain ⟨M1, h1, h2, h3, h4, h5, h6, h7⟩ := reset_base hM hi
    refine ⟨M1, .inl h1, h2, h3, ?_, fun k => ?_⟩
    · have hl : M1.models.length = M.models.length := by simpa using congrArg List.length h4
      rw [hl]
      exact ht.congr h5 h6 h7
    · have hk : SMap.keys M1.models = SMap.keys M.models := h4
      rw [hk]
      exact Iff.rfl

theorem history_base : ∀ (ops : List (ClassOp K)) {M : HierHmm K} (_ : Base M) (_ : M.training = false) (_ : TopAt M.models.length M)
    (_ : ∀ o ∈ ops, o.Ok), ∃ M', history ops M = some M' ∧ Base M' ∧ M'.training = false ∧ TopAt M'.models.length M' ∧
      ∀ k, k ∈ SMap.keys M'.models ↔ ops.foldl (fun S o => o.labels S) (· ∈ SMap.keys M.models) k
  | [], M, hM, hi, ht, _ => ⟨M, rfl, hM, hi, ht, fun _ => Iff.rfl⟩
  | o :: os, M, hM, hi, ht, ho => by
    obtain ⟨M1, h1, h2, h3, h4, h5⟩ := call_base hM hi ht o (ho o List.mem_cons_self)
    obtain ⟨M', g1, g2, g3, g4, g5⟩ := history_base os h2 h3 h4 (fun o h => ho o (List.mem_cons_of_mem _ h))
    refine ⟨M', ?_, g2, g3, g4, fun k => ?_⟩
    · simp only [history]
      rcases h1 with h1 | ⟨h1, -⟩ <;> rw [h1] <;> exact g1
    · rw [g5, List.foldl_cons, show (fun l => l ∈ SMap.keys M1.models) = o.labels (· ∈ SMap.keys M.models) from funext fun l => propext (h5 l)]

/-- a new model -/
structure New (M : HierHmm K) : Prop where
  empty : M.models = [] ∧ M.nulls = [] ∧ M.prior = [] ∧ M.exitTrans = [] ∧ M.trans = []
  idle : M.training = false
  window : 1 ≤ M.window
  conf : ∀ l, 1 ≤ (M.conf l).n

theorem New.base {M : HierHmm K} (h : New M) (hh : M.hier = true) : Base M ∧ TopAt M.models.length M := by
  obtain ⟨e1, e2, e3, e4, e5⟩ := h.empty
  refine ⟨⟨hh, e2, h.conf, h.window, by simp [e1], by rw [e1]; exact SMap.sorted_nil⟩, ?_⟩
  rw [e1]
  constructor <;> simp [e3, e4, e5]

/-- **C49**: a new hierarchical model has one prior, one exit transition and one row of transitions per class, the prior and every row sum to 1,
    after every history of training (with threads that are joined, or without), removal of classes and clearing, whatever the outcome of the
    training of each class; none of these calls has undefined behaviour.  (Partial: in the hierarchical mode.) -/
theorem C49_history_partial (M : HierHmm K) (h0 : New M) (hh : M.hier = true) (ops : List (ClassOp K)) (ho : ∀ o ∈ ops, o.Ok) :
    ∃ M', history ops M = some M' ∧ M'.Top := by
  obtain ⟨hB, hT⟩ := h0.base hh
  obtain ⟨M', g1, -, -, g4, -⟩ := history_base ops hB h0.idle hT ho
  exact ⟨M', g1, g4.top⟩

/-- **C77**: after every such history the classes are those that have been trained and neither removed since, nor cleared, nor lost by a failed training;
    their labels are in increasing order, and the model is not in training. -/
theorem C77_class_set_partial (M : HierHmm K) (h0 : New M) (hh : M.hier = true) (ops : List (ClassOp K)) (ho : ∀ o ∈ ops, o.Ok) :
    ∃ M', history ops M = some M' ∧ M'.training = false ∧ SMap.Sorted M'.models ∧
      ∀ l, (∃ c, (l, c) ∈ M'.models) ↔ ops.foldl (fun S o => o.labels S) (fun _ => False) l := by
  obtain ⟨hB, hT⟩ := h0.base hh
  obtain ⟨M', g1, g2, g3, g4, g5⟩ := history_base ops hB h0.idle hT ho
  refine ⟨M', g1, g3, g2.sorted, fun l => ?_⟩
  rw [show (fun _ : String => False) = (· ∈ SMap.keys M.models) by funext l; simp [h0.empty.1, SMap.keys], ← g5]
  simp [SMap.keys]

/-- **C77**: removing a class that is not there throws and changes nothing; removing a class that is there returns. -/
theorem C77_remove (M : HierHmm K) (h0 : New M) (hh : M.hier = true) (ops : List (ClassOp K)) (ho : ∀ o ∈ ops, o.Ok) (label : String) :
    ∃ M', history ops M = some M' ∧ ((∃ c, (label, c) ∈ M'.models) → ∃ M'', removeClass label M' = .ret () M'') ∧
      ((¬ ∃ c, (label, c) ∈ M'.models) → removeClass label M' = .throw .outOfRange M') := by
  obtain ⟨hB, hT⟩ := h0.base hh
  obtain ⟨M', g1, g2, g3, g4, g5⟩ := history_base ops hB h0.idle hT ho
  refine ⟨M', g1, ?_⟩
  obtain ⟨M'', k1, -⟩ := call_base g2 g3 g4 (.removeClass label) trivial
  have hmem : (∃ c, (label, c) ∈ M'.models) ↔ label ∈ SMap.keys M'.models := by simp [SMap.keys]
  refine ⟨fun h => ?_, fun h => ?_⟩
  · rcases k1 with k1 | ⟨-, -, l, hl, hk⟩
    · exact ⟨M'', k1⟩
    · simp only [ClassOp.removeClass.injEq] at hl
      exact absurd (hmem.mp h) (hl ▸ hk)
  · have hf : SMap.find? label M'.models = none := by
      cases hf : SMap.find? label M'.models with
      | none => rfl
      | some c => exact absurd (hmem.mpr (SMap.mem_keys_iff.mpr ⟨c, hf⟩)) h
    unfold removeClass
    rw [bind_of_ret (get_def M')]
    simp only [hf, throw_def]

/-! ### The non-hierarchical mode -/

theorem length_assign_new {l : String} {c : Hmm K} : ∀ {ms : SMap String (Hmm K)}, l ∉ SMap.keys ms → (SMap.assign l c ms).length = ms.length + 1
  | [], _ => rfl
  | (k, v) :: ms, h => by
    simp only [SMap.keys, List.map_cons, List.mem_cons, not_or] at h
    simp only [SMap.assign]
    split
    · rfl
    · rw [if_neg (by simpa using h.1)]
      simp only [List.length_cons]
      rw [length_assign_new h.2]

theorem mem_assign_new {l : String} {c : Hmm K} : ∀ {ms : SMap String (Hmm K)}, l ∉ SMap.keys ms → ∀ x, x ∈ SMap.assign l c ms ↔ x = (l, c) ∨ x ∈ ms
  | [], _, x => by simp [SMap.assign]
  | (k, v) :: ms, h, x => by
    simp only [SMap.keys, List.map_cons, List.mem_cons, not_or] at h
    simp only [SMap.assign]
    split
    · simp
    · rw [if_neg (by simpa using h.1)]
      simp only [List.mem_cons, mem_assign_new h.2]
      tauto

/-- the default exit probabilities are not set in a class outside the hierarchical mode -/
theorem exits_throw (M : HierHmm K) (hn : M.nulls = []) (h1 : ∀ lc ∈ M.models, 1 ≤ lc.2.n) (h2 : ∃ lc ∈ M.models, lc.2.hier = false) :
    ∃ ms : SMap String (Hmm K), updateExitProbabilities M = .throw .runtimeError { M with models := ms } ∧ ms.map Prod.fst = M.models.map Prod.fst := by
  unfold updateExitProbabilities
  rw [bind_of_ret (get_def M), if_neg (by simp [hn])]
  have key : ∀ n ≤ M.models.length, (∃ ms : SMap String (Hmm K), loop n () (fun _ i => onClass i Hmm.updateExitProbabilities) M = .ret () { M with models := ms } ∧
        ms.map Prod.fst = M.models.map Prod.fst ∧ (∀ lc ∈ ms, 1 ≤ lc.2.n) ∧ (∀ i < n, ∀ lc, M.models[i]? = some lc → lc.2.hier = true) ∧
        ∀ i, n ≤ i → ms[i]? = M.models[i]?) ∨
      ∃ ms : SMap String (Hmm K), loop n () (fun _ i => onClass i Hmm.updateExitProbabilities) M = .throw .runtimeError { M with models := ms } ∧
        ms.map Prod.fst = M.models.map Prod.fst := by
    intro n
    induction n with
    | zero => exact fun _ => .inl ⟨M.models, rfl, rfl, h1, by simp, fun _ _ => rfl⟩
    | succ n ih =>
      intro hle
      rcases ih (by omega) with ⟨ms, e1, e2, e3, e4, e5⟩ | ⟨ms, e1, e2⟩
      · have hl : n < ms.length := by
          have := congrArg List.length e2
          simp only [List.length_map] at this
          omega
        have hg : ms[n]? = some ms[n] := List.getElem?_eq_getElem hl
        have hkeys : ∀ c', (ms.set n (ms[n].1, c')).map Prod.fst = M.models.map Prod.fst := by
          intro c'
          rw [List.map_set, ← e2]
          show (ms.map Prod.fst).set n ms[n].1 = ms.map Prod.fst
          rw [show ms[n].1 = (ms.map Prod.fst)[n]'(by simpa using hl) by simp, List.set_getElem_self]
        rw [loop_succ, e1]
        simp only [onClass]
        rw [show ({ M with models := ms } : HierHmm K).models[n]? = some ms[n] from hg]
        simp only
        cases hh : ms[n].2.hier with
        | false =>
          right
          refine ⟨ms.set n (ms[n].1, ms[n].2), ?_, hkeys _⟩
          have : Hmm.updateExitProbabilities ms[n].2 = .throw .runtimeError ms[n].2 := by
            unfold Hmm.updateExitProbabilities
            rw [bind_of_ret (get_def _), if_pos (by simp [hh]), throw_def]
          rw [this]
        | true =>
          left
          have hl' : ms[n].2.n - 1 < (resize ms[n].2.n ms[n].2.exitP).length := by
            rw [length_resize]; have := e3 _ (List.getElem_mem hl); omega
          obtain ⟨c', hc', hcn⟩ : ∃ c', Hmm.updateExitProbabilities ms[n].2 = .ret () c' ∧ c'.n = ms[n].2.n := by
            unfold Hmm.updateExitProbabilities
            rw [bind_of_ret (get_def _), if_neg (by simp [hh]), bind_of_ret (rd_lt hl' 0 _), set_def]
            exact ⟨_, rfl, rfl⟩
          refine ⟨ms.set n (ms[n].1, c'), by rw [hc'], hkeys _, ?_, ?_, ?_⟩
          · intro lc hlc
            rcases List.mem_or_eq_of_mem_set hlc with h | h
            · exact e3 lc h
            · rw [h]
              show 1 ≤ c'.n
              rw [hcn]; exact e3 _ (List.getElem_mem hl)
          · intro i hi lc hlc
            rcases Nat.lt_succ_iff_lt_or_eq.mp hi with h | h
            · exact e4 i h lc hlc
            · rw [h, ← e5 n le_rfl, hg] at hlc
              simp only [Option.some.injEq] at hlc
              rw [← hlc]; exact hh
          · intro i hi
            rw [List.getElem?_set_ne (by omega)]
            exact e5 i (by omega)
      · right
        refine ⟨ms, ?_, e2⟩
        rw [loop_succ, e1]
  rcases key _ le_rfl with ⟨ms, -, -, -, e4, -⟩ | h
  · exfalso
    obtain ⟨lc, hlc, hf⟩ := h2
    obtain ⟨i, hi⟩ := List.getElem?_of_mem hlc
    have := e4 i (by
      by_contra hge
      rw [List.getElem?_eq_none (by omega)] at hi
      simp at hi) lc hi
    rw [hf] at this
    simp at this
  · exact h

/-- C78 is violated in the non-hierarchical mode, by every model with a class that has been trained: the call that trains a further class throws, and the model then is
    in training for ever: filtering and `reset()` throw. -/
theorem C78_train_class_violated (M : HierHmm K) (hn : M.nulls = []) (hp : M.prior.length = M.models.length) (h1 : ∀ lc ∈ M.models, 1 ≤ lc.2.n)
    (hc : ∀ l, 1 ≤ (M.conf l).n) (h2 : ∃ lc ∈ M.models, lc.2.hier = false) (label : String) (hl : ∀ c, (label, c) ∉ M.models) (z : K) (parallel : Bool)
    (t : Training K) :
    ∃ M', trainClass z label parallel t M = .throw .runtimeError M' ∧ (∃ c, (label, c) ∈ M'.models) ∧
      (∀ D log exp x, filter D log exp x M' = .throw .runtimeError M') ∧ reset M' = .throw .runtimeError M' := by
  have hk : label ∉ SMap.keys M.models := by
    simp only [SMap.keys, List.mem_map, not_exists, not_and]
    rintro ⟨k, c⟩ hkc rfl
    exact hl c hkc
  have hf : SMap.find? label M.models = none := by
    cases h : SMap.find? label M.models with
    | none => rfl
    | some c => exact absurd (SMap.mem_keys_iff.mpr ⟨c, h⟩) hk
  unfold trainClass
  rw [bind_of_ret (modify_def _ _)]
  have hadd : ∃ M', addModelForClass z label ({ M with training := true } : HierHmm K) = .throw .runtimeError M' ∧ (∃ c, (label, c) ∈ M'.models) ∧
        M'.training = true := by
    unfold addModelForClass
    rw [bind_of_ret (get_def _), bind_of_ret (set_def _ _)]
    rw [show SMap.find? label ({ M with training := true } : HierHmm K).models = none from hf]
    simp only
    generalize hc0 : newClass ({ M with training := true } : HierHmm K) (M.conf label) z = c
    have hcn : 1 ≤ c.n := by rw [← hc0]; exact hc label
    unfold updateTransitionParameters
    rw [bind_of_ret (get_def _)]
    have hlen := length_assign_new (c := c) hk
    rw [if_neg (by
      show ¬ ((SMap.assign label c M.models).length + M.nulls.length = M.prior.length)
      rw [hn, hlen, hp]
      simp), bind_of_ret (modify_def _ _), bind_of_ret (modify_def _ _)]
    have hmem := mem_assign_new (c := c) hk
    obtain ⟨ms, g1, g2⟩ := exits_throw (updateTransition (updatePrior ({ M with training := true, models := SMap.assign label c M.models } : HierHmm K)))
      hn (by
        intro lc hlc
        rcases (hmem lc).mp hlc with h | h
        · rw [h]; exact hcn
        · exact h1 lc h) (by
        obtain ⟨lc, hlc, he⟩ := h2
        exact ⟨lc, (hmem lc).mpr (.inr hlc), he⟩)
    refine ⟨_, g1, ?_, rfl⟩
    have : label ∈ ms.map Prod.fst := by
      rw [g2]
      exact List.mem_map.mpr ⟨(label, c), (hmem _).mpr (.inl rfl), rfl⟩
    obtain ⟨⟨k, c'⟩, hkc, rfl⟩ := List.mem_map.mp this
    exact ⟨c', hkc⟩
  obtain ⟨M', e1, e2, e3⟩ := hadd
  have hct : checkTraining M' = .throw .runtimeError M' := by
    simp [checkTraining, e3]
  refine ⟨M', ?_, e2, ?_, ?_⟩
  · rw [bind_def, e1]
  · intro D log exp x
    unfold filter
    rw [bind_def, hct]
  · unfold reset
    rw [bind_def, hct]

/-- a class that can be reset in both modes -/
structure Flat (m : Hmm K) : Prop where
  idle : m.training = false
  buf : BufOk m.buf
  n : 1 ≤ m.n
  window : 1 ≤ m.window
  trans : m.trans.length = if m.ergodic then m.n * m.n else m.n * 2

theorem Flat.cyclic_ret {m : Hmm K} (hm : Flat m) (p : K) : ∃ m', Hmm.addCyclicTransition p m = .ret () m' ∧ Flat m' ∧ m'.hier = m.hier := by
  unfold addCyclicTransition
  have h0 := hm.trans
  rw [bind_of_ret (get_def _), bind_of_ret (Hmm.checkTraining_idle hm.idle)]
  by_cases h1n : 1 < m.n
  · have hset : ∀ k, k < m.trans.length → ∃ m', Hmm.setTrans k p m = .ret () m' ∧ Flat m' ∧ m'.hier = m.hier := by
      intro k hk
      unfold Hmm.setTrans
      rw [bind_of_ret (get_def _), bind_of_ret (rd_lt hk 0 _), set_def]
      refine ⟨_, rfl, ⟨hm.idle, hm.buf, hm.n, hm.window, ?_⟩, rfl⟩
      simpa using hm.trans
    have hsq : (m.n - 1) * m.n < m.n * m.n := Nat.mul_lt_mul_of_pos_right (by omega) (by omega)
    rcases Bool.eq_false_or_eq_true m.ergodic with he | he
    · rw [if_pos he, if_pos h1n]
      exact hset _ (by rw [h0, he]; simpa using hsq)
    · rw [if_neg (by simp [he]), if_pos h1n]
      exact hset _ (by rw [h0, he]; simp; omega)
  · refine ⟨m, ?_, hm, rfl⟩
    rw [if_neg h1n, if_neg h1n, ite_self, pure_def]

theorem Flat.reset_ret {m : Hmm K} (hm : Flat m) : ∃ m', Hmm.reset m = .ret () m' ∧ Flat m' ∧ m'.hier = m.hier := by
  obtain ⟨b, h1, h2⟩ := resetBuffer_ret hm.buf m.window hm.window
  unfold Hmm.reset
  rw [bind_of_ret (Hmm.checkTraining_idle hm.idle), bind_of_ret (get_def m), bind_of_ret (onBuf_ret h1), bind_of_ret (modify_def _ _)]
  have hm' : Flat ({ ({ m with buf := b } : Hmm K) with started := false } : Hmm K) := ⟨hm.idle, Logs.bufOk h2, hm.n, hm.window, hm.trans⟩
  rcases Bool.eq_false_or_eq_true m.hier with hh | hh
  · rw [if_pos hh, modify_def]
    exact ⟨_, rfl, ⟨hm.idle, Logs.bufOk h2, hm.n, hm.window, hm.trans⟩, rfl⟩
  · rw [if_neg (by simp [hh])]
    exact hm'.cyclic_ret _

/-- `reset()` in the non-hierarchical mode -/
theorem reset_flat {M : HierHmm K} (hf : M.hier = false) (hn : M.nulls = []) (hc : ∀ lc ∈ M.models, Flat lc.2) (hi : M.training = false) :
    ∃ M', reset M = .ret () M' ∧ (∀ lc ∈ M'.models, Flat lc.2 ∧ lc.2.hier = false) ∧ M'.nulls = [] ∧ M'.training = false ∧
      M'.models.map Prod.fst = M.models.map Prod.fst ∧ M'.prior = M.prior := by
  unfold reset
  rw [bind_of_ret (checkTraining_idle hi), bind_of_ret (get_def M), if_neg (by simp [hn])]
  obtain ⟨ms, h1, h2, h3⟩ := eachClass_keep (fun _ => Hmm.reset) Flat M (fun _ m hm => by
    obtain ⟨m', e1, e2, -⟩ := hm.reset_ret
    exact ⟨m', e1, e2⟩) hc
  rw [bind_of_ret h1, bind_of_ret (modify_def _ _)]
  generalize hM1 : ({ ({ M with models := ms } : HierHmm K) with
      results := MultiRes.resetResults (HierHmm.size { M with models := ms }) M.bimodal (M.dim - M.di) M.mode M.results
      front1 := resize (HierHmm.size { M with models := ms }) M.front1
      front2 := resize (HierHmm.size { M with models := ms }) M.front2
      started := false } : HierHmm K) = M1
  have hlen : M.models.length = M1.models.length := by
    rw [← hM1]
    have := congrArg List.length h2
    simpa using this.symm
  rw [hlen]
  have hloop : ∃ ms' : SMap String (Hmm K), loop M1.models.length () (fun _ i => onClass i (resetClass M.hier)) M1 = .ret () { M1 with models := ms' } ∧
      ms'.map Prod.fst = M1.models.map Prod.fst ∧ ∀ lc ∈ ms', Flat lc.2 ∧ lc.2.hier = false := by
    have key : ∀ n ≤ M1.models.length, ∃ ms' : SMap String (Hmm K),
        loop n () (fun _ i => onClass i (resetClass M.hier)) M1 = .ret () { M1 with models := ms' } ∧
        ms'.map Prod.fst = M1.models.map Prod.fst ∧ ∀ i lc, ms'[i]? = some lc → Flat lc.2 ∧ (i < n → lc.2.hier = false) := by
      intro n
      induction n with
      | zero =>
        refine fun _ => ⟨M1.models, rfl, rfl, fun i lc hlc => ⟨?_, by simp⟩⟩
        rw [← hM1] at hlc
        exact h3 _ (List.mem_of_getElem? hlc)
      | succ n ih =>
        intro hle
        obtain ⟨ms', e1, e2, e3⟩ := ih (by omega)
        have hl : n < ms'.length := by
          have := congrArg List.length e2
          simp only [List.length_map] at this
          omega
        have hg : ms'[n]? = some ms'[n] := List.getElem?_eq_getElem hl
        have hfl := (e3 n _ hg).1
        obtain ⟨c', c1, c2, c3⟩ := Flat.reset_ret (m := { ms'[n].2 with hier := M.hier }) ⟨hfl.idle, hfl.buf, hfl.n, hfl.window, hfl.trans⟩
        refine ⟨ms'.set n (ms'[n].1, c'), ?_, ?_, ?_⟩
        · rw [loop_succ, e1]
          simp only [onClass]
          rw [show ({ M1 with models := ms' } : HierHmm K).models[n]? = some ms'[n] from hg]
          simp only
          have : resetClass M.hier ms'[n].2 = .ret () c' := by
            unfold resetClass
            rw [bind_of_ret (modify_def _ _)]
            exact c1
          rw [this]
        · rw [List.map_set, ← e2]
          show (ms'.map Prod.fst).set n ms'[n].1 = ms'.map Prod.fst
          rw [show ms'[n].1 = (ms'.map Prod.fst)[n]'(by simpa using hl) by simp, List.set_getElem_self]
        · intro i lc hlc
          by_cases hin : i = n
          · rw [hin, List.getElem?_set_self hl] at hlc
            simp only [Option.some.injEq] at hlc
            rw [← hlc]
            exact ⟨c2, fun _ => c3.trans hf⟩
          · rw [List.getElem?_set_ne (by omega)] at hlc
            exact ⟨(e3 i lc hlc).1, fun h => (e3 i lc hlc).2 (by omega)⟩
    obtain ⟨ms', e1, e2, e3⟩ := key _ le_rfl
    refine ⟨ms', e1, e2, fun lc hlc => ?_⟩
    obtain ⟨i, hi'⟩ := List.getElem?_of_mem hlc
    refine ⟨(e3 i lc hi').1, (e3 i lc hi').2 ?_⟩
    have := congrArg List.length e2
    simp only [List.length_map] at this
    by_contra hge
    rw [List.getElem?_eq_none (by omega)] at hi'
    simp at hi'
  obtain ⟨ms', g1, g2, g3⟩ := hloop
  refine ⟨_, g1, g3, ?_, ?_, ?_, ?_⟩
  · rw [← hM1]; exact hn
  · rw [← hM1]; exact hi
  · rw [← hM1] at g2; exact g2.trans h2
  · rw [← hM1]

theorem length_erase {l : String} {c : Hmm K} : ∀ {ms : SMap String (Hmm K)}, SMap.find? l ms = some c → (SMap.erase l ms).length + 1 = ms.length
  | [], h => by simp [SMap.find?] at h
  | (k, v) :: ms, h => by
    simp only [SMap.find?] at h
    simp only [SMap.erase]
    split at h
    · rename_i hk; simp [hk]
    · rename_i hk
      rw [if_neg hk, List.length_cons, length_erase h, List.length_cons]

/-- C78 is violated in the non-hierarchical mode: the call that removes one of several classes removes it and throws. -/
theorem C78_remove_class_violated (M : HierHmm K) (hf : M.hier = false) (hn : M.nulls = []) (hi : M.training = false)
    (hp : M.prior.length = M.models.length) (hc : ∀ lc ∈ M.models, Flat lc.2) (hs : SMap.Sorted M.models) (label : String) (c : Hmm K)
    (hl : (label, c) ∈ M.models) (h2 : 2 ≤ M.models.length) :
    ∃ M', removeClass label M = .throw .runtimeError M' ∧ ∀ l, (∃ c, (l, c) ∈ M'.models) ↔ l ≠ label ∧ ∃ c, (l, c) ∈ M.models := by
  have hfind := (SMap.mem_iff_find? hs).mp hl
  have hlen := length_erase hfind
  unfold removeClass
  rw [bind_of_ret (get_def M)]
  simp only [hfind]
  rw [bind_of_ret (set_def _ _)]
  obtain ⟨M1, e1, e2, e3, e4, e5, e6⟩ := reset_flat (M := { M with models := SMap.erase label M.models }) hf hn
    (fun lc hlc => hc _ (SMap.mem_erase hlc)) hi
  have hlen1 : M1.models.length = (SMap.erase label M.models).length := by simpa using congrArg List.length e5
  rw [bind_of_ret e1]
  unfold updateTransitionParameters
  rw [bind_of_ret (get_def _), if_neg (by
    show ¬ (M1.models.length + M1.nulls.length = M1.prior.length)
    rw [e3, hlen1, e6]
    simp only [List.length_nil]
    omega), bind_of_ret (modify_def _ _), bind_of_ret (modify_def _ _)]
  obtain ⟨ms, g1, g2⟩ := exits_throw (updateTransition (updatePrior M1)) e3 (fun lc hlc => (e2 lc hlc).1.n) (by
    have : 0 < M1.models.length := by omega
    exact ⟨_, List.getElem_mem this, (e2 _ (List.getElem_mem this)).2⟩)
  refine ⟨_, g1, fun l => ?_⟩
  have hk : SMap.keys ms = SMap.keys (SMap.erase label M.models) := g2.trans e5
  have hmem : ∀ ms : SMap String (Hmm K), (∃ c, (l, c) ∈ ms) ↔ l ∈ SMap.keys ms := fun ms => by simp [SMap.keys]
  rw [hmem, hmem]
  show l ∈ SMap.keys ms ↔ _
  rw [hk, SMap.mem_keys_iff, SMap.mem_keys_iff]
  simp only [SMap.find?_erase hs]
  by_cases hll : l = label <;> simp [hll]

/-- a trained model, switched to the non-hierarchical mode and reset -/
theorem flat_exists : ∃ M0 M : HierHmm ℝ, M0.Trained ∧ M0.models.length = 2 ∧ reset { M0 with hier := false } = .ret () M ∧ M.nulls = [] ∧
    M.training = false ∧ M.prior.length = M.models.length ∧ (∀ lc ∈ M.models, Flat lc.2 ∧ lc.2.hier = false) ∧ M.models.length = 2 ∧ SMap.Sorted M.models := by
  obtain ⟨M0, h1, h2, -⟩ := trained_exists false .full
  have hfl : ∀ lc ∈ M0.models, Flat lc.2 := by
    intro lc hlc
    obtain ⟨k1, -, -, k4⟩ := h1.cls lc hlc
    exact ⟨k1.can.idle, k4, k1.can.wf.pos, k1.can.window, k1.can.wf.trans⟩
  obtain ⟨M, e1, e2, e3, e4, e5, e6⟩ := reset_flat (M := { M0 with hier := false }) rfl h1.nulls hfl h1.idle
  have hl : M.models.length = M0.models.length := by simpa using congrArg List.length e5
  refine ⟨M0, M, h1, h2, e1, e3, e4, ?_, e2, hl.trans h2, sorted_of_keys e5 h1.sorted⟩
  rw [e6, hl]
  exact h1.top.prior

/-- C49, C77: a history -/
example (conf : String → HmmParams ℚ) (hc : ∀ l, 1 ≤ (conf l).n) (t : Training ℚ) (ht : ∀ l c, c.Idle → (t.result l c).Idle) :
    ∀ o ∈ ([.configure conf, .train 0 ["b", "a"] true t, .removeClass "a", .trainClass 0 "c" false t, .reset, .removeClass "d", .clear] : List (ClassOp ℚ)), o.Ok := by
  intro o ho
  simp only [List.mem_cons, List.not_mem_nil, or_false] at ho
  rcases ho with rfl | rfl | rfl | rfl | rfl | rfl | rfl
  · exact hc
  · exact ht
  · trivial
  · exact ht
  · trivial
  · trivial
  · trivial

end HierHmm
end Xmm
