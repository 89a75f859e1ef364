import Verif.Props.HierReport
import Verif.Props.GmmModel
set_option linter.unusedSimpArgs false
set_option linter.unusedSectionVars false
/- `filter` of a hierarchical model: C48 and the results of the model. -/
namespace Xmm
open Phrase (loop)
open Gauss (rd rd_lt)
open Prog (bind_def pure_def get_def set_def modify_def throw_def undef_def)
namespace HierHmm
variable {K : Type} [Field K] [LinearOrder K] [IsStrictOrderedRing K]
open HierSpec Hmm

/-- a loop over the classes -/
theorem eachClass_rel (M : HierHmm K) (f : Nat → Prog (Hmm K) Unit) (R : Nat → String × Hmm K → Hmm K → Prop)
    (h : ∀ (i : Nat) (lc : String × Hmm K), M.models[i]? = some lc → ∃ m', f i lc.2 = .ret () m' ∧ R i lc m') :
    ∃ l, loop M.models.length () (fun _ c => onClass c (f c)) M = .ret () { M with models := l } ∧ l.length = M.models.length ∧
      ∀ (i : Nat) (lc : String × Hmm K), M.models[i]? = some lc → ∃ m', l[i]? = some (lc.1, m') ∧ R i lc m' := by
  let g : Nat → Hmm K → Hmm K := fun i m => match f i m with
    | .ret _ m' => m'
    | _ => m
  refine ⟨_, eachClass_unit M f g fun i lc hlc => ?_, by simp, fun i lc hlc => ?_⟩
  · obtain ⟨m', h1, _⟩ := h i lc hlc
    simp only [g, h1]
  · obtain ⟨m', h1, h2⟩ := h i lc hlc
    refine ⟨m', ?_, h2⟩
    rw [List.getElem?_mapIdx, hlc]
    simp only [Option.map_some, g, h1]

/-- a class after the forward algorithm -/
def heardClass (M : HierHmm K) (b : Nat → Nat → K) (c : Nat) (m : Hmm K) : Hmm K :=
  if M.started then
    divided (evidence M b) (updated (M.exitTrans.getD c 0) (fun k => b c k * predicted m (entering M c) k) m)
  else divided (initNorm M b) (begun (M.prior.getD c 0) (b c) m)

/-- the model after the forward algorithm -/
def heard (M : HierHmm K) (b : Nat → Nat → K) : HierHmm K :=
  { M with
    models := M.models.mapIdx fun c lc => (lc.1, heardClass M b c lc.2)
    front1 := if M.started then (List.range M.models.length).map (leaving M 1) else M.front1
    front2 := if M.started then (List.range M.models.length).map (leaving M 2) else M.front2
    started := true }

theorem forward_ret (D : Dens K) (log : K → K) (M : HierHmm K) (hu : M.Usable) (x : List K) (b : Nat → Nat → K) (hb : HierSpec.Emits D M x b) :
    forward D log x M = .ret () (heard M b) := by
  unfold forward
  rw [if_pos hu.hier]
  rcases bool_cases M.started with hs | hs
  · rw [if_neg (by simp [hs]), forwardInit_ret D M hu.ready x b hb]
    unfold heard heardClass
    simp only [hs, Bool.false_eq_true, if_false]
  · rw [if_pos hs, forwardUpdate_ret D M hu.ready (fun lc hlc => by
      obtain ⟨h1, h2, h3⟩ := (hu.alpha hs).1 lc hlc
      exact ⟨h1, h2, h3, (hu.ready.cls lc hlc).1.exit⟩) x b hb]
    unfold heard heardClass next
    simp only [hs, if_true]

theorem heard_get {M : HierHmm K} {b : Nat → Nat → K} {c : Nat} {lc : String × Hmm K} (h : M.models[c]? = some lc) :
    (heard M b).models[c]? = some (lc.1, heardClass M b c lc.2) := by
  unfold heard
  rw [List.getElem?_mapIdx, h]
  rfl

theorem heardClass_same (M : HierHmm K) (b : Nat → Nat → K) (c : Nat) (m : Hmm K) (hm : m.CanFilter) : m.SameClass (heardClass M b c m) := by
  unfold heardClass
  split
  · exact ⟨rfl, SameStates.refl _ hm.state⟩
  · exact ⟨rfl, SameStates.refl _ hm.state⟩

theorem heardClass_sized (M : HierHmm K) (b : Nat → Nat → K) (c : Nat) (m : Hmm K) (hm : m.InHierarchy) : (heardClass M b c m).HierSized := by
  unfold heardClass
  split
  · exact ⟨by simp [divided, updated], by simp [divided, updated], by simp [divided, updated], hm.exit⟩
  · exact ⟨by simp [divided, begun], by simp [divided, begun], by simp [divided, begun], hm.exit⟩

theorem initNorm_eq (M : HierHmm K) (b : Nat → Nat → K) : initNorm M b = evidence0 M b + stale M := by
  unfold initNorm evidence0 stale
  rw [← Finset.sum_add_distrib]
  refine Finset.sum_congr rfl fun c hc => ?_
  obtain ⟨lc, hlc⟩ := get_class (Finset.mem_range.1 hc)
  simp only [hlc, Option.map_some, Option.getD_some, states_of hlc, joint0, begun]
  rw [add_comm]

theorem heard_first {M : HierHmm K} (hs : M.started = false) (b : Nat → Nat → K) (e c k : Nat) (hc : c < M.models.length) (hk : k < states M c) :
    HierSpec.alpha (heard M b) e c k = first3 M b e c k := by
  obtain ⟨lc, hlc⟩ := get_class hc
  rw [states_of hlc] at hk
  rw [alpha_of (heard_get hlc)]
  unfold heardClass
  rw [if_neg (by simp [hs]), initNorm_eq]
  match e with
  | 0 =>
    simp only [first3, Hmm.alphaOf, joint0, hlc, Option.map_some, Option.getD_some, divided, begun]
    rw [getD_map_range' _ _ _ hk, getD_map_range' _ _ _ hk]
  | 1 =>
    simp only [first3, Hmm.alphaOf, divided, begun]
    rw [getD_map_range' _ _ _ hk, getD_replicate]; simp
  | _ + 2 =>
    simp only [first3, Hmm.alphaOf, divided, begun]
    rw [getD_map_range' _ _ _ hk, getD_replicate]; simp

theorem heard_next {M : HierHmm K} (hs : M.started = true) (b : Nat → Nat → K) (e c k : Nat) (hc : c < M.models.length) (hk : k < states M c) :
    HierSpec.alpha (heard M b) e c k = next3 M b e c k := by
  obtain ⟨lc, hlc⟩ := get_class hc
  rw [states_of hlc] at hk
  rw [alpha_of (heard_get hlc)]
  unfold heardClass
  rw [if_pos hs]
  match e with
  | 0 =>
    simp only [next3, Hmm.alphaOf, joint, exitOf, hlc, Option.map_some, Option.getD_some, divided, updated]
    rw [getD_map_range' _ _ _ hk, getD_map_range' _ _ _ hk, mul_div_assoc]
  | 1 =>
    simp only [next3, Hmm.alphaOf, joint, exitOf, hlc, Option.map_some, Option.getD_some, divided, updated]
    rw [getD_map_range' _ _ _ hk, getD_map_range' _ _ _ hk, mul_div_assoc]
  | _ + 2 =>
    simp only [next3, Hmm.alphaOf, joint, exitOf, hlc, Option.map_some, Option.getD_some, divided, updated]
    rw [getD_map_range' _ _ _ hk, getD_map_range' _ _ _ hk, mul_div_assoc]

/-- no forward variable of a sized class is outside of the states -/
theorem alpha_out {M : HierHmm K} (hsz : ∀ lc ∈ M.models, lc.2.HierSized) (e c k : Nat) (h : ¬ (c < M.models.length ∧ k < states M c)) :
    HierSpec.alpha M e c k = 0 := by
  by_cases hc : c < M.models.length
  · obtain ⟨lc, hlc⟩ := get_class hc
    have hz := hsz lc (mem_of_get hlc)
    have hk : lc.2.n ≤ k := by
      by_contra hk
      exact h ⟨hc, by rw [states_of hlc]; omega⟩
    rw [alpha_of hlc, List.getD_eq_getElem?_getD, List.getElem?_eq_none]
    · rfl
    · match e with
      | 0 => simp only [Hmm.alphaOf, hz.a0]; exact hk
      | 1 => simp only [Hmm.alphaOf, hz.a1]; exact hk
      | _ + 2 => simp only [Hmm.alphaOf, hz.a2]; exact hk
  · unfold HierSpec.alpha
    rw [List.getElem?_eq_none (by omega)]
    rfl

theorem heard_sized {M : HierHmm K} (hu : M.Usable) (b : Nat → Nat → K) : ∀ lc ∈ (heard M b).models, lc.2.HierSized := by
  intro lc hlc
  obtain ⟨c, hc, rfl⟩ := List.getElem_of_mem hlc
  have hc' : c < M.models.length := by simpa [heard] using hc
  obtain ⟨a, ha⟩ := get_class hc'
  have := heard_get (b := b) ha
  rw [List.getElem?_eq_getElem hc] at this
  rw [Option.some.inj this]
  exact heardClass_sized M b c a.2 (hu.ready.cls a (mem_of_get ha)).1

theorem first_nonneg {M : HierHmm K} (hu : M.Usable) {b : Nat → Nat → K} (hb : ∀ c k, c < M.models.length → k < states M c → 0 < b c k)
    (c k : Nat) (hk : k < states M c) : 0 ≤ joint0 M b c k := by
  unfold joint0
  cases h : M.models[c]? with
  | none => simp
  | some lc =>
    simp only [Option.map_some, Option.getD_some]
    refine mul_nonneg (hb c k (lt_of_get h) hk).le ?_
    rw [states_of h] at hk
    have hI := (hu.ready.cls lc (mem_of_get h)).1
    unfold first
    rcases bool_cases lc.2.ergodic with he | he
    · rw [if_neg (by simp [he])]
      split
      · exact prior_nonneg hu.ready.top c
      · exact le_rfl
    · have := hI.can.chain.start_nonneg k hk
      unfold HmmSpec.start at this
      rw [if_pos he] at this ⊢
      exact this

theorem evidence0_pos {M : HierHmm K} (hu : M.Usable) (hne : M.models ≠ []) {b : Nat → Nat → K}
    (hb : ∀ c k, c < M.models.length → k < states M c → 0 < b c k) : 0 < evidence0 M b := by
  have hj := fun c k hk => first_nonneg hu hb c k hk
  refine lt_of_le_of_ne (Finset.sum_nonneg fun c _ => Finset.sum_nonneg fun k hk => hj c k (Finset.mem_range.1 hk)) fun h0 => ?_
  have hz : ∀ c < M.models.length, ∀ k < states M c, joint0 M b c k = 0 := by
    intro c hc k hk
    have h1 := (Finset.sum_eq_zero_iff_of_nonneg (fun c _ => Finset.sum_nonneg fun k hk => hj c k (Finset.mem_range.1 hk))).1 h0.symm c
      (Finset.mem_range.2 hc)
    exact (Finset.sum_eq_zero_iff_of_nonneg (fun k hk => hj c k (Finset.mem_range.1 hk))).1 h1 k (Finset.mem_range.2 hk)
  have hp : ∀ c ∈ Finset.range M.models.length, M.prior.getD c 0 = 0 := by
    intro c hc
    rw [Finset.mem_range] at hc
    obtain ⟨lc, hlc⟩ := get_class hc
    have hI := (hu.ready.cls lc (mem_of_get hlc)).1
    have hf : ∀ k < lc.2.n, first lc.2 (M.prior.getD c 0) k = 0 := by
      intro k hk
      have h1 := hz c hc k (by rw [states_of hlc]; exact hk)
      simp only [joint0, hlc, Option.map_some, Option.getD_some] at h1
      exact (mul_eq_zero.1 h1).resolve_left (hb c k hc (by rw [states_of hlc]; exact hk)).ne'
    rcases bool_cases lc.2.ergodic with he | he
    · have := hf 0 hI.can.wf.pos
      simpa [first, he] using this
    · exfalso
      have h1 := hI.can.chain.start_sum
      rw [Finset.sum_eq_zero fun k hk => by
        have := hf k (Finset.mem_range.1 hk)
        unfold first at this
        unfold HmmSpec.start
        rw [if_pos he] at this ⊢
        exact this] at h1
      exact zero_ne_one h1
  have := prior_sum hu.ready.top hne
  rw [Finset.sum_eq_zero hp] at this
  exact zero_ne_one this

theorem exists_pos {ι : Type} {s : Finset ι} {f : ι → K} (h : ∀ i ∈ s, 0 ≤ f i) (hs : 0 < ∑ i ∈ s, f i) : ∃ i ∈ s, 0 < f i := by
  by_contra hc
  push Not at hc
  exact absurd (Finset.sum_nonpos hc) (not_le.2 hs)

/-- a class in which the forward variables are not all 0 explains the observation -/
theorem class_evidence {M : HierHmm K} (hM : M.Ready) (hn : ∀ e c k, 0 ≤ HierSpec.alpha M e c k) {c : Nat} (hc : c < M.models.length)
    (h0 : 0 < leaving M 0 c) {b : Nat → Nat → K} (hb : ∀ c k, c < M.models.length → k < states M c → 0 < b c k) :
    ∃ k < states M c, 0 < joint M b c k := by
  obtain ⟨lc, hlc⟩ := get_class hc
  have hI := (hM.cls lc (mem_of_get hlc)).1
  obtain ⟨j, hj, hj0⟩ := exists_pos (fun k _ => hn 0 c k) h0
  rw [Finset.mem_range, states_of hlc] at hj
  obtain ⟨k, hk, hk0⟩ := exists_pos (fun k _ => within_nonneg hI j k hj) (within_sum_pos hI j hj)
  rw [Finset.mem_range] at hk
  have hk' : k < states M c := by rw [states_of hlc]; exact hk
  refine ⟨k, hk', ?_⟩
  simp only [joint, hlc, Option.map_some, Option.getD_some]
  refine mul_pos (hb c k hc hk') ?_
  have ha : ∀ k, 0 ≤ lc.2.alpha0.getD k 0 := fun k => by
    have := hn 0 c k
    rw [alpha_of hlc] at this
    exact this
  rw [alpha_of hlc] at hj0
  refine add_pos_of_pos_of_nonneg (Finset.sum_pos' (fun i hi => mul_nonneg (ha i) (within_nonneg hI i k (Finset.mem_range.1 hi)))
    ⟨j, Finset.mem_range.2 hj, mul_pos hj0 hk0⟩) (mul_nonneg (hI.can.chain.start_nonneg k hk) (entering_nonneg hM.top hn c))

theorem class_first {M : HierHmm K} (hu : M.Usable) {c : Nat} (hc : c < M.models.length) {b : Nat → Nat → K}
    (hb : ∀ c k, c < M.models.length → k < states M c → 0 < b c k) : ∃ k < states M c, 0 < joint0 M b c k := by
  obtain ⟨lc, hlc⟩ := get_class hc
  have hI := (hu.ready.cls lc (mem_of_get hlc)).1
  have hst := states_of hlc
  have hpr : 0 < M.prior.getD c 0 := by
    have hc' : c < M.prior.length := by rw [hu.ready.top.prior]; exact hc
    have : M.prior.getD c 0 = M.prior[c] := by simp [List.getD_eq_getElem?_getD, hc']
    rw [this]
    exact hu.ready.top.prior_pos _ (List.getElem_mem hc')
  rcases bool_cases lc.2.ergodic with he | he
  · have h0 : 0 < states M c := by rw [hst]; exact hI.can.wf.pos
    refine ⟨0, h0, ?_⟩
    simp only [joint0, hlc, Option.map_some, Option.getD_some, first, he, Bool.false_eq_true, if_false, if_true]
    exact mul_pos (hb c 0 hc h0) hpr
  · obtain ⟨k, hk, hk0⟩ := exists_pos (fun i hi => hI.can.chain.start_nonneg i (Finset.mem_range.1 hi))
      (by rw [hI.can.chain.start_sum]; exact one_pos)
    have hk' : k < states M c := by rw [hst]; exact Finset.mem_range.1 hk
    refine ⟨k, hk', ?_⟩
    simp only [joint0, hlc, Option.map_some, Option.getD_some, first]
    unfold HmmSpec.start at hk0
    rw [if_pos he] at hk0 ⊢
    exact mul_pos (hb c k hc hk') hk0

theorem mass_pos {M : HierHmm K} (hn : ∀ e c k, 0 ≤ HierSpec.alpha M e c k) (hne : M.models ≠ [])
    (h0 : ∀ c < M.models.length, 0 < leaving M 0 c) : 0 < mass M := by
  have hl : 0 < M.models.length := List.length_pos_iff.2 hne
  obtain ⟨k, hk, hk0⟩ := exists_pos (fun k _ => hn 0 0 k) (h0 0 hl)
  exact Finset.sum_pos' (fun c _ => Finset.sum_nonneg fun k _ => Finset.sum_nonneg fun e _ => hn e c k)
    ⟨0, Finset.mem_range.2 hl, Finset.sum_pos' (fun k _ => Finset.sum_nonneg fun e _ => hn e 0 k)
      ⟨k, hk, Finset.sum_pos' (fun e _ => hn e 0 k) ⟨0, by simp, hk0⟩⟩⟩

theorem stale_nonneg {M : HierHmm K} (hu : M.Usable) : 0 ≤ stale M := by
  refine Finset.sum_nonneg fun c hc => ?_
  obtain ⟨lc, hlc⟩ := get_class (Finset.mem_range.1 hc)
  simp only [hlc, Option.map_some, Option.getD_some]
  split
  · exact hu.instant lc (mem_of_get hlc) (by assumption)
  · exact le_rfl

theorem exitOf_bounds {M : HierHmm K} (hM : M.Ready) (c k : Nat) (hk : k < states M c) : 0 ≤ exitOf M c k ∧ exitOf M c k < 1 := by
  unfold exitOf
  cases h : M.models[c]? with
  | none => simp
  | some lc =>
    rw [states_of h] at hk
    have hI := (hM.cls lc (mem_of_get h)).1
    simpa using ⟨hI.exit_nonneg k hk, hI.exit_lt k hk⟩

/-- after an observation that is not the first one the forward variables are a distribution -/
theorem next_distribution {M : HierHmm K} (hu : M.Usable) (hs : M.started = true) (hne : M.models ≠ []) {b : Nat → Nat → K}
    (hb : ∀ c k, c < M.models.length → k < states M c → 0 < b c k) : Distribution (heard M b) := by
  have hlen : (heard M b).models.length = M.models.length := by simp [heard]
  have hst : ∀ c, c < M.models.length → states (heard M b) c = states M c := by
    intro c hc
    obtain ⟨lc, hlc⟩ := get_class hc
    rw [states_of hlc, states_of (heard_get hlc)]
    exact (heardClass_same M b c lc.2 (hu.ready.cls lc (mem_of_get hlc)).1.can).facts.1
  obtain ⟨_, hn, hm⟩ := hu.alpha hs
  have hpos := evidence_pos hu.ready hn (mass_pos hn hne hm) hb
  have hj := fun c k hk => joint_nonneg hu.ready hn (fun c k hc hk => (hb c k hc hk).le) c k hk
  refine ⟨fun e c k => ?_, ?_⟩
  · by_cases h : c < M.models.length ∧ k < states M c
    · rw [heard_next hs b e c k h.1 h.2]
      obtain ⟨e1, e2⟩ := exitOf_bounds hu.ready c k h.2
      obtain ⟨x1, x2⟩ := exitTrans_bounds hu.ready.top c
      refine mul_nonneg ?_ (div_nonneg (hj c k h.2) hpos.le)
      match e with
      | 0 => exact sub_nonneg.2 e2.le
      | 1 => exact mul_nonneg (sub_nonneg.2 x2) e1
      | _ + 2 => exact mul_nonneg x1 e1
    · rw [alpha_out (heard_sized hu b) e c k fun h' => h (by
        rw [hlen] at h'
        exact ⟨h'.1, by rw [← hst c h'.1]; exact h'.2⟩)]
  · unfold mass
    rw [hlen]
    have : ∀ c ∈ Finset.range M.models.length, ∑ k ∈ Finset.range (states (heard M b) c), ∑ e ∈ Finset.range 3, HierSpec.alpha (heard M b) e c k =
        (∑ k ∈ Finset.range (states M c), joint M b c k) / evidence M b := by
      intro c hc
      rw [Finset.mem_range] at hc
      rw [hst c hc, Finset.sum_div]
      refine Finset.sum_congr rfl fun k hk => ?_
      rw [Finset.mem_range] at hk
      simp only [Finset.sum_range_succ, Finset.sum_range_zero, heard_next hs b _ c k hc hk, next3]
      ring
    rw [Finset.sum_congr rfl this, ← Finset.sum_div]
    exact div_self hpos.ne'

/-- after the first observation they are not negative, and their sum is what the likelihood from before `reset()` leaves -/
theorem first_distribution {M : HierHmm K} (hu : M.Usable) (hs : M.started = false) (hne : M.models ≠ []) {b : Nat → Nat → K}
    (hb : ∀ c k, c < M.models.length → k < states M c → 0 < b c k) :
    (∀ e c k, 0 ≤ HierSpec.alpha (heard M b) e c k) ∧ mass (heard M b) = evidence0 M b / (evidence0 M b + stale M) := by
  have hlen : (heard M b).models.length = M.models.length := by simp [heard]
  have hst : ∀ c, c < M.models.length → states (heard M b) c = states M c := by
    intro c hc
    obtain ⟨lc, hlc⟩ := get_class hc
    rw [states_of hlc, states_of (heard_get hlc)]
    exact (heardClass_same M b c lc.2 (hu.ready.cls lc (mem_of_get hlc)).1.can).facts.1
  have hpos := evidence0_pos hu hne hb
  have hz := stale_nonneg hu
  refine ⟨fun e c k => ?_, ?_⟩
  · by_cases h : c < M.models.length ∧ k < states M c
    · rw [heard_first hs b e c k h.1 h.2]
      match e with
      | 0 => exact div_nonneg (first_nonneg hu hb c k h.2) (add_nonneg hpos.le hz)
      | _ + 1 => exact le_rfl
    · rw [alpha_out (heard_sized hu b) e c k fun h' => h (by
        rw [hlen] at h'
        exact ⟨h'.1, by rw [← hst c h'.1]; exact h'.2⟩)]
  · unfold mass
    rw [hlen]
    have : ∀ c ∈ Finset.range M.models.length, ∑ k ∈ Finset.range (states (heard M b) c), ∑ e ∈ Finset.range 3, HierSpec.alpha (heard M b) e c k =
        (∑ k ∈ Finset.range (states M c), joint0 M b c k) / (evidence0 M b + stale M) := by
      intro c hc
      rw [Finset.mem_range] at hc
      rw [hst c hc, Finset.sum_div]
      refine Finset.sum_congr rfl fun k hk => ?_
      rw [Finset.mem_range] at hk
      simp only [Finset.sum_range_succ, Finset.sum_range_zero, heard_first hs b _ c k hc hk, first3]
      ring
    rw [Finset.sum_congr rfl this, ← Finset.sum_div]
    rfl

/-- what `filter` does to a class: forward algorithm, then its results -/
def ClassStep (log : K → K) (M : HierHmm K) (b : Nat → Nat → K) (v w : Nat → Nat → List K) (c : Nat) (m m' : Hmm K) : Prop :=
  ∀ hist, Logs m.buf m.window hist →
    (heardClass M b c m).Reported log hist (v c) (w c) m' ∧ Logs m'.buf m'.window (hist ++ [log (heardClass M b c m).instant])

theorem ClassStep.sameClass {log : K → K} {M : HierHmm K} {b : Nat → Nat → K} {v w : Nat → Nat → List K} {c : Nat} {m m' : Hmm K}
    (h : ClassStep log M b v w c m m') (hm : m.CanFilter) (hl : ∃ hist, Logs m.buf m.window hist) : m.SameClass m' := by
  obtain ⟨hist, hl⟩ := hl
  exact (heardClass_same M b c m hm).trans (h hist hl).1.sameClass

theorem heardClass_buf (M : HierHmm K) (b : Nat → Nat → K) (c : Nat) (m : Hmm K) :
    (heardClass M b c m).buf = m.buf ∧ (heardClass M b c m).window = m.window := by
  unfold heardClass; split <;> exact ⟨rfl, rfl⟩

/-- What `progressClass` does to a class. -/
def Progressed (log : K → K) (hist : List K) (m m' : Hmm K) : Prop :=
  m' = { m with winMin := m'.winMin, winMax := m'.winMax, winNorm := m'.winNorm, buf := m'.buf, logLik := m'.logLik,
                progress := m'.progress, likeliest := m'.likeliest } ∧
  m'.logLik = RecSpec.avgLast m.window (hist ++ [log m.instant]) ∧ HmmSpec.Windowed m' ∧
  (m'.progress = (∑ i ∈ Finset.Ico m'.winMin m'.winMax, (HmmSpec.occ m' i + m'.alpha2.getD i 0) * (i : K) / m'.winNorm) /
    (if m.n - 1 = 0 then 1 else ((m.n - 1 : Nat) : K))) ∧ Logs m'.buf m.window (hist ++ [log m.instant])

/-- the loops over the classes after the forward algorithm -/
theorem classes_ret (D : Dens K) (log : K → K) (M : HierHmm K) (hu : M.Usable) (x : List K)
    (hx : ∀ lc ∈ M.models, lc.2.Fits x) (b : Nat → Nat → K) (v w : Nat → Nat → List K) (hv : HierSpec.Predicts D M x v w) :
    ∃ l1 l2, loop M.models.length () (fun _ i => onClass i (progressClass log)) (heard M b) = .ret () { heard M b with models := l1 } ∧
      l1.length = M.models.length ∧ l2.length = M.models.length ∧
      (∀ (c : Nat) (lc : String × Hmm K), M.models[c]? = some lc → ∃ m1 m2, l1[c]? = some (lc.1, m1) ∧ l2[c]? = some (lc.1, m2) ∧
        m1.instant = m2.instant ∧ m1.logLik = m2.logLik ∧ ClassStep log M b v w c lc.2 m2) ∧
      (M.bimodal = false → l2 = l1) ∧
      (M.bimodal = true → ∀ r, loop M.models.length () (fun _ i => onClass i (Hmm.regression D log x)) { heard M b with models := l1, results := r } =
        .ret () { heard M b with models := l2, results := r }) := by
  have hlen : (heard M b).models.length = M.models.length := by simp [heard]
  have hcl : ∀ (c : Nat) (a : String × Hmm K), M.models[c]? = some a → (heardClass M b c a.2).InHierarchy ∧ (heardClass M b c a.2).HierSized ∧
      (heardClass M b c a.2).bimodal = M.bimodal ∧ ∃ hist, Logs (heardClass M b c a.2).buf (heardClass M b c a.2).window hist := by
    intro i a ha
    have hI := (hu.ready.cls a (mem_of_get ha)).1
    have hsame := heardClass_same M b i a.2 hI.can
    refine ⟨hsame.inHierarchy hI, heardClass_sized M b i a.2 hI, hsame.facts.2.2.2.2.2.2.1.trans (hu.ready.cls a (mem_of_get ha)).2, ?_⟩
    rw [(heardClass_buf M b i a.2).1, (heardClass_buf M b i a.2).2]
    exact hu.buf a (mem_of_get ha)
  obtain ⟨l1, p1, p2, p3⟩ := eachClass_rel (heard M b) (fun _ => progressClass log) (fun _ lc m1 => progressClass log lc.2 = .ret () m1)
    (fun i lc hlc => by
      have hi : i < M.models.length := by rw [← hlen]; exact lt_of_get hlc
      obtain ⟨a, ha⟩ := get_class hi
      rw [heard_get ha] at hlc
      cases hlc
      obtain ⟨h1, h2, _, hist, h3⟩ := hcl i a ha
      obtain ⟨m', g1, _⟩ := progressClass_ret log _ h1 h2 hist h3
      exact ⟨m', g1, g1⟩)
  rw [hlen] at p1 p2
  have prog : ∀ (c : Nat) (a : String × Hmm K), M.models[c]? = some a → ∃ m1, l1[c]? = some (a.1, m1) ∧
      ∀ hist, Logs a.2.buf a.2.window hist →
      Progressed log hist (heardClass M b c a.2) m1 := by
    intro c a ha
    obtain ⟨m1, q1, q2⟩ := p3 c _ (heard_get ha)
    refine ⟨m1, q1, fun hist hl => ?_⟩
    obtain ⟨h1, h2, _, _⟩ := hcl c a ha
    obtain ⟨m', g1, g2⟩ := progressClass_ret log _ h1 h2 hist (by
      rw [(heardClass_buf M b c a.2).1, (heardClass_buf M b c a.2).2]; exact hl)
    rw [g1] at q2
    cases q2
    exact g2
  rcases bool_cases M.bimodal with hb | hb
  · refine ⟨l1, l1, p1, p2, p2, fun c lc hlc => ?_, fun _ => rfl, fun h => absurd (hb.symm.trans h) (by simp)⟩
    obtain ⟨m1, q1, q2⟩ := prog c lc hlc
    obtain ⟨h1, h2, hbm, _⟩ := hcl c lc hlc
    refine ⟨m1, m1, q1, q1, rfl, rfl, fun hist hl => ?_⟩
    obtain ⟨q3, q4, q5, q6, q7⟩ := q2 hist hl
    refine ⟨⟨?_, ?_, q4, q5, q6, fun _ => ?_, fun h => ?_, fun h => ?_⟩, ?_⟩
    · rw [q3]
    · rw [q3]; exact SameStates.refl _ h1.can.state
    · rw [q3]; exact ⟨rfl, rfl⟩
    · rw [hbm, hb] at h; cases h
    · rw [hbm, hb] at h; cases h
    · have : m1.window = (heardClass M b c lc.2).window := by rw [q3]
      rw [this]; exact q7
  · have key : ∀ r, ∃ l2, loop M.models.length () (fun _ i => onClass i (Hmm.regression D log x)) { heard M b with models := l1, results := r } =
        .ret () { heard M b with models := l2, results := r } ∧ l2.length = M.models.length ∧
        ∀ (c : Nat) (lc : String × Hmm K), M.models[c]? = some lc → ∃ m1 m2, l1[c]? = some (lc.1, m1) ∧ l2[c]? = some (lc.1, m2) ∧
          m1.instant = m2.instant ∧ m1.logLik = m2.logLik ∧ Hmm.regression D log x m1 = .ret () m2 ∧ ClassStep log M b v w c lc.2 m2 := by
      intro r
      have hreg : ∀ (c : Nat) (a : String × Hmm K) (m1 : Hmm K), M.models[c]? = some a → l1[c]? = some (a.1, m1) →
          ∃ m2, Hmm.regression D log x m1 = .ret () m2 ∧ m1.instant = m2.instant ∧ m1.logLik = m2.logLik ∧ ClassStep log M b v w c a.2 m2 := by
        intro c a m1 ha h1
        obtain ⟨hI, hsz, hbm, _⟩ := hcl c a ha
        obtain ⟨m1', q1, q2⟩ := prog c a ha
        rw [h1] at q1
        cases q1
        have hsame := heardClass_same M b c a.2 (hu.ready.cls a (mem_of_get ha)).1.can
        have hstep : ∀ hist, Logs a.2.buf a.2.window hist → ∃ m2, Hmm.regression D log x m1 = .ret () m2 ∧
            (heardClass M b c a.2).Reported log hist (v c) (w c) m2 ∧ m2.buf = m1.buf := by
          intro hist hl
          obtain ⟨q3, q4, q5, q6, q7⟩ := q2 hist hl
          exact report_ret D log (heardClass M b c a.2) m1 hI hsz hist q3 q4 q5 q6 (hbm.trans hb) x (hsame.fits (hx a (mem_of_get ha))) (v c) (w c)
            (hsame.predicts (hv hb c a ha))
        obtain ⟨hist, hl⟩ := hu.buf a (mem_of_get ha)
        obtain ⟨m2, t1, t2, t3⟩ := hstep hist hl
        obtain ⟨q3, q4, q5, q6, q7⟩ := q2 hist hl
        refine ⟨m2, t1, ?_, ?_, fun hist' hl' => ?_⟩
        · rw [t2.same, q3]
        · rw [t2.logLik]; exact q4
        · obtain ⟨m2', t1', t2', t3'⟩ := hstep hist' hl'
          rw [t1] at t1'
          cases t1'
          obtain ⟨_, _, _, _, q7'⟩ := q2 hist' hl'
          have : m2.window = (heardClass M b c a.2).window := by rw [t2.same]
          rw [this, t3]
          exact ⟨t2', q7'⟩
      obtain ⟨l2, k1, k2, k3⟩ := eachClass_rel ({ heard M b with models := l1, results := r } : HierHmm K) (fun _ => Hmm.regression D log x)
        (fun c lc m2 => Hmm.regression D log x lc.2 = .ret () m2)
        (fun i lc hlc => by
          have hi : i < M.models.length := by rw [← p2]; exact lt_of_get hlc
          obtain ⟨a, ha⟩ := get_class hi
          obtain ⟨m1, q1, _⟩ := prog i a ha
          change l1[i]? = some lc at hlc
          rw [q1] at hlc
          cases hlc
          obtain ⟨m2, t1, _⟩ := hreg i a m1 ha q1
          exact ⟨m2, t1, t1⟩)
      simp only [p2] at k1 k2
      refine ⟨l2, k1, k2, fun c lc hlc => ?_⟩
      obtain ⟨m1, q1, _⟩ := prog c lc hlc
      obtain ⟨m2, j0, j1⟩ := k3 c _ q1
      obtain ⟨m2', t1, t2, t3, t4⟩ := hreg c lc m1 hlc q1
      rw [t1] at j1
      cases j1
      exact ⟨m1, m2, q1, j0, t2, t3, t1, t4⟩
    obtain ⟨l2, k1, k2, k3⟩ := key M.results
    refine ⟨l1, l2, p1, p2, k2, fun c lc hlc => ?_, fun h => absurd (hb.symm.trans h) (by simp), fun _ r => ?_⟩
    · obtain ⟨m1, m2, a1, a2, a3, a4, _, a5⟩ := k3 c lc hlc
      exact ⟨m1, m2, a1, a2, a3, a4, a5⟩
    · obtain ⟨l2', j1, j2, j3⟩ := key r
      rw [j1]
      have : l2' = l2 := by
        refine List.ext_getElem? fun i => ?_
        by_cases hi : i < M.models.length
        · obtain ⟨a, ha⟩ := get_class hi
          obtain ⟨m1, m2, a1, a2, _, _, a3, _⟩ := k3 i a ha
          obtain ⟨m1', m2', b1, b2, _, _, b3, _⟩ := j3 i a ha
          rw [a1] at b1
          cases b1
          rw [a3] at b3
          cases b3
          rw [a2, b2]
        · rw [List.getElem?_eq_none (by omega), List.getElem?_eq_none (by omega)]
      rw [this]

end HierHmm
end Xmm
