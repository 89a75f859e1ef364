import Verif.Props.RenamingHier
import Verif.Props.HmmTrain
import Verif.Lemmas.Hoare
set_option linter.unusedSectionVars false
/- C112 for hidden Markov models, from the recordings on. -/
namespace Xmm
open TS PhraseSpec
namespace HierHmm

/-- two classes with the parameters of a third one -/
theorem sameClass_of {m a b : Hmm ℝ} (ha : m.SameClass a) (hb : m.SameClass b) : a.SameClass b := by
  refine ⟨by rw [hb.1, ha.1], by rw [hb.2.1, ha.2.1], fun i s s' h1 h2 => ?_⟩
  have hi : i < m.sts.length := by rw [← ha.2.1]; exact (List.getElem?_eq_some_iff.1 h1).1
  obtain ⟨p1, -⟩ := ha.2.2 i _ s (List.getElem?_eq_getElem hi) h1
  obtain ⟨q1, q2⟩ := hb.2.2 i _ s' (List.getElem?_eq_getElem hi) h2
  refine ⟨?_, q2⟩
  unfold Gmm.SameModel at p1 q1 ⊢
  rw [q1, p1]

/-- the hierarchy is the default one -/
structure Even (M : HierHmm ℝ) : Prop where
  prior : ∀ p ∈ M.prior, p = 1 / (M.prior.length : ℝ)
  trans : ∀ r ∈ M.trans, ∀ p ∈ r, p = 1 / (M.prior.length : ℝ)
  exits : ∀ p ∈ M.exitTrans, p = defaultExitTransition

theorem Even.congr {M N : HierHmm ℝ} (h : Even M) (h1 : N.prior = M.prior) (h2 : N.trans = M.trans) (h3 : N.exitTrans = M.exitTrans) : Even N :=
  ⟨by rw [h1]; exact h.prior, by rw [h1, h2]; exact h.trans, by rw [h3]; exact h.exits⟩

open Prog (Tri) in
theorem even_loop {n : Nat} {f : Nat → Prog (HierHmm ℝ) Unit} (h : ∀ i, Tri Even (f i) (fun _ => Even) fun _ => True) :
    Tri Even (Phrase.loop n () fun _ i => f i) (fun _ => Even) fun _ => True := by
  have key : ∀ l : List Nat, Tri Even (l.foldlM (fun _ i => f i) ()) (fun _ => Even) fun _ => True := by
    intro l
    induction l with
    | nil => exact Tri.pure fun _ hs => hs
    | cons i l ih => exact Tri.bind (h i) fun _ => ih
  exact key _

open Prog (Tri) in
theorem even_onClass (i : Nat) (f : Prog (Hmm ℝ) Unit) : Tri Even (onClass i f) (fun _ => Even) fun _ => True := by
  intro M hM
  unfold onClass
  cases M.models[i]? with
  | none => trivial
  | some lc =>
    simp only
    cases f lc.2 with
    | ret a c => exact hM.congr rfl rfl rfl
    | throw e c => trivial
    | ub => trivial

open Prog (Tri) in
theorem even_update : Tri Even updateTransitionParameters (fun _ => Even) fun _ => True := by
  unfold updateTransitionParameters
  refine Tri.bind (Q := fun _ => Even) (Tri.get fun _ h => h) fun M => Tri.ite (fun _ => Tri.pure fun _ h => h) fun _ => ?_
  refine Tri.bind (Q := fun _ M => M.prior = List.replicate M.size (1 / (M.size : ℝ))) (Tri.modify fun M _ => rfl) fun _ => ?_
  refine Tri.bind (Q := fun _ => Even) (Tri.modify fun M h => ?_) fun _ => ?_
  · have hl : (updateTransition M).prior.length = M.size := by
      show M.prior.length = M.size
      rw [h]; simp
    refine ⟨fun p hp => ?_, fun r hr p hp => ?_, fun p hp => ?_⟩
    · rw [hl]
      have hp' : p ∈ M.prior := hp
      rw [h] at hp'
      exact List.eq_of_mem_replicate hp'
    · rw [hl]
      simp only [updateTransition] at hr
      rw [List.eq_of_mem_replicate hr] at hp
      exact List.eq_of_mem_replicate hp
    · simp only [updateTransition] at hp
      exact List.eq_of_mem_replicate hp
  · unfold HierHmm.updateExitProbabilities
    refine Tri.bind (Q := fun _ => Even) (Tri.get fun _ h => h) fun M => Tri.ite (fun _ => Tri.undef) fun _ => even_loop fun i => even_onClass i _

open Prog (Tri) in
theorem even_reset : Tri Even reset (fun _ => Even) fun _ => True := by
  unfold reset
  refine Tri.bind (Q := fun _ => Even) ?_ fun _ => ?_
  · unfold checkTraining
    exact Tri.bind (Q := fun _ => Even) (Tri.get fun _ h => h) fun M => Tri.ite (fun _ => Tri.throw fun _ _ => trivial) fun _ => Tri.pure fun _ h => h
  refine Tri.bind (Q := fun _ => Even) (Tri.get fun _ h => h) fun M => Tri.ite (fun _ => Tri.undef) fun _ => ?_
  refine Tri.bind (Q := fun _ => Even) (even_loop fun i => even_onClass i _) fun _ => ?_
  exact Tri.bind (Q := fun _ => Even) (Tri.modify fun M h => h.congr rfl rfl rfl) fun _ => even_loop fun i => even_onClass i _

open Prog (Tri) in
theorem even_add (z : ℝ) (l : String) : Tri Even (addModelForClass z l) (fun _ => Even) fun _ => True := by
  unfold addModelForClass
  intro M hM
  rw [bind_of_ret (Prog.get_def M), bind_of_ret (Prog.set_def _ _)]
  exact even_update _ (hM.congr rfl rfl rfl)

open Prog (Tri) in
theorem even_adds (z : ℝ) (ls : List String) : Tri Even (ls.foldlM (fun _ l => addModelForClass z l) ()) (fun _ => Even) fun _ => True := by
  induction ls with
  | nil => exact Tri.pure fun _ h => h
  | cons l ls ih => exact Tri.bind (even_add z l) fun _ => ih

open Prog (Tri) in
theorem even_mapM {α β : Type} {f : α → Prog (HierHmm ℝ) β} (hf : ∀ a, Tri Even (f a) (fun _ => Even) fun _ => True) (l : List α) :
    Tri Even (l.mapM f) (fun _ => Even) fun _ => True := by
  have key : ∀ (l : List α) (acc : List β), Tri Even (List.mapM.loop f l acc) (fun _ => Even) fun _ => True := by
    intro l
    induction l with
    | nil => exact fun acc => Tri.pure fun _ h => h
    | cons a l ih => exact fun acc => Tri.bind (hf a) fun b => ih _
  exact key l []

open Prog (Tri) in
/-- after training, the hierarchy is the default one -/
theorem trainSet_even {z : ℝ} {D : Dens ℝ} {log sqrt : ℝ → ℝ} {C : Compare ℝ} {P : EmParams} {sdOf : KData ℝ → List ℝ} {cancel : String → Nat → Bool} {w : World ℝ String} {t : TSet String}
    (ht : t.phrases.isEmpty = false) {M M' : HierHmm ℝ} (h : trainSet z D log sqrt C P sdOf cancel w t M = .ret () M') : Even M' := by
  refine Tri.ret (P := fun _ => True) (Q := fun _ => Even) (E := fun _ => True) ?_ trivial h
  unfold trainSet
  refine Tri.ite (fun h => absurd h (by simp [ht])) fun _ => ?_
  refine Tri.bind (Q := fun _ => Even) ?_ fun _ => ?_
  · unfold clear
    refine Tri.bind (Q := fun _ _ => True) (Tri.modify fun _ _ => trivial) fun _ => Tri.bind (Q := fun _ _ => True) ?_ fun _ => Tri.modify fun M _ => ⟨?_, ?_, ?_⟩
    · intro M _
      cases reset M <;> trivial
    · simp
    · simp
    · simp
  refine Tri.bind (Q := fun _ => Even) (Tri.modify fun M h => h.congr rfl rfl rfl) fun _ => Tri.bind (Q := fun _ => Even) (even_adds z _) fun _ => ?_
  refine Tri.bind (Q := fun _ => Even) (Tri.get fun _ h => h) fun M => Tri.bind (Q := fun _ => Even) (even_mapM (fun lc M hM => ?_) _) fun cs => ?_
  · unfold inThread
    cases trainOne D log sqrt C P sdOf (cancel lc.1) w t lc.1 lc.2 <;> first | exact hM | trivial
  exact Tri.bind (Q := fun _ => Even) (Tri.modify fun M h => h.congr rfl rfl rfl) fun _ => Tri.bind even_reset fun _ => even_update

/-- two models with the default hierarchy and the same classes under other names -/
theorem even_renamed {ρ : String → String} (hρ : Function.Injective ρ) {M N : HierHmm ℝ} (hM : M.Usable) (hN : N.Usable) (eM : Even M) (eN : Even N)
    (fwd : ∀ l ∈ SMap.keys M.models, ρ l ∈ SMap.keys N.models) (bwd : ∀ k ∈ SMap.keys N.models, ∃ l ∈ SMap.keys M.models, ρ l = k) :
    (∀ l ∈ SMap.keys M.models, N.priorOf (ρ l) = M.priorOf l) ∧ (∀ l ∈ SMap.keys M.models, ∀ k ∈ SMap.keys M.models, N.transOf (ρ l) (ρ k) = M.transOf l k) ∧
      ∀ l ∈ SMap.keys M.models, N.exitOf (ρ l) = M.exitOf l := by
  have hp : (SMap.keys N.models).Perm ((SMap.keys M.models).map ρ) := by
    refine (List.perm_ext_iff_of_nodup (SMap.keys_nodup hN.sorted) ((SMap.keys_nodup hM.sorted).map hρ)).2 fun k => ⟨fun hk => ?_, fun hk => ?_⟩
    · obtain ⟨l, h1, h2⟩ := bwd k hk
      exact List.mem_map.2 ⟨l, h1, h2⟩
    · obtain ⟨l, h1, rfl⟩ := List.mem_map.1 hk
      exact fwd l h1
  have hl : N.models.length = M.models.length := by simpa [SMap.keys] using hp.length_eq
  have get : ∀ {α : Type} (v : List α) (d : α) (i : Nat), i < v.length → v.getD i d ∈ v := fun v d i hi => by rw [getD_get hi]; exact List.getElem_mem _
  have key : ∀ {A : HierHmm ℝ}, A.Usable → Even A → (∀ l ∈ SMap.keys A.models, A.priorOf l = 1 / (A.models.length : ℝ)) ∧
      (∀ l ∈ SMap.keys A.models, ∀ k ∈ SMap.keys A.models, A.transOf l k = 1 / (A.models.length : ℝ)) ∧ ∀ l ∈ SMap.keys A.models, A.exitOf l = defaultExitTransition := by
    intro A hA eA
    have top := hA.ready.top
    have hi : ∀ l ∈ SMap.keys A.models, (SMap.keys A.models).idxOf l < A.models.length := fun l h => by
      have := List.idxOf_lt_length_of_mem h
      simpa [SMap.keys] using this
    refine ⟨fun l h => ?_, fun l h k h' => ?_, fun l h => ?_⟩
    · rw [← top.prior]
      exact eA.prior _ (get _ _ _ (by rw [top.prior]; exact hi l h))
    · rw [← top.prior]
      have hr := get A.trans [] _ (by rw [top.trans]; exact hi l h)
      exact eA.trans _ hr _ (get _ _ _ (by rw [top.row _ hr]; exact hi k h'))
    · exact eA.exits _ (get _ _ _ (by rw [top.exitTrans]; exact hi l h))
  obtain ⟨p1, p2, p3⟩ := key hM eM
  obtain ⟨q1, q2, q3⟩ := key hN eN
  exact ⟨fun l h => by rw [p1 l h, q1 _ (fwd l h), hl], fun l h k h' => by rw [p2 l h k h', q2 _ (fwd l h) _ (fwd k h'), hl], fun l h => by rw [p3 l h, q3 _ (fwd l h)]⟩

/-- C112 (hidden Markov models): the same recording session with other, different names, and the settings that go with the names: the trained hierarchical model has the
    same hierarchy and the same classes under the other names; on every stream, after `reset()`, each class gets the same report, the same progress and the same likeliest state; the
    likeliest class is the same one and the output is the same, ties aside. -/
theorem C112_hmm_names (ρ : String → String) (hρ : Function.Injective ρ) (f : Format) (hv : f.Valid) (i j : Nat) (v0 w0 : World ℝ String) (hv0 : v0.sets i = none)
    (hw0 : w0.sets j = none) (ops : List (RecOp ℝ String)) (ha : Takes.Admissible f ops []) (hne : (Takes.run f ops []).1 ≠ []) (M N : HierHmm ℝ)
    (hiM : M.training = false) (hiN : N.training = false) (P : EmParams) (hSM : M.Settings P) (hSN : N.Settings P) (hhM : M.hier = true) (hhN : N.hier = true)
    (hlong : Takes.LongEnough (Takes.run f ops []).1 fun l => (M.conf l).n) (hbM : M.bimodal = f.bimodal) (hbN : N.bimodal = f.bimodal)
    (hdM : M.bimodal = false → M.di = 0) (hdN : N.bimodal = false → N.di = 0) (hmM : M.bimodal = true → ∀ l, (M.conf l).mode = M.mode)
    (hmN : N.bimodal = true → ∀ l, (N.conf l).mode = N.mode) (hconf : ∀ l, N.conf (ρ l) = M.conf l) (hw : N.window = M.window) (hm : N.mode = M.mode) (he : N.est = M.est)
    (z : ℝ) (D : Dens ℝ) (hD : D.Sound) (log : ℝ → ℝ) (hlog : ∀ x y, 0 < x → 0 < y → log (x * y) = log x + log y) (lowest pct : ℝ)
    (cancel cancel' : String → Nat → Bool) (hc : ∀ l, cancel' (ρ l) = cancel l) :
    ∃ M' N', recordAndTrainHmm z D log (Compare.exact lowest pct) P cancel f i ops v0 M = .ret () M' ∧
      recordAndTrainHmm z D log (Compare.exact lowest pct) P cancel' f j (ops.map (RecOp.rename ρ)) w0 N = .ret () N' ∧
      RenamedAs ρ M' N' ∧
      ∀ (exp : ℝ → ℝ), M'.models ≠ [] → ∀ xs : List (List ℝ), xs ≠ [] → (∀ x ∈ xs, f.Sample x) →
        ∃ rs ss M'' N'', (do reset; filterAll D log exp xs) M' = .ret rs M'' ∧ (do reset; filterAll D log exp xs) N' = .ret ss N'' ∧
          N''.report.Perm (M''.report.map (ClassReport.rename ρ)) ∧
          (∀ l m, (l, m) ∈ M''.models → ∃ n, (ρ l, n) ∈ N''.models ∧ n.progress = m.progress ∧ n.likeliest = m.likeliest) ∧
          (NoTie M''.report → N''.results.likeliest = ρ M''.results.likeliest) ∧
          (f.bimodal = true → M.est = .mixture ∨ NoTie M''.report → N''.results.outVals = M''.results.outVals ∧ N''.results.outCov = M''.results.outCov) := by
  obtain ⟨r1, r2⟩ := rename_run f ρ hρ ops []
  have r3 : (Takes.run f (ops.map (RecOp.rename ρ)) []).1 = Takes.rename ρ (Takes.run f ops []).1 := congrArg Prod.fst r1
  have hb : Takes.Admissible f (ops.map (RecOp.rename ρ)) [] := r2 ha
  set τ := (Takes.run f ops []).1 with hτ
  have hmem : ∀ e, e ∈ Takes.rename ρ τ ↔ ∃ e' ∈ τ, (e'.1, ρ e'.2.1, e'.2.2) = e := fun e => List.mem_map
  obtain ⟨w, t, s1, s2, s3⟩ := recordAndTrainHmm_sim f hv i v0 hv0 ops ha
  obtain ⟨w', t', s1', s2', s3'⟩ := recordAndTrainHmm_sim f hv j w0 hw0 _ hb
  rw [r3] at s1'
  have hneN : Takes.rename ρ τ ≠ [] := by simpa [Takes.rename] using hne
  obtain ⟨M', a1, a2, -, a3, a4, a5, a6, a7, -⟩ := C105_of_sim s1 s2 hv hne M hiM P hSM hhM hlong hbM hdM hmM z D hD log hlog lowest pct cancel
  obtain ⟨N', b1, b2, -, b3, b4, b5, b6, b7, -⟩ := C105_of_sim s1' s2' hv hneN N hiN P hSN hhN (by
      intro e he
      obtain ⟨e0, h0, rfl⟩ := (hmem e).1 he
      obtain ⟨⟨e1, h1, h2, h3⟩, h4⟩ := hlong e0 h0
      refine ⟨⟨_, (hmem _).2 ⟨e1, h1, rfl⟩, by simp [h2], by simpa [hconf] using h3⟩, ?_⟩
      simp only [rename_ofClass ρ hρ]
      exact h4) hbN hdN hmN z D hD log hlog lowest pct cancel'
  have hfull : ∀ {w : World ℝ String} {t : TSet String} {i : Nat} {σ : Takes ℝ String}, Sim f i w t σ → Indexed w t → σ ≠ [] → t.phrases.isEmpty = false := by
    intro w t i σ h hx hne
    have : t.phrases.length = σ.length := by
      have := congrArg List.length (h.presents hx hv).numbers
      simpa [SMap.keys] using this
    cases hq : t.phrases with
    | nil => rw [hq] at this; exact absurd (List.eq_nil_of_length_eq_zero this.symm) hne
    | cons => rfl
  have eM : Even M' := trainSet_even (hfull s1 s2 hne) a1
  have eN : Even N' := trainSet_even (hfull s1' s2' hneN) b1
  have hone : ∀ (A : HierHmm ℝ) (_ : SMap.Sorted A.models) (l : String) (u v : Hmm ℝ), (l, u) ∈ A.models → (l, v) ∈ A.models → u = v := by
    intro A hs l u v hu hv
    have e1 := (SMap.mem_iff_find? hs).1 hu
    rw [(SMap.mem_iff_find? hs).1 hv] at e1
    exact (Option.some.inj e1).symm
  have hclass : ∀ l, (∃ e ∈ τ, e.2.1 = l) → (l ∈ SMap.keys M'.models ↔ ρ l ∈ SMap.keys N'.models) ∧
      ∀ a b, (l, a) ∈ M'.models → (ρ l, b) ∈ N'.models → Hmm.SameClass a b := by
    intro l hl
    obtain ⟨tr, m0, c1, -, c2⟩ := a3.each l hl
    obtain ⟨tr', n0, d1, -, d2⟩ := b3.each (ρ l) (by
      obtain ⟨e, h1, rfl⟩ := hl
      exact ⟨_, (hmem _).2 ⟨e, h1, rfl⟩, rfl⟩)
    have hdata : Takes.data f (Takes.rename ρ τ) (ρ l) = Takes.data f τ l := by simp only [Takes.data, rename_ofClass ρ hρ]
    rw [hdata, hc, hconf, hw, c1] at d1
    injection d1 with d1 d1'
    subst d1 d1'
    constructor
    · rcases c2 with ⟨q1, m', q2, -⟩ | ⟨q1, q2⟩ <;> rcases d2 with ⟨r1, n', r2, -⟩ | ⟨r1, r2⟩
      · exact ⟨fun _ => List.mem_map.2 ⟨_, r2, rfl⟩, fun _ => List.mem_map.2 ⟨_, q2, rfl⟩⟩
      · rcases r2 with r2 | r2 <;> rw [r2.1] at q1 <;> cases q1
      · rcases q2 with r2 | r2 <;> rw [r2.1] at r1 <;> cases r1
      · exact ⟨fun h => absurd h q1, fun h => absurd h r1⟩
    · intro m n km kn
      rcases c2 with ⟨q1, m', q2, q3⟩ | ⟨q1, -⟩
      · rcases d2 with ⟨r1, n', r2, r3⟩ | ⟨r1, -⟩
        · rw [hone M' a2.sorted l m m' km q2, hone N' b2.sorted (ρ l) n n' kn r2]
          exact sameClass_of q3 r3
        · exact absurd (List.mem_map.2 ⟨_, kn, rfl⟩) r1
      · exact absurd (List.mem_map.2 ⟨_, km, rfl⟩) q1
  have hfwd : ∀ lc ∈ M'.models, ∃ n, (ρ lc.1, n) ∈ N'.models ∧ Hmm.SameClass lc.2 n ∧ (lc.2.ergodic = true → n.instant = lc.2.instant) := by
    rintro ⟨l, m⟩ hlc
    have hk : l ∈ SMap.keys M'.models := List.mem_map.2 ⟨_, hlc, rfl⟩
    obtain ⟨h1, h2⟩ := hclass l (a3.known l hk)
    obtain ⟨⟨_, n⟩, hn, h3⟩ := List.mem_map.1 (h1.1 hk)
    simp only at h3
    subst h3
    exact ⟨n, hn, h2 m n hlc hn, fun he => absurd ((a7 _ hlc).2.2.2.1.symm.trans he) (by simp)⟩
  have hbwd : ∀ lc ∈ N'.models, ∃ l m, (l, m) ∈ M'.models ∧ ρ l = lc.1 := by
    rintro ⟨k, n⟩ hlc
    have hk : k ∈ SMap.keys N'.models := List.mem_map.2 ⟨_, hlc, rfl⟩
    obtain ⟨e, h1, h2⟩ := b3.known k hk
    obtain ⟨e0, h3, rfl⟩ := (hmem e).1 h1
    simp only at h2
    subst h2
    obtain ⟨⟨_, m⟩, hm, h4⟩ := List.mem_map.1 ((hclass e0.2.1 ⟨e0, h3, rfl⟩).1.2 hk)
    exact ⟨_, m, hm, congrArg ρ h4⟩
  obtain ⟨p1, p2, p3⟩ := even_renamed hρ a2 b2 eM eN (fun l hl => by
      obtain ⟨lc, hlc, rfl⟩ := List.mem_map.1 hl
      obtain ⟨n, hn, -⟩ := hfwd lc hlc
      exact List.mem_map.2 ⟨_, hn, rfl⟩) fun k hk => by
      obtain ⟨lc, hlc, rfl⟩ := List.mem_map.1 hk
      obtain ⟨l, m, h1, h2⟩ := hbwd lc hlc
      exact ⟨l, List.mem_map.2 ⟨_, h1, rfl⟩, h2⟩
  have hren : RenamedAs ρ M' N' := ⟨by rw [a4, b4], by rw [a5, b5, hm], by rw [a6, b6, he], p1, p2, p3, hfwd, hbwd⟩
  refine ⟨M', N', by rw [s3]; exact a1, by rw [s3']; exact b1, hren, fun exp hm0 xs hxs hx => ?_⟩
  obtain ⟨rs, ss, M'', N'', k1, k2, k3, k4, k5, k6⟩ := C112_hmm_recognition ρ hρ D hD log exp M' N' a2 b2 hm0 hren xs hxs fun x hx' lc hlc => by
    obtain ⟨e1, e2, e3, -⟩ := a7 lc hlc
    unfold Hmm.Fits
    rw [e1, e2, e3]
    exact hx x hx'
  exact ⟨rs, ss, M'', N'', k1, k2, k3, k4, k5, fun hb ht => k6 (a4.trans hb) (by rw [a6]; exact ht)⟩

/-- the model of the example with the settings of the classes exchanged -/
noncomputable def swappedModel : HierHmm ℝ := { sessionModel with conf := fun l => sessionModel.conf (swapNames l) }

/-- the hypotheses of `C112_hmm_names` are met by a bimodal session with two classes whose names are exchanged, one of them with two states -/
theorem C112_hmm_example : Function.Injective swapNames ∧ (∀ l, swappedModel.conf (swapNames l) = sessionModel.conf l) ∧ swappedModel.window = sessionModel.window ∧ swappedModel.mode = sessionModel.mode ∧ swappedModel.est = sessionModel.est ∧
    sessionModel.training = false ∧ swappedModel.training = false ∧ sessionModel.Settings ⟨5, 10⟩ ∧ swappedModel.Settings ⟨5, 10⟩ ∧ sessionModel.hier = true ∧
    swappedModel.hier = true ∧ sessionFormat.Valid ∧ Takes.Admissible sessionFormat sessionA [] ∧ (Takes.run sessionFormat sessionA []).1 ≠ [] ∧
    (Takes.LongEnough (Takes.run sessionFormat sessionA []).1 fun l => (sessionModel.conf l).n) ∧ (sessionModel.conf "a").n = 2 := by
  obtain ⟨h1, h2, h3, h4, h5, -, h6, -, h7, -, -, -, -, h8⟩ := session_example
  refine ⟨C112_example.1, fun l => by simp only [swappedModel, swap_swap], rfl, rfl, rfl, h1, h1, h3,
    ⟨h3.window, h3.minIter, fun l => h3.states (swapNames l), fun l => h3.gaussians (swapNames l), fun l => h3.absReg (swapNames l), fun l => h3.leftRight (swapNames l)⟩,
    h2, h2, h4, h5, ?_, h6, h8⟩
  obtain ⟨e, he, -⟩ := h7
  exact List.ne_nil_of_mem he

end HierHmm
end Xmm
