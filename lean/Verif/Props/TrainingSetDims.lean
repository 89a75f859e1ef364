import Verif.Props.TrainingSetCopy
set_option linter.unusedSectionVars false
/- C22: dimensions of a training set and of its phrases. -/
namespace Xmm.TS
open Prog
variable {K L : Type} [LinearOrder L]

/-- The calls through which a training set manages its own phrases: no phrase built elsewhere is added, and nobody changes
    the dimensions of a phrase behind the training set's back.  (Copy construction is excluded too: it makes two sets
    share phrases, see `C22_copy_constructed_violated`.) -/
def Op.viaSet : Op K L → Prop
  | .copyConstruct _ _ | .addCopy _ _ _ _ | .addShared _ _ _ => False
  | .phraseOp _ (.setDimension _) | .phraseOp _ (.setDimensionInput _) => False
  | _ => True

/-- No call asks for an input dimension that is not below the dimension. -/
def InputBelow [Inhabited L] : List (Op K L) → World K L → Prop
  | [], _ => True
  | op :: ops, w => (∀ i d t, op = .setDi i d → w.sets i = some t → d < t.dims.dim) ∧
    match step op w with
    | .ret _ w' => InputBelow ops w'
    | .throw _ w' => InputBelow ops w'
    | .ub => True

/-- the header of the phrase fits the dimensions -/
structure PM (d : Dims) (b : Bool) (p : Phrase K) : Prop where
  dim : p.dimension = d.dim
  di : p.dimensionInput = d.di
  dimMin : p.dimMin = d.dimMin
  diMin : p.diMin = d.diMin
  diMax : p.diMax = d.dim - 1
  bim : p.bimodal = b

/-- every phrase fits its training set, and no two training sets share a phrase -/
structure D (w : World K L) : Prop where
  pm : ∀ i t, w.sets i = some t → ∀ k r, t.Holds k r → PM t.dims t.bimodal (w.obj r).ph
  lt : ∀ i t, w.sets i = some t → ∀ k r, t.Holds k r → r < w.next
  disj : ∀ i j t u, i ≠ j → w.sets i = some t → w.sets j = some u → ∀ k k' r, t.Holds k r → ¬ u.Holds k' r

theorem strip_of_map {w w' : World K L} (hb : SameBase w w') {i : Nat} {t : TSet L} (ht : w'.sets i = some t) :
    ∃ u, w.sets i = some u ∧ t.phrases = u.phrases ∧ t.dims = u.dims ∧ t.bimodal = u.bimodal := by
  have := hb.sets i
  rw [ht] at this
  cases hu : w.sets i with
  | none => rw [hu] at this; cases this
  | some u =>
    rw [hu] at this
    simp only [Option.map_some, Option.some.injEq] at this
    have h1 : t.strip.phrases = u.strip.phrases := congrArg TSet.phrases this
    have h2 : t.strip.dims = u.strip.dims := congrArg TSet.dims this
    have h3 : t.strip.bimodal = u.strip.bimodal := congrArg TSet.bimodal this
    exact ⟨u, rfl, h1, h2, h3⟩

theorem d_insens : Insens (D (K := K) (L := L)) := by
  intro w w' hb h
  refine ⟨fun i t ht k r hk => ?_, fun i t ht k r hk => ?_, fun i j t u hij ht hu k k' r hk hk' => ?_⟩
  · obtain ⟨t0, h0, e1, e2, e3⟩ := strip_of_map hb ht
    rw [e2, e3, hb.obj]
    exact h.pm i t0 h0 k r (by simpa [TSet.Holds, e1] using hk)
  · obtain ⟨t0, h0, e1, e2, e3⟩ := strip_of_map hb ht
    rw [hb.next]
    exact h.lt i t0 h0 k r (by simpa [TSet.Holds, e1] using hk)
  · obtain ⟨t0, h0, e1, e2, e3⟩ := strip_of_map hb ht
    obtain ⟨u0, g0, f1, f2, f3⟩ := strip_of_map hb hu
    exact h.disj i j t0 u0 hij h0 g0 k k' r (by simpa [TSet.Holds, e1] using hk) (by simpa [TSet.Holds, f1] using hk')

/-- replacing a set by one with fewer phrases that fit -/
theorem D.putSet {w : World K L} (h : D w) (i : Nat) (t t' : TSet L) (ht : w.sets i = some t)
    (hs : ∀ k r, t'.Holds k r → t.Holds k r) (hpm : ∀ k r, t'.Holds k r → PM t'.dims t'.bimodal (w.obj r).ph) :
    D (w.putSet i (some t')) := by
  have key : ∀ j u, (w.putSet i (some t')).sets j = some u →
      ∃ v, w.sets j = some v ∧ (∀ k r, u.Holds k r → v.Holds k r) ∧
        ∀ k r, u.Holds k r → PM u.dims u.bimodal (w.obj r).ph := by
    intro j u hu
    rw [putSet_sets] at hu
    by_cases hj : j = i
    · subst hj
      simp only [if_true, Option.some.injEq] at hu
      subst hu
      exact ⟨t, ht, hs, hpm⟩
    · rw [if_neg hj] at hu
      exact ⟨u, hu, fun _ _ h => h, h.pm j u hu⟩
  refine ⟨fun j u hu k r hk => ?_, fun j u hu k r hk => ?_, fun j1 j2 u1 u2 hne h1 h2 k k' r hk hk' => ?_⟩
  · obtain ⟨v, hv, a, b⟩ := key j u hu; exact b k r hk
  · obtain ⟨v, hv, a, b⟩ := key j u hu; exact h.lt j v hv k r (a k r hk)
  · obtain ⟨v1, hv1, a1, _⟩ := key j1 u1 h1
    obtain ⟨v2, hv2, a2, _⟩ := key j2 u2 h2
    exact h.disj j1 j2 v1 v2 hne hv1 hv2 k k' r (a1 k r hk) (a2 k' r hk')

theorem D.added {w : World K L} (h : D w) (i : Nat) (t : TSet L) (ht : w.sets i = some t) (k0 : Int)
    (o : PhraseObj K L) (ho : PM t.dims t.bimodal o.ph) : D (w.added i t k0 o) := by
  have key : ∀ j u, (w.added i t k0 o).sets j = some u → ∃ v, w.sets j = some v ∧ u.dims = v.dims ∧
      u.bimodal = v.bimodal ∧ ∀ k r, u.Holds k r → (r = w.next ∧ j = i) ∨ v.Holds k r := by
    intro j u hu
    simp only [World.added] at hu
    by_cases hj : j = i
    · subst hj
      simp only [if_true, Option.some.injEq] at hu
      subst hu
      refine ⟨t, ht, rfl, rfl, fun k r hk => ?_⟩
      simp only [TSet.Holds, SMap.find?_assign] at hk
      split at hk
      · left; exact ⟨by simpa using hk.symm, rfl⟩
      · right; exact hk
    · rw [if_neg hj] at hu
      exact ⟨u, hu, rfl, rfl, fun _ _ h => Or.inr h⟩
  refine ⟨fun j u hu k r hk => ?_, fun j u hu k r hk => ?_, fun j1 j2 u1 u2 hne h1 h2 k k' r hk hk' => ?_⟩
  · obtain ⟨v, hv, e1, e2, a⟩ := key j u hu
    rw [e1, e2]
    rcases a k r hk with ⟨rfl, rfl⟩ | h'
    · rw [ht] at hv; cases hv
      simp only [World.added, if_true]; exact ho
    · have : r ≠ w.next := Nat.ne_of_lt (h.lt j v hv k r h')
      simp only [World.added, this, if_false]; exact h.pm j v hv k r h'
  · obtain ⟨v, hv, _, _, a⟩ := key j u hu
    rcases a k r hk with ⟨rfl, rfl⟩ | h'
    · exact Nat.lt_succ_self _
    · exact Nat.lt_succ_of_lt (h.lt j v hv k r h')
  · obtain ⟨v1, hv1, _, _, a1⟩ := key j1 u1 h1
    obtain ⟨v2, hv2, _, _, a2⟩ := key j2 u2 h2
    rcases a1 k r hk with ⟨e, rfl⟩ | h1'
    · rcases a2 k' r hk' with ⟨_, e'⟩ | h2'
      · exact hne e'.symm
      · exact absurd (h.lt j2 v2 hv2 k' r h2') (by omega)
    · rcases a2 k' r hk' with ⟨e', _⟩ | h2'
      · exact absurd (h.lt j1 v1 hv1 k r h1') (by omega)
      · exact h.disj j1 j2 v1 v2 hne hv1 hv2 k k' r h1' h2'

/-- every recording or clearing call keeps the header -/
theorem phraseStep_pm (d : Dims) (b : Bool) (op : Phrase.Op K) (h1 : ∀ n, op ≠ .setDimension n)
    (h2 : ∀ n, op ≠ .setDimensionInput n) :
    Tri (PM d b) (Phrase.step op) (fun _ p => PM d b p) (PM d b) := by
  have mk : ∀ {p q : Phrase K}, PM d b p → q.dimension = p.dimension → q.dimensionInput = p.dimensionInput →
      q.dimMin = p.dimMin → q.diMin = p.diMin → q.diMax = p.diMax → q.bimodal = p.bimodal → PM d b q := by
    intro p q h e1 e2 e3 e4 e5 e6
    exact ⟨e1.trans h.dim, e2.trans h.di, e3.trans h.dimMin, e4.trans h.diMin, e5.trans h.diMax, e6.trans h.bim⟩
  have orub : ∀ {α : Type} (o : Option α) (Q : Phrase K → Prop),
      Tri Q (Phrase.orUB o) (fun _ => Q) Q := by
    intro α o Q
    cases o with
    | none => exact Tri.undef
    | some a => exact Tri.pure fun _ h => h
  have trim : Tri (PM (K := K) d b) Phrase.trim (fun _ p => PM d b p) (PM d b) := by
    refine Tri.modify fun p hp => ?_
    split
    · exact mk hp rfl rfl rfl rfl rfl rfl
    · exact hp
  have room : ∀ n, Tri (PM (K := K) d b) (Phrase.ensureRoom n) (fun _ p => PM d b p) (PM d b) := by
    intro n
    refine Tri.bind (Q := fun p' p => PM d b p' ∧ PM d b p) (Tri.get fun _ h => ⟨h, h⟩) fun p' => ?_
    refine Tri.ite (fun _ => ?_) fun _ => Tri.pure fun _ h => h.2
    refine Tri.bind (Q := fun p' p => PM d b p' ∧ PM d b p) (Tri.get fun _ h => ⟨h.2, h.2⟩) fun p' => ?_
    refine Tri.bind ((orub _ (fun p => PM d b p' ∧ PM d b p)).conseq (fun _ h => h) (fun _ _ h => h) (fun _ h => h.2))
      fun d0 => ?_
    refine Tri.ite (fun _ => ?_) fun _ => Tri.set fun p hp => mk hp.1 rfl rfl rfl rfl rfl rfl
    refine Tri.bind ((orub _ (fun p => PM d b p' ∧ PM d b p)).conseq (fun _ h => h) (fun _ _ h => h) (fun _ h => h.2))
      fun d1 => Tri.set fun p hp => mk hp.1 rfl rfl rfl rfl rfl rfl
  have noemp : Tri (PM (K := K) d b) (Prog.modify fun p => { p with empty := false }) (fun _ p => PM d b p) (PM d b) :=
    Tri.modify fun p hp => mk hp rfl rfl rfl rfl rfl rfl
  -- read the state, remembering that it fits
  have rd : ∀ {α : Type} {g : Phrase K → Prog (Phrase K) α} {Q : α → Phrase K → Prop} {E : Phrase K → Prop},
      (∀ p', PM d b p' → Tri (PM d b) (g p') Q E) → Tri (PM d b) (Prog.get >>= g) Q E := by
    intro α g Q E h
    refine Tri.bind (Q := fun p' p => PM d b p' ∧ PM d b p) (Tri.get fun _ h => ⟨h, h⟩) fun p' => ?_
    exact Tri.of_imp fun hp => h p' hp
  have ou : ∀ {α β : Type} (o : Option α) {g : α → Prog (Phrase K) β} {Q : β → Phrase K → Prop},
      (∀ a, Tri (PM d b) (g a) Q (PM d b)) → Tri (PM d b) (Phrase.orUB o >>= g) Q (PM d b) := by
    intro α β o g Q h
    exact Tri.bind (orub o _) h
  have thr : ∀ (e : Exn), Tri (PM (K := K) d b) (Prog.throw e) (fun (_ : Unit) p => PM d b p) (PM d b) :=
    fun e => Tri.throw fun _ h => h
  cases op with
  | record obs =>
    refine rd fun p0 _ => Tri.ite (fun _ => thr _) fun _ => Tri.ite (fun _ => thr _) fun _ => Tri.ite (fun _ => thr _) fun _ => ?_
    refine Tri.bind (room _) fun _ => rd fun p hp => Tri.ite (fun _ => ?_) fun _ => ?_
    · refine Tri.ite (fun _ => Tri.undef) fun _ => ou _ fun d0 => ou _ fun d1 => Tri.set fun _ _ => ?_
      exact mk hp rfl rfl rfl rfl rfl rfl
    · refine ou _ fun d0 => Tri.set fun _ _ => ?_
      exact mk hp rfl rfl rfl rfl rfl rfl
  | recordInput obs =>
    refine rd fun p0 _ => Tri.ite (fun _ => thr _) fun _ => Tri.ite (fun _ => thr _) fun _ => Tri.ite (fun _ => thr _) fun _ => ?_
    refine Tri.bind (room _) fun _ => rd fun p hp => ou _ fun d0 => ?_
    exact Tri.bind (Q := fun _ p => PM d b p) (Tri.set fun _ _ => mk hp rfl rfl rfl rfl rfl rfl) fun _ =>
      Tri.bind trim fun _ => noemp
  | recordOutput obs =>
    refine rd fun p0 _ => Tri.ite (fun _ => thr _) fun _ => Tri.ite (fun _ => thr _) fun _ => Tri.ite (fun _ => thr _) fun _ => ?_
    refine Tri.bind (room _) fun _ => rd fun p hp => ou _ fun d0 => ?_
    exact Tri.bind (Q := fun _ p => PM d b p) (Tri.set fun _ _ => mk hp rfl rfl rfl rfl rfl rfl) fun _ =>
      Tri.bind trim fun _ => noemp
  | clear =>
    exact rd fun p hp => Tri.ite (fun _ => thr _) fun _ => Tri.set fun _ _ => mk hp rfl rfl rfl rfl rfl rfl
  | clearInput =>
    exact rd fun p hp => Tri.ite (fun _ => thr _) fun _ => Tri.bind (Q := fun _ p => PM d b p)
      (Tri.set fun _ _ => mk hp rfl rfl rfl rfl rfl rfl) fun _ => trim
  | clearOutput =>
    exact rd fun p hp => Tri.ite (fun _ => thr _) fun _ => Tri.bind (Q := fun _ p => PM d b p)
      (Tri.set fun _ _ => mk hp rfl rfl rfl rfl rfl rfl) fun _ => trim
  | setDimension n => exact absurd rfl (h1 n)
  | setDimensionInput n => exact absurd rfl (h2 n)

theorem resetData_hdr (p : Phrase K) : Tri (fun p' => p' = p) Phrase.resetData
    (fun _ q => q.dimension = p.dimension ∧ q.dimensionInput = p.dimensionInput ∧ q.dimMin = p.dimMin ∧
      q.diMin = p.diMin ∧ q.diMax = p.diMax ∧ q.bimodal = p.bimodal) (fun _ => False) := by
  intro p' hp'; subst hp'
  simp only [Phrase.resetData, bind_def, get_def]
  by_cases h1 : (p'.ownMemory && p'.data0.isGarbage) = true
  · simp [h1]
  · rw [if_neg h1]
    by_cases h2 : p'.bimodal = true
    · rw [if_pos h2]
      by_cases h3 : p'.ownMemory = true
      · rw [if_pos h3]; exact ⟨rfl, rfl, rfl, rfl, rfl, rfl⟩
      · rw [if_neg h3]
        by_cases h4 : p'.data1.isNull = true
        · rw [if_pos h4]; exact ⟨rfl, rfl, rfl, rfl, rfl, rfl⟩
        · rw [if_neg h4]; trivial
    · rw [if_neg h2]; exact ⟨rfl, rfl, rfl, rfl, rfl, rfl⟩

theorem resetData_pm (d : Dims) (b : Bool) :
    Tri (PM (K := K) d b) Phrase.resetData (fun _ p => PM d b p) (fun _ => False) := by
  intro p hp
  refine (resetData_hdr p).conseq (fun _ h => h) (fun _ q h => ?_) (fun _ h => h) p rfl
  exact ⟨h.1.trans hp.dim, h.2.1.trans hp.di, h.2.2.1.trans hp.dimMin, h.2.2.2.1.trans hp.diMin,
    h.2.2.2.2.1.trans hp.diMax, h.2.2.2.2.2.trans hp.bim⟩

/-- call every phrase, turning `A` into `B` -/
theorem eachPhrase_all (f : Prog (Phrase K) Unit) (A B : Phrase K → Prop)
    (hA : Tri A f (fun _ p => B p) (fun _ => False)) (hB : Tri B f (fun _ p => B p) (fun _ => False))
    (all : List (Int × Nat)) (S : Nat → Option (TSet L)) (n : Nat) (o : Nat → PhraseObj K L)
    (l : List (Int × Nat)) (hl : ∀ e ∈ l, e ∈ all) :
    Tri (fun w => (w.sets = S ∧ w.next = n ∧ (∀ r, (∀ e ∈ all, e.2 ≠ r) → w.obj r = o r) ∧
          (∀ e ∈ all, A (w.obj e.2).ph ∨ B (w.obj e.2).ph)) ∧ ∀ e ∈ all, e ∈ l ∨ B (w.obj e.2).ph)
      (eachPhrase f l)
      (fun _ w => w.sets = S ∧ w.next = n ∧ (∀ r, (∀ e ∈ all, e.2 ≠ r) → w.obj r = o r) ∧
        ∀ e ∈ all, B (w.obj e.2).ph) (fun _ => False) := by
  induction l with
  | nil =>
    refine Tri.pure fun w hw => ⟨hw.1.1, hw.1.2.1, hw.1.2.2.1, fun e he => ?_⟩
    exact (hw.2 e he).resolve_left (by simp)
  | cons e l ih =>
    refine Tri.bind ?_ fun _ => ih fun x hx => hl x (List.mem_cons_of_mem _ hx)
    intro w hw
    obtain ⟨⟨hs, hn, ho, hab⟩, hd⟩ := hw
    have he := hl e List.mem_cons_self
    have hf : Tri (fun p => A p ∨ B p) f (fun _ p => B p) (fun _ => False) := by
      intro p hp; rcases hp with h | h
      · exact hA p h
      · exact hB p h
    simp only [onPhrase]
    cases hfr : f (w.obj e.2).ph with
    | ub => trivial
    | throw x p => exact (hf.thrown (hab e he) hfr).elim
    | ret x p =>
      have hb := hf.ret (hab e he) hfr
      have hobj : ∀ r, ((w.putObj e.2 { w.obj e.2 with ph := p }).obj r).ph = if r = e.2 then p else (w.obj r).ph := by
        intro r; simp only [World.putObj]; split <;> rfl
      refine ⟨⟨hs, hn, fun r hr => ?_, fun x hx => ?_⟩, fun x hx => ?_⟩
      · have : r ≠ e.2 := fun h => hr e he h.symm
        simp only [World.putObj, this, if_false]; exact ho r hr
      · rw [hobj]; split
        · exact Or.inr hb
        · exact hab x hx
      · rw [hobj]; split
        · exact Or.inr hb
        · rename_i hne
          rcases hd x hx with h | h
          · rcases List.mem_cons.1 h with rfl | h
            · exact absurd rfl hne
            · exact Or.inl h
          · exact Or.inr h

/-- a change of attributes of set `i` passed on to all its phrases -/
theorem attr_D (i : Nat) (t t' : TSet L) (hp : t'.phrases = t.phrases) (hsrt : SMap.Sorted t.phrases)
    (hbm : t'.bimodal = t.bimodal) (f : Prog (Phrase K) Unit)
    (hA : Tri (PM t.dims t.bimodal) f (fun _ p => PM t'.dims t.bimodal p) (fun _ => False))
    (hB : Tri (PM t'.dims t.bimodal) f (fun _ p => PM t'.dims t.bimodal p) (fun _ => False))
    (g : Prog (World K L) Unit) (hg : Tri D g (fun _ w => D w) D) :
    Tri (fun w => D w ∧ w.sets i = some t)
      (do Prog.modify fun w => w.putSet i (some t')
          eachPhrase f t.phrases
          g) (fun _ w => D w) D := by
  intro w hw
  obtain ⟨hD, ht⟩ := hw
  have hmem : ∀ e ∈ t.phrases, t.Holds e.1 e.2 := fun e he => (SMap.mem_iff_find? hsrt).1 he
  refine Tri.bind (P := fun w' => w' = w) (Q := fun _ w' => w' = w.putSet i (some t'))
    (Tri.modify fun w' hw' => by rw [hw']) (fun _ => Tri.bind (Q := fun _ w => D w) ?_ fun _ => hg) w rfl
  refine (eachPhrase_all f _ _ hA hB t.phrases (w.putSet i (some t')).sets w.next w.obj t.phrases (fun _ h => h)).conseq
    (P' := fun w' => w' = w.putSet i (some t')) ?_ ?_ (fun _ h => h.elim)
  · rintro _ rfl
    exact ⟨⟨rfl, rfl, fun _ _ => rfl, fun e he => Or.inl (hD.pm i t ht e.1 e.2 (hmem e he))⟩, fun e he => Or.inl he⟩
  · rintro _ w' ⟨hs, hn, ho, hb⟩
    refine ⟨fun j u hu k r hk => ?_, fun j u hu k r hk => ?_, fun j1 j2 u1 u2 hne h1 h2 k k' r hk hk' => ?_⟩
    · rw [hs, putSet_sets] at hu
      by_cases hj : j = i
      · subst hj
        simp only [if_true, Option.some.injEq] at hu
        subst hu
        rw [hbm]
        exact hb (k, r) ((SMap.mem_iff_find? hsrt).2 (by simpa [TSet.Holds, hp] using hk))
      · rw [if_neg hj] at hu
        rw [ho r fun e he h => hD.disj i j t u (Ne.symm hj) ht hu e.1 k r (h ▸ hmem e he) hk]
        exact hD.pm j u hu k r hk
    · rw [hs, putSet_sets] at hu
      rw [hn]
      by_cases hj : j = i
      · subst hj
        simp only [if_true, Option.some.injEq] at hu
        subst hu
        exact hD.lt j t ht k r (by simpa [TSet.Holds, hp] using hk)
      · rw [if_neg hj] at hu; exact hD.lt j u hu k r hk
    · have key : ∀ j u, w'.sets j = some u → ∃ v, w.sets j = some v ∧ ∀ k r, u.Holds k r → v.Holds k r := by
        intro j u hu
        rw [hs, putSet_sets] at hu
        by_cases hj : j = i
        · subst hj
          simp only [if_true, Option.some.injEq] at hu
          subst hu
          exact ⟨t, ht, fun k r hk => by simpa [TSet.Holds, hp] using hk⟩
        · rw [if_neg hj] at hu; exact ⟨u, hu, fun _ _ h => h⟩
      obtain ⟨v1, hv1, a1⟩ := key j1 u1 h1
      obtain ⟨v2, hv2, a2⟩ := key j2 u2 h2
      exact hD.disj j1 j2 v1 v2 hne hv1 hv2 k k' r (a1 k r hk) (a2 k' r hk')

theorem Tri.at {σ α : Type} {P : σ → Prop} {f : Prog σ α} {Q : α → σ → Prop} {E : σ → Prop} (h : Tri P f Q E) {s : σ}
    (hs : P s) : Tri (fun s' => s' = s) f Q E := fun _ e => e ▸ h s hs

theorem copy_pm {d : Dims} {b : Bool} {p q : Phrase K} (h : PM d b p) (hq : Phrase.copy p = some q) : PM d b q := by
  unfold Phrase.copy at hq
  split at hq
  · split at hq
    · simp only [Option.bind_eq_bind, Option.bind_eq_some_iff] at hq
      obtain ⟨d0, _, hq⟩ := hq
      split at hq
      · simp only [Option.bind_eq_some_iff] at hq
        obtain ⟨d1, _, hq⟩ := hq
        cases hq; exact ⟨h.dim, h.di, h.dimMin, h.diMin, h.diMax, h.bim⟩
      · cases hq; exact ⟨h.dim, h.di, h.dimMin, h.diMin, h.diMax, h.bim⟩
    · cases hq; exact ⟨h.dim, h.di, h.dimMin, h.diMin, h.diMax, h.bim⟩
  · cases hq

theorem removeClassLoop_D (i : Nat) (l : L) (n : Nat) :
    Tri (fun w : World K L => D w ∧ SortedAt i w) (removeClassLoop i l n) (fun _ w => D w ∧ SortedAt i w)
      (fun w => D w ∧ SortedAt i w) := by
  have hins := (d_insens (K := K) (L := L)).and (sortedAt_insens i)
  induction n with
  | zero => exact Tri.undef
  | succ n ih =>
    unfold removeClassLoop
    refine Tri.bind ((getSet_tri i _ _).conseq (fun _ h => h) (fun _ _ h => h.1) (fun _ h => h)) fun t => ?_
    refine Tri.bind (Q := fun _ w => D w ∧ SortedAt i w) (Tri.get fun _ h => h) fun w' => ?_
    cases List.find? (fun e => decide ((w'.obj e.2).label = l)) t.phrases with
    | none => exact Tri.pure fun _ h => h
    | some e =>
      refine Tri.bind ?_ fun _ => ih
      refine Tri.bind (getSet_tri i _ _) fun t => ?_
      refine Tri.bind (Q := fun _ w => D w ∧ SortedAt i w) (Tri.modify fun w hw => ?_) fun _ => update_insens hins i
      have hst := hw.1.2 t hw.2
      have hsub : ∀ k r, SMap.find? k (SMap.erase e.1 t.phrases) = some r → t.Holds k r :=
        fun k r h => mem_of_holds_erase e.1 k r hst h
      exact ⟨hw.1.1.putSet i t _ hw.2 hsub fun k r hk => hw.1.1.pm i t hw.2 k r (hsub k r hk),
        sortedAt_putSet _ hst.erase⟩

theorem putObj_D {w : World K L} (h : D w) (r : Nat) (o : PhraseObj K L)
    (ho : ∀ d b, PM d b (w.obj r).ph → PM d b o.ph) : D (w.putObj r o) := by
  refine ⟨fun i t ht k r' hk => ?_, h.lt, h.disj⟩
  have := h.pm i t ht k r' hk
  simp only [World.putObj]; split
  · rename_i e; subst e; exact ho _ _ this
  · exact this

theorem step_D [Inhabited L] (op : Op K L) (w : World K L) (hI : Inv w) (hD : D w) (hv : op.viaSet)
    (hC : op.updates = true → w.Coherent) (hb : ∀ i d t, op = .setDi i d → w.sets i = some t → d < t.dims.dim) :
    Tri (fun w' => w' = w) (step op) (fun _ w => D w) D := by
  have hS : ∀ i, SortedAt i w := fun i t ht => (hI.1 i t ht).sorted
  cases op with
  | newSet i o b =>
    intro w' hw; subst hw
    simp only [step, newSet, bind_def, get_def]
    cases h : w'.sets i with
    | some t => trivial
    | none =>
      have key : ∀ j u, (w'.putSet i (some (TSet.new o b))).sets j = some u → ∀ k r, u.Holds k r →
          w'.sets j = some u := by
        intro j u hu k r hk
        rw [putSet_sets] at hu
        by_cases hj : j = i
        · subst hj
          simp only [if_true, Option.some.injEq] at hu
          subst hu
          simp [TSet.Holds, TSet.new, SMap.find?] at hk
        · rw [if_neg hj] at hu; exact hu
      exact ⟨fun j u hu k r hk => hD.pm j u (key j u hu k r hk) k r hk,
        fun j u hu k r hk => hD.lt j u (key j u hu k r hk) k r hk,
        fun j1 j2 u1 u2 hne h1 h2 k k' r hk hk' =>
          hD.disj j1 j2 u1 u2 hne (key j1 u1 h1 k r hk) (key j2 u2 h2 k' r hk') k k' r hk hk'⟩
  | copyConstruct s i => exact hv.elim
  | addCopy i k p l => exact hv.elim
  | addShared i k r => exact hv.elim
  | assign i src =>
    intro w' hw; subst hw
    cases hs : w'.sets src with
    | none => simp [step, assign, getSet, hs]
    | some s =>
      cases ht : w'.sets i with
      | none => simp [step, assign, getSet, hs, ht]
      | some t =>
        by_cases his : i = src
        · have : step (.assign i src) w' = .ret () w' := by simp [step, assign, getSet, hs, his]
          rw [this]; exact hD
        · set s0 : TSet L := ⟨s.own, s.bimodal, s.dims, s.cols, s.labels, [], []⟩ with hs0
          have hreg := hI.1 src s hs
          have hD1 : D (w'.putSet i (some s0)) := hD.putSet i t s0 ht (by simp [TSet.Holds, hs0, SMap.find?])
            (by simp [TSet.Holds, hs0, SMap.find?])
          have hs1 : (w'.putSet i (some s0)).sets i = some s0 := by simp [putSet_sets]
          have hlt : ∀ e ∈ s.phrases, e.2 < (w'.putSet i (some s0)).next := fun e he =>
            (hreg.refs e.1 e.2 ((SMap.mem_iff_find? hreg.sorted).1 he)).1
          have hst : step (.assign i src) w' = (copyPhrases i s.phrases >>= fun _ => update i) (w'.putSet i (some s0)) := by
            simp only [step, assign, getSet, bind_def, get_def, hs, ht, pure_def, his, if_false, modify_def, ← hs0]
          have hnt := assign_tri (K := K) (L := L) i src
          rw [hst]
          simp only [bind_def]
          cases hcp : copyPhrases i s.phrases (w'.putSet i (some s0)) with
          | ub => trivial
          | throw e w2 =>
            have : assign i src w' = .throw e w2 := by
              have := hst; simp only [bind_def, hcp, step] at this; exact this
            exact (hnt.thrown ⟨hI, hC rfl⟩ this).elim
          | ret a w2 =>
            obtain ⟨n2, o2, p2, t2, st2, et2, ph2⟩ := copyPhrases_ret i s.phrases hreg.sorted _ w2 s0 hs1 hlt hcp
            have hD2 : D w2 := by
              have hnew : ∀ k r', t2.Holds k r' → ∃ r, s.Holds k r ∧ w'.next ≤ r' ∧
                  Phrase.copy (w'.obj r).ph = some (w2.obj r').ph := by
                intro k r' hk
                have := ph2 k
                cases hf : SMap.find? k s.phrases with
                | none =>
                  rw [hf] at this; simp only at this
                  rw [TSet.Holds, this] at hk; simp [hs0, SMap.find?] at hk
                | some r =>
                  rw [hf] at this
                  obtain ⟨r'', e1, e2, e3, _⟩ := this
                  rw [TSet.Holds, e1] at hk; cases hk
                  exact ⟨r, hf, e2, e3⟩
              have hlt2 : ∀ k r', t2.Holds k r' → r' < w2.next := by
                intro k r' hk
                have := ((copyPhrases_tri (K := K) (L := L) i s.phrases).ret ?_ hcp).1.1 i t2 st2
                · exact (this.refs k r' hk).1
                · refine ⟨⟨fun j u hu => ?_, fun j hj u hu => ?_⟩, ?_⟩
                  · rw [putSet_sets] at hu
                    by_cases hj : j = i
                    · subst hj
                      simp only [if_true, Option.some.injEq] at hu
                      subst hu
                      exact ⟨SMap.sorted_nil, hreg.dims, by simp [TSet.Holds, hs0, SMap.find?]⟩
                    · rw [if_neg hj] at hu; have := hI.1 j u hu; exact ⟨this.sorted, this.dims, this.refs⟩
                  · rw [putSet_sets, if_neg hj] at hu; exact hI.2 j id u hu
                  · exact putSet_coherent (hC rfl) i s0 (hC rfl src s hs)
              have hold : ∀ j u, j ≠ i → w2.sets j = some u → w'.sets j = some u := by
                intro j u hj hu
                rw [p2 j hj, putSet_sets, if_neg hj] at hu; exact hu
              refine ⟨fun j u hu k r hk => ?_, fun j u hu k r hk => ?_, fun j1 j2 u1 u2 hne h1 h2 k k' r hk hk' => ?_⟩
              · by_cases hj : j = i
                · subst hj
                  rw [st2] at hu; cases hu
                  obtain ⟨r0, a1, a2, a3⟩ := hnew k r hk
                  have := copy_pm (hD.pm src s hs k r0 a1) a3
                  have e1 : t2.dims = s.dims := by rw [et2]
                  have e2 : t2.bimodal = s.bimodal := by rw [et2]
                  rw [e1, e2]; exact this
                · have hu' := hold j u hj hu
                  rw [o2 r (hD.lt j u hu' k r hk)]
                  exact hD.pm j u hu' k r hk
              · by_cases hj : j = i
                · subst hj
                  rw [st2] at hu; cases hu
                  exact hlt2 k r hk
                · have := hD.lt j u (hold j u hj hu) k r hk
                  exact lt_of_lt_of_le this n2
              · by_cases hj1 : j1 = i
                · subst hj1
                  rw [st2] at h1; cases h1
                  obtain ⟨_, _, a2, _⟩ := hnew k r hk
                  have := hD.lt j2 u2 (hold j2 u2 (Ne.symm hne) h2) k' r hk'
                  omega
                · by_cases hj2 : j2 = i
                  · subst hj2
                    rw [st2] at h2; cases h2
                    obtain ⟨_, _, a2, _⟩ := hnew k' r hk'
                    have := hD.lt j1 u1 (hold j1 u1 hj1 h1) k r hk
                    omega
                  · exact hD.disj j1 j2 u1 u2 hne (hold j1 u1 hj1 h1) (hold j2 u2 hj2 h2) k k' r hk hk'
            exact update_insens d_insens i w2 hD2
  | destroy i =>
    refine Tri.at (P := D) ?_ hD
    refine Tri.bind (getSet_tri i _ _) fun t => Tri.modify fun w hw => ?_
    have key : ∀ j u, (w.putSet i none).sets j = some u → w.sets j = some u := by
      intro j u hu
      rw [putSet_sets] at hu
      by_cases hj : j = i
      · simp [hj] at hu
      · rw [if_neg hj] at hu; exact hu
    exact ⟨fun j u hu => hw.1.pm j u (key j u hu), fun j u hu => hw.1.lt j u (key j u hu),
      fun j1 j2 u1 u2 hne h1 h2 => hw.1.disj j1 j2 u1 u2 hne (key j1 u1 h1) (key j2 u2 h2)⟩
  | newPhrase o b =>
    intro w' hw; subst hw
    simp only [step, newPhrase, alloc, bind_def, get_def, set_def, pure_def]
    refine ⟨fun j u hu k r hk => ?_, fun j u hu k r hk => Nat.lt_succ_of_lt (hD.lt j u hu k r hk), hD.disj⟩
    have : r ≠ w'.next := Nat.ne_of_lt (hD.lt j u hu k r hk)
    simp only [World.putObj, this, if_false]
    exact hD.pm j u hu k r hk
  | phraseOp r op =>
    intro w' hw; subst hw
    have hop : (∀ n, op ≠ .setDimension n) ∧ ∀ n, op ≠ .setDimensionInput n := by
      constructor <;> rintro n rfl <;> exact hv
    simp only [step, phraseOp, bind_def, get_def]
    by_cases hr : r < w'.next
    · rw [if_pos hr]
      simp only [onPhrase]
      cases hf : Phrase.step op (w'.obj r).ph with
      | ub => trivial
      | ret a p =>
        exact putObj_D hD r _ fun d b h => (phraseStep_pm d b op hop.1 hop.2).ret h hf
      | throw e p =>
        exact putObj_D hD r _ fun d b h => (phraseStep_pm d b op hop.1 hop.2).thrown h hf
    · rw [if_neg hr]; trivial
  | relabel r l =>
    intro w' hw; subst hw
    simp only [step, userRelabel, bind_def, get_def]
    by_cases hr : r < w'.next
    · rw [if_pos hr]
      simp only [relabel, bind_def, get_def, set_def]
      exact notify_insens d_insens _ _ (putObj_D hD r { w'.obj r with label := l } fun _ _ h => h)
    · rw [if_neg hr]; trivial
  | addLabel i k l =>
    intro w' hw; subst hw
    cases ht : w'.sets i with
    | none => simp [step, addLabel, getSet, ht]
    | some t =>
      have hdm := (hI.1 i t ht).dims
      obtain ⟨p2, a1, a2, a3, a4, a5, a6, a7, _, he⟩ := addLabel_eq i k l w' t ht hdm (hC rfl i t ht)
      simp only [step]
      rw [he]
      exact update_insens d_insens i _ (hD.added i t ht k ⟨p2, l, EventGen.addListener i () []⟩
        ⟨a1, a2, a5.trans hdm.dimMin.symm, a6.trans hdm.diMin.symm, a7, a4⟩)
  | remove i k =>
    refine Tri.at (P := fun w => D w ∧ SortedAt i w) ?_ ⟨hD, hS i⟩
    refine Tri.bind ((getSet_tri i _ _).conseq (fun _ h => h) (fun _ _ h => h) (fun _ h => h)) fun t => ?_
    refine Tri.bind (Q := fun _ w => D w) (Tri.modify fun w hw => ?_) fun _ => update_insens d_insens i
    have hsub : ∀ k' r, SMap.find? k' (SMap.erase k t.phrases) = some r → t.Holds k' r :=
      fun k' r h => mem_of_holds_erase k k' r (hw.1.2 t hw.2) h
    exact hw.1.1.putSet i t _ hw.2 hsub fun k r hk => hw.1.1.pm i t hw.2 k r (hsub k r hk)
  | removeClass i l =>
    refine Tri.at (P := fun w => D w ∧ SortedAt i w) ?_ ⟨hD, hS i⟩
    refine Tri.bind ((getSet_tri i _ _).conseq (fun _ h => h) (fun _ _ h => h.1) (fun _ h => h)) fun t => ?_
    refine Tri.bind ((removeClassLoop_D i l _).conseq (fun _ h => h) (fun _ _ h => h.1) (fun _ h => h.1)) fun _ => ?_
    exact update_insens d_insens i
  | clear i =>
    refine Tri.at (P := D) ?_ hD
    refine Tri.bind (getSet_tri i _ _) fun t => Tri.modify fun w hw => ?_
    exact hw.1.putSet i t _ hw.2 (by simp [TSet.Holds, SMap.find?]) (by simp [TSet.Holds, SMap.find?])
  | setDim i d =>
    intro w' hw; subst hw
    cases ht : w'.sets i with
    | none => simp [step, setDim, getSet, ht]
    | some t =>
      by_cases hd : d < t.dims.dimMin
      · have : step (.setDim i d) w' = .throw .domainError w' := by simp [step, setDim, getSet, ht, hd]
        rw [this]; exact hD
      · have hst : step (.setDim i d) w' = (do
            Prog.modify fun w => w.putSet i (some { t with dims := { t.dims with dim := d } })
            eachPhrase (Phrase.setDimension d) t.phrases
            onSubs i (Sub.setDimSilently d)
            let t ← getSet i
            Prog.modify fun w => w.putSet i (some
              { t with cols := resizeCols d t.cols, dims := { t.dims with diMax := d - 1 } })
            : Prog (World K L) Unit) w' := by
          simp only [step, setDim]
          rw [bind_def]
          simp only [getSet, bind_def, get_def, ht, pure_def, hd, if_false]
        rw [hst]
        have hph : ∀ d0 : Nat, Tri (PM (K := K) { t.dims with dim := d0 } t.bimodal) (Phrase.setDimension d)
            (fun _ p => PM { t.dims with dim := d } t.bimodal p) (fun _ => False) := by
          intro d0 p hp
          have hlim : ¬ d < p.dimMin := by rw [hp.dimMin]; exact hd
          simp only [Phrase.setDimension, bind_def, get_def, hlim, if_false, set_def]
          have h1 := resetData_hdr { p with dimension := d }
          cases hr : Phrase.resetData { p with dimension := d } with
          | ub => trivial
          | throw e q => exact (h1.thrown rfl hr).elim
          | ret a q =>
            obtain ⟨e1, e2, e3, e4, _, e5⟩ := h1.ret rfl hr
            exact ⟨e1, e2.trans hp.di, e3.trans hp.dimMin, e4.trans hp.diMin, rfl, e5.trans hp.bim⟩
        refine attr_D i t { t with dims := { t.dims with dim := d } } rfl (hS i t ht) rfl _ (hph t.dims.dim) (hph d) _ ?_
          w' ⟨hD, ht⟩
        refine Tri.bind (onSubs_insens d_insens i _) fun _ => Tri.bind (getSet_tri i _ _) fun u => Tri.modify fun w hw => ?_
        refine hw.1.putSet i u _ hw.2 (fun k r h => h) fun k r hk => ?_
        have := hw.1.pm i u hw.2 k r hk
        exact ⟨this.dim, this.di, this.dimMin, this.diMin, this.diMax, this.bim⟩
  | setDi i d =>
    intro w' hw; subst hw
    cases ht : w'.sets i with
    | none => simp [step, setDi, getSet, ht]
    | some t =>
      by_cases hd : d < t.dims.diMin ∨ t.dims.diMax < d
      · have : step (.setDi i d) w' = .throw .domainError w' := by simp [step, setDi, getSet, ht, hd]
        rw [this]; exact hD
      · have hst : step (.setDi i d) w' = (do
            Prog.modify fun w => w.putSet i (some { t with dims := { t.dims with di := d } })
            eachPhrase (Phrase.setDimensionInput d) t.phrases
            onSubs i (Sub.setDi d) : Prog (World K L) Unit) w' := by
          simp only [step, setDi]
          rw [bind_def]
          simp only [getSet, bind_def, get_def, ht, pure_def, hd, if_false]
        rw [hst]
        have hlt := hb i d t rfl ht
        have hph : ∀ d0 : Nat, Tri (PM (K := K) { t.dims with di := d0 } t.bimodal) (Phrase.setDimensionInput d)
            (fun _ p => PM { t.dims with di := d } t.bimodal p) (fun _ => False) := by
          intro d0 p hp
          have hlim : ¬ (d < p.diMin ∨ p.diMax < d) := by
            rw [hp.diMin, hp.diMax]; simp only; omega
          simp only [Phrase.setDimensionInput, bind_def, get_def, hlim, if_false, set_def]
          exact resetData_pm (K := K) { t.dims with di := d } t.bimodal { p with dimensionInput := d }
            ⟨hp.dim, rfl, hp.dimMin, hp.diMin, hp.diMax, hp.bim⟩
        exact attr_D i t { t with dims := { t.dims with di := d } } rfl (hS i t ht) rfl _ (hph t.dims.di) (hph d) _
          (onSubs_insens d_insens i _) w' ⟨hD, ht⟩
  | setCols i c =>
    intro w' hw; subst hw
    cases ht : w'.sets i with
    | none => simp [step, setCols, getSet, ht]
    | some t =>
      by_cases hd : 0 < t.cols.length ∧ c.length ≠ t.cols.length
      · have : step (.setCols i c) w' = .throw .domainError w' := by
          simp only [step, setCols, bind_def, getSet, get_def, ht, pure_def]
          rw [if_pos hd]; rfl
        rw [this]; exact hD
      · have hst : step (.setCols i c) w' = (do
            Prog.modify fun w => w.putSet i (some { t with cols := c })
            eachPhrase (Prog.modify fun p => { p with columnNames := c }) t.phrases
            onSubs i (Sub.setCols c) : Prog (World K L) Unit) w' := by
          simp only [step, setCols]
          rw [bind_def]
          simp only [getSet, bind_def, get_def, ht, pure_def]
          rw [if_neg hd]
          simp only [bind_def]
        rw [hst]
        have hph : Tri (PM (K := K) t.dims t.bimodal) (Prog.modify fun p => { p with columnNames := c })
            (fun _ p => PM t.dims t.bimodal p) (fun _ => False) :=
          Tri.modify fun p hp => ⟨hp.dim, hp.di, hp.dimMin, hp.diMin, hp.diMax, hp.bim⟩
        exact attr_D i t { t with cols := c } rfl (hS i t ht) rfl _ hph hph _
          (onSubs_insens d_insens i _) w' ⟨hD, ht⟩

/-- C22: for every history of calls through which training sets manage their own phrases (creating phrases with
    `addPhrase(index, label)`, assigning training sets, removing, relabelling, recording, changing attributes; failed calls
    included), every phrase of every training set has the dimension and the input dimension of the training set.
    The history must not ask for an input dimension that is not below the dimension, nor add or relabel phrases after the
    dimension was lowered to the input dimension: both break the property, see below. -/
theorem C22_dimensions_consistent [Inhabited L] (ops : List (Op K L)) (hv : ∀ op ∈ ops, op.viaSet)
    (ha : Admissible ops World.empty) (hb : InputBelow ops World.empty) (w : World K L) (es : List (Option Exn))
    (hr : run ops World.empty = some (w, es)) (i : Nat) (t : TSet L) (ht : w.sets i = some t) (k : Int) (r : Nat)
    (hk : t.Holds k r) :
    (w.obj r).ph.dimension = t.dims.dim ∧ (w.obj r).ph.dimensionInput = t.dims.di ∧
      (w.obj r).ph.bimodal = t.bimodal := by
  have main : ∀ (ops : List (Op K L)) (w0 : World K L), Inv w0 → D w0 → (∀ op ∈ ops, op.viaSet) → Admissible ops w0 →
      InputBelow ops w0 → ∀ w es, run ops w0 = some (w, es) → D w := by
    intro ops
    induction ops with
    | nil =>
      intro w0 _ hD _ _ _ w es hr
      simp only [run, Option.some.injEq, Prod.mk.injEq] at hr
      rw [← hr.1]; exact hD
    | cons op ops ih =>
      intro w0 hI hD hv ha hb w es hr
      have h1 := step_D op w0 hI hD (hv op List.mem_cons_self) ha.1 hb.1
      have h2 := step_inv op
      have ha2 := ha.2
      have hb2 := hb.2
      simp only [run] at hr
      have hv' : ∀ o ∈ ops, o.viaSet := fun o ho => hv o (List.mem_cons_of_mem _ ho)
      cases hs : step op w0 with
      | ub => rw [hs] at hr; cases hr
      | ret a w1 =>
        rw [hs] at hr ha2 hb2
        simp only [Option.map_eq_some_iff] at hr
        obtain ⟨p, hp, he⟩ := hr
        have := ih w1 (h2.ret ⟨hI, ha.1⟩ hs) (h1.ret rfl hs) hv' ha2 hb2 p.1 p.2 hp
        have e : p.1 = w := congrArg Prod.fst he
        rw [← e]; exact this
      | throw e w1 =>
        rw [hs] at hr ha2 hb2
        simp only [Option.map_eq_some_iff] at hr
        obtain ⟨p, hp, he⟩ := hr
        have := ih w1 (h2.thrown ⟨hI, ha.1⟩ hs) (h1.thrown rfl hs) hv' ha2 hb2 p.1 p.2 hp
        have e : p.1 = w := congrArg Prod.fst he
        rw [← e]; exact this
  have hD0 : D (World.empty : World K L) := by
    constructor <;> simp [World.empty]
  have := (main ops _ inv_empty hD0 hv ha hb w es hr).pm i t ht k r hk
  exact ⟨this.dim, this.di, this.bim⟩

set_option synthInstance.maxSize 1000
set_option synthInstance.maxHeartbeats 200000

/-- C22 is violated when the input dimension of a new bimodal set is set to its dimension 2, which the set accepts: the
    phrase rejects it with `domain_error`, and keeps its input dimension 1. -/
theorem C22_input_dimension_violated :
    (run [.newSet 0 true true, .addLabel 0 1 7, .setDi 0 2] (World.empty : World ℚ Nat)).map
      (fun p => (p.2, (p.1.sets 0).map fun t => (t.dims.di, (p.1.obj 0).ph.dimensionInput, t.phrases))) =
    some ([none, none, some .domainError], some (2, 1, [(1, 0)])) := by decide +kernel

/-- C22 is violated by copy construction, because the two sets share their phrases: changing the dimension of the source
    changes that of the phrases held by the copy. -/
theorem C22_copy_constructed_violated :
    (run [.newSet 0 true false, .addLabel 0 1 7, .phraseOp 0 (.record [1]), .copyConstruct 0 1, .setDim 0 5]
      (World.empty : World ℚ Nat)).map
      (fun p => (p.2, (p.1.sets 1).map fun t => (t.dims.dim, (p.1.obj 0).ph.dimension, t.phrases))) =
    some ([none, none, none, none, none], some (1, 5, [(1, 0)])) := by decide +kernel

/-- Changing the dimension of a bimodal set that holds a phrase, then its input dimension, throws `domain_error`: the sets
    of the classes keep the old limit.  (The set and its phrases do have the new values.) -/
theorem C22_second_change_throws :
    (run [.newSet 0 true true, .addLabel 0 1 7, .setDim 0 5, .setDi 0 3] (World.empty : World ℚ Nat)).map
      (fun p => (p.2, (p.1.sets 0).map fun t => (t.dims.di, (p.1.obj 0).ph.dimensionInput,
        t.subs.map fun e => e.2.dims.di))) =
    some ([none, none, none, some .domainError], some (3, 3, [1])) := by decide +kernel

/-- non-vacuity: a history with changes of both attributes -/
example : (run [.newSet 0 true true, .setDim 0 5, .setDi 0 3, .addLabel 0 1 7, .setDim 0 6, .addLabel 0 2 8]
      (World.empty : World ℚ Nat)).map
      (fun p => (p.2, (p.1.sets 0).map fun t => (t.dims.dim, t.dims.di), (p.1.obj 0).ph.dimension,
        (p.1.obj 1).ph.dimension, (p.1.obj 1).ph.dimensionInput)) =
    some ([none, none, none, none, none, none], some (6, 3), 6, 6, 3) := by decide +kernel

end Xmm.TS
