import Verif.Spec.Pool
import Mathlib.Tactic.Linarith
import Mathlib.Data.List.Nodup
import Mathlib.Data.List.Sublists
/- C53: training ends with exactly the classes that were trained successfully.  C54: the model leaves the training state after the last thread. -/
namespace Xmm
namespace Pool

theorem eventsOf_append (l : String) (a b : List (Option String × Status)) : eventsOf l (a ++ b) = eventsOf l a ++ eventsOf l b := by
  simp [eventsOf]

theorem eventsOf_same (l : String) (st : Status) : eventsOf l [(some l, st)] = [st] := by
  simp [eventsOf]

theorem eventsOf_other {l l' : String} (h : l' ≠ l) (st : Status) : eventsOf l [(some l', st)] = [] := by
  simp [eventsOf, h]

theorem eventsOf_none (l : String) (st : Status) : eventsOf l [(none, st)] = [] := by
  simp [eventsOf]

/-- one class, when the classes `pend` of `todo` have not been started -/
inductive Ok (todo pend : List String) (evs : List (Option String × Status)) (c : Worker) : Prop
  | old (h : c.label ∉ todo) (hp : c.label ∉ pend) (ht : c.training = false) (hr : c.thread ≠ .running) (hs : c.status ≠ .cancel ∧ c.status ≠ .error)
  | pending (h : c.label ∈ todo) (hp : c.label ∈ pend) (ht : c.training = false) (hr : c.thread ≠ .running) (he : eventsOf c.label evs = [])
  | running (h : c.label ∈ todo) (hp : c.label ∉ pend) (ht : c.training = true) (hr : c.thread = .running) (hs : c.status = .run)
      (he : ∃ k, eventsOf c.label evs = List.replicate k .run)
  | ended (h : c.label ∈ todo) (hp : c.label ∉ pend) (ht : c.training = false) (hr : c.thread = .ended) (ho : Outcome evs c.label c.status)

/-- before the sweep -/
structure Before (todo before pend : List String) (s : Pool) : Prop where
  nodup : before.Nodup
  known : ∀ l ∈ todo, l ∈ before
  labels : s.labels = before
  ok : ∀ c ∈ s.classes, Ok todo pend s.events c
  count : s.still = (s.classes.countP fun c => c.thread = .running : Nat)
  evs : ∀ e ∈ s.events, e.1 ≠ none ∧ e.2 ≠ .allDone

/-- after the sweep -/
structure After (todo before : List String) (evs : List (Option String × Status)) (s : Pool) : Prop where
  handles : s.handles = []
  still : s.still = 0
  order : s.labels.Sublist before
  others : ∀ l ∈ before, l ∉ todo → l ∈ s.labels
  outcomes : ∀ l ∈ todo, ∃ st, Outcome evs l st ∧ (l ∈ s.labels ↔ st = .done)
  quiet : ∀ c ∈ s.classes, c.training = false ∧ c.thread ≠ .running
  evs : ∀ e ∈ evs, e.1 ≠ none ∧ e.2 ≠ .allDone

/-- the thread in `joinTraining` is at `pc` -/
def JInv (todo before : List String) (pc : JoinPc) (s : Pool) : Prop :=
  match pc with
  | .enter => Before todo before [] s ∧ s.handles = todo ∧ s.isJoining = false ∧ s.isTraining = true
  | .join => Before todo before [] s ∧ (∃ dn, todo = dn ++ s.handles ∧ ∀ c ∈ s.classes, c.label ∈ dn → c.thread ≠ .running) ∧ s.isJoining = true ∧ s.isTraining = true
  | .sweep => Before todo before [] s ∧ s.handles = [] ∧ (∀ c ∈ s.classes, c.thread ≠ .running) ∧ s.isJoining = true ∧ s.isTraining = true
  | .unjoin => After todo before s.events s ∧ s.isJoining = true ∧ s.isTraining = true
  | .untrain => After todo before s.events s ∧ s.isJoining = false ∧ s.isTraining = true
  | .reset => After todo before s.events s ∧ s.isJoining = false ∧ s.isTraining = false
  | .alldone => After todo before s.events s ∧ s.isJoining = false ∧ s.isTraining = false
  | .left => (∃ evs, s.events = evs ++ [(none, .allDone)] ∧ After todo before evs s) ∧ s.isJoining = false ∧ s.isTraining = false
  | .wait => False
  | .failed => False

theorem outcome_append {evs : List (Option String × Status)} {l : String} {st : Status} (h : Outcome evs l st) (e : Option String × Status)
    (he : e.1 ≠ some l) : Outcome (evs ++ [e]) l st := by
  obtain ⟨hf, k, hk⟩ := h
  refine ⟨hf, k, ?_⟩
  rw [eventsOf_append, hk]
  simp [eventsOf, he]

/-- one step of `joinTraining` -/
theorem joinStep_ok {todo before : List String} {pc pc' : JoinPc} {s s' : Pool} (h : JInv todo before pc s) (hs : s.joinStep false pc = some (pc', s')) :
    JInv todo before pc' s' ∧ s'.main = s.main ∧ s'.joiners = s.joiners ∧ s'.mode = s.mode ∧ s'.cancelRequired = s.cancelRequired ∧ s'.terminated = s.terminated := by
  cases pc with
  | enter =>
    obtain ⟨h1, h2, h3, h4⟩ := h
    simp only [joinStep, h4, h3] at hs
    simp only [Bool.not_true, Bool.false_eq_true, if_false, Bool.or_self, Option.some.injEq, Prod.mk.injEq] at hs
    obtain ⟨rfl, rfl⟩ := hs
    refine ⟨⟨⟨h1.nodup, h1.known, h1.labels, h1.ok, h1.count, h1.evs⟩, ⟨[], by simp [h2], by simp⟩, rfl, rfl⟩, rfl, rfl, rfl, rfl, rfl⟩
  | join =>
    obtain ⟨h1, ⟨dn, h2, h3⟩, h4, h5⟩ := h
    simp only [joinStep] at hs
    cases hh : s.handles with
    | nil =>
      rw [hh] at hs
      simp only [Option.some.injEq, Prod.mk.injEq] at hs
      obtain ⟨rfl, rfl⟩ := hs
      refine ⟨⟨h1, hh, fun c hc => ?_, h4, h5⟩, rfl, rfl, rfl, rfl, rfl⟩
      rw [hh, List.append_nil] at h2
      subst h2
      cases h1.ok c hc with
      | old _ _ _ hr _ => exact hr
      | pending _ _ _ hr _ => exact hr
      | running ht _ _ _ _ _ => exact h3 c hc ht
      | ended _ _ _ hr _ => simp [hr]
    | cons l t =>
      rw [hh] at hs
      by_cases hq : s.quiet l = true
      · simp only [hq, if_true, Option.some.injEq, Prod.mk.injEq] at hs
        obtain ⟨rfl, rfl⟩ := hs
        refine ⟨⟨⟨h1.nodup, h1.known, h1.labels, h1.ok, h1.count, h1.evs⟩, ⟨dn ++ [l], by simp [h2, hh], fun c hc hl => ?_⟩, h4, h5⟩, rfl, rfl, rfl, rfl, rfl⟩
        rcases List.mem_append.1 hl with hl | hl
        · exact h3 c hc hl
        · simp only [List.mem_singleton] at hl
          simp only [quiet, List.all_eq_true] at hq
          have := hq c hc
          simp only [Bool.not_eq_true', decide_eq_false_iff_not, not_and] at this
          exact this hl
      · simp [hq] at hs
  | sweep =>
    obtain ⟨h1, h2, h3, h4, h5⟩ := h
    simp only [joinStep, Option.some.injEq, Prod.mk.injEq] at hs
    obtain ⟨rfl, rfl⟩ := hs
    have hlab : ∀ l, l ∈ s.labels ↔ ∃ c ∈ s.classes, c.label = l := by
      intro l
      simp [Pool.labels]
    have hnd : s.labels.Nodup := by rw [h1.labels]; exact h1.nodup
    have huniq : ∀ c ∈ s.classes, ∀ d ∈ s.classes, c.label = d.label → c = d := fun c hc d hd he => List.inj_on_of_nodup_map hnd hc hd he
    refine ⟨⟨⟨h2, ?_, ?_, ?_, ?_, ?_, h1.evs⟩, h4, h5⟩, rfl, rfl, rfl, rfl, rfl⟩
    · show s.still = 0
      rw [h1.count]
      have : s.classes.countP (fun c => decide (c.thread = .running)) = 0 := by
        rw [List.countP_eq_zero]
        intro c hc
        simp [h3 c hc]
      rw [this]; rfl
    · show (List.map _ (List.filter _ s.classes)).Sublist before
      rw [← h1.labels]
      exact List.Sublist.map _ List.filter_sublist
    · intro l hl hn
      rw [← h1.labels, hlab] at hl
      obtain ⟨c, hc, rfl⟩ := hl
      refine List.mem_map.2 ⟨c, List.mem_filter.2 ⟨hc, ?_⟩, rfl⟩
      cases h1.ok c hc with
      | old _ _ _ _ hs => simp [hs.1, hs.2]
      | pending h _ _ _ _ => exact absurd h hn
      | running h _ _ _ _ _ => exact absurd h hn
      | ended h _ _ _ _ => exact absurd h hn
    · intro l hl
      have hl' := h1.known l hl
      rw [← h1.labels, hlab] at hl'
      obtain ⟨c, hc, rfl⟩ := hl'
      have ho : Outcome s.events c.label c.status := by
        cases h1.ok c hc with
        | old h _ _ _ hs => exact absurd hl h
        | pending h hp _ _ _ => simp at hp
        | running h _ _ hr _ _ => exact absurd hr (h3 c hc)
        | ended h _ _ _ ho => exact ho
      refine ⟨c.status, ho, ?_⟩
      constructor
      · intro hm
        obtain ⟨d, hd, hde⟩ := List.mem_map.1 hm
        obtain ⟨hd1, hd2⟩ := List.mem_filter.1 hd
        have := huniq d hd1 c hc hde
        subst this
        simp only [Bool.not_eq_true', decide_eq_false_iff_not, not_or] at hd2
        rcases ho.1 with h | h | h
        · exact h
        · exact absurd h hd2.2
        · exact absurd h hd2.1
      · intro hd
        exact List.mem_map.2 ⟨c, List.mem_filter.2 ⟨hc, by simp [hd]⟩, rfl⟩
    · intro c hc
      have hc' := (List.mem_filter.1 hc).1
      refine ⟨?_, h3 c hc'⟩
      cases h1.ok c hc' with
      | old _ _ ht _ _ => exact ht
      | pending _ _ ht _ _ => exact ht
      | running _ _ _ hr _ _ => exact absurd hr (h3 c hc')
      | ended _ _ ht _ _ => exact ht
  | unjoin =>
    obtain ⟨h1, h2, h3⟩ := h
    simp only [joinStep, Option.some.injEq, Prod.mk.injEq] at hs
    obtain ⟨rfl, rfl⟩ := hs
    exact ⟨⟨⟨h1.handles, h1.still, h1.order, h1.others, h1.outcomes, h1.quiet, h1.evs⟩, rfl, h3⟩, rfl, rfl, rfl, rfl, rfl⟩
  | untrain =>
    obtain ⟨h1, h2, h3⟩ := h
    simp only [joinStep, Option.some.injEq, Prod.mk.injEq] at hs
    obtain ⟨rfl, rfl⟩ := hs
    exact ⟨⟨⟨h1.handles, h1.still, h1.order, h1.others, h1.outcomes, h1.quiet, h1.evs⟩, h2, rfl⟩, rfl, rfl, rfl, rfl, rfl⟩
  | reset =>
    obtain ⟨h1, h2, h3⟩ := h
    have hn : (s.isTraining || s.classes.any (·.training)) = false := by
      rw [h3, Bool.false_or, List.any_eq_false]
      intro c hc
      simp [(h1.quiet c hc).1]
    simp only [joinStep, hn, Bool.false_eq_true, if_false, Option.some.injEq, Prod.mk.injEq] at hs
    obtain ⟨rfl, rfl⟩ := hs
    exact ⟨⟨h1, h2, h3⟩, rfl, rfl, rfl, rfl, rfl⟩
  | alldone =>
    obtain ⟨h1, h2, h3⟩ := h
    simp only [joinStep, Option.some.injEq, Prod.mk.injEq] at hs
    obtain ⟨rfl, rfl⟩ := hs
    exact ⟨⟨⟨s.events, rfl, ⟨h1.handles, h1.still, h1.order, h1.others, h1.outcomes, h1.quiet, h1.evs⟩⟩, h2, h3⟩, rfl, rfl, rfl, rfl, rfl⟩
  | wait => exact h.elim
  | left => simp [joinStep] at hs
  | failed => exact h.elim

theorem labels_onClass (l : String) (f : Worker → Worker) (hf : ∀ c, (f c).label = c.label) (s : Pool) : (s.onClass l f).labels = s.labels := by
  simp only [labels, onClass, List.map_map]
  apply List.map_congr_left
  intro c _
  simp only [Function.comp]
  split
  · exact hf c
  · rfl

/-- a class of the changed model -/
theorem mem_onClass {l : String} {f : Worker → Worker} {s : Pool} {c : Worker} (h : c ∈ (s.onClass l f).classes) :
    ∃ d ∈ s.classes, (d.label = l ∧ c = f d) ∨ (d.label ≠ l ∧ c = d) := by
  simp only [onClass, List.mem_map] at h
  obtain ⟨d, hd, rfl⟩ := h
  refine ⟨d, hd, ?_⟩
  by_cases hl : d.label = l
  · left; simp [hl]
  · right; simp [hl]

/-- the classes that do not change keep their state when an event of another class arrives -/
theorem Ok.other {todo pend : List String} {evs : List (Option String × Status)} {c : Worker} (h : Ok todo pend evs c) (e : Option String × Status)
    (he : e.1 ≠ some c.label) : Ok todo pend (evs ++ [e]) c := by
  have hz : eventsOf c.label [e] = [] := by simp [eventsOf, he]
  cases h with
  | old h hp ht hr hs => exact .old h hp ht hr hs
  | pending h hp ht hr hv => exact .pending h hp ht hr (by rw [eventsOf_append, hv, hz]; rfl)
  | running h hp ht hr hs hv =>
    obtain ⟨k, hk⟩ := hv
    exact .running h hp ht hr hs ⟨k, by rw [eventsOf_append, hk, hz, List.append_nil]⟩
  | ended h hp ht hr ho => exact .ended h hp ht hr (outcome_append ho e he)

/-- only running threads stay running -/
def Fewer (s s' : Pool) : Prop := ∀ c' ∈ s'.classes, c'.thread = .running → ∃ c ∈ s.classes, c.label = c'.label ∧ c.thread = .running

/-- the members that the steps of the classes do not touch -/
def Frame (s s' : Pool) : Prop :=
  s'.mode = s.mode ∧ s'.handles = s.handles ∧ s'.isTraining = s.isTraining ∧ s'.isJoining = s.isJoining ∧ s'.cancelRequired = s.cancelRequired ∧ s'.main = s.main ∧
    s'.terminated = s.terminated ∧ Fewer s s'

theorem Before.uniq {todo before pend : List String} {s : Pool} (h : Before todo before pend s) :
    ∀ c ∈ s.classes, ∀ d ∈ s.classes, c.label = d.label → c = d := by
  have hnd : s.labels.Nodup := by rw [h.labels]; exact h.nodup
  exact fun c hc d hd he => List.inj_on_of_nodup_map hnd hc hd he

theorem run_ok {todo before pend : List String} {s s' : Pool} {l : String} (h : Before todo before pend s) (hs : s.runStep l = some s') :
    Before todo before pend s' ∧ Frame s s' ∧ s'.joiners = s.joiners := by
  unfold runStep at hs
  split at hs
  · rename_i hr
    simp only [Option.some.injEq] at hs
    obtain ⟨r, hr1, hr2⟩ := List.any_eq_true.1 hr
    simp only [decide_eq_true_eq] at hr2
    obtain ⟨rfl, hr3, hr4⟩ := hr2
    subst hs
    refine ⟨⟨h.nodup, h.known, ?_, ?_, ?_, ?_⟩, ⟨rfl, rfl, rfl, rfl, rfl, rfl, rfl, ?_⟩, rfl⟩
    · rw [← h.labels]; exact labels_onClass _ (fun c => { c with budget := c.budget - 1 }) (fun _ => rfl) s
    · intro c hc
      obtain ⟨d, hd, ⟨hl, rfl⟩ | ⟨hl, rfl⟩⟩ := mem_onClass hc
      · have := h.uniq d hd r hr1 hl
        subst this
        cases h.ok d hd with
        | old _ _ _ hn _ => exact absurd hr3 hn
        | pending _ _ _ hn _ => exact absurd hr3 hn
        | running h1 h2 h3 h4 h5 h6 =>
          obtain ⟨k, hk⟩ := h6
          refine .running h1 h2 h3 h4 h5 ⟨k + 1, ?_⟩
          rw [eventsOf_append]
          show eventsOf d.label s.events ++ eventsOf d.label [(some d.label, .run)] = _
          rw [hk, eventsOf_same, List.replicate_succ']
        | ended _ _ _ hn _ => rw [hr3] at hn; simp at hn
      · exact (h.ok c hd).other _ (by simpa using Ne.symm hl)
    · show s.still = _
      rw [h.count]
      simp only [onClass]
      rw [List.countP_map]
      congr 1
      apply List.countP_congr
      intro c _
      simp only [Function.comp]
      split <;> rfl
    · intro e he
      rcases List.mem_append.1 he with he | he
      · exact h.evs e he
      · simp only [List.mem_singleton] at he
        subst he
        simp
    · intro c hc ht
      obtain ⟨d, hd, ⟨hl, rfl⟩ | ⟨hl, rfl⟩⟩ := mem_onClass hc
      · exact ⟨d, hd, rfl, ht⟩
      · exact ⟨c, hd, rfl, ht⟩
  · simp at hs

/-- the state after the last event of a class, before the test of line 532 -/
def closed (l : String) (st : Status) (s : Pool) : Pool :=
  { s.onClass l (fun c => { c with status := st, training := false, thread := .ended }) with events := s.events ++ [(some l, st)], still := s.still - 1 }

theorem finalStep_eq (l : String) (st : Status) (s : Pool) : s.finalStep l st =
    if s.runs l && decide (st = .done ∨ st = .error ∨ st = .cancel) then
      if s.mode = .background ∧ s.isJoining = false ∧ s.cancelRequired = false ∧ s.still - 1 = 0 then
        some { closed l st s with isJoining := false, joiners := s.joiners ++ [.enter] }
      else some (closed l st s)
    else none := rfl

theorem countP_closed {l : String} {st : Status} {s : Pool} {r : Worker} (hn : s.labels.Nodup) (hr : r ∈ s.classes) (hl : r.label = l) (ht : r.thread = .running) :
    (s.classes.countP fun c => c.thread = .running) = ((closed l st s).classes.countP fun c => c.thread = .running) + 1 := by
  obtain ⟨mode, classes, _⟩ := s
  simp only [labels] at hn
  simp only [closed, onClass]
  rw [List.countP_map]
  subst hl
  simp only at hr
  induction classes with
  | nil => simp at hr
  | cons a t ih =>
    simp only [List.map_cons, List.nodup_cons] at hn
    rcases List.mem_cons.1 hr with h | h
    · subst h
      have hz : List.countP (fun c => decide (c.thread = Thread.running)) t =
          List.countP ((fun c => decide (c.thread = Thread.running)) ∘ fun c =>
            if c.label = r.label then { c with status := st, training := false, thread := .ended } else c) t := by
        apply List.countP_congr
        intro c hc
        have : c.label ≠ r.label := fun he => hn.1 (he ▸ List.mem_map.2 ⟨c, hc, rfl⟩)
        simp [this]
      rw [List.countP_cons, List.countP_cons, ← hz]
      simp [ht]
    · have ha : a.label ≠ r.label := fun he => hn.1 (he ▸ List.mem_map.2 ⟨r, h, rfl⟩)
      rw [List.countP_cons, List.countP_cons, ih hn.2 h]
      simp only [Function.comp, ha, if_false]
      omega

theorem closed_ok {todo before pend : List String} {s : Pool} {l : String} {st : Status} (h : Before todo before pend s) (hr : s.runs l = true)
    (hst : st = .done ∨ st = .error ∨ st = .cancel) : Before todo before pend (closed l st s) ∧ Frame s (closed l st s) := by
  obtain ⟨r, hr1, hr2⟩ := List.any_eq_true.1 hr
  simp only [decide_eq_true_eq] at hr2
  obtain ⟨rfl, hr3⟩ := hr2
  refine ⟨⟨h.nodup, h.known, ?_, ?_, ?_, ?_⟩, rfl, rfl, rfl, rfl, rfl, rfl, rfl, ?_⟩
  · rw [← h.labels]; exact labels_onClass _ (fun c => { c with status := st, training := false, thread := .ended }) (fun _ => rfl) s
  · intro c hc
    obtain ⟨d, hd, ⟨hl, rfl⟩ | ⟨hl, rfl⟩⟩ := mem_onClass hc
    · have := h.uniq d hd r hr1 hl
      subst this
      cases h.ok d hd with
      | old _ _ _ hn _ => exact absurd hr3 hn
      | pending _ _ _ hn _ => exact absurd hr3 hn
      | running h1 h2 h3 h4 h5 h6 =>
        obtain ⟨k, hk⟩ := h6
        refine .ended h1 h2 rfl rfl ⟨hst, k, ?_⟩
        show eventsOf d.label (s.events ++ [(some d.label, st)]) = _
        rw [eventsOf_append, hk, eventsOf_same]
      | ended _ _ _ hn _ => rw [hr3] at hn; simp at hn
    · exact (h.ok c hd).other _ (by simpa using Ne.symm hl)
  · show s.still - 1 = _
    rw [h.count, countP_closed (st := st) (by rw [h.labels]; exact h.nodup) hr1 rfl hr3]
    push_cast
    omega
  · intro e he
    rcases List.mem_append.1 he with he | he
    · exact h.evs e he
    · simp only [List.mem_singleton] at he
      subst he
      rcases hst with rfl | rfl | rfl <;> simp
  · intro c hc ht
    obtain ⟨d, hd, ⟨hl, rfl⟩ | ⟨hl, rfl⟩⟩ := mem_onClass hc
    · simp at ht
    · exact ⟨c, hd, rfl, ht⟩

theorem not_runs {s : Pool} (h : ∀ c ∈ s.classes, c.thread ≠ .running) (l : String) : s.runs l = false := by
  simp only [runs, List.any_eq_false]
  intro c hc
  simp [h c hc]

theorem runStep_runs {s s' : Pool} {l : String} (h : s.runStep l = some s') : s.runs l = true := by
  unfold runStep at h
  split at h
  · rename_i hr
    obtain ⟨r, hr1, hr2⟩ := List.any_eq_true.1 hr
    simp only [decide_eq_true_eq] at hr2
    exact List.any_eq_true.2 ⟨r, hr1, by simp [hr2.1, hr2.2.1]⟩
  · simp at h

theorem finalStep_runs {s s' : Pool} {l : String} {st : Status} (h : s.finalStep l st = some s') :
    s.runs l = true ∧ (st = .done ∨ st = .error ∨ st = .cancel) := by
  rw [finalStep_eq] at h
  by_cases hc : (s.runs l && decide (st = .done ∨ st = .error ∨ st = .cancel)) = true
  · simpa using hc
  · rw [if_neg hc] at h
    simp at h

/-- in `joinTraining`, the steps of the classes -/
theorem JInv.class_step {todo before : List String} {pc : JoinPc} {s s' : Pool} (h : JInv todo before pc s) (l : String) (hr : s.runs l = true)
    (hb : Before todo before [] s → Before todo before [] s') (hf : Frame s s') : JInv todo before pc s' := by
  obtain ⟨f1, f2, f3, f4, f5, f6, f7, f8⟩ := hf
  have hno : ∀ evs, After todo before evs s → False := by
    intro evs ha
    rw [not_runs (fun c hc => (ha.quiet c hc).2) l] at hr
    simp at hr
  cases pc with
  | enter =>
    obtain ⟨h1, h2, h3, h4⟩ := h
    exact ⟨hb h1, by rw [f2, h2], by rw [f4, h3], by rw [f3, h4]⟩
  | join =>
    obtain ⟨h1, ⟨dn, h2, h3⟩, h4, h5⟩ := h
    refine ⟨hb h1, ⟨dn, by rw [f2, h2], fun c hc hl hrun => ?_⟩, by rw [f4, h4], by rw [f3, h5]⟩
    obtain ⟨d, hd, hde, hdr⟩ := f8 c hc hrun
    exact h3 d hd (hde ▸ hl) hdr
  | sweep =>
    obtain ⟨h1, h2, h3, h4, h5⟩ := h
    rw [not_runs h3 l] at hr
    simp at hr
  | unjoin => exact (hno _ h.1).elim
  | untrain => exact (hno _ h.1).elim
  | reset => exact (hno _ h.1).elim
  | alldone => exact (hno _ h.1).elim
  | left =>
    obtain ⟨⟨evs, -, ha⟩, -⟩ := h
    exact (hno _ ha).elim
  | wait => exact h.elim
  | failed => exact h.elim

theorem countP_start {l : String} {s : Pool} {r : Worker} (hn : s.labels.Nodup) (hr : r ∈ s.classes) (hl : r.label = l) (ht : r.thread ≠ .running) :
    ((s.startClass l).classes.countP fun c => c.thread = .running) = (s.classes.countP fun c => c.thread = .running) + 1 := by
  obtain ⟨mode, classes, _⟩ := s
  simp only [labels] at hn
  simp only [startClass, onClass]
  rw [List.countP_map]
  subst hl
  simp only at hr
  induction classes with
  | nil => simp at hr
  | cons a t ih =>
    simp only [List.map_cons, List.nodup_cons] at hn
    rcases List.mem_cons.1 hr with h | h
    · subst h
      have hz : List.countP (fun c => decide (c.thread = Thread.running)) t =
          List.countP ((fun c => decide (c.thread = Thread.running)) ∘ fun c =>
            if c.label = r.label then { c with training := true, status := .run, thread := .running } else c) t := by
        apply List.countP_congr
        intro c hc
        have : c.label ≠ r.label := fun he => hn.1 (he ▸ List.mem_map.2 ⟨c, hc, rfl⟩)
        simp [this]
      rw [List.countP_cons, List.countP_cons, ← hz]
      simp [ht]
    · have ha : a.label ≠ r.label := fun he => hn.1 (he ▸ List.mem_map.2 ⟨r, h, rfl⟩)
      rw [List.countP_cons, List.countP_cons, ih hn.2 h]
      simp only [Function.comp, ha, if_false]
      omega

/-- a class is started -/
theorem start_ok {todo before t : List String} {l : String} {s : Pool} (h : Before todo before (l :: t) s) (hl : l ∈ todo) (hn : l ∉ t) :
    Before todo before t (s.startClass l) := by
  obtain ⟨r, hr, rfl⟩ : ∃ r ∈ s.classes, r.label = l := by
    have := h.known l hl
    rw [← h.labels] at this
    exact List.mem_map.1 this
  have hrt : r.thread ≠ .running ∧ eventsOf r.label s.events = [] := by
    cases h.ok r hr with
    | old hh _ _ _ _ => exact absurd hl hh
    | pending _ _ _ h1 h2 => exact ⟨h1, h2⟩
    | running _ hh _ _ _ _ => simp at hh
    | ended _ hh _ _ _ => simp at hh
  refine ⟨h.nodup, h.known, ?_, ?_, ?_, h.evs⟩
  · rw [← h.labels]; exact labels_onClass _ (fun c => { c with training := true, status := .run, thread := .running }) (fun _ => rfl) s
  · intro c hc
    obtain ⟨d, hd, ⟨hdl, rfl⟩ | ⟨hdl, rfl⟩⟩ := mem_onClass hc
    · have := h.uniq d hd r hr hdl
      subst this
      exact .running hl hn rfl rfl rfl ⟨0, hrt.2⟩
    · cases h.ok c hd with
      | old h1 h2 h3 h4 h5 => exact .old h1 (fun hh => h2 (List.mem_cons_of_mem _ hh)) h3 h4 h5
      | pending h1 h2 h3 h4 h5 => exact .pending h1 (by simpa [hdl] using h2) h3 h4 h5
      | running h1 h2 h3 h4 h5 h6 => exact .running h1 (fun hh => h2 (List.mem_cons_of_mem _ hh)) h3 h4 h5 h6
      | ended h1 h2 h3 h4 h5 => exact .ended h1 (fun hh => h2 (List.mem_cons_of_mem _ hh)) h3 h4 h5
  · rw [countP_start (by rw [h.labels]; exact h.nodup) hr rfl hrt.1]
    show s.still + 1 = _
    rw [h.count]
    push_cast
    rfl

theorem Before.congr {todo before pend : List String} {s s' : Pool} (h : Before todo before pend s) (h1 : s'.classes = s.classes) (h2 : s'.events = s.events)
    (h3 : s'.still = s.still) : Before todo before pend s' := by
  refine ⟨h.nodup, h.known, ?_, ?_, ?_, ?_⟩
  · simp only [Pool.labels, h1]; exact h.labels
  · rw [h1, h2]; exact h.ok
  · rw [h1, h3]; exact h.count
  · rw [h2]; exact h.evs

theorem After.congr {todo before : List String} {evs : List (Option String × Status)} {s s' : Pool} (h : After todo before evs s) (h1 : s'.classes = s.classes)
    (h2 : s'.handles = s.handles) (h3 : s'.still = s.still) : After todo before evs s' := by
  have hl : s'.labels = s.labels := by simp only [Pool.labels, h1]
  refine ⟨by rw [h2, h.handles], by rw [h3, h.still], by rw [hl]; exact h.order, by rw [hl]; exact h.others, by rw [hl]; exact h.outcomes, by rw [h1]; exact h.quiet, h.evs⟩

theorem JInv.congr {todo before : List String} {pc : JoinPc} {s s' : Pool} (h : JInv todo before pc s) (h1 : s'.classes = s.classes) (h2 : s'.events = s.events)
    (h3 : s'.still = s.still) (h4 : s'.handles = s.handles) (h5 : s'.isJoining = s.isJoining) (h6 : s'.isTraining = s.isTraining) : JInv todo before pc s' := by
  cases pc with
  | enter => exact ⟨h.1.congr h1 h2 h3, by rw [h4]; exact h.2.1, by rw [h5]; exact h.2.2.1, by rw [h6]; exact h.2.2.2⟩
  | join => exact ⟨h.1.congr h1 h2 h3, by rw [h4, h1]; exact h.2.1, by rw [h5]; exact h.2.2.1, by rw [h6]; exact h.2.2.2⟩
  | sweep => exact ⟨h.1.congr h1 h2 h3, by rw [h4]; exact h.2.1, by rw [h1]; exact h.2.2.1, by rw [h5]; exact h.2.2.2.1, by rw [h6]; exact h.2.2.2.2⟩
  | unjoin => exact ⟨by rw [h2]; exact h.1.congr h1 h4 h3, by rw [h5]; exact h.2.1, by rw [h6]; exact h.2.2⟩
  | untrain => exact ⟨by rw [h2]; exact h.1.congr h1 h4 h3, by rw [h5]; exact h.2.1, by rw [h6]; exact h.2.2⟩
  | reset => exact ⟨by rw [h2]; exact h.1.congr h1 h4 h3, by rw [h5]; exact h.2.1, by rw [h6]; exact h.2.2⟩
  | alldone => exact ⟨by rw [h2]; exact h.1.congr h1 h4 h3, by rw [h5]; exact h.2.1, by rw [h6]; exact h.2.2⟩
  | left =>
    obtain ⟨⟨evs, he, ha⟩, hj, ht⟩ := h
    exact ⟨⟨evs, by rw [h2]; exact he, ha.congr h1 h4 h3⟩, by rw [h5]; exact hj, by rw [h6]; exact ht⟩
  | wait => exact h.elim
  | failed => exact h.elim

/-- the invariant of the mode Parallel -/
def PMain (todo before : List String) (s : Pool) : MainPc → Prop
  | .start t => Before todo before t s ∧ todo = s.handles ++ t ∧ s.isJoining = false ∧ s.isTraining = true
  | .store l t => Before todo before t s ∧ todo = s.handles ++ l :: t ∧ s.isJoining = false ∧ s.isTraining = true
  | .inline _ _ => False
  | .join pc => JInv todo before pc s ∧ pc ≠ .left
  | .returned => JInv todo before .left s
  | .threw => False

structure PInv (todo before : List String) (s : Pool) : Prop where
  mode : s.mode = .parallel
  joiners : s.joiners = []
  alive : s.terminated = false
  main : PMain todo before s s.main

/-- the steps of the classes keep the part of the main thread -/
theorem PMain.class_step {todo before : List String} {s s' : Pool} {m : MainPc} (h : PMain todo before s m) (l : String) (hr : s.runs l = true)
    (hb : ∀ pend, Before todo before pend s → Before todo before pend s') (hf : Frame s s') : PMain todo before s' m := by
  have hf' := hf
  obtain ⟨f1, f2, f3, f4, f5, f6, f7, f8⟩ := hf
  cases m with
  | start t => exact ⟨hb _ h.1, by rw [f2]; exact h.2.1, by rw [f4]; exact h.2.2.1, by rw [f3]; exact h.2.2.2⟩
  | store l t => exact ⟨hb _ h.1, by rw [f2]; exact h.2.1, by rw [f4]; exact h.2.2.1, by rw [f3]; exact h.2.2.2⟩
  | inline l t => exact h.elim
  | join pc => exact ⟨h.1.class_step l hr (hb []) hf', h.2⟩
  | returned => exact JInv.class_step (pc := .left) h l hr (hb []) hf'
  | threw => exact h.elim

theorem parallel_inv {todo before : List String} (hnd : todo.Nodup) {s s' : Pool} {a : Act} (h : PInv todo before s) (ha : Strong s a) (hs : s.act a = some s') :
    PInv todo before s' := by
  obtain ⟨hmode, hj, hal, hm⟩ := h
  unfold act at hs
  rw [hal] at hs
  simp only [Bool.false_eq_true, if_false] at hs
  cases a with
  | main weak =>
    obtain rfl : weak = false := ha.1 weak rfl
    simp only [mainStep] at hs
    cases hmn : s.main with
    | start todo' =>
      rw [hmn] at hm hs
      obtain ⟨h1, h2, h3, h4⟩ := hm
      cases todo' with
      | nil =>
        simp only [hmode, Option.some.injEq] at hs
        subst hs
        refine ⟨rfl, hj, hal, ?_⟩
        refine ⟨⟨h1.congr rfl rfl rfl, ?_, h3, h4⟩, by simp⟩
        simpa using h2.symm
      | cons l t =>
        simp only [hmode, Option.some.injEq] at hs
        subst hs
        have hl : l ∈ todo := by rw [h2]; simp
        have hn : l ∉ t := by
          rw [h2] at hnd
          exact (List.nodup_cons.1 (List.nodup_append.1 hnd).2.1).1
        exact ⟨hmode, hj, hal, (start_ok h1 hl hn).congr rfl rfl rfl, h2, h3, h4⟩
    | store l t =>
      rw [hmn] at hm hs
      obtain ⟨h1, h2, h3, h4⟩ := hm
      simp only [Option.some.injEq] at hs
      subst hs
      exact ⟨hmode, hj, hal, h1.congr rfl rfl rfl, by simpa using h2, h3, h4⟩
    | inline l t => rw [hmn] at hm; exact hm.elim
    | join pc =>
      rw [hmn] at hm hs
      simp only at hs
      cases hst : s.joinStep false pc with
      | none => rw [hst] at hs; simp at hs
      | some r =>
        obtain ⟨pc', s1⟩ := r
        rw [hst] at hs
        obtain ⟨g1, g2, g3, g4, g5, g6⟩ := joinStep_ok hm.1 hst
        have hk : ∀ m', (m' = .returned ∧ pc' = .left ∨ m' = .join pc' ∧ pc' ≠ .left) → PInv todo before { s1 with main := m' } := by
          intro m' hm'
          refine ⟨g4.trans hmode, g3.trans hj, g6.trans hal, ?_⟩
          rcases hm' with ⟨rfl, rfl⟩ | ⟨rfl, hne⟩
          · exact JInv.congr g1 rfl rfl rfl rfl rfl rfl
          · exact ⟨JInv.congr g1 rfl rfl rfl rfl rfl rfl, hne⟩
        cases pc' <;> simp only [Option.some.injEq] at hs <;> subst hs
        case left => exact hk _ (Or.inl ⟨rfl, rfl⟩)
        case failed => exact g1.elim
        all_goals exact hk _ (Or.inr ⟨rfl, by simp⟩)
    | returned => rw [hmn] at hs; simp at hs
    | threw => rw [hmn] at hm; exact hm.elim
  | joiner i weak =>
    simp [joinerStep, hj] at hs
  | run l =>
    simp only at hs
    have hr := runStep_runs hs
    have hfr : ∀ pend, Before todo before pend s → Before todo before pend s' := fun pend hb => (run_ok hb hs).1
    have hex : ∃ pend, Before todo before pend s := by
      by_contra hc
      push Not at hc
      have hno : ∀ evs, After todo before evs s → False := by
        intro evs ha
        rw [not_runs (fun c hc => (ha.quiet c hc).2) l] at hr
        simp at hr
      cases hmn : s.main with
      | start t => rw [hmn] at hm; exact hc _ hm.1
      | store l t => rw [hmn] at hm; exact hc _ hm.1
      | inline l t => rw [hmn] at hm; exact hm.elim
      | join pc =>
        rw [hmn] at hm
        cases pc with
        | enter => exact hc _ hm.1.1
        | join => exact hc _ hm.1.1
        | sweep => exact hc _ hm.1.1
        | left => exact hm.2 rfl
        | wait => exact hm.1.elim
        | failed => exact hm.1.elim
        | _ => exact hno _ hm.1.1
      | returned =>
        rw [hmn] at hm
        obtain ⟨⟨evs, -, ha⟩, -⟩ := hm
        exact hno _ ha
      | threw => rw [hmn] at hm; exact hm.elim
    obtain ⟨pend, hb⟩ := hex
    obtain ⟨-, hf, hjj⟩ := run_ok hb hs
    have hf' := hf
    obtain ⟨f1, f2, f3, f4, f5, f6, f7, f8⟩ := hf
    exact ⟨f1.trans hmode, hjj.trans hj, f7.trans hal, by rw [f6]; exact hm.class_step l hr hfr hf'⟩
  | final l st =>
    simp only at hs
    obtain ⟨hr, hst⟩ := finalStep_runs hs
    have hs2 := hs
    rw [finalStep_eq, if_pos (by simp [hr, hst]), if_neg (by simp [hmode])] at hs2
    simp only [Option.some.injEq] at hs2
    subst hs2
    have hf : Frame s (closed l st s) := by
      refine ⟨rfl, rfl, rfl, rfl, rfl, rfl, rfl, ?_⟩
      intro c hc ht
      obtain ⟨d, hd, ⟨hl, rfl⟩ | ⟨hl, rfl⟩⟩ := mem_onClass hc
      · simp at ht
      · exact ⟨c, hd, rfl, ht⟩
    exact ⟨hmode, hj, hal, hm.class_step l hr (fun pend hb => (closed_ok hb hr hst).1) hf⟩

theorem Begins.before {todo : List String} {s : Pool} (h : Begins todo s) : Before todo s.labels todo s := by
  refine ⟨h.labelsNodup, h.known, rfl, fun c hc => ?_, ?_, by simp [h.events]⟩
  · by_cases hl : c.label ∈ todo
    · exact .pending hl hl (h.rest c hc).1 (h.rest c hc).2 (by simp [h.events, eventsOf])
    · exact .old hl hl (h.rest c hc).1 (h.rest c hc).2 (h.old c hc hl)
  · rw [h.still]
    have : s.classes.countP (fun c => decide (c.thread = .running)) = 0 := by
      rw [List.countP_eq_zero]
      intro c hc
      simp [(h.rest c hc).2]
    rw [this]; rfl

theorem parallel_reach {todo : List String} {s₀ s : Pool} (h0 : Begins todo s₀) (hp : s₀.mode = .parallel) (h : Reach Strong s₀ s) : PInv todo s₀.labels s := by
  induction h with
  | refl => exact ⟨hp, h0.joiners, h0.alive, by rw [h0.main]; exact ⟨h0.before, by simp [h0.handles], h0.joining, h0.training⟩⟩
  | step _ ha hs ih => exact parallel_inv h0.todoNodup ih ha hs

theorem JInv.completed {todo before : List String} {s : Pool} (h : JInv todo before .left s) (hj : s.joiners = []) : Completed todo before s := by
  obtain ⟨⟨evs, he, ha⟩, h1, h2⟩ := h
  refine ⟨h2, h1, ha.handles, ha.still, hj, ha.order, ha.others, fun l hl => ?_, ha.quiet, evs, he, ha.evs⟩
  obtain ⟨st, ho, hi⟩ := ha.outcomes l hl
  exact ⟨st, by rw [he]; exact outcome_append ho _ (by simp), hi⟩

/-- **C53** (mode Parallel), for any number of classes and every interleaving of the threads: when `train` returns, the training is complete: the model has exactly the
    classes that were trained successfully (and those that this call did not train), every class notified one outcome, and Alldone was notified once, after all other events. -/
theorem C53_parallel_partial {todo : List String} {s₀ s : Pool} (h0 : Begins todo s₀) (hp : s₀.mode = .parallel) (h : Reach Strong s₀ s) (hr : s.main = .returned) :
    Completed todo s₀.labels s := by
  have hi := parallel_reach h0 hp h
  have hm := hi.main
  rw [hr] at hm
  exact JInv.completed hm hi.joiners

/-- **C53** (mode Parallel): no deadlock, and no exception leaves `train`: unless `train` has returned, some thread can take a step. -/
theorem C53_parallel_progress {todo : List String} {s₀ s : Pool} (h0 : Begins todo s₀) (hp : s₀.mode = .parallel) (h : Reach Strong s₀ s) :
    s.main = .returned ∨ s.main ≠ .threw ∧ ∃ a s', Strong s a ∧ s.act a = some s' := by
  obtain ⟨hmode, hj, hal, hm⟩ := parallel_reach h0 hp h
  have hstrong : Strong s (.main false) := ⟨fun w h => by simpa using h.symm, fun i w h => by simp at h⟩
  have hsf : ∀ l st, Strong s (.final l st) := fun l st => ⟨fun w h => by simp at h, fun i w h => by simp at h⟩
  have hmain : ∀ s', s.mainStep false = some s' → ∃ a s', Strong s a ∧ s.act a = some s' := by
    intro s' hs'
    exact ⟨.main false, s', hstrong, by simp [act, hal, hs']⟩
  cases hmn : s.main with
  | start t =>
    refine Or.inr ⟨by simp, ?_⟩
    cases t with
    | nil => exact hmain { s with main := .join .enter } (by simp [mainStep, hmn, hmode])
    | cons l t => exact hmain { s.startClass l with main := .store l t } (by simp [mainStep, hmn, hmode])
  | store l t => exact Or.inr ⟨by simp, hmain { s with handles := s.handles ++ [l], main := .start t } (by simp [mainStep, hmn])⟩
  | inline l t => rw [hmn] at hm; exact hm.elim
  | returned => exact Or.inl rfl
  | threw => rw [hmn] at hm; exact hm.elim
  | join pc =>
    refine Or.inr ⟨by simp, ?_⟩
    rw [hmn] at hm
    have hj2 : ∀ r, s.joinStep false pc = some r → ∃ a s', Strong s a ∧ s.act a = some s' := by
      rintro ⟨pc', s1⟩ hr
      obtain ⟨s', hs'⟩ : ∃ s', s.mainStep false = some s' := by
        simp only [mainStep, hmn, hr]
        cases pc' <;> exact ⟨_, rfl⟩
      exact hmain s' hs'
    cases pc with
    | enter =>
      obtain ⟨-, -, h3, h4⟩ := hm.1
      exact hj2 (.join, { s with isJoining := true }) (by simp [joinStep, h3, h4])
    | join =>
      cases hh : s.handles with
      | nil => exact hj2 (.sweep, s) (by simp [joinStep, hh])
      | cons l t =>
        by_cases hq : s.quiet l = true
        · exact hj2 (.join, { s with handles := t }) (by simp [joinStep, hh, hq])
        · have hrun : s.runs l = true := by
            by_contra hc
            apply hq
            simp only [runs, Bool.not_eq_true, List.any_eq_false] at hc
            simp only [quiet, List.all_eq_true]
            intro c hc'
            have := hc c hc'
            have h3 : ¬(c.label = l ∧ c.thread = .running) := by simpa using this
            rw [decide_eq_false h3]
            rfl
          have hmo : ¬(s.mode = .background ∧ s.isJoining = false ∧ s.cancelRequired = false ∧ s.still - 1 = 0) := by simp [hmode]
          refine ⟨.final l .done, closed l .done s, hsf _ _, ?_⟩
          simp [act, hal, finalStep_eq, hrun, hmode]
    | sweep => exact hj2 _ rfl
    | unjoin => exact hj2 _ rfl
    | untrain => exact hj2 _ rfl
    | reset =>
      by_cases hc : (s.isTraining || s.classes.any (·.training)) = true
      · exact hj2 (.failed, s) (by simp only [joinStep, hc, if_true])
      · exact hj2 (.alldone, s) (by simp only [joinStep, hc]; rfl)
    | alldone => exact hj2 _ rfl
    | left => exact absurd rfl hm.2
    | wait => exact hm.1.elim
    | failed => exact hm.1.elim

/-- what the steps of one thread can still do -/
def _root_.Xmm.JoinPc.rank : JoinPc → Nat
  | .enter => 8 | .join => 7 | .sweep => 6 | .unjoin => 5 | .untrain => 4 | .reset => 3 | .alldone => 2 | .wait => 1 | .left => 0 | .failed => 0

def _root_.Xmm.MainPc.rank : MainPc → Nat
  | .start t => 13 * t.length + 10 | .store _ t => 13 * t.length + 12 | .inline _ t => 13 * t.length + 11 | .join pc => pc.rank + 1 | .returned => 0 | .threw => 0

/-- a bound on the number of steps that remain -/
def remaining (s : Pool) : Nat :=
  (s.classes.map (·.budget)).sum + 10 * (s.classes.countP fun c => c.thread = .running) + s.handles.length + s.main.rank + (s.joiners.map (fun pc => pc.rank + 1)).sum

theorem sum_set {l : List Nat} {i a b : Nat} (h : l[i]? = some b) : (l.set i a).sum + b = l.sum + a := by
  induction l generalizing i with
  | nil => simp at h
  | cons x t ih =>
    cases i with
    | zero =>
      simp only [List.getElem?_cons_zero, Option.some.injEq] at h
      subst h
      simp only [List.set_cons_zero, List.sum_cons]
      omega
    | succ i =>
      simp only [List.getElem?_cons_succ] at h
      have := ih h
      simp only [List.set_cons_succ, List.sum_cons]
      omega

theorem sum_eraseIdx {l : List Nat} {i b : Nat} (h : l[i]? = some b) : (l.eraseIdx i).sum + b = l.sum := by
  induction l generalizing i with
  | nil => simp at h
  | cons x t ih =>
    cases i with
    | zero =>
      simp only [List.getElem?_cons_zero, Option.some.injEq] at h
      subst h
      simp only [List.eraseIdx_zero, List.tail_cons, List.sum_cons]
      omega
    | succ i =>
      simp only [List.getElem?_cons_succ] at h
      have := ih h
      simp only [List.eraseIdx_cons_succ, List.sum_cons]
      omega

/-- the weight of the classes -/
def work (cs : List Worker) : Nat := (cs.map (·.budget)).sum + 10 * (cs.countP fun c => c.thread = .running)

theorem work_cons (c : Worker) (cs : List Worker) : work (c :: cs) = c.budget + (if c.thread = .running then 10 else 0) + work cs := by
  simp only [work, List.map_cons, List.sum_cons, List.countP_cons]
  by_cases h : c.thread = .running
  · simp [h]; omega
  · simp [h]; omega

theorem work_filter (p : Worker → Bool) (cs : List Worker) : work (cs.filter p) ≤ work cs := by
  induction cs with
  | nil => simp
  | cons c t ih =>
    rw [List.filter_cons]
    split
    · rw [work_cons, work_cons]; omega
    · rw [work_cons]; omega

theorem joinStep_rank {weak : Bool} {pc pc' : JoinPc} {s s' : Pool} (hs : s.joinStep weak pc = some (pc', s')) :
    work s'.classes ≤ work s.classes ∧ pc'.rank + s'.handles.length < pc.rank + s.handles.length ∧ s'.main = s.main ∧ s'.joiners = s.joiners ∧
      s'.labels.Sublist s.labels := by
  cases pc with
  | enter =>
    simp only [joinStep] at hs
    split at hs
    · simp only [Option.some.injEq, Prod.mk.injEq] at hs
      obtain ⟨rfl, rfl⟩ := hs
      exact ⟨le_refl _, by simp [JoinPc.rank], rfl, rfl, List.Sublist.refl _⟩
    · split at hs <;> simp only [Option.some.injEq, Prod.mk.injEq] at hs <;> obtain ⟨rfl, rfl⟩ := hs <;>
        exact ⟨le_refl _, by simp [JoinPc.rank], rfl, rfl, List.Sublist.refl _⟩
  | join =>
    simp only [joinStep] at hs
    cases hh : s.handles with
    | nil =>
      rw [hh] at hs
      simp only [Option.some.injEq, Prod.mk.injEq] at hs
      obtain ⟨rfl, rfl⟩ := hs
      exact ⟨le_refl _, by simp [JoinPc.rank, hh], rfl, rfl, List.Sublist.refl _⟩
    | cons l t =>
      rw [hh] at hs
      simp only at hs
      split at hs
      · simp only [Option.some.injEq, Prod.mk.injEq] at hs
        obtain ⟨rfl, rfl⟩ := hs
        exact ⟨le_refl _, by simp [JoinPc.rank], rfl, rfl, List.Sublist.refl _⟩
      · simp at hs
  | sweep =>
    simp only [joinStep, Option.some.injEq, Prod.mk.injEq] at hs
    obtain ⟨rfl, rfl⟩ := hs
    exact ⟨work_filter _ _, by simp [JoinPc.rank], rfl, rfl, List.Sublist.map _ List.filter_sublist⟩
  | unjoin =>
    simp only [joinStep, Option.some.injEq, Prod.mk.injEq] at hs
    obtain ⟨rfl, rfl⟩ := hs
    exact ⟨le_refl _, by simp [JoinPc.rank], rfl, rfl, List.Sublist.refl _⟩
  | untrain =>
    simp only [joinStep, Option.some.injEq, Prod.mk.injEq] at hs
    obtain ⟨rfl, rfl⟩ := hs
    exact ⟨le_refl _, by simp [JoinPc.rank], rfl, rfl, List.Sublist.refl _⟩
  | reset =>
    simp only [joinStep] at hs
    split at hs <;> simp only [Option.some.injEq, Prod.mk.injEq] at hs <;> obtain ⟨rfl, rfl⟩ := hs <;>
      exact ⟨le_refl _, by simp [JoinPc.rank], rfl, rfl, List.Sublist.refl _⟩
  | alldone =>
    simp only [joinStep, Option.some.injEq, Prod.mk.injEq] at hs
    obtain ⟨rfl, rfl⟩ := hs
    exact ⟨le_refl _, by simp [JoinPc.rank], rfl, rfl, List.Sublist.refl _⟩
  | wait =>
    simp only [joinStep] at hs
    split at hs
    · simp at hs
    · simp only [Option.some.injEq, Prod.mk.injEq] at hs
      obtain ⟨rfl, rfl⟩ := hs
      exact ⟨le_refl _, by simp [JoinPc.rank], rfl, rfl, List.Sublist.refl _⟩
  | left => simp [joinStep] at hs
  | failed => simp [joinStep] at hs

theorem work_same {l : String} (f : Worker → Worker) {cs : List Worker} (h : ∀ c ∈ cs, c.label ≠ l) :
    cs.map (fun c => if c.label = l then f c else c) = cs := by
  conv_rhs => rw [← List.map_id cs]
  apply List.map_congr_left
  intro c hc
  simp [h c hc]

theorem work_start {l : String} {s : Pool} (hn : s.labels.Nodup) : work (s.startClass l).classes ≤ work s.classes + 10 := by
  obtain ⟨mode, classes, _⟩ := s
  simp only [labels] at hn
  simp only [startClass, onClass]
  induction classes with
  | nil => simp [work]
  | cons a t ih =>
    simp only [List.map_cons, List.nodup_cons] at hn
    rw [List.map_cons, work_cons, work_cons]
    by_cases hl : a.label = l
    · rw [work_same (fun c => { c with training := true, status := .run, thread := .running }) (fun c hc (he : c.label = l) => hn.1 (by rw [hl, ← he]; exact List.mem_map.2 ⟨c, hc, rfl⟩))]
      simp only [hl, if_true]
      omega
    · have := ih hn.2
      simp only [hl, if_false]
      omega

theorem work_run {l : String} {cs : List Worker} (h : cs.any (fun c => decide (c.label = l ∧ c.thread = .running ∧ 0 < c.budget)) = true) :
    work (cs.map fun c => if c.label = l then { c with budget := c.budget - 1 } else c) < work cs := by
  have hle : ∀ cs : List Worker, work (cs.map fun c => if c.label = l then { c with budget := c.budget - 1 } else c) ≤ work cs := by
    intro cs
    induction cs with
    | nil => simp
    | cons a t ih =>
      rw [List.map_cons, work_cons, work_cons]
      by_cases hl : a.label = l
      · simp only [hl, if_true]
        omega
      · simp only [hl, if_false]
        omega
  induction cs with
  | nil => simp at h
  | cons a t ih =>
    rw [List.map_cons, work_cons, work_cons]
    rw [List.any_cons, Bool.or_eq_true] at h
    rcases h with h | h
    · simp only [decide_eq_true_eq] at h
      have := hle t
      simp only [h.1, if_true]
      omega
    · have := ih h
      by_cases hl : a.label = l
      · simp only [hl, if_true]
        omega
      · simp only [hl, if_false]
        omega

theorem work_closed {l : String} {st : Status} {cs : List Worker} (h : cs.any (fun c => decide (c.label = l ∧ c.thread = .running)) = true) :
    work (cs.map fun c => if c.label = l then { c with status := st, training := false, thread := .ended } else c) + 10 ≤ work cs := by
  have hle : ∀ cs : List Worker, work (cs.map fun c => if c.label = l then { c with status := st, training := false, thread := .ended } else c) ≤ work cs := by
    intro cs
    induction cs with
    | nil => simp
    | cons a t ih =>
      rw [List.map_cons, work_cons, work_cons]
      by_cases hl : a.label = l
      · simp only [hl, if_true]
        simp
        omega
      · simp only [hl, if_false]
        omega
  induction cs with
  | nil => simp at h
  | cons a t ih =>
    rw [List.map_cons, work_cons, work_cons]
    rw [List.any_cons, Bool.or_eq_true] at h
    rcases h with h | h
    · simp only [decide_eq_true_eq] at h
      have := hle t
      simp only [h.1, if_true, h.2]
      simp
      omega
    · have := ih h
      by_cases hl : a.label = l
      · simp only [hl, if_true]
        simp
        omega
      · simp only [hl, if_false]
        omega

theorem remaining_eq (s : Pool) : s.remaining = work s.classes + s.handles.length + s.main.rank + (s.joiners.map (fun pc => pc.rank + 1)).sum := rfl

/-- **C53**: training ends.  In every mode, whatever thread takes it, each step decreases `remaining`: an execution that begins in a state `s` has at most `s.remaining` steps. -/
theorem C53_decreases {s s' : Pool} {a : Act} (hn : s.labels.Nodup) (hs : s.act a = some s') : s'.remaining < s.remaining ∧ s'.labels.Sublist s.labels := by
  unfold act at hs
  split at hs
  · simp at hs
  cases a with
  | main weak =>
    simp only [mainStep] at hs
    cases hm : s.main with
    | start t =>
      rw [hm] at hs
      cases t with
      | nil =>
        simp only at hs
        split at hs <;> simp only [Option.some.injEq] at hs <;> subst hs <;> refine ⟨?_, List.Sublist.refl _⟩ <;>
          simp [remaining_eq, hm, MainPc.rank, JoinPc.rank]
      | cons l t =>
        have hw := work_start (l := l) hn
        have hl : (s.startClass l).labels = s.labels := labels_onClass _ (fun c => { c with training := true, status := .run, thread := .running }) (fun _ => rfl) s
        simp only at hs
        split at hs <;> simp only [Option.some.injEq] at hs <;> subst hs
        all_goals
          refine ⟨?_, ?_⟩
          · simp only [remaining_eq, hm, MainPc.rank, List.length_cons]
            simp only [startClass, onClass] at hw ⊢
            omega
          · show ((s.startClass l).classes.map (·.label)).Sublist _
            exact hl ▸ List.Sublist.refl _
    | store l t =>
      rw [hm] at hs
      simp only [Option.some.injEq] at hs
      subst hs
      refine ⟨?_, List.Sublist.refl _⟩
      simp only [remaining_eq, hm, MainPc.rank, List.length_append, List.length_singleton]
      omega
    | inline l t =>
      rw [hm] at hs
      simp only at hs
      split at hs
      · simp only [Option.some.injEq] at hs
        subst hs
        refine ⟨?_, List.Sublist.refl _⟩
        simp only [remaining_eq, hm, MainPc.rank]
        omega
      · simp at hs
    | join pc =>
      rw [hm] at hs
      simp only at hs
      cases hst : s.joinStep weak pc with
      | none => rw [hst] at hs; simp at hs
      | some r =>
        obtain ⟨pc', s1⟩ := r
        rw [hst] at hs
        obtain ⟨g1, g2, g3, g4, g5⟩ := joinStep_rank hst
        have hk : ∀ m' : MainPc, m'.rank ≤ pc'.rank + 1 → ({ s1 with main := m' } : Pool).remaining < s.remaining ∧ ({ s1 with main := m' } : Pool).labels.Sublist s.labels := by
          intro m' hm'
          refine ⟨?_, g5⟩
          have hpc : (MainPc.join pc).rank = pc.rank + 1 := rfl
          simp only [remaining_eq, hm, g4]
          omega
        cases pc' <;> simp only [Option.some.injEq] at hs <;> subst hs <;> apply hk <;> simp [MainPc.rank]
    | returned => rw [hm] at hs; simp at hs
    | threw => rw [hm] at hs; simp at hs
  | joiner i weak =>
    simp only [joinerStep] at hs
    cases hi : s.joiners[i]? with
    | none => rw [hi] at hs; simp at hs
    | some pc =>
      rw [hi] at hs
      simp only at hs
      cases hst : s.joinStep weak pc with
      | none => rw [hst] at hs; simp at hs
      | some r =>
        obtain ⟨pc', s1⟩ := r
        rw [hst] at hs
        obtain ⟨g1, g2, g3, g4, g5⟩ := joinStep_rank hst
        have hi' : (s.joiners.map (fun pc => pc.rank + 1))[i]? = some (pc.rank + 1) := by rw [List.getElem?_map, hi]; rfl
        have he := sum_eraseIdx hi'
        have hset := sum_set (a := pc'.rank + 1) hi'
        have hk : ∀ (js : List JoinPc) (b : Bool), (js.map (fun pc => pc.rank + 1)).sum + (pc.rank + 1) ≤ (s.joiners.map (fun pc => pc.rank + 1)).sum + (pc'.rank + 1) →
            ({ s1 with joiners := js, terminated := b } : Pool).remaining < s.remaining ∧ ({ s1 with joiners := js, terminated := b } : Pool).labels.Sublist s.labels := by
          intro js b hjs
          refine ⟨?_, g5⟩
          simp only [remaining_eq, g3]
          omega
        have he' : ((s1.joiners.eraseIdx i).map (fun pc => pc.rank + 1)).sum + (pc.rank + 1) ≤ (s.joiners.map (fun pc => pc.rank + 1)).sum + (pc'.rank + 1) := by
          rw [g4, ← List.eraseIdx_map]
          omega
        have hs' : ((s1.joiners.set i pc').map (fun pc => pc.rank + 1)).sum + (pc.rank + 1) ≤ (s.joiners.map (fun pc => pc.rank + 1)).sum + (pc'.rank + 1) := by
          rw [g4, List.map_set]
          omega
        cases pc' <;> simp only [Option.some.injEq] at hs <;> subst hs
        case left => exact hk _ s1.terminated he'
        case failed => exact hk _ true he'
        all_goals exact hk _ s1.terminated hs'
  | run l =>
    simp only [runStep] at hs
    split at hs
    · rename_i hr
      simp only [Option.some.injEq] at hs
      have hw := work_run hr
      subst hs
      refine ⟨?_, ?_⟩
      · simp only [remaining_eq, onClass]
        omega
      · rw [← labels_onClass l (fun c => { c with budget := c.budget - 1 }) (fun _ => rfl) s]
        exact List.Sublist.refl _
    · simp at hs
  | final l st =>
    simp only at hs
    obtain ⟨hr, hst⟩ := finalStep_runs hs
    rw [finalStep_eq, if_pos (by simp [hr, hst])] at hs
    have hw := work_closed (st := st) hr
    have hl : (closed l st s).labels = s.labels := labels_onClass l (fun c => { c with status := st, training := false, thread := .ended }) (fun _ => rfl) s
    split at hs <;> simp only [Option.some.injEq] at hs <;> subst hs
    · refine ⟨?_, hl ▸ List.Sublist.refl _⟩
      simp only [remaining_eq, closed, onClass, List.map_append, List.map_cons, List.map_nil, List.sum_append, List.sum_cons, List.sum_nil, JoinPc.rank]
      omega
    · refine ⟨?_, hl ▸ List.Sublist.refl _⟩
      simp only [remaining_eq, closed, onClass]
      omega

end Pool
end Xmm
