import Verif.Spec.RunTimesSpec

/-!
# C73: the outcome record of a run tells when the run started, when it ended and how long it took
-/

namespace Rocketry.Props
open Spec Rocketry Rocketry.Task

theorem timesRun_append (f : Bool) (s : TimesSt) (l m : List TimesEv) : s.run f (l ++ m) = (s.run f l).run f m := by
  induction l generalizing s with
  | nil => rfl
  | cons e l ih => simp only [List.cons_append, TimesSt.run]; exact ih _

/-- Steps that do not start a run leave the last start as it is. -/
theorem last_kept (f : Bool) (x : Int) : ∀ (es : List TimesEv) (s : TimesSt), (∀ e ∈ es, ¬ StartsRun e) → (∀ e ∈ es, OutcomeOnly e) →
    s.lastRun f = some x → (s.run f es).lastRun f = some x := by
  intro es
  induction es with
  | nil => intro s _ _ h; exact h
  | cons e es ih =>
    intro s hs ho h
    refine ih (s.step f e) (fun e' h' => hs e' (by simp [h'])) (fun e' h' => ho e' (by simp [h'])) ?_
    have hs := hs e (by simp)
    have ho := ho e (by simp)
    cases e with
    | begin t => exact h
    | thread t => exact absurd trivial hs
    | logRun i n c => exact absurd trivial hs
    | childRun i n c => exact absurd trivial hs
    | logEnd i a n c =>
      have ha : a ≠ .run := ho
      unfold TimesSt.lastRun at h ⊢
      cases f with
      | false => simpa [TimesSt.step, TimesSt.lastRun] using h
      | true => simpa [TimesSt.step, lastRunLogged, outcomeRec, ha] using h
    | childEnd i a n c =>
      have ha : a ≠ .run := ho
      unfold TimesSt.lastRun at h ⊢
      cases f with
      | false => simpa [TimesSt.step, TimesSt.lastRun] using h
      | true => simpa [TimesSt.step, lastRunLogged, outcomeRec, ha] using h

/-- C73: in the scheduler's process (main, async, threads), whatever other runs did before and whatever runs end meanwhile:
the outcome record of a run tells the time of its start, its end and its duration, if no other run of the task starts
between.  The start is the reading made for the cache, or the time of the start record with `force_status_from_logs`.
Missing: runs at the same time (`C73_overlap_violated`). -/
theorem C73_times_partial (f : Bool) (pre mid : List TimesEv) (i : Nat) (a : Action) (n c n' c' : Int)
    (hmid : ∀ e ∈ mid, ¬ StartsRun e) (hout : ∀ e ∈ mid, OutcomeOnly e) :
    ∃ r l, (TimesSt.init.run f (pre ++ .logRun i n c :: mid ++ [.logEnd (some i) a n' c'])).log = l ++ [r] ∧
      TellsTimes r (some i) a (if f then c else n) n' := by
  rw [List.append_assoc, timesRun_append, List.cons_append]
  simp only [TimesSt.run]
  rw [timesRun_append]
  generalize hs : (TimesSt.init.run f pre).step f (.logRun i n c) = s
  have h0 : s.lastRun f = some (if f then c else n) := by
    subst hs
    cases f <;> simp [TimesSt.step, TimesSt.lastRun, lastRunLogged]
  have h1 := last_kept f _ mid s hmid hout h0
  refine ⟨outcomeRec (some i) a ((s.run f mid).lastRun f) n' c', (s.run f mid).log, rfl, ?_⟩
  rw [h1]
  exact ⟨rfl, rfl, rfl, rfl, rfl⟩

/-- Another run of the task ends between. -/
example : ∀ e ∈ [TimesEv.logEnd (some 0) .success 50 51, .begin 60], ¬ StartsRun e ∧ OutcomeOnly e := by
  simp [StartsRun, OutcomeOnly]

/-- What other processes and the scheduler do does not change the copy of the task in the process of a run. -/
theorem copy_kept (i : Nat) : ∀ (es : List TimesEv) (s : TimesSt), (∀ e ∈ es, ¬ InProcess i e) →
    (s.run false es).copies i = s.copies i := by
  intro es
  induction es with
  | nil => intro s _; rfl
  | cons e es ih =>
    intro s h
    rw [show s.run false (e :: es) = (s.step false e).run false es from rfl, ih _ (fun e' h' => h e' (by simp [h']))]
    have h := h e (by simp)
    cases e with
    | childRun j n c =>
      have hj : ¬ i = j := fun k => h k.symm
      simp [TimesSt.step, hj]
    | childEnd j a n c =>
      have hj : ¬ i = j := fun k => h k.symm
      simp [TimesSt.step, hj]
    | _ => rfl

/-- C73: in a process of its own, the outcome record of a run tells its times whatever other runs of the task do at the same
time, without `force_status_from_logs`. -/
theorem C73_process_partial (pre mid : List TimesEv) (i : Nat) (a : Action) (n c n' c' : Int) (hmid : ∀ e ∈ mid, ¬ InProcess i e) :
    ∃ r l, (TimesSt.init.run false (pre ++ .childRun i n c :: mid ++ [.childEnd i a n' c'])).log = l ++ [r] ∧
      TellsTimes r (some i) a n n' := by
  rw [List.append_assoc, timesRun_append, List.cons_append]
  simp only [TimesSt.run]
  rw [timesRun_append]
  generalize hs : (TimesSt.init.run false pre).step false (.childRun i n c) = s
  have h0 : s.copies i = some n := by subst hs; simp [TimesSt.step]
  refine ⟨outcomeRec (some i) a ((s.run false mid).copies i) n' c', (s.run false mid).log, rfl, ?_⟩
  rw [copy_kept i mid s hmid, h0]
  exact ⟨rfl, rfl, rfl, rfl, rfl⟩

/-- Another run of the task starts and ends meanwhile. -/
example : ∀ e ∈ [TimesEv.begin 40, .childRun 1 41 42, .childEnd 1 .fail 43 44, .thread 45], ¬ InProcess 0 e := by
  simp [InProcess]

/-- Everything the task knows about its last start is a reading of the clock. -/
structure TimesKnown (m : Int) (s : TimesSt) : Prop where
  last : ∀ x, s.last = some x → x ≤ m
  copies : ∀ i x, s.copies i = some x → x ≤ m
  log : ∀ r ∈ s.log, r.created ≤ m ∧ ∀ x y, r.start = some x → r.stop = some y → r.runtime = some (y - x) ∧ x ≤ y
  ends : ∀ r ∈ s.log, r.stop.isSome → r.runtime.isSome = r.start.isSome

theorem lastRun_known {m : Int} {s : TimesSt} (h : TimesKnown m s) (f : Bool) {x : Int} (hx : s.lastRun f = some x) : x ≤ m := by
  cases f with
  | false => exact h.last x hx
  | true =>
    simp only [TimesSt.lastRun, lastRunLogged, if_true] at hx
    cases hr : (s.log.filter (fun r => decide (r.action = .run))).getLast? with
    | none => simp [hr] at hx
    | some r =>
      simp only [hr, Option.map_some, Option.some.injEq] at hx
      subst hx
      have : r ∈ s.log := (List.mem_filter.1 (List.mem_of_getLast? hr)).1
      exact (h.log r this).1

theorem outcome_known {m n c : Int} {start : Option Int} {i : Option Nat} {a : Action} (hs : ∀ x, start = some x → x ≤ m) (hn : m ≤ n) :
    let r := outcomeRec i a start n c
    (∀ x y, r.start = some x → r.stop = some y → r.runtime = some (y - x) ∧ x ≤ y) ∧
      (r.stop.isSome → r.runtime.isSome = r.start.isSome) := by
  refine ⟨?_, ?_⟩
  · intro x y hx hy
    simp only [outcomeRec, Option.some.injEq] at hx hy ⊢
    subst hy
    rw [hx]
    have := hs x hx
    exact ⟨rfl, by omega⟩
  · intro _
    simp [outcomeRec]

theorem TimesKnown.step {m m' : Int} {s : TimesSt} {f : Bool} {e : TimesEv} (h : TimesKnown m s)
    (hr : ((m :: readings e ++ [m']).Pairwise (· ≤ ·))) : TimesKnown m' (s.step f e) := by
  obtain ⟨h1, h2, h3, h4⟩ := h
  have hk : TimesKnown m s := ⟨h1, h2, h3, h4⟩
  cases e with
  | begin t =>
    simp only [readings, List.cons_append, List.nil_append, List.pairwise_cons, List.mem_cons, List.not_mem_nil, or_false, forall_eq_or_imp, forall_eq] at hr
    exact ⟨fun x hx => by have := h1 x hx; omega, fun i x hx => by have := h2 i x hx; omega,
      fun r hr' => ⟨by have := (h3 r hr').1; omega, (h3 r hr').2⟩, h4⟩
  | thread t =>
    simp only [readings, List.cons_append, List.nil_append, List.pairwise_cons, List.mem_cons, List.not_mem_nil, or_false, forall_eq_or_imp, forall_eq] at hr
    refine ⟨fun x hx => ?_, fun i x hx => by have := h2 i x hx; omega,
      fun r hr' => ⟨by have := (h3 r hr').1; omega, (h3 r hr').2⟩, h4⟩
    simp only [TimesSt.step, Option.some.injEq] at hx
    omega
  | logRun i n c =>
    simp only [readings, List.cons_append, List.nil_append, List.pairwise_cons, List.mem_cons, List.not_mem_nil, or_false, forall_eq_or_imp, forall_eq] at hr
    refine ⟨fun x hx => ?_, fun i x hx => by have := h2 i x hx; omega, fun r hr' => ?_, fun r hr' => ?_⟩
    · simp only [TimesSt.step, Option.some.injEq] at hx
      omega
    · simp only [TimesSt.step, List.mem_append, List.mem_singleton] at hr'
      rcases hr' with hr' | rfl
      · exact ⟨by have := (h3 r hr').1; omega, (h3 r hr').2⟩
      · exact ⟨by simp only; omega, by simp⟩
    · simp only [TimesSt.step, List.mem_append, List.mem_singleton] at hr'
      rcases hr' with hr' | rfl
      · exact h4 r hr'
      · simp
  | childRun i n c =>
    simp only [readings, List.cons_append, List.nil_append, List.pairwise_cons, List.mem_cons, List.not_mem_nil, or_false, forall_eq_or_imp, forall_eq] at hr
    refine ⟨fun x hx => ?_, fun j x hx => ?_, fun r hr' => ?_, fun r hr' => ?_⟩
    · simp only [TimesSt.step, Option.some.injEq] at hx
      omega
    · simp only [TimesSt.step] at hx
      split at hx
      · simp only [Option.some.injEq] at hx; omega
      · have := h2 j x hx; omega
    · simp only [TimesSt.step, List.mem_append, List.mem_singleton] at hr'
      rcases hr' with hr' | rfl
      · exact ⟨by have := (h3 r hr').1; omega, (h3 r hr').2⟩
      · exact ⟨by simp only; omega, by simp⟩
    · simp only [TimesSt.step, List.mem_append, List.mem_singleton] at hr'
      rcases hr' with hr' | rfl
      · exact h4 r hr'
      · simp
  | logEnd i a n c =>
    simp only [readings, List.cons_append, List.nil_append, List.pairwise_cons, List.mem_cons, List.not_mem_nil, or_false, forall_eq_or_imp, forall_eq] at hr
    obtain ⟨k1, k2⟩ := outcome_known (i := i) (a := a) (n := n) (c := c) (start := s.lastRun f) (m := m)
      (fun x hx => lastRun_known hk f hx) (by omega)
    refine ⟨fun x hx => ?_, fun j x hx => by have := h2 j x hx; omega, fun r hr' => ?_, fun r hr' => ?_⟩
    · simp only [TimesSt.step] at hx
      have := lastRun_known hk f hx
      omega
    · simp only [TimesSt.step, List.mem_append, List.mem_singleton] at hr'
      rcases hr' with hr' | rfl
      · exact ⟨by have := (h3 r hr').1; omega, (h3 r hr').2⟩
      · exact ⟨by simp only [outcomeRec]; omega, k1⟩
    · simp only [TimesSt.step, List.mem_append, List.mem_singleton] at hr'
      rcases hr' with hr' | rfl
      · exact h4 r hr'
      · exact k2
  | childEnd i a n c =>
    simp only [readings, List.cons_append, List.nil_append, List.pairwise_cons, List.mem_cons, List.not_mem_nil, or_false, forall_eq_or_imp, forall_eq] at hr
    have hst : ∀ x, (if f then none else s.copies i) = some x → x ≤ m := by
      intro x hx
      cases f with
      | true => simp at hx
      | false => exact h2 i x (by simpa using hx)
    obtain ⟨k1, k2⟩ := outcome_known (i := some i) (a := a) (n := n) (c := c) (m := m) hst (by omega)
    refine ⟨fun x hx => by have := h1 x hx; omega, fun j x hx => ?_, fun r hr' => ?_, fun r hr' => ?_⟩
    · simp only [TimesSt.step] at hx
      split at hx
      · have := hst x hx; omega
      · have := h2 j x hx; omega
    · simp only [TimesSt.step, List.mem_append, List.mem_singleton] at hr'
      rcases hr' with hr' | rfl
      · exact ⟨by have := (h3 r hr').1; omega, (h3 r hr').2⟩
      · exact ⟨by simp only [outcomeRec]; omega, k1⟩
    · simp only [TimesSt.step, List.mem_append, List.mem_singleton] at hr'
      rcases hr' with hr' | rfl
      · exact h4 r hr'
      · exact k2

theorem TimesKnown.run (f : Bool) : ∀ (es : List TimesEv) (s : TimesSt) (m : Int), TimesKnown m s →
    (m :: es.flatMap readings).Pairwise (· ≤ ·) → ∃ m', TimesKnown m' (s.run f es) := by
  intro es
  induction es with
  | nil => intro s m h _; exact ⟨m, h⟩
  | cons e es ih =>
    intro s m h hp
    simp only [List.flatMap_cons] at hp
    have key : ∃ m', (m :: readings e ++ [m']).Pairwise (· ≤ ·) ∧ (m' :: es.flatMap readings).Pairwise (· ≤ ·) := by
      cases e <;>
        simp only [readings, List.cons_append, List.nil_append, List.pairwise_cons, List.mem_cons, forall_eq_or_imp] at hp
      case begin t => exact ⟨t, by simp [readings]; omega, by rw [List.pairwise_cons]; exact ⟨hp.2.1, hp.2.2⟩⟩
      case thread t => exact ⟨t, by simp [readings]; omega, by rw [List.pairwise_cons]; exact ⟨hp.2.1, hp.2.2⟩⟩
      case logRun i n c =>
        obtain ⟨⟨p1, p2, p3⟩, ⟨p4, p5⟩, p6, p7⟩ := hp
        exact ⟨c, by simp [readings]; omega, by rw [List.pairwise_cons]; exact ⟨p6, p7⟩⟩
      case logEnd i a n c =>
        obtain ⟨⟨p1, p2, p3⟩, ⟨p4, p5⟩, p6, p7⟩ := hp
        exact ⟨c, by simp [readings]; omega, by rw [List.pairwise_cons]; exact ⟨p6, p7⟩⟩
      case childRun i n c =>
        obtain ⟨⟨p1, p2, p3⟩, ⟨p4, p5⟩, p6, p7⟩ := hp
        exact ⟨c, by simp [readings]; omega, by rw [List.pairwise_cons]; exact ⟨p6, p7⟩⟩
      case childEnd i a n c =>
        obtain ⟨⟨p1, p2, p3⟩, ⟨p4, p5⟩, p6, p7⟩ := hp
        exact ⟨c, by simp [readings]; omega, by rw [List.pairwise_cons]; exact ⟨p6, p7⟩⟩
    obtain ⟨m', q1, q2⟩ := key
    exact ih (s.step f e) m' (h.step q1) q2

/-- C73: in every history with a clock that does not go back, every outcome record that has a start has the duration from
its start to its end, and this is not negative; one without a start has no duration. -/
theorem C73_duration (f : Bool) (es : List TimesEv) (hclock : (es.flatMap readings).Pairwise (· ≤ ·)) (r : TimedRec)
    (hr : r ∈ (TimesSt.init.run f es).log) (y : Int) (hy : r.stop = some y) :
    (∀ x, r.start = some x → r.runtime = some (y - x) ∧ x ≤ y) ∧ (r.start = none → r.runtime = none) := by
  have hm : ∃ m : Int, (m :: es.flatMap readings).Pairwise (· ≤ ·) := by
    cases hl : es.flatMap readings with
    | nil => exact ⟨0, by simp⟩
    | cons a l =>
      rw [hl] at hclock
      have h2 := List.pairwise_cons.1 hclock
      refine ⟨a, List.pairwise_cons.2 ⟨?_, hclock⟩⟩
      intro b hb
      rcases List.mem_cons.1 hb with rfl | hb
      · exact Int.le_refl _
      · exact h2.1 b hb
  obtain ⟨m, hm⟩ := hm
  have h0 : TimesKnown m TimesSt.init := ⟨by simp [TimesSt.init], by simp [TimesSt.init], by simp [TimesSt.init], by simp [TimesSt.init]⟩
  obtain ⟨m', h⟩ := TimesKnown.run f es _ m h0 hm
  refine ⟨fun x hx => (h.log r hr).2 x y hx hy, fun hx => ?_⟩
  have := h.ends r hr (by rw [hy]; rfl)
  rw [hx] at this
  simpa using this

example : ([TimesEv.begin 1, .logRun 0 2 3, .begin 4, .childRun 1 5 5, .logEnd (some 0) .success 7 8, .childEnd 1 .fail 9 9].flatMap
    readings).Pairwise (· ≤ ·) := by simp [readings]

/-- C73 does not hold as stated: when two runs of a task overlap (`multilaunch`), the outcome record of the first tells the
start of the second, and a duration that is too short. -/
theorem C73_overlap_violated (f : Bool) (t1 t2 t3 : Int) :
    ((TimesSt.init.run f [.begin t1, .logRun 0 t1 t1, .begin t2, .logRun 1 t2 t2, .logEnd (some 0) .success t3 t3]).log.getLast?).map
      (fun r => (r.run, r.start, r.runtime)) = some (some 0, some t2, some (t3 - t2)) := by
  cases f <;> rfl

/-- C73 does not hold as stated: with `force_status_from_logs` the outcome records of processes have no start and no
duration. -/
theorem C73_from_logs_violated (t1 t2 : Int) :
    ((TimesSt.init.run true [.begin t1, .childRun 0 t1 t1, .childEnd 0 .success t2 t2]).log.getLast?).map
      (fun r => (r.run, r.start, r.runtime)) = some (some 0, none, none) := rfl

/-- C73 does not hold as stated: the two records of a run tell different starts, that of `TaskRun` and that of the first
record. -/
theorem C73_start_violated (f : Bool) (t0 t1 t2 : Int) :
    (TimesSt.init.run f [.begin t0, .logRun 0 t1 t1, .logEnd (some 0) .success t2 t2]).log.map (·.start) = [some t0, some t1] := by
  cases f <;> rfl

end Rocketry.Props
