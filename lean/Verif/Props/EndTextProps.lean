import Verif.Spec.EndTextSpec
import Verif.Task.RunningFor
import Verif.Props.DueProps
import Verif.Props.TerminateProps
import Verif.Props.RunningProps
import Verif.Props.ZonedProps

/-!
# C114: the runs of a task are ended exactly when what its end condition says holds
-/

namespace Rocketry.Props
open Spec Cond Sched

theorem once_of_terms {l : List Obs} (h : (terms l).Nodup) (name : String) (i : Nat) :
    (l.filter (fun o => decide (o = Obs.terminated name i))).length ≤ 1 := by
  induction l with
  | nil => simp
  | cons o l ih =>
    have hl : (terms l).Nodup := by
      rw [show o :: l = [o] ++ l from rfl, terms_append] at h
      exact (List.nodup_append.1 h).2.1
    by_cases ho : o = Obs.terminated name i
    · subst ho
      have hn : (name, i) ∉ terms l := by
        have h' : ((name, i) :: terms l).Nodup := h
        exact (List.nodup_cons.1 h').1
      have : l.filter (fun o => decide (o = Obs.terminated name i)) = [] := by
        rw [List.filter_eq_nil_iff]
        intro o' ho' hd
        rw [decide_eq_true_eq] at hd
        exact hn (mem_terms.2 (hd ▸ ho'))
      rw [List.filter_cons, if_pos (by simp), this]
      simp
    · rw [List.filter_cons, if_neg (by simpa using ho)]
      exact ih hl

/-- A check of a task whose end condition could be evaluated. -/
theorem ends_by {P : Prop} {b : Bool} (hP : b = true ↔ P) (name : String) (w : World) (hw : Sound w) (t : TaskSt)
    (ht : (choose w).2.st.find name = some t) (hz : t.timeout ≠ some 0) (hc : (w.env w.pos).cond = some b) :
    ∃ l, (checkTermination name w).2.trace = (choose w).2.trace ++ l ∧
      EndsBy P (choose w).2.st.cfg (w.env w.pos).time name t l (checkTermination name w).1 (checkTermination name w).2 := by
  obtain ⟨l, htr, hnd, hmem, hdone, hleft⟩ := C42_cycle_partial name w hw t ht hz
  have he : EndCond (choose w).2.st.cfg (w.env w.pos) ↔ P := by
    unfold EndCond
    rw [hc, ← hP]
    simp
  refine ⟨l, htr, ⟨fun hok r hr ha h => hdone hok r hr ha ?_, fun n i hm => ?_, once_of_terms hnd name, hleft⟩⟩
  · rcases h with h | h | h
    · exact .inl ⟨h, .inl (by rw [hc]; simp)⟩
    · exact .inr (.inl (he.2 h))
    · exact .inr (.inr ⟨by rw [hc]; simp, h⟩)
  · obtain ⟨r, hr, hpr, hmust, hdead⟩ := hmem (n, i) (mem_terms.2 hm)
    cases hpr
    refine ⟨rfl, r, hr, rfl, ?_⟩
    rcases Bool.eq_false_or_eq_true r.alive with ha | ha
    · rcases hmust with h | h | h
      · exact .inl h.1
      · exact .inr (.inl (he.1 h))
      · exact .inr (.inr ⟨ha, h.2⟩)
    · rcases hdead ha with h | h
      · exact .inl h
      · exact .inr (.inl (he.1 h))

/-- C114, one check, end conditions given as texts: the situation is kept, the phrases of the text are written out and can be
answered; the answer of the environment to the question for the end condition is the observation of the condition that the
text is read as. -/
theorem C114_text_partial (lib : TextLib) (strLeaf : Char → Builtin) (v : Sit) (hk : v.Kept) (e : Written) (he : e.Proper)
    (sayingOf : Txt → Saying)
    (hw : ∀ w ∈ e.words, (sayingOf w).phrase.text = w ∧ (sayingOf w).Proper ∧ v.Ready (sayingOf w)) :
    ∃ c, parseCondition strLeaf (parseCondItem (readTime lib)) e.text = .ok c ∧ ∃ N, ∀ fuel, N ≤ fuel →
      ∀ (name : String) (w : World), Sound w → ∀ t, (choose w).2.st.find name = some t → t.timeout ≠ some 0 →
        (w.env w.pos).cond = answered (observe (v.obs fuel) c ()).1 →
        ∃ l, (checkTermination name w).2.trace = (choose w).2.trace ++ l ∧
          EndsBy (e.Holds (fun x => v.Says (sayingOf x))) (choose w).2.st.cfg (w.env w.pos).time name t l
            (checkTermination name w).1 (checkTermination name w).2 := by
  obtain ⟨c, hc, N, hN⟩ := C65_text_partial lib strLeaf v hk e he sayingOf hw
  refine ⟨c, hc, N, fun fuel hf name w hs t ht hz henv => ?_⟩
  obtain ⟨b, hb, hiff⟩ := hN fuel hf
  rw [hb] at henv
  exact ends_by hiff name w hs t ht hz henv

/-- C114: in every execution of the scheduler, however often it is started, for every check of a task with an end text: the
live runs of the task are ended exactly if their termination was requested, what the text says holds for the log and the
clock (at some moment up to the check, when `tr` had happened), or they are too old.  Missing: an own timeout of zero (C42); the clock stands
still while the condition is observed; phrases as in C65; tasks in child processes only when their records are taken from
the queue before checks. -/
theorem C114_execution_partial (lib : TextLib) (strLeaf : Char → Builtin) (S : Setup) (hproc : ∀ n, S.isProc n = false ∨ S.drained = true)
    (K : String → Sched.Exec) (R : Nat) (s : Sys) (hs : Managed K s) (env : Nat → Choice) (hrel : ∀ i, Reliable (env i)) (ks : List Nat)
    (w : World) (hsound : Sound w) (tr : List Obs) (hafter : tr <+: (choose w).2.trace)
    (hreach : (choose w).2.trace <+: (sessions ks (World.init s env)).2.trace)
    {es : List Ev} {h : HState} (hc : Coupled S K R tr es h) (name : String) (v : Sit) (hv : SitAt v name S.fromLogs h.log h.clock)
    (hcached : ∀ n ∈ v.tasks, Obs.cached n ∈ tr) (e : Written) (he : e.Proper) (sayingOf : Txt → Saying)
    (hw : ∀ w ∈ e.words, (sayingOf w).phrase.text = w ∧ (sayingOf w).Proper ∧ v.Ready (sayingOf w)) :
    ∃ c, parseCondition strLeaf (parseCondItem (readTime lib)) e.text = .ok c ∧ ∃ N, ∀ fuel, N ≤ fuel →
      ∀ t, (choose w).2.st.find name = some t → t.timeout ≠ some 0 →
        (w.env w.pos).cond = answered (observe (v.obs fuel) c ()).1 →
        ∃ l, (checkTermination name w).2.trace = (choose w).2.trace ++ l ∧
          EndsBy (e.Holds (fun x => v.Says (sayingOf x))) (choose w).2.st.cfg (w.env w.pos).time name t l
            (checkTermination name w).1 (checkTermination name w).2 := by
  obtain ⟨rest, hrest⟩ := hafter.trans hreach
  have ho := C69_orderly K s hs.names hs.execution hs.single hs.stack env hrel ks
  have hpr := C69_prepared K s hs env hrel ks
  rw [← hrest] at ho hpr
  have hi := coupled_inv hc (orderly_prefix ho) (prepared_prefix hpr)
  have hk := C84_history S hproc hi.hist hv (fun n hn => (hi.cold n).1 (hcached n hn))
  obtain ⟨c, h1, N, h2⟩ := C114_text_partial lib strLeaf v hk e he sayingOf hw
  exact ⟨c, h1, N, fun fuel hf t ht => h2 fuel hf name w hsound t ht⟩

/-! ## `running.more_than(limit)` -/

theorem more_than_span (n : Nat) (now limit : Int) (h0 : 0 ≤ limit) (h1 : MINT ≤ now - limit) :
    Period.periodSpan (n + 1) (some (runningPeriod (some limit) none)) now = .ok (MINT, now - limit) := by
  have : ((limit.natAbs : Nat) : Int) = limit := Int.natAbs_of_nonneg h0
  simp [Period.periodSpan, runningPeriod, Period.mkSpan, Period.rollback, Interval.make, this, Int.not_lt.2 h1]

/-- The runs of a task in the form in which `TaskRunning` sees them. -/
def seen (t : TaskSt) : List (Int × Bool) := t.stack.map (fun r => (r.start, r.alive))

/-- C114, `end_cond=running.more_than(limit)` (times in microseconds): says that some run of the task goes on and was started `limit` ago
or earlier. -/
theorem C114_age_partial (n : Nat) (hasRunId : Bool) (now limit : Int) (h0 : 0 ≤ limit) (h1 : MINT ≤ now - limit) (repo : List Record)
    (name : String) (w : World) (hw : Sound w) (t : TaskSt) (ht : (choose w).2.st.find name = some t) (hz : t.timeout ≠ some 0)
    (hfirst : ∀ r ∈ t.stack, MINT ≤ r.start)
    (hc : (w.env w.pos).cond = answered (runningFor (n + 1) false hasRunId (some (runningPeriod (some limit) none)) now name (seen t) repo)) :
    ∃ l, (checkTermination name w).2.trace = (choose w).2.trace ++ l ∧
      EndsBy (∃ r ∈ t.stack, Aged now limit r) (choose w).2.st.cfg (w.env w.pos).time name t l
        (checkTermination name w).1 (checkTermination name w).2 := by
  unfold runningFor at hc
  rw [more_than_span n now limit h0 h1] at hc
  simp only [Bool.false_eq_true, if_false, answered] at hc
  refine ends_by ?_ name w hw t ht hz hc
  simp only [compState, List.isEmpty_nil, if_true, decide_eq_true_eq]
  rw [gt_iff_lt, Int.natCast_pos, List.length_pos_iff_exists_mem]
  constructor
  · rintro ⟨p, hp⟩
    obtain ⟨hm, hp⟩ := List.mem_filter.1 hp
    obtain ⟨r, hr, rfl⟩ := List.mem_map.1 hm
    simp only [within, Bool.and_eq_true, decide_eq_true_eq] at hp
    exact ⟨r, hr, hp.1, by have := hp.2.2; omega⟩
  · rintro ⟨r, hr, ha, hd⟩
    refine ⟨(r.start, r.alive), List.mem_filter.2 ⟨List.mem_map.2 ⟨r, hr, rfl⟩, ?_⟩⟩
    simp only [within, Bool.and_eq_true, decide_eq_true_eq]
    exact ⟨ha, hfirst r hr, by omega⟩

/-- C114, the same for a task that does not run more than once at a time: its run is ended exactly if it was requested, the
run was started `limit` ago or earlier, or it is too old. -/
theorem C114_single_partial (n : Nat) (hasRunId : Bool) (now limit : Int) (h0 : 0 ≤ limit) (h1 : MINT ≤ now - limit) (repo : List Record)
    (name : String) (w : World) (hw : Sound w) (t : TaskSt) (ht : (choose w).2.st.find name = some t) (hz : t.timeout ≠ some 0)
    (hfirst : ∀ r ∈ t.stack, MINT ≤ r.start) (r : Run) (hr : r ∈ t.stack) (ha : r.alive = true)
    (hone : ∀ x ∈ t.stack, x.alive = true → x = r)
    (hc : (w.env w.pos).cond = answered (runningFor (n + 1) false hasRunId (some (runningPeriod (some limit) none)) now name (seen t) repo)) :
    ∃ l, (checkTermination name w).2.trace = (choose w).2.trace ++ l ∧
      ((checkTermination name w).1 = .ok () →
        t.forceTerm = true ∨ limit ≤ now - r.start ∨ TooOld (choose w).2.st.cfg (w.env w.pos).time t r → EndedIn name r.id l) ∧
      (Obs.terminated name r.id ∈ l →
        t.forceTerm = true ∨ limit ≤ now - r.start ∨ TooOld (choose w).2.st.cfg (w.env w.pos).time t r) := by
  obtain ⟨l, htr, he⟩ := C114_age_partial n hasRunId now limit h0 h1 repo name w hw t ht hz hfirst hc
  have hP : (∃ x ∈ t.stack, Aged now limit x) ↔ limit ≤ now - r.start := by
    constructor
    · rintro ⟨x, hx, hax, hd⟩
      cases hone x hx hax
      exact hd
    · exact fun h => ⟨r, hr, ha, h⟩
  refine ⟨l, htr, fun hok h => he.done hok r hr ha (by rwa [hP]), fun h => ?_⟩
  obtain ⟨_, x, hx, hid, h'⟩ := he.only name r.id h
  rw [hP] at h'
  rcases h' with h' | h' | h'
  · exact .inl h'
  · exact .inr (.inl h')
  · cases hone x hx h'.1
    exact .inr (.inr h'.2)

/-- C114 is false for tasks that run several times at once: as soon as one run is `limit` old, `running.more_than(limit)` ends
also every run that has just begun. -/
theorem C114_young_violated (n : Nat) (hasRunId : Bool) (now limit : Int) (h0 : 0 ≤ limit) (h1 : MINT ≤ now - limit) (repo : List Record)
    (name : String) (w : World) (hw : Sound w) (t : TaskSt) (ht : (choose w).2.st.find name = some t) (hz : t.timeout ≠ some 0)
    (hfirst : ∀ r ∈ t.stack, MINT ≤ r.start)
    (hc : (w.env w.pos).cond = answered (runningFor (n + 1) false hasRunId (some (runningPeriod (some limit) none)) now name (seen t) repo))
    (hok : (checkTermination name w).1 = .ok ()) (old young : Run) (ho : old ∈ t.stack) (hold : Aged now limit old)
    (hy : young ∈ t.stack) (hya : young.alive = true) :
    ∃ l, (checkTermination name w).2.trace = (choose w).2.trace ++ l ∧ EndedIn name young.id l := by
  obtain ⟨l, htr, he⟩ := C114_age_partial n hasRunId now limit h0 h1 repo name w hw t ht hz hfirst hc
  exact ⟨l, htr, he.done hok young hy hya (.inr (.inl ⟨old, ho, hold⟩))⟩

/-- C114, `end_cond=running.more_than(limit)` with force_status_from_logs: says that some run of the task, by the log, was
started `limit` ago or earlier and was unfinished `limit` ago. -/
theorem C114_log_partial (n : Nat) (now limit : Int) (h0 : 0 ≤ limit) (h1 : MINT ≤ now - limit) (repo : List Record)
    (name : String) (hlog : RunLog name repo) (htimes : ∀ r ∈ repo, MINT ≤ r.created) (w : World) (hw : Sound w) (t : TaskSt)
    (ht : (choose w).2.st.find name = some t) (hz : t.timeout ≠ some 0)
    (hc : (w.env w.pos).cond = answered (runningFor (n + 1) true true (some (runningPeriod (some limit) none)) now name (seen t) repo)) :
    ∃ l, (checkTermination name w).2.trace = (choose w).2.trace ++ l ∧
      EndsBy (openRuns name (repo.filter (fun r => decide (r.created ≤ now - limit))) ≠ []) (choose w).2.st.cfg (w.env w.pos).time name t l
        (checkTermination name w).1 (checkTermination name w).2 := by
  unfold runningFor at hc
  rw [more_than_span n now limit h0 h1] at hc
  simp only [if_true, answered] at hc
  refine ends_by ?_ name w hw t ht hz hc
  rw [C35_window_partial repo name MINT (now - limit) hlog]
  simp only [compState, List.isEmpty_nil, if_true, decide_eq_true_eq]
  rw [gt_iff_lt, Int.natCast_pos, List.filter_eq_self.2, List.length_pos_iff]
  intro r hr
  exact decide_eq_true (htimes r (List.mem_filter.1 (openRuns_mem hr)).1)

/-- C114 is false with force_status_from_logs: if the task has a run in the log that was started at least `limit` ago and
finished less than `limit` ago, `running.more_than(limit)` ends every run of the task that has been started since, however
young it is. -/
theorem C114_finished_violated (n : Nat) (now limit : Int) (h0 : 0 ≤ limit) (h1 : MINT ≤ now - limit) (repo : List Record)
    (name : String) (hlog : RunLog name repo) (htimes : ∀ r ∈ repo, MINT ≤ r.created) (w : World) (hw : Sound w) (t : TaskSt)
    (ht : (choose w).2.st.find name = some t) (hz : t.timeout ≠ some 0)
    (hc : (w.env w.pos).cond = answered (runningFor (n + 1) true true (some (runningPeriod (some limit) none)) now name (seen t) repo))
    (hok : (checkTermination name w).1 = .ok ()) (past : Record) (hp : past ∈ repo) (hrun : OfAction name .run past)
    (hstart : past.created ≤ now - limit)
    (hend : ∀ x ∈ repo, Of name x → x.runId = past.runId → x.action ≠ .run → now - limit < x.created)
    (young : Run) (hy : young ∈ t.stack) (hya : young.alive = true) :
    ∃ l, (checkTermination name w).2.trace = (choose w).2.trace ++ l ∧ EndedIn name young.id l := by
  obtain ⟨l, htr, he⟩ := C114_log_partial n now limit h0 h1 repo name hlog htimes w hw t ht hz hc
  refine ⟨l, htr, he.done hok young hy hya (.inr (.inl ?_))⟩
  have key : ∀ l : List Record, (∀ x ∈ l, x ∈ repo ∧ x.created ≤ now - limit) → past ∈ l → openRuns name l ≠ [] := by
    intro l hl hm
    induction l with
    | nil => cases hm
    | cons x l ih =>
      unfold openRuns
      split
      · simp
      · next hx =>
        rcases List.mem_cons.1 hm with rfl | hm
        · refine absurd ⟨hrun, fun y hy ho hid => ?_⟩ hx
          by_contra hne
          have hy' := hl y (List.mem_cons_of_mem _ hy)
          have := hend y hy'.1 ho hid hne
          omega
        · exact ih (fun y hy => hl y (List.mem_cons_of_mem _ hy)) hm
  refine key _ (fun x hx => ?_) (List.mem_filter.2 ⟨hp, by simpa using hstart⟩)
  have := List.mem_filter.1 hx
  exact ⟨this.1, by simpa using this.2⟩

/-- C114 is false in sessions with the option `timezone`: `running.more_than(limit)` cannot be evaluated there (C80); with
silence_cond_check every live run of the task is therefore ended at its first check, without it the check fails. -/
theorem C114_zone_violated (m : Zoned.Machine) (o : Int) (n : Nat) (comps : Comps) (limit now : Int) (runs : List Zoned.StackRun)
    (name : String) (w : World) (hw : Sound w) (t : TaskSt) (ht : (choose w).2.st.find name = some t) (hz : t.timeout ≠ some 0)
    (hc : (w.env w.pos).cond = answered (Zoned.running m (some o) (n + 1) comps (some (Zoned.spanDelta (some limit) none)) now runs)) :
    ((choose w).2.st.cfg.silenceCond = true → (checkTermination name w).1 = .ok () → ∀ r ∈ t.stack, r.alive = true →
      ∃ l, (checkTermination name w).2.trace = (choose w).2.trace ++ l ∧ EndedIn name r.id l) ∧
    ((choose w).2.st.cfg.silenceCond = false → (checkTermination name w).1 = .raise .other) := by
  rw [C80_moreThan_violated] at hc
  obtain ⟨l, htr, _, _, hdone, _⟩ := C42_cycle_partial name w hw t ht hz
  refine ⟨fun hsil hok r hr ha => ⟨l, htr, hdone hok r hr ha (.inr (.inl (.inr ⟨hc, hsil⟩)))⟩, fun hsil => ?_⟩
  unfold checkTermination
  rw [bind_apply]
  obtain ⟨w1, hcw, _⟩ := follow_choose name w
  rw [hcw] at ht hsil ⊢
  simp only at ht hsil ⊢
  rw [get_bind_apply, ht]
  simp only [hc, answered, hsil]
  rfl

/-! ## Cases -/

/-- `oneTask` again; in the first cycle the end condition of the task that has just been started is found true. -/
def endEnv (i : Nat) : Choice := quiet (decide (i = 1 ∨ i = 7 ∨ i = 9))

theorem endEnv_trace : (sessions [3, 3] (World.init oneTask endEnv)).2.trace =
    [.serve, .cached "t", .shutdown, .serve, .cached "t", .cycle, .inspected "t", .checked "t" false (some true), .started "t" 0 .cycle,
      .terminated "t" 0, .cycleDone, .cycle, .inspected "t", .checked "t" false (some false), .cycleDone] := by decide +kernel

/-- The task with its run. -/
def running0 : TaskSt := { idleTask "t" .async with stack := [⟨0, .async, 0, true, false⟩] }

/-- The moment before the check of the end condition. -/
def endMoment : World := ⟨{ sessionOf 1 false [running0] with nextId := 1 }, endEnv, 9, [],
  [.serve, .cached "t", .shutdown, .serve, .cached "t", .cycle, .inspected "t", .checked "t" false (some true), .started "t" 0 .cycle]⟩

theorem endMoment_sound : Sound endMoment := by
  refine ⟨⟨fun x hx => ?_, fun _ => trivial⟩, ?_⟩
  · simp only [endMoment, World.moments, List.mem_singleton] at hx
    rw [hx]
    exact ⟨by decide, by decide, by decide⟩
  · show ∀ t ∈ _, _; decide

theorem endMoment_coupled : ∃ es h, Coupled everyDay (fun _ => .async) 1 endMoment.trace es h ∧ h.clock ≤ 738000 * DAY + 12 * HOUR ∧
    h.log.repo = [⟨"t", .run, 738000 * DAY + 4, 738000 * DAY + 4, none⟩] ∧ h.cold "t" = false := by
  have c0 := Coupled.init (S := everyDay) (K := fun _ => .async) (R := 1) (738000 * DAY) (Hist.init 1) (by decide)
  have c1 := coupled_aside c0 .serve rfl
  have c2 := c1.obs (.cached _ "t" (738000 * DAY) (738000 * DAY) (by simp [HState.NoneWaiting]) (by decide) (by decide))
  have c2 := coupled_aside (coupled_aside c2 .shutdown rfl) .serve rfl
  have c2 := c2.obs (.cached _ "t" (738000 * DAY) (738000 * DAY) (by simp [HState.NoneWaiting]) (by decide) (by decide))
  have c3 := coupled_aside (coupled_aside c2 .cycle rfl) (.inspected "t") rfl
  have c4 := c3.obs (.found _ "t" false 0 (738000 * DAY + 3) (738000 * DAY + 3) (by decide) (by decide)
    (by simp [HState.NoneWaiting]) (by decide) ⟨rfl, 738000 * DAY + 3, by decide, by decide, by decide +kernel⟩)
  have c5 := c4.obs (.started _ "t" 0 .cycle 0 none (738000 * DAY + 4) (738000 * DAY + 4) (by simp [upd]) (by decide) (by decide))
  exact ⟨_, _, c5, by decide +kernel, by decide +kernel, rfl⟩

/-- The hypotheses of `C114_execution_partial` are met at this moment of an execution: with the end text "daily" the run that
has just begun is ended, for the task has not finished today. -/
example (lib : TextLib) (strLeaf : Char → Builtin) :
    ∃ l, (checkTermination "t" endMoment).2.trace = endMoment.trace ++ l ∧ EndedIn "t" 0 l := by
  have hproper : dailyText.Proper := by simp [dailyText, Written.Proper, Written.Word, Written.Blank]
  obtain ⟨es, hs, c5, hclock, hrepo, hcold⟩ := endMoment_coupled
  let v : Sit := { firstNoon with mem := hs.log.mem, repo := hs.log.repo }
  have hv : SitAt v "t" everyDay.fromLogs hs.log hs.clock := by
    refine ⟨rfl, rfl, rfl, rfl, hclock, (by decide +kernel : firstNoon.now ≤ MAXT), fun r hr => ?_,
      (by decide +kernel : MINT ≤ firstNoon.now), by simp [v, firstNoon],
      by simp [v, firstNoon], by simp [v, firstNoon], by simp [v, firstNoon]⟩
    have hr : r ∈ hs.log.repo := hr
    rw [hrepo, List.mem_singleton] at hr
    rw [hr]
    decide +kernel
  have hw : ∀ w ∈ dailyText.words, (Saying.exec .day .whole).phrase.text = w ∧ (Saying.exec .day .whole).Proper ∧
      v.Ready (.exec .day .whole) := by
    intro w hm
    simp only [dailyText, Written.words, List.mem_singleton] at hm
    subst hm
    refine ⟨by decide +kernel, ⟨trivial, .inl (by decide)⟩, by simp [v, firstNoon], ?_, fun _ r hr h => ?_⟩
    · rintro ⟨_, h⟩
      exact absurd h (by decide +kernel : ¬ (firstNoon.now - (TPart.span Scope.day TPart.whole).1) % Sit.len Scope.day = 0)
    · have hr : r ∈ hs.log.repo := hr
      rw [hrepo, List.mem_singleton] at hr
      rw [hr] at h ⊢
      exact h
  have hholds : dailyText.Holds (fun _ => v.Says (.exec .day .whole)) := by
    refine ⟨Or.inr (Or.inl ⟨rfl, rfl⟩), "t", rfl, fun r hr _ ha => ?_⟩
    have hr : r ∈ hs.log.repo := hr
    rw [hrepo, List.mem_singleton] at hr
    rw [hr] at ha
    simp at ha
  have hreach : (choose endMoment).2.trace <+: (sessions [3, 3] (World.init oneTask endEnv)).2.trace := by
    rw [endEnv_trace]
    exact ⟨_, rfl⟩
  have hrel : ∀ i, Reliable (endEnv i) := fun i => ⟨by simp [endEnv, quiet], by simp [endEnv, quiet], by simp [endEnv, quiet]⟩
  obtain ⟨c, hc, N, h⟩ := C114_execution_partial lib strLeaf everyDay (fun _ => .inl rfl) (fun _ => .async) 1 oneTask oneTask_managed
    endEnv hrel [3, 3] endMoment endMoment_sound endMoment.trace ⟨[], by decide⟩ hreach c5 "t" v hv
    (by simp [v, firstNoon, endMoment]) dailyText hproper (fun _ => .exec .day .whole) hw
  obtain ⟨c', hc', N', h'⟩ := C65_text_partial lib strLeaf v (C84_history everyDay (fun _ => .inl rfl)
    (C69_history_partial everyDay _ 1 oneTask oneTask_managed endEnv hrel [3, 3] hreach c5) hv
      (by simpa [v, firstNoon] using hcold)) dailyText hproper (fun _ => .exec .day .whole) hw
  cases hc.symm.trans hc'
  obtain ⟨b, hb, hiff⟩ := h' (max N N') (Nat.le_max_right _ _)
  obtain ⟨l, h1, h2⟩ := h (max N N') (Nat.le_max_left _ _) running0 rfl (by decide)
    (by rw [hb, hiff.2 hholds]; rfl)
  exact ⟨l, h1, h2.done (by decide) ⟨0, .async, 0, true, false⟩ (by simp [running0]) rfl (.inr (.inl hholds))⟩

/-- Two runs of a task, started a minute and ten seconds before `noon`. -/
def noon : Int := 738000 * DAY + 12 * HOUR

def twoRuns : TaskSt := { idleTask "a" .thread with
  multilaunch := some true, stack := [⟨0, .thread, noon - 60 * SEC, true, false⟩, ⟨1, .thread, noon - 10 * SEC, true, false⟩] }

def oneRun : TaskSt := { idleTask "a" .thread with stack := [⟨1, .thread, noon - 10 * SEC, true, false⟩] }

/-- A check of the task. -/
def checkOf (t : TaskSt) (c : Option Bool) : World :=
  World.init { sessionOf 1 true [t] with
    cfg := { (sessionOf 1 true []).cfg with timeout := 30 * 60 * SEC, silenceCond := true }, nextId := 2 } (envOf [⟨[], c, none, noon⟩])

theorem checkOf_sound (c : Option Bool) : Sound (checkOf twoRuns c) ∧ Sound (checkOf oneRun c) := by
  refine ⟨⟨⟨fun x hx => ?_, fun _ => trivial⟩, ?_⟩, ⟨⟨fun x hx => ?_, fun _ => trivial⟩, ?_⟩⟩
  · simp only [checkOf, World.init, World.moments, List.mem_singleton] at hx
    rw [hx]
    exact ⟨by decide, by decide, by decide⟩
  · show ∀ t ∈ [twoRuns], ∀ r ∈ t.stack, r.kind ≠ .main; decide
  · simp only [checkOf, World.init, World.moments, List.mem_singleton] at hx
    rw [hx]
    exact ⟨by decide, by decide, by decide⟩
  · show ∀ t ∈ [oneRun], ∀ r ∈ t.stack, r.kind ≠ .main; decide

/-- With the limit of half a minute the young run is ended, because of the old one; alone it is left alive. -/
example : EndedIn "a" 1 (checkTermination "a" (checkOf twoRuns (some true))).2.trace ∧
    ¬ EndedIn "a" 1 (checkTermination "a" (checkOf oneRun (some false))).2.trace := by
  constructor
  · obtain ⟨l, h1, h2⟩ := C114_young_violated 0 true noon (30 * SEC) (by decide +kernel) (by decide +kernel) [] "a"
      (checkOf twoRuns (some true)) (checkOf_sound _).1 twoRuns rfl (by decide) (by decide +kernel) (by decide +kernel) (by decide +kernel)
      ⟨0, .thread, noon - 60 * SEC, true, false⟩ ⟨1, .thread, noon - 10 * SEC, true, false⟩ (by simp [twoRuns]) ⟨rfl, by decide +kernel⟩
      (by simp [twoRuns]) rfl
    rw [h1]
    exact h2.imp (fun ⟨e, h⟩ => ⟨e, by simp [h]⟩) (fun h => by simp [h])
  · have h : (checkTermination "a" (checkOf oneRun (some false))).2.trace = [] := by decide +kernel
    rw [h]
    rintro (⟨_, h⟩ | h) <;> cases h

example : ∃ l, (checkTermination "a" (checkOf oneRun (some false))).2.trace = [] ++ l ∧
    (Obs.terminated "a" 1 ∈ l → TooOld (checkOf oneRun none).st.cfg noon oneRun ⟨1, .thread, noon - 10 * SEC, true, false⟩) := by
  obtain ⟨l, h1, _, h2⟩ := C114_single_partial 0 true noon (30 * SEC) (by decide +kernel) (by decide +kernel) [] "a"
    (checkOf oneRun (some false)) (checkOf_sound _).2 oneRun rfl (by decide) (by decide +kernel)
    ⟨1, .thread, noon - 10 * SEC, true, false⟩ (by simp [oneRun]) rfl (by simp [oneRun]) (by decide +kernel)
  refine ⟨l, h1, fun h => ?_⟩
  rcases h2 h with h | h | h
  · exact absurd h (by decide)
  · exact absurd h (by decide +kernel)
  · exact h

/-- The log of the task with force_status_from_logs: a run that has ended twenty seconds ago, and the one that goes on. -/
def shortAgo : List Record :=
  [⟨"a", .run, noon - 60 * SEC, noon - 60 * SEC, some "1"⟩, ⟨"a", .success, noon - 20 * SEC, noon - 20 * SEC, some "1"⟩,
   ⟨"a", .run, noon - 10 * SEC, noon - 10 * SEC, some "2"⟩]

/-- The run of ten seconds is ended by `running.more_than("30 seconds")`. -/
example : ∃ l, (checkTermination "a" (checkOf oneRun (some true))).2.trace = [] ++ l ∧ EndedIn "a" 1 l :=
  C114_finished_violated 0 noon (30 * SEC) (by decide +kernel) (by decide +kernel) shortAgo "a"
    ⟨by decide +kernel, by decide +kernel, by decide +kernel⟩ (by decide +kernel) (checkOf oneRun (some true)) (checkOf_sound _).2 oneRun rfl
    (by decide) (by decide +kernel) (by decide +kernel) ⟨"a", .run, noon - 60 * SEC, noon - 60 * SEC, some "1"⟩ (by simp [shortAgo])
    (by decide +kernel) (by decide +kernel) (by decide +kernel) ⟨1, .thread, noon - 10 * SEC, true, false⟩ (by simp [oneRun]) rfl

/-- In a session with a time zone it is ended at once, or the check fails. -/
example (runs : List Zoned.StackRun) : ∃ l, (checkTermination "a" (checkOf oneRun none)).2.trace = [] ++ l ∧ EndedIn "a" 1 l :=
  (C114_zone_violated utc east 0 [] (30 * SEC) noon runs "a" (checkOf oneRun none) (checkOf_sound _).2 oneRun rfl (by decide) rfl).1
    (by decide) (by decide +kernel) ⟨1, .thread, noon - 10 * SEC, true, false⟩ (by simp [oneRun]) rfl

end Rocketry.Props
