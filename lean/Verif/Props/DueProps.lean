import Verif.Spec.DueSpec
import Verif.Props.DenoteProps
import Verif.Props.StartProps
import Verif.Props.RefineProps
import Verif.Props.PromiseProps

/-!
# C84: a task with a start text is started exactly when what the text says holds
-/

namespace Rocketry.Props
open Spec Cond Sched

theorem mayStart_unhindered {s : Sys} {t : TaskSt} {c : Option Bool} :
    MayStart s t c ↔ Unhindered s t ∧ (t.batches ≠ [] ∨ (t.disabled = false ∧ c = some true)) :=
  ⟨fun h => ⟨⟨h.on, h.ordinary, h.slot, h.idle⟩, h.due⟩, fun h => ⟨h.1.on, h.1.ordinary, h.1.slot, h.1.idle, h.2⟩⟩

/-- C84: in every history of a program, the situation at a check is one that the session has kept (as needed by C65), when
the times of the tasks were read from the log and no record waits in the queue. -/
theorem C84_history (S : Setup) (hp : ∀ n, S.isProc n = false ∨ S.drained = true) {es : List Ev} {h : HState} (hh : Hist S es h)
    {name : String} {v : Sit} (hv : SitAt v name S.fromLogs h.log h.clock) (hcold : ∀ n ∈ v.tasks, h.cold n = false) : v.Kept where
  self := fun n hn => by rw [hv.self] at hn; cases hn; exact hv.known
  first := hv.first
  last := hv.last
  times := fun r hr => by
    have h1 := hv.times r hr
    rw [hv.repo] at hr
    have h2 := (hinv S name (hp name) hh).times r (by simp [HState.all, hr])
    have h3 := hv.clock
    exact ⟨h1, h2.1, by omega⟩
  ordered := fun n => by
    rw [hv.repo]
    have hi := hinv S n (hp n) hh
    refine (List.pairwise_append.1 hi.ordered).1.imp_of_mem (fun {r s} _ hs h h1 h2 => ?_)
    have := h h1 h2
    have := (hi.times s (by simp [HState.all, hs])).1
    omega
  cache := fun _ n hn => by
    have := (hinv S n (hp n) hh).cache (hcold n hn)
    rw [hv.mem, hv.repo]
    exact this
  runs := hv.runs
  log := hv.log
  params := hv.params

/-- C84, one inspection: whether the scheduler starts a run of the task when the loop of a cycle comes to it.  The
situation is kept, the phrases of the text are written out and can be answered; the answer of the environment to the
question for the start condition is the observation of the condition that the text is read as. -/
theorem C84_started_partial (lib : TextLib) (strLeaf : Char → Builtin) (v : Sit) (hk : v.Kept) (e : Written) (he : e.Proper)
    (sayingOf : Txt → Saying)
    (hw : ∀ w ∈ e.words, (sayingOf w).phrase.text = w ∧ (sayingOf w).Proper ∧ v.Ready (sayingOf w)) :
    ∃ c, parseCondition strLeaf (parseCondItem (readTime lib)) e.text = .ok c ∧ ∃ N, ∀ fuel, N ≤ fuel →
      ∀ (name : String) (w : World), (w.st.tasks.map TaskSt.name).Nodup → ∀ t, w.st.find name = some t →
        (w.env w.pos).cond = answered (observe (v.obs fuel) c ()).1 →
        (w.env (startPos t w)).fault ≠ some .params ∧ (w.env (startPos t w)).fault ≠ some .setup →
        ∃ o, (consider name w).2.trace = w.trace ++ o ∧
          (Unhindered w.st t ∧ (t.batches ≠ [] ∨ (t.disabled = false ∧ e.Holds (fun x => v.Says (sayingOf x)))) →
            starts o = [(name, .cycle)]) ∧
          (¬ (Unhindered w.st t ∧ (t.batches ≠ [] ∨ (t.disabled = false ∧ e.Holds (fun x => v.Says (sayingOf x))))) →
            starts o = []) := by
  obtain ⟨c, hc, N, hN⟩ := C65_text_partial lib strLeaf v hk e he sayingOf hw
  refine ⟨c, hc, N, fun fuel hf name w hn t ht henv hfault => ?_⟩
  obtain ⟨b, hb, hiff⟩ := hN fuel hf
  obtain ⟨o, ho, h1, h2⟩ := C39_exact name w hn t ht
  rw [hb] at henv
  have hm : MayStart w.st t (w.env w.pos).cond ↔
      Unhindered w.st t ∧ (t.batches ≠ [] ∨ (t.disabled = false ∧ e.Holds (fun x => v.Says (sayingOf x)))) := by
    rw [mayStart_unhindered, henv, ← hiff]
    simp [answered]
  refine ⟨o, ho, fun h => ?_, fun h => h1 (fun g => h (hm.1 g))⟩
  exact (h2 (hm.2 h)).2 hfault

/-- C84: at every point of every execution of the scheduler, however often it is started, at which the loop of a cycle
comes to the task: a run is started exactly when nothing stands in the way and a run was requested, or the task is enabled
and what its start text says holds for the log and the clock.  Missing: the clock stands still while the condition is
observed (see C81 for readings that differ); phrases as in C65, not at the first instant of a whole cycle, see
`C84_midnight_violated`; tasks in child processes only when their records are taken from the queue before checks. -/
theorem C84_execution_partial (lib : TextLib) (strLeaf : Char → Builtin) (S : Setup) (hproc : ∀ n, S.isProc n = false ∨ S.drained = true)
    (K : String → Sched.Exec) (R : Nat) (s : Sys) (hs : Managed K s) (env : Nat → Choice) (hrel : ∀ i, Reliable (env i)) (ks : List Nat)
    (w : World) (hreach : w.trace <+: (sessions ks (World.init s env)).2.trace) (hnames : (w.st.tasks.map TaskSt.name).Nodup)
    {es : List Ev} {h : HState} (hc : Coupled S K R w.trace es h) (name : String) (v : Sit) (hv : SitAt v name S.fromLogs h.log h.clock)
    (hcached : ∀ n ∈ v.tasks, Obs.cached n ∈ w.trace) (e : Written) (he : e.Proper) (sayingOf : Txt → Saying)
    (hw : ∀ w ∈ e.words, (sayingOf w).phrase.text = w ∧ (sayingOf w).Proper ∧ v.Ready (sayingOf w)) :
    ∃ c, parseCondition strLeaf (parseCondItem (readTime lib)) e.text = .ok c ∧ ∃ N, ∀ fuel, N ≤ fuel →
      ∀ t, w.st.find name = some t → (w.env w.pos).cond = answered (observe (v.obs fuel) c ()).1 →
        (w.env (startPos t w)).fault ≠ some .params ∧ (w.env (startPos t w)).fault ≠ some .setup →
        ∃ o, (consider name w).2.trace = w.trace ++ o ∧
          (Unhindered w.st t ∧ (t.batches ≠ [] ∨ (t.disabled = false ∧ e.Holds (fun x => v.Says (sayingOf x)))) →
            starts o = [(name, .cycle)]) ∧
          (¬ (Unhindered w.st t ∧ (t.batches ≠ [] ∨ (t.disabled = false ∧ e.Holds (fun x => v.Says (sayingOf x))))) →
            starts o = []) := by
  obtain ⟨rest, hrest⟩ := hreach
  have ho := C69_orderly K s hs.names hs.execution hs.single hs.stack env hrel ks
  have hpr := C69_prepared K s hs env hrel ks
  rw [← hrest] at ho hpr
  have hi := coupled_inv hc (orderly_prefix ho) (prepared_prefix hpr)
  have hk := C84_history S hproc hi.hist hv (fun n hn => (hi.cold n).1 (hcached n hn))
  obtain ⟨c, h1, N, h2⟩ := C84_started_partial lib strLeaf v hk e he sayingOf hw
  exact ⟨c, h1, N, fun fuel hf t ht => h2 fuel hf name w hnames t ht⟩

/-! ## Cases -/

/-- A session whose only task, "send", is as given; the loop of a cycle has come to it and its condition answers `c`. -/
def atCheck (t : TaskSt) (c : Option Bool) : World := World.init (sessionOf 1 false [t]) (fun _ => ⟨[], c, none, 0⟩)

theorem atCheck_unhindered {t : TaskSt} (h1 : t.onStartup = false ∧ t.onShutdown = false) (h2 : t.execution ≠ .process)
    (h3 : ∀ r ∈ t.stack, r.alive = false) (c : Option Bool) : Unhindered (atCheck t c).st t :=
  ⟨rfl, h1, fun h => absurd h h2, fun _ _ => h3⟩

/-- The day after New Year, one second after nine: the text of `newYearText` is true and the task is started. -/
example (lib : TextLib) (strLeaf : Char → Builtin) :
    ∃ c, parseCondition strLeaf (parseCondItem (readTime lib)) newYearText.text = .ok c ∧ ∃ fuel o,
      (consider "send" (atCheck (idleTask "send" .async) (answered (observe (newYear.obs fuel) c ()).1))).2.trace = [] ++ o ∧
      starts o = [("send", .cycle)] := by
  obtain ⟨hp, hw, hh⟩ := newYear_case
  obtain ⟨c, hc, N, h⟩ := C84_started_partial lib strLeaf newYear newYear_kept newYearText hp newYearSays hw
  refine ⟨c, hc, N, ?_⟩
  obtain ⟨o, h1, h2, _⟩ := h N (Nat.le_refl _) "send"
    (atCheck (idleTask "send" .async) (answered (observe (newYear.obs N) c ()).1)) (by simp [atCheck, World.init, sessionOf, idleTask])
    (idleTask "send" .async) rfl rfl ⟨by simp [atCheck, World.init], by simp [atCheck, World.init]⟩
  exact ⟨o, h1, h2 ⟨atCheck_unhindered ⟨rfl, rfl⟩ (by decide) (by simp [idleTask]) _, .inr ⟨rfl, hh⟩⟩⟩

/-- Noon of a day, nothing has been logged. -/
def firstNoon : Sit where
  fromLogs := false
  now := 738000 * DAY + 12 * HOUR
  self := some "t"
  tasks := ["t"]
  repo := []
  mem := (LogWorld.step false (LogWorld.step false ⟨fun _ => .fresh, []⟩ (.cached "t" (738000 * DAY) (738000 * DAY) .ok))
    (.cached "t" (738000 * DAY) (738000 * DAY) .ok)).mem
  startCond := fun _ => .alwaysTrue
  runs := fun _ => []
  hasRunId := true
  startup := none
  nCycles := 0
  params := []

/-- The second session of `oneTask`, when the loop of the first cycle has come to the task. -/
def oneTaskMoment : World := ⟨oneTask, oneTaskEnv, 7, [], [.serve, .cached "t", .shutdown, .serve, .cached "t", .cycle, .inspected "t"]⟩

theorem oneTaskMoment_coupled : ∃ es h, Coupled everyDay (fun _ => .async) 1 oneTaskMoment.trace es h ∧
    SitAt firstNoon "t" everyDay.fromLogs h.log h.clock ∧ h.cold "t" = false := by
  have c0 := Coupled.init (S := everyDay) (K := fun _ => .async) (R := 1) (738000 * DAY) (Hist.init 1) (by decide)
  have c1 := coupled_aside c0 .serve rfl
  have c2 := c1.obs (.cached _ "t" (738000 * DAY) (738000 * DAY) (by simp [HState.NoneWaiting]) (by decide) (by decide))
  have c2 := coupled_aside (coupled_aside c2 .shutdown rfl) .serve rfl
  have c2 := c2.obs (.cached _ "t" (738000 * DAY) (738000 * DAY) (by simp [HState.NoneWaiting]) (by decide) (by decide))
  have c3 := coupled_aside (coupled_aside c2 .cycle rfl) (.inspected "t") rfl
  refine ⟨_, _, c3, ⟨rfl, rfl, rfl, rfl, by decide +kernel, by decide +kernel, by simp [firstNoon], by decide +kernel,
    by simp [firstNoon], by simp [firstNoon], by simp [firstNoon], by simp [firstNoon]⟩, rfl⟩

/-- The hypotheses of `C84_execution_partial` are met at this moment of an execution, and the task is started. -/
example (lib : TextLib) (strLeaf : Char → Builtin) :
    ∃ o, (consider "t" oneTaskMoment).2.trace = oneTaskMoment.trace ++ o ∧ starts o = [("t", .cycle)] := by
  have hproper : dailyText.Proper := by simp [dailyText, Written.Proper, Written.Word, Written.Blank]
  obtain ⟨es, hs, c3, hv, hcold⟩ := oneTaskMoment_coupled
  have hw : ∀ w ∈ dailyText.words, (Saying.exec .day .whole).phrase.text = w ∧ (Saying.exec .day .whole).Proper ∧
      firstNoon.Ready (.exec .day .whole) := by
    intro w hm
    simp only [dailyText, Written.words, List.mem_singleton] at hm
    subst hm
    refine ⟨by decide +kernel, ⟨trivial, .inl (by decide)⟩, by simp [firstNoon], ?_, by simp [firstNoon, Sit.Clear]⟩
    rintro ⟨_, h⟩
    exact absurd h (by decide +kernel)
  have hholds : dailyText.Holds (fun _ => firstNoon.Says (.exec .day .whole)) :=
    ⟨Or.inr (Or.inl ⟨rfl, rfl⟩), "t", rfl, by simp [firstNoon]⟩
  obtain ⟨c, hc, N, h⟩ := C84_execution_partial lib strLeaf everyDay (fun _ => .inl rfl) (fun _ => .async) 1 oneTask oneTask_managed
    oneTaskEnv oneTask_reliable [3, 3] oneTaskMoment (by rw [oneTask_trace]; exact ⟨_, rfl⟩) (by decide) c3 "t" firstNoon hv
    (by simp [firstNoon, oneTaskMoment]) dailyText hproper (fun _ => .exec .day .whole) hw
  obtain ⟨c', hc', N', h'⟩ := C65_text_partial lib strLeaf firstNoon (C84_history everyDay (fun _ => .inl rfl)
    (C69_history_partial everyDay _ 1 oneTask oneTask_managed oneTaskEnv oneTask_reliable [3, 3]
      (by rw [oneTask_trace]; exact ⟨_, rfl⟩) c3) hv (by simpa [firstNoon] using hcold)) dailyText hproper (fun _ => .exec .day .whole) hw
  cases hc.symm.trans hc'
  obtain ⟨b, hb, hiff⟩ := h' (max N N') (Nat.le_max_right _ _)
  obtain ⟨o, h1, h2, _⟩ := h (max N N') (Nat.le_max_left _ _) (idleTask "t" .async) rfl
    (by rw [hb, hiff.2 hholds]; rfl) ⟨by simp [oneTaskMoment, oneTaskEnv, quiet], by simp [oneTaskMoment, oneTaskEnv, quiet]⟩
  exact ⟨o, h1, h2 ⟨⟨rfl, ⟨rfl, rfl⟩, (fun h => nomatch h), by simp [idleTask]⟩, .inr ⟨rfl, hholds⟩⟩⟩

/-- The task "t" has succeeded an hour before midnight. -/
def eveCalls : List LogOp := [.set "t" .success none (738000 * DAY - HOUR) (738000 * DAY - HOUR) .ok]

/-- It is exactly midnight. -/
def midnight : Sit where
  fromLogs := false
  now := 738000 * DAY
  self := some "t"
  tasks := ["t"]
  repo := (runLogOps false .fresh eveCalls).repo
  mem := (runLogOps false .fresh eveCalls).mem
  startCond := fun _ => .alwaysTrue
  runs := fun _ => []
  hasRunId := true
  startup := none
  nCycles := 0
  params := []

theorem midnight_kept : midnight.Kept := by
  refine C65_kept eveCalls ?_ ?_ midnight rfl rfl rfl ?_ (by decide +kernel) (by decide +kernel) ?_ ?_ ?_ ?_
  · intro op h
    simp only [eveCalls, List.mem_singleton] at h
    subst h; rfl
  · intro op h
    simp only [eveCalls, List.mem_singleton] at h
    subst h; trivial
  · intro n h
    cases h
    decide
  · decide +kernel
  · intro name
    exact (by decide +kernel : midnight.repo.Pairwise (fun r s => r.created ≤ s.created)).imp (fun h _ _ => h)
  · intro name r hr
    cases hr
  · decide

/-- C84 fails at the first instant of a day: `daily` holds (the task has no record of today), nothing stands in the way, and
the task is not started, since the condition looks at the day that has just ended. -/
theorem C84_midnight_violated (lib : TextLib) (strLeaf : Char → Builtin) : midnight.Kept ∧ dailyText.Proper ∧
    dailyText.Holds (fun _ => midnight.Says (.exec .day .whole)) ∧
    ∃ c, parseCondition strLeaf (parseCondItem (readTime lib)) dailyText.text = .ok c ∧ ∀ fuel, 1 ≤ fuel →
      ∃ w : World, Unhindered w.st (idleTask "t" .async) ∧ w.st.find "t" = some (idleTask "t" .async) ∧
        (w.env w.pos).cond = answered (observe (midnight.obs fuel) c ()).1 ∧ (∀ i, (w.env i).fault = none) ∧
        starts (consider "t" w).2.trace = [] := by
  have hproper : dailyText.Proper := by simp [dailyText, Written.Proper, Written.Word, Written.Blank]
  refine ⟨midnight_kept, hproper, ?_, ?_⟩
  · refine ⟨?_, "t", rfl, by decide +kernel⟩
    exact Or.inr (Or.inl ⟨rfl, rfl⟩)
  · have hg : ∀ fuel b, midnight.obs fuel b.resolve = midnight.obs fuel b := by intro fuel b; cases b <;> rfl
    have htext := fun fuel => C60_text_partial (read := readTime lib) (val := valOf lib) strLeaf (midnight.obs fuel) (hg fuel) dailyText hproper
      (fun _ => (Saying.exec .day .whole).phrase) (fun w hm => by
        simp only [dailyText, Written.words, List.mem_singleton] at hm
        subst hm
        have hp : (Saying.exec .day .whole).Proper := ⟨trivial, .inl (by decide)⟩
        obtain ⟨k1, k2, k3, k4⟩ := saying_phrase lib _ hp
        exact ⟨by decide +kernel, k1, k2, k3, k4, saying_means lib _ hp⟩)
    obtain ⟨c, hc, _⟩ := htext 0
    refine ⟨c, hc, fun fuel hf => ?_⟩
    obtain ⟨n, rfl⟩ : ∃ n, fuel = n + 1 := ⟨fuel - 1, by omega⟩
    obtain ⟨c', hc', ho⟩ := htext (n + 1)
    cases hc.symm.trans hc'
    have hob : observe (midnight.obs (n + 1)) c () = (.ok false, ()) := by
      rw [ho]
      refine Prod.ext ?_ rfl
      refine (?_ : executable (n + 1) false none (.anchored ⟨.day, 0, DAY⟩) (oneReading (738000 * DAY)) "t" (midnight.mem "t") midnight.repo = .ok false)
      rfl
    refine ⟨atCheck (idleTask "t" .async) (some false), atCheck_unhindered ⟨rfl, rfl⟩ (by decide) (by simp [idleTask]) _, rfl, ?_,
      fun _ => rfl, by decide +kernel⟩
    rw [hob]; rfl

end Rocketry.Props
