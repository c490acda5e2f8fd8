import Verif.Session.RunOnce

/-!
# C48, continued: the named tasks are run once; what goes wrong
-/

namespace Rocketry.Props
open Rocketry.Sched Rocketry.Spec

/-- C48, as far as it holds: in an idle session, if nothing fails and there is a process slot for every named task that
needs one, `session.run` starts every named task exactly once, whatever its start condition, and no other task.
Missing: tasks without a free slot are not run (`C48_slot_violated`); startup and shutdown tasks keep a request
(`C48_special_violated`). -/
theorem C48_once_partial (names : List String) (execution : Option Exec) (k : Nat) (s : Sys) (env : Nat → Choice)
    (hn : (s.tasks.map TaskSt.name).Nodup) (hm : ∀ t ∈ s.tasks, t.member = true)
    (hidle : ∀ t ∈ s.tasks, t.stack = [] ∧ t.batches = [])
    (hsp : ∀ t ∈ s.tasks, t.name ∈ names → t.onStartup = false ∧ t.onShutdown = false)
    (hroom : ((s.tasks.countP (fun t => decide (t.name ∈ names ∧ execution.getD t.execution = .process)) : Nat) : Int) ≤ s.cfg.maxProcess)
    (hg : ∀ i, Gentle (env i)) (m : String) :
    startsOf m (sessionRun names execution false (k + 2) (World.init s env)).2.trace =
      if m ∈ names ∧ m ∈ s.tasks.map TaskSt.name then 1 else 0 := by
  rw [sessionRun_trace]
  have h0 := halfway_init s env execution hn hm hidle hsp hroom hg [s.only names execution false, s] 0
  have hmain : NoMain (s.only names execution false) := by
    intro t ht r hr
    obtain ⟨u, hu, rfl⟩ := List.mem_map.1 ht
    rw [if_pos (hm u hu)] at hr
    have hst : (u.only names execution false).stack = u.stack := by unfold TaskSt.only; split <;> rfl
    rw [hst, (hidle u hu).1] at hr
    simp at hr
  have h := halfway_serve (w := { World.init s env with st := s.only names execution false, hist := [s] }) k h0 hmain
  refine (h.count m).trans ?_
  simp

/-- Three tasks, one of them for the startup; a process and a `main` task are named. -/
def morning : Sys := sessionOf 1 false
  [idleTask "a" .process, { idleTask "b" .main with disabled := true, priority := 3 }, { idleTask "c" .main with onStartup := true, noCond := true }]

/-- Nothing fails; the process of the first run ends. -/
def morningEnv (i : Nat) : Choice := { quiet false with events := if i = 12 then [.ends "a" 1 false] else [] }

theorem morning_gentle (i : Nat) : Gentle (morningEnv i) := by
  refine ⟨rfl, by simp [morningEnv, quiet], fun e he => ?_⟩
  simp only [morningEnv] at he
  split at he
  · rw [List.mem_singleton.1 he]; trivial
  · simp at he

example : (morning.tasks.map TaskSt.name).Nodup ∧ (∀ t ∈ morning.tasks, t.member = true) ∧
    (∀ t ∈ morning.tasks, t.stack = [] ∧ t.batches = []) ∧
    (∀ t ∈ morning.tasks, t.name ∈ ["a", "b"] → t.onStartup = false ∧ t.onShutdown = false) ∧
    ((morning.tasks.countP (fun t => decide (t.name ∈ ["a", "b"] ∧ (none : Option Exec).getD t.execution = .process)) : Nat) : Int) ≤
      morning.cfg.maxProcess ∧ (∀ i, Gentle (morningEnv i)) ∧
    (sessionRun ["a", "b"] none false 12 (World.init morning morningEnv)).1 = .ok () ∧
    (["a", "b", "c"].map (startsOf · (sessionRun ["a", "b"] none false 12 (World.init morning morningEnv)).2.trace)) = [1, 1, 0] :=
  ⟨by decide, by decide, by decide, by decide, by decide, morning_gentle, by decide +kernel, by decide +kernel⟩

/-- The case of `C48_only_partial`: something fails, and a named task is requested once more. -/
example : let env := fun i => if i = 5 then ⟨[.request "a" []], some false, some .logging, 0⟩ else morningEnv i
    (∀ i, ∀ e ∈ (env i).events, LeavesAlone ["a", "b"] e) ∧
      (sessionRun ["a", "b"] none false 12 (World.init morning env)).1 = .raise .logging := by
  refine ⟨fun i e he => ?_, by decide +kernel⟩
  simp only at he
  split at he
  · rw [List.mem_singleton.1 he]
    show "a" ∈ ["a", "b"]
    decide
  · simp only [morningEnv] at he
    split at he
    · rw [List.mem_singleton.1 he]; trivial
    · simp at he

/-- The case of `C48_restored_partial`. -/
example : (morning.tasks.map TaskSt.name).Nodup ∧ (∀ i, ∀ e ∈ (morningEnv i).events, ∀ t, e ≠ .add t) ∧
    (sessionRun ["a", "b"] (some .main) false 12 (World.init morning morningEnv)).1 ≠ .cut ∧
    attributes (sessionRun ["a", "b"] (some .main) false 12 (World.init morning morningEnv)).2.st "a" = attributes morning "a" := by
  refine ⟨by decide, fun i e he t => ?_, by decide +kernel, by decide +kernel⟩
  simp only [morningEnv] at he
  split at he
  · rw [List.mem_singleton.1 he]; simp
  · simp at he

/-- Full C48: exactly the named tasks are run, each once, and every task is as before. -/
def RunsOnly (names : List String) (s : Sys) (env : Nat → Choice) (n : Nat) : Prop :=
  (∀ m ∈ s.tasks.map TaskSt.name, startsOf m (sessionRun names none false n (World.init s env)).2.trace = if m ∈ names then 1 else 0) ∧
  ∀ m ∈ s.tasks.map TaskSt.name, attributes (sessionRun names none false n (World.init s env)).2.st m = attributes s m

/-- C48 fails: a pending request of another task is carried out although the task is disabled for the time of the run. -/
theorem C48_pending_violated :
    let s := sessionOf 1 false [idleTask "a" .main, { idleTask "b" .main with batches := [[("x", "1")]] }]
    (sessionRun ["a"] none false 12 (World.init s (fun _ => quiet false))).1 = .ok () ∧
    startsOf "b" (sessionRun ["a"] none false 12 (World.init s (fun _ => quiet false))).2.trace = 1 ∧
    ¬ RunsOnly ["a"] s (fun _ => quiet false) 12 := by
  intro s
  have h : startsOf "b" (sessionRun ["a"] none false 12 (World.init s (fun _ => quiet false))).2.trace = 1 := by decide +kernel
  refine ⟨by decide +kernel, h, fun hr => ?_⟩
  have := hr.1 "b" (by decide)
  rw [h] at this
  exact absurd this (by decide)

/-- C48 fails: a task that is added during the run has no saved attributes; `run` raises a KeyError and leaves another
task disabled. -/
theorem C48_added_violated :
    let s := sessionOf 1 false [idleTask "a" .main, idleTask "b" .main]
    let env := fun i => if i = 5 then ⟨[.add (idleTask "new" .main)], some false, none, 0⟩ else quiet false
    (sessionRun ["a"] none false 12 (World.init s env)).1 = .raise .other ∧
    (attributes s "b").map Attributes.disabled = some false ∧
    (attributes (sessionRun ["a"] none false 12 (World.init s env)).2.st "b").map Attributes.disabled = some true := by
  decide +kernel

/-- C48 fails: with one process slot only the first of two named process tasks is run; the request for the second stays
and is carried out whenever the session is started again. -/
theorem C48_slot_violated :
    let s := sessionOf 1 false [idleTask "a" .process, idleTask "b" .process]
    let env := fun i => if i = 12 then ⟨[.ends "a" 0 false], some false, none, 0⟩ else quiet false
    (sessionRun ["a", "b"] none false 12 (World.init s env)).1 = .ok () ∧
    startsOf "a" (sessionRun ["a", "b"] none false 12 (World.init s env)).2.trace = 1 ∧
    startsOf "b" (sessionRun ["a", "b"] none false 12 (World.init s env)).2.trace = 0 ∧
    (attributes (sessionRun ["a", "b"] none false 12 (World.init s env)).2.st "b").map Attributes.requests = some [[]] := by
  decide +kernel

/-- C48 fails: a startup task without a start condition is requested by `run` and again by the scheduler; it is run once
and keeps the other request. -/
theorem C48_special_violated :
    let s := sessionOf 1 false [{ idleTask "a" .main with onStartup := true, noCond := true }]
    let r := sessionRun ["a"] none false 12 (World.init s (fun _ => quiet false))
    r.1 = .ok () ∧ startsOf "a" r.2.trace = 1 ∧ (attributes r.2.st "a").map Attributes.requests = some [[]] := by
  decide +kernel

end Rocketry.Props
