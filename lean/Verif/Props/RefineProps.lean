import Verif.Sched.Caches
import Verif.Props.PeriodicProps
import Verif.Props.CronRunProps
import Verif.Props.DependProps
import Verif.Props.RetryProps
import Verif.Props.ParallelProps

/-!
# C69: what the scheduler does and what is logged meanwhile is one of the histories of C27–C32
-/

namespace Rocketry.Props
open Rocketry Rocketry.Sched Rocketry.Spec

theorem track_init {K : String → Exec} {s : Sys} (hn : (s.tasks.map TaskSt.name).Nodup)
    (hk : ∀ t ∈ s.tasks, t.execution = K t.name) (hm : ∀ t ∈ s.tasks, t.multilaunch.getD s.cfg.multilaunch = false)
    (hs : ∀ t ∈ s.tasks, t.stack = []) {env : Nat → Choice} (he : ∀ i, Reliable (env i)) :
    TrackInv K none (World.init s env) where
  nodup := hn
  env := he
  execution := hk
  single := hm
  kinds := fun t ht r hr => by rw [hs t ht] at hr; cases hr
  track := fun n _ i hi => by simp [going, World.init] at hi
  mains := fun n _ i hi => by simp [going, World.init] at hi
  orderly := fun a o b e => by simp [World.init] at e

/-- C69, runs: however often the scheduler is started, a single-launch task is never found runnable while a run of it
goes on, and only a task that was found runnable is started (or fails to start), once. -/
theorem C69_orderly (K : String → Exec) (s : Sys) (hn : (s.tasks.map TaskSt.name).Nodup)
    (hk : ∀ t ∈ s.tasks, t.execution = K t.name) (hm : ∀ t ∈ s.tasks, t.multilaunch.getD s.cfg.multilaunch = false)
    (hs : ∀ t ∈ s.tasks, t.stack = []) (env : Nat → Choice) (he : ∀ i, Reliable (env i)) (ks : List Nat) :
    Orderly K (sessions ks (World.init s env)).2.trace :=
  (track_sessions ks _ (track_init hn hk hm hs he)).orderly

/-- C69, caches: however often the scheduler is started (also by "recall"), no task is found runnable before its times
were read from the log. -/
theorem C69_prepared (K : String → Exec) (s : Sys) (hs : Managed K s) (env : Nat → Choice) (he : ∀ i, Reliable (env i))
    (ks : List Nat) : Prepared (sessions ks (World.init s env)).2.trace :=
  prepared_sessions s env hs.names hs.ending (fun i t => (he i).add t) ks

/-- C69: whatever is written into the log until some point of an execution of the scheduler is a history in the sense
of C27 to C32: what was proved for all histories holds for every execution of the scheduler. -/
theorem C69_history_partial (S : Setup) (K : String → Exec) (R : Nat) (s : Sys) (hs : Managed K s) (env : Nat → Choice)
    (he : ∀ i, Reliable (env i)) (ks : List Nat) {tr : List Obs} (hp : tr <+: (sessions ks (World.init s env)).2.trace)
    {es : List Ev} {h : HState} (hc : Coupled S K R tr es h) : Hist S es h := by
  obtain ⟨rest, hrest⟩ := hp
  have ho := C69_orderly K s hs.names hs.execution hs.single hs.stack env he ks
  rw [← hrest] at ho
  have hpr := C69_prepared K s hs env he ks
  rw [← hrest] at hpr
  exact (coupled_inv hc (orderly_prefix ho) (prepared_prefix hpr)).hist

/-- C69 and C30: two starts of a task with the condition `every(d)` that is not requested to run are more than `d`
apart, in every execution of the scheduler. -/
theorem C69_every_partial (S : Setup) (K : String → Exec) (R : Nat) (s : Sys) (hs : Managed K s) (env : Nat → Choice)
    (he : ∀ i, Reliable (env i)) (ks : List Nat) {tr : List Obs} (hp : tr <+: (sessions ks (World.init s env)).2.trace)
    {es : List Ev} {h : HState} (hc : Coupled S K R tr es h) (name : String) (fuel : Nat) (d : Int)
    (hS : ∀ reason first last w, S.start name reason first last w → EveryHeld fuel S.fromLogs d name first last w) :
    h.log.repo.Pairwise (fun r s => OfAction name .run r → OfAction name .run s → r.noted + (d.natAbs : Int) < s.noted) :=
  C30_spacing S name fuel d hS (C69_history_partial S K R s hs env he ks hp hc)

/-- C69 and C31: in every execution of the scheduler, a task is not started more often in a row because of its retries
than it has retries. -/
theorem C69_retries_partial (S : Setup) (K : String → Exec) (R : Nat) (s : Sys) (hs : Managed K s) (env : Nat → Choice)
    (he : ∀ i, Reliable (env i)) (ks : List Nat) {tr : List Obs} (hp : tr <+: (sessions ks (World.init s env)).2.trace)
    {es : List Ev} {h : HState} (hc : Coupled S K R tr es h) (name : String)
    (hproc : S.isProc name = false ∨ S.drained = true) (reason : Nat) (k : Int) (hk : 0 ≤ k)
    (hS : ∀ first last w, S.start name reason first last w → retryState S.fromLogs k name (w.mem name) w.repo = true)
    (hep : ∀ r ∈ h.log.repo, EPOCH ≤ r.created) : (startsInRow name reason es : Int) ≤ k :=
  C31_history S name hproc reason k hk hS (C69_history_partial S K R s hs env he ks hp hc) hep

/-- C69 and C32: in every execution of the scheduler, a task that starts after another one is started at most once for
every completion of that one, later than that. -/
theorem C69_depend_partial (S : Setup) (K : String → Exec) (R : Nat) (s : Sys) (hs : Managed K s) (env : Nat → Choice)
    (he : ∀ i, Reliable (env i)) (ks : List Nat) {tr : List Obs} (hp : tr <+: (sessions ks (World.init s env)).2.trace)
    {es : List Ev} {h : HState} (hc : Coupled S K R tr es h) (actual depend : String) (acts : List Action)
    (hS : ∀ reason first last w, S.start actual reason first last w → dependState w.repo actual depend acts = true) :
    h.log.repo.Pairwise (fun r s => OfAction actual .run r → OfAction actual .run s →
      ∃ c ∈ h.log.repo, Completion depend acts c ∧ r.created < c.created ∧ c.created ≤ s.noted) :=
  (C32_history S actual depend acts hS (C69_history_partial S K R s hs env he ks hp hc)).2.1

/-- C69 and C27: in every execution of the scheduler, a task with a period as start condition succeeds at most once in
every occurrence of the period. -/
theorem C69_daily_partial (S : Setup) (K : String → Exec) (R : Nat) (s : Sys) (hs : Managed K s) (env : Nat → Choice)
    (he : ∀ i, Reliable (env i)) (ks : List Nat) {tr : List Obs} (hp : tr <+: (sessions ks (World.init s env)).2.trace)
    {es : List Ev} {h : HState} (hc : Coupled S K R tr es h) (name : String)
    (hproc : S.isProc name = false ∨ S.drained = true) (fuel : Nat)
    (retries : Option Int) (p : Anchored) (L : Int) (hL : cycleLen p.scope = some L) (hb : Bounds p L)
    (hS : ∀ reason first last w, S.start name reason first last w →
      ∃ now, Evaluated fuel S.fromLogs retries (.anchored p) name first last w now) :
    h.all.Pairwise (fun r s => OfAction name .success r → OfAction name .success s →
      occurrence L p.start r.noted < occurrence L p.start s.noted) :=
  C27_successes_partial S name hproc fuel retries p L hL hb hS (C69_history_partial S K R s hs env he ks hp hc)

/-! ## A case -/

/-- Observations that have nothing to do with runs and checks. -/
def Bystander : Obs → Bool
  | .env (.ends ..) => false
  | .started .. => false
  | .terminated .. => false
  | .mainEnded .. => false
  | .checked .. => false
  | .failedSetup _ => false
  | .cached _ => false
  | _ => true

theorem coupled_aside {S : Setup} {K : String → Exec} {R : Nat} {tr : List Obs} {es : List Ev} {h : HState} (hc : Coupled S K R tr es h)
    (o : Obs) (ho : Bystander o = true) : Coupled S K R (tr ++ [o]) es h := by
  have := hc.obs (.nothing h o (fun n => ?_))
  · rwa [List.append_nil] at this
  · rw [going_append, armed_append]
    cases o with
    | env e => cases e <;> first | exact ⟨rfl, rfl, by simp⟩ | simp [Bystander] at ho
    | cached m => simp [Bystander] at ho
    | _ => first | exact ⟨rfl, rfl, by simp⟩ | simp [Bystander] at ho

/-- Every task has the start condition `every("1 day")`. -/
def everyDay : Setup where
  fromLogs := false
  start := fun name reason first last w => reason = 0 ∧ EveryHeld 1 false DAY name first last w
  isProc := fun _ => false
  drained := true

/-- One asynchronous task; the scheduler is started, shut down at once and started again, and then the condition of the
task is found true in the first cycle. -/
def oneTask : Sys := sessionOf 1 false [idleTask "t" .async]

def oneTaskEnv (i : Nat) : Choice := quiet (decide (i = 1 ∨ i = 7))

theorem oneTask_trace : (sessions [3, 3] (World.init oneTask oneTaskEnv)).2.trace =
    [.serve, .cached "t", .shutdown, .serve, .cached "t", .cycle, .inspected "t", .checked "t" false (some true), .started "t" 0 .cycle, .cycleDone,
      .cycle, .inspected "t", .cycleDone] := by decide +kernel

/-- The log of an earlier program: a run of the task. -/
theorem earlier_run : ∃ es h, Hist everyDay es h ∧ h.clock = 4 ∧
    h.log.repo = [⟨"t", .run, 2, 2, none⟩, ⟨"t", .success, 4, 3, none⟩] := by
  have h0 := Hist.init (S := everyDay) 1
  have h1 := h0.step (.check _ "t" 0 1 1 (by decide) (by decide) (by decide) (by decide)
    (by simp [HState.NoneWaiting, HState.init]) ⟨rfl, 1, by decide, by decide, by decide +kernel⟩)
  have h2 := h1.step (.begin _ "t" 0 none 2 2 (by decide) (by decide) (by decide))
  have h3 := h2.step (.outcome _ "t" .success none 3 4 (by decide) (by decide) (by decide) (by decide))
  exact ⟨_, _, h3, rfl, rfl⟩

/-- The execution goes with a log in which the task is started again a day later. -/
theorem oneTask_coupled : ∃ es h, Coupled everyDay (fun _ => .async) 1 (sessions [3, 3] (World.init oneTask oneTaskEnv)).2.trace es h ∧
    h.log.repo = [⟨"t", .run, 2, 2, none⟩, ⟨"t", .success, 4, 3, none⟩, ⟨"t", .run, DAY + 6, DAY + 5, none⟩] := by
  rw [oneTask_trace]
  obtain ⟨es0, h0, hh, hclock, hrepo⟩ := earlier_run
  have c0 := Coupled.init (S := everyDay) (K := fun _ => .async) (R := 1) (DAY + 1) hh (by rw [hclock]; decide)
  rw [hrepo] at c0
  have c1 := coupled_aside c0 .serve rfl
  have c2 := c1.obs (.cached _ "t" (DAY + 2) (DAY + 2) (by simp [HState.NoneWaiting]) (by decide) (by decide))
  have c2 := coupled_aside (coupled_aside c2 .shutdown rfl) .serve rfl
  have c2 := c2.obs (.cached _ "t" (DAY + 3) (DAY + 3) (by simp [HState.NoneWaiting]) (by decide) (by decide))
  have c3 := coupled_aside (coupled_aside c2 .cycle rfl) (.inspected "t") rfl
  have c4 := c3.obs (.found _ "t" false 0 (DAY + 4) (DAY + 4) (by decide) (by decide)
    (by simp [HState.NoneWaiting]) (by decide) ⟨rfl, DAY + 4, by decide, by decide, by decide +kernel⟩)
  have c5 := c4.obs (.started _ "t" 0 .cycle 0 none (DAY + 5) (DAY + 6) (by simp [upd]) (by decide) (by decide))
  have c6 := coupled_aside (coupled_aside (coupled_aside (coupled_aside c5 .cycleDone rfl) .cycle rfl) (.inspected "t") rfl)
    .cycleDone rfl
  refine ⟨_, _, c6, ?_⟩
  decide +kernel

theorem oneTask_managed : Managed (fun _ => .async) oneTask := by constructor <;> decide

theorem oneTask_reliable (i : Nat) : Reliable (oneTaskEnv i) := ⟨by simp [oneTaskEnv, quiet], by simp [oneTaskEnv, quiet],
  by simp [oneTaskEnv, quiet]⟩

example : ∃ es h, Hist everyDay es h ∧
    h.log.repo = [⟨"t", .run, 2, 2, none⟩, ⟨"t", .success, 4, 3, none⟩, ⟨"t", .run, DAY + 6, DAY + 5, none⟩] := by
  obtain ⟨es, h, hc, hr⟩ := oneTask_coupled
  exact ⟨es, h, C69_history_partial everyDay _ 1 oneTask oneTask_managed oneTaskEnv oneTask_reliable [3, 3]
    (List.prefix_refl _) hc, hr⟩

example : Orderly (fun _ => .async) (sessions [3, 3] (World.init oneTask oneTaskEnv)).2.trace :=
  C69_orderly _ oneTask oneTask_managed.names oneTask_managed.execution oneTask_managed.single oneTask_managed.stack
    oneTaskEnv oneTask_reliable [3, 3]

/-! ## Tasks added while the scheduler runs -/

/-- A task is added while the scheduler runs. -/
def laterEnv (i : Nat) : Choice :=
  { quiet (decide (i = 3)) with events := if i = 1 then [.add (idleTask "t" .async)] else [] }

theorem later_trace : (serve 3 (World.init (sessionOf 1 false []) laterEnv)).2.trace =
    [.serve, .env (.add (idleTask "t" .async)), .cycle, .inspected "t", .checked "t" false (some true),
      .started "t" 0 .cycle, .cycleDone, .cycle, .inspected "t", .cycleDone] := by decide +kernel

/-- C69 fails for tasks added while the scheduler runs: `set_cached` is only called in `startup`, so after a restart of
the program such a task does not know its earlier runs, and `every("1 day")` starts it at once. -/
theorem C69_added_violated : ∃ es h,
    Coupled everyDay (fun _ => .async) 1 (serve 3 (World.init (sessionOf 1 false []) laterEnv)).2.trace es h ∧
    ¬ h.log.repo.Pairwise (fun r s => OfAction "t" .run r → OfAction "t" .run s → r.noted + ((DAY : Int).natAbs : Int) < s.noted) := by
  rw [later_trace]
  obtain ⟨es0, h0, hh, hclock, hrepo⟩ := earlier_run
  have c0 := Coupled.init (S := everyDay) (K := fun _ => .async) (R := 1) 10 hh (by rw [hclock]; decide)
  rw [hrepo] at c0
  have c3 := coupled_aside (coupled_aside (coupled_aside (coupled_aside c0 .serve rfl) (.env (.add (idleTask "t" .async))) rfl)
    .cycle rfl) (.inspected "t") rfl
  have c4 := c3.obs (.found _ "t" false 0 11 11 (by decide) (by decide)
    (by simp [HState.NoneWaiting]) (by decide) ⟨rfl, 11, by decide, by decide, by decide +kernel⟩)
  have c5 := c4.obs (.started _ "t" 0 .cycle 0 none 12 12 (by simp [upd]) (by decide) (by decide))
  have c6 := coupled_aside (coupled_aside (coupled_aside (coupled_aside c5 .cycleDone rfl) .cycle rfl) (.inspected "t") rfl)
    .cycleDone rfl
  refine ⟨_, _, c6, ?_⟩
  decide +kernel

/-- A task at startup that ends the scheduler, and a task at shutdown. -/
def hasty : Sys := sessionOf 1 false [{ idleTask "a" .main with onStartup := true, noCond := true },
  { idleTask "z" .async with onShutdown := true, noCond := true }]

def hastyEnv (i : Nat) : Choice := { quiet false with fault := if i = 2 then some (.exc .exit) else none }

/-- C69 fails for tasks at shutdown: when the startup is cut short they are started without `set_cached`. -/
theorem C69_shutdown_violated : (∀ i, Reliable (hastyEnv i)) ∧
    ¬ Prepared (serve 2 (World.init hasty hastyEnv)).2.trace := by
  refine ⟨fun i => ⟨by simp [hastyEnv, quiet], ?_, ?_⟩, fun h => ?_⟩
  · by_cases hi : i = 2 <;> simp [hastyEnv, hi]
  · by_cases hi : i = 2 <;> simp [hastyEnv, hi]
  · have e : (serve 2 (World.init hasty hastyEnv)).2.trace.take 9 =
        [.serve, .cached "a", .env (.request "a" []), .checked "a" true (some true), .popped "a" [], .started "a" 0 .startup,
          .mainEnded "a" 0, .shutdown, .env (.request "z" [])] := by decide +kernel
    have e9 : (serve 2 (World.init hasty hastyEnv)).2.trace[9]? = some (.checked "z" true (some true)) := by decide +kernel
    generalize (serve 2 (World.init hasty hastyEnv)).2.trace = tr at h e e9
    obtain ⟨hlt, hget⟩ := List.getElem?_eq_some_iff.1 e9
    have := h (tr.take 9) tr[9] (tr.drop 10) (by rw [List.getElem_cons_drop, List.take_append_drop]) "z" true hget
    rw [e] at this
    simp at this

end Rocketry.Props
