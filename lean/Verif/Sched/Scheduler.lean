import Verif.Sched.State

/-!
# Model of the scheduler (`rocketry/core/schedule.py`) and of the parts of `rocketry/core/task.py` it drives

Log records and caches are the subject of `Verif/Task`; here a log write may only fail.  Hooks are not modelled.
-/

namespace Rocketry.Sched

/-! ## Tasks -/

/-- `Task.is_alive`, core/task.py:429-435. -/
def TaskSt.isAlive (t : TaskSt) : Bool := t.stack.any Run.alive

/-- `Task.n_alive`, core/task.py:437-443. -/
def TaskSt.nAlive (t : TaskSt) : Nat := t.stack.countP Run.alive

/-- `Task.count_processes_taken`, core/task.py:968-970. -/
def TaskSt.countProcesses (t : TaskSt) : Nat := t.stack.countP (fun r => decide (r.kind = .process) && r.alive)

/-- `Task._clean_run_stack`, core/task.py:997-1010. -/
def TaskSt.clean (cfg : Config) (t : TaskSt) : TaskSt :=
  if cfg.silenceLogging then { t with stack := t.stack.filter Run.alive }
  else { t with stack := t.stack.filter (fun r => r.alive || r.exc) }

/-- The tasks in the session. -/
def Sys.members (s : Sys) : List TaskSt := s.tasks.filter TaskSt.member

/-- `Scheduler.tasks`, schedule.py:93-100: `sorted(tasks, key=priority, reverse=True)`; reverse sorting is stable as
well. -/
def Sys.sorted (s : Sys) : List TaskSt := pySorted (fun a b => decide (a.priority ≥ b.priority)) s.members

/-- `Scheduler.count_process_tasks_alive`, schedule.py:336-337. -/
def Sys.processesAlive (s : Sys) : Nat := (s.members.map TaskSt.countProcesses).sum

/-- `Scheduler.has_free_processors`, schedule.py:331-334. -/
def Sys.hasFree (s : Sys) : Bool := decide ((s.processesAlive : Int) < s.cfg.maxProcess)

/-- `Scheduler.n_alive`, schedule.py:339-342. -/
def Sys.nAlive (s : Sys) : Nat := (s.members.map TaskSt.nAlive).sum

/-- `allow_multilaunch`, schedule.py:246-249. -/
def TaskSt.allowMulti (cfg : Config) (t : TaskSt) : Bool := t.multilaunch.getD cfg.multilaunch

/-- `Task.is_runnable`, core/task.py:547-568; the start condition is arbitrary. -/
def isRunnable (t : TaskSt) : M Bool :=
  if t.batches ≠ [] then do emit (.checked t.name true (some true)); pure true
  else if t.disabled then pure false
  else do
    let c ← choose
    emit (.checked t.name false c.cond)
    match c.cond with
    | some b => pure b
    | none => raise .other

/-- `Scheduler.check_task_cond`, schedule.py:199-206. -/
def checkTaskCond (t : TaskSt) : M Bool :=
  tryCatch (isRunnable t) (fun e => do
    let s ← get
    if s.cfg.silenceCond then pure false else raise e)

/-- `Scheduler.is_task_runnable`, schedule.py:237-253. -/
def isTaskRunnable (name : String) : M Bool := do
  let s ← get
  match s.find name with
  | none => raise .other
  | some t =>
    if t.execution = .process ∧ s.hasFree = false then pure false
    else if t.execution ≠ .main ∧ t.allowMulti s.cfg = false ∧ t.isAlive = true then pure false
    else checkTaskCond t

/-- Change the task called `name`. -/
def change (name : String) (f : TaskSt → TaskSt) : M Unit := do
  let s ← get
  put (s.upd name f)

/-- `_get_direct_params` takes the first batch, core/task.py:803-807. -/
def popBatch (t : TaskSt) : M Unit :=
  match t.batches with
  | [] => pure ()
  | b :: _ => do
    change t.name (fun t => { t with batches := t.batches.tail })
    emit (.popped t.name b)

/-- The new run is put into the run stack (core/task.py:499, 671, 732). -/
def pushRun (name : String) (kind : Exec) (time : Int) (part : Part) : M Nat := do
  let s ← get
  put { s.upd name (fun t => { t with stack := t.stack ++ [⟨s.nextId, kind, time, true, false⟩] }) with nextId := s.nextId + 1 }
  emit (.started name s.nextId part)
  pure s.nextId

/-- The end of `start_async`: `main` runs are dropped from the stack (core/task.py:538-542); with `stray` they still go
on. -/
def dropMain (name : String) (stray : Bool) : M Unit :=
  change name (fun t => { t with
    stack := t.stack.filter (fun r => decide (r.kind ≠ .main)),
    strays := t.strays ++ (if stray then t.stack.filter (fun r => decide (r.kind = .main)) else []) })

/-- What a `main` run raises in `start_async` (core/task.py:502, 517-537): SchedulerRestart and SchedulerExit, an error
in logging, SystemExit and KeyboardInterrupt as they are; another exception (of the setup) becomes TaskSetupError. -/
def mainEnd : Option Fault → M Unit
  | none => pure ()
  | some .logging => raise .logging
  | some (.exc .restart) => raise .restart
  | some (.exc .exit) => raise .exit
  | some (.exc .systemExit) => raise .systemExit
  | some (.exc .interrupt) => raise .interrupt
  | some _ => raise .setup

/-- `start_async` after the run was put into the run stack, core/task.py:499-512, 517-542, with `run_as_thread`
673-675, `_run_as_thread` 680-693 and `run_as_process` 733-738: a `main` run goes on until its end; the log record of
the start or the creation of the process may fail. -/
def runOn (name : String) (id : Nat) (kind : Exec) (fault : Option Fault) : M Unit :=
  match kind with
  | .main =>
    if fault = some .logging then do dropMain name true; raise .logging
    else do
      let d ← choose
      emit (.mainEnded name id)
      dropMain name false
      mainEnd d.fault
  | .async => if fault = some .logging then raise .logging else pure ()
  | .thread =>
    if fault = some .logging then change name (fun t => { t with stack := endRun id true t.stack })
    else pure ()
  | .process =>
    if fault = some .spawn then do
      change name (fun t => { t with stack := endRun id false t.stack })
      raise .setup
    else if fault = some .logging then raise .logging
    else pure ()

/-- `Task.start_async`, core/task.py:454-542: the run gets started, unless the setup fails. -/
def startAsync (name : String) (part : Part) : M Unit := do
  let c ← choose
  let s ← get
  match s.find name with
  | none => raise .other
  | some t =>
    if c.fault = some .params then do emit (.failedSetup name); raise .setup
    else do
      popBatch t
      if c.fault = some .setup then do emit (.failedSetup name); raise .setup
      else do
        let id ← pushRun name t.execution c.time part
        runOn name id t.execution c.fault

/-- `Scheduler.run_task`, schedule.py:208-224. -/
def runTask (name : String) (part : Part) : M Unit :=
  tryCatch (startAsync name part) (fun e => do
    let s ← get
    match e with
    | .logging => if s.cfg.silenceLogging then pure () else raise e
    | .setup => if s.cfg.silencePrerun then pure () else raise e
    | _ => raise e)

/-- `Task._terminate_run` and `TaskRun.terminate`, core/task.py:66-80, 1026-1036.  A thread is only asked to end.
Awaiting a cancelled asyncio task may raise what that task raised; the log record may fail. -/
def terminateRun (name : String) (id : Nat) : M Unit := do
  let s ← get
  match s.find name with
  | none => pure ()
  | some t =>
    match t.stack.find? (fun r => decide (r.id = id)) with
    | none => pure ()
    | some r =>
      match r.kind with
      | .main => raise .other
      | .thread => emit (.terminated name id)
      | _ => do
        emit (.terminated name id)
        let c ← choose
        change name (fun t => { t with stack := endRun id false t.stack })
        match c.fault with
        | some .logging => raise .logging
        | some (.exc e) => if r.kind = .async then raise e else pure ()
        | _ => pure ()

/-- `Task._terminate_all`, core/task.py:1018-1024. -/
def terminateAll (name : String) : M Unit := do
  let s ← get
  match s.find name with
  | none => pure ()
  | some t => do
    forEach (t.stack.map Run.id) (terminateRun name)
    change name (fun t => { t.clean s.cfg with forceTerm := false })

/-- The timeout of a task, core/task.py:989: an unset or zero one is replaced by the session's. -/
def TaskSt.timeoutOf (cfg : Config) (t : TaskSt) : Int :=
  match t.timeout with
  | none => cfg.timeout
  | some x => if x = 0 then cfg.timeout else x

/-- The loop over the runs, core/task.py:991-995. -/
def terminateOld (name : String) (now limit : Int) (id : Nat) : M Unit := do
  let s ← get
  match s.find name with
  | none => pure ()
  | some t =>
    match t.stack.find? (fun r => decide (r.id = id)) with
    | none => pure ()
    | some r => if r.alive = true ∧ now - r.start > limit then terminateRun name id else pure ()

/-- `Task._check_termination`, core/task.py:972-995. -/
def checkTermination (name : String) : M Unit := do
  let c ← choose
  let s ← get
  match s.find name with
  | none => pure ()
  | some t =>
    match c.cond with
    | none =>
      if s.cfg.silenceCond then terminateAll name else raise .other
    | some b =>
      if t.forceTerm then terminateAll name
      else if b then terminateAll name
      else if t.permanent then pure ()
      else forEach (t.stack.map Run.id) (terminateOld name c.time (t.timeoutOf s.cfg))

/-! ## The cycle -/

/-- `Scheduler.handle_logs`, schedule.py:255-287: a log write may fail, a task may be unknown. -/
def handleLogs : M Unit := do
  let c ← choose
  let s ← get
  match c.fault with
  | some .logging => if s.cfg.silenceLogging then pure () else raise .logging
  | some (.exc e) => raise e
  | _ => pure ()

/-- `Task._check_exceptions`, core/task.py:1012-1016. -/
def checkExceptions (name : String) : M Unit := do
  let s ← get
  match s.find name with
  | none => pure ()
  | some t =>
    match t.stack.find? Run.exc with
    | none => pure ()
    | some r => do
      change name (fun t => { t with stack := t.stack.eraseP (fun x => decide (x = r)) })
      raise .logging

/-- `Scheduler.check_thread_errors`, schedule.py:519-523. -/
def checkThreadErrors : M Unit := do
  let s ← get
  if s.cfg.silenceLogging then pure ()
  else forEach (s.sorted.map TaskSt.name) checkExceptions

/-- The inspection of a task and its start, schedule.py:180-182, 325-326, 353-354. -/
def launch (name : String) (part : Part) : M Unit := do
  let b ← isTaskRunnable name
  if b then runTask name part else pure ()

/-- `task._clean_run_stack()`, schedule.py:176. -/
def cleanRunStack (name : String) : M Unit := do
  let s ← get
  put (s.upd name (TaskSt.clean s.cfg))

/-- The branches of the loop of `run_cycle`, schedule.py:177-184. -/
def consider (name : String) : M Unit := do
  let s ← get
  match s.find name with
  | none => pure ()
  | some t =>
    if t.onStartup || t.onShutdown then pure ()
    else if s.enabled then launch name .cycle
    else pure ()

/-- The body of the loop of `run_cycle`, schedule.py:173-185. -/
def inspectTask (name : String) : M Unit := do
  emit (.inspected name)
  handleLogs
  cleanRunStack name
  consider name
  checkTermination name

/-- Assignment to `n_cycles`, schedule.py:191, 308. -/
def setCycles (f : Nat → Nat) : M Unit := do
  let s ← get
  put { s with nCycles := f s.nCycles }

/-- `Scheduler.run_cycle`, schedule.py:156-191. -/
def runCycle : M Unit := do
  let s ← get
  emit .cycle
  forEach (s.sorted.map TaskSt.name) inspectTask
  handleLogs
  checkThreadErrors
  setCycles (fun k => k + 1)
  emit .cycleDone

/-! ## Startup, shutdown and the main loop -/

/-- `if isinstance(task.start_cond, AlwaysFalse) and not task.disabled: task.run()`, schedule.py:321-323, 349-351. -/
def requestFirst (t : TaskSt) : M Unit :=
  if t.noCond then do
    let s ← get
    match s.find t.name with
    | none => pure ()
    | some t => if t.disabled then pure () else cause (.request t.name [])
  else pure ()

/-- The start of an `on_startup` or `on_shutdown` task, schedule.py:320-326, 346-354. -/
def startSpecial (part : Part) (t : TaskSt) : M Unit := do
  requestFirst t
  launch t.name part

/-- The body of the loop of `startup`, schedule.py:312-326; `set_cached` may fail to write its record. -/
def startupTask (t : TaskSt) : M Unit := do
  let c ← choose
  let s ← get
  emit (.cached t.name)
  if c.fault = some .logging ∧ s.cfg.silenceLogging = false then raise .logging
  else if t.onStartup then startSpecial .startup t else pure ()

/-- `Scheduler.startup`, schedule.py:298-329. -/
def startup : M Unit := do
  setCycles (fun _ => 0)
  let s ← get
  forEach s.sorted startupTask

/-- `Scheduler.run_shutdown_tasks`, schedule.py:344-354. -/
def runShutdownTasks : M Unit := do
  let s ← get
  forEach s.sorted (fun t => if t.onShutdown then startSpecial .shutdown t else pure ())

/-- `Scheduler._hibernate`, schedule.py:289-296. -/
def hibernate : M Unit := do let _ ← choose; pure ()

/-- The body of the loop of `terminate_all`, schedule.py:229-235. -/
def terminateIfAlive (name : String) : M Unit := do
  let s ← get
  match s.find name with
  | none => pure ()
  | some t => if t.isAlive then terminateAll name else pure ()

/-- `Scheduler.terminate_all`, schedule.py:226-235. -/
def schedTerminateAll : M Unit := do
  let s ← get
  forEach (s.sorted.map TaskSt.name) terminateIfAlive

/-- The loop of `_shut_down_tasks`, schedule.py:364-376. -/
def waitFinish : Nat → M Unit
  | 0 => cut
  | n + 1 => do
    let s ← get
    if s.nAlive = 0 then pure ()
    else do
      hibernate
      handleLogs
      let s ← get
      forEach s.sorted (fun t => if t.permanent then terminateAll t.name else checkTermination t.name)
      waitFinish n

/-- `wait_for_finish`, schedule.py:358-361. -/
def waitForFinish (s : Sys) (e : Option Exc) : Bool :=
  !s.cfg.instantShutdown && (decide (e = none) || decide (e = some .restart)) && !s.forceExit

/-- `Scheduler._shut_down_tasks`, schedule.py:356-382. -/
def shutDownTasks : Nat → Option Exc → M Unit
  | 0, _ => cut
  | n + 1, e => do
    let s ← get
    if waitForFinish s e then
      tryCatch (waitFinish n) (fun e' => match e' with
        | .systemExit => raise e'
        | .interrupt => raise e'
        | _ => do
          shutDownTasks n (some e')
          raise e')
    else schedTerminateAll

/-- `Scheduler.wait_task_alive`, schedule.py:384-387. -/
def waitAlive : Nat → M Unit
  | 0 => cut
  | n + 1 => do
    let s ← get
    if s.nAlive > 0 then do hibernate; waitAlive n else pure ()

/-- `Scheduler.shut_down`, schedule.py:389-439, with `_restart` 441-469: `again` is the call of `serve` made with
`restarting='recall'`; otherwise a new interpreter is started. -/
def shutDown (again : M Unit) (n : Nat) (e : Option Exc) : M Unit := do
  emit .shutdown
  tryFinally (tryFinally runShutdownTasks (shutDownTasks n e)) (do
    waitAlive n
    handleLogs
    checkThreadErrors)
  if e = some .restart then do
    let s ← get
    if s.cfg.recall then again else emit .restarted
  else pure ()

/-- `Scheduler.check_shut_cond`, schedule.py:193-197: no condition is a condition that is false. -/
def checkShutCond : M Bool := do
  let c ← choose
  match c.cond with
  | some b => pure b
  | none => raise .other

/-- The loop of `serve`, schedule.py:122-130. -/
def serveLoop : Nat → M Unit
  | 0 => cut
  | n + 1 => do
    let stop ← checkShutCond
    if stop then pure ()
    else do
      hibernate
      let s ← get
      if s.shutdown then pure ()
      else if s.restart then raise .restart
      else do
        runCycle
        serveLoop n

/-- The flags at the beginning of `serve`, schedule.py:112-114. -/
def clearFlags : M Unit := do
  let s ← get
  put { s with shutdown := false, restart := false, enabled := true }

/-- `Scheduler.serve`, schedule.py:108-154; `n` bounds the number of rounds of each loop. -/
def serve : Nat → M Unit
  | 0 => cut
  | n + 1 => do
    emit .serve
    clearFlags
    let e ← attempt (do startup; serveLoop n)
    match e with
    | none => shutDown (serve n) n none
    | some .systemExit => shutDown (serve n) n (some .systemExit)
    | some .exit => shutDown (serve n) n (some .exit)
    | some .restart => shutDown (serve n) n (some .restart)
    | some .interrupt => shutDown (serve n) n (some .interrupt)
    | some e => do
      shutDown (serve n) n (some e)
      raise e

/-- A program that runs the scheduler several times (whatever `serve` raises). -/
def sessions (ks : List Nat) : M Unit := forEach ks (fun k => do let _ ← attempt (serve k); pure ())

/-- A world in which nothing has happened yet. -/
def World.init (s : Sys) (env : Nat → Choice) : World := ⟨s, env, 0, [], []⟩

end Rocketry.Sched
