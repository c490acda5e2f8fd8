import Verif.Sched.Trace

/-!
# Model of `Session.run` (`rocketry/session.py`)

The scheduler is the one of `Verif/Sched/Scheduler.lean`; here its shut condition is `SchedulerCycles() >= 1`.
-/

namespace Rocketry.Sched

/-- `SchedulerCycles() >= 1`, rocketry/conditions/scheduler.py:12-14 with `check_shut_cond`, core/schedule.py:193-197. -/
def cyclesDone : M Bool := do
  let s ← get
  pure (decide (1 ≤ s.nCycles))

/-- The loop of `serve` with a given shut condition, core/schedule.py:122-130. -/
def serveLoopWith (stop : M Bool) : Nat → M Unit
  | 0 => cut
  | n + 1 => do
    let b ← stop
    if b then pure ()
    else do
      hibernate
      let s ← get
      if s.shutdown then pure ()
      else if s.restart then raise .restart
      else do
        runCycle
        serveLoopWith stop n

/-- `Scheduler.serve` with a given shut condition, core/schedule.py:108-154. -/
def serveWith (stop : M Bool) : Nat → M Unit
  | 0 => cut
  | n + 1 => do
    emit .serve
    clearFlags
    let e ← attempt (do startup; serveLoopWith stop n)
    match e with
    | none => shutDown (serveWith stop n) n none
    | some .systemExit => shutDown (serveWith stop n) n (some .systemExit)
    | some .exit => shutDown (serveWith stop n) n (some .exit)
    | some .restart => shutDown (serveWith stop n) n (some .restart)
    | some .interrupt => shutDown (serveWith stop n) n (some .interrupt)
    | some e => do
      shutDown (serveWith stop n) n (some e)
      raise e

/-- The body of the first loop, session.py:292-303: a named task gets a request and maybe another way of execution,
the others are disabled. -/
def TaskSt.only (names : List String) (execution : Option Exec) (obey : Bool) (t : TaskSt) : TaskSt :=
  if t.name ∈ names then
    { t with
      batches := if obey then t.batches else t.batches ++ [[]],
      execution := match execution with | none => t.execution | some e => e }
  else { t with disabled := true }

/-- The first loop, session.py:290-303. -/
def Sys.only (names : List String) (execution : Option Exec) (obey : Bool) (s : Sys) : Sys :=
  { s with tasks := s.tasks.map (fun t => if t.member then t.only names execution obey else t) }

/-- `task.__dict__.update(orig_vals[task.name])`, session.py:312-313.  The saved value of `batches` is the list object
itself, so its present content stays; the run stack is a private attribute and not in `__dict__`. -/
def restoreTask (orig : List TaskSt) (name : String) : M Unit :=
  match orig.find? (fun t => decide (t.name = name)) with
  | none => raise .other
  | some o => change name (fun t => { o with
      batches := t.batches, stack := t.stack, strays := t.strays, member := t.member })

/-- The loop in the `finally`, session.py:312-313. -/
def restoreTasks (orig : List TaskSt) : M Unit := do
  let s ← get
  forEach (s.members.map TaskSt.name) (restoreTask orig)

/-- `Session.run`, session.py:261-313.  Not modelled: `_set_configs`, and that the shut condition is put back. -/
def sessionRun (names : List String) (execution : Option Exec) (obey : Bool) (n : Nat) : M Unit := do
  let s ← get
  put (s.only names execution obey)
  tryFinally (serveWith cyclesDone n) (restoreTasks s.members)

/-! ## Lemmas -/

/-- With the arbitrary shut condition it is the scheduler of the other properties. -/
theorem serveLoopWith_any : ∀ n, serveLoopWith checkShutCond n = serveLoop n
  | 0 => rfl
  | n + 1 => by unfold serveLoopWith serveLoop; rw [serveLoopWith_any n]

theorem serveWith_any : ∀ n, serveWith checkShutCond n = serve n
  | 0 => rfl
  | n + 1 => by unfold serveWith serve; rw [serveWith_any n, serveLoopWith_any n]; rfl

variable {I : World → Prop}

theorem keeps_cyclesDone : Keeps I cyclesDone := keeps_bind keeps_get (fun _ => keeps_pure _)

section
variable (hs : Steady I) (hl : ∀ name part, Keeps I (launch name part)) {stop : M Bool} (hb : Keeps I stop)
include hs hl hb

theorem keeps_serveLoopWith : ∀ n, Keeps I (serveLoopWith stop n)
  | 0 => keeps_cut
  | n + 1 => by
    unfold serveLoopWith
    refine keeps_bind hb (fun b => keeps_ite (fun _ => keeps_pure _) (fun _ => ?_))
    refine keeps_bind (keeps_hibernate hs.toStill) (fun _ => keeps_bind keeps_get (fun s => ?_))
    refine keeps_ite (fun _ => keeps_pure _) (fun _ => keeps_ite (fun _ => keeps_raise _) (fun _ => ?_))
    exact keeps_bind (keeps_runCycle hs hl) (fun _ => keeps_serveLoopWith n)

theorem keeps_serveWith : ∀ n, Keeps I (serveWith stop n)
  | 0 => keeps_cut
  | n + 1 => by
    have hd := fun e => keeps_shutDown hs hl (keeps_serveWith n) n e
    unfold serveWith
    refine keeps_bind (keeps_mark hs rfl) (fun _ => keeps_bind (keeps_clearFlags hs) (fun _ => ?_))
    refine keeps_bind (keeps_attempt (keeps_bind (keeps_startup hs.toCalm (fun n => hl n _))
      (fun _ => keeps_serveLoopWith hs hl hb n))) (fun e => ?_)
    split <;> first
      | exact hd _
      | exact keeps_bind (hd _) (fun _ => keeps_raise _)

end

end Rocketry.Sched
