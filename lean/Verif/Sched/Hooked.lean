import Verif.Sched.Scheduler

/-!
# Model of the scheduler with its hooks

The functions of `Verif/Sched/Scheduler.lean` have no hooks; here `startup`, `run_cycle` and `shut_down`
(rocketry/core/schedule.py) are given with the calls of `_Hooker` (rocketry/core/hook.py) in their places, and with the
attribute `is_alive`.  What the hooks themselves do comes from the environment: a call of a hook is one choice, whose events
happen during the call.  The lists of hooks do not change meanwhile (a simplification: a hook may register others).
-/

namespace Rocketry.Sched

/-- The three lists of `session.hooks` that the scheduler uses (schedule.py:170, 304, 406). -/
inductive HookPoint where | startup | cycle | shutdown
  deriving DecidableEq, Repr

/-- A hook.  `gen`: it is a generator function that gets to a `yield`; one that ends before has no second part, as
`StopIteration` is caught (hook.py:19-20, 24-28), like a function. -/
structure HookFn where
  id : Nat
  gen : Bool
  deriving DecidableEq, Repr

/-- `session.hooks`, rocketry/session.py:570-586. -/
structure HookSet where
  startup : List HookFn
  cycle : List HookFn
  shutdown : List HookFn
  deriving DecidableEq, Repr

def HookSet.at (hk : HookSet) : HookPoint → List HookFn
  | .startup => hk.startup
  | .cycle => hk.cycle
  | .shutdown => hk.shutdown

/-- What is seen of an execution with hooks: the first or second part of a hook (`ok`: it raised nothing), and the rest. -/
inductive Seen where
  | first (p : HookPoint) (h : HookFn) (ok : Bool)
  | second (p : HookPoint) (h : HookFn) (ok : Bool)
  | obs (o : Obs)
  deriving DecidableEq, Repr

/-- `alive` is `scheduler.is_alive`. -/
structure HWorld where
  w : World
  alive : Bool
  seen : List Seen

/-- Computations of the scheduler with hooks. -/
def HM (α : Type) : Type := HWorld → Res α × HWorld

instance : Monad HM where
  pure a := fun h => (.ok a, h)
  bind m k := fun h => match m h with
    | (.ok a, h') => k a h'
    | (.raise e, h') => (.raise e, h')
    | (.cut, h') => (.cut, h')

namespace HM

/-- A part without hooks. -/
def lift {α : Type} (m : M α) : HM α := fun h =>
  ((m h.w).1, { h with w := (m h.w).2, seen := h.seen ++ ((m h.w).2.trace.drop h.w.trace.length).map .obs })

def see (x : Seen) : HM Unit := fun h => (.ok (), { h with seen := h.seen ++ [x] })

def setAlive (b : Bool) : HM Unit := fun h => (.ok (), { h with alive := b })

def raise {α : Type} (e : Exc) : HM α := fun h => (.raise e, h)

def cut {α : Type} : HM α := fun h => (.cut, h)

/-- `try: m  finally: q`. -/
def tryFinally (m q : HM Unit) : HM Unit := fun h => match m h with
  | (.cut, h') => (.cut, h')
  | (r, h') => match q h' with
    | (.ok _, h'') => (r, h'')
    | r' => r'

/-- The exception raised by `m`, if any. -/
def attempt (m : HM Unit) : HM (Option Exc) := fun h => match m h with
  | (.ok _, h') => (.ok none, h')
  | (.raise e, h') => (.ok (some e), h')
  | (.cut, h') => (.cut, h')

/-- `for x in l: f(x)`. -/
def forEach {α : Type} : List α → (α → HM Unit) → HM Unit
  | [], _ => pure ()
  | a :: l, f => do f a; forEach l f

end HM

open HM

/-- A part of a hook: what happens is up to the environment, also an exception. -/
def callHook (part : Bool → Seen) : HM Unit := do
  let c ← lift choose
  match c.fault with
  | some (.exc e) => do see (part false); HM.raise e
  | _ => see (part true)

/-- `_Hooker.prerun`, hook.py:12-21. -/
def prerunHooks (p : HookPoint) (l : List HookFn) : HM Unit := HM.forEach l (fun f => callHook (.first p f))

/-- `_Hooker.postrun`, hook.py:23-28: the generators in their order; an exception of one keeps the later ones from being
resumed. -/
def postrunHooks (p : HookPoint) (l : List HookFn) : HM Unit := HM.forEach (l.filter HookFn.gen) (fun f => callHook (.second p f))

/-- `Scheduler.startup`, schedule.py:298-329. -/
def startupH (hk : HookSet) : HM Unit := do
  prerunHooks .startup hk.startup
  lift startup
  postrunHooks .startup hk.startup

/-- The tasks of a cycle, schedule.py:173-187. -/
def cycleBody (names : List String) : M Unit := do
  forEach names inspectTask
  handleLogs
  checkThreadErrors

/-- `n_cycles += 1`, schedule.py:191. -/
def cycleEnd : M Unit := do
  setCycles (fun k => k + 1)
  emit .cycleDone

/-- `Scheduler.run_cycle`, schedule.py:156-191: the tasks are listed before the hooks are called. -/
def runCycleH (hk : HookSet) : HM Unit := do
  let s ← lift get
  lift (emit .cycle)
  prerunHooks .cycle hk.cycle
  lift (cycleBody (s.sorted.map TaskSt.name))
  postrunHooks .cycle hk.cycle
  lift cycleEnd

/-- The shutdown without its hooks, schedule.py:412-429. -/
def shutDownBody (n : Nat) (e : Option Exc) : M Unit :=
  tryFinally (tryFinally runShutdownTasks (shutDownTasks n e)) (do
    waitAlive n
    handleLogs
    checkThreadErrors)

/-- `Scheduler.shut_down`, schedule.py:389-439, with `_restart` 441-469. -/
def shutDownH (hk : HookSet) (again : HM Unit) (n : Nat) (e : Option Exc) : HM Unit := do
  lift (emit .shutdown)
  prerunHooks .shutdown hk.shutdown
  HM.tryFinally (lift (shutDownBody n e)) (do
    postrunHooks .shutdown hk.shutdown
    setAlive false)
  if e = some .restart then do
    let s ← lift get
    if s.cfg.recall then again else lift (emit .restarted)
  else pure ()

/-- The loop of `serve`, schedule.py:122-130. -/
def serveLoopH (hk : HookSet) : Nat → HM Unit
  | 0 => HM.cut
  | n + 1 => do
    let stop ← lift checkShutCond
    if stop then pure ()
    else do
      lift hibernate
      let s ← lift get
      if s.shutdown then pure ()
      else if s.restart then HM.raise .restart
      else do
        runCycleH hk
        serveLoopH hk n

/-- `Scheduler.serve`, schedule.py:108-154. -/
def serveH (hk : HookSet) : Nat → HM Unit
  | 0 => HM.cut
  | n + 1 => do
    lift (emit .serve)
    lift clearFlags
    setAlive true
    let e ← HM.attempt (do startupH hk; serveLoopH hk n)
    match e with
    | none => shutDownH hk (serveH hk n) n none
    | some .systemExit => shutDownH hk (serveH hk n) n (some .systemExit)
    | some .exit => shutDownH hk (serveH hk n) n (some .exit)
    | some .restart => shutDownH hk (serveH hk n) n (some .restart)
    | some .interrupt => shutDownH hk (serveH hk n) n (some .interrupt)
    | some e => do
      shutDownH hk (serveH hk n) n (some e)
      HM.raise e

/-- Nothing has been seen yet. -/
def HWorld.init (s : Sys) (env : Nat → Choice) : HWorld := ⟨World.init s env, false, []⟩

end Rocketry.Sched
