import Verif.Base.Sorted

/-!
# State of a scheduling session and the monad of the scheduler

The scheduler's code is modelled by functions in the monad `M`: it may raise exceptions, and whatever is not decided
by the scheduler (results of conditions, the clock, failures, and what happens meanwhile in tasks, processes and
threads) is read from an arbitrary sequence of choices.  `cut`: the execution is only looked at up to this point.
-/

namespace Rocketry.Sched

/-- `task.get_execution()`, rocketry/core/task.py:1239-1242 (the task's own or the session's). -/
inductive Exec where | main | async | thread | process
  deriving DecidableEq, Repr

/-- `TaskRun`, core/task.py:47-95.  `id` identifies the object (not the `run_id`), `alive` is what `is_alive()`
returns, `exc`: `exception is not None`. -/
structure Run where
  id : Nat
  kind : Exec
  start : Int
  alive : Bool
  exc : Bool
  deriving DecidableEq, Repr

/-- The parameters of one manual run (`Task.batches`), core/task.py:390-411; a value stands for itself. -/
abbrev Batch := List (String × String)

/-- The attributes of a task that the scheduler uses, core/task.py:215-251.  `noCond`: the start condition is an
`AlwaysFalse` object.  `member`: the task is in `session.tasks`.  `strays`: runs that are going on but were dropped
from the run stack (a `main` run whose `run` record could not be written, task.py:488-502, 519-528, 542). -/
structure TaskSt where
  name : String
  priority : Int
  execution : Exec
  multilaunch : Option Bool
  disabled : Bool
  onStartup : Bool
  onShutdown : Bool
  permanent : Bool
  timeout : Option Int
  noCond : Bool
  batches : List Batch
  forceTerm : Bool
  stack : List Run
  strays : List Run
  member : Bool
  deriving DecidableEq, Repr

/-- `Session.config`, rocketry/session.py:42-80, as far as used; `recall`: `restarting == "recall"`. -/
structure Config where
  maxProcess : Int
  multilaunch : Bool
  silenceCond : Bool
  silenceLogging : Bool
  silencePrerun : Bool
  instantShutdown : Bool
  timeout : Int
  recall : Bool
  deriving DecidableEq, Repr

/-- The session and its scheduler.  `tasks` is in the order in which the set `session.tasks` is iterated. -/
structure Sys where
  cfg : Config
  tasks : List TaskSt
  enabled : Bool
  shutdown : Bool
  forceExit : Bool
  restart : Bool
  nCycles : Nat
  nextId : Nat
  deriving DecidableEq, Repr

/-- What happens outside of the scheduler. -/
inductive EnvEv where
  /-- the process, thread or asyncio task of a run is over; a thread may leave a logging error (core/task.py:682-684,
  701-702) -/
  | ends (task : String) (id : Nat) (exc : Bool)
  /-- `task.run(...)`, core/task.py:390-411 -/
  | request (task : String) (b : Batch)
  /-- `task.terminate()`, core/task.py:418-420 -/
  | terminate (task : String)
  /-- assignment to `task.disabled` -/
  | disable (task : String) (b : Bool)
  /-- assignment to `scheduler.on_hold`, core/schedule.py:479-484 -/
  | hold (b : Bool)
  /-- `session.shut_down(force)`, session.py:335-340 -/
  | shutDown (force : Option Bool)
  /-- `session.restart()`, session.py:315-321 -/
  | restart
  /-- a task is created and added (session.py:417-433; only under a new name) -/
  | add (t : TaskSt)
  /-- `session.remove_task` (session.py:435-439) -/
  | remove (task : String)
  /-- the set of tasks is iterated in another order from now on -/
  | reorder (l : List TaskSt)
  deriving DecidableEq, Repr

/-- Apply `f` to the task called `name`. -/
def Sys.upd (s : Sys) (name : String) (f : TaskSt → TaskSt) : Sys :=
  { s with tasks := s.tasks.map (fun t => if t.name = name then f t else t) }

/-- `session[name]`, also for a task object that was removed from the session. -/
def Sys.find (s : Sys) (name : String) : Option TaskSt := s.tasks.find? (fun t => decide (t.name = name))

/-- A run ends. -/
def Run.ended (r : Run) (exc : Bool) : Run := { r with alive := false, exc := r.exc || (exc && decide (r.kind = .thread)) }

/-- The runs with the given id end (a `main` run ends only in `start_async`). -/
def endRun (id : Nat) (exc : Bool) (l : List Run) : List Run :=
  l.map (fun r => if r.id = id ∧ r.kind ≠ .main then r.ended exc else r)

/-- The effect of an event on the session. -/
def Sys.event (s : Sys) : EnvEv → Sys
  | .ends n id exc => s.upd n (fun t => { t with
      stack := endRun id exc t.stack,
      strays := t.strays.map (fun r => if r.id = id then r.ended exc else r) })
  | .request n b => s.upd n (fun t => { t with batches := t.batches ++ [b] })
  | .terminate n => s.upd n (fun t => { t with forceTerm := true })
  | .disable n b => s.upd n (fun t => { t with disabled := b })
  | .hold b => { s with enabled := !b }
  | .shutDown force =>
      let force := force.getD s.shutdown
      { s with shutdown := true, forceExit := s.forceExit || force }
  | .restart => { s with restart := true }
  | .add t => if t.name ∈ s.tasks.map TaskSt.name then s
      else { s with tasks := { t with stack := [], strays := [], batches := [], forceTerm := false, member := true } :: s.tasks }
  | .remove n => s.upd n (fun t => { t with member := false })
  | .reorder l => if l.isPerm s.tasks then { s with tasks := l } else s

/-- Exceptions. -/
inductive Exc where
  | restart | exit | systemExit | interrupt | logging | setup | other
  deriving DecidableEq, Repr

/-- What goes wrong at a point of the scheduler: the collection of the parameters (core/task.py:482), the rest of the
setup (483-485, 663-664, 712-713), the creation of the process (735, 1055-1058), writing a log record, or some exception. -/
inductive Fault where
  | params | setup | spawn | logging | exc (e : Exc)
  deriving DecidableEq, Repr

/-- One choice of the environment: what has happened since the last one, the result of the condition (`none`: it
raises), a fault, and the clock. -/
structure Choice where
  events : List EnvEv
  cond : Option Bool
  fault : Option Fault
  time : Int

/-- In which part of `serve` a task is started. -/
inductive Part where | startup | cycle | shutdown
  deriving DecidableEq, Repr

/-- What is observed of an execution. -/
inductive Obs where
  | env (e : EnvEv)
  | serve
  | cycle
  | cycleDone
  | shutdown
  | inspected (task : String)
  | popped (task : String) (b : Batch)
  | started (task : String) (id : Nat) (part : Part)
  | terminated (task : String) (id : Nat)
  | restarted
  /-- the request or the start condition of a task was looked at (core/task.py:547-568; `none`: it raised) -/
  | checked (task : String) (manual : Bool) (result : Option Bool)
  /-- `set_cached` was called (core/schedule.py:314) -/
  | cached (task : String)
  /-- the start failed before the run was put into the run stack (core/task.py:529-537) -/
  | failedSetup (task : String)
  /-- a `main` run is over (core/task.py:501-502, 538-542) -/
  | mainEnded (task : String) (id : Nat)
  deriving DecidableEq, Repr

/-- The session, the environment and the record of the execution so far: `hist` has all earlier states of the
session, the latest first. -/
structure World where
  st : Sys
  env : Nat → Choice
  pos : Nat
  hist : List Sys
  trace : List Obs

/-- All states so far. -/
def World.moments (w : World) : List Sys := w.st :: w.hist

inductive Res (α : Type) where
  | ok (a : α)
  | raise (e : Exc)
  | cut
  deriving DecidableEq, Repr

/-- Computations of the scheduler. -/
def M (α : Type) : Type := World → Res α × World

instance : Monad M where
  pure a := fun w => (.ok a, w)
  bind m k := fun w => match m w with
    | (.ok a, w') => k a w'
    | (.raise e, w') => (.raise e, w')
    | (.cut, w') => (.cut, w')

def raise {α : Type} (e : Exc) : M α := fun w => (.raise e, w)

def cut {α : Type} : M α := fun w => (.cut, w)

def get : M Sys := fun w => (.ok w.st, w)

/-- The next state of the session. -/
def put (s : Sys) : M Unit := fun w => (.ok (), { w with st := s, hist := w.st :: w.hist })

def emit (o : Obs) : M Unit := fun w => (.ok (), { w with trace := w.trace ++ [o] })

/-- `try: m  except e: h e`. -/
def tryCatch {α : Type} (m : M α) (h : Exc → M α) : M α := fun w => match m w with
  | (.raise e, w') => h e w'
  | r => r

/-- `try: m  finally: q`. -/
def tryFinally (m q : M Unit) : M Unit := fun w => match m w with
  | (.cut, w') => (.cut, w')
  | (r, w') => match q w' with
    | (.ok _, w'') => (r, w'')
    | r' => r'

/-- The exception raised by `m`, if any. -/
def attempt (m : M Unit) : M (Option Exc) := fun w => match m w with
  | (.ok _, w') => (.ok none, w')
  | (.raise e, w') => (.ok (some e), w')
  | (.cut, w') => (.cut, w')

/-- `for x in l: f(x)`. -/
def forEach {α : Type} : List α → (α → M Unit) → M Unit
  | [], _ => pure ()
  | a :: l, f => do f a; forEach l f

/-- An event happens. -/
def World.happen (w : World) (e : EnvEv) : World :=
  { w with st := w.st.event e, hist := w.st :: w.hist, trace := w.trace ++ [.env e] }

/-- The environment moves. -/
def choose : M Choice := fun w =>
  (.ok (w.env w.pos), (w.env w.pos).events.foldl World.happen { w with pos := w.pos + 1 })

/-- A call made by the scheduler that has the same effect as an event. -/
def cause (e : EnvEv) : M Unit := fun w => (.ok (), w.happen e)

end Rocketry.Sched
