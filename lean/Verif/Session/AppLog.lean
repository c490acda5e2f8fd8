import Verif.Session.Loggers

/-!
# Model of how applications and sessions set up the log

`Rocketry.__init__` and `_set_logger_with_repo` (rocketry/application.py:46-54, 80-88), `Session._check_readable_logger`
(rocketry/session.py:346-367) with `create_default_handler` (rocketry/log/defaults.py:5-9), `TaskAdapter.is_readable`
and `is_readable_unset` (rocketry/core/log/adapter.py:141-153), over the loggers of `Verif/Session/Loggers.lean`, here with levels.  Everything
happens in the main process.  Loggers do not cut off levels of single handlers.
-/

namespace Rocketry.Session

/-- `logging.INFO`, `logging.ERROR`. -/
def INFO : Nat := 20
def ERROR : Nat := 40

/-- The loggers with their levels (`none`: not set), the level of the root logger, and the number of the next new
repository. -/
structure AppWorld where
  w : LogWorld
  level : LogName → Option Nat
  rootLevel : Nat
  next : Nat

/-- `logging.getLogger(name)`: a logger that was not there or only a placeholder has no handlers and passes records up. -/
def LogWorld.ensure (w : LogWorld) (n : LogName) : LogWorld := match w.get n with
  | none => { w with loggers := w.loggers ++ [⟨n, false, [], true⟩] }
  | some l => if l.placeholder then
      { w with loggers := w.loggers.map (fun x => if x.name = n then ⟨n, false, [], true⟩ else x) }
    else w

/-- Change the handlers of a logger. -/
def LogWorld.handle (w : LogWorld) (n : LogName) (f : List (Option Nat) → List (Option Nat)) : LogWorld :=
  { w with loggers := w.loggers.map (fun x => if x.name = n then { x with handlers := f x.handlers } else x) }

/-- Python's `Logger.getEffectiveLevel`. -/
def AppWorld.effective (a : AppWorld) (n : LogName) : Nat := ((n :: above n).findSome? a.level).getD a.rootLevel

/-- Python's `Logger.setLevel`. -/
def AppWorld.setLevel (a : AppWorld) (n : LogName) (lv : Option Nat) : AppWorld :=
  { a with w := a.w.ensure n, level := fun m => if m = n then lv else a.level m }

/-- `Rocketry(logger_repo=repo)`, application.py:46-54, 80-88: the level of the logger with the base name is set, and the
repository, by default a new one in memory, becomes its first handler. -/
def AppWorld.app (a : AppWorld) (base : LogName) (repo : Option Nat) : AppWorld :=
  let b := a.setLevel base (some INFO)
  match repo with
  | some k => { b with w := b.w.handle base (fun hs => some k :: hs) }
  | none => { b with w := b.w.handle base (fun hs => some a.next :: hs), next := a.next + 1 }

/-- `TaskAdapter.is_readable`, adapter.py:141-148. -/
def Lg.readable (l : Lg) : Bool := l.handlers.any Option.isSome

/-- `TaskAdapter.is_readable_unset`, adapter.py:150-153, in the main process. -/
def Lg.unset (l : Lg) : Bool := !l.readable && !(['_', 'p', 'r', 'o', 'c', 'e', 's', 's']).isSuffixOf l.name

/-- The first half of `_check_readable_logger`, session.py:347-361: a logger that cannot be read gets a new repository in
memory as its last handler. -/
def AppWorld.fixRepo (a : AppWorld) (base : LogName) : AppWorld :=
  let w := a.w.ensure base
  if ((w.get base).map Lg.unset).getD true then
    { a with w := w.handle base (fun hs => hs ++ [some a.next]), next := a.next + 1 }
  else { a with w := w }

/-- The second half, session.py:362-367: one that would drop the records gets the level INFO. -/
def AppWorld.fixLevel (a : AppWorld) (base : LogName) : AppWorld :=
  if a.effective base ≤ INFO then a else a.setLevel base (some INFO)

/-- `_check_readable_logger`, session.py:346-367, at the start of a session. -/
def AppWorld.start (a : AppWorld) (base : LogName) : AppWorld := (a.fixRepo base).fixLevel base

/-- A task with the logger `n` logs a record: `info`, or `exception` for failures (rocketry/core/task.py:1178-1184). -/
def AppWorld.log (a : AppWorld) (n : LogName) (lv : Nat) (r : LRec) : AppWorld :=
  if a.effective n ≤ lv then { a with w := a.w.log n r } else a

/-- What a program does. -/
inductive AppOp where
  | app (base : LogName) (repo : Option Nat)
  | start (base : LogName)
  | log (n : LogName) (lv : Nat) (r : LRec)
  /-- `logging.getLogger(n).setLevel(lv)` -/
  | setLevel (n : LogName) (lv : Option Nat)
  /-- `logging.getLogger(n).addHandler(h)` -/
  | addHandler (n : LogName) (h : Option Nat)
  deriving DecidableEq, Repr

def AppWorld.step (a : AppWorld) : AppOp → AppWorld
  | .app base repo => a.app base repo
  | .start base => a.start base
  | .log n lv r => a.log n lv r
  | .setLevel n lv => a.setLevel n lv
  | .addHandler n h => { a with w := (a.w.ensure n).handle n (fun hs => hs ++ [h]) }

def AppWorld.run (a : AppWorld) (l : List AppOp) : AppWorld := l.foldl AppWorld.step a

end Rocketry.Session
