import Verif.Task.Log

/-!
# Model of the texts of log records: message and traceback, and their way from a process

The call of the logger in `Task._set_status` (rocketry/core/task.py:1148-1184) and in `_lock_to_run_log` (1057) and
`__getstate__` (1326); `QueueHandler.prepare` (rocketry/log/handlers.py:16-46), what `Scheduler.handle_logs` does to the
record (rocketry/core/schedule.py:255-287) and `Task._lock_to_run_log` does not (core/task.py:1060-1064); `Formatter.format` of
Python's `logging`.

Simplified: a record has no arguments (the calls give none, so that `getMessage()` is the text `msg`), no stack information;
texts are lists of characters; the other attributes are not changed on the way.  A handler formats the record and then uses
it, as the handlers of `logging` and the one of the package redbird do.
-/

namespace Rocketry.RecordText
open Rocketry

/-- `record.exc_info`: nothing, an exception (with `(None, None, None)` where none is under way), or a text. -/
inductive ExcInfo (E : Type) where
  | none
  | exc (e : E)
  | text (s : List Char)
  deriving DecidableEq

/-- A `logging.LogRecord`; `message` is not there before the record has been formatted, `ret` is `__return__`. -/
structure TRec (E : Type) where
  action : Action
  msg : List Char
  message : Option (List Char)
  excInfo : ExcInfo E
  excText : Option (List Char)
  ret : Option Nat
  deriving DecidableEq

variable {E : Type}

/-- How a record is made: `logger.info`, `logger.exception` (while handling an exception), `logger.critical`. -/
inductive LogCall (E : Type) where
  | info
  | exception (e : E)
  | critical

/-- The call of `_set_status`, task.py:1178-1184. -/
def statusCall (a : Action) (current : E) : LogCall E := if a = .fail then .exception current else .info

/-- A new record; `ret` is the return value given along, task.py:1170-1175. -/
def create (a : Action) (msg : List Char) (ret : Option Nat) : LogCall E → TRec E
  | .info => ⟨a, msg, none, .none, none, ret⟩
  | .exception e => ⟨a, msg, none, .exc e, none, ret⟩
  | .critical => ⟨a, msg, none, .none, none, ret⟩

/-- A formatter: `formatMessage`, as far as it depends on the message, and `formatException`. -/
structure Fmt (E : Type) where
  message : List Char → List Char
  exception : E → List Char

/-- `bool(record.exc_info)`. -/
def ExcInfo.truth : ExcInfo E → Bool
  | .none => false
  | .exc _ => true
  | .text s => !s.isEmpty

/-- `bool(record.exc_text)`. -/
def textTruth : Option (List Char) → Bool
  | none => false
  | some s => !s.isEmpty

/-- `if record.exc_info: if not record.exc_text: record.exc_text = self.formatException(record.exc_info)`, in
`Formatter.format` of `logging`; formatting a text as an exception is an error (`none`). -/
def fillText (f : Fmt E) (r : TRec E) : Option (TRec E) :=
  if r.excInfo.truth && !textTruth r.excText then match r.excInfo with
    | .exc e => some { r with excText := some (f.exception e) }
    | _ => none
  else some r

/-- `if s[-1:] != "\n": s = s + "\n"` and `s = s + record.exc_text`. -/
def withText (s : List Char) : Option (List Char) → List Char
  | none => s
  | some t => if t.isEmpty then s else (if s.getLast? = some '\n' then s else s ++ ['\n']) ++ t

/-- `Formatter.format(record)` of `logging`: the record is changed, the text is returned. -/
def format (f : Fmt E) (r : TRec E) : Option (TRec E × List Char) :=
  match fillText f { r with message := some r.msg } with
  | none => none
  | some r' => some (r', withText (f.message r.msg) r'.excText)

/-- The formatter of a handler without one; `tb` is the text of an exception. -/
def plain (tb : E → List Char) : Fmt E := ⟨id, tb⟩

/-- `QueueHandler.prepare`, rocketry/log/handlers.py:38-46. -/
def prepare (tb : E → List Char) (r : TRec E) : Option (TRec E) := match format (plain tb) r with
  | none => none
  | some (r, s) => some { r with message := some s, excInfo := .none }

/-- `record.exc_info = record.exc_text`. -/
def asInfo : Option (List Char) → ExcInfo E
  | none => .none
  | some s => .text s

/-- `t in m` for texts. -/
def occurs (t : List Char) : List Char → Bool
  | [] => t.isEmpty
  | c :: m => t.isPrefixOf (c :: m) || occurs t m

/-- The record in `handle_logs`, schedule.py:268-287; lines 279-280 add the message to itself (a record
without the attribute `message` does not come here). -/
def handled (r : TRec E) : TRec E :=
  if r.action = .fail then
    { r with
      excInfo := asInfo r.excText,
      message := match r.excText, r.message with
        | some t, some m => if occurs t m then some m else some (m ++ '\n' :: m)
        | _, m => m }
  else if r.action = .success then { r with ret := none }
  else r

/-- The way of a record to the handlers: it is made in the main process, or comes from another one through `handle_logs`,
or through `_lock_to_run_log` (task.py:1060-1064), which takes it as it is. -/
inductive Way where | here | scheduler | lock
  deriving DecidableEq, Repr

def arrive (tb : E → List Char) : Way → TRec E → Option (TRec E)
  | .here, r => some r
  | .scheduler, r => (prepare tb r).map handled
  | .lock, r => prepare tb r

/-- What a handler gets: the text it formats and the record afterwards. -/
structure Shown (E : Type) where
  text : List Char
  record : TRec E

/-- The handlers of the logger one after another, each with its formatter: all have the same record (`Logger.callHandlers` of
`logging`). -/
def emitAll : List (Fmt E) → TRec E → Option (List (Shown E))
  | [], _ => some []
  | f :: fs, r => match format f r with
    | none => none
    | some (r', s) => (emitAll fs r').map (⟨s, r'⟩ :: ·)

/-- A record on its way to the handlers. -/
def logged (tb : E → List Char) (way : Way) (fs : List (Fmt E)) (r : TRec E) : Option (List (Shown E)) :=
  (arrive tb way r).bind (emitAll fs)

end Rocketry.RecordText
