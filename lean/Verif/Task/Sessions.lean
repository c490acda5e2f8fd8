import Verif.Task.Situation

/-!
# Model of conditions when there are several sessions

`RedBase.session` (rocketry/_base.py:6-8) is one attribute for all classes, set by `Session.set_as_default`
(rocketry/session.py:559-568), which `Rocketry.run` and `Rocketry.serve` call (rocketry/application.py:57-67).  Conditions
have no session of their own, so `self.session` of a condition is the default session.
-/

namespace Rocketry

/-- The sessions of a program, by number, each with what its conditions read, and the number of the default session. -/
structure Sessions where
  sit : Nat → Sit
  dflt : Nat

namespace Sessions

/-- `session.set_as_default()`, rocketry/session.py:559-568; also what `app.run()` and `app.serve()` begin with. -/
def serve (m : Sessions) (n : Nat) : Sessions := { m with dflt := n }

/-- What the conditions of session `s` read.  They get the session as an argument (conditions/task/utils.py:62,
conditions/task/task.py:167), but whether they read the log is asked of `self.session.config` (utils.py:66, task.py:170),
the default session. -/
def seen (m : Sessions) (s : Nat) : Sit := { m.sit s with fromLogs := (m.sit m.dflt).fromLogs }

/-- Observation of a condition of session `s`. -/
def look (m : Sessions) (s : Nat) (fuel : Nat) (c : Cond Builtin) : Except PyErr Bool :=
  (Cond.observe ((m.seen s).obs fuel) c ()).1

end Sessions

/-- The text of a condition given as `shut_cond` of the configuration of session `s`: `parse_condition(value)` without a
session (rocketry/session.py:85-91) reads it with the parsers of the default session
(parse/_condition/condition_item.py:26-28).  `parsers n` is the table of session `n`: the built-in phrases and those that
`FuncCond`, `TaskCond` and `add_condition_parser` have added to this session. -/
def readShut {α : Type} (parsers : Nat → List Char → Option α) (dflt _s : Nat) (text : List Char) : Except PyErr α :=
  match parsers dflt text with
  | some c => .ok c
  | none => .error .value

/-- The text of a condition given as `start_cond` or `end_cond` of a task of session `s` (rocketry/core/task.py:255-272):
here the session is passed on. -/
def readStart {α : Type} (parsers : Nat → List Char → Option α) (_dflt s : Nat) (text : List Char) : Except PyErr α :=
  match parsers s text with
  | some c => .ok c
  | none => .error .value

end Rocketry
