import Verif.Session.Names
import Verif.Base.Dict
import Verif.Time.Period

/-!
# Model of conditions defined by a task

`TaskCond` and `_FuncTaskCondWrapper` (rocketry/conditions/meta.py), `CondParser` (rocketry/parse/utils/cond.py:2-19) and
the search of `parse_condition_item` (rocketry/parse/_condition/condition_item.py:22-48) among the parsers a session has
got for them.  The tasks and their names are those of Verif/Session/Names.lean.

Simplified: the values the functions return are true or false; `last_success` is the time kept in the task (not read
from the log), written when a run succeeds or when the scheduler starts (`Task.set_cached`).
-/

namespace Rocketry.Session

/-- A `TaskCond` with its function, meta.py:81-98, 115-118: what `_get_func_name` gives for the function, the parsed
`active_time`, and the groups of the syntax in a text it matches (none for a syntax that is a plain text). -/
structure CondDef where
  fname : String
  active : Period
  groups : String → Option (Dict String)

/-- The copy of a `TaskCond` that `_set_task` returns, meta.py:100-113: its task and the parameters it gave to it. -/
structure Bound where
  id : Nat
  args : Dict String
  active : Period

/-- A session as far as such conditions are concerned (session.py:221-223): `builtin` tells which texts a parser that
stands before them matches, `parsers` are the entries of `_cond_parsers` (by their syntax), `cache` is `_cond_cache`,
`states` is `_cond_states`, `last` gives the time of the last success of a task object. -/
structure CondSess where
  sess : Sess
  builtin : String → Bool
  parsers : Dict CondDef
  cache : Dict Bound
  states : Dict Bool
  last : Nat → Option Int

/-- A new session. -/
def CondSess.init (p : Policy) (builtin : String → Bool) : CondSess := ⟨Sess.init p, builtin, [], [], [], fun _ => none⟩

/-- `_set_parsing`, meta.py:133-135. -/
def CondSess.define (s : CondSess) (syn : String) (d : CondDef) : CondSess := { s with parsers := s.parsers.put syn d }

/-- `TaskCond(session, func, syntax=…)`, meta.py:81-98: with a function `_set_parsing` is called before the attribute
`session` is set, so it finds that of the class (rocketry/_base.py:6-8), the default session.  The result: the given
session and the default session. -/
def CondSess.taskCond (given default : CondSess) (syn : String) (d : CondDef) (withFunc : Bool) : CondSess × CondSess :=
  if withFunc then (given, default.define syn d) else (given, default)

/-- `TaskCond.__call__`, meta.py:115-118: the decorator registers in the session it has got. -/
def CondSess.decorate (given default : CondSess) (syn : String) (d : CondDef) : CondSess × CondSess :=
  (given.define syn d, default)

/-- The loop of `parse_condition_item`, condition_item.py:28-40. -/
def matching : Dict CondDef → String → Option (CondDef × Dict String)
  | [], _ => none
  | (_, d) :: l, text => match d.groups text with
    | some g => some (d, g)
    | none => matching l text

/-- What a text is read as. -/
inductive CondRead where
  /-- one of the other conditions -/
  | builtin
  /-- `ParserError` -/
  | unknown
  /-- the task could not be created -/
  | raised
  | cond (b : Bound)

/-- The name of the task, meta.py:107. -/
def condName (fname : String) : String := "_condition-" ++ fname

/-- Reading a condition text: condition_item.py:22-48, `CondParser.__call__` (cond.py:11-19, `cached` is true) and
`_set_task` (meta.py:100-113). -/
def CondSess.read (s : CondSess) (text : String) : CondSess × CondRead :=
  if s.builtin text then (s, .builtin)
  else match matching s.parsers text with
    | none => (s, .unknown)
    | some (d, g) => match s.cache.find text with
      | some b => (s, .cond b)
      | none => match s.sess.create (condName d.fname) none with
        | (_, true) => (s, .raised)
        | (s', false) =>
          ({ s with sess := s', cache := s.cache.put text ⟨s.sess.next, g, d.active⟩ }, .cond ⟨s.sess.next, g, d.active⟩)

/-- The name of a task object. -/
def CondSess.nameOf (s : CondSess) (id : Nat) : String := match s.sess.object id with
  | some o => o.name
  | none => ""

/-- Whether the task has been made for a condition (`_FuncTaskCondWrapper`). -/
def CondSess.isCond (s : CondSess) (id : Nat) : Bool := s.cache.any (fun x => decide (x.2.id = id))

/-- A run of a task succeeds at `t` and has returned `v`: `_handle_return` of the wrapper (meta.py:19-21) and the status
(core/task.py:644-648; for processes core/schedule.py:281-287). -/
def CondSess.success (s : CondSess) (id : Nat) (v : Bool) (t : Int) : CondSess :=
  { s with
    states := if s.isCond id then s.states.put (s.nameOf id) v else s.states,
    last := fun x => if x = id then some t else s.last x }

/-- `active_time` with the reference, meta.py:123-126. -/
def isActive (fuel : Nat) (p : Period) (now t : Int) : Except PyErr Bool := match p with
  | .delta past future => Period.containsRef (.delta past future) now t
  | .span near far => Period.containsRef (.span near far) now t
  | p => Period.contains fuel p t

/-- `TaskCond.get_state`, meta.py:120-131. -/
def CondSess.getState (s : CondSess) (fuel : Nat) (b : Bound) (now : Int) : Except PyErr Bool :=
  let state := (s.states.find (s.nameOf b.id)).getD false
  match s.last b.id with
  | none => .ok state
  | some t => match isActive fuel b.active now t with
    | .error e => .error e
    | .ok true => .ok state
    | .ok false => .ok false

/-- What happens in a session. -/
inductive CondEv where
  /-- a `TaskCond` gets its function -/
  | define (syn : String) (d : CondDef)
  /-- a condition text is read -/
  | text (s : String)
  /-- the tasks are changed -/
  | op (o : Op)
  /-- a run of a task succeeds -/
  | success (id : Nat) (v : Bool) (t : Int)
  /-- the time of the last success is taken from the log when the scheduler starts (core/task.py:916-926) -/
  | restored (id : Nat) (t : Int)

def CondSess.step (s : CondSess) : CondEv → CondSess
  | .define syn d => s.define syn d
  | .text t => (s.read t).1
  | .op o => { s with sess := (s.sess.step o).1 }
  | .success id v t => s.success id v t
  | .restored id t => { s with last := fun x => if x = id then some t else s.last x }

def CondSess.run (s : CondSess) (l : List CondEv) : CondSess := l.foldl CondSess.step s

end Rocketry.Session
