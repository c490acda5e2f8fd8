import Verif.Text.Parser
import Verif.Text.CondItems
import Verif.Text.Duration

/-!
# Model of the texts of conditions: `__str__` and the attribute `_str`

`str(cond)` is used by `Task.json` (rocketry/core/task.py:199-204).  A condition read from a text keeps the text in the
attribute `_str`; other conditions make a text from their parts.
-/

namespace Rocketry

/-- Condition objects (`Cond`) with the attribute `_str` of each of them (`none`: not set).  `AlwaysTrue` and
`AlwaysFalse` do not look at the attribute (rocketry/core/condition/base.py:241-242, 253-254).  Simplified: an object
that occurs in several conditions is a copy in each; the one case in which it matters is that the objects `daily` etc.
are given a new `_str` each time a text naming one of them alone is read. -/
inductive SCond (L : Type) where
  | leaf (l : L) (own : Option (List Char))
  | alwaysTrue
  | alwaysFalse
  | any (own : Option (List Char)) (subs : List (SCond L))
  | all (own : Option (List Char)) (subs : List (SCond L))
  | not (own : Option (List Char)) (c : SCond L)

namespace SCond

variable {L : Type}

mutual
/-- The condition without the texts. -/
def erase : SCond L → Cond L
  | .leaf l _ => .leaf l
  | .alwaysTrue => .alwaysTrue
  | .alwaysFalse => .alwaysFalse
  | .any _ subs => .any (eraseList subs)
  | .all _ subs => .all (eraseList subs)
  | .not _ c => .not (erase c)
def eraseList : List (SCond L) → List (Cond L)
  | [] => []
  | c :: cs => erase c :: eraseList cs
end

mutual
/-- A condition none of whose objects has a `_str`. -/
def plain : Cond L → SCond L
  | .leaf l => .leaf l none
  | .alwaysTrue => .alwaysTrue
  | .alwaysFalse => .alwaysFalse
  | .any subs => .any none (plainList subs)
  | .all subs => .all none (plainList subs)
  | .not c => .not none (plain c)
def plainList : List (Cond L) → List (SCond L)
  | [] => []
  | c :: cs => plain c :: plainList cs
end

/-- `cond._str = s`, rocketry/parse/condition.py:8. -/
def named (s : List Char) : SCond L → SCond L
  | .leaf l _ => .leaf l (some s)
  | .alwaysTrue => .alwaysTrue
  | .alwaysFalse => .alwaysFalse
  | .any _ subs => .any (some s) subs
  | .all _ subs => .all (some s) subs
  | .not _ c => .not (some s) c

/-- `_parse_condition_string(s)`, parse/condition.py:6-9: only the condition as a whole is given the text. -/
def read (strLeaf : Char → L) (item : List Char → Except PyErr (Cond L)) (s : List Char) : Except PyErr (SCond L) :=
  match parseCondition strLeaf item s with
  | .error e => .error e
  | .ok c => .ok ((plain c).named s)

/-- The argument flattening of `Any.__init__`, base.py:147-151: the `_str` of the flattened condition is dropped, those of
its parts stay. -/
def anyParts : SCond L → List (SCond L)
  | .any _ subs => subs
  | c => [c]

/-- The argument flattening of `All.__init__`, base.py:172-176. -/
def allParts : SCond L → List (SCond L)
  | .all _ subs => subs
  | c => [c]

/-- `a & b`, base.py:80-85. -/
def and (a b : SCond L) : SCond L := .all none (a.allParts ++ b.allParts)

/-- `a | b`, base.py:87-91. -/
def or (a b : SCond L) : SCond L := .any none (a.anyParts ++ b.anyParts)

/-- `~c`, base.py:93-96, 216-218. -/
def invert : SCond L → SCond L
  | .not _ c => c
  | c => .not none c

mutual
/-- `str(cond)`: base.py:115-118 with 159-164 (`Any`), 184-189 (`All`), 205-210 (`Not`), 241-242, 253-254.  `leafStr` is
the text a leaf without `_str` makes, or the exception it raises; an exception of a part goes out of the
`except AttributeError` part of `__str__`. -/
def str (leafStr : L → Except PyErr (List Char)) : SCond L → Except PyErr (List Char)
  | .leaf l own => match own with | some s => .ok s | none => leafStr l
  | .alwaysTrue => .ok c!"true"
  | .alwaysFalse => .ok c!"false"
  | .any own subs => match own with
    | some s => .ok s
    | none => (strList leafStr subs).map (fun ts => '(' :: joinWith c!" | " ts ++ [')'])
  | .all own subs => match own with
    | some s => .ok s
    | none => (strList leafStr subs).map (fun ts => '(' :: joinWith c!" & " ts ++ [')'])
  | .not own c => match own with
    | some s => .ok s
    | none => (str leafStr c).map (fun t => '~' :: t)
def strList (leafStr : L → Except PyErr (List Char)) : List (SCond L) → Except PyErr (List (List Char))
  | [] => .ok []
  | c :: cs => match str leafStr c with
    | .error e => .error e
    | .ok t => (strList leafStr cs).map (fun ts => t :: ts)
end

/-- `cond >= 3` etc., base.py:338-341: `copy(self)` copies the attributes, also `_str`.  `f` changes the comparisons of the
copy (that the dictionary of comparisons is shared is the matter of `C22_shared_violated`). -/
def compared (f : L → L) : SCond L → SCond L
  | .leaf l own => .leaf (f l) own
  | c => c

end SCond

/-! ### the built-in conditions -/

/-- `obj._comps[key] = val`, base.py:338-341, for the conditions that have comparisons. -/
def Builtin.compare (k : Comp) (v : Int) : Builtin → Builtin
  | .status vb t p cs => .status vb t p (cs.set k v)
  | .cycles cs => .cycles (cs.set k v)
  | b => b

/-- The words of `SchedulerCycles.__str__`, rocketry/conditions/scheduler.py:19-25, and what is written for `__ne__`. -/
def cyclesWord : Comp → List Char
  | .eq => c!"has" | .gt => c!"has more than" | .lt => c!"has less than" | .ge => c!"has more or equal than"
  | .le => c!"has less or equal than" | .ne => c!"__ne__"

/-- The word of a status condition in its `__str__`. -/
def statusWord : Verb → List Char
  | .failed => c!"failed" | .succeeded => c!"succeeded" | .finished => c!"finished" | .terminated => c!"terminated"
  | .inacted => c!"inacted" | .started => c!"started"

/-- The word of a dependency in its `__str__`. -/
def dependWord : DepKind → List Char
  | .success => c!"succeeded" | .failure => c!"failed" | .finish => c!"finished"

/-- `str(None)`, or the name. -/
def taskText : Option (List Char) → List Char
  | none => c!"None"
  | some t => t

/-- The text of a built-in condition without `_str`.  `periodStr` is `str` of a period.  Status conditions:
rocketry/conditions/task/task.py:34-41, 60-67, 85-92, 111-118, 137-144, 247-252 (`TaskInacted` leaves the period out);
`TaskRunning` 224-229; `TaskExecutable` 313-317 and for `daily` etc. rocketry/conditions/api.py:75-79; `TaskRunnable` 363-370;
dependencies 391-398, 420-427, 448-455; `IsPeriod` rocketry/conditions/time.py:40-45; `SchedulerCycles`,
`SchedulerStarted` rocketry/conditions/scheduler.py:16-29, 62-65.  `IsEnv` and `ParamExists` have no `__str__`: the inherited
one raises `AttributeError` (rocketry/core/condition/base.py:115-118). -/
def Builtin.str (periodStr : Period → List Char) (cronStr : List (List Char) → List Char) :
    Builtin → Except PyErr (List Char)
  | .wrapper sc => .ok (c!"task 'None' " ++ periodStr (.anchored ⟨sc, 0, sc.max⟩))
  | .executable p => .ok (c!"task 'None' " ++ periodStr (.anchored p))
  | .executableFor d => .ok (c!"task 'None' " ++ periodStr (.delta d 0))
  | .isPeriod p => .ok (c!"currently " ++ periodStr (.anchored p))
  | .status v t p _ =>
    .ok (c!"task '" ++ taskText t ++ c!"' " ++ statusWord v ++
      (match p with | some p => if v = .inacted then [] else ' ' :: periodStr p | none => []))
  | .schedStarted d => .ok (c!"scheduler " ++ periodStr (.delta d 0))
  | .cycles cs =>
    .ok (cs.foldl (fun s e => s ++ [' '] ++ cyclesWord e.1 ++ [' '] ++ showInt e.2 ++ c!" cycles") c!"scheduler")
  | .cron fs => .ok (c!"task 'None' runnable " ++ cronStr fs)
  | .running t => .ok (c!"task '" ++ t ++ c!"' is running")
  | .depend k t => .ok (c!"task '" ++ t ++ c!"' " ++ dependWord k ++ c!" before 'None' started")
  | .env _ => .error .attribute
  | .params _ => .error .attribute
  | .paramIs _ _ => .error .attribute

end Rocketry
