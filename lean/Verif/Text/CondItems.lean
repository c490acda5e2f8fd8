import Verif.Base.CharList
import Verif.Text.Regex
import Verif.Text.Duration
import Verif.Cond.Cond
import Verif.Time.Cron

/-!
# Model of the parsing of one condition: `rocketry/parse/_setup_cond_parsers.py`

The table of patterns in the order in which it is built up, the functions registered for them, and
`parse_condition_item` (rocketry/parse/_condition/condition_item.py).  The reading of a time of day, weekday etc.
(`anchor_str` of the classes in rocketry/time/interval.py, by regular expressions and `dateutil`) is an arbitrary
function `read`; the one of the code is `readTime` in Verif/Text/TimeText.lean.
-/

namespace Rocketry

/-! ### condition objects -/

/-- The status conditions of `_set_task_has_parsing`, _setup_cond_parsers.py:66-73. -/
inductive Verb where | failed | succeeded | finished | terminated | inacted | started
  deriving DecidableEq, Repr

/-- The dependency conditions, _setup_cond_parsers.py:153-163: `DependSuccess`, `DependFailure`, `DependFinish`. -/
inductive DepKind where | success | failure | finish
  deriving DecidableEq, Repr

/-- The condition objects made by the built-in parsers, with the arguments they are made with. -/
inductive Builtin where
  /-- the object `daily` etc. itself, `TimeCondWrapper(TaskExecutable, cls)`, rocketry/conditions/api.py:204-209 -/
  | wrapper (sc : Scope)
  /-- `TaskExecutable(period=p)` -/
  | executable (p : Anchored)
  /-- `TaskExecutable(period=TimeDelta(past))` -/
  | executableFor (past : Int)
  /-- `IsPeriod(period=p)` -/
  | isPeriod (p : Anchored)
  /-- `TaskFailed(period=p, task=task)` etc. with comparisons -/
  | status (v : Verb) (task : Option (List Char)) (period : Option Period) (comps : Comps)
  /-- `SchedulerStarted(period=TimeDelta(past))` -/
  | schedStarted (past : Int)
  /-- `SchedulerCycles` with comparisons -/
  | cycles (comps : Comps)
  /-- `TaskRunnable(period=Cron(minute, hour, day_of_month, month, day_of_week))` -/
  | cron (fields : List (List Char))
  /-- `TaskRunning(task=task)` -/
  | running (task : List Char)
  /-- `DependSuccess(depend_task=task)` etc. -/
  | depend (k : DepKind) (task : List Char)
  /-- `IsEnv(env)` -/
  | env (v : List Char)
  /-- `ParamExists(*keys)` -/
  | params (keys : List (List Char))
  /-- `ParamExists(**{key: value})` -/
  | paramIs (key value : List Char)

/-- The condition a `TimeCondWrapper` stands for: `observe` and `get_cond`, api.py:63-73. -/
def Builtin.resolve : Builtin → Builtin
  | .wrapper sc => .executable ⟨sc, 0, sc.max⟩
  | b => b

/-- `resolve` on a whole condition that is a single object. -/
def resolve : Cond Builtin → Cond Builtin
  | .leaf b => .leaf b.resolve
  | c => c

/-! ### periods from texts: `rocketry/time/construct.py` -/

/-- An optional argument read by `read`. -/
def readOpt (read : Scope → List Char → Except PyErr AVal) (sc : Scope) : Option (List Char) →
    Except PyErr (Option AVal)
  | none => .ok none
  | some t => bindE (read sc t) fun v => .ok (some v)

/-- `cls(start, end, time_point=…, starting=…)` for texts, rocketry/core/time/anchor.py:55-64: as `Anchored.init`, with
the texts read where `anchor` (66-82) is called. -/
def initText (read : Scope → List Char → Except PyErr AVal) (sc : Scope) (start stop : Option (List Char))
    (timePoint starting : Bool) : Except PyErr Anchored :=
  if start.isNone && stop.isNone then
    if timePoint then .error .value else .ok ⟨sc, 0, sc.max⟩
  else
    bindE (readOpt read sc start) fun a =>
    bindE (setStart sc a) fun s =>
    bindE (readOpt read sc stop) fun b =>
    bindE (setEnd sc s b timePoint starting false) fun e =>
    .ok ⟨sc, s, e⟩

/-- `TIME_CLASSES`, construct.py:9-27. -/
def timeClasses : List (String × Scope) :=
  [("monthly", .month), ("weekly", .week), ("daily", .day), ("hourly", .hour), ("minutely", .minute),
   ("month", .month), ("week", .week), ("day", .day), ("hour", .hour), ("minute", .minute),
   ("this month", .month), ("this week", .week), ("today", .day), ("this hour", .hour), ("this minute", .minute)]

/-- `TIME_CLASSES[type_.lower()]`, construct.py:31-32 etc. -/
def timeClass (t : List Char) : Except PyErr Scope :=
  match timeClasses.find? (fun kv => kv.1.toList = t.map lowerChar) with
  | some kv => .ok kv.2
  | none => .error .key

/-- The functions that make periods: `get_between`, `get_after`, `get_before`, `get_on`, `get_full_cycle`
(construct.py:30-53), `TimeDelta`, and the objects `always` and `never`, which are not functions. -/
inductive PeriodFn where | between | after | before | on | fullCycle | delta | object (all : Bool)
  deriving DecidableEq, Repr

/-- The value of a keyword argument. -/
def kw (g : Groups) (n : String) : Option (List Char) := (g.find? (fun x => x.1 = n)).map (·.2)

/-- The keyword arguments fit a signature with the given required and optional names (`TypeError` otherwise). -/
def fits (required optional : List String) (g : Groups) : Bool :=
  required.all (fun n => (kw g n).isSome) && g.all (fun x => x.1 ∈ required || x.1 ∈ optional)

/-- `abs(to_timedelta(past))` for a text, rocketry/core/time/base.py:207. -/
def readDelta (t : List Char) : Except PyErr Int := bindE (stringToTimedelta t) fun us => .ok (us.natAbs : Int)

/-- A call of a period function with keyword arguments: construct.py:30-53, `TimeDelta` base.py:199-209.  Calling a
period object raises `TypeError`. -/
def callPeriod (read : Scope → List Char → Except PyErr AVal) (f : PeriodFn) (g : Groups) : Except PyErr Period :=
  let make (start stop : Option (List Char)) (timePoint : Bool) : Except PyErr Period :=
    bindE (timeClass ((kw g "type_").getD [])) fun sc =>
    bindE (initText read sc start stop timePoint false) fun a => .ok (.anchored a)
  match f with
  | .between => if fits ["type_", "start", "end"] [] g then make (kw g "start") (kw g "end") false else .error .type
  | .after => if fits ["type_", "start"] [] g then make (kw g "start") none false else .error .type
  | .before => if fits ["type_", "end"] [] g then make none (kw g "end") false else .error .type
  | .on => if fits ["type_", "start"] [] g then make (kw g "start") none true else .error .type
  | .fullCycle => if fits ["type_"] ["start"] g then make (kw g "start") (kw g "start") false else .error .type
  | .delta =>
    if fits [] ["past"] g then
      match kw g "past" with
      | some t => bindE (readDelta t) fun us => .ok (.delta us 0)
      | none => .ok (.delta 0 0)
    else .error .type
  | .object _ => .error .type

/-! ### the registered functions -/

/-- The methods of `TimeCondWrapper` used by `_set_task_exec_parsing`, _setup_cond_parsers.py:116-122. -/
inductive WMethod where | before | between | after | starting | on
  deriving DecidableEq, Repr

/-- What is registered for a pattern. -/
inductive Handler where
  /-- `partial(_get_is_period, period_constructor=f)`, _setup_cond_parsers.py:45-58 -/
  | isPeriod (f : PeriodFn)
  /-- the class of a status condition, 79 -/
  | status (v : Verb)
  /-- `partial(_from_period_task_has, cls=…)`, possibly with `span_type='past'`, 75, 80-86 -/
  | statusIn (v : Verb) (past : Bool)
  /-- `partial(_from_period_task_has, cls=SchedulerStarted, span_type='past')`, with `inverse=True`, 98-99 -/
  | schedStarted (inverse : Bool)
  /-- `SchedulerCycles.from_magic`, 101-103 -/
  | cycles
  /-- the object `daily` etc., 125 -/
  | wrapper (sc : Scope)
  /-- a method of it, 129-132 -/
  | wrapped (sc : Scope) (m : WMethod)
  | every
  | cron
  | running
  | depend (k : DepKind)
  /-- `_parse_multi_all`, `_parse_multi_any` -/
  | dependMulti (k : DepKind) (isAny : Bool)
  | env
  /-- `ParamExists._from_list`, `ParamExists._from_key_value` -/
  | paramList
  | paramKeyValue
  /-- the objects `true`, `false` -/
  | always (b : Bool)
  deriving DecidableEq, Repr

/-- The period of an `IsPeriod`: `__init__` refuses time deltas, rocketry/conditions/time.py:31-34. -/
def mkIsPeriod : Period → Except PyErr (Cond Builtin)
  | .anchored a => .ok (.leaf (.isPeriod a))
  | _ => .error .attribute

/-- `period_func = {…}[span_type]`, _setup_cond_parsers.py:22-33. -/
def spanFn : Option (List Char) → Except PyErr PeriodFn
  | none => .ok .fullCycle
  | some t =>
    if t = c!"between" then .ok .between
    else if t = c!"after" then .ok .after
    else if t = c!"before" then .ok .before
    else if t = c!"starting" then .ok .fullCycle
    else if t = c!"every" then .ok .delta
    else if t = c!"on" then .ok .on
    else if t = c!"past" then .ok .delta
    else .error .key

/-- The period of `_from_period_task_has`, _setup_cond_parsers.py:20-36: `span_type` and `task` are taken out of the
keyword arguments. -/
def spanPeriod (read : Scope → List Char → Except PyErr AVal) (past : Bool) (g : Groups) : Except PyErr Period :=
  let span := if (kw g "span_type").isSome then kw g "span_type" else if past then some c!"past" else none
  bindE (spanFn span) fun f => callPeriod read f (g.filter (fun x => x.1 ≠ "span_type" && x.1 ≠ "task"))

/-- `depend_tasks.split("', '")`: `str.split` for the separator `', '`. -/
def splitQuoted : List Char → List (List Char)
  | [] => [[]]
  | '\'' :: ',' :: ' ' :: '\'' :: s => [] :: splitQuoted s
  | c :: s =>
    match splitQuoted s with
    | [] => [[c]]
    | w :: ws => (c :: w) :: ws

/-- The names of comparison methods, rocketry/core/condition/base.py:259. -/
def compOf (n : String) : Except PyErr Comp :=
  if n = "__eq__" then .ok .eq else if n = "__ne__" then .ok .ne else if n = "__lt__" then .ok .lt
  else if n = "__gt__" then .ok .gt else if n = "__le__" then .ok .le else if n = "__ge__" then .ok .ge
  else .error .value

/-- `SchedulerCycles.from_magic(**kwargs)`, rocketry/conditions/scheduler.py:31-34, base.py:343-350.  `int` of a text
of digits. -/
def cyclesComps (g : Groups) : Except PyErr Comps :=
  mapE (fun x => bindE (compOf x.1) fun c => .ok (c, (digitsVal x.2 : Int))) g

/-- `Cron(*expr.split(" "))`, api.py:233-239, rocketry/time/cron.py:17-22: the five fields, by default `*`. -/
def cronFields (t : List Char) : Except PyErr (List (List Char)) :=
  let args := splitChar ' ' t
  if args.length ≤ 5 then .ok (args ++ List.replicate (5 - args.length) ['*']) else .error .type

/-- `parser(**kwargs)`, condition_item.py:43-48. -/
def callHandler (read : Scope → List Char → Except PyErr AVal) (h : Handler) (g : Groups) :
    Except PyErr (Cond Builtin) :=
  match h with
  | .isPeriod f => bindE (callPeriod read f g) mkIsPeriod
  | .status v => if fits [] ["task"] g then .ok (.leaf (.status v (kw g "task") none [])) else .error .type
  | .statusIn v past =>
    bindE (spanPeriod read past g) fun p => .ok (.leaf (.status v (kw g "task") (some p) []))
  | .schedStarted inverse =>
    bindE (spanPeriod read true g) fun p =>
      match p with
      | .delta us _ => .ok (if inverse then .not (.leaf (.schedStarted us)) else .leaf (.schedStarted us))
      | _ => .error .type
  | .cycles => bindE (cyclesComps g) fun cs => .ok (.leaf (.cycles cs))
  | .wrapper sc => .ok (.leaf (.wrapper sc))
  | .wrapped sc m =>
    let make (start stop : Option (List Char)) (timePoint starting : Bool) : Except PyErr (Cond Builtin) :=
      bindE (initText read sc start stop timePoint starting) fun a => .ok (.leaf (.executable a))
    match m with
    | .before => if fits ["end"] [] g then make none (kw g "end") false false else .error .type
    | .between => if fits ["start", "end"] [] g then make (kw g "start") (kw g "end") false false else .error .type
    | .after => if fits ["start"] [] g then make (kw g "start") none false false else .error .type
    | .starting => if fits ["start"] [] g then make (kw g "start") none false true else .error .type
    | .on => if fits ["span"] [] g then make (kw g "span") none true false else .error .type
  | .every =>
    match kw g "past" with
    | some t => bindE (readDelta t) fun us => .ok (.leaf (.status .started none (some (.delta us 0)) [(.eq, 0)]))
    | none => .error .type
  | .cron =>
    match kw g "__expr" with
    | some t => bindE (cronFields t) fun fs => .ok (.leaf (.cron fs))
    | none => .ok (.leaf (.cron (List.replicate 5 ['*'])))
  | .running =>
    match kw g "task" with
    | some t => .ok (.leaf (.running t))
    | none => .error .type
  | .depend k =>
    match kw g "depend_task" with
    | some t => .ok (.leaf (.depend k t))
    | none => .error .type
  | .dependMulti k isAny =>
    match kw g "depend_tasks" with
    | some t =>
      let cs := (splitQuoted t).map (fun w => Cond.leaf (Builtin.depend k w))
      .ok (if isAny then Cond.mkAny cs else Cond.mkAll cs)
    | none => .error .type
  | .env =>
    match kw g "env" with
    | some t => .ok (.leaf (.env t))
    | none => .error .type
  | .paramList =>
    match kw g "l" with
    | some t => .ok (.leaf (.params (t.map (fun c => [c]))))
    | none => .error .type
  | .paramKeyValue =>
    match kw g "key", kw g "value" with
    | some k, some v => .ok (.leaf (.paramIs k v))
    | _, _ => .error .type
  | .always b => .ok (if b then .alwaysTrue else .alwaysFalse)

/-! ### the table -/

/-- A table: `Dict[Pattern | str, parser]` in insertion order.  A text used as a key is a pattern of plain text. -/
abbrev Table := List (Pat × Handler)

/-- `d[key] = parser`: replaces in place or appends (equal patterns are equal keys). -/
def Table.put : Table → Pat × Handler → Table
  | [], e => [e]
  | x :: t, e => if x.1 = e.1 then e :: t else x :: put t e

def Table.update (t : Table) (es : List (Pat × Handler)) : Table := es.foldl put t

/-- `Session._time_parsers`, rocketry/time/__init__.py:10-22. -/
def timeParsers : List (Pat × PeriodFn) :=
  let units := [c!"month", c!"week", c!"day", c!"hour", c!"minute"]
  [([.lit c!"time of ", .alt "type_" units, .lit c!" between ", .any "start", .lit c!" and ", .any "end"], .between),
   ([.lit c!"time of ", .alt "type_" units, .lit c!" after ", .any "start"], .after),
   ([.lit c!"time of ", .alt "type_" units, .lit c!" before ", .any "end"], .before),
   ([.lit c!"time of ", .alt "type_" [c!"month", c!"week"], .lit c!" on ", .any "start"], .on),
   ([.lit c!"every ", .any "past"], .delta),
   ([.lit c!"past ", .any "past"], .delta),
   ([.lit c!"always"], .object true),
   ([.lit c!"never"], .object false)]

/-- `_set_is_period_parsing`, _setup_cond_parsers.py:43-59. -/
def isPeriodEntries : List (Pat × Handler) := timeParsers.map (fun e => (e.1, .isPeriod e.2))

/-- The words of `_set_task_has_parsing`, _setup_cond_parsers.py:66-73. -/
def verbWords : List (List Char × Verb) :=
  [(c!"failed", .failed), (c!"succeeded", .succeeded), (c!"finished", .finished), (c!"terminated", .terminated),
   (c!"inacted", .inacted), (c!"started", .started)]

/-- The entries of one action and one prefix, _setup_cond_parsers.py:77-88.  Adjacent plain texts are joined. -/
def hasEntries (v : Verb) (pre : Pat) (head : List Char) : List (Pat × Handler) :=
  let cycles := Rx.alt "type_" [c!"this month", c!"this week", c!"today", c!"this hour",
    c!"this minute"]
  [(pre ++ [.lit head], .status v),
   (pre ++ [.lit (head ++ [' ']), cycles, .lit c!" ", .alt "span_type" [c!"starting"], .lit c!" ", .any "start"],
    .statusIn v false),
   (pre ++ [.lit (head ++ [' ']), cycles, .lit c!" ", .alt "span_type" [c!"between"], .lit c!" ", .any "start",
      .lit c!" and ", .any "end"], .statusIn v false),
   (pre ++ [.lit (head ++ [' ']), cycles, .lit c!" ", .alt "span_type" [c!"after"], .lit c!" ", .any "start"],
    .statusIn v false),
   (pre ++ [.lit (head ++ [' ']), cycles, .lit c!" ", .alt "span_type" [c!"before"], .lit c!" ", .any "end"],
    .statusIn v false),
   (pre ++ [.lit (head ++ [' ']), cycles], .statusIn v false),
   (pre ++ [.lit (head ++ [' ']), cycles, .lit c!" ", .alt "span_type" [c!"on"], .lit c!" ", .any "start"],
    .statusIn v false),
   (pre ++ [.lit (head ++ [' ']), .opt c!"in ", .lit c!"past ", .any "past"], .statusIn v true)]

/-- `_set_task_has_parsing`, _setup_cond_parsers.py:61-89. -/
def taskHasEntries : List (Pat × Handler) :=
  verbWords.flatMap (fun wv =>
    hasEntries wv.2 [] (c!"has " ++ wv.1) ++ hasEntries wv.2 [.lit c!"task '", .any "task"] (c!"' has " ++ wv.1))

/-- `_set_scheduler_parsing`, _setup_cond_parsers.py:91-105. -/
def schedulerEntries : List (Pat × Handler) :=
  [([.lit c!"scheduler has run over ", .any "past"], .schedStarted true),
   ([.lit c!"scheduler started ", .any "past", .lit c!" ago"], .schedStarted false),
   ([.lit c!"scheduler has more than ", .digits "__gt__", .lit c!" cycles"], .cycles),
   ([.lit c!"scheduler has less than ", .digits "__lt__", .lit c!" cycles"], .cycles),
   ([.lit c!"scheduler has ", .digits "__eq__", .lit c!" cycles"], .cycles)]

/-- `_set_task_exec_parsing`, _setup_cond_parsers.py:107-137. -/
def taskExecEntries : List (Pat × Handler) :=
  [(c!"secondly", Scope.second), (c!"minutely", .minute), (c!"hourly", .hour), (c!"daily", .day), (c!"weekly", .week),
   (c!"monthly", .month)].flatMap (fun (ws : List Char × Scope) =>
    [([.lit ws.1], .wrapper ws.2),
     ([.lit (ws.1 ++ c!" before "), .any "end"], .wrapped ws.2 .before),
     ([.lit (ws.1 ++ c!" between "), .any "start", .lit c!" and ", .any "end"], .wrapped ws.2 .between),
     ([.lit (ws.1 ++ c!" after "), .any "start"], .wrapped ws.2 .after),
     ([.lit (ws.1 ++ c!" starting "), .any "start"], .wrapped ws.2 .starting),
     ([.lit (ws.1 ++ c!" on "), .any "span"], .wrapped ws.2 .on)])
  ++ [([.lit c!"every ", .any "past"], .every), ([.lit c!"cron ", .any "__expr"], .cron)]

/-- `_set_task_running_parsing`, _setup_cond_parsers.py:139-147. -/
def runningEntries : List (Pat × Handler) :=
  [([.lit c!"while task '", .any "task", .lit c!"' is running"], .running),
   ([.lit c!"task '", .any "task", .lit c!"' is running"], .running)]

/-- `_set_task_pipelining_parsing`, _setup_cond_parsers.py:149-165. -/
def pipeliningEntries : List (Pat × Handler) :=
  [([.lit c!"after task '", .any "depend_task", .lit c!"'", .opt c!" succeeded"], .depend .success),
   ([.lit c!"after tasks '", .any "depend_tasks", .lit c!"'", .opt c!" succeeded"], .dependMulti .success false),
   ([.lit c!"after any tasks '", .any "depend_tasks", .lit c!"'", .opt c!" succeeded"], .dependMulti .success true),
   ([.lit c!"after task '", .any "depend_task", .lit c!"' failed"], .depend .failure),
   ([.lit c!"after tasks '", .any "depend_tasks", .lit c!"' failed"], .dependMulti .failure false),
   ([.lit c!"after any tasks '", .any "depend_tasks", .lit c!"' failed"], .dependMulti .failure true),
   ([.lit c!"after task '", .any "depend_task", .lit c!"' finished"], .depend .finish),
   ([.lit c!"after tasks '", .any "depend_tasks", .lit c!"' finished"], .dependMulti .finish false),
   ([.lit c!"after any tasks '", .any "depend_tasks", .lit c!"' finished"], .dependMulti .finish true)]

/-- `_set_misc_parsing`, _setup_cond_parsers.py:167-176. -/
def miscEntries : List (Pat × Handler) :=
  [([.lit c!"env '", .any "env", .lit c!"'"], .env),
   ([.lit c!"param '", .any "l", .lit c!"' exists"], .paramList),
   ([.lit c!"param '", .any "key", .lit c!"' is '", .any "value", .lit c!"'"], .paramKeyValue)]

/-- `_setup_defaults`, rocketry/_setup.py:15-20. -/
def defaultEntries : List (Pat × Handler) :=
  [([.lit c!"true"], .always true), ([.lit c!"false"], .always false), ([.lit c!"always false"], .always false),
   ([.lit c!"always true"], .always true)]

/-- `Session._cls_cond_parsers` after the import of the package, copied into every session
(rocketry/session.py:180, 221, 398-400): _setup_cond_parsers.py:178-185, _setup.py:15-20. -/
def condTable : Table :=
  Table.update []
    (isPeriodEntries ++ taskHasEntries ++ schedulerEntries ++ taskExecEntries ++ runningEntries ++ pipeliningEntries ++
      miscEntries ++ defaultEntries)

/-- The first matching entry with the groups of the match, condition_item.py:28-41. -/
def findParser : Table → List Char → Option (Handler × Groups)
  | [], _ => none
  | (p, h) :: t, s =>
    match fullmatch p s with
    | some g => some (h, g)
    | none => findParser t s

/-- `parse_condition_item(s)`, condition_item.py:22-48. -/
def parseCondItem (read : Scope → List Char → Except PyErr AVal) (s : List Char) : Except PyErr (Cond Builtin) :=
  match findParser condTable s with
  | none => .error .parser
  | some (h, g) => callHandler read h g

/-- `parse_time_item(s)`, rocketry/parse/_time/time_item.py:8-31: a period object is given as it is (`always`, `never`,
rocketry/core/time/base.py:544-545), a function is called. -/
def parseTimeItem (read : Scope → List Char → Except PyErr AVal) (s : List Char) : Except PyErr Period :=
  match findParser isPeriodEntries s with
  | some (.isPeriod (.object true), _) => .ok .always
  | some (.isPeriod (.object false), _) => .ok (.static MAXT MAXT)
  | some (.isPeriod f, g) => callPeriod read f g
  | _ => .error .parser

end Rocketry
