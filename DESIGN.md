# Formal model of Rocketry in Lean 4: design

Source under study: `/repo` (Python package `rocketry`, pinned commit), read as text only.
Lean project: `/verif/lean` (`lake build`), Lean 4.33.0, Mathlib available but used sparingly
(one module at a time).

## 1. Approach

* **Shallow, function-by-function model.** Each Python function is transcribed as a total,
  computable Lean function (`List`, `Int`, `Option`, `Except`), branch by branch, in the order of the
  source.  Python exceptions are values (`Except`).  Unbounded recursion (`All.rollforward`,
  `All.rollback`) takes a *recursion budget*; running out of it is Python's `RecursionError`, so a
  result is only claimed when the budget suffices and divergence is itself provable
  ("no budget suffices").
* **Concurrency** (threads, processes, async tasks) is modelled by labelled transition steps: the
  environment may, between any two scheduler steps, finish any live run in any way, send queue
  messages, request runs, and so on.  Properties are invariants of all reachable states or of all
  traces.
* **Time** is `Int` microseconds of naive wall-clock time counted from 0001-01-01 00:00 (a Monday),
  which is the resolution of `datetime.datetime`.  The proleptic Gregorian calendar is defined in
  `Verif/Time/Calendar.lean` and proved correct there (round trip date <-> day number).
* **Specifications** live apart from the model (`Verif/Spec/*.lean` or at the head of the property
  file) and do not use the model's helpers: e.g. "first in-period instant at or after dt",
  cron field matching on (minute, hour, day, month, weekday) numbers, "count of records in the log".
* **Property theorems** live in `Verif/Props/*.lean`, one file per area; helper lemmas live next to
  the model.  Beside every theorem there is an `example` that instantiates its hypotheses on a
  non-trivial concrete case.
* **Where the code violates the property** we prove the negation with a concrete witness
  (`…_violated`) and keep the strongest true part as `…_partial`.

## 2. What is trusted

* Lean's kernel.  Axioms: at most `propext`, `Classical.choice`, `Quot.sound` (printed per theorem in
  `Verif/Audit.lean`).  No `sorry`, `admit`, `native_decide`, `bv_decide`, no added axioms.
* The transcription of Python into Lean (comments on every definition cite file and lines).
* The Python standard library behaves as documented (`datetime` arithmetic, `dict` order, `list.sort`
  stability, `set` iteration order arbitrary, `asyncio` runs one coroutine at a time).

## 3. What is not modelled

* Zones with changes of the offset (DST).  All models but `Verif/Time/Zoned.lean` use naive wall-clock time (no option
  `timezone`); that one has fixed offsets (`datetime.timezone`) and the local time of the computer as arbitrary functions.
  `OverflowError` at years 1/9999, float rounding of timestamps (times are exact microseconds).
* `dateutil.parser` except on plain clock times (`HH:MM`, `HH:MM:SS`, `HH:MM:SS.f`; `clockFull` in `Verif/Text/TimeText.lean`
  is trusted to read these as `dateutil` does); on other texts it is an arbitrary function.  The regular expressions of time
  points are modelled there by hand, for ASCII texts.  The regular expressions of the condition table are modelled (`Verif/Text/Regex.lean`)
  for the forms that occur in it: plain text, `.+`, alternatives of plain texts, `\d+` (ASCII digits only), optional plain text.
* Pickling, actual OS processes/threads (only their observable effects: alive, queue messages, exit),
  redbird repositories other than an ordered in-memory list of records, user code (arbitrary outcome),
  what `importlib` does with a file (the file gives some function), `pydantic` coercions except those cited.

## 4. Plan per property

| id | property | how | status |
|---|---|---|---|
| C01 | Intersecting two time spans keeps exactly the shared instants | `Interval.lean`: 4 closed modes, `contains`,`overlaps`,`and_`. Membership of `&` by case split + omega; overlap completeness for non-empty half-open spans. | proved |
| C02 | Membership in a repeating clock period depends only on the position inside the cycle | `Anchored.lean`: `anchor_dt` from datetime fields, `__contains__`; spec on `t % cycle`. | proved |
| C03 | Rolling a clock period forward gives the first in-period span at or after the instant | `Anchored.lean` rolls; spec `FirstRun` (least in-period instant, first exit); linear arithmetic over cycle/position. | partial |
| C04 | Rolling a clock period back gives the latest in-period span up to the instant | As C03, spec `LastRun`. | partial |
| C05 | Occurrences of a clock boundary are neither skipped nor repeated | Spec: least/greatest instant with given position; induction for iteration. | proved |
| C06 | `at`, `starting` and integer ranges select the documented units | Constructors (`set_start/set_end/at/starting/anchor_int`) and spec by unit index. | partial |
| C07 | Monthly periods follow the calendar month | Calendar months; generic variable-length cycle lemma; partial for bounds <= 28 days; negation by witness. | partial |
| C08 | Yearly periods follow the calendar year | Calendar years on the 366-day axis; membership partial (last microsecond); roll negation by witness; roll theorem when no Feb 29 gap is crossed. | partial |
| C09 | `p & q` contains an instant exactly when both periods do | `Period.lean`: abstract roll contract; fuel recursion; induction on fuel. | proved |
| C10 | Rolling an intersection forward finds the earliest common time | Progress measure `target - dt`; minimality by induction. | partial |
| C11 | Asking an intersection with no common time is answered rather than crashing | Negation: conflicting periods diverge for every budget; partial = C10. | partial |
| C12 | Rolling an intersection back gives a common span not later than the instant | Induction on fuel with back-roll contract. | partial |
| C13 | `p | q` contains an instant exactly when one of the periods does | Sorted merge fold invariant; permutation-independent statement. | partial |
| C14 | Rolling a union forward merges all overlapping spans | Negation by witness; partial for collections where right ends increase. | partial |
| C15 | Static, always and never periods | Case split + omega. | proved |
| C16 | Sliding windows | Case split + omega. | proved |
| C17 | Combining periods with & and | flattens without changing meaning | Structural induction on period expressions. | proved |
| C18 | A cron expression matches exactly the minutes cron would fire | `Cron.lean`: expression AST -> period; independent `CronSpec`; reduction to memberships. | partial |
| C19 | Stepped numeric ranges in cron count from the given number | Negation by witness for 1-based fields; partial for minute/hour and for names. | partial |
| C20 | The next cron occurrence is the next matching minute | C10+C13 instantiated with cron sub-periods. | proved |
| C21 | Condition operators are Boolean operators | `Cond.lean`: expression tree over outcomes with error; trace of evaluated leaves for short-circuit. | proved |
| C22 | Deriving a comparison leaves the original condition unchanged | Heap model of condition objects sharing the comparison dict; negation by witness; partial for `from_magic`-style fresh construction. | partial |
| C23 | Counting conditions compare with every given bound | Fold over comparisons. | proved |
| C24 | Condition and time strings mean what their operators say | `Parser.lean`: char-level closure parser + operator assembly; induction over expression size. | partial |
| C25 | The cached fast path agrees with the log | `TaskLog.lean`: log, caches, `get_measurement`; equivalence under coherence invariant (C34). | partial |
| C26 | A periodic task is eligible exactly when it has not yet completed in the current period | Direct refinement of `TaskExecutable.get_state` to log spec. | partial |
| C27 | A periodic task does not succeed twice in the same period | Trace invariant: two successes in one occurrence impossible. | partial |
| C28 | A periodic task is not skipped for a whole period | Negation by witness (a run spanning midnight); partial for runs not spanning. | partial |
| C29 | A cron task starts at most once per cron interval | Trace invariant with `TaskRunnable`. | partial |
| C30 | `every(d)` spaces starts by more than d | Trace invariant with `every`. | proved |
| C31 | Retries are bounded | Induction over histories; counting trailing failures. | partial |
| C32 | A dependent task runs only after a fresh completion of its predecessor | Trace invariant with counting of completions. | proved |
| C33 | An interrupted run is recorded as a crash at the next start | `set_cached` over all logs; tie case negation. | partial |
| C34 | Task status and last-times agree with the log | Invariant by induction over log operations. | partial |
| C35 | A task counts as running exactly while a run of it is unfinished | Refinement log -> set of open runs; negation for records without run id. | partial |
| C36 | Every started run ends with exactly one outcome record of the right kind | Outcome function for each execution type; termination race negation for processes. | partial |
| C37 | The number of simultaneous processes never exceeds the limit | Scheduler transition system invariant. | partial |
| C38 | A task does not run in parallel with itself unless multilaunch is on | Scheduler transition system invariant. | partial |
| C39 | The scheduler starts a task only when it may | Decision logic of `run_cycle` outright. | proved |
| C40 | Manual runs are served exactly once, first in first out | Queue refinement: served ++ pending = requested. | partial |
| C41 | Tasks are considered in order of priority | Sorted + permutation of `sorted(..., reverse)`. | proved |
| C42 | A run is terminated exactly when it must be | Decision logic outright. | partial |
| C43 | Shutdown starts nothing new and leaves nothing running | Flag state machine over request points; negation for force flag; postcondition of wait loop. | partial |
| C44 | Startup and shutdown tasks run once, outside the cycles | Trace property of serve. | proved |
| C45 | Records and return values of process tasks arrive exactly once and in order | Queue refinement; negation for return values in `_lock_to_run_log`. | partial |
| C46 | Task names are unique in a session | Invariant by induction over session operations; negation with 'ignore' + rename. | partial |
| C47 | The name-collision policy is honoured | Decision logic; negation for 'replace'. | partial |
| C48 | `session.run(tasks)` runs only those tasks and restores the session | State restoration; negation for pending batches. | partial |
| C49 | Parameter precedence | Dictionary algebra. | partial |
| C50 | Argument pipes and private arguments | Induction over the pipe. | partial |
| C51 | Live runs of a task have distinct ids | Least-free-number search. | proved |
| C52 | Hooks wrap a run | Trace equality. | partial |
| C53 | A command task's command line depends only on its command and the run's parameters | Negation by witness for list commands; partial for string commands. | partial |
| C54 | Duration strings are read as the sum of their parts | Char-level parser; induction over part lists. | proved |
| C55 | Printed durations read back to the same duration | Round trip for whole-second durations; negation for sub-second. | partial |
| C56 | Log queries select exactly the matching records | Filter refinement; negation for mixed repeated tuples. | partial |
| C57 | Including a group conjoins its start condition and prefixes its names | Decision logic. | partial |
| C58 | The dependency listing mirrors the start conditions | Negation for nested conditions; partial for flat ones. | partial |
| C59 | A default of an argument is used exactly when no value is stored | Case split over the kinds of arguments; negation for a `KeyError` raised inside a stored function. | partial |
| C60 | Every phrase of the condition syntax is read as the condition it names | Symbolic matching of patterns against texts with unknown parts, proved sound; decided for the finitely many shapes; negations for the phrases that fail. | partial |
| C61 | The Python condition interface and the phrases mean the same | Both sides are compared with one independent meaning (C60); the time table by symbolic matching. | partial |
| C62 | Conditions about the scheduler: cycles and running time | An invariant that ties the counter to the cycles begun since the latest session mark of the trace; the running time by computing the span of the sliding periods. | partial |
| C63 | A status condition without a period is about the whole log | Evaluate Task.period for every start condition, then C25 on the window up to now. | partial |
| C64 | A text naming a time is read as that time | Model the searches character by character; canonical texts written from numbers by the spec; the reading undoes the writing; then C60. | partial |
| C65 | A condition text is true exactly when what it says holds | A situation (log, cached times, runs, parameters, scheduler, clock); the truth of each phrase stated over the log alone; one lemma per phrase; C60_text_partial and evaluation of the expression for the whole text. | partial |
| C66 | Which tasks are started at startup and shutdown | launch_exact (shared with C39) composed with the request made before; for the whole loop an invariant on the task and on the number of its starts, kept by every other task's turn. | partial |
| C67 | Equality of time periods | Structural equality with sets compared by mutual inclusion; induction over the nesting; equality preserves the meaning of Spec.sem. | partial |
| C68 | Equality of conditions | Mutual induction over trees and lists of subconditions; for built-in leaves via C67. | partial |
| C69 | Executions of the scheduler are histories | Invariant: every run that goes on according to the record of the execution is alive in the run stack; a second invariant for the calls of set_cached; induction over coupled executions. | partial |
| C70 | Conditions defined by a task (TaskCond) | Model of TaskCond, CondParser and the cache over the model of task names (C46, C47); invariant over all histories; witnesses for the violations. | partial |
| C71 | Importing the function of a task leaves sys.path as it was | Model of TempSysPath with one step for each append and remove; invariant that counts the entries of the loads; witnesses for the violations. | partial |
| C72 | A task given by path runs what is in the file | Model of get_func and its calls during a run with one step each; origin of a kept function by induction over all histories; witnesses for the violations. | partial |
| C73 | The outcome record of a run tells its times | Model of the readings and of the cached last start in the scheduler's process and in the copies; induction over all histories; witnesses for the violations. | partial |
| C74 | The log of a session shows every record of its tasks once | Model of loggers, handlers, propagation and repositories; induction over all sequences of records; witnesses for the violations. | partial |
| C75 | Times follow the clock of the session | Model of which session's clock is put into which logger; invariant over all orders of starts; witnesses for the violations. | partial |
| C76 | The text of a condition reads back as the condition | Texts are a second attribute of condition objects; the general theorem builds, by induction, a written expression of which the text is the text of the object, and uses the theorem on the object read from a written expression (C24_object_partial). | partial |
| C77 | A condition made from a function is observed as a call of the function | The rules of Python for calls are modelled (`Sig.bind`); a lemma says what a call with acceptable arguments gives each parameter, and `observe` is reduced to it. Texts: induction on histories of the session. | partial |
| C78 | The hooks of a session are run around the creation of its tasks | Invariant by induction on the program: hooks, options and default session of the state are those read off the steps made; the events of a creation are those of a wrapped run (C52). | partial |
| C79 | Parameters objects are values | Heap of dictionaries and references; invariant that no dictionary is shared, kept by every operation; simulation of a semantics in which objects are functions from names to values. | partial |
| C80 | The option timezone | Datetimes naive or aware with Python's comparisons; an embedding of naive into aware results is kept by every operation on intervals and periods; both sessions are equal to the naive model on the times shown in the zone. | partial |
| C81 | What the start text of a task insists on is kept by its runs | Compose C60 (text to evaluation of phrases), a lemma that a true text makes the phrases it insists on true, and the history theorems C27, C29, C30, C32; C69 carries it to executions. | partial |
| C82 | Options have the values they were given | Model `Config` as a dictionary of fields with validators; programs make sessions and set options; induction over programs. | partial |
| C83 | The arguments of a task do not depend on where it runs | Model staging and materialising with the session of each place; induction over the depth of evaluation. | partial |
| C84 | A task with a start text is started exactly when what the text says holds | Compose C39 (starts of one inspection), C65 (what texts say) and the invariant of histories (C69) for the cached times. | partial |
| C85 | With errors silenced, no failure of a task stops the scheduler | Hoare-style rules for the computations of the scheduler: an invariant (silenced, harmless environment, names of the tasks stay) and a classification of what escapes from each function. | partial |
| C86 | Requests to restart and to shut down are honoured, the latter finally | An automaton for the rounds; invariant: the flags of the session are those of the automaton; SchedulerRestart escapes only from the check of the loop. | partial |
| C87 | The hooks of a session are run around startup, cycles and shutdown | The scheduler of the other claims in a monad that also records hooks; a Hoare logic over the state of the automaton. | partial |
| C88 | The log of an application can be read back | Loggers with levels over the model of C74; invariants over sequences of operations. | partial |
| C89 | The default names of tasks tell what they run | Texts with one colon can be taken apart; removal of .py from joined parts. | partial |
| C90 | A task given by a piece of code does what the code does as a script | A big-step semantics of scripts against an interpreter with fuel; induction on fuel and on derivations with the invariant that no function value uses a variable. | partial |
| C91 | Equal parameters give a run the same | What an argument gives without a task it gives with one (induction on the depth); names by counting. | partial |
| C92 | Texts that are no expressions are refused | Invariants of the folding loops on the reversed list: alternation of operands and operators with the parity of the length, and for operators that refuse strings the failure to alternate; then induction over the brackets. | partial |
| C93 | The file of a task is imported under its own name | Induction over the ancestors; splitting undoes joining at dots. | partial |
| C94 | A record read with times tells the times of the run | Cases on the fields; C73_duration gives what is written; rounding by division with remainder. | partial |
| C95 | Conditions look only at the tasks they are about, in their own session | A two-run (relational) proof by structural induction on the condition; each leaf reads the log only through a filter on the name of a task. | partial |
| C96 | A time given by its parts is the time at which clocks show them | Lookup in a dictionary of distinct keys; division with remainder; C02_contains for membership. | partial |
| C97 | The text of a period says which period it is | C54 on the text that `str(timedelta)` makes; C55 for the texts of clock periods; characters that cannot occur separate the parts. | partial |
| C98 | The keyword form of a query selects the same records | Loop invariant: what the dictionary selects is what the questions so far select, and which bounds of a field are still free. | partial |
| C99 | A removed task is not started in later rounds | Judge from the record alone how a task stands (present, leaving, gone); invariant: a task that is not present is no member, and is not in the list a loop of the scheduler is going through once it is gone; proved for each part of serve by the invariant framework. | proved |
| C100 | Asking whether two conditions differ | A heap of comparison dictionaries; != as default negation of == or as derivation; theorems about the answer and about the heap afterwards, for all measurements. | partial |
| C101 | Decorators make tasks of functions | State machine of FuncTask objects (shell or task); the tasks a program should make are computed from its actions alone; induction over programs. | partial |
| C102 | Changes of the clock | LocalClock models fromtimestamp and timestamp of Python (with fold) over any local clock, and the bounds of periods with their folds. | partial |
| C103 | Finding tasks and parameters by their functions | FuncLinks models the attribute __rocketry__ with several sessions. | partial |
| C104 | The outcome of a command task, and the end of its command | CommandRun models waiting for the command, termination and the options of Popen. | partial |
| C105 | The conditions of a session depend on this session only | Sessions models several sessions with one default session. | partial |
| C106 | A requested run is started in the next cycle | loop_turn: what survives everything but the start of a task holds when its turn comes. | partial |
| C107 | A task keeps its history when it gets another name | A ghost history of deeds (author, name at that time) from which both the log and the memories are computed. | partial |
| C108 | Comparisons with a number are conditions on the number counted | Case analysis; Stands gives the meaning of the operators. | partial |
| C109 | Whether a task is running is told rightly, and interrupted runs are found | The status is the action of the last record; induction on the history. | partial |
| C110 | The record of a failure tells the message and the exception, wherever the task ran | Model of the texts of records (Task/RecordText.lean): Formatter.format, QueueHandler.prepare, handle_logs and _lock_to_run_log; an invariant for records that still are to show an exception. | partial |
| C111 | What the start text of a task forbids does not hold when it is started | A lemma that a true text makes the phrases it forbids false, an invariant that splits the log before each start into what the check saw and what came later, and the meaning of false status, period and dependency conditions. | partial |
| C112 | Tasks that wait for each other: a pipeline never runs ahead, a knot never starts | Every beginning of the log is the log of an earlier state of the history; successes, waiting successes and a run that goes on are never more than the starts; then C81 for each pair of neighbours and induction along the pipeline, or along the log for knots. | partial |
| C113 | What a task returned is what the others get | Interleaving model of runs, queue and session.returns; invariants; negations. | partial |
| C114 | The runs of a task are ended exactly when its end condition holds | composition of C42 (what a check ends) with C65 (what texts say) and C84_history; C35 for logs, C80 for time zones | partial |
| C115 | The scheduler goes on exactly as long as what its shut text says does not hold | composition of one round of serveLoop with C65 (what texts say) and the history of the log; Sit without own task for the phrases that need one | partial |
| C116 | A scheduler on hold starts nothing new | invariant over the record of an execution: a start in a cycle needs that the scheduler was not on hold at some time since it turned to the task | partial |
| C117 | force_run runs a task once | `Task/ForceRun.lean` models the attribute and the queue as a small machine whose steps are the four places in the code that write them; the owner's actions may come between any two of them. Invariants over all histories. | partial |
| C118 | Running runs are told from the log by their ids | `Task/RunIds.lean` is a small machine of starts and ends with the ids given by `increment` (C51) or at random; the log it writes is read by the model of TaskRunning (C35). Invariants over all histories. | partial |
| C119 | After set_repo the log of a task is what was logged since | `Session/SetRepo.lean` adds `set_repo` to the loggers of C74 and C88. The way of a record up the names is followed by induction over the names above it, sorted by length; the rest is an invariant over all programs. | partial |
| C120 | A task that calls for the end of the scheduler ends it at once | The exception is followed up from the run through every level of the scheduler of `Sched/Scheduler.lean` (no handler on the way takes it); what is seen during the shutdown by the calculus of `Sched/Emits.lean`. | partial |
| C121 | `task.terminate()` ends the runs that go on, and nothing else | Invariants of the scheduler of `Sched/Scheduler.lean`: from the call until the check of the task the flag and the live run persist through everything but that check; afterwards the flag stays down through every part of an execution. | partial |
| C122 | The arguments for the session, tasks, the configuration and the loggers give what they stand for | A relation `Represents` that says what an argument stands for, without keywords; induction over its derivations shows that the evaluation with the keywords of each place (`Session/Builtin.lean`) gives it. | partial |
| C123 | A query written with operators selects the records of which it is true | A second reading of the written expression as a proposition on the record (`Spec/QueryWrittenSpec.lean`); induction over the expression, with `&` and `|` as short-circuit operations on answers and exceptions. | partial |
| C124 | The function of an argument is called with what was given for it, or else with its defaults | The rules of Python for calls from `Session/FuncCond.lean`; the values given and those of the arguments are joined, and every parameter is followed through the binding. | partial |
| C125 | The order in which an intersection holds its periods does not matter | `&` of intervals is commutative and right-commutative, errors included; overlap, max and min do not depend on the order; induction on the recursion budget. | partial |

## 5. Findings

Behaviour of the code that contradicts the property as one would state it.  Each is shown by a theorem
`…_violated` (or delimits a `…_partial` theorem) of the property named.

Time periods

* C03/C04: the period from the end of the cycle to its beginning is empty; `rollforward` then recurses without end and
  `rollback` returns an instant outside the period.
* C07: days 29-31 raise an error or spill over in shorter months.  C08: yearly periods lose their last microsecond, and
  rolling across a missing 29 February is off by one day (C26: from March on, in a year of 365 days, a task that runs once a
  year is not eligible when it succeeded on the last day of the year before).
* C10: an intersection with a day-30 member can return 2 March.  C11: an intersection without common time ends in a
  `RecursionError`.  C12: at the start instant of an occurrence `All.rollback` goes back to the previous one; a union
  inside loses one microsecond.
* C13: whether the end of a static member counts as inside a union depends on the order of a set.  C14: the loop of
  `Any.rollforward` stops at the first contained interval, so later overlapping ones are not merged.
* C18-C20: numeric stepped ranges are off by one in the day, month and weekday fields; `*,5` ignores the star;
  `x/n` means `at(x) & */n`; a month field skips a day late in years that are not leap years and lacks its last
  microsecond; day 31 raises in short months.
* C24: blanks before a leading `(`, between brackets or after a trailing `)` are rejected; `a (b)` silently means `a`;
  `a ~` means `~a`; `a &` and the empty text end in an `IndexError`; `(always & always) & (always & always)` is
  rejected as a time text.
* C22: deriving a comparison changes the condition it is derived from.

Conditions and log

* C26: `daily` at exactly midnight looks at the previous day.  C28: a run that ends after midnight blocks the next day.
* C27, C31: the record of a process that ends between the reading of the queue and the inspection of the task is not
  seen; the task runs again (two successes a day, one retry too many).
* C29: `cron` at the first instant of a minute looks at the previous occurrence; `1,30` as days of the month makes
  repeated starts or a `RecursionError` on 1 March.
* C33/C34/C35: a crash record has no run id, so the run counts as running for ever; `running.more_than` hides outcomes
  after the end of its window.
* C36: see `RunProps`: an async run whose hook or parameters fail has no outcome record; failures of threads and
  processes and the success of a restart have no run id; SystemExit leaves no outcome; a failing post hook adds records; a
  kill after a success adds a termination; a setup failure of a running task gives a failure without a run.

Scheduler

* C37: the process of a removed task is not counted.  C38: a `main` run whose `run` record could not be written goes on
  untracked.  C40: a request is lost when the setup fails after it was taken.  C42: a timeout of 0 counts as unset;
  runs already dead are recorded as terminated on request or by the end condition.
* C43: processes of removed tasks and untracked `main` runs are alive after `serve`; the force-exit flag is not cleared.
* C45: a return value is dropped if the success record is read in `_lock_to_run_log`; a record of a removed task ends in
  a `KeyError`.
* C48: pending requests of tasks not named are run; a task added meanwhile leaves the others disabled; a full process
  pool leaves a request pending; startup tasks get two requests.

Sessions

* C46/C47: assigning a taken name under `ignore` makes duplicates; `replace` never replaces; `add_task` under `rename`
  drops the task silently; the link from a function to its task is lost after a rename.
* C49/C50/C59: unpicklable parameters are dropped on the way to a process; a pipe stops at a ValueError or IndexError; a
  `KeyError` inside a stored argument's function is hidden by a default.
* C52: post parts are skipped when a later hook, the parameters, `process_finish` or an earlier post part fails.
* C53: a list command is extended in place by each run.  C55: sub-second durations do not read back.
* C56: repeated keys of `from_tuples` are mixed into one `Any`; the adapter overwrites a given `task_name`.
* C57: a taken name stops the inclusion midway; a string as group start condition is never parsed.
* C58: nested and negated dependencies are not listed; an unknown task makes the whole listing fail.
* C60: "has … starting Monday" is Monday alone; "param 'abc' exists" tests the parameters `a`, `b`, `c`; "always",
  "never" and "past 2 hours" are conditions in the table but raise; the documented "after task 'x' terminated" is
  refused; the documented "after task 'a', 'b'" waits for a task of the name `a', 'b`.
* C61: "has succeeded this week starting Mon" and `succeeded.this_week.starting("Mon")` are different conditions.
* C62: `scheduler_running(more_than, less_than)` with the first over the second raises `ValueError` at each observation; if the clock is set back behind the startup, "scheduler has run over .." holds for every duration.
* C63: `Task.period` reads `cond.kwargs`, which no condition has: any status condition without a period about a task whose start condition is a `TaskSucceeded`/`TaskFinished` raises `AttributeError`.
* C64: `TimeOfYear('Jan 1st', 'Jan 5th')` leaves out January 5th (`TimeOfMonth('1st', '5th')` includes the 5th); `TimeOfHour('1 quarter')` is the float 899999999.25; `TimeOfMinute('5')` raises `TypeError`, `TimeOfYear('12')` `AttributeError`; `TimeOfHour('1:30:45')` is read as 30:45, `TimeOfYear('Feb 30th')` as March 1st.
* C65: `has succeeded today between 10:00 and 12:00` is true at nine o'clock if the task succeeded yesterday at eleven (the period is rolled back to its latest occurrence, not to the one of today). `ParamExists` defines `__bool__` but not `get_state`: observed by the scheduler it is never true, its docstring example works only with `bool(...)`.
* C66: with `max_process_count = 1` and two `on_startup` tasks run in processes, the second is not started at startup (no slot); its automatic request stays pending and no cycle serves it, as cycles pass over startup tasks: it is never run.
* C67: `RelativeDay` is a dataclass without declared fields, hence `RelativeDay("today") == RelativeDay("yesterday")`, and `RelativeDay("today") | RelativeDay("yesterday")` keeps only one of them (`C67_relative_day_violated`).
* C67: `TimeDelta(...) == TimeSpanDelta(...)` raises `AttributeError` on either side (`C67_span_violated`).
* C67: the span to which a union is rolled depends on the iteration order of its frozenset (`C67_order_violated`).
* C68: `~false == true` is `True` but `true == ~false` is `False`; equality is not transitive either (`C68_symmetric_violated`, `C68_transitive_violated`).
* C69: `set_cached` is only called in `Scheduler.startup` (schedule.py:314), not by `Session.add_task`: a task added while the scheduler runs does not know the runs logged by an earlier program, and e.g. `every("1 day")` starts it at once although it ran a minute ago (`C69_added_violated`). The same for `on_shutdown` tasks when the startup is cut short (`C69_shutdown_violated`).
* When `process_finish` or a hook raises after the outcome of a `main` run was logged, `start_async` (task.py:529-537) logs a second start and a failure for the same run (not modelled).
C70: the second text that matches the syntax of a `TaskCond` raises `ValueError` (the task gets the same name; with `task_pre_exist="ignore"` it silently takes the answer of the first), although several are announced in the docstring; `TaskCond(func=f, session=s)` registers its syntax in the default session instead of `s`.
C71: `TempSysPath` appends to `sys.path` but removes from the list that `sys.path` was when rocketry was imported: after `sys.path = [...]` every run of a task with `path` leaves one more entry; if the directory was an entry before, it moves to the end of the list; `sys_paths` puts `Path` objects into `sys.path`, in which imports do not look.
C72: `FuncTask.process_finish` drops the imported function, but it is not called if the parameters of a run cannot be materialized (core/task.py:591-595), so the next run executes the old version of the file; runs at the same time share the function; and the parameters are those of the version that was in the file when the run began.
C73: `_set_status` writes the start of the latest run of the task into the outcome record of every run (core/task.py:1164), so overlapping runs get a wrong start and a runtime that is too short; in a process with `force_status_from_logs=True` start and runtime are missing, as the logger there cannot be read.
C74: `get_task_log` raises AttributeError as soon as one logger whose name begins with the base name has no repository; a task with a readable logger of its own below the base name has its records shown twice; `rocketry.taskboard` counts as a task logger; a `logger_name` given as text is not checked against the base name.
C75: with the default base name the first session with a `time_func` that is started gives its time to the records of all other sessions, as the logger is marked as wrapped; a task with a logger of its own gets records with the real time; `Session.get_current_time` ("used internally throughout the package") ignores `time_func`.
C76: `str(cond)`, which `Task.json` writes, may denote another condition: `parse("a | b") & parse("c")` prints "(a | b & c)" and `~parse("a | b")` prints "~a | b"; `parse("has failed") >= 3` prints "has failed"; the texts of status conditions, dependencies and of items of compound conditions are not in the syntax; `IsEnv` and `ParamExists` raise `AttributeError`.
C77: `FuncCond.observe` passes the values of argument defaults in addition to what is given, so giving a value for such a parameter (for instance by a regex group) raises TypeError; `bool(cond)` passes the argument objects; a text read before the decorator has got its function gives a condition that raises TypeError at each observation.
C78: `Task.__init__` reads `self.session` before the fields of the task are set, which gives the default session (`RedBase.session`) and not the session passed: `hook_task_init` and `use_instance_naming` of a session that is not the default have no effect, and those of the default session act on the tasks of all sessions.
C79: `Parameters.__or__` passes the parameters as keyword arguments to the constructor, so parameters named `type_`, `_param` or `self` raise TypeError, convert all values or get lost; every run makes such a union of the session and task parameters (C49). `to_dict` returns the internal dictionary.
C80: with the option `timezone`, `running` without duration raises TypeError whenever a run is alive, `running(...).more_than(...)` and `scheduler_running(more_than=...)` always do (`TimePeriod.min` and `max` are naive), as do `IsPeriod` of a static period and status conditions with `RelativeDay` or a static period in the future; a static period is taken in the local time of the computer.
C82: options are lost silently in several ways: `Session(config=Config(...), multilaunch=True)` and `Rocketry(session=s, multilaunch=True)` ignore the keyword (`C82_object_violated`, `C82_app_violated`); `Rocketry(config={'debug': True}).run()` sets `debug` back to false (`C82_debug_violated`); misspelt names are accepted (`C82_unknown_violated`); `task_execution`, the name used by the handbook, cannot be set at runtime although the handbook says that options can be modified (`C82_assign_violated`) and overrides `execution` when both are given (`C82_names_violated`); `task_priority` is not read anywhere (`C82_priority_violated`); a task with `timeout=0` gets the timeout of the session (`C82_zero_violated`); `timeout='never'` works for tasks and raises `KeyError` for sessions (`C82_never_violated`); two sessions made from one `Config` object share their options (`C82_shared_violated`).
C83: a `FuncArg` is evaluated in the child process by default, and the copy of the session sent to a spawned process (Windows, macOS) has `parameters = None` and no tasks, so `def get_x(y=Arg('y'))` or `Return(...)` in its signature raises AttributeError or ValueError there, even with a default, while it works in threads and forked processes. `TerminationFlag` looks at `task.execution` instead of `task.get_execution()`: with the execution set on the session, main and process tasks get None instead of an event.
C84: at the first instant of a day a task with the text `daily` that succeeded the day before is not started, although nothing stands in the way and it has no record of today (effect of the finding on C26 on the whole scheduler; the next check, a moment later, starts it).
C85: silence_task_logging does not cover the records of terminations: `_terminate_run` calls `log_termination` (core/task.py:1026-1036) and `_check_termination` is awaited outside of any `try` (schedule.py:185), so one log record that cannot be written ends the scheduler although everything is silenced (`C85_termination_violated`). Likewise `handle_logs` looks up `self.session[record.task_name]` (schedule.py:266) before `_log_task`, so a record of a task removed meanwhile raises KeyError whatever is silenced.
C86: a request to shut down is lost while the scheduler shuts down for a restart with restarting='recall': serve clears the flags (schedule.py:112-114) and cycles go on (`C86_forgotten_violated`); and if a main task raises SchedulerRestart in the cycle in which shutdown was requested, the scheduler restarts all the same (`C86_late_violated`).
C87: hooks of the startup and of cycles are not resumed after a failure (the calls of postrun are not in a finally, schedule.py:328, 189; `C87_cycle_violated`). A shutdown hook that raises an exception before its yield makes serve end at once: running processes are neither waited for nor terminated, no shutdown task is run and is_alive stays true (prerun is called before the try, schedule.py:406-407; `C87_shutdown_violated`); one that raises after its yield leaves is_alive true (`C87_alive_violated`).
C88: two applications in one program with the default name of loggers share one logger, and the second one puts its repository first: records the tasks of the first one had logged are no longer found, and later ones land in both repositories (`C88_second_violated`). Raising the level of the logger after the start drops records of runs and successes silently while failures are kept, so statuses are wrong (`C88_level_violated`). A base name ending in `_process` is taken for a child process: nothing makes it readable (`C88_process_violated`).
C89: a task of a file made without `func_name` runs the function `main` but is called `…:None` (`C89_none_violated`). In the name of a file `.py` is removed wherever it occurs in the path joined with dots, so that `src/pyutils.py` is called `srcutils` and clashes with the file `srcutils.py` (`C89_py_violated`). Functions decorated with `@app.task()` are named without their module, so that two functions called `main` in different modules cannot both be tasks (`C89_decorated_violated`). Commands given as lists are joined with blanks: two different ones may get the same name (`C89_words_violated`).
C90: a code task is run with an empty dictionary of globals and the parameters as locals. Functions defined in the code therefore see neither the parameters of the task (`f = lambda x: x + foo` raises NameError, `C90_parameter_violated`) nor the variables and imports of the code, nor themselves: a recursive function fails with NameError at its first call of itself (`C90_recursion_violated`). The same text is correct as a script.
C91: `==` of most arguments compares `get_value()` called without task and session. Comparing two `FuncArg` therefore calls both functions; comparing two `Return` always raises AttributeError (`C91_return_violated`); two pipes that end in different secrets are equal, because both read as `*****` (`C91_secret_violated`); `Arg` compares the key only, so that references with different defaults are equal (`C91_default_violated`).
C92: `a && b` and `a || b` are read as `a` alone. The rightmost `&` takes the other `&` as its left operand (`_parse_all` accepts strings), the result is left standing beside `a`, and `_assemble` returns the first element. A start condition such as `"daily && after task 'x'"` is thus silently `daily`. `& a &` is read as `a`, `a ~ b` as `a`. `~~` and `~&` are accepted as conditions that have operator strings as their parts; a text that is only an operator is never accepted (`C92_operator`).
C93: a file outside of a package is loaded under its file name with the suffix (`Path(path).name`, e.g. `tasks.py`), a name that no import resolves to the file (`C93_alone_violated`): what a process task of such a file returns cannot be pickled if its class is defined there. A relative path inside a package, used with a working directory that is itself in the package, is refused with FileExistsError although the root exists (`C93_relative_violated`), because the parents of a relative path end at `.`.
C94: `TaskLogRecord.runtime` is wrong by a factor of a million. `_set_status` writes the runtime in seconds (a float), the validator `format_runtime` calls `to_timedelta(value)` whose default unit is the microsecond (`numb_to_timedelta(n, unit="μs")`): a run of 90 seconds is reported as 90 microseconds (`C94_runtime_violated`). The repository's test only checks that the field is a timedelta.
C95: two sessions of one process disturb each other. Their tasks log to the same logger by default and find their records by name only, so a success of the task `t` of one session counts for the task `t` of the other (`C95_name_violated`). `force_status_from_logs` is read from `self.session` of the condition, the class attribute `RedBase.session`, not from the session that is passed to `observe`: the application started last decides for all (`C95_option_violated`).
C96: a dictionary as a time of a month or year is always refused (`C96_month_violated`; `TimeOfMonth._scope` is "year", rocketry/time/interval.py:234), unknown keys are ignored silently, so `TimeOfDay({'hour': 10, 'minutes': 30})` starts at 10:00 and `TimeOfSecond({'millisecond': 500})` at 0 (`C96_ignored_violated`), and `TimeOfMinute(0, 30)` ends a second later than `TimeOfMinute(0, 30.0)` (`C96_float_violated`).
C97: texts of periods do not say which period it is. `TimeOfDay.at("23:00")` is "23 hours - " (the end is the beginning of the next cycle, of which `timedelta_to_str` shows nothing: anchor.py:420-423 mends this only for the start), `TimeOfHour` and `TimeOfDay` for the same ten minutes have the same text, `(a | b) & c` and `a | (b & c)` have the same text (base.py:373-374, 492-493 join without brackets), a month from its beginning starts with "0 months", which the reader refuses. Python's text of a negative duration ("-1 day, 23:59:00" for minus one minute) is read as nearly minus two days, as the reader applies the sign to the clock too (convert.py:224-334).
C98: `to_pykwargs` (pybox/query/base.py:17-52) swaps the sides of a comparison without turning it: `GreaterEqual(10, Key('x'))` gives `{'x': (10, None)}`, that is `x >= 10`. `x >= 5` and `x >= 3` give `(3, None)`; `name == 'daily'` and `name <= 'z'` give `('d', 'z')`, since the text is indexed like a range (lines 40-41).
C100: `c != d` of two counting conditions (`started() != failed()`) is true even when they are the same, and it changes `c`: without comparisons of its own, `c` is true from then on whatever happens (`C100_changes_violated`); `started != 3` forgets the 3 (`C100_loses_violated`).
C101: a task decorator kept in a variable and applied to a second function makes no task of it: the first task is run with the function as parameters, which logs a failed run of it and raises TaskSetupError (`C101_again_violated`).
C102: durations are measured on the local clock, not in real time. When the clock is put back (end of summer time) a task with every('10 s') that ran just before stands still for an hour, and so do minutely and hourly tasks (the cached time is later on the clock than now, and the beginning of the window, made by arithmetic, is taken as its first showing an hour ago); when it is put forward, every('1 hour') runs again at once. The option timezone avoids it. Theorems C102_back_violated, C102_forward_violated, C102_cycle_violated (conditions/task/utils.py:64-108, core/time/base.py:225-230).
C103: the attribute __rocketry__ of a function has room for one name only. @app.param() on a function that is a task makes session[func] raise KeyError and `func in session` false (conditions such as after_success(func) fail), @app.task() on a parameter function makes session.parameters[func] raise KeyError, and with two sessions session[func] may be the task of another function. Theorems C103_lost_task_violated, C103_lost_param_violated, C103_two_sessions_violated, C103_foreign_violated (tasks/func.py:205, parameters/func.py:43, session.py:204-206).
C104: a command task with a timeout always fails, at once, and its command goes on unwatched: self.timeout is a timedelta (core/task.py:230, 290-298) but Popen.communicate needs a number, so it raises TypeError, which is not the TimeoutExpired that command.py:88 catches to kill the command. A terminated command task in a process is logged as terminated while the command, a process of that process, goes on; in a thread nothing is terminated. Theorems C104_limit_violated, C104_endless_violated, C104_terminated_violated, C104_thread_violated.
C105: conditions about tasks ask the default session, not the one they are observed in, whether to read the log (self.session.config.force_status_from_logs, conditions/task/utils.py:66, task.py:170). With two apps in one process the one served last decides for both: an app that shares its log with other programs then ignores what these have logged and runs its daily tasks again. The text of shut_cond is read with the phrases of the default session (session.py:91). Theorems C105_history_violated, C105_running_violated, C105_shut_violated.
C106: slots for processes are given in the order of priority in every cycle anew, and requests have no precedence: as long as tasks of higher priority that are always due take all slots (max_process_count), a requested run of another process task (task.run()) is never started. Theorem C106_starved_violated: in no number of cycles.
C107: records are found by the task's present name only. After `task.name = new` the log is empty for the task: with force_status_from_logs, or after the next start of the scheduler, it never ran; counting conditions say 0 while the uncounted one says true (C107_count_violated); a task with after_success(other) that has already run since runs again at once (C107_again_violated); and a task that is given a name used before inherits the history of the former bearer (C107_inherits_violated).
C108: `succeeded.today == 0`, `failed >= 3` etc. are not conditions: `==` gives False and `!=` True (inherited from BaseCondition), the others raise TypeError, although the objects these shorthands stand for can be compared. `daily & (succeeded.today == 0)` is accepted and raises AttributeError ('bool' object has no attribute 'observe') in the check of the task as soon as the first part is true (C108_combined_violated). `running == running` is False (C108_self_violated).
C109: the status of a task is that of its last record, whichever run wrote it. With multilaunch, `task.is_running` is False as soon as one of several runs has ended, and if the program is killed then, the next start logs no crash for the others (C109_overlap_violated, C109_found_violated). A process killed from outside leaves is_running True (C109_killed_violated).
C110: `handle_logs` (schedule.py:280) would append the message to itself instead of the traceback; the line is never reached, as `QueueHandler.prepare` has put the traceback into the message. Records of processes read by `_lock_to_run_log` keep `__return__`, so that the return value is given to all handlers (and is not stored, C45). Formatters with their own `formatException` have no effect on tasks in processes.
C111: the record of a process task that failed may still wait in the queue when the task is checked again: with `~has failed past 10 minutes` it is started microseconds after its failure (C111_queue_violated). A task with `~every 10 minutes` is never started.
C112: tasks that wait for each other in a cycle (also a task that waits for itself) are never started, and nothing reports it. A task that starts `after task 'x' finished` can be started twice for one run of x, when that run logs a success and then a failure (a hook that fails at the end in a thread, C112_finish_violated).
C113: the value of a success read by `_lock_to_run_log` is dropped, so that `Return` gives the value of the run before (`C113_lock_violated`); a run that raises SchedulerRestart is a success without value (`C113_restart_violated`); a process whose return value cannot be pickled has no record of its end at all, as the queue drops the record, and the success of a process that raises SchedulerRestart is dropped for the same reason, because `log_success(task_run)` sends the TaskRun with the process object in it (`C113_pickle_violated`); the value of a thread is visible before its success (`C113_twice_violated`); a returned `Private` is read as `*****` (`C113_argument_violated`).
C114: `end_cond=running.more_than("2 mins")`, the example of the documentation, ends the wrong runs in three cases: with `multilaunch` all runs as soon as one of them is old; with `force_status_from_logs` a run that has just begun, if the run before it was longer than two minutes and ended less than two minutes ago; with the option `timezone` it raises, which with `silence_cond_check` ends every run at its first check. An end text like `daily` ends a run in the cycle in which it was started.
C115: `shut_cond="after task 'report'"`, `"every 1 hour"` and `"daily"` are accepted by the configuration although there is no task they could be about. The check of the shut condition raises `AttributeError` and the scheduler crashes at its first check (with `daily between …`, at the first check inside that period) before any task is run.
C116: `scheduler.on_hold = True` set before the scheduler is run has no effect: `serve` sets the flag (schedule.py:114), also when the scheduler restarts with 'recall'. Tasks with on_shutdown are started also on hold (schedule.py:344-354).
C117: `force_run` (task.py:380-385) is only written into the queue `batches`: set to True and back to False, the task reads False and is run all the same (even if disabled); set to True twice, it is run twice, and reads False (481, schedule.py:184) while the second run waits; a task that sets it for itself while it runs in the main process finds it False afterwards. If the parameters cannot be made (482), the batch stays and the task is forced again at every turn. An invalid `batches` together with `force_run=True` ends in a KeyError (384) instead of a validation error.
C118: with `func_run_id=increment` every run of a task that does not run in parallel has the id "1". With `force_status_from_logs=True` TaskRunning (conditions/task/task.py:188-207) takes the outcome of an earlier run for that of the present one: from the second run on the task never counts as running (`C118_increment_violated`), so that e.g. an end condition `running.more_than` never ends a run (`C118_endless_violated`).
C119: `task.logger.set_repo(repo)` (core/log/adapter.py:81-91) changes the handlers of the shared logger: all tasks lose their past with it (`C119_shared_violated`). A logger below the base name keeps passing its records up, so `session.get_task_log()` shows them twice (`C119_session_violated`).
C120: a ShutDown task (SchedulerExit) terminates all running tasks at once although `instant_shutdown` is not set, because only SchedulerRestart is among `non_fatal_excs` (schedule.py:357); `session.shut_down()` waits for them (`C120_wait_violated`). SchedulerExit and SchedulerRestart raised in threads, processes and asyncio tasks have no effect; a thread is logged to have succeeded and then to have failed (`C120_elsewhere_violated`). Raised by an `on_shutdown` task they keep the other shutdown tasks from being run and come out of `serve` (`C120_closing_violated`).
C121: `task.terminate()` is looked at after the start of the task in the same turn of the cycle (schedule.py:177-185), so a run that is started after the call is terminated with it, if the call was made before the turn of an idle task whose start condition holds (`C121_fresh_violated`). A task that was removed from the session cannot be terminated any more (`C121_removed_violated`), nor one whose end condition raises (`C121_cond_violated`).
C122: a start condition is observed with the task only (core/task.py:566), and `PipeArg.get_value` does not evaluate the arguments in the signatures of `Config`, `TaskLogger`, `SchedulerLogger` and `Task` (builtin.py:99-134), so in a pipe in a start condition they see an argument in place of the session and raise AttributeError or TypeError, which the pipe does not catch (`C122_pipe_violated`); for the same reason `repr(Config())` and `Config() == Config()` raise AttributeError (`C122_shown_violated`). `TaskLogger()` gives the logger of the configuration, also to a task with its own `logger_name` (`C122_own_logger_violated`); in a process the records of the run go to the logger with "._process" (core/task.py:755-768), so that what the function logs with `TaskLogger()` does not get to the main process (`C122_process_violated`).
C123: a comparison of three, `low <= Key("a") <= high`, is read by Python as `(low <= Key("a")) and (Key("a") <= high)`; an `Expression` (pybox/query/base.py:88-112) has no `__bool__` and counts as true, so the lower bound is lost without a word (`C123_chain_violated`). A record that lacks a field ends the filtering with a KeyError or not, depending on the order of `&` (`C123_order_violated`).
C124: `FuncArg(func, x=1)` for a function with `x=Arg(...)` (or another argument as default) raises TypeError whenever it is evaluated, because the value of the default is passed as well (builtin.py:248, `C124_given_violated`). `session.parameters.param_func` passes the session that is the library's default at that time (parameters.py:140), not the session of the parameters or of the task (`C124_session_violated`), and a function with `session=Session()` set this way always fails (`C124_asked_violated`).
C125: the interval before (after) an instant given by a union of periods depends on the order of a frozenset, so on hashes, when two members end (start) at the same time (core/time/base.py:440-445, 469-474, `C125_union_violated`); intersections do not (`C125_rollback`).

## 6. Parts of the code that are modelled

Per source file: functions that definitions of the model cite, with the model files in brackets, then the functions
not modelled.  Files without functions are left out.

* `rocketry/_setup.py`
  - _setup_defaults [Text/CondItems]
* `rocketry/application.py`
  - _AppMixin.task [Session/Decorate]
  - _AppMixin.include_grouper, Grouper.__init__ [Session/Group]
  - Rocketry.__init__ [Session/AppLog, Session/Options]
  - Rocketry.run [Session/Creation, Session/Options, Task/Sessions, Task/Shared]
  - Rocketry.serve [Session/Creation, Task/Sessions, Task/Shared]
  - Rocketry._get_task_logger, Rocketry._set_logger_with_repo, Rocketry.setup [Session/AppLog]
  - not modelled: _AppMixin.param, _AppMixin.cond, _AppMixin.params, Rocketry.set_logger
* `rocketry/args/builtin.py`
  - SimpleArg.__init__, SimpleArg.get_value, Arg.__init__, Arg.get_value, Arg.__str__, Arg.__repr__, Return.__repr__, Return.__str__ [Session/Args, Session/Where]
  - Arg.__eq__ [Session/ArgEq, Session/Args, Session/Where]
  - Session.__init__, Session.get_value, Session.__repr__, Config.get_value, TaskLogger.get_value, SchedulerLogger.get_value [Session/Builtin]
  - Task.__init__, Task.get_value, Task.__repr__ [Session/Args, Session/Builtin]
  - Return.__init__, Return.get_value [Session/Args, Session/Where, Task/Returned]
  - FuncArg.__init__, FuncArg.get_value, FuncArg.__call__ [Session/Args, Session/Builtin, Session/FuncArgCall, Session/Where]
  - FuncArg.stage, FuncArg.__repr__ [Session/Args, Session/Builtin, Session/Where]
  - TerminationFlag.get_value, TerminationFlag.__repr__, TerminationFlag.__str__ [Session/Where]
  - EnvArg.__init__, EnvArg.get_value, CliArg.__init__, CliArg.get_value, CliArg._get_arg [Session/Args]
  - argument [Session/FuncArgCall]
  - not modelled: NotSet.__repr__
* `rocketry/args/secret.py`
  - Private.__init__, Private.get_value, Private.__repr__, Private.__str__ [Session/Args]
  - Private.__eq__ [Session/ArgEq, Session/Args]
* `rocketry/conditions/api.py`
  - TimeCondWrapper.__init__ [Cond/Api, Cond/Compared, Cond/CondEq]
  - TimeCondWrapper.between, TimeCondWrapper.before, TimeCondWrapper.after, TimeCondWrapper.on, TimeCondWrapper.at, TimeCondWrapper.starting, TimeActionWrapper.__init__, TimeActionWrapper.observe, TimeActionWrapper.__call__, TimeActionWrapper.this_minute, TimeActionWrapper.this_hour, TimeActionWrapper.this_day, TimeActionWrapper.this_week, TimeActionWrapper.this_month, TimeActionWrapper.today, TimeActionWrapper._get_wrapper, TimeActionWrapper.get_cond, RunningWrapper.__call__, RunningWrapper.get_cond [Cond/Api, Cond/Compared]
  - TimeCondWrapper.observe, TimeCondWrapper.get_cond, TimeCondWrapper._get_cond [Cond/Api, Cond/Compared, Text/CondItems]
  - TimeCondWrapper.__str__ [Cond/Compared, Text/CondText]
  - RetryWrapper.__call__, RetryWrapper.observe, RetryWrapper.get_cond, RunningWrapper.__init__, RunningWrapper.observe, RunningWrapper.__ge__, RunningWrapper.__le__, RunningWrapper.__gt__, RunningWrapper.__lt__, RunningWrapper.__eq__, RunningWrapper.__ne__ [Cond/Compared]
  - RunningWrapper.more_than, RunningWrapper.less_than, RunningWrapper.between [Cond/Compared, Task/RunningFor, Time/Zoned]
  - every [Cond/Api, Task/Conditions, Time/LocalClock]
  - cron [Cond/Api, Task/CronCond, Text/CondItems]
  - after_success, after_fail, after_finish, after_all_success, after_all_fail, after_all_finish, after_any_success, after_any_fail, after_any_finish, scheduler_cycles [Cond/Api]
  - scheduler_running [Cond/Compared, Sched/Cycles, Time/Zoned]
  - not modelled: crontime, condition
* `rocketry/conditions/func.py`
  - FuncCond.__init__, FuncCond._recreate, FuncCond.__call__, FuncCond.get_state, FuncCond._set_parsing [Session/FuncCond]
  - FuncCond.__bool__ [Session/FuncCond]
  - FuncCond.observe [Session/Builtin, Session/FuncCond]
  - not modelled: FuncCond.__repr__
* `rocketry/conditions/meta.py`
  - _FuncTaskCondWrapper._handle_return, TaskCond.__init__, TaskCond._set_task, TaskCond.__call__, TaskCond.get_state, TaskCond._set_parsing [Session/TaskCond]
  - not modelled: TaskCond._get_func_name
* `rocketry/conditions/parameter.py`
  - IsEnv.__init__ [Cond/CondEq]
  - IsEnv.get_state, ParamExists.__bool__, ParamExists._from_key_value [Task/Situation]
  - ParamExists.__init__ [Cond/CondEq, Task/Situation]
  - ParamExists._from_list [Task/Situation]
* `rocketry/conditions/scheduler.py`
  - SchedulerCycles.get_measurement [Sched/Cycles, Session/RunOnly]
  - SchedulerCycles.__str__, SchedulerStarted.__str__ [Text/CondText]
  - SchedulerCycles.from_magic [Text/CondItems]
  - SchedulerStarted.__init__ [Cond/CondEq]
  - SchedulerStarted.get_state [Sched/Cycles, Time/Zoned]
* `rocketry/conditions/task/task.py`
  - TaskStarted.__str__, TaskTerminated.__str__, TaskSucceeded.__str__, TaskFinished.__str__, TaskRunning.__str__, TaskInacted.__str__, TaskExecutable.__str__ [Text/CondText]
  - TaskFailed.__str__ [Text/CondText]
  - TaskRunning.__init__ [Task/RunningFor, Time/Zoned]
  - TaskRunning.get_measurement [Task/Conditions, Task/RunningFor, Task/Sessions, Task/Shared, Task/Situation, Time/Zoned]
  - TaskExecutable.__init__ [Cond/CondEq]
  - TaskExecutable.get_state [Task/Clocked, Task/Conditions, Task/Situation, Time/LocalClock, Time/Zoned]
  - TaskRunnable.get_state [Task/Clocked, Task/Conditions, Task/CronCond, Task/Situation, Time/Zoned]
  - DependFinish.__str__ [Props/CondTextProps]
  - Retry.__init__, Retry.get_state [Task/Conditions]
  - not modelled: TaskExecutable._from_period, TaskRunnable.__init__, TaskRunnable.__str__, DependSuccess.__str__, DependFailure.__str__
* `rocketry/conditions/task/utils.py`
  - DependMixin.__init__, TaskStatusMixin.__init__ [Cond/CondEq]
  - DependMixin.get_state [Task/Conditions, Task/Situation]
  - TaskStatusMixin.get_measurement [Task/Bare, Task/Conditions, Task/Sessions, Task/Shared, Task/Situation, Time/LocalClock, Time/Zoned]
  - not modelled: DependMixin._parse_multi_all, DependMixin._parse_multi_any, TaskStatusMixin.__str__
* `rocketry/conditions/time.py`
  - IsPeriod.__init__ [Cond/CondEq, Text/CondItems]
  - IsPeriod.get_state [Task/Conditions, Time/LocalClock, Time/Zoned]
  - IsPeriod.__str__ [Text/CondText]
  - not modelled: IsPeriod.__repr__
* `rocketry/core/condition/base.py`
  - BaseCondition.observe [Cond/Cond, Session/Builtin, Task/Clocked, Task/Situation]
  - BaseCondition.__bool__ [Cond/CondNe]
  - BaseCondition.__and__, BaseCondition.__or__, Any.__init__, Any.__str__, Not.__invert__, AlwaysTrue.__str__, AlwaysFalse.__str__ [Cond/Cond, Text/CondText]
  - BaseCondition.__invert__, All.__init__ [Cond/Compared, Cond/Cond, Text/CondText]
  - BaseCondition.__eq__, BaseComparable.__eq__ [Cond/Compared, Cond/CondEq, Cond/CondNe]
  - BaseCondition.__str__ [Text/CondText]
  - _ConditionContainer.__eq__ [Cond/CondEq]
  - Any.observe, Not.__init__, Not.observe, Not.__repr__, Not.subconditions, AlwaysTrue.observe, AlwaysTrue.__repr__, AlwaysFalse.observe, AlwaysFalse.__repr__ [Cond/Cond]
  - All.observe [Cond/Compared, Cond/Cond]
  - All.__str__, Not.__str__ [Cond/Cond, Text/CondText]
  - Not.__eq__ [Cond/Cond, Cond/CondEq]
  - BaseComparable.__init__, BaseComparable._is_any_over_zero, BaseComparable._is_equal_zero [Cond/Compared, Cond/Cond, Cond/CondNe]
  - BaseComparable.observe [Cond/Compared, Cond/CondNe, Sched/Cycles, Task/Conditions, Task/RunningFor, Task/Situation]
  - BaseComparable.get_measurement [Cond/Compared, Cond/CondNe, Task/Conditions]
  - BaseComparable.get_state [Cond/Compared, Cond/Cond, Cond/CondNe, Task/Conditions]
  - BaseComparable.__ne__, BaseComparable.__lt__, BaseComparable.__gt__, BaseComparable.__le__, BaseComparable.__ge__ [Cond/Compared, Cond/CondNe]
  - BaseComparable._set_comparison [Cond/Compared, Cond/Cond, Cond/CondNe, Text/CondText]
  - BaseComparable.from_magic [Cond/Compared, Cond/Cond, Cond/CondNe, Text/CondItems]
  - not modelled: BaseCondition.get_state, _ConditionContainer.__getitem__, _ConditionContainer.__iter__, _ConditionContainer.__repr__
* `rocketry/core/hook.py`
  - _Hooker.prerun, _Hooker.postrun [Sched/Hooked, Task/Hooks]
  - not modelled: _Hooker.__init__, clear_hooks
* `rocketry/core/log/adapter.py`
  - TaskAdapter.__init__ [Session/Builtin, Task/Renamed]
  - TaskAdapter._modify_record [Session/Loggers, Task/Log]
  - TaskAdapter.process [Task/Queue]
  - TaskAdapter.filter_by [Session/Loggers, Task/Log, Task/Query, Task/Renamed, Task/Shared]
  - TaskAdapter.get_records [Session/Loggers, Task/Log, Task/Query]
  - TaskAdapter.set_repo, TaskAdapter._delete_repo [Session/SetRepo]
  - TaskAdapter._get_repo [Session/Loggers]
  - TaskAdapter.get_latest [Task/Log, Task/Query]
  - TaskAdapter.is_readable, TaskAdapter.is_readable_unset [Session/AppLog]
  - not modelled: TaskAdapter.handle, TaskAdapter.addHandler, TaskAdapter.handlers, TaskAdapter.__eq__, TaskAdapter.task_name
* `rocketry/core/parameters/arguments.py`
  - BaseArgument.get_value, BaseArgument.__str__, BaseArgument.__rshift__ [Session/Args]
  - BaseArgument.stage, PipeArg.__init__, PipeArg.__iter__, PipeArg.get_value [Session/Args, Session/Builtin, Session/Where]
  - BaseArgument.__eq__ [Session/ArgEq, Session/Args, Session/Builtin]
  - BaseArgument.__repr__ [Session/Args, Session/Builtin]
* `rocketry/core/parameters/parameters.py`
  - Parameters.__init__, Parameters.__iter__, Parameters.__len__, Parameters.__or__ [Session/Args, Session/ParamObjs]
  - Parameters._from_signature [Session/Args, Session/FuncCond]
  - Parameters.get [Session/ParamObjs, Task/Returned]
  - Parameters._get [Session/Args, Session/FuncLinks, Session/ParamObjs, Task/Returned]
  - Parameters.__getitem__ [Session/Args, Session/Builtin, Session/ParamObjs]
  - Parameters.pre_materialize [Session/Args, Session/Builtin, Session/ParamObjs, Session/Where]
  - Parameters.materialize [Session/Args, Session/Builtin]
  - Parameters.__setitem__, Parameters.update, Parameters.clear, Parameters.copy, Parameters.to_dict [Session/ParamObjs]
  - Parameters.param_func [Session/FuncArgCall]
  - Parameters.__repr__, Parameters.__getstate__ [Session/Args]
  - Parameters.__eq__ [Session/ArgEq]
  - get_kwargs [Session/Builtin]
  - not modelled: Parameters.__ne__, Parameters.items, Parameters.keys, Parameters.to_json
* `rocketry/core/schedule.py`
  - Scheduler.tasks, Scheduler.check_task_cond, Scheduler.run_task, Scheduler.terminate_all, Scheduler.terminate_task, Scheduler._hibernate, Scheduler.has_free_processors, Scheduler.count_process_tasks_alive, Scheduler.n_alive, Scheduler._shut_down_tasks, Scheduler.wait_task_alive, Scheduler.check_thread_errors [Sched/Scheduler]
  - Scheduler.serve [Sched/Hooked, Sched/Scheduler, Session/RunOnly]
  - Scheduler.run_cycle [Sched/Hooked, Sched/Scheduler, Task/ForceRun, Task/History, Task/RunIds]
  - Scheduler.check_shut_cond [Sched/Cycles, Sched/Scheduler, Session/Builtin, Session/RunOnly]
  - Scheduler.is_task_runnable [Sched/Scheduler, Session/Options, Task/History]
  - Scheduler.handle_logs [Sched/Scheduler, Session/TaskCond, Task/History, Task/Queue, Task/RecordText, Task/Returned]
  - Scheduler.startup [Sched/Cycles, Sched/Hooked, Sched/Scheduler, Sched/State, Task/History, Task/Log, Time/Zoned]
  - Scheduler.run_shutdown_tasks [Sched/Scheduler]
  - Scheduler.shut_down, Scheduler._restart [Sched/Hooked, Sched/Scheduler]
  - Scheduler.on_hold [Sched/State]
  - Scheduler._log_task [Task/Queue]
  - not modelled: Scheduler.__init__, Scheduler.__call__, Scheduler.run, Scheduler.on_hold, Scheduler.set_shut_down, Scheduler.logger, Scheduler.logger
* `rocketry/core/task.py`
  - TaskRun.is_alive [Sched/State, Task/CommandRun, Task/History]
  - TaskRun.terminate [Sched/Scheduler, Sched/State, Task/CommandRun]
  - TaskRun.is_main, TaskRun.is_process, TaskRun.is_async, TaskRun.is_thread, Task.terminate [Sched/State]
  - Task.parse_start_cond [Cond/Compared, Session/Group, Task/Sessions]
  - Task.parse_end_cond [Task/Sessions]
  - Task.parse_logger_name, Task.logger [Session/Loggers, Task/Renamed]
  - Task.parse_timeout [Session/Loggers, Session/Options, Task/CommandRun, Task/Renamed]
  - Task.__init__ [Session/Creation, Session/Decorate, Session/DefaultName, Session/Names]
  - Task._get_name [Session/Creation, Session/DefaultName]
  - Task.parse_name [Session/Names, Task/Renamed]
  - Task.validate_name [Session/Names, Task/Renamed, Task/Returned]
  - Task.parse_force_run [Task/ForceRun]
  - Task.__hash__ [Session/Names, Task/Returned]
  - Task.run [Sched/State, Task/ForceRun]
  - Task.is_running [Task/RunningNow]
  - Task.is_alive, Task.n_alive [Sched/Scheduler, Task/RunningNow]
  - Task.__call__, Task.start [Session/Decorate]
  - Task.start_async [Sched/Scheduler, Sched/State, Session/Args, Session/Decorate, Task/Delayed, Task/ForceRun, Task/History, Task/Returned, Task/Run, Task/RunIds, Task/RunTimes, Task/RunningNow]
  - Task.__bool__, Task.run_as_main, Task._run_as_main [Task/History, Task/Returned]
  - Task.is_runnable [Sched/Scheduler, Sched/State, Session/Builtin, Task/ForceRun, Task/History, Task/Returned]
  - Task._run_as_async [Session/Args, Session/Builtin, Session/TaskCond, Session/Where, Task/CommandRun, Task/Delayed, Task/History, Task/Hooks, Task/Returned, Task/Run]
  - Task.run_as_thread [Sched/Scheduler, Sched/State, Session/Args, Session/Builtin, Session/Where, Task/CommandRun, Task/History, Task/Returned, Task/Run, Task/RunTimes]
  - Task._run_as_thread [Sched/Scheduler, Sched/State, Session/Where, Task/History, Task/Returned, Task/Run]
  - Task.run_as_process [Sched/Scheduler, Sched/State, Session/Args, Session/Builtin, Session/Options, Session/Where, Task/Command, Task/History, Task/Returned]
  - Task._run_as_process [Session/Builtin, Session/Where, Task/History, Task/Returned, Task/Run, Task/RunTimes]
  - Task.get_extra_params [Session/Args, Session/Decorate]
  - Task._get_direct_params [Sched/Scheduler, Session/Args, Task/ForceRun]
  - Task.get_task_params, Task.prefilter_params, Task.postfilter_params [Session/Args]
  - Task.register [Session/Names]
  - Task._init_cache, Task.get_status [Task/Log]
  - Task.set_cached [Session/TaskCond, Task/Log, Task/Renamed, Task/RunningNow]
  - Task.get_run_id [Session/Options, Task/RunIds]
  - Task.count_processes_taken [Sched/Scheduler]
  - Task._check_termination [Sched/Scheduler, Session/Builtin, Session/Options]
  - Task._clean_run_stack [Sched/Scheduler, Task/RunningNow]
  - Task._check_exceptions [Sched/Scheduler]
  - Task._terminate_all [Sched/Scheduler, Task/CommandRun]
  - Task._terminate_run [Sched/Scheduler, Task/CommandRun, Task/History, Task/Returned, Task/Run]
  - Task._lock_to_run_log [Sched/State, Task/History, Task/Queue, Task/RecordText, Task/Returned, Task/Run, Task/RunTimes]
  - Task.log_record [Task/Log, Task/Queue, Task/Returned]
  - Task._set_status [Session/AppLog, Session/Loggers, Task/Log, Task/Queue, Task/RecordText, Task/Records, Task/Renamed, Task/Returned, Task/Run, Task/RunIds, Task/RunTimes, Task/RunningNow]
  - Task.get_last_success, Task.get_last_fail, Task.get_last_run, Task.get_last_terminate, Task.get_last_inaction, Task.get_last_crash [Time/LocalClock, Time/Zoned]
  - Task.get_execution [Sched/State, Session/Options]
  - Task._get_last_action, Task._get_last_action_from_log [Task/Log, Task/RunTimes]
  - Task.__getstate__ [Session/Where, Task/RecordText, Task/Run]
  - Task._handle_return [Task/Queue, Task/Returned]
  - Task.period [Task/Bare]
  - not modelled: _create_session, Task.parse_parameters, Task.delete, Task.execute, Task.process_failure, Task.process_success, Task.process_finish, Task.get_default_name, Task.is_alive_as_main, Task.is_alive_as_async, Task.is_alive_as_thread, Task.is_alive_as_process, Task.log_running, Task.log_failure, Task.log_success, Task.log_termination, Task.log_inaction, Task.log_crash, Task._get_hooks, Task.lock, Task.last_run, Task.last_success, Task.last_fail, Task.last_terminate, Task.last_crash, Task.last_inaction, Task.json
* `rocketry/core/time/anchor.py`
  - AnchoredInterval.__init__ [Text/CondItems, Time/Anchored]
  - AnchoredInterval.anchor [Text/CondItems, Time/Anchored, Time/Parts]
  - AnchoredInterval.anchor_float, AnchoredInterval.anchor_dict [Time/Parts]
  - AnchoredInterval.anchor_int [Time/Anchored, Time/Parts]
  - AnchoredInterval.anchor_dt, AnchoredInterval.set_start, AnchoredInterval.set_end, AnchoredInterval.to_timepoint, AnchoredInterval.at, AnchoredInterval.starting [Time/Anchored]
  - AnchoredInterval.create_range [Time/Cron]
  - AnchoredInterval._validate [Text/TimeText, Time/Anchored]
  - AnchoredInterval.__contains__ [Time/Anchored, Time/Period, Time/Zoned]
  - AnchoredInterval.is_full, AnchoredInterval.get_scope_back, AnchoredInterval.get_scope_forward, AnchoredInterval.rollstart, AnchoredInterval.next_start, AnchoredInterval.next_end, AnchoredInterval.prev_start, AnchoredInterval.prev_end [Time/Anchored, Time/Zoned]
  - AnchoredInterval.rollend [Time/Anchored, Time/LocalClock, Time/Zoned]
  - AnchoredInterval.__str__ [Text/PeriodText]
  - not modelled: AnchoredInterval.start, AnchoredInterval.start, AnchoredInterval.end, AnchoredInterval.end, AnchoredInterval.anchor_str, AnchoredInterval.repr_ms, AnchoredInterval.__repr__
* `rocketry/core/time/base.py`
  - TimePeriod.__contains__ [Time/Cron, Time/Period]
  - TimePeriod.__and__, TimePeriod.__or__, TimeInterval.__contains__, TimeInterval.__eq__, TimeDelta.use_reference, TimeDelta.__contains__, TimeDelta.rollforward, TimeDelta.__eq__, All.__eq__, Any.__init__, Any.__eq__, StaticInterval.__init__ [Time/Period]
  - TimeInterval.rollforward [Time/Anchored, Time/Period, Time/Zoned]
  - TimeInterval.rollback [Time/Anchored, Time/LocalClock, Time/Period, Time/Zoned]
  - TimeDelta.__init__ [Text/CondItems, Time/Period]
  - TimeDelta.rollback [Time/LocalClock, Time/Period]
  - TimeDelta.__str__, All.__str__, Any.__str__, StaticInterval.__str__ [Text/PeriodText]
  - All.__init__ [Time/Period]
  - All.rollback [Time/Period, Time/Zoned]
  - All.rollforward, Any.rollback [Time/Period, Time/Zoned]
  - Any.rollforward, StaticInterval.rollback, StaticInterval.rollforward [Time/Period, Time/Zoned]
  - not modelled: TimePeriod.rollforward, TimePeriod.rollback, TimeInterval.rollstart, TimeInterval.rollend, TimeInterval.next_start, TimeInterval.next_end, TimeInterval.prev_start, TimeInterval.prev_end, TimeInterval.from_between, TimeInterval.is_full, TimeDelta.get_reference, TimeDelta.__repr__, all_overlap, get_overlapping, All.__repr__, Any.__repr__, StaticInterval.is_max_interval, StaticInterval.__repr__
* `rocketry/core/time/utils.py`
  - get_period_span [Time/LocalClock, Time/Period, Time/Zoned]
* `rocketry/core/utils/meta.py`
  - filter_keyword_args [Session/Args, Session/FuncArgCall, Task/Command]
* `rocketry/core/utils/pickle.py`
  - not modelled: is_pickleable
* `rocketry/core/utils/process.py`
  - not modelled: is_main_subprocess
* `rocketry/log/defaults.py`
  - create_default_handler [Session/AppLog]
* `rocketry/log/handlers.py`
  - QueueHandler.prepare [Task/RecordText]
* `rocketry/log/log_record.py`
  - TaskLogRecord.format_start, TaskLogRecord.format_end, TaskLogRecord.format_runtime [Task/Records]
* `rocketry/log/utils.py`
  - not modelled: get_field_value
* `rocketry/parameters/func.py`
  - FuncParam.__call__ [Session/FuncLinks]
  - not modelled: FuncParam.__init__, FuncParam._get_name
* `rocketry/parse/_condition/condition_item.py`
  - parse_condition_item [Session/FuncCond, Session/TaskCond, Task/Sessions, Text/CondItems]
  - not modelled: add_condition_parser
* `rocketry/parse/_condition/string.py`
  - _flatten, _parse_any, _parse_all, _parse_not [Text/Parser]
* `rocketry/parse/_setup_cond_parsers.py`
  - _from_period_task_has, _set_task_has_parsing, _set_scheduler_parsing, _set_task_exec_parsing, _set_task_running_parsing, _set_task_pipelining_parsing, _set_misc_parsing [Text/CondItems]
  - _set_is_period_parsing [Text/CondItems]
* `rocketry/parse/_time/string.py`
  - _flatten, _parse_any, _parse_all [Text/Parser]
* `rocketry/parse/_time/time_item.py`
  - parse_time_item [Text/CondItems]
* `rocketry/parse/condition.py`
  - _parse_condition_string [Text/CondText, Text/Parser]
  - parse_condition [Session/Options]
  - not modelled: _parse_bool
* `rocketry/parse/time.py`
  - not modelled: _parse_time_string
* `rocketry/parse/utils/cond.py`
  - CondParser.__init__, CondParser.__call__ [Session/TaskCond]
* `rocketry/parse/utils/parser.py`
  - not modelled: ParserPicker.__init__, ParserPicker.__call__
* `rocketry/parse/utils/string_parser.py`
  - InstructionParser.__call__, InstructionParser._parse, InstructionParser._assemble, InstructionParser._assemble_oper, InstructionParser._split_operations, _flatten_tuples [Text/Parser]
  - not modelled: InstructionParser.__init__, InstructionParser._contains_operator, InstructionParser._index
* `rocketry/parse/utils/utils.py`
  - not modelled: _get_session
* `rocketry/pybox/container/visitor.py`
  - Visitor.assign_elements, Visitor.reduce [Text/Parser]
  - not modelled: Visitor.__init__, Visitor.flatten, Visitor._assign_value, Visitor.has_sub_containers, Visitor.apply, Visitor.iter, Visitor._get_container, Visitor.is_visitable
* `rocketry/pybox/pkg/path.py`
  - find_package_root [Task/PackageRoot]
* `rocketry/pybox/query/base.py`
  - QueryBase._get_value, QueryBase.filter, All.__init__, All.match, All.__iter__, All.__repr__, All.__str__, Any.__init__, Any.match, Any.__iter__, Any.__str__, Not.__init__, Not.match, Not.__str__, Equal.__init__, Equal.match, Equal.__str__, NotEqual.__init__, NotEqual.match, NotEqual.__str__, Greater.__init__, Greater.match, Greater.__str__, GreaterEqual.__init__, GreaterEqual.match, GreaterEqual.__str__, Less.__init__, Less.match, Less.__str__, LessEqual.__init__, LessEqual.match, LessEqual.__str__, Boolean.__init__, Boolean.match [Task/Query]
  - QueryBase.to_pykwargs [Task/QueryKwargs]
  - Key.__init__, Key.get_value, Expression.__and__, Expression._to_comparable [Task/Query, Task/QueryWritten]
  - Key.__eq__, Key.__ne__, Key.__gt__, Key.__lt__, Key.__ge__, Key.__le__, Key.__repr__, Key.__str__, Expression.__or__, Expression.__invert__ [Task/QueryWritten]
* `rocketry/pybox/query/parse.py`
  - Parser._get_operation, Parser.from_dict, Parser.from_tuples, Parser.from_kwargs [Task/Query]
* `rocketry/pybox/query/string.py`
  - Regex.__init__ [Task/Query, Task/QueryWritten]
  - Regex.match, Regex.__str__ [Task/Query]
* `rocketry/pybox/string/parse/closure.py`
  - ClosureParser.to_list, ClosureParser.find_outer_indices, ClosureParser._get_next_element [Text/Parser]
  - not modelled: ClosureParser.__init__, ClosureParser.count
* `rocketry/pybox/time/convert.py`
  - to_timestamp [Time/LocalClock, Time/Zoned]
  - to_datetime [Task/Records, Time/Zoned]
  - to_timedelta, numb_to_timedelta [Task/Records]
  - timedelta_to_dict, string_to_timedelta [Text/Duration]
  - timedelta_to_str [Text/Duration, Text/PeriodText]
  - to_microseconds [Text/Duration, Time/Calendar]
  - not modelled: datetime_to_dict, string_to_datetime
* `rocketry/pybox/time/interval.py`
  - Interval.__post_init__, Interval.__contains__, Interval.overlaps, Interval.__and__ [Time/Interval, Time/Zoned]
  - Interval.is_empty [Time/Interval]
  - not modelled: Interval.__repr__
* `rocketry/session.py`
  - Config.parse_task_execution [Sched/State, Session/Options]
  - Config.parse_shut_cond [Session/Options, Task/Sessions]
  - Config.parse_timeout, Config.task_execution, Config.set_deprecated, Session._get_config [Session/Options]
  - Session._get_task_name [Session/FuncLinks, Session/Listing, Session/Names]
  - Session.__init__ [Session/Names, Session/Options, Session/TaskCond, Text/CondItems]
  - Session.__getitem__ [Session/Builtin, Session/FuncLinks, Session/Names, Task/Returned, Task/Situation]
  - Session.__contains__ [Session/FuncLinks, Session/Names, Task/Renamed]
  - Session.start, Session.serve, Session._set_configs, Session._wrap_log_record_creation, Session.get_task_loggers, Session.get_task_log, Session.delete_task_loggers, Session.get_current_time, Session.get_time [Session/Loggers]
  - Session.run [Session/RunOnly]
  - Session.restart, Session.shut_down [Sched/State]
  - Session._check_readable_logger [Session/AppLog]
  - Session.get_cond_parsers [Text/CondItems]
  - Session.create_task [Session/Decorate, Session/DefaultName]
  - Session.add_task [Sched/State, Session/FuncLinks, Session/Names, Task/Returned]
  - Session.remove_task [Sched/State, Session/FuncLinks, Session/Names, Task/Renamed, Task/Returned]
  - Session.clear [Session/Names]
  - Session.__getstate__, Session._copy_pickle [Session/Where]
  - Session.set_as_default [Session/Creation, Task/Sessions, Task/Shared]
  - Session.hook_startup, Session.hook_shutdown, Session.hook_scheduler_cycle [Sched/Hooked]
  - Session.hook_task_init [Session/Creation]
  - Session._get_datetime_now [Session/Loggers, Time/Zoned]
  - Session._format_timestamp [Session/Loggers, Time/LocalClock, Time/Zoned]
  - not modelled: Session._get_parameters, Session.shutdown, Session.get_tasks, Session.get_task, Session.task_exists, Session.get_repo, Session.env, Session.env, Session.hook_task_execute
* `rocketry/tasks/code.py`
  - CodeTask.execute [Task/Code]
  - CodeTask.get_default_name [Session/DefaultName]
* `rocketry/tasks/command.py`
  - CommandTask.get_kwargs_popen, CommandTask.parse_argform [Task/CommandRun]
  - CommandTask.execute [Task/Command, Task/CommandRun]
  - CommandTask.get_default_name [Session/DefaultName]
  - not modelled: CommandTask.postfilter_params
* `rocketry/tasks/func.py`
  - get_module [Task/PackageRoot]
  - TempSysPath.__init__, TempSysPath.__enter__, TempSysPath.__exit__ [Task/ImportPath]
  - FuncTask.delayed, FuncTask.validate_path, FuncTask.validate_func [Session/Decorate]
  - FuncTask.__init__ [Session/Decorate, Session/FuncLinks]
  - FuncTask.__call__ [Session/Decorate, Session/FuncLinks, Session/Names]
  - FuncTask._set_descr [Session/Args]
  - FuncTask.execute, FuncTask.process_finish, FuncTask.is_delayed, FuncTask.kw_args [Task/Delayed]
  - FuncTask.get_func [Session/DefaultName, Task/Delayed, Task/ImportPath, Task/PackageRoot]
  - FuncTask.get_default_name [Session/DefaultName]
  - FuncTask.get_task_params, FuncTask.prefilter_params, FuncTask.postfilter_params [Session/Args, Task/Delayed]
  - not modelled: FuncTask.pos_args
* `rocketry/tasks/maintain/os.py`
  - Restart.__init__, Restart.execute, ShutDown.__init__, ShutDown.execute [Spec/MaintainSpec]
  - Restart.get_default_name, ShutDown.get_default_name [Session/DefaultName]
* `rocketry/tasks/run_id.py`
  - increment [Session/Names, Task/RunIds]
  - uuid [Task/RunIds]
* `rocketry/testing/log.py`
  - not modelled: create_record, create_task_record
* `rocketry/time/construct.py`
  - get_between, get_after, get_before, get_on [Text/CondItems]
  - get_full_cycle [Text/CondItems]
* `rocketry/time/cron.py`
  - Cron.__init__ [Task/Situation, Text/CondItems, Time/Cron]
  - Cron.rollforward, Cron.rollback [Task/Situation, Time/Cron]
  - Cron._get_period_from_expr, Cron._convert_day_of_week, Cron.get_subperiod [Time/Cron]
* `rocketry/time/delta.py`
  - TimeSpanDelta.__init__, TimeSpanDelta.use_reference, TimeSpanDelta.__contains__, TimeSpanDelta.rollback, TimeSpanDelta.rollforward, TimeSpanDelta.__eq__ [Time/Period]
  - not modelled: TimeSpanDelta.__str__, TimeSpanDelta.__repr__
* `rocketry/time/interval.py`
  - TimeOfSecond.anchor_float, TimeOfMinute.anchor_float [Time/Anchored, Time/Parts]
  - TimeOfSecond.anchor_int, TimeOfHour.anchor_int, TimeOfDay.anchor_int, TimeOfDay.anchor_dt, TimeOfWeek.anchor_int, TimeOfWeek.anchor_dt, TimeOfMonth.anchor_int, TimeOfMonth.anchor_dt, TimeOfMonth.get_scope_forward, TimeOfMonth.get_scope_back, TimeOfYear.to_timepoint, TimeOfYear.anchor_int, TimeOfYear.anchor_dt [Time/Anchored]
  - TimeOfSecond.anchor_str, TimeOfMinute.anchor_str, TimeOfHour.anchor_str, TimeOfDay.anchor_str, TimeOfWeek.anchor_str, TimeOfMonth.anchor_str [Text/TimeText, Time/Anchored]
  - TimeOfMinute.anchor_int [Time/Anchored, Time/Cron]
  - TimeOfYear.anchor_str [Text/TimeText, Time/Anchored]
  - RelativeDay.__init__, RelativeDay.rollforward [Time/Period]
  - RelativeDay.rollback [Time/Period, Time/Zoned]
  - not modelled: RelativeDay.__repr__
* `rocketry/utils/dependencies.py`
  - Link.__init__, Dependencies.__iter__, Dependencies._get_links, get_dependencies [Session/Listing]
  - not modelled: Link.__iter__, Link.__eq__, Link.__str__, Link.__repr__, Dependencies.__init__

## 7. Axioms

Theorems are in the namespace `Rocketry.Props`.  `Verif/Audit.lean` prints the axioms in the build.

* propext, Classical.choice, Quot.sound (386 theorems): `C01_contains`, `C01_and_mem`, `C01_overlaps_complete`, `C01_overlaps_symm`, `C01_overlaps_iff`, `C02_constructor`, `C02_contains`, `C03_rollforward_partial`, `C03_degenerate_violated`, `C04_rollback_partial`, `C05_iterate`, `C06_range`, `C06_open_range`, `C06_at`, `C06_starting`, `C07_contains`, `C07_rollforward_partial`, `C07_rollback_partial`, `C07_up_to_28th`, `C07_rollback_full`, `C08_contains_partial`, `C08_at_partial`, `C08_next_start_exact`, `C08_prev_start_exact`, `C08_rollforward_partial`, `C09_contains`, `C09_sem`, `C10_rollforward_partial`, `C10_terminates_partial`, `C11_no_common_violated`, `C11_answers_partial`, `C12_rollback_inside`, `C12_rollback_latest_partial`, `C12_rollback_terminates`, `C13_contains_partial`, `C13_rollforward`, `C13_rollforward_terminates`, `C14_merge_partial`, `C15_contains`, `C15_always_never`, `C15_rolls`, `C16_delta`, `C16_span_contains`, `C18_contains_partial`, `C18_answers`, `C18_text`, `C19_steps_partial`, `C19_off_by_one_violated`, `C20_rollforward`, `C54_reads`, `C54_exact`, `C54_only`, `C54_unknown_unit`, `C55_round_trip_partial`, `C55_subsecond_violated`, `C55_negative_violated`, `C21_truth`, `C22_family_violated`, `C22_partial`, `C23_compare`, `C23_any_over_zero`, `C23_equal_zero`, `C24_condition_partial`, `C24_object_partial`, `C24_unknown_item`, `C24_time_partial`, `C24_unbalanced`, `C24_blank_violated`, `C24_always_violated`, `C24_malformed`, `C25_cached_partial`, `C33_task`, `C33_startup`, `C33_again`, `C34_agrees`, `C34_reread_partial`, `C26_eligible_partial`, `C26_month_partial`, `C26_year_partial`, `C26_whole_year_partial`, `C26_duration`, `C27_successes_partial`, `C27_monthly_partial`, `C27_month_partial`, `C27_year_partial`, `C27_whole_year_partial`, `C28_started_partial`, `C28_month_partial`, `C30_spacing`, `C30_eligible`, `C30_based`, `C31_state`, `C31_history`, `C32_state`, `C32_conditions`, `C32_history`, `C35_crash_violated`, `C37_cap_partial`, `C38_single`, `C38_single_partial`, `C44_order`, `C44_belongs`, `C42_exact_partial`, `C42_cycle_partial`, `C42_states`, `C39_exact`, `C41_order`, `C43_tracked`, `C43_none_partial`, `C43_waits`, `C43_forced`, `C40_order`, `C40_served_partial`, `C46_unique`, `C47_rename`, `C51_least`, `C51_distinct`, `C53_line_partial`, `C53_text`, `C53_list`, `C53_list_violated`, `C53_default_violated`, `C56_kwargs`, `C56_dict`, `C56_tuples_partial`, `C56_tuples_violated`, `C56_filter`, `C56_select`, `C56_records_partial`, `C56_own_name_violated`, `C56_latest`, `C56_refused`, `C48_only_partial`, `C48_restored_partial`, `C48_once_partial`, `C29_starts_partial`, `C29_limit_partial`, `C60_phrase_partial`, `C60_text_partial`, `C60_starting_violated`, `C60_param_violated`, `C60_always_violated`, `C60_past_violated`, `C60_terminated_violated`, `C60_quoted_violated`, `C61_api`, `C61_same_partial`, `C61_time`, `C61_timetext_partial`, `C61_starting_violated`, `C62_run`, `C62_running_partial`, `C62_phrase_partial`, `C62_clock_violated`, `C63_bare_partial`, `C64_first`, `C64_last_partial`, `C64_moment`, `C64_exec`, `C64_timeOf`, `C64_hasIn_partial`, `C64_year_month_violated`, `C64_year_day_violated`, `C65_saying_partial`, `C65_text_partial`, `C65_every`, `C65_kept`, `C65_today_violated`, `C65_param_violated`, `C66_exact`, `C66_startup`, `C66_shutdown`, `C66_disabled`, `C67_contains_partial`, `C67_members`, `C68_observe`, `C68_symmetric_partial`, `C68_builtin_partial`, `C68_situations_partial`, `C68_relative_day_violated`, `C69_orderly`, `C69_prepared`, `C69_history_partial`, `C69_every_partial`, `C69_retries_partial`, `C69_depend_partial`, `C69_daily_partial`, `C69_shutdown_violated`, `C70_state_partial`, `C70_unknown_partial`, `C70_own_partial`, `C70_rename`, `C71_entries`, `C71_restored_partial`, `C71_found`, `C72_fresh_partial`, `C72_alone_partial`, `C72_signature_partial`, `C73_duration`, `C74_once_partial`, `C74_plain_partial`, `C74_unreadable_violated`, `C74_twice_violated`, `C74_prefix_violated`, `C74_outside_violated`, `C76_honest_partial`, `C76_combined_partial`, `C76_running`, `C76_cycles`, `C76_status_violated`, `C76_depend_violated`, `C76_comparison_violated`, `C76_parts_violated`, `C77_observe_partial`, `C79_values_partial`, `C80_isPeriod_partial`, `C80_status_partial`, `C80_executable_partial`, `C80_runnable_partial`, `C80_running_partial`, `C80_scheduler_partial`, `C80_shown`, `C80_cron_partial`, `C80_dates_partial`, `C80_always_partial`, `C81_history_partial`, `C81_execution_partial`, `C81_process_violated`, `C82_created`, `C82_refused`, `C82_twice`, `C82_set`, `C82_kept`, `C82_timeout`, `C82_object_violated`, `C82_app_violated`, `C82_debug_violated`, `C82_assign_violated`, `C82_names_violated`, `C82_unknown_violated`, `C82_zero_violated`, `C82_priority_violated`, `C82_shared_violated`, `C82_never`, `C82_never_violated`, `C84_started_partial`, `C84_history`, `C84_execution_partial`, `C84_midnight_violated`, `C85_cycle_partial`, `C85_startup_partial`, `C85_loop_partial`, `C85_serve_partial`, `C87_order_partial`, `C87_over_partial`, `C88_exact_partial`, `C88_started_partial`, `C88_again`, `C89_registered_partial`, `C91_argument_partial`, `C91_parameters_partial`, `C92_time_partial`, `C92_condition_partial`, `C92_operator`, `C92_operators_violated`, `C92_doubled_violated`, `C92_ends_violated`, `C92_negation_violated`, `C92_beside_violated`, `C93_root`, `C93_module_partial`, `C94_runtime_violated`, `C95_looks`, `C95_records`, `C95_sessions_partial`, `C95_name_violated`, `C95_option_violated`, `C96_parts_partial`, `C96_contains`, `C96_ignored_violated`, `C97_read`, `C97_duration_partial`, `C97_negative_violated`, `C97_delta`, `C97_clock_partial`, `C97_same_clock_partial`, `C97_cycle_violated`, `C97_end_violated`, `C97_begin_violated`, `C97_brackets_violated`, `C97_joined`, `C98_same_records_partial`, `C98_round_trip`, `C98_only`, `C98_sides_violated`, `C98_twice_violated`, `C98_mixed_violated`, `C99_removed`, `C100_differs_violated`, `C100_changes_violated`, `C100_kept_partial`, `C100_loses_violated`, `C101_bare_violated`, `C102_instant`, `C102_calendar_partial`, `C102_executable_partial`, `C102_every_partial`, `C102_steady_partial`, `C102_timezone_partial`, `C102_back_violated`, `C102_forward_violated`, `C102_cycle_violated`, `C104_outcome_partial`, `C104_success`, `C104_gone_partial`, `C104_limit_violated`, `C104_endless_violated`, `C104_terminated_violated`, `C104_thread_violated`, `C104_terminated_when`, `C104_argform`, `C104_default_violated`, `C104_options`, `C105_same_partial`, `C105_others`, `C105_still`, `C105_text_partial`, `C105_history_violated`, `C105_running_violated`, `C106_next_partial`, `C106_starved_violated`, `C107_forgets_violated`, `C107_count_violated`, `C107_again_violated`, `C109_found_partial`, `C109_found_violated`, `C110_where`, `C111_history_partial`, `C111_apart_partial`, `C111_execution_partial`, `C111_queue_violated`, `C112_successes`, `C112_pipeline_partial`, `C112_knot_partial`, `C112_execution_partial`, `C114_text_partial`, `C114_execution_partial`, `C114_age_partial`, `C114_single_partial`, `C114_log_partial`, `C114_young_violated`, `C114_finished_violated`, `C114_zone_violated`, `C115_text_partial`, `C115_execution_partial`, `C115_own_violated`, `C116_hold_partial`, `C116_once`, `C117_once_partial`, `C118_increment_violated`, `C118_endless_violated`, `C119_since_partial`, `C119_twice_violated`, `C119_session_violated`, `C120_exit_partial`, `C120_closing_violated`, `C121_ended_partial`, `C121_spent`, `C121_only`, `C121_spared`, `C122_represents`, `C122_start_partial`, `C122_shut_partial`, `C122_process_violated`, `C123_says_partial`, `C123_filter_partial`, `C123_brackets`, `C123_negation`, `C123_chain_violated`, `C123_order_violated`, `C124_call_partial`, `C124_session_violated`, `C124_asked_violated`, `C125_rollforward`, `C125_rollback`, `C125_contains`.
* propext (178 theorems): `C06_reject_violated`, `C07_rolls_violated`, `C08_contains_violated`, `C08_rolls_violated`, `C10_month_violated`, `C10_year_violated`, `C12_start_instant`, `C13_contains_violated`, `C14_merge_violated`, `C18_star_in_list_violated`, `C18_single_step_violated`, `C21_double_negation`, `C21_double_negation_built`, `C22_shared_violated`, `C25_two_readings_violated`, `C25_late_record_violated`, `C34_failed_write_violated`, `C26_month_violated`, `C27_process_violated`, `C31_process_violated`, `C35_more_than_violated`, `C37_removed_violated`, `C42_zero_violated`, `C43_removed_violated`, `C43_untracked_violated`, `C43_flags_violated`, `C40_lost_violated`, `C45_drained`, `C45_returns_violated`, `C45_removed_violated`, `C36_records_partial`, `C36_exactly`, `C36_early_main`, `C36_terminated`, `C36_pickle_violated`, `C46_plain`, `C46_ignore_violated`, `C46_function_violated`, `C46_function_ignore_violated`, `C49_materialize`, `C49_pickle_violated`, `C49_class_violated`, `C49_names_violated`, `C50_pipe_partial`, `C50_pipe_violated`, `C50_private_value`, `C50_private_hidden`, `C50_params_hidden`, `C52_pre_violated`, `C52_params_violated`, `C52_finish_violated`, `C52_post_violated`, `C57_clash_violated`, `C57_dropped_violated`, `C57_prefix_violated`, `C58_nested_violated`, `C58_not_violated`, `C58_unknown_violated`, `C48_pending_violated`, `C48_added_violated`, `C48_slot_violated`, `C48_special_violated`, `C29_exact_violated`, `C29_late_day_violated`, `C59_default_violated`, `C63_period_violated`, `C64_quarters`, `C64_quarter_violated`, `C64_refused_violated`, `C67_span_violated`, `C67_order_violated`, `C68_reflexive`, `C68_symmetric_violated`, `C68_transitive_violated`, `C68_span_violated`, `C70_raise_violated`, `C70_ignore_violated`, `C70_init_violated`, `C72_broke_violated`, `C72_overlap_violated`, `C72_signature_violated`, `C73_overlap_violated`, `C73_from_logs_violated`, `C73_start_violated`, `C75_first_violated`, `C75_current_violated`, `C76_read`, `C76_precedence_violated`, `C76_negation_violated`, `C76_missing_violated`, `C77_kept`, `C77_early_violated`, `C78_other_violated`, `C78_foreign_violated`, `C78_naming_violated`, `C78_refused_violated`, `C79_get`, `C79_alias_violated`, `C80_moreThan_violated`, `C80_scheduler_violated`, `C80_isPeriod_violated`, `C80_dates_violated`, `C83_same`, `C83_spawn_same_or_fails`, `C83_spawn_partial`, `C83_spawn_violated`, `C83_flag_partial`, `C83_flag_thread`, `C83_flag_violated`, `C85_termination_violated`, `C86_forgotten_violated`, `C86_late_violated`, `C88_second_violated`, `C88_level_violated`, `C88_process_violated`, `C89_path_partial`, `C89_same_partial`, `C89_decorated`, `C89_command`, `C89_decorated_violated`, `C89_none_violated`, `C89_py_violated`, `C89_words_violated`, `C90_parameter_violated`, `C90_recursion_violated`, `C91_symmetric`, `C91_default_violated`, `C91_secret_violated`, `C91_func_violated`, `C91_return_violated`, `C91_later_violated`, `C93_alone_violated`, `C93_relative_violated`, `C93_dot_violated`, `C94_instants_partial`, `C94_again`, `C96_float_violated`, `C100_ne_partial`, `C105_start`, `C105_shut_violated`, `C108_tells_partial`, `C108_twice`, `C108_and`, `C108_wrapper_violated`, `C108_combined_violated`, `C108_self_violated`, `C108_equal_partial`, `C109_alive`, `C112_finish_violated`, `C113_lock_violated`, `C113_restart_violated`, `C113_pickle_violated`, `C113_overlap_violated`, `C113_twice_violated`, `C113_unlogged_violated`, `C113_renamed_violated`, `C113_argument_violated`, `C116_before_violated`, `C116_shutdown_violated`, `C116_restart_violated`, `C117_each`, `C117_regardless`, `C117_flag_partial`, `C117_new`, `C117_withdrawn_violated`, `C117_params_violated`, `C119_others`, `C121_fresh_violated`, `C121_removed_goes_on_violated`, `C121_cond_violated`, `C122_only`, `C122_pipe_violated`, `C122_shut_violated`, `C122_shown_violated`, `C122_null_violated`, `C122_own_logger_violated`, `C124_kept`, `C125_union_violated`.
* propext, Quot.sound (157 theorems): `C01_and_raises`, `C01_overlaps_empty_violated`, `C01_isEmpty`, `C02_periodic`, `C03_rollforward_full`, `C04_rollback_full`, `C04_degenerate_violated`, `C05_next_start`, `C05_next_end`, `C05_prev_start`, `C05_prev_end`, `C06_reject_partial`, `C12_union_inside_violated`, `C15_reversed`, `C16_span`, `C17_constructors`, `C17_operators`, `C17_assoc`, `C17_flat`, `C17_comm`, `C18_month_violated`, `C18_day31_violated`, `C20_month_violated`, `C21_observe`, `C21_short_and`, `C21_short_or`, `C25_finished`, `C33_tie_violated`, `C34_two_readings_violated`, `C34_failed_write`, `C26_midnight_violated`, `C26_year_violated`, `C28_violated`, `C35_ids_partial`, `C35_window_partial`, `C35_times_partial`, `C38_untracked_violated`, `C42_dead_violated`, `C43_twice`, `C45_once_partial`, `C45_never_twice`, `C45_returns_partial`, `C46_unique_partial`, `C46_removed_partial`, `C46_function_partial`, `C47_free`, `C47_raise`, `C47_ignore`, `C47_replace_violated`, `C47_add_replace_violated`, `C49_precedence_partial`, `C49_not_passed`, `C49_called`, `C52_wraps_partial`, `C52_order`, `C57_include_partial`, `C58_sound`, `C58_exact_partial`, `C59_default_partial`, `C62_cycles`, `C62_limit`, `C62_exact`, `C62_running_violated`, `C63_period_exact`, `C64_week_only`, `C64_year_only`, `C64_junk_violated`, `C66_slot_violated`, `C67_symmetric`, `C67_transitive`, `C67_instants`, `C67_rolls_partial`, `C67_relative_day_violated`, `C68_transitive_partial`, `C68_builtin_equivalence`, `C69_added_violated`, `C70_parameters`, `C70_defined_partial`, `C71_order_violated`, `C71_rebound_violated`, `C71_sys_paths_violated`, `C73_times_partial`, `C73_process_partial`, `C75_created_partial`, `C75_logger_violated`, `C77_missing`, `C77_text_partial`, `C77_given_violated`, `C77_bool_violated`, `C78_own_partial`, `C78_registered`, `C78_default`, `C80_cron_floating`, `C80_running_violated`, `C80_future_violated`, `C80_relativeDay_violated`, `C82_task_partial`, `C83_call`, `C86_rounds_partial`, `C86_raised_partial`, `C86_count`, `C87_none`, `C87_cycle_violated`, `C87_shutdown_violated`, `C87_alive_violated`, `C88_kept_partial`, `C90_script_partial`, `C93_absolute`, `C93_hidden`, `C94_seconds`, `C96_float`, `C101_tasks_partial`, `C101_same`, `C101_again_violated`, `C103_task_partial`, `C103_param_partial`, `C103_plain`, `C103_own_partial`, `C103_lost_task_violated`, `C103_lost_param_violated`, `C103_two_sessions_violated`, `C103_foreign_violated`, `C107_cached_partial`, `C107_log_partial`, `C107_restart_partial`, `C107_inherits_violated`, `C107_named_violated`, `C109_sound_partial`, `C109_running_partial`, `C109_overlap_violated`, `C109_killed_violated`, `C110_tells_partial`, `C110_status_partial`, `C110_not_doubled`, `C110_return_partial`, `C110_critical`, `C110_formatter_violated`, `C110_return_violated`, `C113_latest_partial`, `C113_read_partial`, `C113_fresh_partial`, `C113_new_partial`, `C117_unforced`, `C117_request`, `C118_open`, `C118_unused_partial`, `C118_uuid_partial`, `C119_handlers`, `C119_old`, `C119_shared_violated`, `C120_cycle_partial`, `C120_wait_violated`, `C120_elsewhere_violated`, `C121_removed_violated`, `C124_given_violated`, `C124_materialize_violated`, `C125_union_partial`.
* none (19 theorems): `C43_flags_partial`, `C36_process`, `C36_extra`, `C36_setup`, `C36_async_violated`, `C36_early_violated`, `C36_restart_violated`, `C36_dies_violated`, `C36_post_violated`, `C36_kill_violated`, `C36_setup_violated`, `C57_text_violated`, `C79_reserved_violated`, `C90_isolated`, `C96_month_violated`, `C117_twice_violated`, `C117_own_violated`, `C117_flag_violated`, `C117_invalid_violated`.
