{"id": "C01", "title": "Intersecting two time spans keeps exactly the shared instants", "statement": "For two spans produced by rolling a period, `a & b` contains an instant exactly when both a and b contain it, for every combination of open/closed ends; `a.overlaps(b)` never answers False when the spans share an instant, is symmetric, and for non-empty half-open spans answers True only if they share an instant. `&` raises only when there is no shared instant.", "quantifier": "all pairs of intervals (any endpoints, any of the four closed modes) and all instants", "why_tests_cant": "Endpoint coincidence crossed with 4x4 closed modes and arbitrary instants; tests pick a handful of pairs.", "anchors": ["rocketry/pybox/time/interval.py:Interval.__contains__", "rocketry/pybox/time/interval.py:Interval.overlaps", "rocketry/pybox/time/interval.py:Interval.__and__", "rocketry/pybox/time/interval.py:Interval.is_empty"]}
{"id": "C02", "title": "Membership in a repeating clock period depends only on the position inside the cycle", "statement": "For a second/minute/hour/day/week period built from any start and end, `dt in period` holds exactly when the clock position of dt lies in [start, end), or outside [end, start) when the period wraps over the cycle boundary, or always when start equals end or the whole cycle is given; it is invariant under shifting dt by whole cycles.", "quantifier": "all five fixed-length cycle classes, all start/end positions in the cycle, all instants", "why_tests_cant": "The instant ranges over an unbounded axis and both end-points over the whole cycle; wrap-around cases multiply.", "anchors": ["rocketry/core/time/anchor.py:AnchoredInterval.__contains__", "rocketry/core/time/anchor.py:AnchoredInterval.anchor_dt", "rocketry/core/time/anchor.py:AnchoredInterval.is_full", "rocketry/time/interval.py:TimeOfDay", "rocketry/time/interval.py:TimeOfWeek"]}
{"id": "C03", "title": "Rolling a clock period forward gives the first in-period span at or after the instant", "statement": "For second/minute/hour/day/week periods, `rollforward(dt)` returns a non-empty left-closed span whose start is the earliest in-period instant not before dt, whose end is the first out-of-period instant after that start (for an all-day style period: the next cycle boundary), and which lies wholly inside the period.", "quantifier": "all constructible fixed-cycle periods and all instants", "why_tests_cant": "Needs minimality over every instant between dt and the result and maximality beyond it, for all parameters.", "anchors": ["rocketry/core/time/base.py:TimeInterval.rollforward", "rocketry/core/time/anchor.py:AnchoredInterval.next_start", "rocketry/core/time/anchor.py:AnchoredInterval.next_end"]}
{"id": "C04", "title": "Rolling a clock period back gives the latest in-period span up to the instant", "statement": "For second/minute/hour/day/week periods, `rollback(dt)` ends at dt if dt is in the period and otherwise at the latest period end not after dt, and starts at the start of that same occurrence; every instant of the returned span is in the period and no in-period instant lies between the span's end and dt.", "quantifier": "all constructible fixed-cycle periods and all instants", "why_tests_cant": "Same as the forward roll; the window of 'has it run this period' is built from it, so a missed instant silently duplicates or skips runs.", "anchors": ["rocketry/core/time/base.py:TimeInterval.rollback", "rocketry/core/time/anchor.py:AnchoredInterval.prev_start", "rocketry/core/time/anchor.py:AnchoredInterval.prev_end"]}
{"id": "C05", "title": "Occurrences of a clock boundary are neither skipped nor repeated", "statement": "For fixed-cycle periods `next_start`/`next_end` return the least instant strictly after dt at which the boundary occurs and `prev_start`/`prev_end` the greatest at or before dt; iterating next_start enumerates every occurrence exactly once, one cycle apart.", "quantifier": "all fixed-cycle periods, all instants, any number of iterations", "why_tests_cant": "An unbounded enumeration with no skipped element.", "anchors": ["rocketry/core/time/anchor.py:AnchoredInterval.next_start", "rocketry/core/time/anchor.py:AnchoredInterval.next_end", "rocketry/core/time/anchor.py:AnchoredInterval.prev_start", "rocketry/core/time/anchor.py:AnchoredInterval.prev_end"]}
{"id": "C06", "title": "`at`, `starting` and integer ranges select the documented units", "statement": "`TimeOfX.at(unit)` contains exactly the instants of that unit of the cycle (minute n, hour n, weekday n, ...), `TimeOfX(a, b)` with integers contains units a through b inclusive (wrapping when a > b), and `TimeOfX.starting(v)` contains every instant but rolls from v to v one cycle later.", "quantifier": "all units, all integer pairs, all fixed-cycle classes, all instants", "why_tests_cant": "All unit pairs crossed with all instants; inclusive-end off-by-one hides between sampled instants.", "anchors": ["rocketry/core/time/anchor.py:AnchoredInterval.at", "rocketry/core/time/anchor.py:AnchoredInterval.starting", "rocketry/core/time/anchor.py:AnchoredInterval.anchor_int", "rocketry/core/time/anchor.py:AnchoredInterval.set_end", "rocketry/core/time/anchor.py:AnchoredInterval.to_timepoint"]}
{"id": "C07", "title": "Monthly periods follow the calendar month", "statement": "A monthly period contains dt exactly when the day-of-month/time of dt lies between its bounds, its forward/backward rolls return the neighbouring occurrence of those bounds in real calendar months of 28-31 days, and the roll never fails.", "quantifier": "all months of the Gregorian calendar, all bounds up to the 31st, all instants", "why_tests_cant": "Months have four lengths in a 400-year pattern; failures need specific month-length pairs.", "anchors": ["rocketry/time/interval.py:TimeOfMonth", "rocketry/core/time/anchor.py:AnchoredInterval.get_scope_forward", "rocketry/core/time/anchor.py:AnchoredInterval.get_scope_back"]}
{"id": "C08", "title": "Yearly periods follow the calendar year", "statement": "A yearly period such as TimeOfYear('feb','mar') contains dt exactly when the month of dt lies in the range, and rolling forward/backward lands on the first/last instant of the named months in leap and non-leap years alike.", "quantifier": "all years, all month pairs, all instants", "why_tests_cant": "Leap-year structure over an unbounded axis.", "anchors": ["rocketry/time/interval.py:TimeOfYear", "rocketry/time/interval.py:TimeOfYear.anchor_dt", "rocketry/time/interval.py:TimeOfYear.to_timepoint"]}
{"id": "C09", "title": "`p & q` contains an instant exactly when both periods do", "statement": "For any collection of periods combined with `&` (All), `dt in (p & q & ...)` whenever it returns a value equals the conjunction of the individual memberships, irrespective of nesting and order.", "quantifier": "all finite collections of periods, all nestings, all instants", "why_tests_cant": "Quantifies over arbitrary period combinations and instants; the implementation answers through an iterated roll, not through the conjunction.", "anchors": ["rocketry/core/time/base.py:All.rollforward", "rocketry/core/time/base.py:TimePeriod.__contains__", "rocketry/core/time/base.py:TimePeriod.__and__"]}
{"id": "C10", "title": "Rolling an intersection forward finds the earliest common time", "statement": "`(p & q & ...).rollforward(dt)` returns a span starting at the earliest instant not before dt that is in all periods, and always returns when such an instant exists; it never returns a span containing an instant outside any of the periods.", "quantifier": "all finite collections of periods, all instants, whatever the number of internal jumps", "why_tests_cant": "Termination and minimality of a data-dependent recursion.", "anchors": ["rocketry/core/time/base.py:All.rollforward"]}
{"id": "C11", "title": "Asking an intersection with no common time is answered rather than crashing", "statement": "`dt in (p & q)` and rollforward give an answer (False / an empty span) also when the periods never coincide after dt.", "quantifier": "all pairs of periods and all instants", "why_tests_cant": "Non-termination over an infinite axis cannot be observed by a finite test.", "anchors": ["rocketry/core/time/base.py:All.rollforward", "rocketry/core/time/base.py:All.rollback"]}
{"id": "C12", "title": "Rolling an intersection back gives a common span not later than the instant", "statement": "`(p & q & ...).rollback(dt)` when it returns gives a span that ends no later than dt and every instant of which lies in all the periods, and the latest common instant before dt is not skipped.", "quantifier": "all finite collections of periods and all instants", "why_tests_cant": "Data-dependent recursion over unbounded time.", "anchors": ["rocketry/core/time/base.py:All.rollback"]}
{"id": "C13", "title": "`p | q` contains an instant exactly when one of the periods does", "statement": "For any collection combined with `|` (Any), membership equals the disjunction of memberships, for all orders of the operands, and the forward-rolled span starts at the earliest instant not before dt in any of the periods and contains no instant outside all of them.", "quantifier": "all finite collections of periods, all operand orders, all instants", "why_tests_cant": "Collections are unordered (hash order), so every permutation matters.", "anchors": ["rocketry/core/time/base.py:Any.rollforward", "rocketry/core/time/base.py:Any.__init__"]}
{"id": "C14", "title": "Rolling a union forward merges all overlapping spans", "statement": "The span returned by `(p | q | ...).rollforward(dt)` extends to the end of the whole chain of mutually overlapping spans that begins at its start.", "quantifier": "all finite collections of rolled spans", "why_tests_cant": "Requires all relative orders of three or more spans.", "anchors": ["rocketry/core/time/base.py:Any.rollforward", "rocketry/core/time/base.py:Any.rollback"]}
{"id": "C15", "title": "Static, always and never periods", "statement": "A static interval contains dt exactly when start <= dt < end; `always` contains every representable instant before its end and `never` none; rolling clips the interval at dt and, once the interval lies behind (ahead), yields an empty span.", "quantifier": "all start/end/instants", "why_tests_cant": "All relative orders of three instants including equalities.", "anchors": ["rocketry/core/time/base.py:StaticInterval.rollback", "rocketry/core/time/base.py:StaticInterval.rollforward", "rocketry/core/time/base.py:TimePeriod.__contains__"]}
{"id": "C16", "title": "Sliding windows", "statement": "`TimeDelta(past)` rolled back from dt is exactly [dt-past, dt) and membership relative to a reference is reference-past <= dt <= reference+future with signs of the arguments ignored; TimeSpanDelta(near, far) rolled back is [dt-far, dt-near), unlimited when far is missing, and is rejected when near > far.", "quantifier": "all durations (also negative) and all instants", "why_tests_cant": "Signs, ordering and boundary instants over unbounded integers.", "anchors": ["rocketry/core/time/base.py:TimeDelta", "rocketry/time/delta.py:TimeSpanDelta"]}
{"id": "C17", "title": "Combining periods with & and | flattens without changing meaning", "statement": "`&` and `|` between periods: `always` is neutral for &, absorbing for |; nested All/Any are flattened; the result's members are exactly the leaves; equality and membership do not depend on grouping.", "quantifier": "all period expressions", "why_tests_cant": "All expression trees.", "anchors": ["rocketry/core/time/base.py:TimePeriod.__and__", "rocketry/core/time/base.py:TimePeriod.__or__", "rocketry/core/time/base.py:All.__init__", "rocketry/core/time/base.py:Any.__init__"]}
{"id": "C18", "title": "A cron expression matches exactly the minutes cron would fire", "statement": "For a cron expression built from *, numbers, names, ranges, lists and steps, `dt in Cron(...)` holds exactly when minute, hour and month of dt match their fields and the day matches (day-of-month or day-of-week when both are restricted, otherwise the restricted one).", "quantifier": "all cron expressions of the supported grammar and all instants", "why_tests_cant": "Product of five fields' grammars with all instants.", "anchors": ["rocketry/time/cron.py:Cron.get_subperiod", "rocketry/time/cron.py:Cron._get_period_from_expr", "rocketry/time/cron.py:Cron._convert_day_of_week"]}
{"id": "C19", "title": "Stepped numeric ranges in cron count from the given number", "statement": "In a cron field `a-b/n` the selected values are a, a+n, a+2n, ... up to b, for every field including day-of-month, month and day-of-week given as numbers.", "quantifier": "all fields and all a <= b, n >= 1", "why_tests_cant": "A family of expressions; only the hour field and names are sampled by tests.", "anchors": ["rocketry/time/cron.py:Cron._get_period_from_expr", "rocketry/core/time/anchor.py:AnchoredInterval.create_range"]}
{"id": "C20", "title": "The next cron occurrence is the next matching minute", "statement": "`Cron(...).rollforward(dt)` starts at the earliest matching instant not before dt and ends at the end of that minute.", "quantifier": "all cron expressions over minute, hour and weekday fields that match some minute, all instants", "why_tests_cant": "Minimality over an unbounded future.", "anchors": ["rocketry/time/cron.py:Cron.rollforward", "rocketry/core/time/base.py:All.rollforward", "rocketry/core/time/base.py:Any.rollforward"]}
{"id": "C21", "title": "Condition operators are Boolean operators", "statement": "Observing a condition built with &, |, ~ equals the Boolean combination of the observations of its parts for every nesting; `~~c` is c; and the second operand of & (|) is not evaluated when the first already decides.", "quantifier": "all condition expression trees and all truth assignments, incl. errors raised by leaves", "why_tests_cant": "All expression trees and all leaf outcomes.", "anchors": ["rocketry/core/condition/base.py:All", "rocketry/core/condition/base.py:Any", "rocketry/core/condition/base.py:Not", "rocketry/core/condition/base.py:BaseCondition.__and__"]}
{"id": "C22", "title": "Deriving a comparison leaves the original condition unchanged", "statement": "`c >= 2`, `c < 5` etc. produce a new condition; the condition c and conditions derived from it earlier keep their own comparisons.", "quantifier": "all sequences of comparison operators applied to a condition and to derived conditions", "why_tests_cant": "Aliasing over arbitrary sequences of derivations.", "anchors": ["rocketry/core/condition/base.py:BaseComparable._set_comparison"]}
{"id": "C23", "title": "Counting conditions compare with every given bound", "statement": "A statistical condition holds exactly when the measured quantity satisfies all bounds given (==, !=, <, <=, >, >=), and when no bound is given, exactly when the quantity is positive.", "quantifier": "all measured values and all combinations of bounds", "why_tests_cant": "All bound combinations times all integers.", "anchors": ["rocketry/core/condition/base.py:BaseComparable.get_state", "rocketry/core/condition/base.py:BaseComparable._compare"]}
{"id": "C24", "title": "Condition and time strings mean what their operators say", "statement": "Parsing the text of any expression built from registered items with ~, &, | and parentheses yields a condition with the truth value of that expression, with ~ binding tighter than & and & tighter than |; unbalanced opening brackets are rejected.", "quantifier": "all expressions (any nesting depth), all whitespace-free items", "why_tests_cant": "Infinitely many strings; the parser works by nested list surgery.", "anchors": ["rocketry/parse/utils/string_parser.py:InstructionParser", "rocketry/pybox/string/parse/closure.py:ClosureParser", "rocketry/parse/_condition/string.py", "rocketry/parse/_time/string.py"]}
{"id": "C25", "title": "The cached fast path agrees with the log", "statement": "'Task has started/succeeded/failed/... in this period' gives the same answer from the task's cached last-times as from counting the log records of the period, for every history.", "quantifier": "all log histories, all windows, all supported comparisons", "why_tests_cant": "All histories and windows; disagreement only shows for particular orderings of events around the window edges.", "anchors": ["rocketry/conditions/task/utils.py:TaskStatusMixin.get_measurement", "rocketry/core/condition/base.py:BaseComparable._is_any_over_zero", "rocketry/core/condition/base.py:BaseComparable._is_equal_zero"]}
{"id": "C26", "title": "A periodic task is eligible exactly when it has not yet completed in the current period", "statement": "`daily`, `hourly`, `daily.between(..)` etc. hold exactly when now is in the period and in the current occurrence of the period the task has no success, no inaction, no termination and at most `retries` failures logged.", "quantifier": "all log histories, all periods, all times", "why_tests_cant": "All histories.", "anchors": ["rocketry/conditions/task/task.py:TaskExecutable.get_state", "rocketry/core/time/utils.py:get_period_span"]}
{"id": "C27", "title": "A periodic task does not succeed twice in the same period", "statement": "With start condition `daily` (or any fixed-cycle period) and no manual runs, whatever the sequence of scheduler cycles, durations and outcomes, no two runs of a task that were started by the condition both succeed within the same occurrence of the period.", "quantifier": "all execution histories of a single-launch task under the scheduler", "why_tests_cant": "All interleavings of cycles, starts and completions over unbounded time.", "anchors": ["rocketry/conditions/task/task.py:TaskExecutable.get_state", "rocketry/core/schedule.py:Scheduler.run_cycle", "rocketry/conditions/api.py:daily"]}
{"id": "C28", "title": "A periodic task is not skipped for a whole period", "statement": "With start condition `daily`, if the scheduler checks the task at some time in the day, the task is not running, and no run of the task was *started* that day, the task is started.", "quantifier": "all execution histories", "why_tests_cant": "All histories, including runs spanning a period boundary.", "anchors": ["rocketry/conditions/task/task.py:TaskExecutable.get_state"]}
{"id": "C29", "title": "A cron task starts at most once per cron interval", "statement": "With start condition `cron(...)`, no two starts fall in the same cron minute.", "quantifier": "all execution histories and all cron expressions", "why_tests_cant": "All histories.", "anchors": ["rocketry/conditions/task/task.py:TaskRunnable.get_state", "rocketry/conditions/api.py:cron"]}
{"id": "C30", "title": "`every(d)` spaces starts by more than d", "statement": "With start condition `every('10 s')` consecutive starts of the task are more than 10 s apart, and the task is eligible once more than d has passed since the last start.", "quantifier": "all durations and all execution histories", "why_tests_cant": "All histories.", "anchors": ["rocketry/conditions/api.py:every", "rocketry/core/time/base.py:TimeDelta.rollback", "rocketry/conditions/task/utils.py:TaskStatusMixin.get_measurement"]}
{"id": "C31", "title": "Retries are bounded", "statement": "With start condition `retry(n)`, after a failing run the task is restarted at most n consecutive times; a success, crash, termination or inaction resets the count; n=None retries forever; n=0 never.", "quantifier": "all n and all histories", "why_tests_cant": "All n and all histories.", "anchors": ["rocketry/conditions/task/task.py:Retry.get_state"]}
{"id": "C32", "title": "A dependent task runs only after a fresh completion of its predecessor", "statement": "`after_success/after_fail/after_finish(t)` hold exactly when t has a matching completion later than the dependent task's own latest start (or the dependent never started); so in every history the number of starts of the dependent never exceeds the number of matching completions of t, and between two starts there is a matching completion.", "quantifier": "all interleavings of the two tasks' histories", "why_tests_cant": "All interleavings.", "anchors": ["rocketry/conditions/task/utils.py:DependMixin.get_state", "rocketry/conditions/task/task.py:DependSuccess", "rocketry/conditions/task/task.py:DependFinish", "rocketry/conditions/task/task.py:DependFailure"]}
{"id": "C33", "title": "An interrupted run is recorded as a crash at the next start", "statement": "Whatever log was left behind by a killed scheduler, after the next start no task has status 'run': a task whose last record is a start gets exactly one crash record, other tasks get none, and starting again adds nothing more.", "quantifier": "all log contents (crash at any point)", "why_tests_cant": "All crash points.", "anchors": ["rocketry/core/task.py:Task.set_cached", "rocketry/core/task.py:Task.log_crash", "rocketry/core/schedule.py:Scheduler.startup"]}
{"id": "C34", "title": "Task status and last-times agree with the log", "statement": "After any sequence of logging operations on a task, status equals the action of the latest record and last_run/last_success/... equal the times of the latest record with that action, and re-reading them from the log gives the same values.", "quantifier": "all sequences of logging operations, with or without logging failures", "why_tests_cant": "All sequences.", "anchors": ["rocketry/core/task.py:Task._set_status", "rocketry/core/task.py:Task.get_status", "rocketry/core/task.py:Task._get_last_action", "rocketry/core/task.py:Task.set_cached"]}
{"id": "C35", "title": "A task counts as running exactly while a run of it is unfinished", "statement": "The `running` condition read from the logs counts exactly the runs that have started and not yet ended (with success, failure, termination, inaction or crash), with the optional restriction on how long ago they started.", "quantifier": "all log histories, also with parallel runs", "why_tests_cant": "All interleavings of parallel runs.", "anchors": ["rocketry/conditions/task/task.py:TaskRunning.get_measurement", "rocketry/conditions/task/task.py:TaskRunning._get_running_logs"]}
{"id": "C36", "title": "Every started run ends with exactly one outcome record of the right kind", "statement": "A run writes one `run` record followed by exactly one of success / fail / inaction / terminate, matching how the task function ended (return, exception, inaction request, termination), with the run's id; the return value is stored only for success.", "quantifier": "all outcomes, all execution types, all points at which termination is requested", "why_tests_cant": "Concurrency of completion and termination.", "anchors": ["rocketry/core/task.py:Task._run_as_async", "rocketry/core/task.py:Task._terminate_run", "rocketry/core/task.py:Task._terminate_all", "rocketry/core/task.py:Task._run_as_process"]}
{"id": "C37", "title": "The number of simultaneous processes never exceeds the limit", "statement": "The scheduler never starts a process-executed task when `max_process_count` process runs are alive.", "quantifier": "all task sets, all schedules of starts and completions", "why_tests_cant": "All interleavings.", "anchors": ["rocketry/core/schedule.py:Scheduler.has_free_processors", "rocketry/core/schedule.py:Scheduler.is_task_runnable", "rocketry/core/task.py:Task.count_processes_taken"]}
{"id": "C38", "title": "A task does not run in parallel with itself unless multilaunch is on", "statement": "Without multilaunch (on the task or, if unset there, in the config) a task has at most one live run at every moment of every execution.", "quantifier": "all executions, incl. manual run requests", "why_tests_cant": "All interleavings.", "anchors": ["rocketry/core/schedule.py:Scheduler.is_task_runnable", "rocketry/core/task.py:Task.is_alive", "rocketry/core/task.py:Task._clean_run_stack"]}
{"id": "C39", "title": "The scheduler starts a task only when it may", "statement": "In a cycle a task is started only if the scheduler is not on hold, the task is not a startup/shutdown task, not already running (single launch), a process slot is free if needed, and either a manual run is pending or the task is enabled and its start condition holds; and if all these hold it is started in that cycle.", "quantifier": "all states of tasks, config and conditions", "why_tests_cant": "All combinations and all task sets.", "anchors": ["rocketry/core/schedule.py:Scheduler.run_cycle", "rocketry/core/schedule.py:Scheduler.is_task_runnable", "rocketry/core/task.py:Task.is_runnable"]}
{"id": "C40", "title": "Manual runs are served exactly once, first in first out", "statement": "Each `task.run(**params)` leads to exactly one run with exactly those parameters (over the task's own), in the order requested, also when the task is disabled.", "quantifier": "all interleavings of requests and scheduler cycles", "why_tests_cant": "All interleavings.", "anchors": ["rocketry/core/task.py:Task.run", "rocketry/core/task.py:Task._get_direct_params", "rocketry/core/task.py:Task.is_runnable"]}
{"id": "C41", "title": "Tasks are considered in order of priority", "statement": "Within a cycle tasks are inspected in order of non-increasing priority, each exactly once, and process slots are therefore given to higher priorities first.", "quantifier": "all task sets and priorities", "why_tests_cant": "All multisets of priorities.", "anchors": ["rocketry/core/schedule.py:Scheduler.tasks", "rocketry/core/schedule.py:Scheduler.run_cycle"]}
{"id": "C42", "title": "A run is terminated exactly when it must be", "statement": "In a cycle a live run is terminated exactly when its end condition holds, termination was requested, or it has been running longer than its (or the session's default) timeout; a permanent task is never terminated for its age; other runs are left alone.", "quantifier": "all ages, timeouts, conditions, sets of runs", "why_tests_cant": "All combinations and boundary times.", "anchors": ["rocketry/core/task.py:Task._check_termination", "rocketry/core/task.py:Task._terminate_all"]}
{"id": "C43", "title": "Shutdown starts nothing new and leaves nothing running", "statement": "Once shutdown is requested no further cycle starts; the scheduler waits for running tasks (terminating permanent ones and those past their timeout) unless immediate/forced, in which case all are terminated; when it returns nothing is alive; each serve starts from a clean set of shutdown flags.", "quantifier": "all moments of request, all sets of running tasks, repeated sessions", "why_tests_cant": "All request points and repeated runs.", "anchors": ["rocketry/core/schedule.py:Scheduler.serve", "rocketry/core/schedule.py:Scheduler.shut_down", "rocketry/core/schedule.py:Scheduler._shut_down_tasks", "rocketry/session.py:Session.shut_down"]}
{"id": "C44", "title": "Startup and shutdown tasks run once, outside the cycles", "statement": "A task marked on_startup is started at most once, before the first cycle; one marked on_shutdown at most once, after the last; neither is ever started by a cycle, even if requested manually.", "quantifier": "all executions", "why_tests_cant": "All executions.", "anchors": ["rocketry/core/schedule.py:Scheduler.startup", "rocketry/core/schedule.py:Scheduler.run_shutdown_tasks", "rocketry/core/schedule.py:Scheduler.run_cycle"]}
{"id": "C45", "title": "Records and return values of process tasks arrive exactly once and in order", "statement": "Records sent by task processes are written to the log exactly once, in sending order, with the sending task's name, and the return value of a successful process run becomes available to other tasks.", "quantifier": "all interleavings of several processes' messages with the scheduler's reads", "why_tests_cant": "All interleavings.", "anchors": ["rocketry/core/schedule.py:Scheduler.handle_logs", "rocketry/core/task.py:Task._lock_to_run_log", "rocketry/core/task.py:Task.log_record", "rocketry/core/task.py:Task._handle_return"]}
{"id": "C46", "title": "Task names are unique in a session", "statement": "Whatever sequence of task creations, removals and renames (with any name-collision policy) no two tasks of a session have the same name, and lookup by name or by function finds exactly that task.", "quantifier": "all sequences of session operations", "why_tests_cant": "All operation sequences.", "anchors": ["rocketry/session.py:Session.add_task", "rocketry/session.py:Session.remove_task", "rocketry/session.py:Session.__getitem__", "rocketry/core/task.py:Task.parse_name", "rocketry/core/task.py:Task.validate_name"]}
{"id": "C47", "title": "The name-collision policy is honoured", "statement": "Creating a task under an existing name raises and leaves the session unchanged with 'raise', is registered under a fresh name 'base - n' with 'rename', is not registered with 'ignore', and replaces the old task with 'replace'.", "quantifier": "all session contents and names", "why_tests_cant": "All session contents; e.g. names already of the form 'x - 1'.", "anchors": ["rocketry/session.py:Session.add_task", "rocketry/core/task.py:Task.parse_name", "rocketry/core/task.py:Task.validate_name", "rocketry/session.py:Config"]}
{"id": "C48", "title": "`session.run(tasks)` runs only those tasks and restores the session", "statement": "`session.run('a','b')` runs each named task (once, ignoring its start condition unless obey_cond), no other task, and afterwards every task has the attributes it had before.", "quantifier": "all sessions, selections and task states", "why_tests_cant": "All states; in particular pending manual runs of other tasks.", "anchors": ["rocketry/session.py:Session.run"]}
{"id": "C49", "title": "Parameter precedence", "statement": "The value a task function receives for a parameter is the batch parameter if given, else the task parameter, else the function-default/extra, else the session parameter; session parameters not in the function's signature are not passed; materialising replaces dynamic arguments by their values and keeps the keys.", "quantifier": "all parameter sets at all four levels", "why_tests_cant": "All overlaps between four dictionaries.", "anchors": ["rocketry/core/task.py:Task.get_extra_params", "rocketry/core/task.py:Task._get_direct_params", "rocketry/core/parameters/parameters.py:Parameters", "rocketry/tasks/func.py:FuncTask.prefilter_params"]}
{"id": "C50", "title": "Argument pipes and private arguments", "statement": "`a >> b >> c` yields the value of the first argument that is available and fails only if none is; a Private argument yields its value only when materialised for a task and never in its textual form.", "quantifier": "all pipes of any length, all availability patterns", "why_tests_cant": "All lengths and patterns.", "anchors": ["rocketry/core/parameters/arguments.py:PipeArg", "rocketry/args/secret.py:Private", "rocketry/core/parameters/parameters.py:Parameters.__getitem__"]}
{"id": "C51", "title": "Live runs of a task have distinct ids", "statement": "Under the incrementing run-id function every run gets an id different from all runs of the task still tracked, namely the least free positive number.", "quantifier": "all sets of tracked runs", "why_tests_cant": "All sequences of starts and finishes.", "anchors": ["rocketry/tasks/run_id.py:increment", "rocketry/core/task.py:Task.start_async"]}
{"id": "C52", "title": "Hooks wrap a run", "statement": "Every registered hook's pre-part runs before the task, in registration order, and the post-part of each generator hook that yielded runs exactly once after it, in order, with the same outcome information.", "quantifier": "all lists of hooks", "why_tests_cant": "All lists of hooks, plain and generator.", "anchors": ["rocketry/core/hook.py:_Hooker.prerun", "rocketry/core/hook.py:_Hooker.postrun"]}
{"id": "C53", "title": "A command task's command line depends only on its command and the run's parameters", "statement": "Each run of a CommandTask executes the configured command followed by that run's parameters in the chosen style, independent of earlier runs.", "quantifier": "all commands, parameters and numbers of earlier runs", "why_tests_cant": "All sequences of runs.", "anchors": ["rocketry/tasks/command.py:CommandTask.execute", "rocketry/tasks/command.py:CommandTask.get_kwargs_cli"]}
{"id": "C54", "title": "Duration strings are read as the sum of their parts", "statement": "`to_timedelta('1 day 2 hours 30 min')` equals the sum number*unit of its parts for every list of parts in the accepted grammar; unknown units and trailing text are rejected.", "quantifier": "all part lists", "why_tests_cant": "Infinitely many strings.", "anchors": ["rocketry/pybox/time/convert.py:string_to_timedelta", "rocketry/pybox/time/convert.py:to_timedelta"]}
{"id": "C55", "title": "Printed durations read back to the same duration", "statement": "`to_timedelta(timedelta_to_str(d)) == d`.", "quantifier": "all durations", "why_tests_cant": "All durations; sub-second parts are printed with units the reader may not know.", "anchors": ["rocketry/pybox/time/convert.py:timedelta_to_str", "rocketry/pybox/time/convert.py:timedelta_to_dict", "rocketry/pybox/time/convert.py:string_to_timedelta"]}
{"id": "C56", "title": "Log queries select exactly the matching records", "statement": "Reading a task's log with filters returns, in log order, exactly the records of that task whose fields satisfy all filters; repeated or list-valued filters on one field mean alternatives.", "quantifier": "all logs and filters", "why_tests_cant": "All logs and filters.", "anchors": ["rocketry/core/log/adapter.py:TaskAdapter.get_records", "rocketry/core/log/adapter.py:TaskAdapter.get_latest", "rocketry/pybox/query/parse.py:Parser", "rocketry/pybox/query/base.py:QueryBase"]}
{"id": "C57", "title": "Including a group conjoins its start condition and prefixes its names", "statement": "After `app.include_grouper(group)` each task of the group is in the session under prefix+name, is eligible exactly when both the group's and its own start condition hold, uses the group's execution unless it set its own, and session parameters are merged.", "quantifier": "all groups and sessions", "why_tests_cant": "All groups.", "anchors": ["rocketry/application.py:_AppMixin.include_grouper", "rocketry/application.py:Grouper"]}
{"id": "C58", "title": "The dependency listing mirrors the start conditions", "statement": "The session's dependency listing contains a link from t to u exactly when u's start condition contains a dependency on t, with type 'or' exactly when it sits under an `|`.", "quantifier": "all sessions and condition trees", "why_tests_cant": "All condition trees.", "anchors": ["rocketry/utils/dependencies.py:Dependencies", "rocketry/utils/dependencies.py:get_dependencies"]}
{"id": "C59", "title": "Defaults of arguments", "statement": "`Arg`, `Return`, `EnvArg` and `CliArg` give the stored value whenever there is one, the default (or a KeyError without default) exactly when there is none, and pass on other failures.", "quantifier": "all keys, defaults, session parameters, return values, environments and command lines", "why_tests_cant": "All surroundings; a default that hides a failure only shows when the stored argument fails.", "anchors": ["rocketry/args/builtin.py:Arg.get_value", "rocketry/args/builtin.py:Return.get_value", "rocketry/args/builtin.py:EnvArg.get_value", "rocketry/args/builtin.py:CliArg._get_arg"]}
{"id": "C60", "title": "Every phrase of the condition syntax is read as the condition it names", "statement": "Each phrase of the condition syntax ('has failed today between .. and ..', 'daily starting ..', 'every ..', 'after any tasks ..', 'scheduler has run over ..' etc.), with any arguments that can be written in it, is matched by its own entry of the parser table and by none before it, its arguments are extracted undamaged, and the resulting condition is the one the phrase names; a text of such phrases joined by ~, &, | and brackets observes as the written expression over these conditions.", "quantifier": "all phrases, units, verbs, task names, times, durations, numbers, expressions of any depth", "why_tests_cant": "The table has over 150 overlapping patterns with greedy groups, tried in order; whether an earlier one captures a phrase depends on the argument texts, of which there are infinitely many.", "anchors": ["rocketry/parse/_setup_cond_parsers.py:_setup_cond_parsers", "rocketry/parse/_condition/condition_item.py:parse_condition_item", "rocketry/conditions/api.py:TimeCondWrapper", "rocketry/time/construct.py:get_full_cycle"]}
{"id": "C61", "title": "The Python condition interface and the phrases mean the same", "statement": "Every expression of the Python interface (daily.between(..), failed('x').today, every(..), cron(..), after_any_success(..), scheduler_cycles(..)) builds the condition of the phrase documented for it, so a task declared in either way has the same start condition; and each phrase of the time syntax, alone or joined by & and |, is read as the period it names.", "quantifier": "all phrases, wrappers, methods, task names, times, durations, fields, time expressions of any depth", "why_tests_cant": "Two independent constructions of the same objects, one of them through greedy regular expressions, over infinitely many argument texts; the tests compare a few of them.", "anchors": ["rocketry/conditions/api.py:TimeCondWrapper", "rocketry/conditions/api.py:TimeActionWrapper", "rocketry/conditions/api.py:every", "rocketry/parse/_time/time_item.py:parse_time_item", "rocketry/parse/_condition/condition_item.py:parse_condition_item"]}
{"id": "C62", "title": "Conditions about the scheduler: cycles and running time", "statement": "With a shut condition on the number of cycles (SchedulerCycles with comparisons) no cycle begins once the condition was met by the number of cycles of the present session, and a session that ends by itself without a shutdown request has had exactly the first number of cycles that meets it; restarts count anew. scheduler_running(more_than, less_than), 'scheduler started .. ago' and 'scheduler has run over ..' hold exactly if the time since the startup is in the stated range.", "quantifier": "all comparisons, all executions (environment events, faults, restarts, any tasks), all startup times, clocks and durations", "why_tests_cant": "Executions are unbounded and may fail or restart at any point of any cycle; the tests stop after one or a few cycles and set the startup time by hand.", "anchors": ["rocketry/conditions/scheduler.py:SchedulerCycles", "rocketry/conditions/scheduler.py:SchedulerStarted", "rocketry/conditions/api.py:scheduler_running", "rocketry/core/schedule.py:serve", "rocketry/core/schedule.py:run_cycle", "rocketry/core/schedule.py:startup"]}
{"id": "C63", "title": "A status condition without a period is about the whole log", "statement": "succeeded('x'), 'task .. has failed', TaskFinished(task=..) >= 3 and the like, given without a period, compare the number of all records of the task with that outcome up to now.", "quantifier": "all histories of log calls, verbs, comparisons, start conditions of the task, times", "why_tests_cant": "The answer takes a detour over the start condition of the observed task, which may be any condition; the tests only use tasks with trivial start conditions.", "anchors": ["rocketry/core/task.py:period", "rocketry/conditions/task/utils.py:TaskStatusMixin.get_measurement", "rocketry/core/time/base.py:StaticInterval.rollback"]}
{"id": "C64", "title": "A text naming a time is read as that time", "statement": "A text such as '30.5', '15:00', '10:00:15', 'Mon 10:00', '5th', 'Dec 5th 10:00' given to the period of its cycle (or written in a condition phrase) is read as the point of the cycle at which calendar and clock show it; as an end, a whole day or month that is named is included; a text that names no such time is refused with ValueError.", "quantifier": "all times, all spellings of names (short, long, any case), fractions of up to six digits, all ordinal endings; all restrictions (between, before, after, on, starting) and cycles of the phrases", "why_tests_cant": "There are infinitely many texts; the tests read a dozen of them, mostly with zero seconds.", "anchors": ["rocketry/time/interval.py:TimeOfMinute.anchor_str", "rocketry/time/interval.py:TimeOfHour.anchor_str", "rocketry/time/interval.py:TimeOfDay.anchor_str", "rocketry/time/interval.py:TimeOfWeek.anchor_str", "rocketry/time/interval.py:TimeOfMonth.anchor_str", "rocketry/time/interval.py:TimeOfYear.anchor_str", "rocketry/core/time/anchor.py:set_end", "rocketry/time/construct.py"]}
{"id": "C65", "title": "A condition text is true exactly when what it says holds", "statement": "A condition text made of the documented phrases (status, time of a cycle, daily etc., every, cron, is running, after tasks, env, scheduler, true/false) with `~`, `&`, `|` and brackets is read as a condition whose observation gives the truth of the text: each phrase counts as true exactly if what it says holds in the log, the clock, the runs, the parameters and the scheduler.", "quantifier": "all texts of any size, all tasks, times, durations, cron fields, all logs kept by a session, all clock times; with and without force_status_from_logs", "why_tests_cant": "Reading and observing are tested apart, for single phrases and a few times; the combination of all texts, logs and clock times is infinite.", "anchors": ["rocketry/parse/condition.py:parse_condition", "rocketry/conditions/__init__.py", "rocketry/conditions/task/utils.py", "rocketry/conditions/task/task.py", "rocketry/conditions/scheduler.py", "rocketry/conditions/parameter.py", "rocketry/core/condition/base.py:observe"]}
{"id": "C66", "title": "Which tasks are started at startup and shutdown", "statement": "When the startup (shutdown) of the scheduler comes to an on_startup (on_shutdown) task, exactly one run of it is started if it is due, and nothing otherwise. It is due if a manual run is pending, or if it is enabled and either has no start condition or has one that holds, provided it does not run already and there is a free slot if it needs a process. An enabled task without start condition is therefore run once at every startup; a disabled one never.", "quantifier": "all sessions, all tasks, all environments (faults, events, conditions); for the whole startup all environments in which nothing fails and only runs end", "why_tests_cant": "The tests start one or two tasks with one kind of execution; the interplay of disabled, requests, conditions, slots and other tasks' runs is unbounded.", "anchors": ["rocketry/core/schedule.py:Scheduler.startup", "rocketry/core/schedule.py:Scheduler.run_shutdown_tasks", "rocketry/core/schedule.py:Scheduler.is_task_runnable", "rocketry/core/task.py:Task.is_runnable"]}
{"id": "C67", "title": "Equality of time periods", "statement": "Equality of time periods is an equivalence relation, equal periods contain the same instants and are rolled to the same spans, and a collection of periods has exactly its arguments as members, each once.", "quantifier": "all periods of any nesting, all instants, all recursion depths, all argument lists", "why_tests_cant": "The tests compare a handful of pairs; that equality may be used to drop members of a set is a statement about all pairs of periods and all instants.", "anchors": ["rocketry/core/time/base.py:TimeDelta.__eq__", "rocketry/core/time/base.py:All.__eq__", "rocketry/core/time/base.py:Any.__eq__", "rocketry/core/time/base.py:All.__init__", "rocketry/core/time/base.py:Any.__init__", "rocketry/time/delta.py:TimeSpanDelta.__eq__", "rocketry/time/interval.py:RelativeDay"]}
{"id": "C68", "title": "Equality of conditions", "statement": "Equality of conditions is an equivalence relation, and equal conditions are indistinguishable when observed: the same answer or exception and the same effects, in every situation.", "quantifier": "all condition trees, all behaviours of leaves, all situations of the session for the built-in conditions", "why_tests_cant": "The tests compare some pairs of flat conditions; that equality implies the same observation is a statement about all trees, all leaves and all states.", "anchors": ["rocketry/core/condition/base.py:BaseCondition.__eq__", "rocketry/core/condition/base.py:_ConditionContainer.__eq__", "rocketry/core/condition/base.py:Not.__eq__", "rocketry/core/condition/base.py:BaseComparable.__eq__"]}
{"id": "C69", "title": "Executions of the scheduler are histories", "statement": "Whatever the scheduler does, the records written into the log form one of the histories about which C27 to C32 speak: a task is only found runnable when no run of it goes on and after its cached times were read from the log, and only a task that was found runnable is started, once. So what C27 to C32 say about histories holds for every execution of the scheduler: for example two starts of a task with the condition every(d) are more than d apart.", "quantifier": "all sessions of single-launch tasks of any execution types, all behaviours of the environment (requests, terminations, ends of runs, failures of setups, exceptions), all numbers of cycles, all logs of earlier programs and all records written meanwhile", "why_tests_cant": "Tests run a few sessions for a few cycles; the claim connects every interleaving of the scheduler with everything that runs write into the log, over all restarts.", "anchors": ["rocketry/core/schedule.py:Scheduler.serve", "rocketry/core/schedule.py:Scheduler.startup", "rocketry/core/schedule.py:Scheduler.is_task_runnable", "rocketry/core/task.py:Task.start_async", "rocketry/core/task.py:Task.set_cached", "rocketry/core/task.py:Task._terminate_run", "rocketry/session.py:Session.add_task"]}
{"id": "C70", "title": "Conditions defined by a task (TaskCond)", "statement": "A condition text that matches the syntax of a TaskCond is bound to a task of its own, which has the groups of the text as parameters, and stays bound to it. The condition is true exactly when the last successful run of this task returned true and this success lies in the active time; it is false as long as no run of the task has succeeded.", "quantifier": "all sequences of definitions, condition texts read, changes of the tasks of the session, successful runs and restarts of the scheduler; all times of observation and all active times that are always, a duration or a part of a cycle", "why_tests_cant": "The tests use one text of one TaskCond; which task a condition reads depends on all texts read before and on all names in the session.", "anchors": ["rocketry/conditions/meta.py:TaskCond", "rocketry/conditions/meta.py:_FuncTaskCondWrapper", "rocketry/parse/utils/cond.py:CondParser", "rocketry/parse/_condition/condition_item.py:parse_condition_item"]}
{"id": "C71", "title": "Importing the function of a task leaves sys.path as it was", "statement": "When the function of a task is imported from its file, the directory of the file (and those given as sys_paths) are among the directories in which imports look, and after the import sys.path is what it would be without it, whatever other imports and other code do at the same time.", "quantifier": "all numbers of loads in all interleavings of their single steps, with any changes of sys.path by other code in between; all original lists", "why_tests_cant": "The tests load one file at a time with a directory that is not yet in sys.path; what remains depends on the interleaving, on entries that were there before and on who else changes the list.", "anchors": ["rocketry/tasks/func.py:TempSysPath", "rocketry/tasks/func.py:FuncTask.get_func"]}
{"id": "C72", "title": "A task given by path runs what is in the file", "statement": "A run of a task given by path executes a version of the function that its file had between the begin of the run and its execution, with the parameters of this version.", "quantifier": "all sequences of changes of the file and single steps of any number of runs (main, async and threads) in any interleaving; both values of cache", "why_tests_cant": "The tests run a task, change the file and run the task again; whether an old function is kept depends on runs at the same time and on runs that broke off before.", "anchors": ["rocketry/tasks/func.py:FuncTask.get_func", "rocketry/tasks/func.py:FuncTask.process_finish", "rocketry/tasks/func.py:FuncTask.postfilter_params", "rocketry/tasks/func.py:FuncTask.get_task_params", "rocketry/core/task.py:Task._run_as_async"]}
{"id": "C73", "title": "The outcome record of a run tells its times", "statement": "The outcome record of a run carries the time at which this run started, the time at which it ended and the difference as its runtime, which is not negative; the start is the same as in the record of the start.", "quantifier": "all sequences of steps of any number of runs of a task in any order, in the scheduler's process and in processes of their own; all readings of the clock; both values of force_status_from_logs", "why_tests_cant": "The tests look at the records of one run at a time; which start is written depends on the other runs that start in between.", "anchors": ["rocketry/core/task.py:Task._set_status", "rocketry/core/task.py:Task._get_last_action", "rocketry/core/task.py:Task.start_async", "rocketry/log/log_record.py:TaskLogRecord"]}
{"id": "C74", "title": "The log of a session shows every record of its tasks once", "statement": "session.get_task_log() returns every record logged by a task of the session exactly once, in the order in which they were logged, and nothing else; and a task reads its own records from the log.", "quantifier": "all sets of loggers with any handlers and propagation, all base names, all sequences of records", "why_tests_cant": "The tests use one logger with the base name; what is shown depends on all loggers of the program and on how records are passed up between them.", "anchors": ["rocketry/session.py:Session.get_task_log", "rocketry/session.py:Session.get_task_loggers", "rocketry/core/log/adapter.py:TaskAdapter._get_repo", "rocketry/core/task.py:Task.parse_logger_name"]}
{"id": "C75", "title": "Times follow the clock of the session", "statement": "If a session has a time function, all times it uses are those of this function: the times of the records of its tasks and the current time; sessions do not influence each other's times.", "quantifier": "all sets of sessions with any base names and time functions, all orders in which they are started, all loggers of tasks", "why_tests_cant": "The tests use one session with a time function; whose clock is used depends on which sessions were started before in the same program.", "anchors": ["rocketry/session.py:Session._wrap_log_record_creation", "rocketry/session.py:Session.get_time", "rocketry/session.py:Session.get_current_time", "rocketry/core/log/adapter.py:TaskAdapter._modify_record"]}
{"id": "C76", "title": "The text of a condition reads back as the condition", "statement": "`str(cond)` of a condition is a text that `parse_condition` reads as the same condition: in particular, conditions read from texts and combined with `&`, `|` and `~`, and built-in conditions made in Python and combined.", "quantifier": "all condition objects of any size and depth, all texts, all names, numbers and comparisons, all leaf conditions and effects of observing them", "why_tests_cant": "The tests print a fixed list of conditions. That the brackets, the operator precedence and the kept texts agree has to hold for every nesting.", "anchors": ["rocketry/core/condition/base.py:80-118", "rocketry/core/condition/base.py:147-254", "rocketry/parse/condition.py:6-9", "rocketry/conditions/task/task.py:34-455", "rocketry/conditions/scheduler.py:16-65", "rocketry/core/task.py:199-204"]}
{"id": "C77", "title": "A condition made from a function is observed as a call of the function", "statement": "A `FuncCond` that is observed calls its function, each parameter of which gets what is given for it (by position, by keyword or by a group of the text the condition was read from), or else the value of the argument that is its default, or else its default. A text matching the syntax is read as a condition with the function that the syntax was defined for; conditions do not change when others are read, called or defined.", "quantifier": "all signatures, given values, surroundings and bodies of functions; all histories of definitions, decorations, calls and texts", "why_tests_cant": "The tests use functions with one parameter and observe them once; the interplay of positions, keywords and argument defaults and the order of definitions and texts is unbounded.", "anchors": ["rocketry/conditions/func.py:60-115", "rocketry/core/parameters/parameters.py:50-61", "rocketry/core/parameters/parameters.py:100-112", "rocketry/parse/_condition/condition_item.py:22-48"]}
{"id": "C78", "title": "The hooks of a session are run around the creation of its tasks", "statement": "When a task is created in a session, the hooks registered before with `hook_task_init` of this session, and no others, are run around the creation: their first parts once each and in the order of registration before the task is registered, the second parts of generators in the same order afterwards. A task created without a name is named by its identity if the option `use_instance_naming` of its session is set and by its default name otherwise. Hooks are run only for tasks that are created.", "quantifier": "all programs: any sequence of registrations of hooks, changes of the default session and options, operations on the tasks of any number of sessions and creations of tasks", "why_tests_cant": "The only test of these hooks uses one session, which the fixture makes the default, and one task; what matters is the order in which sessions become the default, get hooks and get tasks.", "anchors": ["rocketry/core/task.py:305-340", "rocketry/core/hook.py:12-28", "rocketry/session.py:559-568", "rocketry/session.py:588-592", "rocketry/_base.py:6-8"]}
{"id": "C79", "title": "Parameters objects are values", "statement": "A `Parameters` object is a mapping of its own: one made from a dictionary or another object is not changed by later changes of these, `p | q` has the values of q and else those of p and leaves both unchanged, `copy` gives the same mapping, and `update`, item assignment, `clear` and `pre_materialize` change only the object they are called on (nothing if they raise an exception). A dictionary obtained from an object is a snapshot. `get` gives the value, or the default if there is none.", "quantifier": "all programs: any sequence of these operations on any number of objects and dictionaries, with any names and values", "why_tests_cant": "Sharing shows only in sequences of operations on several objects; the tests make one object and look at it.", "anchors": ["rocketry/core/parameters/parameters.py:36-48", "rocketry/core/parameters/parameters.py:63-98", "rocketry/core/parameters/parameters.py:114-120", "rocketry/core/parameters/parameters.py:154-160", "rocketry/core/parameters/parameters.py:196-204"]}
{"id": "C80", "title": "The option timezone", "statement": "In a session with the option `timezone` (an offset from UTC) every condition on time and every schedule has the value that it has, with the same log, in a session without the option on a computer whose local time is that zone: the local time of the actual computer does not matter.", "quantifier": "all zones with fixed offset, computers (any relation of local time and timestamps), moments, logs, cached times and periods: times of clock and calendar, durations, cron expressions, dates, and all combinations", "why_tests_cant": "The tests run in one zone each and look at a few conditions at one time; mixtures of datetimes with and without zone raise exceptions only when a run, a cached time or a date is there to be compared.", "anchors": ["rocketry/session.py:614-624", "rocketry/core/time/utils.py:8-32", "rocketry/pybox/time/convert.py:33-56", "rocketry/core/time/base.py:22-26", "rocketry/core/time/base.py:306-356", "rocketry/core/time/base.py:430-479", "rocketry/core/time/base.py:506-524", "rocketry/conditions/task/utils.py:62-111", "rocketry/conditions/task/task.py:168-179", "rocketry/conditions/scheduler.py:57-60", "rocketry/conditions/time.py:36-38"]}
{"id": "C81", "title": "What the start text of a task insists on is kept by its runs", "statement": "If the start condition of a task is given as a text, every phrase on which the text insists (either side of `&`, both sides of `|`, turned around by `~`) is kept by the records of the task in the log: with `daily between …` every start follows a check inside that time and two successes never fall into the same occurrence; with `time of … between …` every start follows a check inside that time; with `every …` two starts are more than that duration apart; with `cron …` every start follows a check in a matching minute and two starts lie in different minutes; with `after task …` (or tasks) every start follows a matching completion made after all earlier starts, so there are never more starts than completions; with `has succeeded …` (or failed, started, …; of this or another task) every start follows a check, made after all earlier starts, at which the log had such a record, made in the time asked for (past duration, today, …); with `false` there is no start.", "quantifier": "all texts of the condition syntax over the phrases with known meaning, all histories of the session (outcomes, durations, restarts, other tasks, late log records) and all executions of the scheduler, all readings of the clock that do not go back", "why_tests_cant": "the claim connects the parser, the conditions, the log and the scheduling loop for every text and every interleaving; tests try a few texts with short runs", "anchors": ["rocketry/parse/_setup_cond_parsers.py", "rocketry/parse/utils/parser.py", "rocketry/core/condition/base.py:138-199", "rocketry/conditions/task/task.py:253-446", "rocketry/core/schedule.py:156-253"]}
{"id": "C82", "title": "Options have the values they were given", "statement": "An option given to a session, in the dictionary `config` or by keyword, under its name or (for `execution`) its former name, has afterwards the value asked for (durations as seconds, text or timedelta alike); an option not given has its default; giving an option twice is refused, and so is a name that is no option. Setting an option later changes that option of that session and nothing else, and an option keeps its value as long as nobody gives it another one. A task uses its own setting (execution, timeout, multilaunch, daemon, run id, priority) when it has one, and otherwise the present one of its session.", "quantifier": "all dictionaries of options and keywords, all programs making sessions and applications and setting options, all tasks", "why_tests_cant": "tests try single options on single sessions; the claim is about every combination of ways to give options and every order of operations", "anchors": ["rocketry/session.py:42-119", "rocketry/session.py:190-197", "rocketry/session.py:213-225", "rocketry/application.py:48-68", "rocketry/core/task.py:290-298", "rocketry/core/task.py:718", "rocketry/core/task.py:949-952", "rocketry/core/task.py:989", "rocketry/core/task.py:1239-1242", "rocketry/core/schedule.py:246-249"]}
{"id": "C83", "title": "The arguments of a task do not depend on where it runs", "statement": "For the same parameters and the same session the function of a task gets the same value for each argument (values, session references, return values, function arguments with arguments of their own, pipes) whether the task is run in the main loop, asynchronously, in a thread, or in a process, forked or spawned, and whenever function arguments are evaluated; where a value cannot be had the run fails and does not get another value. A termination flag is always an event, and in a thread it is the one of the run.", "quantifier": "all arguments of any nesting, all sessions, all settings of param_materialize, all places", "why_tests_cant": "tests run on one platform, which forks or spawns, with a few arguments", "anchors": ["rocketry/core/task.py:577-593", "rocketry/core/task.py:658-705", "rocketry/core/task.py:707-783", "rocketry/core/task.py:1277-1332", "rocketry/session.py:526-548", "rocketry/args/builtin.py:38-70", "rocketry/args/builtin.py:136-189", "rocketry/args/builtin.py:235-275", "rocketry/core/parameters/parameters.py:87-112"]}
{"id": "C84", "title": "A task with a start text is started exactly when what the text says holds", "statement": "When the loop of a cycle comes to a task whose start condition was written as a text, a run is started if and only if nothing stands in the way (the scheduler is not on hold, the task is no startup or shutdown task, there is a free slot, no run of it goes on) and either a run was requested, or the task is enabled and what the text says is true of the log, the clock and the session. This holds at every point of every execution of the scheduler, however often the program is started.", "quantifier": "all texts built from the phrases of C65 with and, or, not and brackets, all tasks, logs, sessions, environments and executions", "why_tests_cant": "it joins the reading of texts, the observation of conditions, the cached times, the log and the scheduler; tests try a few texts on each part alone", "anchors": ["rocketry/core/schedule.py:156-191", "rocketry/core/schedule.py:199-224", "rocketry/core/schedule.py:237-253", "rocketry/core/task.py:547-568", "rocketry/parse/condition.py:1-24", "rocketry/core/condition/base.py:78-90", "rocketry/conditions/task/task.py:18-120"]}
{"id": "C85", "title": "With errors silenced, no failure of a task stops the scheduler", "statement": "If silence_cond_check, silence_task_logging and silence_task_prerun are on, then whatever goes wrong with tasks - conditions that raise, parameters or setups that fail, processes that cannot be created, log records that cannot be written - each cycle goes on to its end and inspects every task of the session, the startup goes on to its end, and serve raises nothing; only a request to end or restart the scheduler and the scheduler's own shut condition can end it.", "quantifier": "all sessions and tasks, all environments (events, results of conditions, faults at every point), all numbers of rounds", "why_tests_cant": "The tests set one option at a time and let one particular thing fail in one particular task; whether some combination of failing points escapes from a cycle cannot be seen from any number of examples.", "anchors": ["rocketry/core/schedule.py:156-224", "rocketry/core/schedule.py:237-329", "rocketry/core/schedule.py:505-523", "rocketry/core/task.py:454-542", "rocketry/core/task.py:972-1036", "rocketry/session.py:57-59"]}
{"id": "C86", "title": "Requests to restart and to shut down are honoured, the latter finally", "statement": "Within one call of serve: a new round (startup, cycles, shutdown) begins only if restarting is 'recall' and only after the shutdown of a round in which, before that shutdown began, a restart was asked for (session.restart() or a task raising SchedulerRestart) and no shutdown; each request to restart leads to at most one further round; no cycle begins in a round after a request to restart or to shut down was made in it; after a request to shut down no further round begins.", "quantifier": "all sessions, all environments (moments of requests, faults, conditions), all numbers of rounds and cycles", "why_tests_cant": "The tests make one request at one moment. The claims concern every interleaving of requests with the loop, the tasks and the shutdown.", "anchors": ["rocketry/core/schedule.py:108-154", "rocketry/core/schedule.py:356-469", "rocketry/session.py:315-340"]}
{"id": "C87", "title": "The hooks of a session are run around startup, cycles and shutdown", "statement": "Hooks registered with hook_startup, hook_scheduler_cycle and hook_shutdown are run at every startup, cycle and shutdown of the scheduler: before it the hooks (generators up to their first yield), all of them, each once and in the order of registration, and after it the rest of the generators, in the same order, also if something fails in between. When serve is over, the last shutdown is complete in this sense and scheduler.is_alive is false.", "quantifier": "all sessions, lists of hooks, environments (what tasks and hooks do, including exceptions), numbers of cycles and of rounds", "why_tests_cant": "The test runs two cycles in which nothing fails. The claim is about failures at every point and about every number of hooks and cycles.", "anchors": ["rocketry/core/hook.py:5-28", "rocketry/core/schedule.py:108-191", "rocketry/core/schedule.py:298-329", "rocketry/core/schedule.py:389-439", "rocketry/session.py:570-586"]}
{"id": "C88", "title": "The log of an application can be read back", "statement": "After an application was made, everything its tasks log can be read back for the task, in order and each record once, whatever other applications are made, sessions started, handlers added and levels set. After a session was started without an application its log can be read back, too, from any state of the loggers; starting it again changes nothing.", "quantifier": "all states of the loggers, names of loggers, repositories and all sequences of operations (making applications, starting sessions, logging, setting levels, adding handlers)", "why_tests_cant": "The tests use one application at a time and fixtures that reset the loggers between tests; the claim is about all sequences in which the global loggers are shared.", "anchors": ["rocketry/application.py:46-54", "rocketry/application.py:80-88", "rocketry/session.py:346-367", "rocketry/core/log/adapter.py:93-100", "rocketry/core/log/adapter.py:141-153", "rocketry/core/task.py:1178-1184", "rocketry/log/defaults.py:5-9"]}
{"id": "C89", "title": "The default names of tasks tell what they run", "statement": "A task made without a name gets one that tells what it runs: two tasks get the same default name exactly if they run the same function of the same module (or the same command). Hence tasks made without names for different functions are all registered, each under its own name.", "quantifier": "all modules, names of functions, paths, commands, sessions and lists of tasks made one after another", "why_tests_cant": "The tests check the names of a few functions and files; whether two names can be the same is a question about all pairs of texts.", "anchors": ["rocketry/tasks/func.py:249-261", "rocketry/tasks/func.py:134", "rocketry/tasks/command.py:106-107", "rocketry/tasks/code.py:57-58", "rocketry/tasks/maintain/os.py:14-15", "rocketry/session.py:402-415", "rocketry/core/task.py:334-340"]}
{"id": "C90", "title": "A task given by a piece of code does what the code does as a script", "statement": "A CodeTask is a script whose variables are the parameters of the task at first: the task ends exactly if the script ends, its return value is the value of `return_value` at the end of the script (None if it is not set), and it fails with the exception with which the script fails.", "quantifier": "all pieces of code (assignments, if, while, operators, functions and calls), parameters, builtins and operators, with any number of steps", "why_tests_cant": "The tests run two or three short pieces of code without functions; the property is about all pieces of code, also those that do not end.", "anchors": ["rocketry/tasks/code.py:47-58"]}
{"id": "C91", "title": "Equal parameters give a run the same", "statement": "`==` of arguments and of Parameters objects means that they give the same: two Parameters objects that are equal have the same names, and a run gets the same value for each of them; the answer does not depend on which of the two is asked, comparing never fails, and equal arguments stay equal.", "quantifier": "all arguments (simple, secret, session, return, environment, command line, function, task, pipes of any depth), all Parameters objects, all surroundings", "why_tests_cant": "The tests compare a few Parameters objects with plain values; pipes can be nested without bound and the surroundings (environment, session, functions) are arbitrary.", "anchors": ["rocketry/core/parameters/arguments.py:81-84", "rocketry/args/builtin.py:67-70", "rocketry/args/secret.py:22-25", "rocketry/core/parameters/parameters.py:162-166"]}
{"id": "C92", "title": "Texts that are no expressions are refused", "statement": "A condition or time text is read only if it is an expression: operands (items and brackets) joined by operators, brackets included at every depth. A text with a missing operand, a doubled operator or two operands side by side is refused with an error, and is never read as something shorter.", "quantifier": "for all texts laid out of words, operators, brackets and blanks in any order and to any depth, and all item parsers", "why_tests_cant": "The tests parse correct expressions and a handful of unknown items. Which malformed texts slip through depends on how list positions shift while operators are folded from the right, for every length and nesting.", "anchors": ["rocketry/parse/utils/string_parser.py:61-104", "rocketry/parse/_condition/string.py:5-46", "rocketry/parse/_time/string.py:5-36", "rocketry/pybox/container/visitor.py:88-118"]}
{"id": "C93", "title": "The file of a task is imported under its own name", "statement": "A task given by path loads its file under the module name by which Python imports that file from the directory that the task puts on sys.path; for a file of a package this directory is the one above the outermost package, and it is found for every path that names the file.", "quantifier": "for all file systems, working directories and paths", "why_tests_cant": "The tests load a few files from temporary directories; the walk through the parents depends on every directory above the file, on whether the path is relative, and on dots in names.", "anchors": ["rocketry/pybox/pkg/path.py:4-20", "rocketry/tasks/func.py:15-33", "rocketry/tasks/func.py:231-246"]}
{"id": "C94", "title": "A record read with times tells the times of the run", "statement": "A log record read through TaskLogRecord or TaskRunRecord has the action, the run and the instants that were written, and its runtime is the time between its start and its end; reading it again changes nothing.", "quantifier": "for all histories of runs, clocks and records", "why_tests_cant": "The tests of the record models only check the types of the fields (isinstance timedelta), not how long the duration is.", "anchors": ["rocketry/log/log_record.py:39-73", "rocketry/pybox/time/convert.py:38-66", "rocketry/pybox/time/convert.py:216-222", "rocketry/core/task.py:1148-1168"]}
{"id": "C95", "title": "Conditions look only at the tasks they are about, in their own session", "statement": "What a condition says depends only on the task it is asked for, the tasks it names, the clock, the scheduler and the parameters of its session: records, runs and times of other tasks, and other sessions in the same process, do not change the answer.", "quantifier": "for all conditions of any nesting, all pairs of situations (logs, runs, cached times), all interleavings of the records of other tasks and sessions", "why_tests_cant": "Non-interference is a statement about pairs of executions; tests run one session with a handful of tasks.", "anchors": ["rocketry/conditions/task/utils.py:36-111", "rocketry/conditions/task/task.py:167-222", "rocketry/core/log/adapter.py:53-59", "rocketry/_base.py:6-8", "rocketry/session.py:559-568"]}
{"id": "C96", "title": "A time given by its parts is the time at which clocks show them", "statement": "A point of a cycle given as a dictionary of parts ({'hour': 10, 'minute': 30}) is the position of the instants at which clocks show these parts, so that a period between two such points contains exactly the instants from the one to the other; other keys are refused; a float is the same number of units as the integer.", "quantifier": "for all cycles, dictionaries and instants", "why_tests_cant": "The tests give texts and integers; dictionaries and floats are hardly tested, and the set of parts and instants is infinite.", "anchors": ["rocketry/core/time/anchor.py:66-95", "rocketry/time/interval.py:29-30", "rocketry/time/interval.py:56-57", "rocketry/pybox/time/convert.py:336-338"]}
{"id": "C97", "title": "The text of a period says which period it is", "statement": "Python's own text of a duration, which rocketry puts into the texts of its sliding periods, is read by rocketry's duration reader as that duration. The text of a sliding period (past and future reach) determines both reaches. The text of a clock period is the text of its beginning and of its end, and reading those gives the period back. The text of a combined period determines when the period holds.", "quantifier": "Every duration in microseconds of either sign, every pair of reaches, every clock period, every combination of periods.", "why_tests_cant": "Durations and clock periods are unbounded or far too many to list; that no two different sliding periods share a text is a statement about all pairs of them.", "anchors": ["rocketry/core/time/base.py:246-251", "rocketry/core/time/base.py:373-374", "rocketry/core/time/base.py:492-493", "rocketry/core/time/base.py:530-535", "rocketry/core/time/anchor.py:409-423", "rocketry/pybox/time/convert.py:135-210", "rocketry/pybox/time/convert.py:224-334"]}
{"id": "C98", "title": "The keyword form of a query selects the same records", "statement": "A query that is a conjunction of questions for values and bounds has a keyword form (`to_pykwargs`), and the keywords select exactly the records the query selects. Keywords turned into a query and back are the same keywords.", "quantifier": "Every list of questions (fields, values, order of the questions), every record, every dictionary of keywords.", "why_tests_cant": "The test of the repository has six queries; the claim is about all conjunctions in any order and all records.", "anchors": ["rocketry/pybox/query/base.py:17-52", "rocketry/pybox/query/parse.py:103-142"]}
{"id": "C99", "title": "A removed task is not started in later rounds", "statement": "Once a task was removed from the session (session.remove_task) and the round of the scheduler in which that happened is over, none of its runs is started and none of its manual requests is taken by any later round, startup or shutdown, of this or a later call of serve, unless a task of that name is added again; whatever else happens meanwhile (requests of the removed task, faults, exceptions, restarts).", "quantifier": "for every session, every list of calls of serve, every environment (events, condition results, faults, clock) and every task name", "why_tests_cant": "A test removes a task at one point of one execution; the claim is about removals at any point of any execution, including removals in the middle of a round, during startup, during shutdown and during the sleep, with tasks that are requested later.", "anchors": ["rocketry/session.py:435-439", "rocketry/core/schedule.py:93-100", "rocketry/core/schedule.py:156-191", "rocketry/core/schedule.py:298-329", "rocketry/core/schedule.py:344-354"]}
{"id": "C100", "title": "Asking whether two conditions differ", "statement": "c != d for conditions is true exactly when c == d is false, and asking it changes no condition: every condition answers afterwards as it did before.", "quantifier": "for all condition trees over comparable and other leaves, all dictionaries of comparisons, all measurements and all answers of the other leaves", "why_tests_cant": "The tests compare conditions with == only; that asking leaves every condition, with whatever comparisons it has, as it was is a statement about all conditions and all later observations.", "anchors": ["rocketry/core/condition/base.py:318-320", "rocketry/core/condition/base.py:338-341", "rocketry/core/condition/base.py:278-288", "rocketry/core/condition/base.py:98-113"]}
{"id": "C101", "title": "Decorators make tasks of functions", "statement": "A task decorator (@FuncTask(...), @app.task(...)) makes one task of every function it is applied to, with the options it was given, gives the function back and runs nothing; the task is the same as the one made by giving the function together with the options.", "quantifier": "for all programs that create and apply decorators and tasks in any order, all options, all functions, and all further checks that may refuse a task", "why_tests_cant": "Tests apply a decorator once to one function; the claim is about all sequences of creations and applications.", "anchors": ["rocketry/tasks/func.py:156-180", "rocketry/tasks/func.py:182-203", "rocketry/tasks/func.py:144-154", "rocketry/session.py:402-415"]}
{"id": "C102", "title": "Changes of the clock", "statement": "When the local clock of the computer is changed (summer time), conditions keep to real time: `every(d)` is true if and only if no run was started in the last d, and `minutely`, `hourly`, `daily`, ... are true if and only if the task has not succeeded, been terminated or inacted, nor failed too often, since the current minute, hour, day, ... began.", "quantifier": "all clocks that are changed once by at most a day (all clocks whatever where nothing is changed nearby), all moments, durations, periods, logs and retries, with cached times and with force_status_from_logs", "why_tests_cant": "Tests run in one zone at a moment far from a change; what happens depends on the fold of datetimes, which fromtimestamp sets, arithmetic drops and comparisons ignore, and on which of cache and log is asked.", "anchors": ["rocketry/session.py:614-618", "rocketry/core/time/utils.py:8-32", "rocketry/core/time/base.py:153-176", "rocketry/core/time/base.py:225-230", "rocketry/pybox/time/convert.py:33-56", "rocketry/conditions/task/utils.py:62-111", "rocketry/conditions/task/task.py:285-311", "rocketry/conditions/api.py:221-230", "rocketry/core/task.py:1197-1237"]}
{"id": "C103", "title": "Finding tasks and parameters by their functions", "statement": "session[func] is the task that was last made of the function with a decorator in that session and is still in it, and func in session says whether there is one; session.parameters[func] is the parameter that was made of the function in that session.", "quantifier": "all programs that decorate functions as tasks and as parameters, create and remove tasks and assign parameters, in any order, in any number of sessions, with any names", "why_tests_cant": "Tests decorate each function once, in one session; the attribute of the function is shared by all sessions and by tasks and parameters, so that what is found depends on everything done with the function since.", "anchors": ["rocketry/tasks/func.py:190-207", "rocketry/parameters/func.py:38-44", "rocketry/session.py:199-212", "rocketry/session.py:227-242", "rocketry/session.py:417-439", "rocketry/core/parameters/parameters.py:70-75"]}
{"id": "C104", "title": "The outcome of a command task, and the end of its command", "statement": "A run of a command task succeeds if and only if its command ends with exit code 0 within the task's timeout, its value is then what the command wrote, and otherwise it fails; when the run has ended, or has been terminated, the command is no longer running.", "quantifier": "all commands, parameters, computers (what each command line does and how long it takes), timeouts, ways of execution and times of termination", "why_tests_cant": "The tests run short commands without a timeout and look at the record of the run; what is left of the command after the run, and the runs with a timeout, are never looked at.", "anchors": ["rocketry/tasks/command.py:50-99", "rocketry/core/task.py:230", "rocketry/core/task.py:290-298", "rocketry/core/task.py:66-80", "rocketry/core/task.py:1020-1032"]}
{"id": "C105", "title": "The conditions of a session depend on this session only", "statement": "When a program has several sessions, the value of a condition of a task of one session is decided by the state and configuration of this session: it is the same whichever session is the default and whatever the other sessions contain; the texts of its conditions are read with the phrases of this session.", "quantifier": "all numbers and states of sessions, all choices of the default session, all conditions built of the built-in ones, all condition texts", "why_tests_cant": "Tests use one session at a time, which a fixture makes the default; that a condition asks the default session for its configuration shows only with a second one of another configuration.", "anchors": ["rocketry/_base.py:6-8", "rocketry/session.py:559-568", "rocketry/session.py:85-91", "rocketry/application.py:57-67", "rocketry/conditions/task/utils.py:66", "rocketry/conditions/task/task.py:170", "rocketry/parse/_condition/condition_item.py:22-28", "rocketry/core/task.py:255-272"]}
{"id": "C106", "title": "A requested run is started in the next cycle", "statement": "If a run of a task was requested, the scheduler is not on hold, the task belongs into the cycles and does not run already, then the next cycle that is completed starts it, whatever the other tasks do and whatever their priorities are.", "quantifier": "all states of sessions, all tasks and priorities, all events and failures other than holding the scheduler and failing setups, any number of cycles", "why_tests_cant": "That a task is never reached is a statement about all numbers of cycles; a test sees finitely many, and those of the repository have as many slots as processes.", "anchors": ["rocketry/core/schedule.py:156-191", "rocketry/core/schedule.py:237-253", "rocketry/core/schedule.py:331-337", "rocketry/core/schedule.py:93-100", "rocketry/core/task.py:390-411"]}
{"id": "C107", "title": "A task keeps its history when it gets another name", "statement": "A task object may be given another name (task.name = ...). Its status, the times of its last actions, the number of its actions in a period and the conditions that depend on them are those of the task object before and after, and those of other tasks are not affected, whoever had the new name before.", "quantifier": "all sequences of logged actions, renamings and removals of any number of tasks, all names", "why_tests_cant": "Which records belong to a task depends on the whole history of names of all tasks; the tests of the repository never rename a task that has a history.", "anchors": ["rocketry/core/log/adapter.py:29-59", "rocketry/core/task.py:300-303", "rocketry/core/task.py:342-372", "rocketry/core/task.py:916-942", "rocketry/conditions/task/utils.py:36-51", "rocketry/conditions/task/utils.py:62-111"]}
{"id": "C108", "title": "Comparisons with a number are conditions on the number counted", "statement": "Comparing a condition that stands for a number of things (actions of a task in a period, runs that go on, cycles) with a number by ==, !=, <, >, <= or >= gives a condition that holds exactly if the number counted compares so; two comparisons are both asked for; a condition is equal to itself.", "quantifier": "all conditions that count and their shorthands, all operators and numbers, all measured numbers", "why_tests_cant": "The tests compare only condition objects and `running`; that a whole family of shorthands never gives a condition, for any operator, number and situation, cannot be seen from cases.", "anchors": ["rocketry/core/condition/base.py:96-110", "rocketry/core/condition/base.py:258-351", "rocketry/core/condition/base.py:166-183", "rocketry/conditions/api.py:31-193", "rocketry/core/task.py:255-263"]}
{"id": "C109", "title": "Whether a task is running is told rightly, and interrupted runs are found", "statement": "Task.is_running tells whether some run of the task goes on, as does Task.is_alive. If the program ends while runs go on, the next start logs a crash for the task exactly if some run had not ended.", "quantifier": "all histories of beginnings and ends of runs of a task, any number of them at a time, status read from the log or not", "why_tests_cant": "The answers depend on the order in which any number of runs begin and end; the tests only have one run at a time.", "anchors": ["rocketry/core/task.py:424-445", "rocketry/core/task.py:916-942", "rocketry/core/task.py:1130-1146", "rocketry/core/task.py:1148-1195"]}
{"id": "C110", "title": "The record of a failure tells the message and the exception, wherever the task ran", "statement": "Every handler of the logger of a task shows, for each record of a run, the message of the record and, if the run failed with an exception, the text of that exception once, after the message. What is shown is the same whether the task ran in the main process (main, async, thread) or in a process of its own, in which case the record went through the queue and was read by handle_logs or by _lock_to_run_log. The return value of a task does not get into the log.", "quantifier": "all messages, exceptions and texts of exceptions, actions, return values, ways of the record, and all lists of handlers with their formatters", "why_tests_cant": "Tests look at the traceback of a few exceptions with one handler. That no text is lost or doubled for any message, exception, list of formatters and way through the queue, and that the branch which doubles the message is never taken, is a statement about all texts.", "anchors": ["rocketry/log/handlers.py:16-46", "rocketry/core/schedule.py:255-287", "rocketry/core/task.py:1039-1072", "rocketry/core/task.py:1148-1195"]}
{"id": "C111", "title": "What the start text of a task forbids does not hold when it is started", "statement": "If the start condition of a task is given as a text, every phrase that the text wants to be false (`daily & ~has failed today`: read through &, | and ~) was false at the check that led to each start, and this is seen in the log: with `~time of …` the check was outside that time; with `~has failed past 2 hours` (or another verb, time or task) no such record lay in that time, so that the starts of a task are more than 2 hours after each of its failures; with `~after task 'x'` x had not ended so since the last start; with `~daily …` the check was outside the time or a run had already ended in it; a task with `~every …` or `~true` is never started. Nothing of the task is logged between the check and the start.", "quantifier": "all texts of the condition syntax over the phrases with known meaning, all histories of the session (outcomes, durations, restarts, other tasks, late log records) and all executions of the scheduler, all readings of the clock that do not go back", "why_tests_cant": "That something is absent from the log at every start is a statement about all interleavings of runs, records that wait in the queue, restarts and caches; tests look at single texts with a log prepared by hand.", "anchors": ["rocketry/core/condition/base.py:138-199", "rocketry/conditions/task/utils.py:36-111", "rocketry/conditions/task/task.py:253-446", "rocketry/core/schedule.py:156-253", "rocketry/parse/utils/parser.py"]}
{"id": "C112", "title": "Tasks that wait for each other: a pipeline never runs ahead, a knot never starts", "statement": "If the start text of each task of a pipeline insists on a success of the task before it (`after task 'x'`, or `after tasks …`, combined with anything by &, | and ~), then at every point of every execution the last task has not been started more often than the first one has succeeded, over any number of tasks in between. If every task of a set waits in this way for some task of the set (also with `after any tasks …` of tasks of the set), none of them is ever started. No task ever has more successes than starts in the log.", "quantifier": "all sets of tasks and texts, pipelines of any length, all histories of the session (outcomes, durations, process, thread and async runs, late log records, restarts, terminations) and all executions of the scheduler; every beginning of the log", "why_tests_cant": "Tests run two or three tasks once; that no interleaving of many runs, restarts and late records lets a later stage overtake an earlier one, and that a cycle of any length stays still for ever, are statements about all histories.", "anchors": ["rocketry/conditions/task/task.py:253-333", "rocketry/core/condition/base.py:138-199", "rocketry/core/schedule.py:156-287", "rocketry/core/task.py:454-783"]}
{"id": "C113", "title": "What a task returned is what the others get", "statement": "In every state of every execution, Return('x') gives what the run of the latest success of x in the log returned; the default (or KeyError) if x has not succeeded yet; ValueError if there is no task x. A task that is started for a new success of x gets a value that was handed over since, not the one of before.", "quantifier": "all sessions, all numbers and interleavings of runs in main, async, threads and processes with all courses, all renamings, removals and additions of tasks, all failures of loggers", "why_tests_cant": "Values take three ways (event loop, threads, the queue of the processes with two readers), and runs interleave; a test sees one interleaving.", "anchors": ["rocketry/core/task.py:1334-1336", "rocketry/core/task.py:596-656", "rocketry/core/task.py:1039-1072", "rocketry/core/task.py:1148-1195", "rocketry/core/schedule.py:255-287", "rocketry/args/builtin.py:166-183", "rocketry/core/parameters/parameters.py:65-70"]}
{"id": "C114", "title": "The runs of a task are ended exactly when its end condition holds", "statement": "In every check of a task with an end condition, every live run of it is ended if what the condition says holds for the log and the clock (or the termination was requested, or the run is too old), and no live run is terminated otherwise. This holds for end conditions given as texts, and end_cond=running.more_than(d) ends a run exactly when it has gone on for d.", "quantifier": "all texts of the modelled phrases combined with &, |, ~ and brackets, all histories of the log, all executions of the scheduler and all checks in them; all limits, runs and logs", "why_tests_cant": "The outcome depends on the whole log, on how runs of the task overlap and on the moment of the check; the project tests two fixed end conditions with one run each.", "anchors": ["rocketry/core/task.py:972-995", "rocketry/core/schedule.py:176-186", "rocketry/conditions/api.py:145-175", "rocketry/conditions/task/task.py:162-222", "docs/code/conds/api/task_running.py:3"]}
{"id": "C115", "title": "The scheduler goes on exactly as long as what its shut text says does not hold", "statement": "At every check of the shut condition of a session, given as a text, the loop of the scheduler ends if what the text says holds for the log and the clock; otherwise the next cycle begins, unless a shutdown or restart was requested. Every text accepted as a shut condition can be checked.", "quantifier": "all texts of the modelled phrases combined with &, |, ~ and brackets, all histories of the log, all executions of the scheduler (however often it is started) and all rounds of its loop", "why_tests_cant": "Whether the loop ends depends on the whole log, the clock and what was requested during the wait before the cycle; the tests use a few condition objects with fixed thresholds.", "anchors": ["rocketry/core/schedule.py:108-154", "rocketry/core/schedule.py:193-197", "rocketry/session.py:71-90", "rocketry/conditions/task/utils.py:36-51"]}
{"id": "C116", "title": "A scheduler on hold starts nothing new", "statement": "From the moment `scheduler.on_hold` is set to True until it is set to False again, the scheduler starts no task, except that a task it is just looking at (it has turned to it and not yet started it) may still be started; runs requested meanwhile wait.", "quantifier": "all sessions, all sequences of calls of serve (also restarts by recall), all behaviours of conditions, tasks and faults, all moments at which the hold is set or lifted, also while a condition is evaluated", "why_tests_cant": "The hold may be set by a thread or by a task at any point of a cycle; tests set it at one point and look at a few cycles.", "anchors": ["rocketry/core/schedule.py:81-85", "rocketry/core/schedule.py:112-114", "rocketry/core/schedule.py:177-184", "rocketry/core/schedule.py:344-354", "rocketry/core/schedule.py:472-490"]}
{"id": "C117", "title": "force_run runs a task once", "statement": "A task whose force_run is set to True is run once, whether it is disabled or not and whatever its start condition says; the attribute reads True from then until that run is started, and setting it back to False before withdraws the run.", "quantifier": "all sequences of assignments of force_run, calls of run, turns of the scheduler and other starts of the task, also assignments in the middle of a start, all outcomes of the start condition, parameters that cannot be made", "why_tests_cant": "The tests set the attribute once before a session and look at it at the end. The attribute and the queue that really forces the run are two variables written at four places, so they can disagree after particular orders of assignments and starts.", "anchors": ["rocketry/core/task.py:136-139", "rocketry/core/task.py:215-227", "rocketry/core/task.py:380-385", "rocketry/core/task.py:390-411", "rocketry/core/task.py:481-483", "rocketry/core/task.py:547-568", "rocketry/core/task.py:803-807", "rocketry/core/schedule.py:174-185"]}
{"id": "C118", "title": "Running runs are told from the log by their ids", "statement": "With force_status_from_logs the condition TaskRunning reads the log: the number it counts is the number of runs of the task that go on, whichever of the two functions for run ids (uuid, increment) the session uses.", "quantifier": "all histories of starts and ends of runs of the task, overlapping or not, and of other tasks' records; all windows of time that contain them", "why_tests_cant": "The tests of running from logs write records with ids by hand and never let the function increment choose them over several runs; that an id comes back shows only after a run has ended and another was started.", "anchors": ["rocketry/tasks/run_id.py:4-13", "rocketry/core/task.py:479-500", "rocketry/core/task.py:949-952", "rocketry/core/task.py:1163-1184", "rocketry/conditions/task/task.py:167-222"]}
{"id": "C119", "title": "After set_repo the log of a task is what was logged since", "statement": "task.logger.set_repo(repo) makes the tasks with this logger read exactly the records of their name the repository had and those that come to the logger from then on, through it or a logger below that passes its records up, in order and each once. The old repository keeps its records; the other loggers and the other handlers stay as they are.", "quantifier": "all trees of loggers with any handlers, all sequences of log calls with any loggers and of further set_repo calls on other loggers, all tasks", "why_tests_cant": "Two tests call set_repo once on one logger and read it; none has handlers besides, loggers below, or two tasks that share the logger.", "anchors": ["rocketry/core/log/adapter.py:53-100", "rocketry/session.py:462-511", "rocketry/core/task.py:275-303"]}
{"id": "C120", "title": "A task that calls for the end of the scheduler ends it at once", "statement": "When a task that raises SchedulerExit or SchedulerRestart (such as the maintenance tasks ShutDown and Restart) is run, the cycle is over with the end of its run: no further task is looked at or started. After SchedulerExit all that follows is an orderly shutdown as after a request: shutdown tasks are run, running tasks are waited for, and there is no further cycle and no restart.", "quantifier": "all sessions, all environments (events, faults, conditions), all rounds in which such a task comes up, all tasks before and after it in the cycle", "why_tests_cant": "The tests run one ShutDown or Restart task alone or as the last one and look at the log of that task; which tasks of the cycle are still started, and what becomes of tasks that are running, depends on the order and on what else runs.", "anchors": ["rocketry/tasks/maintain/os.py:5-30", "rocketry/core/schedule.py:108-191", "rocketry/core/schedule.py:208-224", "rocketry/core/schedule.py:344-439", "rocketry/core/task.py:454-542", "rocketry/core/task.py:596-612"]}
{"id": "C121", "title": "`task.terminate()` ends the runs that go on, and nothing else", "statement": "A call of task.terminate() ends every run of the task that is going on at the time of the call, at the latest in the next cycle of the scheduler, whatever the conditions of the task say; afterwards the call is used up: no run that is started after the call is ended on its account.", "quantifier": "all sessions, all tasks and numbers of runs, all environments (events, faults, conditions), all times of the call and all later executions", "why_tests_cant": "The tests call terminate() on a task with one run and wait for the record; whether a run started right after the call is spared, and whether the call is still remembered later, depends on where in a cycle the call is made and on what the start condition says then.", "anchors": ["rocketry/core/task.py:228", "rocketry/core/task.py:418-420", "rocketry/core/task.py:972-995", "rocketry/core/task.py:1018-1036", "rocketry/core/task.py:1087-1094", "rocketry/core/schedule.py:156-191"]}
{"id": "C122", "title": "The arguments for the session, tasks, the configuration and the loggers give what they stand for", "statement": "Wherever the code evaluates arguments (parameters of a task in any execution, start and end conditions, the condition to shut down, also within functions of FuncArg and in pipes), Session() gives the session of the task, Task() the task, Task(name) the task of that name in the session, Config() the configuration of the session, TaskLogger() an adapter of the logger to which the task logs, for that task, and SchedulerLogger() the logger of the scheduler; no default is used where there is a task.", "quantifier": "all sessions, tasks, names and loggers, all arguments including arbitrarily nested functions and pipes, all places of evaluation", "why_tests_cant": "The tests use the arguments one by one in the parameters of a task; the callers pass different keywords at different places (a start condition is observed without the session), and only some of them evaluate the arguments in the signature of get_value, which shows only for particular nestings.", "anchors": ["rocketry/args/builtin.py:72-134", "rocketry/args/builtin.py:242-248", "rocketry/core/parameters/arguments.py:80-118", "rocketry/core/parameters/parameters.py:70-112", "rocketry/core/parameters/parameters.py:213-216", "rocketry/core/task.py:566", "rocketry/core/task.py:593", "rocketry/core/task.py:663-664", "rocketry/core/task.py:712-713", "rocketry/core/task.py:755-768", "rocketry/core/task.py:975", "rocketry/core/schedule.py:197"]}
{"id": "C123", "title": "A query written with operators selects the records of which it is true", "statement": "A query written with Key, the comparisons of Python (with the key on either side, or between two bounds), &, |, ~ and Regex is true of a record that has the fields it names exactly if the record is as the expression says, and filter gives exactly these records in their order; brackets in & and | do not matter, and negation can be moved inwards, also for records without the fields.", "quantifier": "all queries built from these operators, arbitrarily nested, all records and logs, all answers of regular expressions", "why_tests_cant": "The tests compare a few queries on a few records; nested uses of the operators (which are flattened), keys on the right side and records that lack a field come in unbounded combinations.", "anchors": ["rocketry/pybox/query/base.py:56-112", "rocketry/pybox/query/base.py:114-152", "rocketry/pybox/query/base.py:158-276", "rocketry/pybox/query/string.py:23-28"]}
{"id": "C124", "title": "The function of an argument is called with what was given for it, or else with its defaults", "statement": "When a FuncArg (also one made by @argument(...) or session.parameters.param_func) is evaluated, each parameter of its function gets the value given for it by position or keyword; or else, when its default is an argument, the value of this in the session where it is evaluated; or else its default; all given keywords get to the function, and nothing else does.", "quantifier": "all signatures (with keyword-only parameters, *args, **kwargs), all given values, all arguments among the defaults, all sessions", "why_tests_cant": "The tests evaluate functions with one or two parameters; which combinations of given values and argument defaults are possible depends on the rules of Python for calls.", "anchors": ["rocketry/args/builtin.py:236-248", "rocketry/args/builtin.py:315-318", "rocketry/core/parameters/parameters.py:50-61", "rocketry/core/parameters/parameters.py:122-147", "rocketry/core/utils/meta.py:6-24"]}
{"id": "C125", "title": "The order in which an intersection holds its periods does not matter", "statement": "`a & b & c` of time periods gives the same next interval, the same previous interval and the same membership in whatever order the frozenset of its members is iterated, also where intersections are nested in other periods; the same for unions `a | b | c`.", "quantifier": "all periods, nested to any depth, all orders of the members of every intersection, all instants, all recursion budgets", "why_tests_cant": "The order of a frozenset depends on hashes and is the same each time a test runs; the tests see one order of few.", "anchors": ["rocketry/core/time/base.py:272-295", "rocketry/core/time/base.py:297-360", "rocketry/core/time/base.py:402-479", "rocketry/pybox/time/interval.py:34-106"]}
