{
 "claims": [
  {
   "property": "C01",
   "status": "proved",
   "theorems": [
    "Rocketry.Props.C01_contains",
    "Rocketry.Props.C01_and_mem",
    "Rocketry.Props.C01_and_raises",
    "Rocketry.Props.C01_overlaps_complete",
    "Rocketry.Props.C01_overlaps_symm",
    "Rocketry.Props.C01_overlaps_iff",
    "Rocketry.Props.C01_overlaps_empty_violated",
    "Rocketry.Props.C01_isEmpty"
   ],
   "note": "Membership, intersection and overlap of spans for all bounds and closed modes. Finding: overlap reports true for some empty spans."
  },
  {
   "property": "C02",
   "status": "proved",
   "theorems": [
    "Rocketry.Props.C02_constructor",
    "Rocketry.Props.C02_contains",
    "Rocketry.Props.C02_periodic"
   ],
   "note": "Second, minute, hour, day and week classes."
  },
  {
   "property": "C03",
   "status": "partial",
   "theorems": [
    "Rocketry.Props.C03_rollforward_partial",
    "Rocketry.Props.C03_rollforward_full",
    "Rocketry.Props.C03_degenerate_violated"
   ],
   "note": "All periods of the five classes and all instants, except the degenerate period (start at the end of the cycle, end at its beginning, an empty period), for which rollforward recurses for ever."
  },
  {
   "property": "C04",
   "status": "partial",
   "theorems": [
    "Rocketry.Props.C04_rollback_partial",
    "Rocketry.Props.C04_rollback_full",
    "Rocketry.Props.C04_degenerate_violated"
   ],
   "note": "All periods of the five classes and all instants, except the degenerate (empty) period, for which rollback returns a single instant that is not in the period."
  },
  {
   "property": "C05",
   "status": "proved",
   "theorems": [
    "Rocketry.Props.C05_next_start",
    "Rocketry.Props.C05_next_end",
    "Rocketry.Props.C05_prev_start",
    "Rocketry.Props.C05_prev_end",
    "Rocketry.Props.C05_iterate"
   ],
   "note": ""
  },
  {
   "property": "C06",
   "status": "partial",
   "theorems": [
    "Rocketry.Props.C06_range",
    "Rocketry.Props.C06_open_range",
    "Rocketry.Props.C06_at",
    "Rocketry.Props.C06_starting",
    "Rocketry.Props.C06_reject_partial",
    "Rocketry.Props.C06_reject_violated"
   ],
   "note": "All classes except TimeOfYear (see C08). Finding: TimeOfSecond accepts 1000."
  },
  {
   "property": "C07",
   "status": "partial",
   "theorems": [
    "Rocketry.Props.C07_contains",
    "Rocketry.Props.C07_rollforward_partial",
    "Rocketry.Props.C07_rollback_partial",
    "Rocketry.Props.C07_up_to_28th",
    "Rocketry.Props.C07_rollback_full",
    "Rocketry.Props.C07_rolls_violated"
   ],
   "note": "Membership exact for all bounds; rolls exact when the bounds fit in the two months concerned (always for bounds up to the 28th). Finding: bounds on days 29-31 roll to wrong dates or raise ValueError."
  },
  {
   "property": "C08",
   "status": "partial",
   "theorems": [
    "Rocketry.Props.C08_contains_partial",
    "Rocketry.Props.C08_contains_violated",
    "Rocketry.Props.C08_at_partial",
    "Rocketry.Props.C08_next_start_exact",
    "Rocketry.Props.C08_prev_start_exact",
    "Rocketry.Props.C08_rollforward_partial",
    "Rocketry.Props.C08_rolls_violated"
   ],
   "note": "Membership exact up to the last microsecond of the end month; next and previous start characterised exactly for all instants. Finding: rolls across a missing 29 February are off by one day."
  },
  {
   "property": "C09",
   "status": "proved",
   "theorems": [
    "Rocketry.Props.C09_contains",
    "Rocketry.Props.C09_sem"
   ],
   "note": "membership of an intersection is the conjunction of the members' memberships, for every nesting and order; dt before TimePeriod.max"
  },
  {
   "property": "C10",
   "status": "partial",
   "theorems": [
    "Rocketry.Props.C10_rollforward_partial",
    "Rocketry.Props.C10_terminates_partial",
    "Rocketry.Props.C10_month_violated",
    "Rocketry.Props.C10_year_violated"
   ],
   "note": "All finite collections, nestings and instants, for members that roll forward correctly themselves (fixed-cycle periods by C03, months up to the 28th by C07, static intervals, unions). Missing: month days that some months lack (C10_month_violated) and year periods, which the rolls miss by a day (C10_year_violated)."
  },
  {
   "property": "C11",
   "status": "partial",
   "theorems": [
    "Rocketry.Props.C11_no_common_violated",
    "Rocketry.Props.C11_answers_partial"
   ],
   "note": "the claim is false: with no common time the code recurses without end; answered whenever a common instant exists"
  },
  {
   "property": "C12",
   "status": "partial",
   "theorems": [
    "Rocketry.Props.C12_rollback_inside",
    "Rocketry.Props.C12_rollback_latest_partial",
    "Rocketry.Props.C12_rollback_terminates",
    "Rocketry.Props.C12_start_instant",
    "Rocketry.Props.C12_union_inside_violated"
   ],
   "note": "span inside all members for every nesting; the latest common instant is not skipped when members are single periods; false (by one microsecond) with a union inside"
  },
  {
   "property": "C13",
   "status": "partial",
   "theorems": [
    "Rocketry.Props.C13_contains_partial",
    "Rocketry.Props.C13_contains_violated",
    "Rocketry.Props.C13_rollforward",
    "Rocketry.Props.C13_rollforward_terminates"
   ],
   "note": "false only at an instant at which a static member ends (result depends on set order); earliest start proved"
  },
  {
   "property": "C14",
   "status": "partial",
   "theorems": [
    "Rocketry.Props.C14_merge_partial",
    "Rocketry.Props.C14_merge_violated"
   ],
   "note": "the claim is false when a span lies inside another; proved when starts and ends increase together"
  },
  {
   "property": "C15",
   "status": "proved",
   "theorems": [
    "Rocketry.Props.C15_contains",
    "Rocketry.Props.C15_always_never",
    "Rocketry.Props.C15_rolls",
    "Rocketry.Props.C15_reversed"
   ],
   "note": ""
  },
  {
   "property": "C16",
   "status": "proved",
   "theorems": [
    "Rocketry.Props.C16_delta",
    "Rocketry.Props.C16_span",
    "Rocketry.Props.C16_span_contains"
   ],
   "note": ""
  },
  {
   "property": "C17",
   "status": "proved",
   "theorems": [
    "Rocketry.Props.C17_constructors",
    "Rocketry.Props.C17_operators",
    "Rocketry.Props.C17_assoc",
    "Rocketry.Props.C17_flat",
    "Rocketry.Props.C17_comm"
   ],
   "note": "meaning on [TimePeriod.min, TimePeriod.max)"
  },
  {
   "property": "C18",
   "status": "partial",
   "theorems": [
    "Rocketry.Props.C18_contains_partial",
    "Rocketry.Props.C18_answers",
    "Rocketry.Props.C18_text",
    "Rocketry.Props.C18_month_violated",
    "Rocketry.Props.C18_star_in_list_violated",
    "Rocketry.Props.C18_single_step_violated",
    "Rocketry.Props.C18_day31_violated"
   ],
   "note": "proved for all valid expressions and instants whenever the call returns, except the last microsecond of a month when there is a month field; the claim is false there, for '*' inside a list, for x/n, and the call raises for days some months lack"
  },
  {
   "property": "C19",
   "status": "partial",
   "theorems": [
    "Rocketry.Props.C19_steps_partial",
    "Rocketry.Props.C19_off_by_one_violated"
   ],
   "note": "holds for minute, hour and names; false for numbers in day-of-month, month and day-of-week, where the selection is shifted by one (proved for all such ranges)"
  },
  {
   "property": "C20",
   "status": "proved",
   "theorems": [
    "Rocketry.Props.C20_rollforward",
    "Rocketry.Props.C20_month_violated"
   ],
   "note": "for all expressions without month field and with days of the month every month has; false with a month field"
  },
  {
   "property": "C54",
   "status": "proved",
   "theorems": [
    "Rocketry.Props.C54_reads",
    "Rocketry.Props.C54_exact",
    "Rocketry.Props.C54_only",
    "Rocketry.Props.C54_unknown_unit"
   ],
   "note": "Grammar of signs, parts and clock text: a text is read iff it belongs to the grammar, the result is the rounded exact sum (floats idealised as rationals; ASCII digits)."
  },
  {
   "property": "C55",
   "status": "partial",
   "theorems": [
    "Rocketry.Props.C55_round_trip_partial",
    "Rocketry.Props.C55_subsecond_violated",
    "Rocketry.Props.C55_negative_violated"
   ],
   "note": "Exact characterisation (iff) of the durations that read back to themselves; zero, sub-second parts and negative non-day durations do not."
  },
  {
   "property": "C21",
   "status": "proved",
   "theorems": [
    "Rocketry.Props.C21_observe",
    "Rocketry.Props.C21_truth",
    "Rocketry.Props.C21_double_negation",
    "Rocketry.Props.C21_double_negation_built",
    "Rocketry.Props.C21_short_and",
    "Rocketry.Props.C21_short_or"
   ],
   "note": "short-circuit semantics with arbitrary effects and exceptions of the leaves"
  },
  {
   "property": "C22",
   "status": "partial",
   "theorems": [
    "Rocketry.Props.C22_shared_violated",
    "Rocketry.Props.C22_family_violated",
    "Rocketry.Props.C22_partial"
   ],
   "note": "the claim is false: the copy shares the comparison dictionary; proved which conditions change and which do not, for all programs"
  },
  {
   "property": "C23",
   "status": "proved",
   "theorems": [
    "Rocketry.Props.C23_compare",
    "Rocketry.Props.C23_any_over_zero",
    "Rocketry.Props.C23_equal_zero"
   ],
   "note": ""
  },
  {
   "property": "C24",
   "status": "partial",
   "theorems": [
    "Rocketry.Props.C24_condition_partial",
    "Rocketry.Props.C24_object_partial",
    "Rocketry.Props.C24_unknown_item",
    "Rocketry.Props.C24_time_partial",
    "Rocketry.Props.C24_unbalanced",
    "Rocketry.Props.C24_blank_violated",
    "Rocketry.Props.C24_always_violated",
    "Rocketry.Props.C24_malformed"
   ],
   "note": "all expressions of any depth with blanks around items and operators, exact short-circuit meaning; missing: blanks next to brackets at the edge of a level (rejected by the code) and compositions of `always` in time strings (may raise)"
  },
  {
   "property": "C25",
   "status": "partial",
   "theorems": [
    "Rocketry.Props.C25_cached_partial",
    "Rocketry.Props.C25_finished",
    "Rocketry.Props.C25_two_readings_violated",
    "Rocketry.Props.C25_late_record_violated"
   ],
   "note": "all histories of successful log writes, all comparisons, windows and kinds of status condition; missing: windows whose edge falls between the two clock readings of a log call, and logs out of order (shown to be violations)"
  },
  {
   "property": "C33",
   "status": "partial",
   "theorems": [
    "Rocketry.Props.C33_task",
    "Rocketry.Props.C33_startup",
    "Rocketry.Props.C33_again",
    "Rocketry.Props.C33_tie_violated"
   ],
   "note": "holds for records with distinct times; a run record and its outcome record with the same time are reported as a crash (violation)"
  },
  {
   "property": "C34",
   "status": "partial",
   "theorems": [
    "Rocketry.Props.C34_agrees",
    "Rocketry.Props.C34_reread_partial",
    "Rocketry.Props.C34_two_readings_violated",
    "Rocketry.Props.C34_failed_write",
    "Rocketry.Props.C34_failed_write_violated"
   ],
   "note": "all histories of log calls; missing: times when the two clock readings of one log call differ, and failing log writes (violations shown)"
  },
  {
   "property": "C26",
   "status": "partial",
   "theorems": [
    "Rocketry.Props.C26_eligible_partial",
    "Rocketry.Props.C26_month_partial",
    "Rocketry.Props.C26_year_partial",
    "Rocketry.Props.C26_whole_year_partial",
    "Rocketry.Props.C26_duration",
    "Rocketry.Props.C26_midnight_violated",
    "Rocketry.Props.C26_month_violated",
    "Rocketry.Props.C26_year_violated"
   ],
   "note": "Full equivalence for every fixed-cycle period, log, retries and time except the first instant of a full cycle, where the window is the previous cycle (C26_midnight_violated). With cached times the two clock readings of a record must lie in one occurrence. Calendar months: C26_month_partial, for all parts except those that begin after the 28th and go on in the next month (C26_month_violated). Years: C26_year_partial, C26_whole_year_partial, unless the end of a February with 28 days lies between the beginning of the occurrence and now: there a success of the day before the beginning counts (C26_year_violated)."
  },
  {
   "property": "C27",
   "status": "partial",
   "theorems": [
    "Rocketry.Props.C27_successes_partial",
    "Rocketry.Props.C27_monthly_partial",
    "Rocketry.Props.C27_month_partial",
    "Rocketry.Props.C27_year_partial",
    "Rocketry.Props.C27_whole_year_partial",
    "Rocketry.Props.C27_process_violated"
   ],
   "note": "All histories of tasks run in the scheduler's process, and of process tasks when no check happens while a record of the task is queued; the remaining race breaks the claim (C27_process_violated)."
  },
  {
   "property": "C28",
   "status": "partial",
   "theorems": [
    "Rocketry.Props.C28_started_partial",
    "Rocketry.Props.C28_month_partial",
    "Rocketry.Props.C28_violated"
   ],
   "note": "Holds when no outcome of the task lies in the current occurrence; a run that lasts over midnight breaks the claim as stated (C28_violated)."
  },
  {
   "property": "C30",
   "status": "proved",
   "theorems": [
    "Rocketry.Props.C30_spacing",
    "Rocketry.Props.C30_eligible",
    "Rocketry.Props.C30_based"
   ],
   "note": "Start times are those noted by the scheduler when the run was started."
  },
  {
   "property": "C31",
   "status": "partial",
   "theorems": [
    "Rocketry.Props.C31_state",
    "Rocketry.Props.C31_history",
    "Rocketry.Props.C31_process_violated"
   ],
   "note": "C31_state: on every log with increasing record times Retry(n) holds iff the latest record is a failure and the failures since the last other outcome are at most n (n < 0: any). C31_history: in every execution history (tasks not in the process queue race) a task started only by retry(n) starts at most n times in a row. Violated when a run is terminated while its record is still in the process log queue: one start too many (witness)."
  },
  {
   "property": "C32",
   "status": "proved",
   "theorems": [
    "Rocketry.Props.C32_state",
    "Rocketry.Props.C32_conditions",
    "Rocketry.Props.C32_history"
   ],
   "note": "For all logs: after_success/after_fail/after_finish hold iff the upstream task has such a completion after the task's own last start (or the task never started and the upstream has one). For all histories: each start of the downstream task is served by a completion no other start was served by, so starts never outnumber completions."
  },
  {
   "property": "C35",
   "status": "partial",
   "theorems": [
    "Rocketry.Props.C35_ids_partial",
    "Rocketry.Props.C35_window_partial",
    "Rocketry.Props.C35_times_partial",
    "Rocketry.Props.C35_crash_violated",
    "Rocketry.Props.C35_more_than_violated"
   ],
   "note": "all logs in which outcome records carry the run's id and follow its start; missing: crash records (no run id: the run counts as running for ever, C35_crash_violated) and windows that end before now (C35_more_than_violated). C35_window_partial says for every window what is counted instead: the runs unfinished at the end of the window."
  },
  {
   "property": "C37",
   "status": "partial",
   "theorems": [
    "Rocketry.Props.C37_cap_partial",
    "Rocketry.Props.C37_removed_violated"
   ],
   "note": "every state of every execution of any number of sessions, arbitrary tasks, events, faults; missing: a task removed from the session while its process is alive (C37_removed_violated)."
  },
  {
   "property": "C38",
   "status": "partial",
   "theorems": [
    "Rocketry.Props.C38_single",
    "Rocketry.Props.C38_single_partial",
    "Rocketry.Props.C38_untracked_violated"
   ],
   "note": "C38_single: process/thread/async tasks in every state of every execution; C38_single_partial: also main tasks, without log write failures; C38_untracked_violated: a main run whose run record cannot be written goes on untracked."
  },
  {
   "property": "C44",
   "status": "proved",
   "theorems": [
    "Rocketry.Props.C44_order",
    "Rocketry.Props.C44_belongs"
   ],
   "note": "Every execution of any number of sessions: startup tasks at most once before the first cycle, shutdown tasks at most once after the last, neither in a cycle; also no cycle begins after shutdown was requested."
  },
  {
   "property": "C42",
   "status": "partial",
   "theorems": [
    "Rocketry.Props.C42_exact_partial",
    "Rocketry.Props.C42_cycle_partial",
    "Rocketry.Props.C42_states",
    "Rocketry.Props.C42_zero_violated",
    "Rocketry.Props.C42_dead_violated"
   ],
   "note": "Exact up to an own timeout of zero, which the code takes as no timeout (C42_zero_violated). C42_dead_violated: runs that are already over also get terminated when a request or the end condition applies."
  },
  {
   "property": "C39",
   "status": "proved",
   "theorems": [
    "Rocketry.Props.C39_exact"
   ],
   "note": "Every state of the session in which names are unique, every choice of the environment: the run started by the inspection of a task, if any, is exactly the one the rule of the claim asks for; the only other obstacle is a failing setup (params, setup), which is stated in the theorem."
  },
  {
   "property": "C41",
   "status": "proved",
   "theorems": [
    "Rocketry.Props.C41_order"
   ],
   "note": "Every cycle from every state with unique names; if an exception ends the cycle early, what was inspected is a prefix of the order."
  },
  {
   "property": "C43",
   "status": "partial",
   "theorems": [
    "Rocketry.Props.C43_tracked",
    "Rocketry.Props.C43_none_partial",
    "Rocketry.Props.C43_waits",
    "Rocketry.Props.C43_forced",
    "Rocketry.Props.C43_flags_partial",
    "Rocketry.Props.C43_twice",
    "Rocketry.Props.C43_removed_violated",
    "Rocketry.Props.C43_untracked_violated",
    "Rocketry.Props.C43_flags_violated",
    "Rocketry.Props.C44_order"
   ],
   "note": "No cycle after the request: C44_order. When serve returns no tracked run is alive (C43_tracked), and none at all if no task was removed while running and no main run lost its record; both exceptions and the force flag, which serve does not clear, have witnesses."
  },
  {
   "property": "C40",
   "status": "partial",
   "theorems": [
    "Rocketry.Props.C40_order",
    "Rocketry.Props.C40_served_partial",
    "Rocketry.Props.C40_lost_violated",
    "Rocketry.Props.C39_exact"
   ],
   "note": "All executions: requests are taken in order, each once, and the runs have their parameters; pending requests stay. Missing: a request whose run fails in its setup after the request was taken is lost (C40_lost_violated). That a pending request makes the run due, also for a disabled task: C39_exact."
  },
  {
   "property": "C45",
   "status": "partial",
   "theorems": [
    "Rocketry.Props.C45_once_partial",
    "Rocketry.Props.C45_never_twice",
    "Rocketry.Props.C45_drained",
    "Rocketry.Props.C45_returns_partial",
    "Rocketry.Props.C45_returns_violated",
    "Rocketry.Props.C45_removed_violated"
   ],
   "note": "All interleavings of any number of processes, their feeder threads, terminations, log failures and reads by handle_logs and _lock_to_run_log. Missing: records of a task removed meanwhile are lost (C45_removed_violated); return values in records read while another process is started are dropped (C45_returns_violated)."
  },
  {
   "property": "C36",
   "status": "partial",
   "theorems": [
    "Rocketry.Props.C36_records_partial",
    "Rocketry.Props.C36_exactly",
    "Rocketry.Props.C36_process",
    "Rocketry.Props.C36_extra",
    "Rocketry.Props.C36_early_main",
    "Rocketry.Props.C36_terminated",
    "Rocketry.Props.C36_setup",
    "Rocketry.Props.C36_async_violated",
    "Rocketry.Props.C36_early_violated",
    "Rocketry.Props.C36_restart_violated",
    "Rocketry.Props.C36_dies_violated",
    "Rocketry.Props.C36_post_violated",
    "Rocketry.Props.C36_kill_violated",
    "Rocketry.Props.C36_setup_violated",
    "Rocketry.Props.C36_pickle_violated"
   ],
   "note": "All courses of a run and all execution types; C36_exactly tells for each execution type exactly which runs have the proper two records, the rest are the violations shown. Record writes succeed in this model. What the run returned is the subject of C113."
  },
  {
   "property": "C46",
   "status": "partial",
   "theorems": [
    "Rocketry.Props.C46_unique",
    "Rocketry.Props.C46_unique_partial",
    "Rocketry.Props.C46_removed_partial",
    "Rocketry.Props.C46_plain",
    "Rocketry.Props.C46_function_partial",
    "Rocketry.Props.C46_ignore_violated",
    "Rocketry.Props.C46_function_violated",
    "Rocketry.Props.C46_function_ignore_violated"
   ],
   "note": "Names stay unique and lookup by name is exact for every sequence of operations without the policy 'ignore', and with it as long as no task is renamed to a taken name. With 'ignore' an assignment to name makes duplicates. Lookup by function holds while the task keeps its name; after a rename it finds nothing or another task, and with 'ignore' a function whose task was not registered is linked to the other task."
  },
  {
   "property": "C47",
   "status": "partial",
   "theorems": [
    "Rocketry.Props.C47_free",
    "Rocketry.Props.C47_raise",
    "Rocketry.Props.C47_rename",
    "Rocketry.Props.C47_ignore",
    "Rocketry.Props.C47_replace_violated",
    "Rocketry.Props.C47_add_replace_violated"
   ],
   "note": "raise, rename and ignore are honoured for all sessions and names. replace never replaces: validate_name raises for every taken name, and add_task removes the new object (KeyError)."
  },
  {
   "property": "C51",
   "status": "proved",
   "theorems": [
    "Rocketry.Props.C51_least",
    "Rocketry.Props.C51_distinct"
   ],
   "note": "The id is the least positive number not used by a tracked run, for any ids; so the tracked runs have different ids after any sequence of starts and drops."
  },
  {
   "property": "C49",
   "status": "partial",
   "theorems": [
    "Rocketry.Props.C49_precedence_partial",
    "Rocketry.Props.C49_not_passed",
    "Rocketry.Props.C49_called",
    "Rocketry.Props.C49_materialize",
    "Rocketry.Props.C49_pickle_violated",
    "Rocketry.Props.C49_class_violated",
    "Rocketry.Props.C49_names_violated"
   ],
   "note": "All dictionaries at all levels and all executions, for tasks with functions (given or by path). Missing: parameters that do not pickle are dropped on the way to a process, so a lower level is used; tasks of other classes get session parameters evaluated without a task ('*****' for secrets, AttributeError for references); parameters named self, _param or type_ (C49_names_violated). 'Function default' is read as a default that is an argument object; an ordinary default is used by Python when nothing is passed."
  },
  {
   "property": "C50",
   "status": "partial",
   "theorems": [
    "Rocketry.Props.C50_pipe_partial",
    "Rocketry.Props.C50_pipe_violated",
    "Rocketry.Props.C50_private_value",
    "Rocketry.Props.C50_private_hidden",
    "Rocketry.Props.C50_params_hidden"
   ],
   "note": "Pipes of any length and brackets; secrets by non-interference: no value read without a task, and no text of arguments, pipes and parameters, depends on a secret. Missing: a pipe fails at an argument that is absent with another exception than KeyError (Return of an unknown task, command line option without value)."
  },
  {
   "property": "C52",
   "status": "partial",
   "theorems": [
    "Rocketry.Props.C52_wraps_partial",
    "Rocketry.Props.C52_order",
    "Rocketry.Props.C52_pre_violated",
    "Rocketry.Props.C52_params_violated",
    "Rocketry.Props.C52_finish_violated",
    "Rocketry.Props.C52_post_violated"
   ],
   "note": "All lists of hooks. C52_order holds whatever fails. Missing: second parts are not run if a later hook fails before the task, if the parameters do not materialise, if process_finish fails, and after a second part that fails."
  },
  {
   "property": "C53",
   "status": "partial",
   "theorems": [
    "Rocketry.Props.C53_line_partial",
    "Rocketry.Props.C53_text",
    "Rocketry.Props.C53_list",
    "Rocketry.Props.C53_list_violated",
    "Rocketry.Props.C53_default_violated"
   ],
   "note": "All sequences of runs. A list as command is extended in place: outside of processes each run repeats the parameters of all earlier runs (C53_list). Without argform a run with parameters raises TypeError, as the validator does not run for defaults."
  },
  {
   "property": "C56",
   "status": "partial",
   "theorems": [
    "Rocketry.Props.C56_kwargs",
    "Rocketry.Props.C56_dict",
    "Rocketry.Props.C56_tuples_partial",
    "Rocketry.Props.C56_tuples_violated",
    "Rocketry.Props.C56_filter",
    "Rocketry.Props.C56_select",
    "Rocketry.Props.C56_records_partial",
    "Rocketry.Props.C56_own_name_violated",
    "Rocketry.Props.C56_latest",
    "Rocketry.Props.C56_refused"
   ],
   "note": "The query language for all records whose fields exist and can be compared with the filters (otherwise Python raises). Missing: pairs with two or more repeated keys are mixed into one alternative (C56_tuples_violated); a filter on task_name is overwritten by the name of the task (C56_own_name_violated). The repository that answers get_records and get_latest is an external package: its selection by equality, range and list is assumed."
  },
  {
   "property": "C57",
   "status": "partial",
   "theorems": [
    "Rocketry.Props.C57_include_partial",
    "Rocketry.Props.C57_clash_violated",
    "Rocketry.Props.C57_dropped_violated",
    "Rocketry.Props.C57_prefix_violated",
    "Rocketry.Props.C57_text_violated"
   ],
   "note": "All groups, sessions, conditions and policies, if no prefixed name is taken in the session or, with a prefix, in the group. Missing: a taken name stops the inclusion midway or (policy rename) leaves the task out silently; a prefixed name equal to another name of the group raises; a start condition of the group given as text is not parsed and raises when observed."
  },
  {
   "property": "C58",
   "status": "partial",
   "theorems": [
    "Rocketry.Props.C58_sound",
    "Rocketry.Props.C58_exact_partial",
    "Rocketry.Props.C58_nested_violated",
    "Rocketry.Props.C58_not_violated",
    "Rocketry.Props.C58_unknown_violated"
   ],
   "note": "Every link listed is a dependency of the right type, for all sessions and conditions; the listing is complete for dependencies alone or joined by one operator. Missing: dependencies deeper in the condition are not listed, and one dependency on an unknown task makes the listing raise KeyError."
  },
  {
   "property": "C48",
   "status": "partial",
   "theorems": [
    "Rocketry.Props.C48_only_partial",
    "Rocketry.Props.C48_restored_partial",
    "Rocketry.Props.C48_once_partial",
    "Rocketry.Props.C48_pending_violated",
    "Rocketry.Props.C48_added_violated",
    "Rocketry.Props.C48_slot_violated",
    "Rocketry.Props.C48_special_violated"
   ],
   "note": "No other task without a pending request is ever started, whatever fails (C48_only_partial); all attributes are restored in every execution in which no task is added (C48_restored_partial); in an idle session, if nothing fails and the slots suffice, each named task is started exactly once (C48_once_partial). Violations: pending requests of other tasks are carried out; a task added meanwhile makes the restoration raise; without a free slot a named task is not run and keeps its request; a named startup task keeps a second request."
  },
  {
   "property": "C29",
   "status": "partial",
   "theorems": [
    "Rocketry.Props.C29_starts_partial",
    "Rocketry.Props.C29_limit_partial",
    "Rocketry.Props.C29_exact_violated",
    "Rocketry.Props.C29_late_day_violated"
   ],
   "note": "All histories (any outcomes, restarts, execution types, other tasks) and all valid expressions checked before 2260: no two starts in one minute unless the first is noted within the first `fuel` microseconds of the minute (fuel = recursion limit, about one millisecond); without month field and with days that every month has, only if it is noted and logged exactly at the first instant (C29_starts_partial). Missing: exactly that first moment, where the claim is false (C29_exact_violated, C29_late_day_violated)."
  },
  {
   "property": "C59",
   "status": "partial",
   "theorems": [
    "Rocketry.Props.C59_default_partial",
    "Rocketry.Props.C59_default_violated"
   ],
   "note": "All keys, defaults and surroundings with a session. Missing: a session parameter that is there but whose argument raises a KeyError is replaced by the default (C59_default_violated)."
  },
  {
   "property": "C60",
   "status": "partial",
   "theorems": [
    "Rocketry.Props.C60_phrase_partial",
    "Rocketry.Props.C60_text_partial",
    "Rocketry.Props.C60_starting_violated",
    "Rocketry.Props.C60_param_violated",
    "Rocketry.Props.C60_always_violated",
    "Rocketry.Props.C60_past_violated",
    "Rocketry.Props.C60_terminated_violated",
    "Rocketry.Props.C60_quoted_violated"
   ],
   "note": "All phrases of the syntax with all arguments that contain no quote and no newline (and, after 'between .. and', no further ' and '), and all texts of them; the reading of single times is a parameter. Missing: 'has .. starting' with a weekday or day of the month is that day alone; 'param .. exists' with a name of several characters tests its characters; 'always', 'never' and 'past ..' are in the table but raise; the documented 'after task .. terminated' is refused; a documented example with two quoted names after 'after task' is read as one name."
  },
  {
   "property": "C61",
   "status": "partial",
   "theorems": [
    "Rocketry.Props.C61_api",
    "Rocketry.Props.C61_same_partial",
    "Rocketry.Props.C61_time",
    "Rocketry.Props.C61_timetext_partial",
    "Rocketry.Props.C61_starting_violated"
   ],
   "note": "All expressions of the interface that have a phrase, and all time phrases. Missing: 'has .. starting' with a weekday or day of the month is another period than .starting(..) (C61_starting_violated); in time texts the item always, and the blanks excluded in C24; sliding periods have no fixed instants."
  },
  {
   "property": "C62",
   "status": "partial",
   "theorems": [
    "Rocketry.Props.C62_cycles",
    "Rocketry.Props.C62_limit",
    "Rocketry.Props.C62_exact",
    "Rocketry.Props.C62_run",
    "Rocketry.Props.C62_running_partial",
    "Rocketry.Props.C62_running_violated",
    "Rocketry.Props.C62_phrase_partial",
    "Rocketry.Props.C62_clock_violated"
   ],
   "note": "Cycles: all executions and comparisons. Running time: all times; missing: with more_than over less_than the condition raises ValueError instead of being false (C62_running_violated); if the clock is set back behind the startup 'scheduler has run over' holds for every duration (C62_clock_violated)."
  },
  {
   "property": "C63",
   "status": "partial",
   "theorems": [
    "Rocketry.Props.C63_bare_partial",
    "Rocketry.Props.C63_period_violated",
    "Rocketry.Props.C63_period_exact"
   ],
   "note": "All histories as in C25 and all start conditions of the task except success and finish conditions (or an All with a finish condition in it): with these Task.period reads an attribute that does not exist and every such condition raises AttributeError (C63_period_violated); C63_period_exact: in no other case."
  },
  {
   "property": "C64",
   "status": "partial",
   "theorems": [
    "Rocketry.Props.C64_first",
    "Rocketry.Props.C64_last_partial",
    "Rocketry.Props.C64_moment",
    "Rocketry.Props.C64_exec",
    "Rocketry.Props.C64_timeOf",
    "Rocketry.Props.C64_hasIn_partial",
    "Rocketry.Props.C64_year_month_violated",
    "Rocketry.Props.C64_year_day_violated",
    "Rocketry.Props.C64_week_only",
    "Rocketry.Props.C64_year_only",
    "Rocketry.Props.C64_quarters",
    "Rocketry.Props.C64_quarter_violated",
    "Rocketry.Props.C64_junk_violated",
    "Rocketry.Props.C64_refused_violated"
   ],
   "note": "Beginnings: all texts (C64_first), and the points are those shown by calendar and clock (C64_moment). Ends: all but months and days of a year. In the phrases: C64_exec, C64_timeOf, C64_hasIn_partial, without any assumption on the reading of times. Violated: a month as an end lacks a microsecond, a day of a year as an end lacks the whole day; '1 quarter' is not 15 minutes; junk around the text, seconds above 59 and February 30th are accepted; refused texts raise TypeError, AttributeError or KeyError."
  },
  {
   "property": "C65",
   "status": "partial",
   "theorems": [
    "Rocketry.Props.C65_saying_partial",
    "Rocketry.Props.C65_text_partial",
    "Rocketry.Props.C65_every",
    "Rocketry.Props.C65_kept",
    "Rocketry.Props.C65_today_violated",
    "Rocketry.Props.C65_param_violated"
   ],
   "note": "From the text to the truth value: reading (C24, C60, C64, C54, C18) composed with observing (C26, C30, C32, C35, C62, C63) for every combination of phrases; the clock stands still during one observation. Missing: years as cycles, parts of months that begin after the 28th day and go on in the next month (for \"has … this month\" all that begin or end after it), cron with a month field, the first instant of a whole cycle (C26_midnight_violated), `has … starting` a weekday (C60_starting_violated). Violated: 'today between 10:00 and 12:00' looks at yesterday until ten o'clock; `param '…' exists` and `param '…' is '…'` are never true."
  },
  {
   "property": "C66",
   "status": "partial",
   "theorems": [
    "Rocketry.Props.C66_exact",
    "Rocketry.Props.C66_startup",
    "Rocketry.Props.C66_shutdown",
    "Rocketry.Props.C66_disabled",
    "Rocketry.Props.C66_slot_violated"
   ],
   "note": "C66_exact: for every task, environment and state. C66_startup, C66_shutdown: exactly one run in the whole loop, for tasks that need no process. Violated for process tasks: without a free slot at its turn a startup task is never run in this session, its request stays pending (C66_slot_violated)."
  },
  {
   "property": "C67",
   "status": "partial",
   "theorems": [
    "Rocketry.Props.C67_symmetric",
    "Rocketry.Props.C67_transitive",
    "Rocketry.Props.C67_instants",
    "Rocketry.Props.C67_rolls_partial",
    "Rocketry.Props.C67_contains_partial",
    "Rocketry.Props.C67_members",
    "Rocketry.Props.C67_relative_day_violated",
    "Rocketry.Props.C67_span_violated",
    "Rocketry.Props.C67_order_violated"
   ],
   "note": "Reflexive, symmetric, transitive; equal periods have the same instants; members are the arguments up to equality, pairwise unequal. Violated: any two RelativeDays are equal, so today | yesterday is only today; comparing a TimeDelta with a TimeSpanDelta raises AttributeError; equal unions may be rolled to different spans, depending on the iteration order of the set. Accidental hash collisions and TimeDelta with a reference are not modelled."
  },
  {
   "property": "C68",
   "status": "partial",
   "theorems": [
    "Rocketry.Props.C68_reflexive",
    "Rocketry.Props.C68_observe",
    "Rocketry.Props.C68_symmetric_partial",
    "Rocketry.Props.C68_transitive_partial",
    "Rocketry.Props.C68_symmetric_violated",
    "Rocketry.Props.C68_transitive_violated",
    "Rocketry.Props.C68_builtin_equivalence",
    "Rocketry.Props.C68_builtin_partial",
    "Rocketry.Props.C68_situations_partial",
    "Rocketry.Props.C68_relative_day_violated",
    "Rocketry.Props.C68_span_violated"
   ],
   "note": "Equal trees are observed alike (all leaves, all effects), reflexive; symmetric and transitive without Not around a constant, violated with it. Built-in conditions: equal ones answer alike in every situation, violated for RelativeDay periods; comparing a TimeDelta with a TimeSpanDelta period raises. != is the subject of C100, the equality of a bare `running` that of C108."
  },
  {
   "property": "C69",
   "status": "partial",
   "theorems": [
    "Rocketry.Props.C69_orderly",
    "Rocketry.Props.C69_prepared",
    "Rocketry.Props.C69_history_partial",
    "Rocketry.Props.C69_every_partial",
    "Rocketry.Props.C69_retries_partial",
    "Rocketry.Props.C69_depend_partial",
    "Rocketry.Props.C69_daily_partial",
    "Rocketry.Props.C69_added_violated",
    "Rocketry.Props.C69_shutdown_violated"
   ],
   "note": "Refinement of the scheduler model by the transition system of C27-C32. Proved for any number of calls of serve in one program (also by \"recall\") with tasks that are in the session from the start, none of them on_shutdown, log writes and process creation succeed. Violated for tasks added while the scheduler runs and for on_shutdown tasks when startup is cut short (set_cached is not called for them). Left out: the second start record of a main run whose hooks or process_finish raise after its outcome was logged (task.py:529-537)."
  },
  {
   "property": "C70",
   "status": "partial",
   "theorems": [
    "Rocketry.Props.C70_state_partial",
    "Rocketry.Props.C70_unknown_partial",
    "Rocketry.Props.C70_own_partial",
    "Rocketry.Props.C70_parameters",
    "Rocketry.Props.C70_rename",
    "Rocketry.Props.C70_defined_partial",
    "Rocketry.Props.C70_raise_violated",
    "Rocketry.Props.C70_ignore_violated",
    "Rocketry.Props.C70_init_violated"
   ],
   "note": "For all histories in which tasks of conditions are not renamed or removed and the policy is not \"ignore\". Violated: with the default policy the second text of a TaskCond raises, as its task gets the same name; with \"ignore\" it takes the answer of the first; TaskCond(func=..., session=...) registers its syntax in the default session."
  },
  {
   "property": "C71",
   "status": "partial",
   "theorems": [
    "Rocketry.Props.C71_entries",
    "Rocketry.Props.C71_restored_partial",
    "Rocketry.Props.C71_found",
    "Rocketry.Props.C71_order_violated",
    "Rocketry.Props.C71_rebound_violated",
    "Rocketry.Props.C71_sys_paths_violated"
   ],
   "note": "For all interleavings: the entries are the same, each as often; the list is the same if the directories of the loads were no entries before and nobody assigns a new list; the directory of the file is searched during its import. Violated: an entry that was there before goes to the end; after an assignment to sys.path every run leaves an entry; directories given as sys_paths are Path objects, which imports pass over."
  },
  {
   "property": "C72",
   "status": "partial",
   "theorems": [
    "Rocketry.Props.C72_fresh_partial",
    "Rocketry.Props.C72_alone_partial",
    "Rocketry.Props.C72_signature_partial",
    "Rocketry.Props.C72_broke_violated",
    "Rocketry.Props.C72_overlap_violated",
    "Rocketry.Props.C72_signature_violated"
   ],
   "note": "For all interleavings in which every kept function is released by the end of some run before the execution; in particular for runs one at a time of which none breaks off between the filtering of its parameters and the call. Violated otherwise: such a run leaves its function behind, a run beside another one executes the version of the other, and a change between passes the parameters of the old version to the new one."
  },
  {
   "property": "C73",
   "status": "partial",
   "theorems": [
    "Rocketry.Props.C73_times_partial",
    "Rocketry.Props.C73_process_partial",
    "Rocketry.Props.C73_duration",
    "Rocketry.Props.C73_overlap_violated",
    "Rocketry.Props.C73_from_logs_violated",
    "Rocketry.Props.C73_start_violated"
   ],
   "note": "All histories: runtime is always end minus start and not negative; the start is that of the run if no other run of the task starts between (main, async, threads), and always in processes without force_status_from_logs. Violated: overlapping runs get the start of the latest; processes with force_status_from_logs have neither start nor runtime; the start record tells the time of the TaskRun and the outcome record that of the start record."
  },
  {
   "property": "C74",
   "status": "partial",
   "theorems": [
    "Rocketry.Props.C74_once_partial",
    "Rocketry.Props.C74_plain_partial",
    "Rocketry.Props.C74_unreadable_violated",
    "Rocketry.Props.C74_twice_violated",
    "Rocketry.Props.C74_prefix_violated",
    "Rocketry.Props.C74_outside_violated"
   ],
   "note": "For all sequences of records: once each if all loggers found can be read and every logger used leads once to what is read; in the usual setup exactly the records in order. Violated: one logger without repository makes get_task_log raise; loggers of tasks that pass records up show them twice; loggers are found by the beginning of their names as texts; texts as logger names are not checked."
  },
  {
   "property": "C75",
   "status": "partial",
   "theorems": [
    "Rocketry.Props.C75_created_partial",
    "Rocketry.Props.C75_first_violated",
    "Rocketry.Props.C75_logger_violated",
    "Rocketry.Props.C75_current_violated"
   ],
   "note": "Holds for every session whose base name is not used by another session with a clock of its own, for tasks with the logger of this name. Violated: the session started first gives its clock to the records of all sessions with the same base name (the default); records of tasks with other loggers have the real time; get_current_time tells the real time."
  },
  {
   "property": "C76",
   "status": "partial",
   "theorems": [
    "Rocketry.Props.C76_honest_partial",
    "Rocketry.Props.C76_combined_partial",
    "Rocketry.Props.C76_read",
    "Rocketry.Props.C76_running",
    "Rocketry.Props.C76_cycles",
    "Rocketry.Props.C76_precedence_violated",
    "Rocketry.Props.C76_negation_violated",
    "Rocketry.Props.C76_status_violated",
    "Rocketry.Props.C76_depend_violated",
    "Rocketry.Props.C76_comparison_violated",
    "Rocketry.Props.C76_parts_violated",
    "Rocketry.Props.C76_missing_violated"
   ],
   "note": "The text of a condition is read as the same object whenever all kept texts say what their objects are and bind tightly enough for their place (C76_honest_partial); so for all combinations of single words and of conditions with a readable text (C76_combined_partial), for everything read from a text (C76_read), for TaskRunning (C76_running) and SchedulerCycles (C76_cycles). Violated otherwise: the kept text of a disjunction is put into a conjunction or under a negation without brackets (C76_precedence_violated, C76_negation_violated); status conditions and dependencies made in Python print texts that are not in the syntax (C76_status_violated, C76_depend_violated); a comparison keeps the text without it (C76_comparison_violated); the items of a compound that was read have no text (C76_parts_violated); conditions on environment and parameters have no text (C76_missing_violated)."
  },
  {
   "property": "C77",
   "status": "partial",
   "theorems": [
    "Rocketry.Props.C77_observe_partial",
    "Rocketry.Props.C77_missing",
    "Rocketry.Props.C77_kept",
    "Rocketry.Props.C77_text_partial",
    "Rocketry.Props.C77_given_violated",
    "Rocketry.Props.C77_bool_violated",
    "Rocketry.Props.C77_early_violated"
   ],
   "note": "All signatures and given values, unless a value is given for a parameter whose default is an argument: this always raises TypeError (C77_given_violated). Something missing raises TypeError (C77_missing). Texts: the function of the object defined last with the syntax (C77_text_partial), if it is decorated before the text is read (C77_early_violated). `bool(cond)` gives the function argument objects instead of values (C77_bool_violated). Not modelled: parameters that can only be given by position; `__repr__`."
  },
  {
   "property": "C78",
   "status": "partial",
   "theorems": [
    "Rocketry.Props.C78_own_partial",
    "Rocketry.Props.C78_registered",
    "Rocketry.Props.C78_default",
    "Rocketry.Props.C78_other_violated",
    "Rocketry.Props.C78_foreign_violated",
    "Rocketry.Props.C78_naming_violated",
    "Rocketry.Props.C78_refused_violated"
   ],
   "note": "Proved for tasks created in the session that is the default at that moment, with hooks that raise no exception (C78_own_partial). In general the hooks called are those of the default session (C78_default), so hooks of other sessions are not run for their tasks (C78_other_violated), those of the default session are run for tasks of others (C78_foreign_violated), and `use_instance_naming` of others has no effect (C78_naming_violated). For a refused task the first parts have run (C78_refused_violated). Not modelled: hooks that create tasks or register hooks themselves."
  },
  {
   "property": "C79",
   "status": "partial",
   "theorems": [
    "Rocketry.Props.C79_values_partial",
    "Rocketry.Props.C79_get",
    "Rocketry.Props.C79_alias_violated",
    "Rocketry.Props.C79_reserved_violated"
   ],
   "note": "All programs without `to_dict`, which gives away the dictionary of the object itself (C79_alias_violated), and without the names self, _param and type_, with which a union raises TypeError or loses the parameter (C79_reserved_violated). The equality of Parameters is the subject of C91, pickling that of C49. Not modelled: `param_func`, `to_json`."
  },
  {
   "property": "C80",
   "status": "partial",
   "theorems": [
    "Rocketry.Props.C80_isPeriod_partial",
    "Rocketry.Props.C80_status_partial",
    "Rocketry.Props.C80_executable_partial",
    "Rocketry.Props.C80_runnable_partial",
    "Rocketry.Props.C80_running_partial",
    "Rocketry.Props.C80_scheduler_partial",
    "Rocketry.Props.C80_shown",
    "Rocketry.Props.C80_cron_floating",
    "Rocketry.Props.C80_cron_partial",
    "Rocketry.Props.C80_dates_partial",
    "Rocketry.Props.C80_always_partial",
    "Rocketry.Props.C80_running_violated",
    "Rocketry.Props.C80_moreThan_violated",
    "Rocketry.Props.C80_scheduler_violated",
    "Rocketry.Props.C80_isPeriod_violated",
    "Rocketry.Props.C80_dates_violated",
    "Rocketry.Props.C80_future_violated",
    "Rocketry.Props.C80_relativeDay_violated"
   ],
   "note": "Proved for all periods without dates and with limited reach back (times of clock and calendar, durations, cron, combinations), for `always` in status conditions, and for dates when the computer works in the zone. Violated: `running` without duration and `running.more_than`, `scheduler_running(more_than)` raise TypeError; dates of periods are local time of the computer when looking back and raise TypeError when looking forward; RelativeDay raises TypeError. Not modelled: zones whose offset changes, log entries of log-mode TaskRunning."
  },
  {
   "property": "C81",
   "status": "partial",
   "theorems": [
    "Rocketry.Props.C81_history_partial",
    "Rocketry.Props.C81_execution_partial",
    "Rocketry.Props.C81_process_violated"
   ],
   "note": "The text is read by the parser model and observed with a clock that goes on during the check. Missing: phrases outside Saying (as in C65), promises for phrases that are not about the log (running, env, scheduler), and the successes of tasks in child processes that may be checked while their outcome waits in the queue (C81_process_violated). Phrases that must be found false are the subject of C111."
  },
  {
   "property": "C82",
   "status": "partial",
   "theorems": [
    "Rocketry.Props.C82_created",
    "Rocketry.Props.C82_refused",
    "Rocketry.Props.C82_twice",
    "Rocketry.Props.C82_set",
    "Rocketry.Props.C82_kept",
    "Rocketry.Props.C82_task_partial",
    "Rocketry.Props.C82_timeout",
    "Rocketry.Props.C82_object_violated",
    "Rocketry.Props.C82_app_violated",
    "Rocketry.Props.C82_debug_violated",
    "Rocketry.Props.C82_assign_violated",
    "Rocketry.Props.C82_names_violated",
    "Rocketry.Props.C82_unknown_violated",
    "Rocketry.Props.C82_zero_violated",
    "Rocketry.Props.C82_priority_violated",
    "Rocketry.Props.C82_shared_violated",
    "Rocketry.Props.C82_never",
    "Rocketry.Props.C82_never_violated"
   ],
   "note": "Proved for sessions made from keywords or a dictionary, for every option, with the type checks of pydantic and the condition parser as parameters that keep values of the declared kind. Violated: keywords beside a Config object or a given session are dropped, `app.run()` resets `debug`, the former name of `execution` cannot be set and silently wins when both names are given, unknown names are dropped, two sessions with one Config object share it, a task timeout of zero falls back to the session's, `task_priority` is never used, and `never` is a timeout only for tasks."
  },
  {
   "property": "C83",
   "status": "partial",
   "theorems": [
    "Rocketry.Props.C83_same",
    "Rocketry.Props.C83_call",
    "Rocketry.Props.C83_spawn_same_or_fails",
    "Rocketry.Props.C83_spawn_partial",
    "Rocketry.Props.C83_spawn_violated",
    "Rocketry.Props.C83_flag_partial",
    "Rocketry.Props.C83_flag_thread",
    "Rocketry.Props.C83_flag_violated"
   ],
   "note": "Main loop, threads and forked processes always agree; a spawned process gets the same value or fails, and gets the same for all arguments but function arguments evaluated in it that look into the session. Violated: such function arguments fail in spawned processes, because the copy of the session has no parameters and tasks (C83_spawn_violated); a termination flag is None for `async`, and for main and process when the execution is the one of the session (C83_flag_violated). Parameters that do not pickle are in C49."
  },
  {
   "property": "C84",
   "status": "partial",
   "theorems": [
    "Rocketry.Props.C84_started_partial",
    "Rocketry.Props.C84_history",
    "Rocketry.Props.C84_execution_partial",
    "Rocketry.Props.C84_midnight_violated"
   ],
   "note": "Missing: the clock stands still while the condition is observed; phrases as in C65; tasks in child processes only if their records are taken from the queue before checks. Violated at the first instant of a whole day: `daily` then looks at the day before (C84_midnight_violated)."
  },
  {
   "property": "C85",
   "status": "partial",
   "theorems": [
    "Rocketry.Props.C85_cycle_partial",
    "Rocketry.Props.C85_startup_partial",
    "Rocketry.Props.C85_loop_partial",
    "Rocketry.Props.C85_serve_partial",
    "Rocketry.Props.C85_termination_violated"
   ],
   "note": "In an environment in which no task asks for the end of the scheduler, no cancelled asyncio task raises another error and no record of an unknown task is in the queue, a cycle completes and inspects all tasks in order unless the record of a termination fails; startup, the loop and serve raise nothing else but what is listed in the statements (a restart that was asked for, a failing shut condition between cycles, the lost record of a termination). Missing: the record of a termination is not silenced (violated); handle_logs raises KeyError for a record of a removed task whatever is silenced (excluded by Harmless)."
  },
  {
   "property": "C86",
   "status": "partial",
   "theorems": [
    "Rocketry.Props.C86_rounds_partial",
    "Rocketry.Props.C86_raised_partial",
    "Rocketry.Props.C86_count",
    "Rocketry.Props.C86_forgotten_violated",
    "Rocketry.Props.C86_late_violated"
   ],
   "note": "The observations of every call of serve are accepted by a small automaton (Round.step) that says what may happen after what; without tasks that raise SchedulerRestart themselves a further round needs a request to restart and no request to shut down before the shutdown began; with them there is still one shutdown between rounds and no cycle after a request. The number of rounds is at most one more than the number of requests. Missing: a request to shut down made during the shutdown for a restart is forgotten, and one made in the cycle in which a task raises SchedulerRestart does not win (both violated)."
  },
  {
   "property": "C87",
   "status": "partial",
   "theorems": [
    "Rocketry.Props.C87_order_partial",
    "Rocketry.Props.C87_over_partial",
    "Rocketry.Props.C87_none",
    "Rocketry.Props.C87_cycle_violated",
    "Rocketry.Props.C87_shutdown_violated",
    "Rocketry.Props.C87_alive_violated"
   ],
   "note": "In every execution the order is kept: nothing of a startup, cycle or shutdown before all first parts, nothing after the second parts have begun, and no cycle before the one before it is complete (an automaton, Wrap.step). If no hook raises, the last shutdown is complete whatever else fails, and is_alive is false. Without hooks the model is that of the other claims (C87_none). Missing: second parts of startup and cycle hooks are not run when the startup or cycle fails; a shutdown hook that raises in its first part leaves everything running, and in either part is_alive true (violated)."
  },
  {
   "property": "C88",
   "status": "partial",
   "theorems": [
    "Rocketry.Props.C88_kept_partial",
    "Rocketry.Props.C88_exact_partial",
    "Rocketry.Props.C88_started_partial",
    "Rocketry.Props.C88_again",
    "Rocketry.Props.C88_second_violated",
    "Rocketry.Props.C88_level_violated",
    "Rocketry.Props.C88_process_violated"
   ],
   "note": "Shown for programs that make no other application with the same name of loggers and do not raise the level of that logger above INFO. Exactly once needs a repository no other handler writes to. For sessions without an application no level at all may be raised. Missing: a second application with the same name takes over the log, raising the level drops records, a name that ends in _process is not made readable (violated). Only in-memory order of repositories; handlers have no levels and filters of their own."
  },
  {
   "property": "C89",
   "status": "partial",
   "theorems": [
    "Rocketry.Props.C89_path_partial",
    "Rocketry.Props.C89_same_partial",
    "Rocketry.Props.C89_registered_partial",
    "Rocketry.Props.C89_decorated",
    "Rocketry.Props.C89_command",
    "Rocketry.Props.C89_decorated_violated",
    "Rocketry.Props.C89_none_violated",
    "Rocketry.Props.C89_py_violated",
    "Rocketry.Props.C89_words_violated"
   ],
   "note": "Shown for functions given to FuncTask and for functions named in files, if the names have no colons and the parts of the paths no dots and, but for the first, do not begin with py. Missing: functions decorated by the application are named without their module; a missing func_name is printed as None although main is run; .py is removed everywhere in a path; lists of words are joined (violated)."
  },
  {
   "property": "C90",
   "status": "partial",
   "theorems": [
    "Rocketry.Props.C90_script_partial",
    "Rocketry.Props.C90_isolated",
    "Rocketry.Props.C90_parameter_violated",
    "Rocketry.Props.C90_recursion_violated"
   ],
   "note": "Shown in both directions for code whose functions use neither the parameters of the task nor the variables of the code. Missing: functions do not see those (violated), because exec is given separate globals and locals. Not modelled: global statements, comprehensions and classes (which have scopes of their own as well), syntax errors, expressions with side effects, operators that give functions of the code."
  },
  {
   "property": "C91",
   "status": "partial",
   "theorems": [
    "Rocketry.Props.C91_argument_partial",
    "Rocketry.Props.C91_parameters_partial",
    "Rocketry.Props.C91_symmetric",
    "Rocketry.Props.C91_default_violated",
    "Rocketry.Props.C91_secret_violated",
    "Rocketry.Props.C91_func_violated",
    "Rocketry.Props.C91_return_violated",
    "Rocketry.Props.C91_later_violated"
   ],
   "note": "Shown in the surroundings of the comparison, for pipes without secrets, functions that answer the same with and without a task, and references with the same default. Violated: references to one session parameter with different defaults are equal; pipes with different secrets are equal; functions are called without task and session; return values cannot be compared (AttributeError); environment variables are equal while they have one value. Not modelled: side effects of the functions that a comparison calls; Session, Config, loggers."
  },
  {
   "property": "C92",
   "status": "partial",
   "theorems": [
    "Rocketry.Props.C92_time_partial",
    "Rocketry.Props.C92_condition_partial",
    "Rocketry.Props.C92_operator",
    "Rocketry.Props.C92_operators_violated",
    "Rocketry.Props.C92_doubled_violated",
    "Rocketry.Props.C92_ends_violated",
    "Rocketry.Props.C92_negation_violated",
    "Rocketry.Props.C92_beside_violated"
   ],
   "note": "C92_time_partial: an accepted time text whose operands are apart at every level is the text of a properly written expression (with C24: these are exactly the accepted ones). C92_condition_partial: a condition text in which operands and operators take turns is refused when an operator lacks its operand at one end. C92_operator: no text at all is read as an operator alone. The _violated theorems show what is read although it is no expression: `~~` and `~&`, which have no operand, as conditions that raise AttributeError whenever they are observed, `a && b` and `a || b` are read as `a`, `& a &` as `a`, `a ~ b` as `a`, and in time texts `a(b)` as `a` and `a(b)&` as `b`. Missing: a description of all malformed condition texts."
  },
  {
   "property": "C93",
   "status": "partial",
   "theorems": [
    "Rocketry.Props.C93_root",
    "Rocketry.Props.C93_absolute",
    "Rocketry.Props.C93_module_partial",
    "Rocketry.Props.C93_alone_violated",
    "Rocketry.Props.C93_relative_violated",
    "Rocketry.Props.C93_dot_violated",
    "Rocketry.Props.C93_hidden"
   ],
   "note": "C93_root: the root found is exactly the directory above the package (iff, for every path and file system). C93_module_partial: a file of a package with no dots in the names below the root is imported by its module name from the root. Violated for every file outside of a package (its module is named `tasks.py`, which no import resolves to the file), for relative paths whose directories up to the working directory are all packages (FileExistsError), and for file names with dots. Not modelled: `..` in paths, namespace packages, links, what the loader does with other suffixes than .py."
  },
  {
   "property": "C94",
   "status": "partial",
   "theorems": [
    "Rocketry.Props.C94_instants_partial",
    "Rocketry.Props.C94_again",
    "Rocketry.Props.C94_seconds",
    "Rocketry.Props.C94_runtime_violated"
   ],
   "note": "C94_instants_partial: every written record is accepted and keeps action, run, creation time, start and end. C94_again: validation is idempotent. C94_runtime_violated: in every log with a clock that does not go back the runtime of a record with start and end is a millionth of the time between them (up to rounding), right only for runs that took no time. C94_seconds: with the unit of a second, as the timeout of a task is read, numbers are exact. Numbers are exact decimals with six places in the model; texts and the files of redbird are not modelled."
  },
  {
   "property": "C95",
   "status": "partial",
   "theorems": [
    "Rocketry.Props.C95_looks",
    "Rocketry.Props.C95_records",
    "Rocketry.Props.C95_sessions_partial",
    "Rocketry.Props.C95_name_violated",
    "Rocketry.Props.C95_option_violated"
   ],
   "note": "C95_looks: any two situations that agree on the task asked for and the tasks named give the same answer or the same exception. C95_records: records of other tasks anywhere in the log change nothing. C95_sessions_partial: the same for other sessions of the process that use the same logger, if no task name is used twice and the default session has the same option force_status_from_logs; violated otherwise. Function conditions (C77) and TaskCond (C70) are not among these conditions."
  },
  {
   "property": "C96",
   "status": "partial",
   "theorems": [
    "Rocketry.Props.C96_parts_partial",
    "Rocketry.Props.C96_contains",
    "Rocketry.Props.C96_float",
    "Rocketry.Props.C96_month_violated",
    "Rocketry.Props.C96_ignored_violated",
    "Rocketry.Props.C96_float_violated"
   ],
   "note": "C96_parts_partial and C96_contains: cycles of a second up to a week, all dictionaries that give the parts, in any order, zero parts left out. Violated: dictionaries are refused for months and years (their `_scope` \"year\" is not in `_fixed_components`), keys that are no parts (\"minutes\", \"millisecond\") are ignored, and an integer as end includes its unit while the equal float does not. Floats are exact decimals in the model."
  },
  {
   "property": "C97",
   "status": "partial",
   "theorems": [
    "Rocketry.Props.C97_read",
    "Rocketry.Props.C97_duration_partial",
    "Rocketry.Props.C97_negative_violated",
    "Rocketry.Props.C97_delta",
    "Rocketry.Props.C97_clock_partial",
    "Rocketry.Props.C97_same_clock_partial",
    "Rocketry.Props.C97_cycle_violated",
    "Rocketry.Props.C97_end_violated",
    "Rocketry.Props.C97_begin_violated",
    "Rocketry.Props.C97_brackets_violated",
    "Rocketry.Props.C97_joined"
   ],
   "note": "C97_read gives the result of reading Python's text of every duration; C97_duration_partial says for exactly which durations it is the duration (not negative, or whole days). C97_delta: the text of a sliding period determines it, for all reaches. C97_clock_partial and C97_same_clock_partial: clock periods that begin and end on whole seconds other than the beginning of the cycle. Violated: negative durations, the kind of the cycle is missing, an end at the end of the cycle is missing, beginnings of months cannot be read, and combined periods have no brackets. `str(timedelta)` is Python's and its definition in the model is trusted; texts of moments are arguments."
  },
  {
   "property": "C98",
   "status": "partial",
   "theorems": [
    "Rocketry.Props.C98_same_records_partial",
    "Rocketry.Props.C98_round_trip",
    "Rocketry.Props.C98_only",
    "Rocketry.Props.C98_sides_violated",
    "Rocketry.Props.C98_twice_violated",
    "Rocketry.Props.C98_mixed_violated"
   ],
   "note": "C98_same_records_partial: every conjunction that asks each field for one value or for at most one lower and one upper bound, with the key on the left. C98_round_trip: all keywords made of values and ranges with at least one bound. C98_only: all other queries are refused. Violated: comparisons with the key on the right are turned round, of fields asked twice only the last question is kept, a value followed by a bound takes characters of the value for bounds or raises TypeError. Lists are not modelled as values."
  },
  {
   "property": "C99",
   "status": "proved",
   "theorems": [
    "Rocketry.Props.C99_removed"
   ],
   "note": "The round in which the task was removed may still start it, once (example beside the theorem). What is lost with the removal is the subject of C37 (process limit) and C43 (shutdown)."
  },
  {
   "property": "C100",
   "status": "partial",
   "theorems": [
    "Rocketry.Props.C100_ne_partial",
    "Rocketry.Props.C100_differs_violated",
    "Rocketry.Props.C100_changes_violated",
    "Rocketry.Props.C100_kept_partial",
    "Rocketry.Props.C100_loses_violated"
   ],
   "note": "Holds for all conditions but the comparable ones (BaseComparable), also for those that contain some. Violated for comparable ones: != derives a condition instead of answering, the derived condition is true even for c != c, and as the copy is shallow the comparison is stored in c itself, which is true from then on. A NotImplemented answer counts as true (up to Python 3.13)."
  },
  {
   "property": "C101",
   "status": "partial",
   "theorems": [
    "Rocketry.Props.C101_tasks_partial",
    "Rocketry.Props.C101_same",
    "Rocketry.Props.C101_again_violated",
    "Rocketry.Props.C101_bare_violated"
   ],
   "note": "Holds for programs that apply each decorator once and give an option with each function. Violated: a decorator applied to a second function runs the first task instead (a failed run is logged, TaskSetupError is raised); FuncTask(f) without options sets the execution to thread, while @FuncTask() does not."
  },
  {
   "property": "C102",
   "status": "partial",
   "theorems": [
    "Rocketry.Props.C102_instant",
    "Rocketry.Props.C102_calendar_partial",
    "Rocketry.Props.C102_executable_partial",
    "Rocketry.Props.C102_every_partial",
    "Rocketry.Props.C102_steady_partial",
    "Rocketry.Props.C102_timezone_partial",
    "Rocketry.Props.C102_back_violated",
    "Rocketry.Props.C102_forward_violated",
    "Rocketry.Props.C102_cycle_violated"
   ],
   "note": "Proved: datetimes name their instants also in the hour shown twice; periods whose beginning is shown once (daily) are right across a change; every(d) is right before the change and once d (and the time put back) has passed after it, on any clock that is unchanged nearby, and always with the option timezone. Violated: after the clock is put back every(d) waits d plus the time put back and minutely/hourly tasks stand still; after it is put forward every(d) comes early. Not in the model: dates, combinations of periods, TimeSpanDelta."
  },
  {
   "property": "C103",
   "status": "partial",
   "theorems": [
    "Rocketry.Props.C103_task_partial",
    "Rocketry.Props.C103_param_partial",
    "Rocketry.Props.C103_plain",
    "Rocketry.Props.C103_own_partial",
    "Rocketry.Props.C103_lost_task_violated",
    "Rocketry.Props.C103_lost_param_violated",
    "Rocketry.Props.C103_two_sessions_violated",
    "Rocketry.Props.C103_foreign_violated"
   ],
   "note": "Proved: the task or parameter is found as long as the function is not decorated again (and the task not removed, the parameter not set); functions never decorated are not found; with names that differ between functions no foreign task is found. Violated: a function that is both a task and a parameter, or a task of two sessions, is found only as what it was made last; in another session a task of another function may be found. Renaming of tasks is in C46's model, not here."
  },
  {
   "property": "C104",
   "status": "partial",
   "theorems": [
    "Rocketry.Props.C104_outcome_partial",
    "Rocketry.Props.C104_success",
    "Rocketry.Props.C104_gone_partial",
    "Rocketry.Props.C104_limit_violated",
    "Rocketry.Props.C104_endless_violated",
    "Rocketry.Props.C104_terminated_violated",
    "Rocketry.Props.C104_thread_violated",
    "Rocketry.Props.C104_terminated_when",
    "Rocketry.Props.C104_argform",
    "Rocketry.Props.C104_default_violated",
    "Rocketry.Props.C104_options"
   ],
   "note": "Proved: a success is always that of the command; without a timeout and termination the outcome is that of the command and the command has ended with the run; the options given to Popen. Violated: with any timeout every run fails at once and leaves its command running; a terminated run in a process leaves its command running, one in a thread is not terminated. What the computer does with a command line is a parameter of the model; that communicate(timeout=<timedelta>) raises TypeError is how CPython's subprocess computes its end time, not modelled further."
  },
  {
   "property": "C105",
   "status": "partial",
   "theorems": [
    "Rocketry.Props.C105_same_partial",
    "Rocketry.Props.C105_others",
    "Rocketry.Props.C105_still",
    "Rocketry.Props.C105_text_partial",
    "Rocketry.Props.C105_start",
    "Rocketry.Props.C105_history_violated",
    "Rocketry.Props.C105_running_violated",
    "Rocketry.Props.C105_shut_violated"
   ],
   "note": "Proved: nothing but force_status_from_logs of the default session has an influence; none at all on conditions that do not ask for what has happened to tasks, nor on condition texts (without 'is running') in sessions whose kept times fit their log; start and end conditions are read with the session's phrases. Violated: with another setting in the default session, 'daily' and 'is running' change their value; texts of shut_cond are read with the phrases of the default session. Use of the default session by Task.__init__ is in C78 (hooks)."
  },
  {
   "property": "C106",
   "status": "partial",
   "theorems": [
    "Rocketry.Props.C106_next_partial",
    "Rocketry.Props.C106_starved_violated"
   ],
   "note": "C106_next_partial: for tasks executed in the main process, as asyncio tasks or threads always; for process tasks if there are slots for all of these tasks. C106_starved_violated: with fewer slots a requested run of a process task of lower priority is not started in any number of cycles, as the slots go to tasks of higher priority in every cycle (no aging, no queue)."
  },
  {
   "property": "C107",
   "status": "partial",
   "theorems": [
    "Rocketry.Props.C107_cached_partial",
    "Rocketry.Props.C107_log_partial",
    "Rocketry.Props.C107_restart_partial",
    "Rocketry.Props.C107_forgets_violated",
    "Rocketry.Props.C107_inherits_violated",
    "Rocketry.Props.C107_count_violated",
    "Rocketry.Props.C107_again_violated",
    "Rocketry.Props.C107_named_violated"
   ],
   "note": "C107_cached_partial: what the task object remembers is right for all histories, as long as the scheduler is not started anew and force_status_from_logs is off. C107_log_partial, C107_restart_partial: the log is right if no record was written under another name or by another task under this name. Violated otherwise, for every such history: C107_forgets_violated, C107_inherits_violated, C107_count_violated, C107_again_violated, C107_named_violated. Failing loggers and the policies other than raise are left out (C34, C46)."
  },
  {
   "property": "C108",
   "status": "partial",
   "theorems": [
    "Rocketry.Props.C108_tells_partial",
    "Rocketry.Props.C108_twice",
    "Rocketry.Props.C108_and",
    "Rocketry.Props.C108_wrapper_violated",
    "Rocketry.Props.C108_combined_violated",
    "Rocketry.Props.C108_self_violated",
    "Rocketry.Props.C108_equal_partial"
   ],
   "note": "Holds for running, running(task) and condition objects. C108_wrapper_violated: started, failed, succeeded, finished and their this_... forms give False, True or TypeError, for every number. C108_combined_violated: combined with another condition the False goes unnoticed until the check raises AttributeError. C108_self_violated: running == running is False. Conditions are new objects here (the sharing of comparisons is C22), periods are opaque, and the shortcuts of status conditions are the subject of C28."
  },
  {
   "property": "C109",
   "status": "partial",
   "theorems": [
    "Rocketry.Props.C109_alive",
    "Rocketry.Props.C109_sound_partial",
    "Rocketry.Props.C109_running_partial",
    "Rocketry.Props.C109_found_partial",
    "Rocketry.Props.C109_overlap_violated",
    "Rocketry.Props.C109_killed_violated",
    "Rocketry.Props.C109_found_violated"
   ],
   "note": "is_alive is right in all histories. is_running is right if no run begins while another goes on and all runs end with a record; its yes is right also for overlapping runs. Violated, in general: the end of one of several runs hides the others (C109_overlap_violated), a killed run is running for ever (C109_killed_violated), and a crash is not found if another run ended after the start of the interrupted one (C109_found_violated). Records are written at the moments at which runs begin and end; loggers do not fail (C34)."
  },
  {
   "property": "C110",
   "status": "partial",
   "theorems": [
    "Rocketry.Props.C110_tells_partial",
    "Rocketry.Props.C110_status_partial",
    "Rocketry.Props.C110_where",
    "Rocketry.Props.C110_not_doubled",
    "Rocketry.Props.C110_return_partial",
    "Rocketry.Props.C110_critical",
    "Rocketry.Props.C110_formatter_violated",
    "Rocketry.Props.C110_return_violated"
   ],
   "note": "Proved for any list of handlers whose formatters write exceptions in the usual way (the layout of the message is arbitrary): message and exception are shown once on every way, and schedule.py:280 (which adds the message to itself instead of the traceback) is never reached. Violated: formatters with their own formatException are used for tasks of the main process only; the return value stays in records of processes that are read by _lock_to_run_log while another process is started. Assumed: Formatter.format of logging as written in the model, handlers that format a record before they use it (also those of redbird)."
  },
  {
   "property": "C111",
   "status": "partial",
   "theorems": [
    "Rocketry.Props.C111_history_partial",
    "Rocketry.Props.C111_apart_partial",
    "Rocketry.Props.C111_execution_partial",
    "Rocketry.Props.C111_queue_violated"
   ],
   "note": "The counterpart of C81 for phrases that must be found false. Missing: phrases without a period, running, scheduler and env phrases; without force_status_from_logs the times of a named task must have been read from the log before the check (they are read at startup) and its records must not wait in the queue. C111_queue_violated: a task in a child process whose failure still waits in the queue is started although its text forbids it. `~cron …` is only said to be checked at another minute or after an earlier start."
  },
  {
   "property": "C112",
   "status": "partial",
   "theorems": [
    "Rocketry.Props.C112_successes",
    "Rocketry.Props.C112_pipeline_partial",
    "Rocketry.Props.C112_knot_partial",
    "Rocketry.Props.C112_execution_partial",
    "Rocketry.Props.C112_finish_violated"
   ],
   "note": "C112_successes holds for every session; the others for start texts with phrases of known meaning (C81) and for condition objects with DependSuccess. Missing: tasks that wait for failures or ends (`after task 'x' failed`: a failure may be logged without a start, as that of a setup; C112_finish_violated: one run of x that logs a success and a failure lets the task start twice), multilaunch, and tasks that are requested to run by hand, which break a knot."
  },
  {
   "property": "C113",
   "status": "partial",
   "theorems": [
    "Rocketry.Props.C113_latest_partial",
    "Rocketry.Props.C113_read_partial",
    "Rocketry.Props.C113_fresh_partial",
    "Rocketry.Props.C113_new_partial",
    "Rocketry.Props.C113_lock_violated",
    "Rocketry.Props.C113_restart_violated",
    "Rocketry.Props.C113_pickle_violated",
    "Rocketry.Props.C113_overlap_violated",
    "Rocketry.Props.C113_twice_violated",
    "Rocketry.Props.C113_unlogged_violated",
    "Rocketry.Props.C113_renamed_violated",
    "Rocketry.Props.C113_argument_violated"
   ],
   "note": "C113_latest_partial and C113_read_partial: all executions in which no run of the task asks for a restart, threads of it do not overlap with its other successful runs, the logger works for its successes and none of these is read by _lock_to_run_log. C113_fresh_partial: with any overlap and failing loggers the value is never older than a success. C113_new_partial: a new success brings a new value, for tasks not run in threads. Each condition is needed (violated otherwise); values of processes that cannot be pickled are lost with their records, and go to whoever has the name when the record is read. That multiprocessing.Queue drops what cannot be pickled, and that a TaskRun with a process in it cannot be, is CPython's behaviour and trusted."
  },
  {
   "property": "C114",
   "status": "partial",
   "theorems": [
    "Rocketry.Props.C114_text_partial",
    "Rocketry.Props.C114_execution_partial",
    "Rocketry.Props.C114_age_partial",
    "Rocketry.Props.C114_single_partial",
    "Rocketry.Props.C114_log_partial",
    "Rocketry.Props.C114_young_violated",
    "Rocketry.Props.C114_finished_violated",
    "Rocketry.Props.C114_zone_violated"
   ],
   "note": "Texts: every check of every execution, by C42 and C65 (missing: what is missing there). running.more_than(d): exact for a task with one run at a time without force_status_from_logs. Violated, in general: with several runs the young ones are ended with the old one; with force_status_from_logs a run that ended less than d ago makes the next run be ended at once; in sessions with a timezone every run is ended at once or the check raises."
  },
  {
   "property": "C115",
   "status": "partial",
   "theorems": [
    "Rocketry.Props.C115_text_partial",
    "Rocketry.Props.C115_execution_partial",
    "Rocketry.Props.C115_own_violated"
   ],
   "note": "Every round of every execution, by C65 (missing: what is missing there; the answer the environment gives is the observation of the condition the text is read as, made at one instant). Violated, in general: a shut text that is a phrase about the own task (after task 'x', every 1 hour, daily in its period, has succeeded without a task) is accepted, but the first check raises before any cycle begins."
  },
  {
   "property": "C116",
   "status": "partial",
   "theorems": [
    "Rocketry.Props.C116_hold_partial",
    "Rocketry.Props.C116_once",
    "Rocketry.Props.C116_before_violated",
    "Rocketry.Props.C116_shutdown_violated",
    "Rocketry.Props.C116_restart_violated"
   ],
   "note": "Proved for the starts in the cycles, as long as serve is not called anew. Violated: a hold set before the scheduler is run is lifted by serve (C116_before_violated), as is a hold by a restart (C116_restart_violated); tasks started at the shutdown are started on hold (C116_shutdown_violated)."
  },
  {
   "property": "C117",
   "status": "partial",
   "theorems": [
    "Rocketry.Props.C117_each",
    "Rocketry.Props.C117_regardless",
    "Rocketry.Props.C117_unforced",
    "Rocketry.Props.C117_flag_partial",
    "Rocketry.Props.C117_new",
    "Rocketry.Props.C117_once_partial",
    "Rocketry.Props.C117_request",
    "Rocketry.Props.C117_withdrawn_violated",
    "Rocketry.Props.C117_twice_violated",
    "Rocketry.Props.C117_own_violated",
    "Rocketry.Props.C117_params_violated",
    "Rocketry.Props.C117_flag_violated",
    "Rocketry.Props.C117_invalid_violated"
   ],
   "note": "Each assignment of True queues exactly one run, started in order, whatever the condition says, and none is lost (C117_each, C117_regardless, all histories). The attribute tells so only if it is used sparingly (C117_once_partial). Fails: setting it back to False does not withdraw the run, setting it twice runs the task twice, it reads False while a forced run still waits, and a forced run without parameters is tried for ever. Values that are no booleans are not modelled."
  },
  {
   "property": "C118",
   "status": "partial",
   "theorems": [
    "Rocketry.Props.C118_open",
    "Rocketry.Props.C118_unused_partial",
    "Rocketry.Props.C118_uuid_partial",
    "Rocketry.Props.C118_increment_violated",
    "Rocketry.Props.C118_endless_violated"
   ],
   "note": "With uuid: all histories (ids that never come back, a clock that does not go back). With increment: right only as long as no id comes back; in general, after any history of a task that has run and is idle, its next run is not counted at all (C118_increment_violated), and an end condition running.more_than never ends it (C118_endless_violated). Records that carry no run id are in C33 and C35."
  },
  {
   "property": "C119",
   "status": "partial",
   "theorems": [
    "Rocketry.Props.C119_since_partial",
    "Rocketry.Props.C119_others",
    "Rocketry.Props.C119_handlers",
    "Rocketry.Props.C119_old",
    "Rocketry.Props.C119_shared_violated",
    "Rocketry.Props.C119_twice_violated",
    "Rocketry.Props.C119_session_violated"
   ],
   "note": "Proved for a repository no other logger writes to. Otherwise each record may be read twice (C119_twice_violated). set_repo of one task's logger concerns all tasks with a logger of that name: with an empty repository all lose their past (C119_shared_violated). A logger below the base name with a new repository still passes its records up, so that the log of the session shows them twice (C119_session_violated)."
  },
  {
   "property": "C120",
   "status": "partial",
   "theorems": [
    "Rocketry.Props.C120_cycle_partial",
    "Rocketry.Props.C120_exit_partial",
    "Rocketry.Props.C120_wait_violated",
    "Rocketry.Props.C120_elsewhere_violated",
    "Rocketry.Props.C120_closing_violated"
   ],
   "note": "C120_cycle_partial and C120_exit_partial hold for tasks in the main process. Not as stated: SchedulerExit terminates the running tasks at once, while a request to shut down and SchedulerRestart wait for them (C120_wait_violated); the call of a task in a thread, a process or an asyncio task is not heard (C120_elsewhere_violated); raised by a shutdown task it prevents the other shutdown tasks and leaves serve as an exception (C120_closing_violated). What follows a restart is in C86."
  },
  {
   "property": "C121",
   "status": "partial",
   "theorems": [
    "Rocketry.Props.C121_ended_partial",
    "Rocketry.Props.C121_spent",
    "Rocketry.Props.C121_only",
    "Rocketry.Props.C121_spared",
    "Rocketry.Props.C121_fresh_violated",
    "Rocketry.Props.C121_removed_violated",
    "Rocketry.Props.C121_removed_goes_on_violated",
    "Rocketry.Props.C121_cond_violated"
   ],
   "note": "C121_ended_partial: each run that goes on is terminated or has ended in the next completed cycle (a thread is asked to end). C121_spent: after the turn of the task the call is used up. C121_only and C121_spared: until the next call no run is ended on such account. Not as stated: a run started in the same turn, after the call, is terminated with the others (C121_fresh_violated); tasks removed from the session are not reached (C121_removed_violated, C121_removed_goes_on_violated); an end condition that raises prevents it (C121_cond_violated)."
  },
  {
   "property": "C122",
   "status": "partial",
   "theorems": [
    "Rocketry.Props.C122_represents",
    "Rocketry.Props.C122_start_partial",
    "Rocketry.Props.C122_shut_partial",
    "Rocketry.Props.C122_only",
    "Rocketry.Props.C122_pipe_violated",
    "Rocketry.Props.C122_shut_violated",
    "Rocketry.Props.C122_shown_violated",
    "Rocketry.Props.C122_null_violated",
    "Rocketry.Props.C122_own_logger_violated",
    "Rocketry.Props.C122_process_violated"
   ],
   "note": "C122_represents: as stated for parameters of tasks and end conditions, through functions and pipes. C122_start_partial: in start conditions without pipes. C122_shut_partial: in the condition to shut down, where there is no task. C122_only: plain arguments give nothing else. Not as stated: Config(), the loggers and named tasks in a pipe in a start condition raise (C122_pipe_violated); Task() in the condition to shut down raises (C122_shut_violated); shown or compared, Config() and the loggers raise (C122_shown_violated); with session=None beside a task Config() raises though Session() gives the session of the task (C122_null_violated); TaskLogger() is not the logger of a task that has its own logger_name (C122_own_logger_violated), and in a process its records do not get to the queue (C122_process_violated). The session of a spawned process is in C83 and Session/Where.lean, not here."
  },
  {
   "property": "C123",
   "status": "partial",
   "theorems": [
    "Rocketry.Props.C123_says_partial",
    "Rocketry.Props.C123_filter_partial",
    "Rocketry.Props.C123_brackets",
    "Rocketry.Props.C123_negation",
    "Rocketry.Props.C123_chain_violated",
    "Rocketry.Props.C123_order_violated"
   ],
   "note": "C123_says_partial and C123_filter_partial: as stated, without comparisons of three. C123_brackets and C123_negation: with the same answers and the same exceptions, for all expressions. Not as stated: of `low <= Key(k) <= high` only the second comparison is left (C123_chain_violated). For records without a field the order of & decides whether the reading ends with a KeyError (C123_order_violated). Dates are numbers, as in C56."
  },
  {
   "property": "C124",
   "status": "partial",
   "theorems": [
    "Rocketry.Props.C124_call_partial",
    "Rocketry.Props.C124_kept",
    "Rocketry.Props.C124_given_violated",
    "Rocketry.Props.C124_materialize_violated",
    "Rocketry.Props.C124_session_violated",
    "Rocketry.Props.C124_asked_violated"
   ],
   "note": "C124_call_partial: as stated when nothing is given for parameters whose default is an argument; C124_kept: keywords are kept. Not as stated: a value given for a parameter whose default is an argument raises TypeError (C124_given_violated); a keyword `materialize` does not get to the function (C124_materialize_violated); a function set with param_func gets the session that was the default at the time (C124_session_violated) and cannot be evaluated at all if it asks for the session by an argument (C124_asked_violated)."
  },
  {
   "property": "C125",
   "status": "partial",
   "theorems": [
    "Rocketry.Props.C125_rollforward",
    "Rocketry.Props.C125_rollback",
    "Rocketry.Props.C125_contains",
    "Rocketry.Props.C125_union_partial",
    "Rocketry.Props.C125_union_violated"
   ],
   "note": "C125_rollforward, C125_rollback, C125_contains: in full for intersections (which exception is raised, if one is, may differ). C125_union_partial: unions, when no two members have different spans that start (end) at the same time. Not otherwise (C125_union_violated)."
  }
 ]
}