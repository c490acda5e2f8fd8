import Verif.Props.IntervalProps
import Verif.Props.AnchoredProps
import Verif.Props.UnitProps
import Verif.Props.MonthProps
import Verif.Props.YearProps
import Verif.Props.PeriodProps
import Verif.Props.CronProps
import Verif.Task.CronCond
import Verif.Props.CronRunProps
import Verif.Props.DurationProps
import Verif.Props.CondProps
import Verif.Props.ParserProps
import Verif.Props.LogProps
import Verif.Props.StatusProps
import Verif.Props.PeriodicProps
import Verif.Props.MonthlyProps
import Verif.Props.YearlyProps
import Verif.Props.DependProps
import Verif.Props.RetryProps
import Verif.Props.RunningProps
import Verif.Props.ParallelProps
import Verif.Props.PhaseProps
import Verif.Props.TerminateProps
import Verif.Props.ShutdownProps
import Verif.Props.StartProps
import Verif.Props.SpecialProps
import Verif.Props.CycleProps
import Verif.Props.ManualProps
import Verif.Props.QueueProps
import Verif.Props.RunProps
import Verif.Props.NamesProps
import Verif.Session.TaskCond
import Verif.Spec.TaskCondSpec
import Verif.Props.TaskCondProps
import Verif.Props.HooksProps
import Verif.Props.CommandProps
import Verif.Props.ArgsProps
import Verif.Props.QueryProps
import Verif.Props.GroupProps
import Verif.Props.ListingProps
import Verif.Props.RunOnlyProps
import Verif.Props.RunOnceProps
import Verif.Base.CharList
import Verif.Text.Regex
import Verif.Text.RegexSym
import Verif.Text.CondItems
import Verif.Text.CondItemsSym
import Verif.Spec.PhraseSpec
import Verif.Text.PhraseFind
import Verif.Props.PhraseProps
import Verif.Cond.Api
import Verif.Spec.ApiSpec
import Verif.Props.ApiProps
import Verif.Sched.Cycles
import Verif.Spec.CycleSpec
import Verif.Props.SchedCondProps
import Verif.Task.Bare
import Verif.Props.BareProps
import Verif.Text.TimeText
import Verif.Spec.TimeTextSpec
import Verif.Text.TimeTextLemmas
import Verif.Props.TimeTextProps
import Verif.Task.Situation
import Verif.Spec.DenoteSpec
import Verif.Props.DenoteProps
import Verif.Props.SameProps
import Verif.Cond.CondEq
import Verif.Props.CondEqProps
import Verif.Spec.CoupleSpec
import Verif.Props.CoupleProps
import Verif.Sched.Core
import Verif.Sched.Track
import Verif.Sched.Caches
import Verif.Props.RefineProps
import Verif.Props.ImportPathProps
import Verif.Props.DelayedProps
import Verif.Props.RunTimesProps
import Verif.Props.LoggersProps
import Verif.Props.CondTextProps
import Verif.Props.FuncCondProps
import Verif.Props.CreationProps
import Verif.Props.ParamObjsProps
import Verif.Props.ZonedProps
import Verif.Props.PromiseProps
import Verif.Props.OptionsProps
import Verif.Props.WhereProps
import Verif.Props.DueProps
import Verif.Props.SilentProps
import Verif.Props.RoundProps
import Verif.Props.HookedProps
import Verif.Props.AppLogProps
import Verif.Props.DefaultNameProps
import Verif.Props.CodeProps
import Verif.Props.ArgEqProps
import Verif.Props.TextShapeProps
import Verif.Props.PackageProps
import Verif.Props.RecordProps
import Verif.Props.SharedProps
import Verif.Props.PartsProps
import Verif.Props.PeriodTextProps
import Verif.Props.QueryKwargsProps
import Verif.Props.RemovedProps
import Verif.Props.CondNeProps
import Verif.Props.DecorateProps
import Verif.Props.LocalClockProps
import Verif.Props.FuncLinksProps
import Verif.Props.CommandRunProps
import Verif.Props.SessionsProps
import Verif.Props.ServedProps
import Verif.Props.RenamedProps
import Verif.Props.ComparedProps
import Verif.Props.RunningNowProps
import Verif.Props.RecordTextProps
import Verif.Props.ForbidProps
import Verif.Props.PipelineProps
import Verif.Props.ReturnedProps
import Verif.Props.EndTextProps
import Verif.Props.ShutTextProps
import Verif.Props.HoldProps
import Verif.Props.ForceRunProps
import Verif.Props.RunIdsProps
import Verif.Props.SetRepoProps
import Verif.Props.MaintainProps
import Verif.Props.AskedProps
import Verif.Props.BuiltinProps
import Verif.Props.QueryWrittenProps
import Verif.Props.FuncArgCallProps
import Verif.Props.ShuffledProps

/-!
# Axioms of the claimed theorems

Printed during the build; only `propext`, `Classical.choice` and `Quot.sound` occur.
-/

#print axioms Rocketry.Props.C01_contains
#print axioms Rocketry.Props.C01_and_mem
#print axioms Rocketry.Props.C01_and_raises
#print axioms Rocketry.Props.C01_overlaps_complete
#print axioms Rocketry.Props.C01_overlaps_symm
#print axioms Rocketry.Props.C01_overlaps_iff
#print axioms Rocketry.Props.C01_overlaps_empty_violated
#print axioms Rocketry.Props.C01_isEmpty
#print axioms Rocketry.Props.C02_constructor
#print axioms Rocketry.Props.C02_contains
#print axioms Rocketry.Props.C02_periodic
#print axioms Rocketry.Props.C03_rollforward_partial
#print axioms Rocketry.Props.C03_rollforward_full
#print axioms Rocketry.Props.C03_degenerate_violated
#print axioms Rocketry.Props.C04_rollback_partial
#print axioms Rocketry.Props.C04_rollback_full
#print axioms Rocketry.Props.C04_degenerate_violated
#print axioms Rocketry.Props.C05_next_start
#print axioms Rocketry.Props.C05_next_end
#print axioms Rocketry.Props.C05_prev_start
#print axioms Rocketry.Props.C05_prev_end
#print axioms Rocketry.Props.C05_iterate
#print axioms Rocketry.Props.C06_range
#print axioms Rocketry.Props.C06_open_range
#print axioms Rocketry.Props.C06_at
#print axioms Rocketry.Props.C06_starting
#print axioms Rocketry.Props.C06_reject_partial
#print axioms Rocketry.Props.C06_reject_violated
#print axioms Rocketry.Props.C07_contains
#print axioms Rocketry.Props.C07_rollforward_partial
#print axioms Rocketry.Props.C07_rollback_partial
#print axioms Rocketry.Props.C07_up_to_28th
#print axioms Rocketry.Props.C07_rollback_full
#print axioms Rocketry.Props.C07_rolls_violated
#print axioms Rocketry.Props.C08_contains_partial
#print axioms Rocketry.Props.C08_contains_violated
#print axioms Rocketry.Props.C08_at_partial
#print axioms Rocketry.Props.C08_next_start_exact
#print axioms Rocketry.Props.C08_prev_start_exact
#print axioms Rocketry.Props.C08_rollforward_partial
#print axioms Rocketry.Props.C08_rolls_violated
#print axioms Rocketry.Props.C09_contains
#print axioms Rocketry.Props.C09_sem
#print axioms Rocketry.Props.C10_rollforward_partial
#print axioms Rocketry.Props.C10_terminates_partial
#print axioms Rocketry.Props.C10_month_violated
#print axioms Rocketry.Props.C10_year_violated
#print axioms Rocketry.Props.C11_no_common_violated
#print axioms Rocketry.Props.C11_answers_partial
#print axioms Rocketry.Props.C12_rollback_inside
#print axioms Rocketry.Props.C12_rollback_latest_partial
#print axioms Rocketry.Props.C12_rollback_terminates
#print axioms Rocketry.Props.C12_start_instant
#print axioms Rocketry.Props.C12_union_inside_violated
#print axioms Rocketry.Props.C13_contains_partial
#print axioms Rocketry.Props.C13_contains_violated
#print axioms Rocketry.Props.C13_rollforward
#print axioms Rocketry.Props.C13_rollforward_terminates
#print axioms Rocketry.Props.C14_merge_partial
#print axioms Rocketry.Props.C14_merge_violated
#print axioms Rocketry.Props.C15_contains
#print axioms Rocketry.Props.C15_always_never
#print axioms Rocketry.Props.C15_rolls
#print axioms Rocketry.Props.C15_reversed
#print axioms Rocketry.Props.C16_delta
#print axioms Rocketry.Props.C16_span
#print axioms Rocketry.Props.C16_span_contains
#print axioms Rocketry.Props.C17_constructors
#print axioms Rocketry.Props.C17_operators
#print axioms Rocketry.Props.C17_assoc
#print axioms Rocketry.Props.C17_flat
#print axioms Rocketry.Props.C17_comm
#print axioms Rocketry.Props.C18_contains_partial
#print axioms Rocketry.Props.C18_answers
#print axioms Rocketry.Props.C18_text
#print axioms Rocketry.Props.C18_month_violated
#print axioms Rocketry.Props.C18_star_in_list_violated
#print axioms Rocketry.Props.C18_single_step_violated
#print axioms Rocketry.Props.C18_day31_violated
#print axioms Rocketry.Props.C19_steps_partial
#print axioms Rocketry.Props.C19_off_by_one_violated
#print axioms Rocketry.Props.C20_rollforward
#print axioms Rocketry.Props.C20_month_violated
#print axioms Rocketry.Props.C54_reads
#print axioms Rocketry.Props.C54_exact
#print axioms Rocketry.Props.C54_only
#print axioms Rocketry.Props.C54_unknown_unit
#print axioms Rocketry.Props.C55_round_trip_partial
#print axioms Rocketry.Props.C55_subsecond_violated
#print axioms Rocketry.Props.C55_negative_violated
#print axioms Rocketry.Props.C21_observe
#print axioms Rocketry.Props.C21_truth
#print axioms Rocketry.Props.C21_double_negation
#print axioms Rocketry.Props.C21_double_negation_built
#print axioms Rocketry.Props.C21_short_and
#print axioms Rocketry.Props.C21_short_or
#print axioms Rocketry.Props.C22_shared_violated
#print axioms Rocketry.Props.C22_family_violated
#print axioms Rocketry.Props.C22_partial
#print axioms Rocketry.Props.C23_compare
#print axioms Rocketry.Props.C23_any_over_zero
#print axioms Rocketry.Props.C23_equal_zero
#print axioms Rocketry.Props.C24_condition_partial
#print axioms Rocketry.Props.C24_object_partial
#print axioms Rocketry.Props.C24_unknown_item
#print axioms Rocketry.Props.C24_time_partial
#print axioms Rocketry.Props.C24_unbalanced
#print axioms Rocketry.Props.C24_blank_violated
#print axioms Rocketry.Props.C24_always_violated
#print axioms Rocketry.Props.C24_malformed
#print axioms Rocketry.Props.C25_cached_partial
#print axioms Rocketry.Props.C25_finished
#print axioms Rocketry.Props.C25_two_readings_violated
#print axioms Rocketry.Props.C25_late_record_violated
#print axioms Rocketry.Props.C33_task
#print axioms Rocketry.Props.C33_startup
#print axioms Rocketry.Props.C33_again
#print axioms Rocketry.Props.C33_tie_violated
#print axioms Rocketry.Props.C34_agrees
#print axioms Rocketry.Props.C34_reread_partial
#print axioms Rocketry.Props.C34_two_readings_violated
#print axioms Rocketry.Props.C34_failed_write
#print axioms Rocketry.Props.C34_failed_write_violated
#print axioms Rocketry.Props.C26_eligible_partial
#print axioms Rocketry.Props.C26_month_partial
#print axioms Rocketry.Props.C26_year_partial
#print axioms Rocketry.Props.C26_whole_year_partial
#print axioms Rocketry.Props.C26_duration
#print axioms Rocketry.Props.C26_midnight_violated
#print axioms Rocketry.Props.C26_month_violated
#print axioms Rocketry.Props.C26_year_violated
#print axioms Rocketry.Props.C27_successes_partial
#print axioms Rocketry.Props.C27_monthly_partial
#print axioms Rocketry.Props.C27_month_partial
#print axioms Rocketry.Props.C27_year_partial
#print axioms Rocketry.Props.C27_whole_year_partial
#print axioms Rocketry.Props.C27_process_violated
#print axioms Rocketry.Props.C28_started_partial
#print axioms Rocketry.Props.C28_month_partial
#print axioms Rocketry.Props.C28_violated
#print axioms Rocketry.Props.C30_spacing
#print axioms Rocketry.Props.C30_eligible
#print axioms Rocketry.Props.C30_based
#print axioms Rocketry.Props.C31_state
#print axioms Rocketry.Props.C31_history
#print axioms Rocketry.Props.C31_process_violated
#print axioms Rocketry.Props.C32_state
#print axioms Rocketry.Props.C32_conditions
#print axioms Rocketry.Props.C32_history
#print axioms Rocketry.Props.C35_ids_partial
#print axioms Rocketry.Props.C35_window_partial
#print axioms Rocketry.Props.C35_times_partial
#print axioms Rocketry.Props.C35_crash_violated
#print axioms Rocketry.Props.C35_more_than_violated
#print axioms Rocketry.Props.C37_cap_partial
#print axioms Rocketry.Props.C37_removed_violated
#print axioms Rocketry.Props.C38_single
#print axioms Rocketry.Props.C38_single_partial
#print axioms Rocketry.Props.C38_untracked_violated
#print axioms Rocketry.Props.C44_order
#print axioms Rocketry.Props.C44_belongs
#print axioms Rocketry.Props.C42_exact_partial
#print axioms Rocketry.Props.C42_cycle_partial
#print axioms Rocketry.Props.C42_states
#print axioms Rocketry.Props.C42_zero_violated
#print axioms Rocketry.Props.C42_dead_violated
#print axioms Rocketry.Props.C39_exact
#print axioms Rocketry.Props.C41_order
#print axioms Rocketry.Props.C43_tracked
#print axioms Rocketry.Props.C43_none_partial
#print axioms Rocketry.Props.C43_waits
#print axioms Rocketry.Props.C43_forced
#print axioms Rocketry.Props.C43_flags_partial
#print axioms Rocketry.Props.C43_twice
#print axioms Rocketry.Props.C43_removed_violated
#print axioms Rocketry.Props.C43_untracked_violated
#print axioms Rocketry.Props.C43_flags_violated
#print axioms Rocketry.Props.C40_order
#print axioms Rocketry.Props.C40_served_partial
#print axioms Rocketry.Props.C40_lost_violated
#print axioms Rocketry.Props.C45_once_partial
#print axioms Rocketry.Props.C45_never_twice
#print axioms Rocketry.Props.C45_drained
#print axioms Rocketry.Props.C45_returns_partial
#print axioms Rocketry.Props.C45_returns_violated
#print axioms Rocketry.Props.C45_removed_violated
#print axioms Rocketry.Props.C36_records_partial
#print axioms Rocketry.Props.C36_exactly
#print axioms Rocketry.Props.C36_process
#print axioms Rocketry.Props.C36_extra
#print axioms Rocketry.Props.C36_early_main
#print axioms Rocketry.Props.C36_terminated
#print axioms Rocketry.Props.C36_setup
#print axioms Rocketry.Props.C36_async_violated
#print axioms Rocketry.Props.C36_early_violated
#print axioms Rocketry.Props.C36_restart_violated
#print axioms Rocketry.Props.C36_dies_violated
#print axioms Rocketry.Props.C36_post_violated
#print axioms Rocketry.Props.C36_kill_violated
#print axioms Rocketry.Props.C36_setup_violated
#print axioms Rocketry.Props.C36_pickle_violated
#print axioms Rocketry.Props.C46_unique
#print axioms Rocketry.Props.C46_unique_partial
#print axioms Rocketry.Props.C46_removed_partial
#print axioms Rocketry.Props.C46_plain
#print axioms Rocketry.Props.C46_function_partial
#print axioms Rocketry.Props.C46_ignore_violated
#print axioms Rocketry.Props.C46_function_violated
#print axioms Rocketry.Props.C46_function_ignore_violated
#print axioms Rocketry.Props.C47_free
#print axioms Rocketry.Props.C47_raise
#print axioms Rocketry.Props.C47_rename
#print axioms Rocketry.Props.C47_ignore
#print axioms Rocketry.Props.C47_replace_violated
#print axioms Rocketry.Props.C47_add_replace_violated
#print axioms Rocketry.Props.C51_least
#print axioms Rocketry.Props.C51_distinct
#print axioms Rocketry.Props.C49_precedence_partial
#print axioms Rocketry.Props.C49_not_passed
#print axioms Rocketry.Props.C49_called
#print axioms Rocketry.Props.C49_materialize
#print axioms Rocketry.Props.C49_pickle_violated
#print axioms Rocketry.Props.C49_class_violated
#print axioms Rocketry.Props.C49_names_violated
#print axioms Rocketry.Props.C50_pipe_partial
#print axioms Rocketry.Props.C50_pipe_violated
#print axioms Rocketry.Props.C50_private_value
#print axioms Rocketry.Props.C50_private_hidden
#print axioms Rocketry.Props.C50_params_hidden
#print axioms Rocketry.Props.C52_wraps_partial
#print axioms Rocketry.Props.C52_order
#print axioms Rocketry.Props.C52_pre_violated
#print axioms Rocketry.Props.C52_params_violated
#print axioms Rocketry.Props.C52_finish_violated
#print axioms Rocketry.Props.C52_post_violated
#print axioms Rocketry.Props.C53_line_partial
#print axioms Rocketry.Props.C53_text
#print axioms Rocketry.Props.C53_list
#print axioms Rocketry.Props.C53_list_violated
#print axioms Rocketry.Props.C53_default_violated
#print axioms Rocketry.Props.C56_kwargs
#print axioms Rocketry.Props.C56_dict
#print axioms Rocketry.Props.C56_tuples_partial
#print axioms Rocketry.Props.C56_tuples_violated
#print axioms Rocketry.Props.C56_filter
#print axioms Rocketry.Props.C56_select
#print axioms Rocketry.Props.C56_records_partial
#print axioms Rocketry.Props.C56_own_name_violated
#print axioms Rocketry.Props.C56_latest
#print axioms Rocketry.Props.C56_refused
#print axioms Rocketry.Props.C57_include_partial
#print axioms Rocketry.Props.C57_clash_violated
#print axioms Rocketry.Props.C57_dropped_violated
#print axioms Rocketry.Props.C57_prefix_violated
#print axioms Rocketry.Props.C57_text_violated
#print axioms Rocketry.Props.C58_sound
#print axioms Rocketry.Props.C58_exact_partial
#print axioms Rocketry.Props.C58_nested_violated
#print axioms Rocketry.Props.C58_not_violated
#print axioms Rocketry.Props.C58_unknown_violated
#print axioms Rocketry.Props.C48_only_partial
#print axioms Rocketry.Props.C48_restored_partial
#print axioms Rocketry.Props.C48_once_partial
#print axioms Rocketry.Props.C48_pending_violated
#print axioms Rocketry.Props.C48_added_violated
#print axioms Rocketry.Props.C48_slot_violated
#print axioms Rocketry.Props.C48_special_violated
#print axioms Rocketry.Props.C29_starts_partial
#print axioms Rocketry.Props.C29_limit_partial
#print axioms Rocketry.Props.C29_exact_violated
#print axioms Rocketry.Props.C29_late_day_violated
#print axioms Rocketry.Props.C59_default_partial
#print axioms Rocketry.Props.C59_default_violated
#print axioms Rocketry.Props.C60_phrase_partial
#print axioms Rocketry.Props.C60_text_partial
#print axioms Rocketry.Props.C60_starting_violated
#print axioms Rocketry.Props.C60_param_violated
#print axioms Rocketry.Props.C60_always_violated
#print axioms Rocketry.Props.C60_past_violated
#print axioms Rocketry.Props.C60_terminated_violated
#print axioms Rocketry.Props.C60_quoted_violated
#print axioms Rocketry.Props.C61_api
#print axioms Rocketry.Props.C61_same_partial
#print axioms Rocketry.Props.C61_time
#print axioms Rocketry.Props.C61_timetext_partial
#print axioms Rocketry.Props.C61_starting_violated
#print axioms Rocketry.Props.C62_cycles
#print axioms Rocketry.Props.C62_limit
#print axioms Rocketry.Props.C62_exact
#print axioms Rocketry.Props.C62_run
#print axioms Rocketry.Props.C62_running_partial
#print axioms Rocketry.Props.C62_running_violated
#print axioms Rocketry.Props.C62_phrase_partial
#print axioms Rocketry.Props.C62_clock_violated
#print axioms Rocketry.Props.C63_bare_partial
#print axioms Rocketry.Props.C63_period_violated
#print axioms Rocketry.Props.C63_period_exact
#print axioms Rocketry.Props.C64_first
#print axioms Rocketry.Props.C64_last_partial
#print axioms Rocketry.Props.C64_moment
#print axioms Rocketry.Props.C64_exec
#print axioms Rocketry.Props.C64_timeOf
#print axioms Rocketry.Props.C64_hasIn_partial
#print axioms Rocketry.Props.C64_year_month_violated
#print axioms Rocketry.Props.C64_year_day_violated
#print axioms Rocketry.Props.C64_week_only
#print axioms Rocketry.Props.C64_year_only
#print axioms Rocketry.Props.C64_quarters
#print axioms Rocketry.Props.C64_quarter_violated
#print axioms Rocketry.Props.C64_junk_violated
#print axioms Rocketry.Props.C64_refused_violated
#print axioms Rocketry.Props.C65_saying_partial
#print axioms Rocketry.Props.C65_text_partial
#print axioms Rocketry.Props.C65_every
#print axioms Rocketry.Props.C65_kept
#print axioms Rocketry.Props.C65_today_violated
#print axioms Rocketry.Props.C65_param_violated
#print axioms Rocketry.Props.C66_exact
#print axioms Rocketry.Props.C66_startup
#print axioms Rocketry.Props.C66_shutdown
#print axioms Rocketry.Props.C66_disabled
#print axioms Rocketry.Props.C66_slot_violated
#print axioms Rocketry.Props.C67_symmetric
#print axioms Rocketry.Props.C67_transitive
#print axioms Rocketry.Props.C67_instants
#print axioms Rocketry.Props.C67_rolls_partial
#print axioms Rocketry.Props.C67_contains_partial
#print axioms Rocketry.Props.C67_members
#print axioms Rocketry.Props.C67_relative_day_violated
#print axioms Rocketry.Props.C67_span_violated
#print axioms Rocketry.Props.C67_order_violated
#print axioms Rocketry.Props.C68_reflexive
#print axioms Rocketry.Props.C68_observe
#print axioms Rocketry.Props.C68_symmetric_partial
#print axioms Rocketry.Props.C68_transitive_partial
#print axioms Rocketry.Props.C68_symmetric_violated
#print axioms Rocketry.Props.C68_transitive_violated
#print axioms Rocketry.Props.C68_builtin_equivalence
#print axioms Rocketry.Props.C68_builtin_partial
#print axioms Rocketry.Props.C68_situations_partial
#print axioms Rocketry.Props.C68_relative_day_violated
#print axioms Rocketry.Props.C68_span_violated
#print axioms Rocketry.Props.C69_orderly
#print axioms Rocketry.Props.C69_prepared
#print axioms Rocketry.Props.C69_history_partial
#print axioms Rocketry.Props.C69_every_partial
#print axioms Rocketry.Props.C69_retries_partial
#print axioms Rocketry.Props.C69_depend_partial
#print axioms Rocketry.Props.C69_daily_partial
#print axioms Rocketry.Props.C69_added_violated
#print axioms Rocketry.Props.C69_shutdown_violated
#print axioms Rocketry.Props.C70_state_partial
#print axioms Rocketry.Props.C70_unknown_partial
#print axioms Rocketry.Props.C70_own_partial
#print axioms Rocketry.Props.C70_parameters
#print axioms Rocketry.Props.C70_rename
#print axioms Rocketry.Props.C70_defined_partial
#print axioms Rocketry.Props.C70_raise_violated
#print axioms Rocketry.Props.C70_ignore_violated
#print axioms Rocketry.Props.C70_init_violated
#print axioms Rocketry.Props.C71_entries
#print axioms Rocketry.Props.C71_restored_partial
#print axioms Rocketry.Props.C71_found
#print axioms Rocketry.Props.C71_order_violated
#print axioms Rocketry.Props.C71_rebound_violated
#print axioms Rocketry.Props.C71_sys_paths_violated
#print axioms Rocketry.Props.C72_fresh_partial
#print axioms Rocketry.Props.C72_alone_partial
#print axioms Rocketry.Props.C72_signature_partial
#print axioms Rocketry.Props.C72_broke_violated
#print axioms Rocketry.Props.C72_overlap_violated
#print axioms Rocketry.Props.C72_signature_violated
#print axioms Rocketry.Props.C73_times_partial
#print axioms Rocketry.Props.C73_process_partial
#print axioms Rocketry.Props.C73_duration
#print axioms Rocketry.Props.C73_overlap_violated
#print axioms Rocketry.Props.C73_from_logs_violated
#print axioms Rocketry.Props.C73_start_violated
#print axioms Rocketry.Props.C74_once_partial
#print axioms Rocketry.Props.C74_plain_partial
#print axioms Rocketry.Props.C74_unreadable_violated
#print axioms Rocketry.Props.C74_twice_violated
#print axioms Rocketry.Props.C74_prefix_violated
#print axioms Rocketry.Props.C74_outside_violated
#print axioms Rocketry.Props.C75_created_partial
#print axioms Rocketry.Props.C75_first_violated
#print axioms Rocketry.Props.C75_logger_violated
#print axioms Rocketry.Props.C75_current_violated
#print axioms Rocketry.Props.C76_honest_partial
#print axioms Rocketry.Props.C76_combined_partial
#print axioms Rocketry.Props.C76_read
#print axioms Rocketry.Props.C76_running
#print axioms Rocketry.Props.C76_cycles
#print axioms Rocketry.Props.C76_precedence_violated
#print axioms Rocketry.Props.C76_negation_violated
#print axioms Rocketry.Props.C76_status_violated
#print axioms Rocketry.Props.C76_depend_violated
#print axioms Rocketry.Props.C76_comparison_violated
#print axioms Rocketry.Props.C76_parts_violated
#print axioms Rocketry.Props.C76_missing_violated
#print axioms Rocketry.Props.C77_observe_partial
#print axioms Rocketry.Props.C77_missing
#print axioms Rocketry.Props.C77_kept
#print axioms Rocketry.Props.C77_text_partial
#print axioms Rocketry.Props.C77_given_violated
#print axioms Rocketry.Props.C77_bool_violated
#print axioms Rocketry.Props.C77_early_violated
#print axioms Rocketry.Props.C78_own_partial
#print axioms Rocketry.Props.C78_registered
#print axioms Rocketry.Props.C78_default
#print axioms Rocketry.Props.C78_other_violated
#print axioms Rocketry.Props.C78_foreign_violated
#print axioms Rocketry.Props.C78_naming_violated
#print axioms Rocketry.Props.C78_refused_violated
#print axioms Rocketry.Props.C79_values_partial
#print axioms Rocketry.Props.C79_get
#print axioms Rocketry.Props.C79_alias_violated
#print axioms Rocketry.Props.C79_reserved_violated
#print axioms Rocketry.Props.C80_isPeriod_partial
#print axioms Rocketry.Props.C80_status_partial
#print axioms Rocketry.Props.C80_executable_partial
#print axioms Rocketry.Props.C80_runnable_partial
#print axioms Rocketry.Props.C80_running_partial
#print axioms Rocketry.Props.C80_scheduler_partial
#print axioms Rocketry.Props.C80_shown
#print axioms Rocketry.Props.C80_cron_floating
#print axioms Rocketry.Props.C80_cron_partial
#print axioms Rocketry.Props.C80_dates_partial
#print axioms Rocketry.Props.C80_always_partial
#print axioms Rocketry.Props.C80_running_violated
#print axioms Rocketry.Props.C80_moreThan_violated
#print axioms Rocketry.Props.C80_scheduler_violated
#print axioms Rocketry.Props.C80_isPeriod_violated
#print axioms Rocketry.Props.C80_dates_violated
#print axioms Rocketry.Props.C80_future_violated
#print axioms Rocketry.Props.C80_relativeDay_violated
#print axioms Rocketry.Props.C81_history_partial
#print axioms Rocketry.Props.C81_execution_partial
#print axioms Rocketry.Props.C81_process_violated
#print axioms Rocketry.Props.C82_created
#print axioms Rocketry.Props.C82_refused
#print axioms Rocketry.Props.C82_twice
#print axioms Rocketry.Props.C82_set
#print axioms Rocketry.Props.C82_kept
#print axioms Rocketry.Props.C82_task_partial
#print axioms Rocketry.Props.C82_timeout
#print axioms Rocketry.Props.C82_object_violated
#print axioms Rocketry.Props.C82_app_violated
#print axioms Rocketry.Props.C82_debug_violated
#print axioms Rocketry.Props.C82_assign_violated
#print axioms Rocketry.Props.C82_names_violated
#print axioms Rocketry.Props.C82_unknown_violated
#print axioms Rocketry.Props.C82_zero_violated
#print axioms Rocketry.Props.C82_priority_violated
#print axioms Rocketry.Props.C82_shared_violated
#print axioms Rocketry.Props.C82_never
#print axioms Rocketry.Props.C82_never_violated
#print axioms Rocketry.Props.C83_same
#print axioms Rocketry.Props.C83_call
#print axioms Rocketry.Props.C83_spawn_same_or_fails
#print axioms Rocketry.Props.C83_spawn_partial
#print axioms Rocketry.Props.C83_spawn_violated
#print axioms Rocketry.Props.C83_flag_partial
#print axioms Rocketry.Props.C83_flag_thread
#print axioms Rocketry.Props.C83_flag_violated
#print axioms Rocketry.Props.C84_started_partial
#print axioms Rocketry.Props.C84_history
#print axioms Rocketry.Props.C84_execution_partial
#print axioms Rocketry.Props.C84_midnight_violated
#print axioms Rocketry.Props.C85_cycle_partial
#print axioms Rocketry.Props.C85_startup_partial
#print axioms Rocketry.Props.C85_loop_partial
#print axioms Rocketry.Props.C85_serve_partial
#print axioms Rocketry.Props.C85_termination_violated
#print axioms Rocketry.Props.C86_rounds_partial
#print axioms Rocketry.Props.C86_raised_partial
#print axioms Rocketry.Props.C86_count
#print axioms Rocketry.Props.C86_forgotten_violated
#print axioms Rocketry.Props.C86_late_violated
#print axioms Rocketry.Props.C87_order_partial
#print axioms Rocketry.Props.C87_over_partial
#print axioms Rocketry.Props.C87_none
#print axioms Rocketry.Props.C87_cycle_violated
#print axioms Rocketry.Props.C87_shutdown_violated
#print axioms Rocketry.Props.C87_alive_violated
#print axioms Rocketry.Props.C88_kept_partial
#print axioms Rocketry.Props.C88_exact_partial
#print axioms Rocketry.Props.C88_started_partial
#print axioms Rocketry.Props.C88_again
#print axioms Rocketry.Props.C88_second_violated
#print axioms Rocketry.Props.C88_level_violated
#print axioms Rocketry.Props.C88_process_violated
#print axioms Rocketry.Props.C89_path_partial
#print axioms Rocketry.Props.C89_same_partial
#print axioms Rocketry.Props.C89_registered_partial
#print axioms Rocketry.Props.C89_decorated
#print axioms Rocketry.Props.C89_command
#print axioms Rocketry.Props.C89_decorated_violated
#print axioms Rocketry.Props.C89_none_violated
#print axioms Rocketry.Props.C89_py_violated
#print axioms Rocketry.Props.C89_words_violated
#print axioms Rocketry.Props.C90_script_partial
#print axioms Rocketry.Props.C90_isolated
#print axioms Rocketry.Props.C90_parameter_violated
#print axioms Rocketry.Props.C90_recursion_violated
#print axioms Rocketry.Props.C91_argument_partial
#print axioms Rocketry.Props.C91_parameters_partial
#print axioms Rocketry.Props.C91_symmetric
#print axioms Rocketry.Props.C91_default_violated
#print axioms Rocketry.Props.C91_secret_violated
#print axioms Rocketry.Props.C91_func_violated
#print axioms Rocketry.Props.C91_return_violated
#print axioms Rocketry.Props.C91_later_violated
#print axioms Rocketry.Props.C92_time_partial
#print axioms Rocketry.Props.C92_condition_partial
#print axioms Rocketry.Props.C92_operator
#print axioms Rocketry.Props.C92_operators_violated
#print axioms Rocketry.Props.C92_doubled_violated
#print axioms Rocketry.Props.C92_ends_violated
#print axioms Rocketry.Props.C92_negation_violated
#print axioms Rocketry.Props.C92_beside_violated
#print axioms Rocketry.Props.C93_root
#print axioms Rocketry.Props.C93_absolute
#print axioms Rocketry.Props.C93_module_partial
#print axioms Rocketry.Props.C93_alone_violated
#print axioms Rocketry.Props.C93_relative_violated
#print axioms Rocketry.Props.C93_dot_violated
#print axioms Rocketry.Props.C93_hidden
#print axioms Rocketry.Props.C94_instants_partial
#print axioms Rocketry.Props.C94_again
#print axioms Rocketry.Props.C94_seconds
#print axioms Rocketry.Props.C94_runtime_violated
#print axioms Rocketry.Props.C95_looks
#print axioms Rocketry.Props.C95_records
#print axioms Rocketry.Props.C95_sessions_partial
#print axioms Rocketry.Props.C95_name_violated
#print axioms Rocketry.Props.C95_option_violated
#print axioms Rocketry.Props.C96_parts_partial
#print axioms Rocketry.Props.C96_contains
#print axioms Rocketry.Props.C96_float
#print axioms Rocketry.Props.C96_month_violated
#print axioms Rocketry.Props.C96_ignored_violated
#print axioms Rocketry.Props.C96_float_violated
#print axioms Rocketry.Props.C97_read
#print axioms Rocketry.Props.C97_duration_partial
#print axioms Rocketry.Props.C97_negative_violated
#print axioms Rocketry.Props.C97_delta
#print axioms Rocketry.Props.C97_clock_partial
#print axioms Rocketry.Props.C97_same_clock_partial
#print axioms Rocketry.Props.C97_cycle_violated
#print axioms Rocketry.Props.C97_end_violated
#print axioms Rocketry.Props.C97_begin_violated
#print axioms Rocketry.Props.C97_brackets_violated
#print axioms Rocketry.Props.C97_joined
#print axioms Rocketry.Props.C98_same_records_partial
#print axioms Rocketry.Props.C98_round_trip
#print axioms Rocketry.Props.C98_only
#print axioms Rocketry.Props.C98_sides_violated
#print axioms Rocketry.Props.C98_twice_violated
#print axioms Rocketry.Props.C98_mixed_violated
#print axioms Rocketry.Props.C99_removed
#print axioms Rocketry.Props.C100_ne_partial
#print axioms Rocketry.Props.C100_differs_violated
#print axioms Rocketry.Props.C100_changes_violated
#print axioms Rocketry.Props.C100_kept_partial
#print axioms Rocketry.Props.C100_loses_violated
#print axioms Rocketry.Props.C101_tasks_partial
#print axioms Rocketry.Props.C101_same
#print axioms Rocketry.Props.C101_again_violated
#print axioms Rocketry.Props.C101_bare_violated
#print axioms Rocketry.Props.C102_instant
#print axioms Rocketry.Props.C102_calendar_partial
#print axioms Rocketry.Props.C102_executable_partial
#print axioms Rocketry.Props.C102_every_partial
#print axioms Rocketry.Props.C102_steady_partial
#print axioms Rocketry.Props.C102_timezone_partial
#print axioms Rocketry.Props.C102_back_violated
#print axioms Rocketry.Props.C102_forward_violated
#print axioms Rocketry.Props.C102_cycle_violated
#print axioms Rocketry.Props.C103_task_partial
#print axioms Rocketry.Props.C103_param_partial
#print axioms Rocketry.Props.C103_plain
#print axioms Rocketry.Props.C103_own_partial
#print axioms Rocketry.Props.C103_lost_task_violated
#print axioms Rocketry.Props.C103_lost_param_violated
#print axioms Rocketry.Props.C103_two_sessions_violated
#print axioms Rocketry.Props.C103_foreign_violated
#print axioms Rocketry.Props.C104_outcome_partial
#print axioms Rocketry.Props.C104_success
#print axioms Rocketry.Props.C104_gone_partial
#print axioms Rocketry.Props.C104_limit_violated
#print axioms Rocketry.Props.C104_endless_violated
#print axioms Rocketry.Props.C104_terminated_violated
#print axioms Rocketry.Props.C104_thread_violated
#print axioms Rocketry.Props.C104_terminated_when
#print axioms Rocketry.Props.C104_argform
#print axioms Rocketry.Props.C104_default_violated
#print axioms Rocketry.Props.C104_options
#print axioms Rocketry.Props.C105_same_partial
#print axioms Rocketry.Props.C105_others
#print axioms Rocketry.Props.C105_still
#print axioms Rocketry.Props.C105_text_partial
#print axioms Rocketry.Props.C105_start
#print axioms Rocketry.Props.C105_history_violated
#print axioms Rocketry.Props.C105_running_violated
#print axioms Rocketry.Props.C105_shut_violated
#print axioms Rocketry.Props.C106_next_partial
#print axioms Rocketry.Props.C106_starved_violated
#print axioms Rocketry.Props.C107_cached_partial
#print axioms Rocketry.Props.C107_log_partial
#print axioms Rocketry.Props.C107_restart_partial
#print axioms Rocketry.Props.C107_forgets_violated
#print axioms Rocketry.Props.C107_inherits_violated
#print axioms Rocketry.Props.C107_count_violated
#print axioms Rocketry.Props.C107_again_violated
#print axioms Rocketry.Props.C107_named_violated
#print axioms Rocketry.Props.C108_tells_partial
#print axioms Rocketry.Props.C108_twice
#print axioms Rocketry.Props.C108_and
#print axioms Rocketry.Props.C108_wrapper_violated
#print axioms Rocketry.Props.C108_combined_violated
#print axioms Rocketry.Props.C108_self_violated
#print axioms Rocketry.Props.C108_equal_partial
#print axioms Rocketry.Props.C109_alive
#print axioms Rocketry.Props.C109_sound_partial
#print axioms Rocketry.Props.C109_running_partial
#print axioms Rocketry.Props.C109_found_partial
#print axioms Rocketry.Props.C109_overlap_violated
#print axioms Rocketry.Props.C109_killed_violated
#print axioms Rocketry.Props.C109_found_violated
#print axioms Rocketry.Props.C110_tells_partial
#print axioms Rocketry.Props.C110_status_partial
#print axioms Rocketry.Props.C110_where
#print axioms Rocketry.Props.C110_not_doubled
#print axioms Rocketry.Props.C110_return_partial
#print axioms Rocketry.Props.C110_critical
#print axioms Rocketry.Props.C110_formatter_violated
#print axioms Rocketry.Props.C110_return_violated
#print axioms Rocketry.Props.C111_history_partial
#print axioms Rocketry.Props.C111_apart_partial
#print axioms Rocketry.Props.C111_execution_partial
#print axioms Rocketry.Props.C111_queue_violated
#print axioms Rocketry.Props.C112_successes
#print axioms Rocketry.Props.C112_pipeline_partial
#print axioms Rocketry.Props.C112_knot_partial
#print axioms Rocketry.Props.C112_execution_partial
#print axioms Rocketry.Props.C112_finish_violated
#print axioms Rocketry.Props.C113_latest_partial
#print axioms Rocketry.Props.C113_read_partial
#print axioms Rocketry.Props.C113_fresh_partial
#print axioms Rocketry.Props.C113_new_partial
#print axioms Rocketry.Props.C113_lock_violated
#print axioms Rocketry.Props.C113_restart_violated
#print axioms Rocketry.Props.C113_pickle_violated
#print axioms Rocketry.Props.C113_overlap_violated
#print axioms Rocketry.Props.C113_twice_violated
#print axioms Rocketry.Props.C113_unlogged_violated
#print axioms Rocketry.Props.C113_renamed_violated
#print axioms Rocketry.Props.C113_argument_violated
#print axioms Rocketry.Props.C114_text_partial
#print axioms Rocketry.Props.C114_execution_partial
#print axioms Rocketry.Props.C114_age_partial
#print axioms Rocketry.Props.C114_single_partial
#print axioms Rocketry.Props.C114_log_partial
#print axioms Rocketry.Props.C114_young_violated
#print axioms Rocketry.Props.C114_finished_violated
#print axioms Rocketry.Props.C114_zone_violated
#print axioms Rocketry.Props.C115_text_partial
#print axioms Rocketry.Props.C115_execution_partial
#print axioms Rocketry.Props.C115_own_violated
#print axioms Rocketry.Props.C116_hold_partial
#print axioms Rocketry.Props.C116_once
#print axioms Rocketry.Props.C116_before_violated
#print axioms Rocketry.Props.C116_shutdown_violated
#print axioms Rocketry.Props.C116_restart_violated
#print axioms Rocketry.Props.C117_each
#print axioms Rocketry.Props.C117_regardless
#print axioms Rocketry.Props.C117_unforced
#print axioms Rocketry.Props.C117_flag_partial
#print axioms Rocketry.Props.C117_new
#print axioms Rocketry.Props.C117_once_partial
#print axioms Rocketry.Props.C117_request
#print axioms Rocketry.Props.C117_withdrawn_violated
#print axioms Rocketry.Props.C117_twice_violated
#print axioms Rocketry.Props.C117_own_violated
#print axioms Rocketry.Props.C117_params_violated
#print axioms Rocketry.Props.C117_flag_violated
#print axioms Rocketry.Props.C117_invalid_violated
#print axioms Rocketry.Props.C118_open
#print axioms Rocketry.Props.C118_unused_partial
#print axioms Rocketry.Props.C118_uuid_partial
#print axioms Rocketry.Props.C118_increment_violated
#print axioms Rocketry.Props.C118_endless_violated
#print axioms Rocketry.Props.C119_since_partial
#print axioms Rocketry.Props.C119_others
#print axioms Rocketry.Props.C119_handlers
#print axioms Rocketry.Props.C119_old
#print axioms Rocketry.Props.C119_shared_violated
#print axioms Rocketry.Props.C119_twice_violated
#print axioms Rocketry.Props.C119_session_violated
#print axioms Rocketry.Props.C120_cycle_partial
#print axioms Rocketry.Props.C120_exit_partial
#print axioms Rocketry.Props.C120_wait_violated
#print axioms Rocketry.Props.C120_elsewhere_violated
#print axioms Rocketry.Props.C120_closing_violated
#print axioms Rocketry.Props.C121_ended_partial
#print axioms Rocketry.Props.C121_spent
#print axioms Rocketry.Props.C121_only
#print axioms Rocketry.Props.C121_spared
#print axioms Rocketry.Props.C121_fresh_violated
#print axioms Rocketry.Props.C121_removed_violated
#print axioms Rocketry.Props.C121_removed_goes_on_violated
#print axioms Rocketry.Props.C121_cond_violated
#print axioms Rocketry.Props.C122_represents
#print axioms Rocketry.Props.C122_start_partial
#print axioms Rocketry.Props.C122_shut_partial
#print axioms Rocketry.Props.C122_only
#print axioms Rocketry.Props.C122_pipe_violated
#print axioms Rocketry.Props.C122_shut_violated
#print axioms Rocketry.Props.C122_shown_violated
#print axioms Rocketry.Props.C122_null_violated
#print axioms Rocketry.Props.C122_own_logger_violated
#print axioms Rocketry.Props.C122_process_violated
#print axioms Rocketry.Props.C123_says_partial
#print axioms Rocketry.Props.C123_filter_partial
#print axioms Rocketry.Props.C123_brackets
#print axioms Rocketry.Props.C123_negation
#print axioms Rocketry.Props.C123_chain_violated
#print axioms Rocketry.Props.C123_order_violated
#print axioms Rocketry.Props.C124_call_partial
#print axioms Rocketry.Props.C124_kept
#print axioms Rocketry.Props.C124_given_violated
#print axioms Rocketry.Props.C124_materialize_violated
#print axioms Rocketry.Props.C124_session_violated
#print axioms Rocketry.Props.C124_asked_violated
#print axioms Rocketry.Props.C125_rollforward
#print axioms Rocketry.Props.C125_rollback
#print axioms Rocketry.Props.C125_contains
#print axioms Rocketry.Props.C125_union_partial
#print axioms Rocketry.Props.C125_union_violated
