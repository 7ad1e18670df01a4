{
 "claims": [
  {
   "property": "C01",
   "status": "proved",
   "theorems": [
    "Verif.C01_scoped_group_restores",
    "Verif.C01_unconditional"
   ],
   "note": ""
  },
  {
   "property": "C02",
   "status": "partial",
   "theorems": [
    "Verif.C02_clean_slate_partial",
    "Verif.C02_environment_violated",
    "Verif.C02_environment_free"
   ],
   "note": "A non-forwarding group evaluates its configurations after the environment was reset (negation proved); the whole claim is proved for entries that do not read the environment, and everything else for all entries."
  },
  {
   "property": "C03",
   "status": "proved",
   "theorems": [
    "Verif.C03_unscoped_transparent",
    "Verif.C03_same_start",
    "Verif.C03_set_entry"
   ],
   "note": ""
  },
  {
   "property": "C04",
   "status": "proved",
   "theorems": [
    "Verif.C04_configurations_restored",
    "Verif.C04_environment_restored",
    "Verif.C04_independent",
    "Verif.C04_actions"
   ],
   "note": ""
  },
  {
   "property": "C05",
   "status": "partial",
   "theorems": [
    "Verif.C05_outer_scopes_kept_partial",
    "Verif.C05_exception_leaks_scope_violated"
   ],
   "note": "An exception inside a scoped group leaks its scopes (violated); how far the stack can grow is proved."
  },
  {
   "property": "C06",
   "status": "proved",
   "theorems": [
    "Verif.C06_depth_first",
    "Verif.C06_executed_once_in_order",
    "Verif.C06_static_order",
    "Verif.C06_deterministic"
   ],
   "note": ""
  },
  {
   "property": "C07",
   "status": "proved",
   "theorems": [
    "Verif.C07_false_no_effect",
    "Verif.C07_false_unchanged",
    "Verif.C07_condition_error",
    "Verif.C07_true_executes",
    "Verif.C07_unconditional",
    "Verif.C07_if_unless",
    "Verif.C07_accepted_texts"
   ],
   "note": ""
  },
  {
   "property": "C08",
   "status": "proved",
   "theorems": [
    "Verif.C08_equals",
    "Verif.C08_same_context",
    "Verif.C08_none_and_text"
   ],
   "note": ""
  },
  {
   "property": "C09",
   "status": "proved",
   "theorems": [
    "Verif.C09_post",
    "Verif.C09_errors"
   ],
   "note": ""
  },
  {
   "property": "C10",
   "status": "partial",
   "theorems": [
    "Verif.C10_returns_arguments_then_description",
    "Verif.C10_arguments_set_in_order",
    "Verif.C10_required_raises_partial",
    "Verif.C10_passed_accepted",
    "Verif.C10_required_violated",
    "Verif.C10_type_error_violated",
    "Verif.C10_single_entity_violated",
    "Verif.C10_on_exit_violated",
    "Verif.C10_enclosing_accepted",
    "Verif.C10_missing_raises_partial",
    "Verif.C10_unvisited",
    "Verif.C10_unvisited_unknown",
    "Verif.C10_visited"
   ],
   "note": "Violated by aliased nested include lists, by nested includes whose argument names need a context, by handlers given a single action (TypeError) and by arguments declared in on_exit of a process; the rest is proved."
  },
  {
   "property": "C11",
   "status": "partial",
   "theorems": [
    "Verif.C11_lists_first_declarations",
    "Verif.C11_terminates_partial",
    "Verif.C11_single_entity_violated",
    "Verif.C11_first_of_each"
   ],
   "note": "Proved for every description in which all handlers can be described; a handler given a single action instead of a list makes it raise TypeError (C11_single_entity_violated)."
  },
  {
   "property": "C12",
   "status": "partial",
   "theorems": [
    "Verif.C12_directly_conditional_partial",
    "Verif.C12_nested_violated",
    "Verif.C12_on_exit_violated"
   ],
   "note": "The conditional flag is lost from the second level of nesting on, and is not set for declarations in on_exit of a process (violated)."
  },
  {
   "property": "C13",
   "status": "proved",
   "theorems": [
    "Verif.C13_concat",
    "Verif.C13_single",
    "Verif.C13_effects",
    "Verif.C13_no_effect"
   ],
   "note": ""
  },
  {
   "property": "C14",
   "status": "partial",
   "theorems": [
    "Verif.C14_default_values",
    "Verif.C14_default_items",
    "Verif.C14_default_unused",
    "Verif.C14_launch_configuration",
    "Verif.C14_environment_variable_partial",
    "Verif.C14_environment_default_violated"
   ],
   "note": "EnvironmentVariable performs its default eagerly, so a failing default raises although the variable is set (C14_environment_default_violated)."
  },
  {
   "property": "C15",
   "status": "proved",
   "theorems": [
    "Verif.C15_not_value",
    "Verif.C15_and_or_value",
    "Verif.C15_not",
    "Verif.C15_and_or",
    "Verif.C15_any_all",
    "Verif.C15_de_morgan",
    "Verif.C15_de_morgan_any"
   ],
   "note": ""
  },
  {
   "property": "C16",
   "status": "partial",
   "theorems": [
    "Verif.C16_operands",
    "Verif.C16_complement",
    "Verif.C16_decision",
    "Verif.C16_symmetric",
    "Verif.C16_reflexive_partial",
    "Verif.C16_reflexivity_violated",
    "Verif.C16_none_is_empty"
   ],
   "note": "Reflexivity fails for 'nan'."
  },
  {
   "property": "C17",
   "status": "proved",
   "theorems": [
    "Verif.C17_across_group",
    "Verif.C17_forgotten_after_group",
    "Verif.C17_across_operations",
    "Verif.C17_stable",
    "Verif.C17_stable_across_substitutions",
    "Verif.C17_distinct"
   ],
   "note": ""
  },
  {
   "property": "C18",
   "status": "proved",
   "theorems": [
    "Verif.C18_append",
    "Verif.C18_sequence"
   ],
   "note": ""
  },
  {
   "property": "C19",
   "status": "proved",
   "theorems": [
    "Verif.C19_keeps_only_named",
    "Verif.C19_clears_all",
    "Verif.C19_failure_keeps_all"
   ],
   "note": ""
  },
  {
   "property": "C20",
   "status": "proved",
   "theorems": [
    "Verif.C20_fifo",
    "Verif.C20_nth_emitted_nth_handled",
    "Verif.C20_emit_is_last",
    "Verif.C20_one_at_a_time"
   ],
   "note": ""
  },
  {
   "property": "C21",
   "status": "partial",
   "theorems": [
    "Verif.C21_handlers_at_dequeue",
    "Verif.C21_prefix_on_error",
    "Verif.C21_registration_order",
    "Verif.C21_only_processing",
    "Verif.C21_unregistered_once_violated"
   ],
   "note": "A handle_once handler of the snapshot that another handler unregisters meanwhile makes the processing fail, so later handlers miss the event."
  },
  {
   "property": "C22",
   "status": "proved",
   "theorems": [
    "Verif.C22_at_most_once_per_registration",
    "Verif.C22_once"
   ],
   "note": ""
  },
  {
   "property": "C23",
   "status": "proved",
   "theorems": [
    "Verif.C23_locals_restored",
    "Verif.C23_event_visible",
    "Verif.C23_service_keeps_event",
    "Verif.C23_after_exception_leak"
   ],
   "note": ""
  },
  {
   "property": "C24",
   "status": "proved",
   "theorems": [
    "Verif.C24_locals_shadow_globals",
    "Verif.C24_pop_empty"
   ],
   "note": ""
  },
  {
   "property": "C25",
   "status": "proved",
   "theorems": [
    "Verif.C25_announced_once",
    "Verif.C25_only_announcement"
   ],
   "note": ""
  },
  {
   "property": "C26",
   "status": "partial",
   "theorems": [
    "Verif.C26_bound",
    "Verif.C26_at_most_once_partial",
    "Verif.C26_own_counts",
    "Verif.C26_stays_shutting_down",
    "Verif.C26_request_sets_flags",
    "Verif.C26_next_run",
    "Verif.C26_first_request",
    "Verif.C26_thread_race_violated"
   ],
   "note": "At most one Shutdown event plus one per call of shutdown() in other threads; a race with such a call does produce two (violated)."
  },
  {
   "property": "C27",
   "status": "partial",
   "theorems": [
    "Verif.C27_returns_only_when_idle_partial",
    "Verif.C27_zero_only_when_idle",
    "Verif.C27_collects",
    "Verif.C27_cancelled_future_violated",
    "Verif.C27_lost_future_violated"
   ],
   "note": "Fails if a collected future is cancelled, and futures of entities visited before an exception are not collected (both violated)."
  },
  {
   "property": "C28",
   "status": "partial",
   "theorems": [
    "Verif.C28_failure_returns_one",
    "Verif.C28_one_only_after_failure",
    "Verif.C28_return_code_partial",
    "Verif.C28_evFailed_means",
    "Verif.C28_failed_future_violated"
   ],
   "note": "Proved up to failures of futures: these are overlooked if they happen while an event is queued (violated)."
  },
  {
   "property": "C29",
   "status": "proved",
   "theorems": [
    "Verif.C29_emits_iff_idle",
    "Verif.C29_never_on_its_own",
    "Verif.C29_shuts_down_when_idle"
   ],
   "note": ""
  },
  {
   "property": "C30",
   "status": "partial",
   "theorems": [
    "Verif.C30_at_most_once",
    "Verif.C30_not_before_period",
    "Verif.C30_cancelled_never_fires",
    "Verif.C30_cancelled_before_execution",
    "Verif.C30_completes_partial",
    "Verif.C30_shutdown_partial",
    "Verif.C30_shutdown_queued_violated",
    "Verif.C30_period_error_violated",
    "Verif.C30_executed_twice_violated"
   ],
   "note": "Violated for actions executed twice, for periods that cannot be evaluated, and for a TimerEvent queued behind the Shutdown event."
  },
  {
   "property": "C31",
   "status": "proved",
   "theorems": [
    "Verif.C31_second_execute_raises",
    "Verif.C31_no_start_after_shutdown",
    "Verif.C31_at_most_one_start_per_restart"
   ],
   "note": ""
  },
  {
   "property": "C32",
   "status": "proved",
   "theorems": [
    "Verif.C32_alternate",
    "Verif.C32_reported_code",
    "Verif.C32_reported_start",
    "Verif.C32_handled_in_order"
   ],
   "note": ""
  },
  {
   "property": "C33",
   "status": "proved",
   "theorems": [
    "Verif.C33_restart_iff",
    "Verif.C33_limit",
    "Verif.C33_no_respawn"
   ],
   "note": ""
  },
  {
   "property": "C34",
   "status": "partial",
   "theorems": [
    "Verif.C34_respawn_race_violated",
    "Verif.C34_interrupt_lost_violated",
    "Verif.C34_deferred_violated",
    "Verif.C34_no_restart_after_shutdown_partial",
    "Verif.C34_deferred_begins_at_start"
   ],
   "note": "Violated: a restart that was decided but not begun, and a first start that was scheduled, still happen (the shutdown of the latter is postponed until the process was started). Proved: nothing else is started."
  },
  {
   "property": "C35",
   "status": "proved",
   "theorems": [
    "Verif.C35_escalation_reaches",
    "Verif.C35_interrupt_reaches",
    "Verif.C35_interrupt_at_most_once",
    "Verif.C35_interrupt_is_sent",
    "Verif.C35_signal_is_delivered",
    "Verif.C35_no_interrupt_for_ctrl_c",
    "Verif.C35_escalation_waits",
    "Verif.C35_only_escalation",
    "Verif.C35_no_signal_after_exit"
   ],
   "note": ""
  },
  {
   "property": "C36",
   "status": "partial",
   "theorems": [
    "Verif.C36_resolved_once",
    "Verif.C36_after_last_exit",
    "Verif.C36_nothing_after",
    "Verif.C36_no_timer_after",
    "Verif.C36_completes_on_failure",
    "Verif.C36_can_complete_partial",
    "Verif.C36_never_resolved_violated",
    "Verif.C36_handler_raises_violated"
   ],
   "note": "Violated: an emulate_tty configuration that is no boolean kills the coroutine, so the future is never resolved; a signal event for an action whose process could not be started raises. At most once, after the last exit, and nothing afterwards are proved."
  },
  {
   "property": "C37",
   "status": "partial",
   "theorems": [
    "Verif.C37_lines",
    "Verif.C37_chunking_partial",
    "Verif.C37_chunking_ascii",
    "Verif.C37_logged_at_exit",
    "Verif.C37_streams_independent",
    "Verif.C37_split_character_violated",
    "Verif.C37_late_output_glued_violated",
    "Verif.C37_late_output_unbuffered_violated",
    "Verif.C37_exit_after_close_raises_violated"
   ],
   "note": "Proved: while a process runs exactly the complete lines are logged, and over any number of respawns each process's rest is logged at its exit; independent of chunking at character boundaries (always, for ASCII). Fails: a boundary inside a multi-byte character; output arriving after the exit was handled is glued to the next process's output or logged chunk by chunk."
  },
  {
   "property": "C38",
   "status": "partial",
   "theorems": [
    "Verif.C38_concatenation",
    "Verif.C38_exact_partial",
    "Verif.C38_error_unless_cached",
    "Verif.C38_split_character_violated",
    "Verif.C38_logged_at_exit"
   ],
   "note": "Proved: the concatenation of the decoded chunks, through exits and shutdown; exact for chunks of whole characters. Fails for a character split over chunks."
  },
  {
   "property": "C39",
   "status": "partial",
   "theorems": [
    "Verif.C39_unique_names",
    "Verif.C39_prepared_with_prefix",
    "Verif.C39_prepared_default_prefix",
    "Verif.C39_no_prefix",
    "Verif.C39_default_name_violated"
   ],
   "note": "Everything proved except the default name: with a prefix it is the basename of the prefix command, not of the executable (C39_default_name_violated)."
  },
  {
   "property": "C40",
   "status": "proved",
   "theorems": [
    "Verif.C40_performed_has_type",
    "Verif.C40_round",
    "Verif.C40_typed_value",
    "Verif.C40_substitutions",
    "Verif.C40_lists",
    "Verif.C40_no_late_type_error",
    "Verif.C40_wrong_list_rejected",
    "Verif.C40_numbers_become_floats"
   ],
   "note": ""
  },
  {
   "property": "C41",
   "status": "partial",
   "theorems": [
    "Verif.C41_scalars",
    "Verif.C41_lists_partial",
    "Verif.C41_empty_list_violated",
    "Verif.C41_bool_as_int_violated",
    "Verif.C41_mixed_violated",
    "Verif.C41_order_violated"
   ],
   "note": "Scalars and lists of exactly the member type pass; violated by the empty list (other than of strings), by booleans in lists of ints and by mixed lists without a requested type."
  },
  {
   "property": "C42",
   "status": "proved",
   "theorems": [
    "Verif.C42_round_trip",
    "Verif.C42_identity",
    "Verif.C42_fixed_iff"
   ],
   "note": ""
  },
  {
   "property": "C43",
   "status": "partial",
   "theorems": [
    "Verif.C43_unclosed_rejected",
    "Verif.C43_splits_like_shell_partial",
    "Verif.C43_real_arguments",
    "Verif.C43_plain_words",
    "Verif.C43_error_iff",
    "Verif.C43_empty_argument_violated",
    "Verif.C43_empty_command_violated",
    "Verif.C43_quoted_substitution_violated",
    "Verif.C43_escaped_blank_violated",
    "Verif.C43_launch_file_partial"
   ],
   "note": "Proved for texts with ordinary white space that do not end in an escaped blank and are not lone white space; the exact error condition is proved. Fails: lone white space yields an empty argument, the empty command yields one empty argument, a quotation around a substitution raises, an escaped blank before a substitution separates."
  },
  {
   "property": "C44",
   "status": "partial",
   "theorems": [
    "Verif.C44_xml_all_read",
    "Verif.C44_xml_accepts",
    "Verif.C44_yaml_iff_all_read",
    "Verif.C44_only_documented",
    "Verif.C44_root_violated",
    "Verif.C44_choice_violated",
    "Verif.C44_value_error"
   ],
   "note": "Proved for every entity that is parsed through the parser; the root element and the choices of an argument are not checked, so unknown attributes of these are ignored (both violated)."
  },
  {
   "property": "C45",
   "status": "partial",
   "theorems": [
    "Verif.C45_first_accepting",
    "Verif.C45_none_accepts",
    "Verif.C45_order",
    "Verif.C45_offset_violated",
    "Verif.C45_not_seekable_violated",
    "Verif.C45_extension",
    "Verif.C45_reported_extension"
   ],
   "note": "Proved for files at their start that can be rewound; an open file at another position and a stream that cannot seek violate it."
  },
  {
   "property": "C46",
   "status": "proved",
   "theorems": [
    "Verif.C46_documented_places",
    "Verif.C46_rejects",
    "Verif.C46_once",
    "Verif.C46_idempotent",
    "Verif.C46_override"
   ],
   "note": ""
  },
  {
   "property": "C47",
   "status": "partial",
   "theorems": [
    "Verif.C47_transparent",
    "Verif.C47_restored",
    "Verif.C47_delivery_partial",
    "Verif.C47_handlers",
    "Verif.C47_unread_lost_violated",
    "Verif.C47_raising_handler_violated"
   ],
   "note": "Proved: nesting is transparent (wakeup fd and handlers restored) and every signal read is delivered to each manager of the chain. Violated parts are proved as counterexamples: unread data is lost on exit and a raising handler starves the outer managers."
  },
  {
   "property": "C48",
   "status": "partial",
   "theorems": [
    "Verif.C48_location",
    "Verif.C48_loaded_once",
    "Verif.C48_same_description",
    "Verif.C48_failure_retried",
    "Verif.C48_without_context",
    "Verif.C48_none_violated"
   ],
   "note": "Proved for launch files yielding a description; a file that yields None is loaded again each time (C48_none_violated)."
  },
  {
   "property": "C49",
   "status": "partial",
   "theorems": [
    "Verif.C49_process_partial",
    "Verif.C49_by_name",
    "Verif.C49_stderr_violated",
    "Verif.C49_nearby",
    "Verif.C49_nearby_violated",
    "Verif.C49_sound_complete",
    "Verif.C49_failure_keeps_position",
    "Verif.C49_cut_message_violated"
   ],
   "note": "Proved for messages inside one chunk; a message cut across chunks is missed (C49_cut_message_violated). Also covers the context manager assertSequentialStdout, which searches stderr too (C49_stderr_violated), and the lines shown in the failure message."
  },
  {
   "property": "C50",
   "status": "proved",
   "theorems": [
    "Verif.C50_exact",
    "Verif.C50_raises"
   ],
   "note": ""
  },
  {
   "property": "C51",
   "status": "proved",
   "theorems": [
    "Verif.C51_partition",
    "Verif.C51_union",
    "Verif.C51_by_action"
   ],
   "note": ""
  },
  {
   "property": "C52",
   "status": "proved",
   "theorems": [
    "Verif.C52_exact",
    "Verif.C52_running_fails",
    "Verif.C52_by_name"
   ],
   "note": ""
  },
  {
   "property": "C53",
   "status": "partial",
   "theorems": [
    "Verif.C53_at_most_once_by_nth",
    "Verif.C53_called_after_n",
    "Verif.C53_progress",
    "Verif.C53_zero_violated"
   ],
   "note": "With count 0 the parent function is never called (C53_zero_violated); for n >= 1 it is called at most once, and exactly once by the nth call under every interleaving."
  },
  {
   "property": "C54",
   "status": "proved",
   "theorems": [
    "Verif.C54_exact",
    "Verif.C54_rejects",
    "Verif.C54_lossless"
   ],
   "note": ""
  },
  {
   "property": "C55",
   "status": "partial",
   "theorems": [
    "Verif.C55_bounds",
    "Verif.C55_until_first_success_partial",
    "Verif.C55_subtests_partial",
    "Verif.C55_no_subtests_partial",
    "Verif.C55_subtest_failure_kept_violated",
    "Verif.C55_erases_errors_violated",
    "Verif.C55_plain_violated"
   ],
   "note": "Python < 3.11 and tests without sub-tests behave as stated (partial theorems); on Python >= 3.11 failures of sub-tests of earlier attempts are kept, errors of other tests are erased and a non-TestCase self raises AttributeError (violated)."
  },
  {
   "property": "C56",
   "status": "proved",
   "theorems": [
    "Verif.C56_same_tests",
    "Verif.C56_shutdown_last",
    "Verif.C56_normal_order",
    "Verif.C56_shutdown_order",
    "Verif.C56_nothing_to_do"
   ],
   "note": ""
  },
  {
   "property": "C57",
   "status": "partial",
   "theorems": [
    "Verif.C57_timeout_partial",
    "Verif.C57_returns_when_true",
    "Verif.C57_sync_false",
    "Verif.C57_async_false",
    "Verif.C57_no_timeout_violated",
    "Verif.C57_event_partial",
    "Verif.C57_already_exited_violated"
   ],
   "note": "With a timeout everything is proved; without one the wait raises TypeError, and waiting for an event that already happened is in vain (violated)."
  },
  {
   "property": "C58",
   "status": "partial",
   "theorems": [
    "Verif.C58_text_sound",
    "Verif.C58_line_ends",
    "Verif.C58_text_complete",
    "Verif.C58_lines_exact",
    "Verif.C58_text_string",
    "Verif.C58_line_string",
    "Verif.C58_rejected_violated"
   ],
   "note": "Soundness for every list; completeness for strings in text and for all expectations in lines. An empty list raises ValueError and a lone regular expression for lines raises TypeError (C58_rejected_violated)."
  },
  {
   "property": "C59",
   "status": "partial",
   "theorems": [
    "Verif.C59_rejected_run_violated",
    "Verif.C59_rejected_run_partial"
   ],
   "note": "Violated: the rejected call unsets the loop and the shutting-down flag of the running one."
  },
  {
   "property": "C60",
   "status": "partial",
   "theorems": [
    "Verif.C60_shutdown_ends_partial",
    "Verif.C60_dropped_coroutine_violated",
    "Verif.C60_thread_deadlock_violated"
   ],
   "note": "Proved unless a coroutine returned by shutdown() is dropped or other threads call shutdown(); both are shown to deadlock."
  },
  {
   "property": "C61",
   "status": "proved",
   "theorems": [
    "Verif.C61_value",
    "Verif.C61_if_else"
   ],
   "note": ""
  },
  {
   "property": "C62",
   "status": "proved",
   "theorems": [
    "Verif.C62_performs_parts",
    "Verif.C62_absolute_restarts",
    "Verif.C62_single_separators",
    "Verif.C62_no_parts"
   ],
   "note": ""
  },
  {
   "property": "C63",
   "status": "partial",
   "theorems": [
    "Verif.C63_local",
    "Verif.C63_this_launch_file",
    "Verif.C63_command",
    "Verif.C63_command_mode",
    "Verif.C63_command_quotation_violated",
    "Verif.C63_find_and_read",
    "Verif.C63_python_expression"
   ],
   "note": "An unclosed quotation in a command raises ValueError instead of a substitution failure (violated); the rest is proved."
  },
  {
   "property": "C64",
   "status": "proved",
   "theorems": [
    "Verif.C64_same_actions",
    "Verif.C64_same_descriptions"
   ],
   "note": ""
  },
  {
   "property": "C65",
   "status": "partial",
   "theorems": [
    "Verif.C65_says",
    "Verif.C65_description",
    "Verif.C65_scoped_substitution_violated",
    "Verif.C65_integer_period_violated"
   ],
   "note": "Proved for every exposed action; violated by substitutions in scoped/forwarding of a group, which are never performed, and by integer periods in YAML."
  },
  {
   "property": "C66",
   "status": "proved",
   "theorems": [
    "Verif.C66_set_configuration",
    "Verif.C66_unset_configuration",
    "Verif.C66_set_environment",
    "Verif.C66_set_environment_accepts",
    "Verif.C66_unset_environment",
    "Verif.C66_last_assignment"
   ],
   "note": ""
  },
  {
   "property": "C67",
   "status": "partial",
   "theorems": [
    "Verif.C67_first_loader",
    "Verif.C67_error",
    "Verif.C67_specific_parser_violated"
   ],
   "note": "Selection and failure proved; the claim that a format-specific source uses its own parser is violated (FrontendLaunchDescriptionSource ignores its parser argument)."
  },
  {
   "property": "C68",
   "status": "partial",
   "theorems": [
    "Verif.C68_whole_stream_partial",
    "Verif.C68_one_process",
    "Verif.C68_cut_character_violated"
   ],
   "note": "Proved for output whose chunks consist of whole UTF-8 characters; otherwise the assertions raise (C68_cut_character_violated)."
  },
  {
   "property": "C69",
   "status": "proved",
   "theorems": [
    "Verif.C69_filter",
    "Verif.C69_defaults"
   ],
   "note": ""
  },
  {
   "property": "C70",
   "status": "proved",
   "theorems": [
    "Verif.C70_exclusive",
    "Verif.C70_text",
    "Verif.C70_split_lines",
    "Verif.C70_lines"
   ],
   "note": ""
  },
  {
   "property": "C71",
   "status": "proved",
   "theorems": [
    "Verif.C71_forwarding_group"
   ],
   "note": ""
  },
  {
   "property": "C72",
   "status": "proved",
   "theorems": [
    "Verif.C72_shutdown_event"
   ],
   "note": ""
  },
  {
   "property": "C73",
   "status": "proved",
   "theorems": [
    "Verif.C73_handlers_balance",
    "Verif.C73_stays",
    "Verif.C73_unregister"
   ],
   "note": ""
  },
  {
   "property": "C74",
   "status": "proved",
   "theorems": [
    "Verif.C74_parser_is_grammar",
    "Verif.C74_unambiguous",
    "Verif.C74_parse_substitution"
   ],
   "note": ""
  },
  {
   "property": "C75",
   "status": "partial",
   "theorems": [
    "Verif.C75_round_trip_partial",
    "Verif.C75_expressible",
    "Verif.C75_normal_form",
    "Verif.C75_backslash_before_substitution_violated",
    "Verif.C75_backslash_argument_violated",
    "Verif.C75_nested_blank_violated"
   ],
   "note": "Proved with the exact condition on what can be written; violated for texts that end with a backslash before a substitution or at the end of an argument, and for blanks in arguments of substitutions nested in quotation marks."
  },
  {
   "property": "C76",
   "status": "proved",
   "theorems": [
    "Verif.C76_literal",
    "Verif.C76_plain",
    "Verif.C76_escaped"
   ],
   "note": ""
  },
  {
   "property": "C77",
   "status": "partial",
   "theorems": [
    "Verif.C77_accepted_iff_partial",
    "Verif.C77_any_all_violated",
    "Verif.C77_equals_empty_violated"
   ],
   "note": "Proved for the names that can be constructed; violated by any and all, whose parse methods pass a keyword their constructors do not have, and by empty arguments of equals."
  },
  {
   "property": "C78",
   "status": "proved",
   "theorems": [
    "Verif.C78_meaning",
    "Verif.C78_in_text",
    "Verif.C78_arguments",
    "Verif.C78_names"
   ],
   "note": ""
  },
  {
   "property": "C79",
   "status": "proved",
   "theorems": [
    "Verif.C79_split",
    "Verif.C79_pieces_unique",
    "Verif.C79_join",
    "Verif.C79_round_trip",
    "Verif.C79_conversion_error",
    "Verif.C79_list_attribute",
    "Verif.C79_yaml_list",
    "Verif.C79_yaml_text"
   ],
   "note": ""
  },
  {
   "property": "C80",
   "status": "partial",
   "theorems": [
    "Verif.C80_target",
    "Verif.C80_target_io",
    "Verif.C80_function",
    "Verif.C80_no_target",
    "Verif.C80_accepted_partial",
    "Verif.C80_start_of_local_violated",
    "Verif.C80_runs"
   ],
   "note": "Violated for ExecuteLocal targets of OnProcessStart; the rest is proved."
  },
  {
   "property": "C81",
   "status": "partial",
   "theorems": [
    "Verif.C81_entities_partial",
    "Verif.C81_checked",
    "Verif.C81_empty_list_violated",
    "Verif.C81_iterator_violated",
    "Verif.C81_none",
    "Verif.C81_streams",
    "Verif.C81_visited"
   ],
   "note": "Violated for empty lists and iterators of entities; proved for non-empty lists, single entities and functions."
  },
  {
   "property": "C82",
   "status": "partial",
   "theorems": [
    "Verif.C82_executed_once_partial",
    "Verif.C82_started",
    "Verif.C82_not_executed",
    "Verif.C82_action",
    "Verif.C82_not_started_violated",
    "Verif.C82_executed_again_violated"
   ],
   "note": "Proved for actions executed once, as soon as a process was started; violated before that and after a rejected second execution."
  },
  {
   "property": "C83",
   "status": "partial",
   "theorems": [
    "Verif.C83_cancelled_partial",
    "Verif.C83_stays",
    "Verif.C83_only_then",
    "Verif.C83_executed_twice_violated",
    "Verif.C83_executed_late_violated"
   ],
   "note": "Proved for actions executed once before the shutdown; violated for later and repeated executions."
  },
  {
   "property": "C84",
   "status": "partial",
   "theorems": [
    "Verif.C84_shows_partial",
    "Verif.C84_one_line_each",
    "Verif.C84_arguments",
    "Verif.C84_empty_violated",
    "Verif.C84_single_entity_violated"
   ],
   "note": "Violated for empty descriptions and for handlers with a single entity; the rest is proved."
  },
  {
   "property": "C85",
   "status": "partial",
   "theorems": [
    "Verif.C85_active_tests_partial",
    "Verif.C85_launch_over_violated",
    "Verif.C85_tests_after_shutdown",
    "Verif.C85_results",
    "Verif.C85_died",
    "Verif.C85_interrupt_violated",
    "Verif.C85_ends",
    "Verif.C85_dies_partial",
    "Verif.C85_unprintable_violated",
    "Verif.C85_unexited_violated",
    "Verif.C85_keep_alive",
    "Verif.C85_asked",
    "Verif.C85_timeout_partial",
    "Verif.C85_timeout_violated"
   ],
   "note": "Proved for all interleavings, except that active tests may go on after the end of the launch, and except for exceptions in the test thread and timeouts before the service runs (negations proved)."
  },
  {
   "property": "C86",
   "status": "partial",
   "theorems": [
    "Verif.C86_tests",
    "Verif.C86_merge",
    "Verif.C86_success",
    "Verif.C86_counts",
    "Verif.C86_exit",
    "Verif.C86_died",
    "Verif.C86_each_run_partial",
    "Verif.C86_later_runs_violated",
    "Verif.C86_exit_codes"
   ],
   "note": "The exit code is proved; violated: no results for runs after one that died."
  },
  {
   "property": "C87",
   "status": "partial",
   "theorems": [
    "Verif.C87_totals",
    "Verif.C87_runs",
    "Verif.C87_case",
    "Verif.C87_failures_shown_partial",
    "Verif.C87_errors_shown_partial",
    "Verif.C87_sub_test_violated",
    "Verif.C87_fixture_error_violated",
    "Verif.C87_unexpected_success_violated",
    "Verif.C87_names_partial",
    "Verif.C87_names_violated"
   ],
   "note": "Totals, suites and failures of test cases are proved; violated for sub-tests, fixtures, unexpected successes and names with dots."
  },
  {
   "property": "C88",
   "status": "partial",
   "theorems": [
    "Verif.C88_names",
    "Verif.C88_parameters_partial",
    "Verif.C88_validate",
    "Verif.C88_extra_values_violated",
    "Verif.C88_tuple_violated",
    "Verif.C88_active_arguments",
    "Verif.C88_shutdown_arguments",
    "Verif.C88_tests"
   ],
   "note": "Violated for values with too many components and single tuples; the rest is proved."
  },
  {
   "property": "C89",
   "status": "partial",
   "theorems": [
    "Verif.C89_decorators_partial",
    "Verif.C89_above_parametrize_violated"
   ],
   "note": "Proved for decorators below parametrize, negation proved for those above."
  },
  {
   "property": "C90",
   "status": "partial",
   "theorems": [
    "Verif.C90_required",
    "Verif.C90_started_partial",
    "Verif.C90_alternatives_violated",
    "Verif.C90_opaque_violated"
   ],
   "note": "Proved for descriptions that show one ReadyToTest action; violated for several and for those not described."
  },
  {
   "property": "C91",
   "status": "partial",
   "theorems": [
    "Verif.C91_exit_code_partial",
    "Verif.C91_output_violated",
    "Verif.C91_service_code",
    "Verif.C91_first_failure",
    "Verif.C91_never_executed"
   ],
   "note": "Proved for processes, fixtures and other tests; violated for output tests, which never fail."
  },
  {
   "property": "C92",
   "status": "partial",
   "theorems": [
    "Verif.C92_failure",
    "Verif.C92_all_decided_partial",
    "Verif.C92_cancelled_violated",
    "Verif.C92_not_early"
   ],
   "note": "Proved unless the future of the last test is cancelled (negation proved)."
  },
  {
   "property": "C93",
   "status": "partial",
   "theorems": [
    "Verif.C93_output_test",
    "Verif.C93_regex_test_partial",
    "Verif.C93_from_text_file",
    "Verif.C93_from_blank_file",
    "Verif.C93_from_regex_file",
    "Verif.C93_in_line",
    "Verif.C93_lines_test",
    "Verif.C93_regex_glued_violated",
    "Verif.C93_filter_partial",
    "Verif.C93_default_prefixes",
    "Verif.C93_extra_line_violated",
    "Verif.C93_patterns_violated",
    "Verif.C93_no_prefixes_violated"
   ],
   "note": "Lines tests are proved completely; violated for regex tests and for patterns of filters."
  },
  {
   "property": "C94",
   "status": "partial",
   "theorems": [
    "Verif.C94_order",
    "Verif.C94_stages",
    "Verif.C94_all_reported",
    "Verif.C94_second_part_partial",
    "Verif.C94_launch_failed_partial",
    "Verif.C94_launch_failed_violated",
    "Verif.C94_setup_failed_violated",
    "Verif.C94_no_yield_violated"
   ],
   "note": "Proved for runs that do not hang; violated for launches that end by themselves with an error, for parts whose fixtures fail and for generators that do not yield."
  },
  {
   "property": "C95",
   "status": "partial",
   "theorems": [
    "Verif.C95_default",
    "Verif.C95_one_partial",
    "Verif.C95_alternatives_violated",
    "Verif.C95_not_executed_violated"
   ],
   "note": "Proved without ReadyToTest and with one; violated for alternatives and if it is not executed."
  },
  {
   "property": "C96",
   "status": "partial",
   "theorems": [
    "Verif.C96_verdict",
    "Verif.C96_shown",
    "Verif.C96_failure_is_shown_partial",
    "Verif.C96_died_is_shown",
    "Verif.C96_silent_violated",
    "Verif.C96_text",
    "Verif.C96_width",
    "Verif.C96_width_empty",
    "Verif.C96_collected"
   ],
   "note": "Verdict, collection and text proved; what is shown is proved for test cases and sub-tests, violated for fixtures and unexpected successes."
  },
  {
   "property": "C97",
   "status": "partial",
   "theorems": [
    "Verif.C97_process",
    "Verif.C97_interrupt",
    "Verif.C97_interrupt_deferred",
    "Verif.C97_fires",
    "Verif.C97_not_before",
    "Verif.C97_no_timeout",
    "Verif.C97_cancelled",
    "Verif.C97_cancelled_by_shutdown",
    "Verif.C97_respawn_violated",
    "Verif.C97_kill_not_before",
    "Verif.C97_kill_timeout_violated",
    "Verif.C97_failed_start_violated",
    "Verif.C97_int_violated"
   ],
   "note": "Proved for the first process of a test with a float timeout; violated for respawned tests, kill_timeout, failed starts and ints. Timeouts given as substitutions are not modelled."
  },
  {
   "property": "C98",
   "status": "partial",
   "theorems": [
    "Verif.C98_determined",
    "Verif.C98_launch_file_partial",
    "Verif.C98_dirname_after_include_violated",
    "Verif.C98_shutdown_reason_violated"
   ],
   "note": "Proved for launch files that are visited without an exception, each action object once, with timers and processes doing at once what is assumed of them. Violated: the directory after an include, and the reason of a shutdown."
  },
  {
   "property": "C99",
   "status": "partial",
   "theorems": [
    "Verif.C99_places",
    "Verif.C99_process_line",
    "Verif.C99_line_everywhere_partial",
    "Verif.C99_in_order_partial",
    "Verif.C99_launch_line_partial",
    "Verif.C99_screen_formats",
    "Verif.C99_log_formats",
    "Verif.C99_override_partial",
    "Verif.C99_override_alias_violated",
    "Verif.C99_level",
    "Verif.C99_own_files_violated",
    "Verif.C99_get_logger_violated",
    "Verif.C99_process_called_launch_violated"
   ],
   "note": "Proved for all histories in which log file formats are set before processes start and process loggers are only asked for as output loggers. Violated otherwise; also by a process called launch, and by an environment variable whose value is an alias."
  },
  {
   "property": "C100",
   "status": "partial",
   "theorems": [
    "Verif.C100_directory",
    "Verif.C100_unknown_user",
    "Verif.C100_directory_clean",
    "Verif.C100_stable",
    "Verif.C100_set",
    "Verif.C100_files_partial",
    "Verif.C100_files_violated",
    "Verif.C100_names",
    "Verif.C100_not_shared",
    "Verif.C100_returned",
    "Verif.C100_is_directory",
    "Verif.C100_not_taken",
    "Verif.C100_new",
    "Verif.C100_unique_partial",
    "Verif.C100_latest_safe",
    "Verif.C100_latest_present",
    "Verif.C100_latest_alone",
    "Verif.C100_race_violated",
    "Verif.C100_latest_violated",
    "Verif.C100_killed_violated"
   ],
   "note": "Different processes never share a directory, whatever the schedule. Uniqueness is proved for schedules in which no two threads of one process look for a directory at the same time, and violated otherwise. `latest` is safe and present under all schedules without kills, but not always the latest."
  },
  {
   "property": "C101",
   "status": "partial",
   "theorems": [
    "Verif.C101_result",
    "Verif.C101_false_never",
    "Verif.C101_deadline",
    "Verif.C101_prompt_partial",
    "Verif.C101_proxy_state",
    "Verif.C101_shutdown",
    "Verif.C101_startup",
    "Verif.C101_startup_stable",
    "Verif.C101_by_name",
    "Verif.C101_output_partial",
    "Verif.C101_no_process",
    "Verif.C101_result_of_wait",
    "Verif.C101_proxy_streams_partial",
    "Verif.C101_proxy_output_partial",
    "Verif.C101_own",
    "Verif.C101_proxy_prompt_partial",
    "Verif.C101_lost_violated",
    "Verif.C101_any_output_violated",
    "Verif.C101_exited_violated",
    "Verif.C101_start_violated"
   ],
   "note": "Results are right and deadlines are kept under all schedules. That a call ends promptly is proved if no two calls wait for the same kind of event at the same time, and violated otherwise. `assertWaitForShutdown` without a process raises TypeError (modelled). Output assertions are about output whose chunks are whole characters. "
  },
  {
   "property": "C102",
   "status": "partial",
   "theorems": [
    "Verif.C102_stable",
    "Verif.C102_parse",
    "Verif.C102_provenance",
    "Verif.C102_expose_partial",
    "Verif.C102_substitutions_plain",
    "Verif.C102_extensions_partial",
    "Verif.C102_order_partial",
    "Verif.C102_loaded_once",
    "Verif.C102_parsers",
    "Verif.C102_action_again_violated",
    "Verif.C102_conflict_violated",
    "Verif.C102_substitution_first_violated"
   ],
   "note": "Stability and provenance are proved for all histories; independence of the order is proved for extensions that expose different names and violated otherwise; exposing the same again holds for substitutions and is violated for actions."
  },
  {
   "property": "C103",
   "status": "partial",
   "theorems": [
    "Verif.C103_scope",
    "Verif.C103_mismatch",
    "Verif.C103_sets_up_partial",
    "Verif.C103_order",
    "Verif.C103_own_kept",
    "Verif.C103_own_loop",
    "Verif.C103_narrow_violated",
    "Verif.C103_own_narrow_violated"
   ],
   "note": "Scopes and setting up are proved for all modules that bind none of the names, and for own event loops that are wide enough; violated for own event loops that are too narrow, and for the claim that narrow launch fixtures get a service of their own."
  },
  {
   "property": "C104",
   "status": "partial",
   "theorems": [
    "Verif.C104_waited",
    "Verif.C104_nothing_left_partial",
    "Verif.C104_single_run",
    "Verif.C104_cancelled_violated",
    "Verif.C104_raised_violated",
    "Verif.C104_second_run_violated"
   ],
   "note": "Proved for runs that return 0 (the single run of a service, or any run if no event's processing has raised before); violated for runs that were cancelled, and for processes started in a visit that raised."
  },
  {
   "property": "C105",
   "status": "proved",
   "theorems": [
    "Verif.C105_handled",
    "Verif.C105_whole_story",
    "Verif.C105_handler_called",
    "Verif.C105_cancelled_unheard"
   ],
   "note": "C105_cancelled_unheard shows the limit of the statement: a cancelled run (which returns 1) leaves reports unhandled."
  },
  {
   "property": "C106",
   "status": "partial",
   "theorems": [
    "Verif.C106_not_before",
    "Verif.C106_for_each_piece",
    "Verif.C106_other_output",
    "Verif.C106_any_process",
    "Verif.C106_by_lines_partial",
    "Verif.C106_not_before_text",
    "Verif.C106_cut_violated",
    "Verif.C106_character_cut_violated",
    "Verif.C106_again"
   ],
   "note": "Proved: never before the text was written; always if the output arrives line by line and the text is within a line."
  },
  {
   "property": "C107",
   "status": "partial",
   "theorems": [
    "Verif.C107_left_alone_partial",
    "Verif.C107_left_alone_violated",
    "Verif.C107_shut_down",
    "Verif.C107_interrupted",
    "Verif.C107_proxy"
   ],
   "note": "Proved for every action as far as the request is concerned, and for actions that do not respawn if nothing is requested."
  },
  {
   "property": "C108",
   "status": "partial",
   "theorems": [
    "Verif.C108_shutdown_reaches_partial",
    "Verif.C108_interrupted_partial",
    "Verif.C108_request_reaches_partial",
    "Verif.C108_raised_violated",
    "Verif.C108_late_violated",
    "Verif.C108_early_violated"
   ],
   "note": "Proved for all runs in which no handler raises, for process actions executed before the event is handled; SIGINT unless Ctrl-C was pressed. In the models of a single process action (C35, C107) exceptions of other handlers of an event are not considered; here they are."
  },
  {
   "property": "C109",
   "status": "partial",
   "theorems": [
    "Verif.C109_success",
    "Verif.C109_codes",
    "Verif.C109_no_launch",
    "Verif.C109_launched",
    "Verif.C109_report",
    "Verif.C109_failure",
    "Verif.C109_failure_partial",
    "Verif.C109_died_violated"
   ],
   "note": "Proved except that runs that end with an exception give 2. Exceptions that are not instances of Exception are not modelled."
  },
  {
   "property": "C110",
   "status": "partial",
   "theorems": [
    "Verif.C110_names_partial",
    "Verif.C110_names_violated",
    "Verif.C110_tests",
    "Verif.C110_apart"
   ],
   "note": "Names: proved for parameters without commas."
  },
  {
   "property": "C111",
   "status": "partial",
   "theorems": [
    "Verif.C111_everybody_told_partial",
    "Verif.C111_needed_process_partial",
    "Verif.C111_shuts_down_partial"
   ],
   "note": "Proved for runs in which no handler raises an exception and the handler is not removed; the model of the processes is that of C108."
  },
  {
   "property": "C112",
   "status": "partial",
   "theorems": [
    "Verif.C112_kept_at_execution",
    "Verif.C112_kept_while_visiting",
    "Verif.C112_kept_until_fired",
    "Verif.C112_timer_actions_partial",
    "Verif.C112_configuration_violated",
    "Verif.C112_event_violated",
    "Verif.C112_handler_violated"
   ],
   "note": "Proved for the locals (launch file, directory) kept by timers; launch configurations and environment are not kept, and other event handlers keep nothing: refuted by the violated theorems."
  },
  {
   "property": "C113",
   "status": "proved",
   "theorems": [
    "Verif.C113_accepted",
    "Verif.C113_accepted_iff",
    "Verif.C113_file_iff",
    "Verif.C113_on_exit_rejected",
    "Verif.C113_period_rejected",
    "Verif.C113_negative_rejected"
   ],
   "note": "Both directions, for entities and for whole files. Known oddities of the code are part of the specification of values (`TypedGiven`, `PeriodGiven`), and are refuted as violations of C65: a period written as an integer in YAML is rejected, substitutions in `scoped` are not performed."
  },
  {
   "property": "C114",
   "status": "proved",
   "theorems": [
    "Verif.C114_lists",
    "Verif.C114_shape",
    "Verif.C114_scalars",
    "Verif.C114_attributes",
    "Verif.C114_rejected",
    "Verif.C114_texts",
    "Verif.C114_texts_of_files",
    "Verif.C114_escaped"
   ],
   "note": "The substitutions of a file are those of the grammar (`parseSubstitution`), see C74-C78."
  },
  {
   "property": "C115",
   "status": "proved",
   "theorems": [
    "Verif.C115_tests",
    "Verif.C115_own_objects",
    "Verif.C115_module"
   ],
   "note": "Tests are instances of classes with a single chain of base classes; names of test methods begin with `test`, as unittest demands."
  },
  {
   "property": "C116",
   "status": "partial",
   "theorems": [
    "Verif.C116_lines",
    "Verif.C116_text_file_partial",
    "Verif.C116_own_output_partial",
    "Verif.C116_regex_file_partial",
    "Verif.C116_empty_file_violated"
   ],
   "note": "Holds for files with at least one line; for an empty file the comparison raises ValueError (`C116_empty_file_violated`). Decoding of the file is not modelled."
  },
  {
   "property": "C117",
   "status": "partial",
   "theorems": [
    "Verif.C117_one_reading",
    "Verif.C117_page_partial",
    "Verif.C117_lines_violated",
    "Verif.C117_shown",
    "Verif.C117_runs_violated",
    "Verif.C117_description"
   ],
   "note": "Holds for names, descriptions and default values of one line, and for one run; see the two violations."
  },
  {
   "property": "C118",
   "status": "partial",
   "theorems": [
    "Verif.C118_identifies_partial",
    "Verif.C118_values_partial",
    "Verif.C118_or_violated",
    "Verif.C118_default_violated",
    "Verif.C118_operands_violated",
    "Verif.C118_quotation_violated"
   ],
   "note": "Holds for texts without quotation marks and the classes described by their parts (`Sub.Readable`); the violations show why not for the rest."
  },
  {
   "property": "C119",
   "status": "partial",
   "theorems": [
    "Verif.C119_request_ends_partial",
    "Verif.C119_request_returns_partial",
    "Verif.C119_event_ends_partial",
    "Verif.C119_event_returns_partial",
    "Verif.C119_restart_violated"
   ],
   "note": "Proved for actions that are not about to start a process again (`Stoppable`), when no handler raises an exception and no process action is executed while the Shutdown event is handled; the violations of C108 and C119_restart_violated show why. That everything due is done (the hypothesis `AtRest`) is a fairness assumption about the event loop."
  },
  {
   "property": "C120",
   "status": "partial",
   "theorems": [
    "Verif.C120_interrupts_ignored_partial",
    "Verif.C120_one_only_after_failure",
    "Verif.C120_failure_counts_partial",
    "Verif.C120_failure_shuts_down_partial",
    "Verif.C120_masked_violated",
    "Verif.C120_hang_violated",
    "Verif.C120_one_reason",
    "Verif.C120_returns",
    "Verif.C120_others_logged"
   ],
   "note": "Proved for histories in which no KeyboardInterrupt is raised in the same round as another task fails, or while a failure is dealt with; both cases are violated. What the tasks do is not part of this model."
  },
  {
   "property": "C121",
   "status": "partial",
   "theorems": [
    "Verif.C121_only_targets",
    "Verif.C121_order",
    "Verif.C121_reaches_partial",
    "Verif.C121_by_pid_partial",
    "Verif.C121_by_action_partial",
    "Verif.C121_by_name_partial",
    "Verif.C121_shutdown_partial",
    "Verif.C121_not_started_violated",
    "Verif.C121_unrelated_violated",
    "Verif.C121_text_violated"
   ],
   "note": "Proved if every accepted action has started a process, the matcher raises for none, and the signal is a member of signal.Signals or the text SIGKILL; each condition is shown to be needed. Actions executed twice are not considered. POSIX only."
  },
  {
   "property": "C122",
   "status": "partial",
   "theorems": [
    "Verif.C122_timers",
    "Verif.C122_arguments",
    "Verif.C122_kill_after_partial",
    "Verif.C122_defaults",
    "Verif.C122_not_before",
    "Verif.C122_never_sent_violated",
    "Verif.C122_empty_violated",
    "Verif.C122_message",
    "Verif.C122_message_violated"
   ],
   "note": "The sum is proved for texts that are numbers also as Python source, Python's addition being a condition on the oracle; for other texts C122_timers says what is waited for."
  },
  {
   "property": "C123",
   "status": "partial",
   "theorems": [
    "Verif.C123_valid_iff",
    "Verif.C123_parsers",
    "Verif.C123_extensions",
    "Verif.C123_names",
    "Verif.C123_deprecated_violated"
   ],
   "note": "Everything is proved except that the deprecated methods know the same extensions, which is violated."
  },
  {
   "property": "C124",
   "status": "partial",
   "theorems": [
    "Verif.C124_at_least",
    "Verif.C124_import_partial",
    "Verif.C124_make_partial",
    "Verif.C124_prerelease_violated",
    "Verif.C124_short_violated"
   ],
   "note": "Proved for versions of three numbers; violated for others. Which functions a version of pytest has is stated in the theorems, not derived."
  },
  {
   "property": "C125",
   "status": "partial",
   "theorems": [
    "Verif.C125_own_formatter",
    "Verif.C125_handler_formatter",
    "Verif.C125_handler_classes",
    "Verif.C125_other_names",
    "Verif.C125_hidden_names",
    "Verif.C125_own_names_violated"
   ],
   "note": "Everything is proved except that the module has its own functions, which is violated. What formatters do with records is not modelled."
  },
  {
   "property": "C126",
   "status": "partial",
   "theorems": [
    "Verif.C126_classes",
    "Verif.C126_class_partial",
    "Verif.C126_sound",
    "Verif.C126_nested",
    "Verif.C126_is_a",
    "Verif.C126_is_a_subclass",
    "Verif.C126_opaque_function",
    "Verif.C126_opaque_coroutine",
    "Verif.C126_timer",
    "Verif.C126_signal_process",
    "Verif.C126_emit_partial",
    "Verif.C126_enumeration_violated",
    "Verif.C126_subclass_violated",
    "Verif.C126_emit_class_violated"
   ],
   "note": "Proved for instances; violated for subclasses, for an enumeration as the only type, and for classes of events given to EmitEvent. Overridden `__class__` attributes are not modelled."
  },
  {
   "property": "C127",
   "status": "proved",
   "theorems": [
    "Verif.C127_nearest",
    "Verif.C127_decorated",
    "Verif.C127_tests",
    "Verif.C127_not_class",
    "Verif.C127_others"
   ],
   "note": ""
  }
 ]
}