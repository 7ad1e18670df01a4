{"id": "C01", "title": "A scoped group restores launch configurations and environment", "statement": "When a GroupAction(scoped=True) has been visited to completion without an exception, the launch configurations and the environment variables seen by the next sibling are exactly those seen before the group, whatever the group contained (set/unset/reset/append actions, declared arguments, includes, opaque functions, conditional actions and further groups nested to any depth), provided the contents do not themselves use unbalanced Push/Pop actions.", "quantifier": "every starting context, every tree of contained entities of any depth and width, every terminating visit", "why_tests_cant": "The contents of a group are an unbounded tree; tests exercise a few fixed shapes.", "anchors": ["launch/launch/actions/group_action.py:GroupAction.get_sub_entities", "launch/launch/actions/push_launch_configurations.py", "launch/launch/actions/pop_launch_configurations.py", "launch/launch/actions/push_environment.py", "launch/launch/actions/pop_environment.py", "launch/launch/launch_context.py:_push_launch_configurations,_pop_launch_configurations,_push_environment,_pop_environment"]}
{"id": "C02", "title": "A non-forwarding group starts from a clean slate", "statement": "With scoped=True and forwarding=False the contained actions start with exactly the launch configurations given to the group (evaluated in the enclosing scope) and nothing else, and with the environment the context had when it was created.", "quantifier": "every enclosing context, every launch_configurations mapping of the group (names and values are arbitrary substitutions)", "why_tests_cant": "Leakage of one configuration out of arbitrarily many, or evaluation in the wrong scope, shows only for particular mappings.", "anchors": ["launch/launch/actions/group_action.py:GroupAction.get_sub_entities", "launch/launch/actions/reset_launch_configurations.py:ResetLaunchConfigurations.execute", "launch/launch/actions/reset_environment.py"]}
{"id": "C03", "title": "An unscoped group is transparent", "statement": "Visiting GroupAction(scoped=False) has the same effect on launch configurations, environment, event queue and handlers as setting the group's launch_configurations one after another and then visiting the contained actions directly in place of the group; later siblings see the changes.", "quantifier": "every context and every list of contained entities", "why_tests_cant": "Transparency is an equality of two programs over all contexts.", "anchors": ["launch/launch/actions/group_action.py:GroupAction.get_sub_entities", "launch/launch/actions/set_launch_configuration.py"]}
{"id": "C04", "title": "Scope actions form a stack", "statement": "PushLaunchConfigurations followed by any modifications and the matching PopLaunchConfigurations restores the pushed values; the same holds for PushEnvironment/PopEnvironment; the two stacks do not influence each other; a pop with no matching push raises RuntimeError and changes nothing.", "quantifier": "every interleaving of pushes, pops and modifications on both stacks", "why_tests_cant": "The set of interleavings is infinite; tests check a handful of depths.", "anchors": ["launch/launch/launch_context.py:_push_environment,_pop_environment,_push_launch_configurations,_pop_launch_configurations", "launch/launch/actions/push_environment.py", "launch/launch/actions/pop_environment.py"]}
{"id": "C05", "title": "An exception inside a scoped group does not leak its scope", "statement": "If an action inside a scoped group raises, the launch configurations and environment of the enclosing scope are what later entities see.", "quantifier": "every group content, every raising action, every position", "why_tests_cant": "Requires reasoning over every crash point inside the group.", "anchors": ["launch/launch/actions/group_action.py:GroupAction.get_sub_entities", "launch/launch/utilities/visit_all_entities_and_collect_futures_impl.py", "launch/launch/launch_service.py:__process_event"]}
{"id": "C06", "title": "Entities are visited depth first in order", "statement": "Visiting an entity executes it, then all of its sub-entities completely and in list order, before its next sibling; each entity is executed exactly once per visit; asynchronous results are collected in the same order.", "quantifier": "every entity tree, every context", "why_tests_cant": "Order over arbitrary trees is an inductive statement.", "anchors": ["launch/launch/utilities/visit_all_entities_and_collect_futures_impl.py:visit_all_entities_and_collect_futures_impl", "launch/launch/launch_description.py:LaunchDescription.visit", "launch/launch/action.py:Action.visit"]}
{"id": "C07", "title": "Conditions gate execution and sub-entities", "statement": "An action whose condition evaluates to false has no effect at all: it is not executed, none of its sub-entities is visited, and no ExecutionComplete event is emitted for it. With a true or absent condition it is executed once. IfCondition and UnlessCondition on the same expression are exact complements and accept exactly the case-insensitive, whitespace-trimmed texts true/1/false/0, raising InvalidConditionExpressionError on everything else.", "quantifier": "every action, every context, every expression string", "why_tests_cant": "Ranges over all strings and all action trees.", "anchors": ["launch/launch/action.py:Action.visit", "launch/launch/conditions/evaluate_condition_expression_impl.py:evaluate_condition_expression", "launch/launch/conditions/if_condition.py", "launch/launch/conditions/unless_condition.py", "launch/launch/condition.py"]}
{"id": "C08", "title": "LaunchConfigurationEquals and NotEquals are complements", "statement": "For every context and expected value, LaunchConfigurationEquals(n, v) is true exactly when configuration n is set and equals the performed value v (or n is unset and v is None), and LaunchConfigurationNotEquals is its negation.", "quantifier": "every context, name and expected value including None", "why_tests_cant": "All maps and all values.", "anchors": ["launch/launch/conditions/launch_configuration_equals.py", "launch/launch/conditions/launch_configuration_not_equals.py"]}
{"id": "C09", "title": "DeclareLaunchArgument post-condition", "statement": "After a DeclareLaunchArgument executes without error the named launch configuration is set; a value that was already set is never changed; the default is used exactly when it was not set; without value and default it raises RuntimeError; when choices were given the final value is one of them, otherwise an error is raised.", "quantifier": "every context, default, choice list", "why_tests_cant": "All values and choice lists.", "anchors": ["launch/launch/actions/declare_launch_argument.py:DeclareLaunchArgument.__init__,execute"]}
{"id": "C10", "title": "Include sets every passed argument before the included description runs", "statement": "IncludeLaunchDescription.execute either raises or returns entities that first set each passed launch argument, in order, in the including scope and then visit the included description; argument values are evaluated at that time so a later argument may refer to an earlier one; a declared argument of the included description that has no default, is not passed and is not declared conditionally makes it raise RuntimeError before any launch configuration is changed.", "quantifier": "every context, argument list and included description tree", "why_tests_cant": "Completeness of the required-argument check ranges over all description trees.", "anchors": ["launch/launch/actions/include_launch_description.py:IncludeLaunchDescription.execute", "launch/launch/launch_description.py:get_launch_arguments_with_include_launch_description_actions"]}
{"id": "C11", "title": "get_launch_arguments lists every declared argument once", "statement": "LaunchDescription.get_launch_arguments returns, without executing anything, every DeclareLaunchArgument reachable through descriptions, groups, includes and conditional sub-entities, once per name, keeping the first occurrence in depth-first order, stopping at a level once a ResetLaunchConfigurations is met; every returned action occurs in the tree.", "quantifier": "every description tree", "why_tests_cant": "Soundness and completeness of a traversal over all trees.", "anchors": ["launch/launch/launch_description.py:LaunchDescription.get_launch_arguments,get_launch_arguments_with_include_launch_description_actions"]}
{"id": "C12", "title": "Conditionally included arguments are flagged as such", "statement": "An argument that is only declared below some conditional action is reported as conditionally included, however many unconditional groups lie between the condition and the declaration.", "quantifier": "every nesting of conditional and unconditional actions", "why_tests_cant": "Depth of nesting is unbounded; the flag is lost only from depth two on.", "anchors": ["launch/launch/launch_description.py:get_launch_arguments_with_include_launch_description_actions"]}
{"id": "C13", "title": "A list of substitutions performs to the concatenation", "statement": "Performing a normalized list of substitutions gives the concatenation, in order, of the strings of its members; text performs to itself; performing never changes launch configurations or environment except for AnonName; the first failing member's error is the error of the list.", "quantifier": "every list of substitutions (nested to any depth) and every context", "why_tests_cant": "Unbounded nesting.", "anchors": ["launch/launch/utilities/perform_substitutions_impl.py", "launch/launch/substitutions/text_substitution.py", "launch/launch/substitutions/substitution_failure.py"]}
{"id": "C14", "title": "Lookup substitutions use the default exactly when the name is unset", "statement": "LaunchConfiguration and EnvironmentVariable perform to the current value when the name is set (even to an empty string), otherwise to the performed default, otherwise raise SubstitutionFailure.", "quantifier": "every context, name and default", "why_tests_cant": "All contexts.", "anchors": ["launch/launch/substitutions/launch_configuration.py", "launch/launch/substitutions/environment_variable.py"]}
{"id": "C15", "title": "Boolean substitutions compute boolean algebra", "statement": "Not/And/Or/Any/All perform to 'true' or 'false' according to the boolean function of their parsed operands, obey the De Morgan laws, and raise SubstitutionFailure when an operand is not a boolean text.", "quantifier": "every operand substitution and context", "why_tests_cant": "All operand values and list lengths.", "anchors": ["launch/launch/substitutions/boolean_substitution.py"]}
{"id": "C16", "title": "EqualsSubstitution and NotEqualsSubstitution are complementary", "statement": "For the same operands NotEquals performs to the negation of Equals; Equals is reflexive and symmetric on strings; missing operands compare as empty text.", "quantifier": "every pair of operands and context", "why_tests_cant": "All pairs of values; equality mixes string, boolean and float comparison.", "anchors": ["launch/launch/substitutions/equals_substitution.py", "launch/launch/substitutions/not_equals_substitution.py"]}
{"id": "C17", "title": "AnonName is stable and scoped like a configuration", "statement": "Two AnonName substitutions with the same name perform to the same text while no intervening scope pop removed the memo; performing one is idempotent.", "quantifier": "every context and every sequence of operations between the two", "why_tests_cant": "Depends on the history between two evaluations.", "anchors": ["launch/launch/substitutions/anon_name.py"]}
{"id": "C18", "title": "AppendEnvironmentVariable keeps every element", "statement": "Appending or prepending a value keeps the previous value as a contiguous part, adds exactly one separator when the variable was non-empty, sets exactly the value when the variable was unset, and touches no other variable; a sequence of appends yields the separator-joined list.", "quantifier": "every environment, every sequence of append/prepend actions", "why_tests_cant": "All sequences and values.", "anchors": ["launch/launch/actions/append_environment_variable.py"]}
{"id": "C19", "title": "ResetLaunchConfigurations keeps only what it names", "statement": "After ResetLaunchConfigurations(m) the configurations are exactly the performed entries of m, all of which were evaluated against the configurations as they were before the reset; if one evaluation fails nothing has been cleared.", "quantifier": "every context and mapping, every failing position", "why_tests_cant": "All mappings and failure positions.", "anchors": ["launch/launch/actions/reset_launch_configurations.py"]}
{"id": "C20", "title": "Events are handled in emission order, one at a time", "statement": "Events emitted to a launch service are processed in the order they were emitted, including those emitted before run() and those emitted while another event is being processed; no event is dropped or processed twice while the service keeps running.", "quantifier": "every program of handlers and emissions, every history", "why_tests_cant": "All histories of emissions.", "anchors": ["launch/launch/launch_context.py:emit_event_sync,emit_event,get_next_event", "launch/launch/launch_service.py:__process_one_event,_prepare_run_loop,emit_event"]}
{"id": "C21", "title": "Handlers of an event are those registered when it is dequeued", "statement": "An event is offered to exactly the handlers that were registered when its processing began, most recently registered first (handlers registered with append=True last); a handler registered while the event is processed does not see that event; a handler unregistered meanwhile still does.", "quantifier": "every set of handlers that register and unregister handlers", "why_tests_cant": "All self-modifying handler programs.", "anchors": ["launch/launch/launch_service.py:__process_event", "launch/launch/launch_context.py:register_event_handler,unregister_event_handler", "launch/launch/event_handler.py"]}
{"id": "C22", "title": "handle_once handlers fire at most once", "statement": "A handler created with handle_once=True is run for at most one event over the whole life of the service unless it is registered again.", "quantifier": "every sequence of events", "why_tests_cant": "All histories.", "anchors": ["launch/launch/event_handler.py:BaseEventHandler.handle"]}
{"id": "C23", "title": "Event locals are visible exactly while the event is handled", "statement": "While an event is handled and the resulting entities are visited, context.locals.event is that event; after the processing completes without an exception the locals are what they were before; nested data added by handlers does not escape.", "quantifier": "every handler program and nesting", "why_tests_cant": "All programs.", "anchors": ["launch/launch/launch_service.py:__process_event", "launch/launch/launch_context.py:_push_locals,_pop_locals,extend_locals", "launch/launch/event_handler.py:BaseEventHandler.handle"]}
{"id": "C24", "title": "Locals shadow globals consistently", "statement": "context.locals always equals the globals overridden by the locals extended so far, whatever the order of extend_globals, extend_locals, push and pop.", "quantifier": "every sequence of the five operations", "why_tests_cant": "A cache is kept; staleness depends on the operation history.", "anchors": ["launch/launch/launch_context.py:extend_locals,extend_globals,_push_locals,_pop_locals,_get_combined_locals"]}
{"id": "C25", "title": "ExecutionComplete is announced once and only when somebody listens", "statement": "After an action executed (even when it raised) exactly one ExecutionComplete event for it is queued if and only if some registered handler matches it at that time; for asynchronous actions it is queued when their future completes.", "quantifier": "every action, context and handler set", "why_tests_cant": "All handler sets and completion times.", "anchors": ["launch/launch/action.py:Action.visit", "launch/launch/event_handlers/on_execution_complete.py"]}
{"id": "C26", "title": "Shutdown is announced exactly once per run", "statement": "During one run of the service, however often and from whatever source shutdown is requested (shutdown(), SIGINT, idle, internal error), the service itself emits the Shutdown event at most once, and after the first request it reports shutting down until the run ends.", "quantifier": "every interleaving of shutdown requests, events and completions", "why_tests_cant": "All interleavings.", "anchors": ["launch/launch/launch_service.py:_shutdown,shutdown,run_async,__on_shutdown"]}
{"id": "C27", "title": "run returns only when idle", "statement": "Unless it is cancelled, run() returns only in a state where shutdown was requested, the event queue is empty, every future collected from visited entities is done and every registered completion future is done.", "quantifier": "every schedule of tasks and events", "why_tests_cant": "All schedules.", "anchors": ["launch/launch/launch_service.py:run_async,_is_idle,_prune_and_count_entity_future_pairs,_prune_and_count_context_completion_futures"]}
{"id": "C28", "title": "The return code reflects failures", "statement": "run() returns 0 exactly if no exception escaped the processing of an event or a collected asynchronous action, no unhandled exception reached the loop's exception handler and the run was not cancelled; otherwise it returns 1.", "quantifier": "every execution of the service", "why_tests_cant": "All executions and crash points.", "anchors": ["launch/launch/launch_service.py:run_async,_prepare_run_loop,_on_exception"]}
{"id": "C29", "title": "An idle service shuts down by itself only if asked to", "statement": "With shutdown_when_idle=False the service never emits Shutdown on its own account; with True it does so as soon as it is idle, and not while an event is queued or a future is pending.", "quantifier": "every schedule", "why_tests_cant": "All schedules.", "anchors": ["launch/launch/launch_service.py:run_async,_is_idle"]}
{"id": "C30", "title": "Timers fire at most once and never after cancel", "statement": "A TimerAction that is executed once performs its actions at most once; if cancel() is called before its period elapsed it never performs them and completes; once it has been executed its completion future gets resolved exactly once; timers with cancel_on_shutdown perform nothing after the Shutdown event was handled.", "quantifier": "every interleaving of execute, cancel, elapse, shutdown and event handling", "why_tests_cant": "Races between cancel and elapse.", "anchors": ["launch/launch/actions/timer_action.py:TimerAction"]}
{"id": "C31", "title": "A process action starts at most once and not after shutdown", "statement": "Executing an ExecuteLocal/ExecuteProcess action a second time raises; executing it when the context is already shut down starts no process; a process is started at most once plus the number of respawns.", "quantifier": "every order of execute, shutdown and respawn", "why_tests_cant": "All orders.", "anchors": ["launch/launch/actions/execute_local.py:ExecuteLocal.execute,__execute_process"]}
{"id": "C32", "title": "Process start and exit events alternate", "statement": "For one process action the emitted events form a sequence start, exit, start, exit, ...; every ProcessExited follows its own ProcessStarted with the same pid, and the reported return code is the one of that process.", "quantifier": "every schedule of process exits, respawns, signals and shutdown", "why_tests_cant": "All schedules.", "anchors": ["launch/launch/actions/execute_local.py:__execute_process"]}
{"id": "C33", "title": "Respawn obeys flag, limit and shutdown", "statement": "A process is restarted only if respawn is requested, the restart count is at most respawn_max_retries (when non-negative), and no shutdown was requested before the restart decision; with respawn=False it runs exactly once.", "quantifier": "every history of exits and shutdown requests, every limit", "why_tests_cant": "All histories; the race between shutdown and restart.", "anchors": ["launch/launch/actions/execute_local.py:__execute_process", "launch/launch/actions/execute_local.py:__init__"]}
{"id": "C34", "title": "No new process after shutdown was requested", "statement": "Once an action was asked to shut down (ShutdownProcess or Shutdown event handled) no further process is started by it.", "quantifier": "every schedule", "why_tests_cant": "The race window between the restart decision and the actual start.", "anchors": ["launch/launch/actions/execute_local.py:_shutdown_process,__execute_process"]}
{"id": "C35", "title": "Signals escalate in order and stop at exit", "statement": "When a running process is shut down it gets SIGINT (unless the shutdown comes from an interactive ctrl-c), SIGTERM only after sigterm_timeout and SIGKILL only after sigterm_timeout + sigkill_timeout; no signal is delivered after its exit was observed; shutting down twice sends SIGINT once.", "quantifier": "every schedule of exit, timers and shutdown requests", "why_tests_cant": "All schedules.", "anchors": ["launch/launch/actions/execute_local.py:_shutdown_process,__on_signal_process_event,__get_shutdown_timer_actions,__get_sigint_event,__on_shutdown"]}
{"id": "C36", "title": "Cleanup happens exactly once", "statement": "The completion future of a process action is resolved exactly once, after the last exit when no restart follows (or after the start failed), and after it neither timers nor handlers of the action act.", "quantifier": "every schedule including failures to start", "why_tests_cant": "All schedules and failure points.", "anchors": ["launch/launch/actions/execute_local.py:__cleanup,__execute_process,execute"]}
{"id": "C37", "title": "Logged process output does not depend on chunking", "statement": "The sequence of complete lines logged for stdout (and for stderr) of a process depends only on the concatenation of the received bytes, not on how the bytes were split into events; nothing is lost, duplicated or reordered and the unterminated rest is logged at exit.", "quantifier": "every byte sequence and every splitting of it into chunks", "why_tests_cant": "All splittings.", "anchors": ["launch/launch/actions/execute_local.py:__on_process_output,__flush_buffers"]}
{"id": "C38", "title": "Cached output equals what was received", "statement": "With cached_output=True get_stdout()/get_stderr() return exactly the concatenation of what has been received on that stream so far.", "quantifier": "every interleaving of stdout and stderr chunks", "why_tests_cant": "All interleavings.", "anchors": ["launch/launch/actions/execute_local.py:__on_process_output_cached,get_stdout,get_stderr"]}
{"id": "C39", "title": "Process names are unique and executables are prepared as documented", "statement": "No two executables prepared by the same library instance get the same name, whatever their base names are; the command of a prepared executable is the words of the prefix (given, or configured and matching the filter) followed by the performed arguments, its name is the given name or the basename of its executable, and its environment is additional_env over env, or over the context's environment if env is not given.", "quantifier": "every sequence of prepared executables, every description and context", "why_tests_cant": "All sequences and descriptions.", "anchors": ["launch/launch/descriptions/executable.py:Executable.prepare"]}
{"id": "C40", "title": "Performed typed values have the requested type", "statement": "perform_typed_substitution(context, normalize_typed_substitution(v, t), t) either raises or returns an instance of t (or, for lists, a list with every member of the member type).", "quantifier": "every value, every supported data type, every context", "why_tests_cant": "All nested substitution values and types.", "anchors": ["launch/launch/utilities/type_utils.py:normalize_typed_substitution,perform_typed_substitution,get_typed_value,coerce_to_type,coerce_list,is_instance_of"]}
{"id": "C41", "title": "Values already of the requested type pass through", "statement": "Every value that is an instance of a supported type is accepted by normalize_typed_substitution for that type and performs to itself.", "quantifier": "every supported type and value", "why_tests_cant": "All values; fails for the empty list.", "anchors": ["launch/launch/utilities/type_utils.py:normalize_typed_substitution,is_instance_of"]}
{"id": "C42", "title": "Escaping in the substitution syntax round-trips", "statement": "Text in which every character that is special to the launch frontend is escaped by a backslash unescapes to the original text; unescaping text without backslashes is the identity.", "quantifier": "every string", "why_tests_cant": "All strings.", "anchors": ["launch/launch/frontend/parse_substitution.py:replace_escaped_characters"]}
{"id": "C43", "title": "Frontend command lines split like a shell", "statement": "For a cmd attribute the arguments produced are those of splitting the text like a shell (white space separates, quotation marks and backslashes quote), where a substitution is part of the word it touches, and no empty argument is invented. This holds for the command lines that launch files describe.", "quantifier": "every sequence of text and substitutions", "why_tests_cant": "All interleavings of spaces and substitutions.", "anchors": ["launch/launch/actions/execute_process.py:ExecuteProcess._parse_cmdline"]}
{"id": "C44", "title": "Unknown attributes and tags are rejected", "statement": "In XML and YAML launch files parsing an entity succeeds only if every attribute and child that was given was read by its parse method.", "quantifier": "every entity, every set of attributes and of reads", "why_tests_cant": "All attribute sets and access histories.", "anchors": ["launch_xml/launch_xml/entity.py", "launch_yaml/launch_yaml/entity.py", "launch/launch/frontend/parser.py:Parser.parse_action"]}
{"id": "C45", "title": "Loading a launch file tries each parser until one accepts", "statement": "Parser.load returns the result of the first parser that accepts the content, trying parsers registered for the file's extension before others; if none accepts it raises and names every attempted parser's error; the file is rewound between attempts.", "quantifier": "every set of registered parsers and every extension", "why_tests_cant": "All registries and outcomes.", "anchors": ["launch/launch/frontend/parser.py:Parser.load"]}
{"id": "C46", "title": "The output argument is interpreted consistently", "statement": "Every output value (str or dict) is normalized to a pair of destination sets for stdout and stderr plus 'both' as documented, and undocumented values raise ValueError; overrides by OVERRIDE_LAUNCH_PROCESS_OUTPUT apply to every process.", "quantifier": "every string and dictionary value", "why_tests_cant": "All inputs.", "anchors": ["launch/launch/logging/__init__.py:_normalize_output_configuration,get_output_loggers"]}
{"id": "C47", "title": "Signal handlers are restored after nested use", "statement": "After leaving nested AsyncSafeSignalManager contexts the signal wakeup fd and handlers of the process are those from before; while nested, a signal is delivered to each manager in the chain once.", "quantifier": "every nesting of managers and handler registrations", "why_tests_cant": "All nestings.", "anchors": ["launch/launch/utilities/signal_management.py:AsyncSafeSignalManager"]}
{"id": "C48", "title": "A launch description source is loaded once", "statement": "get_launch_description of one source evaluates its location and loads its file at most once successfully; later calls return the same description and location whatever the context is by then.", "quantifier": "every sequence of calls, contexts and failures", "why_tests_cant": "All histories.", "anchors": ["launch/launch/launch_description_source.py:LaunchDescriptionSource"]}
{"id": "C49", "title": "Sequential output assertions are sound and complete per chunk", "statement": "A sequence of assertInText calls succeeds exactly when the messages occur one after another without overlap in the captured chunks (each inside one chunk); a failing call does not move the position.", "quantifier": "every list of chunks and every sequence of messages", "why_tests_cant": "All inputs.", "anchors": ["launch_testing/launch_testing/asserts/assert_sequential_output.py:SequentialTextChecker"]}
{"id": "C50", "title": "Process lookup is exact", "statement": "resolveProcesses returns exactly the recorded processes that match, never an empty list, and more than one only when the caller allowed it; otherwise it raises.", "quantifier": "every set of recorded processes and every query", "why_tests_cant": "All sets and queries.", "anchors": ["launch_testing/launch_testing/util/proc_lookup.py:resolveProcesses"]}
{"id": "C51", "title": "Captured output partitions by process in order", "statement": "For every history of appended process output, the per-process output is the subsequence of the global output that belongs to that process, and the union over processes is everything.", "quantifier": "every history of track and append calls", "why_tests_cant": "All histories.", "anchors": ["launch_testing/launch_testing/io_handler.py:IoHandler"]}
{"id": "C52", "title": "Exit code assertion checks every selected process", "statement": "assertExitCodes passes exactly if every selected process has exited with an allowed code according to its latest recorded event.", "quantifier": "every history of process events and every query", "why_tests_cant": "All histories.", "anchors": ["launch_testing/launch_testing/asserts/assert_exit_codes.py", "launch_testing/launch_testing/proc_info_handler.py:ProcInfoHandler"]}
{"id": "C53", "title": "ReadyAggregator signals exactly at the nth call", "statement": "The parent ready function is called exactly once, by the nth call, for every interleaving of concurrent callers.", "quantifier": "every n and every interleaving", "why_tests_cant": "All interleavings of threads.", "anchors": ["launch_testing/launch_testing/ready_aggregator.py:ReadyAggregator"]}
{"id": "C54", "title": "Launch arguments on the command line parse losslessly", "statement": "parse_launch_arguments accepts name:=value for every non-empty name without ':=' and non-empty value, splits at the first ':=', keeps the last value per name and rejects malformed arguments.", "quantifier": "every list of strings", "why_tests_cant": "All strings.", "anchors": ["launch_testing/launch_testing/parse_arguments.py:parse_launch_arguments"]}
{"id": "C55", "title": "retry_on_failure runs the test until the first success", "statement": "A test marked retry_on_failure(times=n) is run at least once and at most n times, stops at the first success and reports failure only if all n runs failed.", "quantifier": "every n and every outcome sequence", "why_tests_cant": "All outcome sequences.", "anchors": ["launch_testing/launch_testing/markers.py:retry_on_failure"]}
{"id": "C56", "title": "launch_pytest runs shutdown tests after normal tests of their fixture", "statement": "After collection no shutdown test precedes a normal test that uses the same launch fixture; no test is lost or duplicated; the relative order of all normal tests is kept, and that of shutdown tests of one fixture.", "quantifier": "every list of collected tests", "why_tests_cant": "All lists.", "anchors": ["launch_pytest/launch_pytest/plugin.py:pytest_collection_modifyitems"]}
{"id": "C57", "title": "launch_pytest waits honour their timeout argument", "statement": "wait_for_output(timeout=None) waits until the condition holds; with a timeout it returns no later than the timeout and returns the truth of the condition.", "quantifier": "every timing of output events", "why_tests_cant": "All timings.", "anchors": ["launch_pytest/launch_pytest/tools/process.py:_wait_for_event_with_condition,_wait_for_event_with_condition_sync"]}
{"id": "C58", "title": "Text matching finds expected lines in order", "statement": "build_text_match and build_line_match with a list of expectations succeed only if the expectations are found one after another without overlap, and the reported range starts at the first match and ends at the last.", "quantifier": "every text and list of expectations", "why_tests_cant": "All inputs.", "anchors": ["launch_testing/launch_testing/tools/text.py:build_text_match,build_line_match"]}
{"id": "C59", "title": "A rejected second run leaves the running one alone", "statement": "If run() or run_async() is called while the service is running, the call raises RuntimeError and the run in progress goes on as if it had not been made.", "quantifier": "every point of every run at which a second run can be attempted", "why_tests_cant": "All histories before and after the rejected call.", "anchors": ["launch/launch/launch_service.py:_prepare_run_loop,run_async"]}
{"id": "C60", "title": "A requested shutdown ends the run", "statement": "Once shutdown was requested, no event is queued and every collected future and completion future is done, the run returns: some step of the run is always possible and leads to its end.", "quantifier": "every reachable state of the service, whatever the source of the request", "why_tests_cant": "Absence of deadlock ranges over all schedules.", "anchors": ["launch/launch/launch_service.py:run_async,shutdown,_shutdown"]}
{"id": "C61", "title": "IfElse performs only the branch it selects", "statement": "IfElseSubstitution evaluates its condition as a boolean; on true its text is that of the if value, on false that of the else value. The branch that is not selected is not performed, so neither its errors nor its effects on the context occur.", "quantifier": "every condition, pair of branches and context", "why_tests_cant": "Branches and conditions are arbitrary nested substitutions with effects.", "anchors": ["launch/launch/substitutions/if_else_substitution.py:IfElseSubstitution.perform"]}
{"id": "C62", "title": "PathJoin joins like the file system", "statement": "PathJoinSubstitution performs its parts in order and joins them: relative parts are joined with exactly one separator each, an absolute part drops everything before it, no part at all raises TypeError.", "quantifier": "every list of parts", "why_tests_cant": "All lists of strings, of any length.", "anchors": ["launch/launch/substitutions/path_join_substitution.py:PathJoinSubstitution.perform"]}
{"id": "C63", "title": "Substitutions that read the outside world", "statement": "LocalSubstitution and ThisLaunchFile/ThisLaunchFileDir read the locals of the innermost scope over the globals after any history of scopes. Command gives the output of the program that was run with the words of the command line, and fails with a substitution failure if it cannot be found, fails, or writes to standard error in mode 'fail'; an unknown mode fails without running anything. FindExecutable and FileContent give what is found or fail with a substitution failure.", "quantifier": "every history of the context's locals, every command, mode and behaviour of the programs and files", "why_tests_cant": "The outside world is arbitrary and histories of scopes are unbounded.", "anchors": ["launch/launch/substitutions/local_substitution.py", "launch/launch/substitutions/this_launch_file.py", "launch/launch/substitutions/command.py:Command.perform", "launch/launch/substitutions/find_executable.py", "launch/launch/substitutions/file_content.py"]}
{"id": "C64", "title": "XML and YAML launch files that say the same give the same launch description", "statement": "If an XML launch file and a YAML launch file have the same tree of tags, the same attributes with the same values after the XML type conversion, and the same nested entities, then parsing them gives the same actions and launch description, or the same kind of error; the choice of the markup has no influence.", "quantifier": "all pairs of entity trees of any size and depth, any substitution parser", "why_tests_cant": "tests compare single files; the claim relates two unbounded families of trees through two unrelated implementations of the entity interface", "anchors": ["launch_xml/launch_xml/entity.py:Entity", "launch_yaml/launch_yaml/entity.py:Entity", "launch/launch/frontend/parser.py:Parser.parse_description", "launch/launch/frontend/expose.py:instantiate_action", "launch/launch/actions/*.py:parse"]}
{"id": "C65", "title": "The action made from an entity is the one the entity describes", "statement": "When parsing an entity of a launch file succeeds, the action has the class its tag names, each of its parameters is the attribute or list of nested entities of the documented name (or the documented default if absent), its nested actions are those of the nested entities in the same order, and its condition is the if or unless attribute; an entity with both is an error.", "quantifier": "all entities of either markup, of any depth, and any substitution parser", "why_tests_cant": "tests parse a few files per tag; the claim is about every tree, including nesting of groups and timers at any depth", "anchors": ["launch/launch/action.py:Action.parse", "launch/launch/actions/*.py:parse", "launch/launch/frontend/expose.py:instantiate_action", "launch/launch/frontend/parser.py:Parser.parse_description"]}
{"id": "C66", "title": "Setting and unsetting variables affects exactly the named variable", "statement": "SetLaunchConfiguration and SetEnvironmentVariable give exactly the named configuration or variable the performed value; the Unset actions remove exactly the named one, so that it is not set at all (not set to an empty text), and do nothing if it is not set. After any sequence of them each name has the value of the last assignment to it and all others are as before. Names and values the operating system does not accept raise and change nothing.", "quantifier": "all sequences of set and unset actions, all names, values and contexts", "why_tests_cant": "sequences, names and prior contexts are unbounded; that nothing else changes cannot be shown by samples", "anchors": ["launch/launch/actions/set_launch_configuration.py:SetLaunchConfiguration.execute", "launch/launch/actions/unset_launch_configuration.py:UnsetLaunchConfiguration.execute", "launch/launch/actions/set_environment_variable.py:SetEnvironmentVariable.execute", "launch/launch/actions/unset_environment_variable.py:UnsetEnvironmentVariable.execute"]}
{"id": "C67", "title": "A launch file of unknown format is loaded by the first format that can load it", "statement": "AnyLaunchDescriptionSource tries the Python loader first exactly for files ending in .py and the frontend loader first otherwise, tries the other one only if the first fails, returns the description of the first that succeeds and raises InvalidLaunchFileError, with both causes, exactly if both fail. A source for one markup format parses with that format's parser.", "quantifier": "all file names, all behaviours of the two loaders", "why_tests_cant": "file names and loader failures are unbounded", "anchors": ["launch/launch/launch_description_sources/any_launch_file_utilities.py:get_launch_description_from_any_launch_file", "launch/launch/launch_description_sources/frontend_launch_description_source.py:FrontendLaunchDescriptionSource"]}
{"id": "C68", "title": "Output assertions see everything a process wrote to a stream", "statement": "assertInStdout and assertInStderr pass exactly if the processes can be resolved and, for some selected process, the concatenation of everything it wrote to that stream contains the expected text, however the output was cut into chunks and interleaved with other processes.", "quantifier": "all histories of output chunks, queries and expectations", "why_tests_cant": "chunking and interleaving depend on pipes and scheduling", "anchors": ["launch_testing/launch_testing/asserts/assert_output.py:assertInStream", "launch_testing/launch_testing/io_handler.py:IoHandler"]}
{"id": "C69", "title": "The output filter drops exactly the unwanted lines", "statement": "basic_output_filter(prefixes, patterns) returns the output without exactly those lines that begin with one of the prefixes or match one of the patterns; all other lines stay, with their line ends, in their order. Without arguments the prefixes are 'pid' and 'rc'.", "quantifier": "all outputs, lists of prefixes and patterns", "why_tests_cant": "outputs and line separators are unbounded", "anchors": ["launch_testing/launch_testing/tools/output.py:basic_output_filter"]}
{"id": "C70", "title": "expect_output compares what the user sees", "statement": "expect_output raises ValueError unless exactly one of text and lines and exactly one of expected_text and expected_lines is given. Otherwise it returns True exactly if the expectation is found (with strict: makes up everything, or follows without gaps) in the text with line ends normalised and escape sequences removed, or in the lines the text is split into.", "quantifier": "all outputs and expectations, all combinations of arguments", "why_tests_cant": "outputs and expectations are unbounded", "anchors": ["launch_testing/launch_testing/tools/output.py:expect_output", "launch_testing/launch_testing/tools/text.py"]}
{"id": "C71", "title": "A forwarding scoped group adds its configurations to those of the enclosing scope", "statement": "The contents of GroupAction(scoped=True, forwarding=True, launch_configurations=...) see the launch configurations and environment of the enclosing scope with the group's entries assigned on top, one after another, before any of the contents is visited.", "quantifier": "all contexts, entries, contents", "why_tests_cant": "entries may refer to one another and to any enclosing configuration", "anchors": ["launch/launch/actions/group_action.py:GroupAction.get_sub_entities", "launch/launch/actions/set_launch_configuration.py:SetLaunchConfiguration"]}
{"id": "C72", "title": "A Shutdown event shuts the run down, whoever emits it", "statement": "When the service has processed a Shutdown event, whoever emitted it and whatever other handlers do with it, the run is shutting down and context.is_shutdown is true, even if a handler raises.", "quantifier": "all histories of a launch service, programs, handlers", "why_tests_cant": "other handlers of the event may do anything, including raising, before the service's own handler sees it", "anchors": ["launch/launch/launch_service.py:LaunchService.__on_shutdown", "launch/launch/launch_service.py:LaunchService._process_one_event"]}
{"id": "C73", "title": "An event handler stays registered until it is removed", "statement": "At any time a handler is in the context's list exactly as often as it was registered and not removed, by unregistering or, for handle_once handlers, by having been run.", "quantifier": "all histories of a launch service, programs, handlers", "why_tests_cant": "registrations and removals interleave with event processing in unboundedly many ways", "anchors": ["launch/launch/launch_context.py:LaunchContext.register_event_handler", "launch/launch/launch_context.py:LaunchContext.unregister_event_handler", "launch/launch/event_handler.py:BaseEventHandler.handle"]}
{"id": "C74", "title": "A text with substitutions has at most one reading", "statement": "parse_substitution accepts exactly the texts of the substitution grammar whose substitutions can be constructed, and no text has two different readings.", "quantifier": "all texts, nesting depths, quotations and escapes", "why_tests_cant": "ambiguity of a grammar shows only for particular texts out of infinitely many", "anchors": ["launch/share/launch/frontend/grammar.lark:template", "launch/launch/frontend/parse_substitution.py:parse_substitution"]}
{"id": "C75", "title": "Any text and any substitution can be written down and is read back", "statement": "If texts are written with backslashes before special characters and arguments with blanks in quotation marks, then parse_substitution reads back what was written: the same texts, names and arguments at any depth.", "quantifier": "all lists of texts and substitutions with arguments at any depth", "why_tests_cant": "characters, escapes, quotation marks and nesting combine in infinitely many ways", "anchors": ["launch/share/launch/frontend/grammar.lark:template", "launch/launch/frontend/parse_substitution.py:ExtractSubstitution", "launch/launch/frontend/parse_substitution.py:replace_escaped_characters"]}
{"id": "C76", "title": "Literal text stays literal", "statement": "A text is one literal piece exactly if every '$(' in it comes after a backslash; it is then the text without the escaping backslashes. In particular text without '$(' and backslash stands for itself, and every text can be written with escapes.", "quantifier": "all texts", "why_tests_cant": "ranges over all texts", "anchors": ["launch/share/launch/frontend/grammar.lark:UNQUOTED_STRING", "launch/launch/frontend/parse_substitution.py:parse_substitution"]}
{"id": "C77", "title": "Exactly the exposed substitutions with the right number of arguments are accepted", "statement": "parse_substitution accepts a text of the grammar exactly if each substitution in it, at any depth, is one of the exposed names with a number of arguments that its class takes; an argument means what the same text means elsewhere.", "quantifier": "all texts, names, numbers of arguments, nesting depths", "why_tests_cant": "ranges over all texts; an unknown name or wrong number may be nested arbitrarily deep", "anchors": ["launch/launch/frontend/parse_substitution.py:ExtractSubstitution.substitution", "launch/launch/frontend/expose.py:instantiate_substitution", "launch/launch/substitutions/launch_configuration.py:LaunchConfiguration.parse", "launch/launch/substitutions/equals_substitution.py:EqualsSubstitution.parse", "launch/launch/substitutions/boolean_substitution.py:AnySubstitution.parse"]}
{"id": "C78", "title": "Substitutions in a text are replaced by their values", "statement": "Performing a parsed text gives the text with each substitution replaced by its value: $(var), $(env), $(not), $(and), $(or), $(equals), $(not-equals), $(if), $(eval), $(command), $(find-exec), $(file-content), $(filename), $(dirname) and $(launch_log_dir) mean what their documentation says, where every argument may contain substitutions itself.", "quantifier": "all texts, contexts, nesting depths", "why_tests_cant": "names and defaults nest to any depth and values are arbitrary", "anchors": ["launch/launch/frontend/parse_substitution.py:parse_substitution", "launch/launch/substitutions/launch_configuration.py:LaunchConfiguration", "launch/launch/substitutions/environment_variable.py:EnvironmentVariable", "launch/launch/substitutions/boolean_substitution.py", "launch/launch/substitutions/equals_substitution.py", "launch/launch/substitutions/not_equals_substitution.py", "launch/launch/substitutions/if_else_substitution.py", "launch/launch/substitutions/python_expression.py", "launch/launch/substitutions/command.py", "launch/launch/substitutions/find_executable.py", "launch/launch/substitutions/file_content.py", "launch/launch/substitutions/this_launch_file.py", "launch/launch/substitutions/this_launch_file_dir.py"]}
{"id": "C79", "title": "List attributes are split at their separator and wrong values are type errors", "statement": "get_attr on an XML element with name and name-sep gives exactly the pieces between the occurrences of the separator, found from left to right, so that joining them gives the attribute back and values without the separator are read as written; a value of the wrong type raises TypeError, not ValueError, unless the separator is empty. In YAML a list of values of the type asked for is given as it is, in its order.", "quantifier": "all texts, separators, types and entities", "why_tests_cant": "separators may overlap with themselves and with the values in infinitely many ways", "anchors": ["launch_xml/launch_xml/entity.py:Entity.get_attr"]}
{"id": "C80", "title": "Handlers for the events of an action see exactly these", "statement": "OnProcessExit, OnProcessStart, OnProcessIO and OnExecutionComplete with a target action handle exactly the events of that kind of that action, with a function those of the actions it accepts, and without a target those of all actions; every action that can have such events is accepted as target.", "quantifier": "all events, targets and registered handlers", "why_tests_cant": "events of any number of actions in any order", "anchors": ["launch/launch/event_handlers/on_action_event_base.py:OnActionEventBase", "launch/launch/event_handlers/on_process_exit.py:OnProcessExit", "launch/launch/event_handlers/on_process_start.py:OnProcessStart", "launch/launch/event_handlers/on_process_io.py:OnProcessIO", "launch/launch/event_handlers/on_execution_complete.py:OnExecutionComplete"]}
{"id": "C81", "title": "A handler has the entities visited that it was given", "statement": "A handler created with entities has all of them visited in order at each event it handles; one created with a function has what the function returns visited; OnProcessIO calls the function for the stream of the event.", "quantifier": "all collections of entities and events", "why_tests_cant": "collections of any kind and length", "anchors": ["launch/launch/event_handlers/on_action_event_base.py:OnActionEventBase.handle", "launch/launch/event_handlers/on_process_io.py:OnProcessIO", "launch/launch/launch_service.py:LaunchService.__process_event"]}
{"id": "C82", "title": "Process matchers find the processes they describe", "statement": "matches_pid accepts exactly the action whose latest process has the id, matches_name and matches_executable those with the name and executable; actions without a process are not matched, and a matcher never raises.", "quantifier": "all histories of preparing, starting and restarting processes", "why_tests_cant": "depends on the whole history of an action", "anchors": ["launch/launch/events/process/process_matchers.py", "launch/launch/events/matchers.py:matches_action", "launch/launch/actions/execute_local.py:ExecuteLocal.process_details"]}
{"id": "C83", "title": "Opaque coroutines are cancelled at shutdown", "statement": "When a Shutdown event is handled every coroutine started by an OpaqueCoroutine action that has not ended is cancelled, and not before.", "quantifier": "all histories of executions, ends and shutdown events", "why_tests_cant": "depends on the order of executions and events", "anchors": ["launch/launch/actions/opaque_coroutine.py:OpaqueCoroutine"]}
{"id": "C84", "title": "The description of a launch description shows everything in it", "statement": "LaunchIntrospector.format_launch_description gives one line for each action and event handler, and for each action an event handler describes, in order and indented by depth.", "quantifier": "all launch descriptions and depths of nested handlers", "why_tests_cant": "handlers nest to any depth", "anchors": ["launch/launch/launch_introspector.py", "launch/launch/event_handler.py:EventHandler.describe"]}
{"id": "C85", "title": "A launch test runs each test at its time and always ends", "statement": "launch_test runs the tests of the active processes while the launch runs and after ReadyToTest was executed, then shuts the launch down, and then runs the tests after shutdown, each test once; if the launch is not ready in time or ends early, the run is a failure; keep_alive prevents an end of the launch because it is idle.", "quantifier": "all interleavings of the launch's thread and the test thread, all causes of the end of a launch, all numbers of tests", "why_tests_cant": "the order of two threads and the end of the launch", "anchors": ["launch_testing/launch_testing/test_runner.py:_RunnerWorker"]}
{"id": "C86", "title": "A launch test succeeds exactly if every test of every run does", "statement": "The exit code is 0 exactly if no run died or raised an exception and no test of any run, before or after shutdown, failed, had an error or succeeded unexpectedly; every run has a result.", "quantifier": "all numbers of runs and all results of their tests", "why_tests_cant": "combinations of runs and results of any number", "anchors": ["launch_testing/launch_testing/test_runner.py:LaunchTestRunner.run", "launch_testing/launch_testing/test_result.py", "launch_testing/launch_testing/launch_test.py:run"]}
{"id": "C87", "title": "The xUnit report shows every test and every failure", "statement": "The report has a suite for each run and an element for each test with its class and name; everything that made the exit code non-zero is counted and shown with the test it belongs to.", "quantifier": "all results of runs", "why_tests_cant": "depends on all kinds of entries in results", "anchors": ["launch_testing/launch_testing/junitxml.py"]}
{"id": "C88", "title": "Tests get the parameters and objects they ask for", "statement": "parametrize makes one run for each value with each parameter set to its component, as with pytest; an argument of a test gets the object of that name; every test is run once, before or after shutdown depending on its class.", "quantifier": "all names, values, contexts and signatures", "why_tests_cant": "names and values are arbitrary", "anchors": ["launch_testing/launch_testing/parametrize.py:parametrize", "launch_testing/launch_testing/loader.py:TestRun.bind", "launch_testing/launch_testing/loader.py:_partially_bind_matching_args", "launch_testing/launch_testing/test_runner.py:LaunchTestRunner.validate"]}
{"id": "C89", "title": "Decorators of a test description take effect in any order", "statement": "keep_alive and ready_to_test_action_timeout apply to all runs of a test description, wherever they stand among its decorators.", "quantifier": "all lists of decorators", "why_tests_cant": "orders of any number of decorators", "anchors": ["launch_testing/launch_testing/markers.py:keep_alive", "launch_testing/launch_testing/ready_to_test_action_timeout.py", "launch_testing/launch_testing/parametrize.py:parametrize", "launch_testing/launch_testing/loader.py:TestRun"]}
{"id": "C90", "title": "Tests start when a ReadyToTest action is executed", "statement": "A test description with a ReadyToTest action is accepted, and the tests are started when one is executed, wherever it is.", "quantifier": "all launch descriptions and outcomes of conditions and events", "why_tests_cant": "descriptions nest to any depth", "anchors": ["launch_testing/launch_testing/loader.py:_normalize_ld", "launch_testing/launch_testing/actions/ready.py:ReadyToTest"]}
{"id": "C91", "title": "The legacy test service reports every failure in its return code", "statement": "LaunchTestService.run returns 0 exactly if the launch service does, every test process exits with 0, no fixture process dies early with a code that is not allowed, no other test raises and every output test finds its output; otherwise it returns the code of the launch service or of the first process that failed.", "quantifier": "all fixtures and tests and all histories of exits, completions, outputs and shutdowns", "why_tests_cant": "histories of any length in any order", "anchors": ["launch_testing/launch_testing/legacy/__init__.py:LaunchTestService.run", "launch_testing/launch_testing/legacy/__init__.py:LaunchTestService.add_test_action", "launch_testing/launch_testing/legacy/__init__.py:LaunchTestService.add_fixture_action", "launch_testing/launch_testing/legacy/__init__.py:LaunchTestService.add_output_test"]}
{"id": "C92", "title": "The legacy test service ends the launch when its tests are over", "statement": "The first failure of a test or a fixture asks the launch to shut down at once; it is also asked to when no test is under way any more, and not before.", "quantifier": "all fixtures and tests and all histories of events", "why_tests_cant": "histories of any length in any order", "anchors": ["launch_testing/launch_testing/legacy/__init__.py:LaunchTestService._fail", "launch_testing/launch_testing/legacy/__init__.py:LaunchTestService._succeed", "launch_testing/launch_testing/legacy/__init__.py:LaunchTestService._drop", "launch_testing/launch_testing/legacy/__init__.py:LaunchTestService._finish"]}
{"id": "C93", "title": "Legacy output tests find expected output however it is cut into pieces", "statement": "A lines test succeeds as soon as every expected line is part of a line printed, independently of the pieces in which output arrives; a regex test looks for its patterns in the output as printed; a filter removes exactly the lines with one of the prefixes or matching one of the patterns; a test made from a file expects the lines of the .txt file or, if there is none, the patterns of the .regex file.", "quantifier": "all outputs, pieces, expected lines, prefixes, patterns and files", "why_tests_cant": "outputs and pieces are arbitrary", "anchors": ["launch_testing/launch_testing/legacy/output.py:create_output_lines_test", "launch_testing/launch_testing/legacy/output.py:create_output_regex_test", "launch_testing/launch_testing/legacy/output.py:create_output_lines_filter", "launch_testing/launch_testing/legacy/output.py:create_output_test_from_file"]}
{"id": "C94", "title": "Tests of a launch_pytest fixture run before the shutdown of the launch, shutdown tests after it", "statement": "Tests of a launch fixture begin before the launch is asked to shut down; shutdown tests and the parts of generators after yield begin only after it is over. Every test is reported once. The part after yield is skipped if the part before it did not yield. A launch that fails makes a test or the fixture fail.", "quantifier": "all lists of tests, all outcomes of their code, all times and codes with which the launch ends", "why_tests_cant": "lists of tests and outcomes are arbitrary", "anchors": ["launch_pytest/launch_pytest/plugin.py:pytest_pyfunc_call", "launch_pytest/launch_pytest/plugin.py:wrap_coroutine", "launch_pytest/launch_pytest/plugin.py:wrap_generator", "launch_pytest/launch_pytest/plugin.py:wrap_asyncgen", "launch_pytest/launch_pytest/plugin.py:wrap_generator_fscope", "launch_pytest/launch_pytest/plugin.py:wrap_asyncgen_fscope", "launch_pytest/launch_pytest/fixture.py:finalize_launch_service"]}
{"id": "C95", "title": "launch_pytest starts tests when the launch description says so", "statement": "Without a ReadyToTest action tests are started in any case; with one they are started exactly when it is executed; with alternatives, when one of them is executed. If it is not executed, the tests are not reported as passed.", "quantifier": "all launch descriptions and all outcomes of conditions and events", "why_tests_cant": "descriptions of any depth", "anchors": ["launch_pytest/launch_pytest/plugin.py:get_ready_to_test_action", "launch_pytest/launch_pytest/plugin.py:pytest_fixture_setup"]}
{"id": "C96", "title": "A launch test run by pytest passes exactly when launch_test would succeed, and shows why it failed", "statement": "A module is collected as a launch test exactly if its generate_test_description is marked launch_test, and it carries all the marks of that function. Its item passes exactly if every run of the launch test was successful or skipped. If it fails, the text shown contains every failure and error with its whole message.", "quantifier": "all lists of runs and all results of their tests", "why_tests_cant": "numbers of runs, tests and failures are unbounded", "anchors": ["launch_testing/launch_testing/pytest/hooks.py:LaunchTestItem", "launch_testing/launch_testing/pytest/hooks.py:LaunchTestFailureRepr", "launch_testing/launch_testing/pytest/hooks.py:pytest_pycollect_makemodule", "launch_testing/launch_testing/pytest/hooks.py:pytest_launch_collect_makemodule"]}
{"id": "C97", "title": "A Test action interrupts its process at the timeout, not earlier, and not after it exited", "statement": "Apart from the timeout a Test behaves as an ExecuteProcess action. If its process still runs at the timeout, it is interrupted and the escalation begins; unless somebody else asks, no signal is sent earlier. After the process exited the timeout has no effect. Every process of the test has the timeout, and kill_timeout says when it is killed.", "quantifier": "all timeouts and all interleavings of the process, the timer, requests by others and events", "why_tests_cant": "schedules are unbounded", "anchors": ["launch_testing/launch_testing/actions/test.py:Test", "launch/launch/actions/timer_action.py:TimerAction", "launch/launch/actions/execute_local.py:ExecuteLocal._shutdown_process"]}
{"id": "C98", "title": "A launch file does what its tags say, in order, and nothing else", "statement": "Take any launch file that parses, with conditions, groups and includes nested as deeply as one likes. If launching it raises nothing, then exactly the actions whose conditions hold were executed, in the order of the file (an included file in the place of its include); every substitution was evaluated in the launch configurations and environment variables that the tags before it left; a scoped group leaves both as they were; and the messages logged and the shutdowns asked for are those of the tags. The file determines all this.", "quantifier": "all launch files, all files they include, all initial configurations and environments", "why_tests_cant": "nesting, sizes and the state that tags pass on to each other are unbounded", "anchors": ["launch/launch/frontend/parser.py:Parser.parse_description", "launch/launch/frontend/expose.py:expose_action", "launch/launch/launch_context.py:LaunchContext", "launch/launch/utilities/visit_all_entities_and_collect_futures_impl.py:visit_all_entities_and_collect_futures", "launch/launch/actions/group_action.py:GroupAction", "launch/launch/actions/include_launch_description.py:IncludeLaunchDescription"]}
{"id": "C99", "title": "What is written to the screen and to log files", "statement": "Each line of a process is written exactly once, in order, to each place its output configuration names: as it is to the screen and to the files of the process, and with its time before it to the launch log file. A message of any other logger is written once to each of its places in the current screen or log file format. Formats can be set at any time to `default`, `default_with_timestamp` (screen only) or any format string, an alias with a style is an error that changes nothing, and the environment variables OVERRIDE_LAUNCH_SCREEN_FORMAT and OVERRIDE_LAUNCH_LOG_FORMAT win. Messages below the level are not written.", "quantifier": "all histories of get_logger, get_output_loggers, format and level changes, resets and messages", "why_tests_cant": "formats set at any time interact with handlers shared by any number of loggers in any order", "anchors": ["launch/launch/logging/__init__.py:LaunchConfig", "launch/launch/logging/__init__.py:get_output_loggers", "launch/launch/logging/__init__.py:get_logger", "launch/launch/logging/handlers.py:with_per_logger_formatting"]}
{"id": "C100", "title": "Every launch has a log directory of its own", "statement": "However many launches start at the same time, on however many hosts with a common file system: each gets a log directory that was not there before and that no other uses. It is below $ROS_LOG_DIR, else $ROS_HOME/log, else ~/.ros/log. It stays the same until it is set or logging is reset, and all log files are in it. `latest` points to the latest of the directories; something else that is called `latest` is not touched.", "quantifier": "all schedules of the file system calls of any number of launches, all points at which they are killed, all contents of the file system, all values of the environment variables", "why_tests_cant": "races between file system calls of different processes cannot be produced on demand, and there are unboundedly many schedules", "anchors": ["launch/launch/logging/__init__.py:_get_logging_directory", "launch/launch/logging/__init__.py:_make_unique_log_dir", "launch/launch/logging/__init__.py:_renew_latest_log_dir", "launch/launch/logging/__init__.py:LaunchConfig.log_dir", "launch/launch/logging/__init__.py:LaunchConfig.get_log_file_path"]}
{"id": "C101", "title": "Waiting calls of a test end when they should, with the right result", "statement": "A call of assertWaitForStartup, assertWaitForShutdown, assertWaitFor (waitFor) of the output handler, or wait_for_shutdown and wait_for_output of a pytest process proxy ends as soon as what it waits for was reported, or at its timeout. Its result says whether what it waits for was so when it ended; it does not fail before the timeout. A process named by a part of its name is the only one reported that matches.", "quantifier": "all interleavings of reports of starts, exits and output, of calls by any number of threads, of wake-ups and of time, all conditions and timeouts", "why_tests_cant": "lost wake-ups and races between the launch thread and the test threads cannot be produced on demand", "anchors": ["launch_testing/launch_testing/proc_info_handler.py:ActiveProcInfoHandler", "launch_testing/launch_testing/io_handler.py:ActiveIoHandler", "launch_testing/launch_testing/asserts/assert_output.py:waitFor", "launch_testing/launch_testing/tools/process.py:ProcessProxy"]}
{"id": "C102", "title": "A name in launch files has one meaning, for ever", "statement": "What a tag or substitution name means never changes once it was exposed, whatever is exposed, parsed or loaded later. Exposing a different method under the name raises RuntimeError and changes nothing; exposing the same again is accepted. A meaning always comes from somebody who exposed it. Installed extensions are loaded once, one that fails is warned about and does not affect the others, and the order in which extensions and parser implementations are installed does not matter.", "quantifier": "all histories of uses of the decorators and of parsing, all sets of installed extensions and parsers in any order", "why_tests_cant": "the registries are global state that depends on the history of the process and on what is installed", "anchors": ["launch/launch/frontend/expose.py:expose_action", "launch/launch/frontend/expose.py:expose_substitution", "launch/launch/frontend/parser.py:Parser.load_launch_extensions", "launch/launch/frontend/parser.py:Parser.load_parser_implementations"]}
{"id": "C103", "title": "Fixtures of launch_pytest have the scope the launch fixtures of a module need", "statement": "In a module that uses launch_pytest, the event loop, the launch context and the launch service have the widest scope of the launch fixtures of that module, so every launch fixture can be set up, whatever scopes are used, how many there are and in which order they are defined. A fixture of that name that the module defines itself is never replaced unless it is marked as overridable. A launch fixture of a narrow scope gets a service of its own.", "quantifier": "all modules: all sequences of decorations with any scopes, interleaved with definitions of the module's own", "why_tests_cant": "the scopes result from a fold over all decorations of a module; tests have one or two decorations each", "anchors": ["launch_pytest/launch_pytest/fixture.py:fixture", "launch_pytest/launch_pytest/fixture.py:get_launch_context_fixture", "launch_pytest/launch_pytest/plugin.py:event_loop"]}
{"id": "C104", "title": "When run returns no process is left", "statement": "When LaunchService.run() returns, every process that was started by a process action of the launch has ended, its ProcessExited event was emitted, and no process action starts another process afterwards.", "quantifier": "all launch descriptions and programs, any number of process actions with any arguments, all interleavings of the service with signals, respawns, ends of processes, exceptions and shutdown requests", "why_tests_cant": "it is about the composition of the service with all its process actions under every schedule", "anchors": ["launch/launch/launch_service.py:LaunchService.run_async", "launch/launch/actions/execute_local.py:ExecuteLocal.execute", "launch/launch/actions/execute_local.py:ExecuteLocal.get_asyncio_future"]}
{"id": "C105", "title": "Everybody hears of every process before run returns", "statement": "When LaunchService.run() returns 0, the ProcessStarted and the ProcessExited event of every process of the launch, respawned ones included, have been handled, process by process in the order in which they happened; a handler registered before the first start and not removed has been called for each of them that it matches, in this order.", "quantifier": "all launch descriptions and programs, any number of process actions with any arguments, all interleavings of the service with signals, respawns, ends of processes and shutdown requests", "why_tests_cant": "a report that arrives while the service is about to end is lost only in some schedules, and no test can try all", "anchors": ["launch/launch/launch_service.py:LaunchService.run_async", "launch/launch/actions/execute_local.py:ExecuteLocal.__execute_process", "launch/launch/launch_context.py:LaunchContext.emit_event"]}
{"id": "C106", "title": "A StdoutReadyListener acts when its process has written the text", "statement": "A StdoutReadyListener performs its actions when its process has written the given text to stdout: not before, not for the output of other processes (unless no process was named) and not for stderr.", "quantifier": "all texts, all outputs of any number of processes, cut into pieces in any way", "why_tests_cant": "where the operating system cuts the output of a process depends on timing; a test sees one way of cutting", "anchors": ["launch_testing/launch_testing/event_handlers/stdout_ready_listener.py:StdoutReadyListener"]}
{"id": "C107", "title": "launch_process shuts its process down at the end of the block", "statement": "When the block of a `with launch_process(...)` statement is left and the process has not terminated, the process is shut down: it is sent SIGINT, and if it does not end SIGTERM and SIGKILL; when nothing is requested because the process terminated, no process is left.", "quantifier": "all arguments of the process action, all points at which the block is left, all interleavings with the start and end of the process, other requests and the service", "why_tests_cant": "whether the process is about to start, running, exiting or being respawned when the block is left depends on timing", "anchors": ["launch_testing/launch_testing/tools/process.py:launch_process", "launch_testing/launch_testing/tools/process.py:ProcessProxy", "launch/launch/actions/execute_local.py:ExecuteLocal"]}
{"id": "C108", "title": "A requested shutdown reaches every process", "statement": "Once a shutdown of the launch was requested (Ctrl-C, LaunchService.shutdown(), a Shutdown action or event), every process of the launch that runs or is about to be started is told to end: it is sent SIGINT (unless the terminal has sent it), and if it does not end SIGTERM and SIGKILL.", "quantifier": "all launch descriptions, event handlers and process actions, all moments of the request, all interleavings of the service, the processes, their timers and other events", "why_tests_cant": "which processes are starting, running, exiting or being respawned when the request comes, and in which order the events of all of them are handled, depends on timing", "anchors": ["launch/launch/launch_service.py:LaunchService", "launch/launch/actions/execute_local.py:ExecuteLocal", "launch/launch/launch_context.py:LaunchContext.emit_event_sync"]}
{"id": "C109", "title": "The exit code of launch_test tells what happened", "statement": "launch_test exits with 0 exactly if the test file can be used and all runs are fine (or only arguments were to be shown); with 1, and a report if one is wanted, if tests fail or a launch dies; with 2 if anything else goes wrong. Nothing is launched if any run of the file is not set up properly or if only arguments are to be shown.", "quantifier": "all test files, parameters, ends of launches and results of tests", "why_tests_cant": "the number of runs and the ways each can end are unbounded", "anchors": ["launch_testing/launch_testing/launch_test.py:run", "launch_testing/launch_testing/launch_test.py:main", "launch_testing/launch_testing/test_runner.py:LaunchTestRunner"]}
{"id": "C110", "title": "Runs and tests of a parametrized launch test can be told apart", "statement": "Each run of a parametrized test file has tests of its own, and runs with different parameters, and their tests, have different names.", "quantifier": "all parameters, classes and methods", "why_tests_cant": "parameters are arbitrary", "anchors": ["launch_testing/launch_testing/loader.py:TestRun", "launch_testing/launch_testing/loader.py:LoadTestsFromPythonModule", "launch_testing/launch_testing/parametrize.py:parametrize"]}
{"id": "C111", "title": "When a process that the launch needs exits, the launch is shut down", "statement": "If an event handler gives a Shutdown action for the exit of a process, as on_exit=Shutdown() and OnProcessExit do, then after that exit the launch is shut down and every other process that runs, or is about to be started, is sent SIGTERM and SIGKILL, or its timers for them run, unless it exits first.", "quantifier": "all launch descriptions, interleavings of processes, events and timers, and exit codes", "why_tests_cant": "the order in which exits, starts, other events and signals of several processes happen is up to the schedule", "anchors": ["launch/launch/actions/execute_local.py:ExecuteLocal.execute", "launch/launch/actions/shutdown_action.py:Shutdown", "launch/launch/event_handlers/on_process_exit.py:OnProcessExit", "launch/launch/launch_service.py:LaunchService"]}
{"id": "C112", "title": "Deferred actions are executed in the surroundings of the place where they are written", "statement": "The actions of a timer, and those of an event handler, are executed with what was in effect where the timer or handler stands in the launch files: the launch file they belong to (so that $(dirname) and $(filename) mean that file), the launch configurations and the environment, whatever the launch has done in the meantime.", "quantifier": "all launch descriptions, timers, sequences of events and schedules between the execution of a timer and its firing", "why_tests_cant": "between the execution of the timer and its firing the launch may process any number of events, include other files and enter and leave scopes", "anchors": ["launch/launch/actions/timer_action.py:TimerAction.execute", "launch/launch/actions/timer_action.py:TimerAction.handle", "launch/launch/event_handler.py:BaseEventHandler.handle", "launch/launch/launch_context.py:LaunchContext.extend_locals", "launch/launch/actions/include_launch_description.py:IncludeLaunchDescription.execute"]}
{"id": "C113", "title": "A launch file is accepted exactly if it is well written, and gives the actions it describes", "statement": "A launch file in XML or YAML is accepted if and only if its root is `launch` with a list of actions, every entity has a known tag, only the documented attributes and nested entities, with values of the documented types, and only nested actions that are themselves well written. The launch description then has exactly the actions that the file describes, in its order.", "quantifier": "all launch files of either format, of any size and depth of nesting, and all results", "why_tests_cant": "the set of launch files is infinite and nested without bound; that no well-written file is rejected cannot be seen from samples", "anchors": ["launch/launch/frontend/expose.py:instantiate_action", "launch/launch/frontend/parser.py:Parser.parse_description", "launch_xml/launch_xml/entity.py:Entity.get_attr", "launch_xml/launch_xml/entity.py:Entity.assert_entity_completely_parsed", "launch_yaml/launch_yaml/entity.py:Entity.get_attr", "launch_yaml/launch_yaml/entity.py:Entity.children", "launch/launch/actions/group_action.py:GroupAction.parse", "launch/launch/actions/execute_process.py:ExecuteProcess.parse", "launch/launch/actions/timer_action.py:TimerAction.parse", "launch/launch/actions/declare_launch_argument.py:DeclareLaunchArgument.parse"]}
{"id": "C114", "title": "Values and lists that may contain substitutions are read item by item", "statement": "parse_if_substitutions gives for a text without substitutions the text, for a text with substitutions its parts, for any other value the value, and for a list the list of what its items give, in order. It fails exactly with the error of the first text that cannot be parsed or, if there is none, with ValueError if two values left as they are have different types. A list of texts that is read, normalised and performed as a list of strings gives the texts with their substitutions replaced.", "quantifier": "all values, all lists of any length, all texts and contexts", "why_tests_cant": "lists are unbounded and the types of their items combine freely; a test checks a few lists", "anchors": ["launch/launch/frontend/parse_substitution.py:parse_if_substitutions", "launch/launch/frontend/parser.py:Parser.parse_if_substitutions", "launch/launch/utilities/type_utils.py:normalize_typed_substitution", "launch/launch/utilities/type_utils.py:perform_typed_substitution"]}
{"id": "C115", "title": "Every test gets the objects of its own run", "statement": "Whatever runs a parametrized launch test has and in whatever order their tests are given objects: the method, setUp, tearDown, setUpClass and tearDownClass of every test are called with the arguments that they name, each with the object last given to the tests of the same run and phase; attributes of self likewise. Giving objects to one run changes nothing in other runs or in the other phase, and never the test classes of the module.", "quantifier": "all modules of test classes, all numbers of runs, all sequences of calls that give objects to tests", "why_tests_cant": "isolation concerns all interleavings of runs over shared classes with inheritance; a test sees one order of two runs", "anchors": ["launch_testing/launch_testing/loader.py:TestRun.bind", "launch_testing/launch_testing/loader.py:TestRun.__init__", "launch_testing/launch_testing/loader.py:_make_loader", "launch_testing/launch_testing/loader.py:_bind_test_args_to_tests", "launch_testing/launch_testing/loader.py:_partially_bind_matching_args", "launch_testing/launch_testing/loader.py:_give_attribute_to_tests"]}
{"id": "C116", "title": "Expected output kept in files means its lines", "statement": "For a file with the extension .txt, whatever convention for line ends it uses: output meets what expected_output_from_file gives for it exactly if the lines of the file are contained in lines of the output, one by one and in this order (with strict: in its first lines, without gaps). In particular output that repeats the file is accepted, also if the file is empty. Only without such a file the file with the extension .regex is used, every line of which is a regular expression; without either there is a RuntimeError.", "quantifier": "all contents of files, all line ends, all outputs, strict or not, with and without removal of escape sequences", "why_tests_cant": "contents and outputs are unbounded texts; a test compares a few files with a few outputs", "anchors": ["launch_testing/launch_testing/tools/output.py:expected_output_from_file", "launch_testing/launch_testing/tools/output.py:expect_output", "launch_testing/launch_testing/tools/text.py:build_line_match"]}
{"id": "C117", "title": "The list of launch arguments says what the arguments are", "statement": "The text printed for --show-args tells which arguments a launch description declares: each name once and in the order of the declarations, with the description and the choices given, whether the argument is conditional, and the default value if there is one. No text can be read in two ways, and every launch argument of what will be run is in it.", "quantifier": "all launch descriptions, all names, descriptions, choices and default values", "why_tests_cant": "names, descriptions and default values are arbitrary texts and substitutions, and that a text has only one reading is a statement about all texts", "anchors": ["launch/launch/print_arguments.py:print_arguments_of_launch_description", "launch/launch/actions/declare_launch_argument.py:DeclareLaunchArgument", "launch_testing/launch_testing/launch_test.py:run"]}
{"id": "C118", "title": "The description of a substitution tells which one it is", "statement": "Two substitutions with the same description (as printed for default values and in messages) are the same: they give the same value in every context.", "quantifier": "all substitutions, nested to any depth, and all lists of them", "why_tests_cant": "substitutions are nested to any depth; a test compares the descriptions of a few of them", "anchors": ["launch/launch/substitutions/text_substitution.py:TextSubstitution.describe", "launch/launch/substitutions/launch_configuration.py:LaunchConfiguration.describe", "launch/launch/substitutions/environment_variable.py:EnvironmentVariable.describe", "launch/launch/substitutions/boolean_substitution.py:OrSubstitution.describe", "launch/launch/substitutions/equals_substitution.py:EqualsSubstitution.describe", "launch/launch/substitutions/path_join_substitution.py:PathJoinSubstitution.describe", "launch/launch/substitutions/python_expression.py:PythonExpression.describe"]}
{"id": "C119", "title": "A launch that is asked to shut down comes to its end", "statement": "After Ctrl-C, LaunchService.shutdown() or a Shutdown event, and if every process that is sent SIGKILL ends, all processes end, none is started again, and run() returns.", "quantifier": "all launch descriptions, event handlers and process actions, all schedules of the service, the processes and their timers, all times at which the shutdown is requested", "why_tests_cant": "the request can come at any time of any schedule: before a process is started, while it is started again, while it ends, during another shutdown; a test can try a few of these", "anchors": ["launch/launch/launch_service.py:LaunchService._shutdown", "launch/launch/launch_service.py:LaunchService.run_async", "launch/launch/actions/execute_local.py:ExecuteLocal.__shutdown_process", "launch/launch/actions/execute_local.py:ExecuteLocal.__execute_process", "launch/launch/actions/execute_local.py:ExecuteLocal.__cleanup"]}
{"id": "C120", "title": "KeyboardInterrupt does not change the result of run()", "statement": "However often and whenever KeyboardInterrupt is raised during LaunchService.run(), in the event loop or in tasks, the call goes on and does what it would have done otherwise: it returns at the same point, with the same return code, after the same requests to shut down for the same reasons. It returns 1 exactly if something failed or was cancelled.", "quantifier": "all histories of a run: all outcomes of the tasks waited for, in all orders, all points at which KeyboardInterrupt is raised, any number of times", "why_tests_cant": "KeyboardInterrupt can be raised at any bytecode of any task; a test can only send a few of them, and what it hides depends on which other task completes in the same round", "anchors": ["launch/launch/launch_service.py:LaunchService.run", "launch/launch/launch_service.py:LaunchService.run_async", "launch/launch/launch_service.py:LaunchService._shutdown"]}
{"id": "C121", "title": "Events targeted at processes reach exactly these processes", "statement": "A SignalProcess or ShutdownProcess event with a matcher for an action, a process id, a name or an executable reaches exactly the processes that match and run at that time: each of them gets the named signal once, no other process gets anything, and actions whose process has ended or was not started yet do not disturb this.", "quantifier": "all launches with any number of process actions, in all states of their lives including restarts, all matchers, all values of the signal, all reuses of process ids", "why_tests_cant": "which processes are running, ending or not yet started when the event is handled depends on the schedule; tests use one process that is running", "anchors": ["launch/launch/events/process/signal_process.py:SignalProcess", "launch/launch/events/process/shutdown_process.py:ShutdownProcess", "launch/launch/events/process/process_targeted_event.py:ProcessTargetedEvent", "launch/launch/events/process/process_matchers.py:matches_pid", "launch/launch/actions/execute_local.py:ExecuteLocal.__on_signal_process_event", "launch/launch/actions/execute_local.py:ExecuteLocal.__on_shutdown_process_event"]}
{"id": "C122", "title": "A process is given the configured time before signals escalate", "statement": "The timeouts before SIGTERM and SIGKILL are what the arguments sigterm_timeout and sigkill_timeout give when the escalation begins: without arguments the launch configurations of these names, and 5 seconds without these; SIGTERM is sent that long after the shutdown of the process began, SIGKILL after the sum of both, and the messages name these times.", "quantifier": "all arguments (texts, substitutions, lists), all contexts in which the escalation begins, all schedules of the timers", "why_tests_cant": "the values are texts made by substitutions and read by Python at the time of the shutdown, in a context that any action may have changed; tests use literal numbers", "anchors": ["launch/launch/actions/execute_local.py:ExecuteLocal.__get_shutdown_timer_actions", "launch/launch/actions/execute_local.py:ExecuteLocal._shutdown_process", "launch/launch/actions/timer_action.py:TimerAction._wait_to_fire_event"]}
{"id": "C123", "title": "What the parsers say about files is consistent", "statement": "Parser.is_filename_valid(f), get_parsers_from_filename(f) and get_file_extensions_from_parsers() agree: a name is valid if and only if it ends in a dot and one of the extensions, if and only if there is a parser for it, and these parsers are tried first; front ends that cannot be loaded do not count; the same extensions are valid for is_extension_valid and get_parser_from_extension.", "quantifier": "all sets of installed front ends, all file names", "why_tests_cant": "front ends are installed by other packages, with any extensions and in any order", "anchors": ["launch/launch/frontend/parser.py:Parser.is_filename_valid", "launch/launch/frontend/parser.py:Parser.get_parsers_from_filename", "launch/launch/frontend/parser.py:Parser.get_file_extensions_from_parsers", "launch/launch/frontend/parser.py:Parser.is_extension_valid", "launch/launch/frontend/parser.py:Parser.get_parser_from_extension"]}
{"id": "C124", "title": "The pytest plug-in uses the interfaces of the installed version of pytest", "statement": "Whatever version of pytest is installed, the plug-in finds out whether it is at least another one, comparing numbers, and imports files and makes collectors with the functions that this version has.", "quantifier": "all versions", "why_tests_cant": "only one version of pytest is installed where tests run", "anchors": ["launch_testing/launch_testing/pytest/hooks.py:_pytest_version_ge", "launch_testing/launch_testing/pytest/hooks.py:find_launch_test_entrypoint", "launch_testing/launch_testing/pytest/hooks.py:pytest_pycollect_makemodule", "launch_testing/launch_testing/pytest/hooks.py:LaunchTestModule.collect"]}
{"id": "C125", "title": "Formatters for single loggers", "statement": "After any sequence of setFormatterFor, unsetFormatterFor and setFormatter, a handler of launch.logging.handlers formats a record with the formatter last set for its logger, given by its name or as an object, if it was not unset since, and otherwise with the formatter of the handler; what is done for one logger does not change the others. The module has every public handler class of logging and logging.handlers in this form, everything else of logging.handlers, and its own functions.", "quantifier": "all handlers, loggers, formatters and sequences of operations, all contents of the modules of Python", "why_tests_cant": "the sequences of operations are unbounded, and the handler classes depend on the version of Python", "anchors": ["launch/launch/logging/handlers.py:with_per_logger_formatting", "launch/launch/logging/handlers.py:_module_wrapper"]}
{"id": "C126", "title": "Checks of the types of arguments", "statement": "ensure_argument_type passes exactly if the argument is an instance or a subclass of one of the types, whether given as one type or as several, and raises TypeError otherwise; is_a and is_a_subclass tell whether an object is an instance (or a subclass) of a class. So OpaqueFunction, OpaqueCoroutine, TimerAction, SignalProcess and EmitEvent reject arguments of other types when they are made.", "quantifier": "all hierarchies of classes, objects, classes as objects, lists and nested tuples of types", "why_tests_cant": "users define classes of events, entities and values of their own", "anchors": ["launch/launch/utilities/ensure_argument_type_impl.py:ensure_argument_type", "launch/launch/utilities/class_tools_impl.py:is_a", "launch/launch/utilities/class_tools_impl.py:is_a_subclass", "launch/launch/actions/emit_event.py:EmitEvent", "launch/launch/actions/opaque_function.py:OpaqueFunction", "launch/launch/actions/opaque_coroutine.py:OpaqueCoroutine", "launch/launch/actions/timer_action.py:TimerAction", "launch/launch/events/process/signal_process.py:SignalProcess"]}
{"id": "C127", "title": "Tests after shutdown and inheritance", "statement": "Every test of a module is run either while the processes are active or after shutdown, never both: after shutdown exactly if its class, or the nearest class it inherits from that has a mark, is marked with post_shutdown_test. Decorating anything but a class raises TypeError and has no effect; decorating a class changes nothing for classes that do not inherit from it.", "quantifier": "all hierarchies of test classes, all orders of decorations and assignments", "why_tests_cant": "hierarchies of test classes and the order in which they are decorated are up to the user", "anchors": ["launch_testing/launch_testing/decorator.py:post_shutdown_test", "launch_testing/launch_testing/loader.py:PreShutdownTestLoader", "launch_testing/launch_testing/loader.py:PostShutdownTestLoader"]}
