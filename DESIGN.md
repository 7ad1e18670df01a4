# Formal model of ros2/launch in Lean 4

## 1. What this is

`/verif/lean` holds a model of the Python packages `launch`, `launch_xml`, `launch_yaml`,
`launch_testing` and `launch_pytest` at the pinned commit in `/repo`, and theorems about it.
The code is modelled function by function. Python exceptions are values (`Except Err`), Python
dictionaries are insertion-ordered association lists, asynchronous code is a transition system
whose scheduler is unconstrained, and library or operating-system calls are parameters of the
model ("oracles") about which nothing is assumed unless a theorem says so.

Layout

* `Verif/Py/*`     Python data structures used by the models (dict, strings, errors).
* `Verif/Model/*`  the model; every definition cites the file and lines of `/repo` it models.
* `Verif/Spec/*`   small independent specifications, used in theorem statements.
* `Verif/Lemmas/*` helper lemmas.
* `Verif/Props/*`  the property theorems (names start with the property id) together with
  `example`s that show the hypotheses are met by concrete, non-trivial cases.

A theorem whose name ends in `_partial` proves only part of the English property; what is missing
is said in its comment and in `MANIFEST.json`. Where the code violates a property the violation
itself is proved by a theorem with `violated` or `witness` in its name, with a concrete run.

## 2. Trusted base

* Lean 4.33.0's kernel. Axioms: at most `propext`, `Classical.choice`, `Quot.sound`.
  No axioms are added, no `sorry`/`admit`, no `native_decide`/`bv_decide`.
* That the model mirrors the code. Each definition's comment cites what it models and says what is
  simplified. The list of modelled and unmodelled parts is in section 5.
* Oracles (unconstrained parameters): YAML parsing, `int()`/`float()` of text, `math.isclose`,
  regular expressions, Python `eval`, file system, process table, operating-system signals, clocks,
  the bodies of user callbacks (OpaqueFunction, OpaqueCoroutine, event handler callbacks).

## 3. Properties: what is modelled and how it is proved

| id | model | proof |
|----|-------|-------|
| C01 | `visit` over an entity tree with oracles for opaque functions, fuel for termination | induction on fuel with an invariant relating the two scope stacks before and after |
| C02 | same | symbolic execution of the group's sub-entity list; entries that do not read the environment give the same in contexts that differ only in it (induction over substitutions) |
| C03 | same | equality of two runs of `visit` |
| C04 | operations on `Ctx` | induction over operation sequences, well-bracketed sequences as a grammar |
| C05 | same as C01 | the code violates it: a concrete run shows the leak; the general law (how far the stack grows) is proved |
| C06 | trace-producing `visit` | induction, against an independent preorder specification |
| C07 | `Action.visit`, condition evaluation on all strings | case analysis |
| C08 | condition predicates | case analysis |
| C09 | `DeclareLaunchArgument` constructor and execute | case analysis |
| C10 | `IncludeLaunchDescription.execute` | symbolic execution, uses C11 |
| C11 | recursive traversal `process_entities` | mutual induction against a declarative occurrence relation |
| C12 | same | violated from depth two on: witness; positive theorem for depth one |
| C13-C17 | deep embedding of substitutions, `perform` | structural induction |
| C18, C19 | environment / configuration actions | induction over sequences |
| C20-C23, C25 | event loop: queue, handlers, `process_event` | invariants over runs, refinement to a FIFO specification |
| C24 | locals/globals with the cache | invariant by induction over operations |
| C26-C29 | service run loop as a transition system | inductive invariants over all reachable states |
| C30 | timer as a transition system | inductive invariant |
| C31-C36 | ExecuteLocal as a transition system together with its timers and the event queue | inductive invariants, trace specifications; C34 violated: witness trace |
| C37, C38 | output buffer functions on byte lists | induction over chunks, refinement to line splitting |
| C39 | executable preparation with the global counter | induction over sequences |
| C40, C41 | typed values, `normalize`/`perform` | case analysis and induction; C41 violated for the empty list |
| C42 | `replace_escaped_characters` on char lists | induction |
| C43 | `_parse_cmdline` with a whitespace tokenizer | induction against a declarative splitting; leading space violates it |
| C44 | XML/YAML entity access tracking | invariant over access sequences |
| C45 | `Parser.load` over an abstract registry | induction over the parser list |
| C46 | decision tables | case analysis |
| C47 | signal manager chain | invariants over nesting |
| C48 | source cache | induction over call histories |
| C49-C58 | launch_testing / launch_pytest functions | induction over lists and histories |
| C59, C60 | the service transition system with further callers of `run_async` and `shutdown` | inductive invariants, progress by case analysis; violations as runs |
| C61-C63 | `perform` | symbolic execution, induction over parts and scope histories |
| C64, C65 | all `parse` methods of the actions exposed by `launch` on XML and YAML entities | simulation between the two kinds of entities (mutual induction on fuel); symbolic execution of each `parse` |
| C66 | environment and configuration actions | induction over sequences of actions |
| C67 | loaders of AnyLaunchDescriptionSource | case analysis |
| C68 | recorded output as bytes, strict UTF-8 decoding (`Py/Utf8.lean`), `assertInStream` | induction over histories of events |
| C69, C70 | `basic_output_filter`, `expect_output` | induction over lines |
| C71 | `visit` of a forwarding group | symbolic execution of `visit`, induction over the configurations |
| C72, C73 | `process_event` and handler registration of the service | induction over the handlers and over all runs (ghost counters) |
| C74-C76 | grammar.lark as inductive relations, a deterministic parser, `replace_escaped_characters` | mutual induction over derivations (soundness, completeness, writing, range) |
| C79 | `str.split` and conversions in `get_attr` of XML | induction over the text against a declarative splitting |
| C77, C78 | `instantiate_substitution`, the `parse` methods of substitutions, `perform` | mutual induction over fragments and over derivations of meanings |
| C80, C81 | construction, matching and handling of OnActionEventBase and its subclasses, what the service visits | case analysis over matchers and events; C21 for runs |
| C82, C83 | process matchers over histories of `process_details`; OpaqueCoroutine as a transition system | induction over histories |
| C84 | the functions of launch_introspector.py | mutual induction over entities; loop invariant of `tree_like_indent` |
| C85 | both threads of `_RunnerWorker` as a transition system, with the launch service abstracted to running, asked to end, ended | an invariant of 28 clauses over all sequences of steps; from it statements about what precedes what |
| C86, C87 | results as folds of unittest's calls, the loop over runs, the exit code, the report | induction over calls and runs; `append` is a homomorphism |
| C88, C89, C90 | parametrize and argument binding over dictionaries, decorators over function objects with shared attribute dictionaries, the search for ReadyToTest | induction over names, decorators, descriptions |
| C91, C92 | `LaunchTestService`: the status of tests, the handlers that the methods register and histories of events | invariants over handlers and events: the status of a test is that of its last verdict, the codes are those of failures, an event that leaves no test under way emits Shutdown |
| C93 | splitting bytes into lines, the collating and matching functions, expected output in files, the filter with its iterator of patterns | induction over texts: a pattern is in a line iff it has no line end and is in the text; invariant over histories |
| C94 | the items of a generator test, `finalize_launch_service`, the functions that the plugin puts in place of tests, the run of a list of items | invariant over the observed log: asked only before shutdown items, exactly one end; bridge to the order proved in C56 |
| C95 | the search for ReadyToTest with the default action, the wait for its event | the actions found are those shown by the description (C85); negations with witnesses |
| C96 | `LaunchTestItem.runtest`, `repr_failure`, `LaunchTestFailureRepr`, collection of modules | equivalence with the exit code of launch_test (C86); membership in what is shown; the text contains each description; negations with witnesses |
| C97 | `Test.execute`, its timer and its handler on top of the models of process actions and timers | projection to runs of the process action (so C31 – C36 hold); invariants on the timer and on requests over all schedules; negations with witnesses |
| C98 | parsing of tags (C65), the constructors of the actions (`Model/Build.lean`), and visiting with all context effects | a big-step semantics of tags without stacks, helper actions and futures (`Spec/LaunchFile.lean`); induction over the fuel of `visit`: visiting what was built for tags is a derivation of the semantics; the semantics is deterministic; negations with witnesses |
| C99 | handlers with one formatter per logger, the setters of formats with their environment variables, levels and records (`Model/LogFormat.lean`, on top of the logging model of C46); format strings of the user and their validation are an oracle | texts as functions of the record and the place (`Spec/LogFormat.lean`); each operation is a list of small steps; invariants over all histories say which formatter a handler has for a logger; negations with witnesses |
| C100 | the file system calls of `log_dir` as a transition system with any number of workers, kills and changes by others (`Model/LogDir.lean`), names of directories as texts, `normpath` and `expanduser` (`Py/Path.lean`), the getter and setter as operations | names are injective; invariants over all schedules; an undisturbed worker by cases; paths by induction over components; negations with witnesses |
| C101 | the two synchronised handlers with their condition variables as a transition system: reports, calls, notifications, wake-ups, time (`Model/TestWait.lean`); the conditions of all waiting calls | invariants over all schedules; the waiting queues; negations with witnesses |
| C102 | the registries of `expose.py` with the stored wrappers, extensions as lists of uses of decorators, loading of extensions and parsers (`Model/Expose.lean`) | induction over histories; extensions that expose distinct names; sorted lists are unique; negations with witnesses |
| C103 | decorations as updates of the variables of the module, scopes ranked as by pytest (`Model/PytestScope.lean`) | induction over the statements of the module: the rank found is the maximum; negations with witnesses |
| C104 | the transition system of the service joined with one of a process action for each id at the futures (`Model/System.lean`) | invariant that links futures, collected futures and states of the actions; induction over visiting for what is collected; composition with C27, C28 and C36; negations with witnesses |
| C105 | the joint system of C104 in which what the process actions emit gets into the queue of the service (`Model/SystemEvents.lean`) | invariant that the log of each action is a subsequence of what was emitted; first-in-first-out (C20), idleness (C27), nothing left (C104), alternation (C32), the handlers at dequeueing (C21) and that they stay (C73) |
| C106 | the match and the handling of output events (`Model/ReadyListener.lean`) | induction over the pieces; UTF-8 is self-synchronising (`encode_infix`), so a text occurs in the bytes iff it occurs in the characters |
| C107 | the end of the block, what was recorded (`Model/LaunchProcess.lean`) on the model of process actions | invariant of every continuation: a request waits, or waits for the start, or the shutdown goes on (`Props/Escalation.lean`) |
| C108 | the service and any number of process actions with one queue of events and one flag `is_shutdown` (`Model/Joint.lean`) | simulation: each process action of the joint system does what the model of a single action does (`joint_reach`, `joint_run` in `Lemmas/JointSim.lean`); then the invariant of C107 and C35 |
| C109 | the command from the test file to the exit code and the report (`Model/LaunchTest.lean`), how each launch ends being arbitrary | induction over the runs; with the results of C85, C86 and C88 |
| C110 | names of runs and tests, classes of runs | joining texts without commas is injective; all runs of a usable file have the same parameters |
| C111 | the service and its processes with one queue (`Model/Joint.lean`), a handler that gives a Shutdown action (`Spec/Required.lean`) | an event that waits is handled before the queue is empty; handling it emits a Shutdown event; until then nothing happens to other processes, or their shutdown begins; then C108 |
| C112 | what a timer keeps of the context and the general handler for TimerEvents (`Model/TimerService.lean`) on top of the model of the service | induction over visiting and over the steps of the service: only the execution of a timer changes what it has kept; then the handler of the TimerEvent is followed to the visit of the timer's actions; the parts that fail are refuted by runs |
| C113 | the parse methods of all actions (`Model/Parse.lean`) on entities of either format; specification `Spec/Accept.lean`: `Says` (what an entity describes), `Documented` (only documented parts), `Formed` (parts of the right kind) | for acceptance, a program logic for the reads of an entity (`Gives`: the value read and what is recorded as read), then induction over what the file says; for the converse, inversion of the parse methods and induction over the depth |
| C114 | `parse_if_substitutions` on scalars and lists (`Model/ParseIf.lean`) with the set of types as a list without repetitions; specification `Spec/ParseIf.lean`: `Becomes`, `Uniform`, `TextsGive` | induction over the list with the set of types as invariant; evaluation through the theorems on typed substitutions (C40) and the grammar (C76) |
| C115 | classes and instances made by the loaders, renaming of parametrized tests, `TestRun.bind` on a heap of classes and tests (`Model/TestBind.lean`); specification `Spec/TestBind.lean`: `lastGiven`, `GetsArgs` | invariants on the heap: numbers of tests and classes of different runs are disjoint, what is bound to one suite frames all others; induction over runs and calls |
| C116 | `expected_output_from_file` over the contents of the two files (`Model/ExpectedFile.lean`), line ends of text mode included; `re.compile` is a parameter; specification `Spec/ExpectedFile.lean`: `WrittenAs`, `ContainedIn` | induction over the lines of the file for reading; the theorem on lines (C70) and induction over output and expectation for matching |
| C117 | `print_arguments_of_launch_description`, the description of a declared argument, and `--show-args` of launch_test for several runs (`Model/ShowArgs.lean`); specification `Spec/ShowArgs.lean`: `PageSays` relates a text to what a reader learns from it | lines of a text are unique; the lines of an argument cannot be confused with those of another; induction over the arguments; the theorem on declared arguments (C11) for which arguments are shown |
| C118 | `describe()` of all substitutions of the package launch as a mutual recursion; `repr` of lists of substitution objects is a parameter (`Model/ShowArgs.lean`); specification `Sub.Readable` | descriptions form a prefix code: mutual induction over substitutions with arbitrary continuations |
| C119 | the joint model of the service and all process actions (C108, `Model/Joint.lean`); specification `Spec/ShutdownEnds.lean`: which actions can be stopped (`Stoppable`), when nothing is due any more (`AtRest`), what a run waits for | an invariant of each action that ends (`Ending`), carried along every joint run by the simulation of C108; the futures of the service are those of the actions (`JointInv`, `RunInv.reachJoint`), so the run is idle and returns by C60 |
| C120 | the exceptions in the loop of `run_async` and in `run` (`Model/Interrupts.lean`); specification `Spec/Interrupts.lean`: the same history without interrupts, what is a failure, what is undisturbed | a simulation between the history and the one without interrupts, by induction on the history; characterisation of the exception that the loop over the completed tasks raises |
| C121 | the process actions of a launch with the handlers of targeted events (`Model/Targeted.lean`), one after the other; specification `Spec/Targeted.lean`: what a history says about the process an action runs | an invariant of the life of an action, relating its state to its history; induction on the list of actions |
| C122 | the arguments, the periods of the two timers as substitutions, their evaluation and the messages (`Model/Timeouts.lean`), with the models of substitutions, typed values and timers; specification `Spec/Timeouts.lean`: reading numbers, Python's addition as a condition on the oracle | calculation with the semantics of substitutions; for the timers an invariant of all runs |
| C123 | the class methods of Parser that answer questions about installed front ends (`Model/ParserQueries.lean`), on top of their loading and of `may_parse`; specification `Spec/ParserQueries.lean`: which front ends are installed, which files they are for | from the theorem about loaded parsers (C102) and the meaning of extensions (C45) |
| C124 | reading and comparing versions, and the choices made (`Model/PytestVersion.lean`); specification `Spec/PytestVersion.lean`: the order of versions of three numbers | splitting of texts at dots, cases of the comparison |
| C125 | handlers with formatters for single loggers as dictionaries, and the wrapper of the module (`Model/PerLogger.lean`); specification `Spec/PerLogger.lean`: the last operation about a logger | induction on the history from its end; induction on the names of the modules |
| C126 | the checks, with any relation of subclasses (`Model/ArgTypes.lean`), and constructors that use them; specification `Spec/ArgTypes.lean`: being an instance, a subclass, and a class mentioned by a type | induction on lists and on nested tuples of types |
| C127 | marks of classes and how they are inherited (`Model/PostMarks.lean`), on top of the loaders; specification `Spec/PostMarks.lean`: the mark given last, and the nearest one | the last operation on a class, by induction on the history; induction on the order of inheritance |

## 4. Disagreements between properties and code

Where the code does not do what the property says, the negation is proved with a concrete run or value (first column), and what does hold is
proved by the other theorems of the property. Line numbers are in the comments of the theorems and of the model.

| theorem | what happens |
|---------|--------------|
| C02_environment_violated | a non-forwarding group evaluates its `launch_configurations` after it reset the environment, so `EnvironmentVariable` in them sees the reset one |
| C05_exception_leaks_scope_violated | an exception inside a scoped group skips the pops: the scopes of the group stay |
| C10_type_error_violated, C10_required_violated | the check of an include mutates the list of a nested include's arguments (aliasing), and raises TypeError if a nested include cannot be loaded yet |
| C12_nested_violated | `get_launch_arguments_with_include_launch_description_actions` loses the conditional flag from the second nesting level on |
| C14_environment_default_violated | `EnvironmentVariable` performs its default first, even if the variable is set |
| C16_reflexivity_violated | `EqualsSubstitution('nan', 'nan')` is 'false' |
| C21_unregistered_once_violated | a `handle_once` handler that was unregistered while an event is processed raises ValueError; later handlers miss the event |
| C26_thread_race_violated | `shutdown()` from another thread may emit a second Shutdown event |
| C27_cancelled_future_violated, C27_lost_future_violated | a cancelled future ends the run; futures collected before an exception in the same visit are lost |
| C28_failed_future_violated | a future that fails while an event is queued is overlooked: the run returns 0 |
| C30_* | a timer executed twice fires twice; a period that cannot be evaluated; a TimerEvent queued behind Shutdown runs its actions after the cancellation |
| C34_respawn_race_violated, C34_deferred_violated, C34_interrupt_lost_violated | a process can be started after the shutdown; the handler for deferred shutdowns reacts to any process |
| C36_never_resolved_violated, C36_handler_raises_violated | an `emulate_tty` configuration that is no boolean leaves the completion future unresolved; a signal event for a process that failed to start raises |
| C37_*, C38_split_character_violated | output after the close is glued to, or not buffered with, the rest; characters split over chunks are decoded wrongly; an exit after the close raises |
| C39_default_name_violated | with a `prefix` the default name is that of the prefix program |
| C41_* | an empty list is rejected for `List[int]`; `True` counts as an int or not depending on its position; mixed lists |
| C43_* | empty arguments, escaped blanks and quoted substitutions of a command line |
| C44_root_violated, C44_choice_violated | unknown attributes of `<launch>` and of `<choice>` are ignored |
| C45_offset_violated, C45_not_seekable_violated | a file not at its start is read from different positions by the parsers; a stream that cannot seek |
| C47_unread_lost_violated, C47_raising_handler_violated | signals not read when the manager exits are lost; a raising handler keeps the signal from outer managers |
| C48_none_violated | a launch file that yields None is loaded again at each call |
| C49_cut_message_violated | a message cut across two chunks of output is not found |
| C53_zero_violated | `ReadyAggregator(fn, 0)` never calls `fn` |
| C55_* | with Python >= 3.11 failures of sub-tests of earlier attempts are kept and errors of other tests are erased; a function that is no method of a TestCase raises AttributeError |
| C57_no_timeout_violated, C57_already_exited_violated | `timeout=None` raises TypeError; waiting for an event that already happened is in vain |
| C58_rejected_violated | an empty list of expectations raises ValueError, a lone regular expression for lines TypeError |
| C59_rejected_run_violated | a rejected second run unsets the loop and the shutting-down flag of the running one |
| C60_dropped_coroutine_violated, C60_thread_deadlock_violated | the flag is set before the event is emitted: if the coroutine is dropped, or a thread waits for it, the run never ends |
| C63_command_quotation_violated | an unclosed quotation in a command raises ValueError, not a substitution failure |
| C65_scoped_substitution_violated, C65_integer_period_violated | `scoped="$(var x)"` is a truthy text; `period: 5` in YAML raises TypeError |
| C67_specific_parser_violated | `FrontendLaunchDescriptionSource` ignores its `parser` argument |
| C75_backslash_before_substitution_violated, C75_backslash_argument_violated | a text that ends with a backslash cannot be written before a substitution or at the end of an argument: the look-behind takes `\\$(` for an escaped `$` |
| C75_nested_blank_violated | inside quotation marks, arguments of substitutions cannot be quoted, so they cannot have blanks |
| C77_any_all_violated | `$(any ...)` and `$(all ...)` always raise TypeError: the constructors have no keyword `args` |
| C77_equals_empty_violated | `$(equals '' x)` compares x with the text `[]` |
| C80_start_of_local_violated | OnProcessStart rejects an ExecuteLocal action as target (OnProcessExit accepts it) |
| C81_empty_list_violated | a handler made with an empty list (e.g. a process with `on_exit=[]`) raises AttributeError at each event |
| C81_iterator_violated | a handler made with a generator of entities raises AttributeError at each event: the type check used the generator up |
| C82_not_started_violated | matches_pid raises KeyError for an action that was executed but whose process has not been started |
| C82_executed_again_violated | a second execution of the action is rejected only after `prepare` replaced `process_details`: the running process is not found any more |
| C83_executed_twice_violated | of an OpaqueCoroutine executed twice only the latest coroutine is cancelled |
| C83_executed_late_violated | an OpaqueCoroutine executed after the Shutdown event is not cancelled |
| C84_empty_violated | describing an empty launch description raises IndexError |
| C84_single_entity_violated | describing an EventHandler with a single entity raises TypeError |
| C85_launch_over_violated | if the launch ends early, tests of the active processes go on being run after the run was reported as failed |
| C85_interrupt_violated | if an exception (KeyboardInterrupt) leaves the runner of the active tests, the run ends with AttributeError: `_tests_completed` is set although there are no results |
| C85_timeout_violated | if the timeout passes before the service runs, the request to shut down is lost and the launch is never asked to end |
| C86_later_runs_violated | after a launch that died, the remaining runs are neither made nor reported |
| C87_sub_test_violated | failures of sub-tests are counted but shown with no test |
| C87_fixture_error_violated | errors in setUpClass and the like are counted but shown nowhere |
| C87_unexpected_success_violated | an unexpected success makes the run fail but the report does not show it |
| C87_names_violated | a parameter with a dot (1.5) is cut into classname and name |
| C88_extra_values_violated | components of a value for which there is no name are dropped silently |
| C88_tuple_violated | a single parameter whose value is a tuple gets its first component only |
| C89_above_parametrize_violated | keep_alive and ready_to_test_action_timeout above parametrize have no effect |
| C90_alternatives_violated | with a ReadyToTest action in each of two alternatives only the first one starts the tests |
| C90_opaque_violated | a ReadyToTest action returned by an OpaqueFunction is not accepted |
| C91_output_violated | `on_shutdown` marks an output test as failed and then as succeeded: output tests never fail |
| C92_cancelled_violated | when the last test is dropped because its future was cancelled, no Shutdown is emitted and the launch goes on |
| C93_regex_glued_violated | a regex test drops the line ends between pieces of output: it looks for patterns in lines glued together |
| C93_patterns_violated | the patterns of a filter are an iterator: after the first line that no pattern matches they have no effect |
| C93_extra_line_violated | filtered output that ends with a line end has one more line |
| C93_no_prefixes_violated | the empty list of prefixes is replaced by the default prefixes |
| C94_launch_failed_violated | if the launch ends by itself with an error while a test runs, nothing fails because of it: the event loop is None when the fixture is finalized |
| C94_setup_failed_violated | if the fixtures of a generator test fail, or only its second part is run, that part is reported as failed (AttributeError), not skipped |
| C94_no_yield_violated | a generator test that does not yield makes the run hang (Python before 3.12: StopIteration from an executor) |
| C95_alternatives_violated | ReadyToTest actions under exclusive conditions are rejected |
| C95_not_executed_violated | if ReadyToTest is not executed, the run hangs, even if the launch is over |
| C96_silent_violated | an error in setUpClass and the like, or an unexpected success, makes the item fail without showing anything |
| C97_respawn_violated | a test that is respawned has no timeout: the first exit cancels the timer for good |
| C97_kill_timeout_violated | `kill_timeout` is accepted and never used |
| C97_failed_start_violated | if the process cannot be started the timer is not cancelled, and the launch waits for it until the timeout |
| C97_int_violated | a timeout given as an int raises TypeError after the process was scheduled |
| C98_dirname_after_include_violated | after an include, `$(dirname)` and `$(filename)` refer to the included file |
| C98_shutdown_reason_violated | the substitutions in the reason of `<shutdown>` are never performed: the reason is the list of substitution objects |
| C99_own_files_violated | setting the format of log files after a process was started changes the lines in the files of the process |
| C99_get_logger_violated | if the logger of a process was asked for with get_logger before, its lines look like messages of launch |
| C99_process_called_launch_violated | a process called `launch` takes the format away from the launch log file |
| C99_override_alias_violated | OVERRIDE_LAUNCH_SCREEN_FORMAT=default makes every set_screen_format, and importing launch, fail |
| C100_race_violated | two threads of a process that look at the same microsecond get the same directory (the code has a TODO about this) |
| C100_latest_violated | `latest` can point to an older directory when launches start at the same time |
| C100_killed_violated | a launch that is killed while it renews the link leaves no `latest` |
| C100_files_violated | log files that are open stay where they are when the log directory is set |
| C101_lost_violated | of two threads that wait at the same time only one is notified: the other one waits although the process has exited |
| C101_any_output_violated | `wait_for_output()` without a condition does not wait for output |
| C101_exited_violated | `wait_for_output` fails if the process exits right after it wrote what is waited for |
| C101_start_violated | `wait_for_output` looks at whether the process runs, but is not notified when it starts |
| C68_cut_character_violated | output that is cut inside a character makes the output assertions raise UnicodeDecodeError |
| C49_stderr_violated | `assertSequentialStdout` also accepts what was written to stderr |
| C49_nearby_violated | the message of a failed sequential assertion shows nothing of output without a line break |
| C10_single_entity_violated, C11_single_entity_violated | a handler given a single action instead of a list cannot be described: `get_launch_arguments` and every include of the file raise TypeError |
| C12_on_exit_violated, C10_on_exit_violated | arguments declared in the `on_exit` actions of a process count as unconditional, and as required by an include |
| C102_action_again_violated | exposing an action again with the very same class is refused, because the stored wrapper is compared with the method |
| C102_conflict_violated | with two extensions that expose the same name its meaning depends on their order, and the second loses its other names too |
| C102_substitution_first_violated | substitutions of extensions are unknown until the first action was parsed |
| C103_narrow_violated | a launch fixture of scope function in a module with a wider one is run with the service of the whole module |
| C103_own_narrow_violated | a module with a narrow event loop of its own cannot set up its wider launch fixtures |
| C104_cancelled_violated | SIGTERM ends the run while processes are running |
| C104_raised_violated | a process started by a visit that raises afterwards is not waited for |
| C104_second_run_violated | a later run returns 0 although a process lost by an earlier run is running |
| C106_cut_violated | the text is looked for in each piece of output separately: a text cut by the reading of the pipe is not noticed |
| C106_character_cut_violated | the same if only a character of it is cut |
| C107_left_alone_violated | a block left during a respawn delay: the latest report is an exit, so nothing is requested, and the process is started again and stays |
| C108_raised_violated | a handler of the Shutdown event that is called before those of the processes raises: no process is signalled, the service does not emit a second Shutdown event as it is shutting down already, and the run waits for ever |
| C108_late_violated | a process started by a handler of the Shutdown event is not told about the shutdown (its handlers are registered after the copy that is iterated was made), and the run waits for it for ever |
| C108_early_violated | Ctrl-C is pressed just before a process is started: it is not sent SIGINT by anybody, only SIGTERM and SIGKILL later |
| C85_unprintable_violated | if the launch dies and a process that failed or was interrupted has written something that is not ASCII, the summary that is printed raises UnicodeDecodeError (`io.text.decode('ascii')`): no result, no further runs, no report |
| C85_unexited_violated | if the launch ends with an exception while processes run, the summary raises AttributeError (`returncode` of a ProcessStarted event) |
| C109_died_violated | in these cases launch_test exits with 2, as for a file that does not exist, and writes no report, not even about earlier runs |
| C110_names_violated | runs with the parameters `('a, b', 'c')` and `('a', 'b, c')` have the same name, and so have their tests |
| C112_configuration_violated | a timer in a scoped group: its actions see the launch configurations outside the group |
| C112_event_violated | the local `event` the timer's actions see is the event handled when the timer was executed, not the TimerEvent |
| C112_handler_violated | `$(dirname)` in the actions of an event handler registered in an included file raises when the event happens |
| C116_empty_file_violated | an empty .txt file gives an empty list, for which `expect_output` raises ValueError whatever the output is |
| C117_lines_violated | a description of several lines is printed as it is, so that one argument can look like two |
| C117_runs_violated | launch_test --show-args prints the arguments of the first of several runs only; arguments the other runs require are not shown |
| C118_or_violated | `OrSubstitution.describe` says AndSubstitution (boolean_substitution.py:141-143) |
| C118_default_violated | default values of LaunchConfiguration and EnvironmentVariable are not part of their descriptions |
| C118_operands_violated | boolean, comparison and if-else substitutions print their operands with the `repr` of objects, which does not tell what they are |
| C118_quotation_violated | quotation marks in texts are not escaped: one text can be described like two |
| C119_restart_violated | a process that is about to be started again (respawn) when the shutdown begins is started nevertheless (execute_local.py:606-622 look at the shutdown only before); if this takes longer than the timeouts, the signals went to the old process, nobody stops the new one, and run() waits for ever |
| C120_masked_violated | if a task ends with KeyboardInterrupt and another one fails in the same round, and the former comes first in the set of completed tasks, the failure is logged but forgotten: no shutdown, and `run` returns 0 (launch_service.py:328-346) |
| C120_hang_violated | if KeyboardInterrupt is raised while the shutdown for a failure is requested (launch_service.py:354-356, not within a `try`), the coroutine ends with it, and `run` calls `run_until_complete` again for a task that is done in this way, which never returns (launch_service.py:381-385 and asyncio) |
| C121_not_started_violated | an accepted action whose process was not started yet, or could not be started, raises RuntimeError (execute_local.py:320-321): accepted actions executed earlier do not get the signal, and the launch is shut down because of the exception |
| C121_unrelated_violated | `matches_pid` raises KeyError for any executed action without a process (process_matchers.py:31), so after one process could not be started no process can be signalled by its id any more |
| C121_text_violated | SignalProcess accepts any text as `signal_number` (signal_process.py:54-55), but for texts other than SIGKILL the handling raises TypeError (execute_local.py:344) |
| C122_never_sent_violated | timeouts are not checked when they are given; a `sigterm_timeout` that is not a number makes the timers' coroutines raise, so that neither SIGTERM nor SIGKILL is sent; one that `float` reads but Python does not, as 05, gives SIGTERM but never SIGKILL (execute_local.py:460-462) |
| C122_empty_violated | an empty list as `sigterm_timeout` makes the handler of the shutdown raise TypeError, after which the process is not even sent SIGINT (execute_local.py:292-299) |
| C122_message_violated | the message at the escalation to SIGKILL names the time since the shutdown began as that since SIGTERM (execute_local.py:483-486) |
| C123_deprecated_violated | is_extension_valid and get_parser_from_extension look for the name of an entry point instead of an extension (parser.py:155, 169), so that yml and launch are not valid although such files are |
| C124_prerelease_violated | versions of pytest that are not only numbers (release candidates, development versions) make every collection raise ValueError (hooks.py:29) |
| C124_short_violated | a version of two numbers counts as earlier than the same with a zero added (hooks.py:31) |
| C125_own_names_violated | the wrapper of launch.logging.handlers keeps `module`, the variable of its loop, instead of the module it wraps (handlers.py:71), so that with_per_logger_formatting cannot be reached |
| C126_enumeration_violated | an enumeration as the only type is taken for the list of its members (ensure_argument_type_impl.py:69), so that every argument raises TypeError |
| C126_subclass_violated | subclasses are rejected although documented as accepted: argument.__class__ is asked instead of the argument (ensure_argument_type_impl.py:66) |
| C126_emit_class_violated | EmitEvent accepts the class of an event in place of an event (emit_event.py:29) |

Other observations made while modelling, not all of them theorems:

* `context.is_shutdown` is never reset, so it is still true in the next run of the same service.
* `$(any ...)` and `$(all ...)` in frontends: `parse` passes its arguments in a form the constructors reject (TypeError).
* Actions of timers and event handlers inside a scoped group run outside its scope.
* `launch_testing.actions.Test.execute` returns None from `actions.append(timer)`; `kill_timeout` is ignored.
* `launch_yaml` entities: the error message for wrong elements itself raises AttributeError; an empty list as attribute raises IndexError.
* `assertSequentialStdout` includes the output to stderr; `assertExitCodes` of a running process raises AttributeError.
* `ProcInfoHandler['name']` returns the first process whose name contains the key.
* `normalize_lineseps` is not idempotent (`\r\r\n`).

## 5. Scope

Modelled (file in `Verif/Model`: files in `/repo`):

* `ArgTypes`: `actions/emit_event.py`, `actions/opaque_coroutine.py`, `actions/opaque_function.py`, `actions/timer_action.py`, `class_tools_impl.py`, `events/process/signal_process.py`, `launch/launch/utilities/ensure_argument_type_impl.py`, `some_substitutions_type.py`
* `Build`: `action.py`, `any_launch_file_utilities.py`, `append_environment_variable.py`, `declare_launch_argument.py`, `entity.py`, `execute_process.py`, `group_action.py`, `include_launch_description.py`, `launch/launch/frontend/expose.py`, `launch_description_source.py`, `log_info.py`, `reset_environment.py`, `reset_launch_configurations.py`, `set_environment_variable.py`, `set_launch_configuration.py`, `shutdown_action.py`, `timer_action.py`, `unset_environment_variable.py`
* `Coerce`: `launch/launch/utilities/type_utils.py`
* `Collect`: `launch_pytest/launch_pytest/plugin.py`
* `Cond`: `action.py`, `conditions/if_condition.py`, `conditions/launch_configuration_equals.py`, `conditions/launch_configuration_not_equals.py`, `conditions/unless_condition.py`, `evaluate_condition_expression_impl.py`, `launch/launch/condition.py`
* `ConfigDefault`: `launch/launch/substitutions/launch_configuration.py`
* `Context`: `action.py`, `launch/launch/launch_context.py`, `launch_description_source.py`, `timer_action.py`
* `Entity`: `action.py`, `actions/append_environment_variable.py`, `actions/declare_launch_argument.py`, `actions/emit_event.py`, `actions/group_action.py`, `actions/include_launch_description.py`, `actions/log_info.py`, `actions/pop_environment.py`, `actions/pop_launch_configurations.py`, `actions/push_environment.py`, `actions/push_launch_configurations.py`, `actions/register_event_handler.py`, `actions/reset_environment.py`, `actions/reset_launch_configurations.py`, `actions/set_environment_variable.py`, `actions/set_launch_configuration.py`, `actions/shutdown_action.py`, `actions/unregister_event_handler.py`, `actions/unset_environment_variable.py`, `actions/unset_launch_configuration.py`, `event_handler.py`, `execute_local.py`, `launch_context.py`, `launch_description.py`, `launch_description_source.py`, `timer_action.py`
* `Event`: `launch/launch/actions/group_action.py`, `launch/launch/event.py`, `launch/launch/events/execution_complete.py`, `launch/launch/events/include_launch_description.py`, `launch/launch/events/shutdown.py`, `on_include_launch_description.py`
* `Executable`: `execute_process.py`, `launch/launch/descriptions/executable.py`
* `ExecuteLocal`: `launch/launch/actions/execute_local.py`, `launch_testing/launch_testing/actions/test.py`, `timer_action.py`
* `ExpectedFile`: `launch_testing/launch_testing/tools/output.py`
* `Expose`: `launch/launch/frontend/expose.py`, `launch/launch/frontend/parser.py`
* `Frontend`: `launch/launch/frontend/parse_substitution.py`, `launch/launch/frontend/parser.py`, `launch_xml/launch_xml/entity.py`, `launch_xml/launch_xml/parser.py`, `launch_yaml/launch_yaml/entity.py`, `launch_yaml/launch_yaml/parser.py`
* `Grammar`: `anon_name.py`, `boolean_substitution.py`, `command.py`, `environment_variable.py`, `equals_substitution.py`, `file_content.py`, `find_executable.py`, `if_else_substitution.py`, `launch/launch/frontend/expose.py`, `launch/launch/frontend/parse_substitution.py`, `launch_configuration.py`, `launch_log_dir.py`, `not_equals_substitution.py`, `python_expression.py`, `this_launch_file.py`, `this_launch_file_dir.py`
* `Handlers`: `actions/execute_local.py`, `actions/execute_process.py`, `event_handlers/on_execution_complete.py`, `event_handlers/on_process_exit.py`, `event_handlers/on_process_io.py`, `event_handlers/on_process_start.py`, `events/execution_complete.py`, `launch/launch/actions/opaque_coroutine.py`, `launch/launch/event_handler.py`, `launch/launch/event_handlers/on_action_event_base.py`, `launch/launch/events/matchers.py`, `launch/launch/events/process/process_matchers.py`, `launch/launch/events/process/running_process_event.py`, `launch_service.py`, `process_exited.py`, `process_io.py`
* `Interrupts`: `asyncio/base_events.py`, `launch/launch/launch_service.py`
* `Introspect`: `launch/launch/launch_introspector.py`
* `Joint`: `launch/launch/actions/execute_local.py`, `launch/launch/launch_context.py`, `launch/launch/launch_service.py`
* `LaunchArgs`: `action.py`, `include_launch_description.py`, `launch/launch/launch_description.py`, `register_event_handler.py`, `timer_action.py`
* `LaunchProcess`: `launch_testing/launch_testing/test_runner.py`, `launch_testing/launch_testing/tools/process.py`, `proc_info_handler.py`
* `LaunchTest`: `launch_testing/launch_testing/launch_test.py`, `loader.py`, `test_runner.py`
* `Legacy`: `launch_context.py`, `launch_service.py`, `launch_testing/launch_testing/legacy/__init__.py`
* `LegacyOutput`: `launch_testing/launch_testing/legacy/output.py`
* `LogDir`: `launch/launch/logging/__init__.py`
* `LogFormat`: `launch/launch/logging/__init__.py`, `launch/launch/logging/handlers.py`
* `Logging`: `launch/launch/actions/execute_local.py`, `launch/launch/logging/__init__.py`
* `Oracle`: `launch/launch/substitutions/command.py`
* `Output`: `launch/launch/actions/execute_local.py`
* `Parse`: `append_environment_variable.py`, `declare_launch_argument.py`, `execute_process.py`, `group_action.py`, `include_launch_description.py`, `launch/launch/action.py`, `launch/launch/frontend/expose.py`, `launch/launch/frontend/parse_substitution.py`, `launch/launch/frontend/parser.py`, `reset_launch_configurations.py`, `timer_action.py`
* `ParseIf`: `launch/launch/frontend/parse_substitution.py`
* `ParserQueries`: `launch/launch/frontend/parser.py`
* `PerLogger`: `launch/launch/logging/handlers.py`
* `PostMarks`: `launch_testing/launch_testing/decorator.py`, `loader.py`
* `ProcLookup`: `asserts/assert_exit_codes.py`, `asserts/assert_output.py`, `io_handler.py`, `launch/launch/actions/execute_local.py`, `launch/launch/events/process/process_io.py`, `proc_info_handler.py`, `util/proc_lookup.py`
* `PytestItem`: `__init__.py`, `launch_testing/launch_testing/pytest/hooks.py`
* `PytestRun`: `fixture.py`, `launch_pytest/launch_pytest/plugin.py`, `launch_service.py`
* `PytestScope`: `conftest.py`, `launch_pytest/launch_pytest/fixture.py`, `plugin.py`
* `PytestVersion`: `launch_testing/launch_testing/pytest/hooks.py`
* `Ready`: `launch_testing/launch_testing/ready_aggregator.py`
* `ReadyListener`: `launch/launch/actions/execute_local.py`, `launch/launch/event_handlers/on_process_io.py`, `launch/launch/events/process/process_io.py`, `launch_testing/launch_testing/event_handlers/stdout_ready_listener.py`, `on_action_event_base.py`
* `Retry`: `launch_testing/launch_testing/markers.py`
* `SequentialText`: `launch_testing/launch_testing/asserts/assert_sequential_output.py`
* `Service`: `action.py`, `launch/launch/event_handler.py`, `launch/launch/launch_service.py`, `on_include_launch_description.py`, `on_shutdown.py`
* `ShowArgs`: `anon_name.py`, `boolean_substitution.py`, `command.py`, `environment_variable.py`, `equals_substitution.py`, `file_content.py`, `find_executable.py`, `if_else_substitution.py`, `launch/launch/actions/declare_launch_argument.py`, `launch_configuration.py`, `launch_description.py`, `launch_log_dir.py`, `launch_test.py`, `launch_testing/launch_testing/print_arguments.py`, `local_substitution.py`, `not_equals_substitution.py`, `path_join_substitution.py`, `python_expression.py`, `text_substitution.py`, `this_launch_file.py`, `this_launch_file_dir.py`
* `Signal`: `launch/launch/utilities/signal_management.py`
* `Source`: `any_launch_file_utilities.py`, `frontend_launch_description_source.py`, `launch/launch/launch_description_source.py`, `python_launch_file_utilities.py`
* `Subst`: `substitutions/anon_name.py`, `substitutions/boolean_substitution.py`, `substitutions/command.py`, `substitutions/environment_variable.py`, `substitutions/equals_substitution.py`, `substitutions/file_content.py`, `substitutions/find_executable.py`, `substitutions/if_else_substitution.py`, `substitutions/launch_configuration.py`, `substitutions/launch_log_dir.py`, `substitutions/local_substitution.py`, `substitutions/not_equals_substitution.py`, `substitutions/path_join_substitution.py`, `substitutions/python_expression.py`, `substitutions/text_substitution.py`, `substitutions/this_launch_file.py`, `substitutions/this_launch_file_dir.py`, `type_utils.py`, `utilities/perform_substitutions_impl.py`
* `System`: `launch/launch/actions/execute_local.py`, `launch/launch/launch_service.py`
* `SystemEvents`: `launch/launch/actions/execute_local.py`, `launch/launch/launch_context.py`
* `Targeted`: `events/matchers.py`, `launch/launch/actions/execute_local.py`, `launch/launch/events/process/signal_process.py`, `launch_context.py`, `launch_service.py`, `process_matchers.py`, `process_targeted_event.py`, `shutdown_process.py`
* `TestAction`: `execute_local.py`, `gtest.py`, `launch_testing/launch_testing/actions/test.py`, `pytest.py`, `timer_action.py`
* `TestArgs`: `launch_testing/launch_testing/parse_arguments.py`
* `TestBind`: `launch_testing/launch_testing/loader.py`, `test_runner.py`
* `TestLoad`: `actions/ready.py`, `launch_testing/launch_testing/loader.py`, `markers.py`, `parametrize.py`, `ready_to_test_action_timeout.py`, `test_runner.py`
* `TestResult`: `junitxml.py`, `launch_test.py`, `launch_testing/launch_testing/test_result.py`, `loader.py`, `test_runner.py`
* `TestWait`: `launch_testing/launch_testing/io_handler.py`, `launch_testing/launch_testing/proc_info_handler.py`, `launch_testing/launch_testing/tools/process.py`, `threading.py`
* `TestWorker`: `launch_service.py`, `launch_testing/launch_testing/test_runner.py`
* `TextMatch`: `launch_testing/launch_testing/tools/output.py`, `launch_testing/launch_testing/tools/text.py`
* `Timeouts`: `launch/launch/actions/execute_local.py`, `python_expression.py`, `timer_action.py`
* `Timer`: `launch/launch/actions/timer_action.py`
* `TimerService`: `launch/launch/actions/timer_action.py`
* `Typed`: `launch/launch/utilities/normalize_to_list_of_substitutions_impl.py`, `launch/launch/utilities/type_utils.py`
* `Visit`: `action.py`, `append_environment_variable.py`, `declare_launch_argument.py`, `emit_event.py`, `group_action.py`, `include_launch_description.py`, `launch_description.py`, `launch_description_source.py`, `log_info.py`, `opaque_function.py`, `pop_environment.py`, `pop_launch_configurations.py`, `push_environment.py`, `push_launch_configurations.py`, `register_event_handler.py`, `reset_environment.py`, `reset_launch_configurations.py`, `set_environment_variable.py`, `set_launch_configuration.py`, `unregister_event_handler.py`, `unset_environment_variable.py`, `unset_launch_configuration.py`, `visit_all_entities_and_collect_futures_impl.py`
* `Waits`: `launch_pytest/launch_pytest/tools/process.py`

Not modelled: Windows branches; the text of log messages and of exceptions, except where a definition returns it; the substitution grammar's parser
generator (lark) itself; XML and YAML parsing of characters into trees; times in reports; the pytest and unittest internals beyond what the modelled
functions touch, and the declaration of hooks (`launch_testing/pytest/hookspecs.py`); the set-up of argparse in `launch_test.py`; getters that return a
stored attribute, and modules that only re-export names; the abstract methods of `launch_description_entity.py`; the stdin handler of processes that
only warns (`execute_local.py:__on_process_stdin`); the example processes; the documentation generator and `launch.some_entities_type`-style typing aids.

Simplifications are stated in the comment of each definition. The recurring ones: texts are Lean strings or lists of characters; integers and
numbers of handlers, futures and actions are identities; recursion over user-supplied entity trees that may be infinite (an action may return
itself) uses fuel, and theorems hold for every amount of fuel that suffices; interleavings of coroutines are unconstrained sequences of labels.
