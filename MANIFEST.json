{
 "claims": [
  {
   "property": "C01",
   "status": "proved",
   "theorems": [
    "Abq.Props.C01_handed_out_at_most_once",
    "Abq.Props.C01_no_test_in_two_answers"
   ],
   "note": "interleaved model, any number of threads, any schedule"
  },
  {
   "property": "C02",
   "status": "proved",
   "theorems": [
    "Abq.Props.C02_nothing_skipped"
   ],
   "note": ""
  },
  {
   "property": "C03",
   "status": "proved",
   "theorems": [
    "Abq.Props.C03_bundles_in_order",
    "Abq.Props.C03_linearizable"
   ],
   "note": "concurrent execution equals the sequential queue in claim order"
  },
  {
   "property": "C04",
   "status": "proved",
   "theorems": [
    "Abq.Props.C04_batch_size",
    "Abq.Props.C04_bundles_of_a_run"
   ],
   "note": ""
  },
  {
   "property": "C05",
   "status": "proved",
   "theorems": [
    "Abq.Props.C05_groups_not_split",
    "Abq.Props.C05_group_bundle_size",
    "Abq.Props.C05_bundles_of_a_run"
   ],
   "note": ""
  },
  {
   "property": "C06",
   "status": "proved",
   "theorems": [
    "Abq.Props.C06_end_of_work"
   ],
   "note": ""
  },
  {
   "property": "C07",
   "status": "proved",
   "theorems": [
    "Abq.Props.C07_retry_while_serving",
    "Abq.Props.C07_retry_after_exhaustion"
   ],
   "note": ""
  },
  {
   "property": "C08",
   "status": "proved",
   "theorems": [
    "Abq.Props.C08_persisted_partition_eq_live",
    "Abq.Props.C08_partition_exact"
   ],
   "note": ""
  },
  {
   "property": "C09",
   "status": "proved",
   "theorems": [
    "Abq.Props.C09_phases_only_move_forward",
    "Abq.Props.C09_how_runs_begin",
    "Abq.Props.C09_how_runs_get_exhausted"
   ],
   "note": "all schedules"
  },
  {
   "property": "C10",
   "status": "proved",
   "theorems": [
    "Abq.Props.C10_at_most_one_generates",
    "Abq.Props.C10_exactly_one_unless_loaded",
    "Abq.Props.C10_creator_generates",
    "Abq.Props.C10_no_join_is_unknown"
   ],
   "note": "all schedules, all answers of the remote store"
  },
  {
   "property": "C100",
   "status": "partial",
   "theorems": [
    "Abq.Props.C100_text_roundtrip_partial",
    "Abq.Props.C100_too_deep",
    "Abq.Props.C100_full_statement_fails",
    "Abq.Props.C100_one_line",
    "Abq.Props.C100_reader_exact",
    "Abq.Props.C100_unambiguous",
    "Abq.Props.C100_cut_off",
    "Abq.Props.C100_beginning_lost",
    "Abq.Props.C100_followed",
    "Abq.Props.C100_manifests",
    "Abq.Props.C100_messages",
    "Abq.Props.C100_lines",
    "Abq.Props.C100_run_state"
   ],
   "note": "The full statement, that whatever is written is read back, is false: the reader of serde_json stops at 128 levels of nesting, the writer does not. The library is modelled (it is not part of the repository); how f64 are read is a parameter. C100_messages, C100_lines, manifestCodec and C100_run_state show that the assumptions on serialization in C24, C25, C34-C36, C63 and C97 hold of this text."
  },
  {
   "property": "C101",
   "status": "partial",
   "theorems": [
    "Abq.Props.C101_request_received_partial",
    "Abq.Props.C101_too_deep",
    "Abq.Props.C101_line_read_back",
    "Abq.Props.C101_summary_read_back",
    "Abq.Props.C101_tests_received",
    "Abq.Props.C101_other_answers_received",
    "Abq.Props.C101_answers_received",
    "Abq.Props.C101_acknowledgements_received",
    "Abq.Props.C101_work_request_received",
    "Abq.Props.C101_negotiation_received",
    "Abq.Props.C101_native_results_received_partial",
    "Abq.Props.C101_native_manifest_received_partial",
    "Abq.Props.C101_full_statement_fails"
   ],
   "note": "Holds for results nested at most 120 deep and manifests nested at most 122 deep, and exactly for those; deeper ones are read by the worker but not by the queue (C101_full_statement_fails). Floats in metadata must be ones that are read as they are printed."
  },
  {
   "property": "C102",
   "status": "partial",
   "theorems": [
    "Abq.Props.C102_exit_code_exact",
    "Abq.Props.C102_exit_code_partial",
    "Abq.Props.C102_no_false_success",
    "Abq.Props.C102_no_false_success_partial",
    "Abq.Props.C102_whole_run_fails",
    "Abq.Props.C102_full_statement_fails"
   ],
   "note": "The models of C76, C98 and C48 composed. The exit code is 0 exactly if whatever was reported in first attempts passed in one of the attempts and no crash is left without results (C102_exit_code_exact); so as stated it holds for native runners which report in a retry only tests that they reported in the first attempt. If one reports another test there and it fails, the exit code is still 0 (C102_full_statement_fails; C102_whole_run_fails shows it of a run of a suite to its end). The converse, that a suite in which all pass gets exit code 0, is for runs that come to their end and reports that are read whole (see C97)."
  },
  {
   "property": "C103",
   "status": "partial",
   "theorems": [
    "Abq.Props.C103_each_file_alone",
    "Abq.Props.C103_summary",
    "Abq.Props.C103_offloaded_is_kept",
    "Abq.Props.C103_stale_files_go_partial",
    "Abq.Props.C103_manifests",
    "Abq.Props.C103_nothing_lost_partial",
    "Abq.Props.C103_unopened_files_stay",
    "Abq.Props.C103_full_statement_fails",
    "Abq.Props.C103_manifest_only_copy_emptied"
   ],
   "note": "That every stale file is moved fails for results files which the queue has not opened since it was started (C103_unopened_files_stay, C103_full_statement_fails). Nothing is lost except as in C19; a manifest whose only copy is local is lost (C103_manifest_only_copy_emptied)."
  },
  {
   "property": "C104",
   "status": "partial",
   "theorems": [
    "Abq.Props.C104_configuration",
    "Abq.Props.C104_strategy_names",
    "Abq.Props.C104_s3_is_ideal",
    "Abq.Props.C104_command_is_ideal",
    "Abq.Props.C104_run_state_through_command",
    "Abq.Props.C104_failing_command_is_not_found",
    "Abq.Props.C104_jobs",
    "Abq.Props.C104_full_statement_fails"
   ],
   "note": "Configuration and calls are as stated. That files are moved by schedule only if a remote is configured fails: the jobs run without one too, and what they move is lost (C104_full_statement_fails). The object store is taken to be a map from keys to objects."
  },
  {
   "property": "C105",
   "status": "partial",
   "theorems": [
    "Abq.Props.C105_only_used_files_partial",
    "Abq.Props.C105_stays_open",
    "Abq.Props.C105_any_number_open",
    "Abq.Props.C105_full_statement_fails"
   ],
   "note": "There is no bound: the number is only used as the initial size of a map. Only files of runs that were used since the start are open, and they stay open until an offload job comes to them."
  },
  {
   "property": "C106",
   "status": "partial",
   "theorems": [
    "Abq.Props.C106_listens_until_told",
    "Abq.Props.C106_shut_down_accepts_nothing",
    "Abq.Props.C106_shutdown_returns",
    "Abq.Props.C106_retire_only_marks",
    "Abq.Props.C106_stays_retired",
    "Abq.Props.C106_drained_for_good_partial",
    "Abq.Props.C106_nothing_lost_partial",
    "Abq.Props.C106_end_is_final",
    "Abq.Props.C106_full_statement_fails"
   ],
   "note": "Listening until told, refusing afterwards, and the return of shutdown are proved in full. The rest is false of the code: retire only sets a flag nobody reads, the count of active runs does not include runs whose results are outstanding, and shutdown does not wait for connections that are being handled. Partial: drained for good if no run is added; nothing lost if all connections are closed."
  },
  {
   "property": "C107",
   "status": "partial",
   "theorems": [
    "Abq.Props.C107_cancels_only_if_told",
    "Abq.Props.C107_exits",
    "Abq.Props.C107_stops_partial",
    "Abq.Props.C107_bounded",
    "Abq.Props.C107_waits_only_for_queue",
    "Abq.Props.C107_further_signals",
    "Abq.Props.C107_full_statement_fails"
   ],
   "note": "Over all schedules of signals, runners and main task. Signals during the negotiation and while finishing have no effect, and an unreachable queue makes the process panic: proved by C107_full_statement_fails."
  },
  {
   "property": "C108",
   "status": "partial",
   "theorems": [
    "Abq.Props.C108_pool",
    "Abq.Props.C108_distinct",
    "Abq.Props.C108_told",
    "Abq.Props.C108_unique",
    "Abq.Props.C108_manifest_once_partial",
    "Abq.Props.C108_signalled_pool",
    "Abq.Props.C108_full_statement_fails"
   ],
   "note": "The manifest is asked for once only if the worker's own environment has no ABQ_GENERATE_MANIFEST=1; otherwise every process is asked for it (C108_full_statement_fails). Addresses are given from outside."
  },
  {
   "property": "C109",
   "status": "partial",
   "theorems": [
    "Abq.Props.C109_exit_code",
    "Abq.Props.C109_ends_partial",
    "Abq.Props.C109_ends_without_api",
    "Abq.Props.C109_requests",
    "Abq.Props.C109_printed",
    "Abq.Props.C109_closed_output",
    "Abq.Props.C109_full_statement_fails"
   ],
   "note": "The exit code (C109_exit_code), what is printed (C109_printed) and the requests (C109_requests) hold for every reply and every pattern of failing writes. That the process ends is proved only if the API answers each request or fails (C109_ends_partial) or is not asked (C109_ends_without_api): the client has no timeout, so an API that never answers keeps abq test from ending (C109_full_statement_fails). When nothing can be printed the process panics before the reporters are finished (C109_closed_output)."
  },
  {
   "property": "C11",
   "status": "proved",
   "theorems": [
    "Abq.Props.C11_join_by_phase",
    "Abq.Props.C11_exit_code",
    "Abq.Props.C11_command_differs",
    "Abq.Props.C11_unknown_run",
    "Abq.Props.C11_retry_iff_seen"
   ],
   "note": "`C11_retry_iff_seen` says exactly who is taken for a retry, in terms of the history; a participant of a run whose manifest was empty is answered already-done"
  },
  {
   "property": "C110",
   "status": "proved",
   "theorems": [
    "Abq.Props.C110_answers",
    "Abq.Props.C110_ends",
    "Abq.Props.C110_told_at_once",
    "Abq.Props.C110_never_stuck"
   ],
   "note": "Over all schedules of the registry. C110_never_stuck says what can always be done; that the scheduler and the lock are fair is not part of the code."
  },
  {
   "property": "C111",
   "status": "proved",
   "theorems": [
    "Abq.Props.C111_joins",
    "Abq.Props.C111_tests",
    "Abq.Props.C111_sent",
    "Abq.Props.C111_others",
    "Abq.Props.C111_joins_never_stuck"
   ],
   "note": "Over all schedules of the registry. A request for tests of a run that is unknown makes the task that handles it panic (C56) and is not counted; workers only ask after joining."
  },
  {
   "property": "C112",
   "status": "partial",
   "theorems": [
    "Abq.Props.C112_starts",
    "Abq.Props.C112_ports",
    "Abq.Props.C112_version",
    "Abq.Props.C112_error_names_both",
    "Abq.Props.C112_led_partial",
    "Abq.Props.C112_full_statement_fails",
    "Abq.Props.C112_full_statement_fails_wrong_queue"
   ],
   "note": "C112_starts and C112_ports: ports asked for are those bound, and no two servers of a machine share one, in every history of queues. C112_version: versions. C112_led_partial: the worker is led to the queue's own servers if the IP address the queue advertises leads to it. The full statement fails: a queue started without --public-ip advertises 0.0.0.0, so a worker on another machine panics, or takes part in a run of another queue on its own machine."
  },
  {
   "property": "C113",
   "status": "partial",
   "theorems": [
    "Abq.Props.C113_started_queue",
    "Abq.Props.C113_full_statement_fails"
   ],
   "note": "C113_started_queue: holds of abq start (configured directories must exist). C113_full_statement_fails: the queue abq test starts for itself stores into temporary directories that are removed when new_ephemeral returns; every write fails, and is logged."
  },
  {
   "property": "C114",
   "status": "proved",
   "theorems": [
    "Abq.Props.C114_in_order",
    "Abq.Props.C114_all_delivered",
    "Abq.Props.C114_no_second_try",
    "Abq.Props.C114_delivers",
    "Abq.Props.C114_attempts"
   ],
   "note": "About every interleaving of the steps of the task that sends results, with failures at each step and dropping it anywhere. That an acknowledgement is read only if the queue has read the request is built into the steps; that the queue then keeps the results is C91 and C17."
  },
  {
   "property": "C115",
   "status": "proved",
   "theorems": [
    "Abq.Props.C115_exit_code",
    "Abq.Props.C115_report"
   ],
   "note": "Composition of C76, C114, C98 and C48. One result per attempt, clocks not set back between attempts and random ids of placeholders distinct from ids of tests are hypotheses (Spec/Whole.lean, Arrived); C102 has the form for several results per attempt."
  },
  {
   "property": "C116",
   "status": "partial",
   "theorems": [
    "Abq.Props.C116_exit_code_partial",
    "Abq.Props.C116_any_record_partial",
    "Abq.Props.C116_full_statement_fails"
   ],
   "note": "Both partial theorems are exact: 101 iff the crash was on the first attempt at a test (for a run as in C115), or iff for some test there is nothing but placeholders (for any record). The full claim fails, see the witness."
  },
  {
   "property": "C117",
   "status": "partial",
   "theorems": [
    "Abq.Props.C117_in_order",
    "Abq.Props.C117_current",
    "Abq.Props.C117_all_partial",
    "Abq.Props.C117_failure",
    "Abq.Props.C117_attempts",
    "Abq.Props.C117_recovers",
    "Abq.Props.C117_serves",
    "Abq.Props.C117_received_once",
    "Abq.Props.C117_received_partial",
    "Abq.Props.C117_full_statement_fails"
   ],
   "note": "The last sentence of the statement fails: if the answer is lost, the runner asks again on a new connection and gets the next bundle; the lost one is neither given to another runner nor is its loss noticed. C117_in_order says exactly how much can be missing: one bundle for each attempt that failed. Which bundles the queue takes is any sequence in C117_in_order and those of the registry in C117_received_once."
  },
  {
   "property": "C118",
   "status": "proved",
   "theorems": [
    "Abq.Props.C118_attempt",
    "Abq.Props.C118_first_answer",
    "Abq.Props.C118_gives_up",
    "Abq.Props.C118_connects"
   ],
   "note": "That the manifest is stored at some time is C55; that it takes less than a minute is not in the model."
  },
  {
   "property": "C119",
   "status": "proved",
   "theorems": [
    "Abq.Props.C119_as_if_alone",
    "Abq.Props.C119_answers_depend_on_run_only",
    "Abq.Props.C119_as_if_alone_after_restarts"
   ],
   "note": "About the registry of runs and the remote store of run states. The number of active runs is shared by definition (C14). Whether names of files of different runs differ is C21, whether the files are kept apart C17, C19, C103."
  },
  {
   "property": "C12",
   "status": "proved",
   "theorems": [
    "Abq.Props.C12_nothing_after_cancellation"
   ],
   "note": "requests that had taken tests before the cancellation are still answered with them"
  },
  {
   "property": "C120",
   "status": "proved",
   "theorems": [
    "Abq.Props.C120_seconds",
    "Abq.Props.C120_summary",
    "Abq.Props.C120_units",
    "Abq.Props.C120_sum",
    "Abq.Props.C120_sum_same"
   ],
   "note": "Floating point numbers are modelled as IEEE 754 binary64 with rounding to nearest even. Sums below 2^64 ns (see C41); times in milliseconds below 2^53 ns."
  },
  {
   "property": "C121",
   "status": "partial",
   "theorems": [
    "Abq.Props.C121_stuck_exactly",
    "Abq.Props.C121_full_statement_fails",
    "Abq.Props.C121_unreadable_answer",
    "Abq.Props.C121_ends_partial",
    "Abq.Props.C121_test_limit",
    "Abq.Props.C121_connect_limit",
    "Abq.Props.C121_shutdown"
   ],
   "note": "The full statement fails: after an answer that cannot be read, the worker waits without a limit for the native runner to exit; the same for several other waits, all of which are characterised. Proved: within the time limits (connecting, running a test) the worker ends and reports; it ends if the native runner exits and its output is closed, and on shutdown."
  },
  {
   "property": "C122",
   "status": "proved",
   "theorems": [
    "Abq.Props.C122_none_left",
    "Abq.Props.C122_one_at_a_time"
   ],
   "note": "The processes started by the worker itself; not those that a native runner starts. That a process whose handle is dropped is killed (`kill_on_drop`) is tokio's."
  },
  {
   "property": "C123",
   "status": "partial",
   "theorems": [
    "Abq.Props.C123_each_once_partial",
    "Abq.Props.C123_message",
    "Abq.Props.C123_received",
    "Abq.Props.C123_made_up",
    "Abq.Props.C123_full_statement_fails",
    "Abq.Props.C123_shown"
   ],
   "note": "The full statement fails: every such report has a made-up place in the code, lineage, times and outputs, and the made-up outputs are printed. Proved: each test is reported once, in order, with message, status and captured output; the reports are received as sent."
  },
  {
   "property": "C124",
   "status": "proved",
   "theorems": [
    "Abq.Props.C124_poll",
    "Abq.Props.C124_reached",
    "Abq.Props.C124_once",
    "Abq.Props.C124_shutdown",
    "Abq.Props.C124_retired",
    "Abq.Props.C124_queue"
   ],
   "note": "For managers with and without a receiver of their own. The broadcast channel of tokio is modelled by its documentation."
  },
  {
   "property": "C125",
   "status": "partial",
   "theorems": [
    "Abq.Props.C125_one_at_a_time",
    "Abq.Props.C125_alone",
    "Abq.Props.C125_served",
    "Abq.Props.C125_stall",
    "Abq.Props.C125_opened_once",
    "Abq.Props.C125_independent_partial",
    "Abq.Props.C125_full_statement_fails"
   ],
   "note": "The last sentence is false: as soon as some call needs all files for itself (the first result of a new run, or an offload), one client that does not read keeps every later call of every run from returning (C125_stall, C125_full_statement_fails). Proved instead: it delays only its own run as long as no call needs all files. Calls are not cancelled in the model. The locks of tokio are modelled by their documentation (first come, first served)."
  },
  {
   "property": "C126",
   "status": "partial",
   "theorems": [
    "Abq.Props.C126_given",
    "Abq.Props.C126_kept_partial",
    "Abq.Props.C126_cut_short",
    "Abq.Props.C126_other_files",
    "Abq.Props.C126_no_place",
    "Abq.Props.C126_says",
    "Abq.Props.C126_as_if_given",
    "Abq.Props.C126_full_statement_fails"
   ],
   "note": "False if a later login is interrupted while it writes: the file is emptied first, so the token stored before is lost, and later commands go on without one and without a message (C126_full_statement_fails). Proved instead: the token is used if no later login for the file was cut short; after one that was cut short its token or none is used, never another. That the TOML library reads what it wrote (Faithful), and does not take a piece of it for another token (Cautious), are hypotheses; an example of such a library is given."
  },
  {
   "property": "C127",
   "status": "partial",
   "theorems": [
    "Abq.Props.C127_tests_partial",
    "Abq.Props.C127_other_errors",
    "Abq.Props.C127_summary",
    "Abq.Props.C127_framework",
    "Abq.Props.C127_readable",
    "Abq.Props.C127_full_statement_fails"
   ],
   "note": "False for metadata that a native runner gives under the name `abq_metadata`: the reporter puts the worker and runner numbers there and what the runner said is gone (C127_full_statement_fails). Proved for all other members. The order of past attempts is proved for attempts that come without further nested ones (the only kind workers send); in general the attempts are proved to be the same ones up to order. Turning milliseconds to nanoseconds and bytes to text (from_utf8_lossy) are parameters."
  },
  {
   "property": "C128",
   "status": "proved",
   "theorems": [
    "Abq.Props.C128_protected",
    "Abq.Props.C128_starts",
    "Abq.Props.C128_alike",
    "Abq.Props.C128_unlike",
    "Abq.Props.C128_any_sender",
    "Abq.Props.C128_token_kept",
    "Abq.Props.C128_tokens_alike",
    "Abq.Props.C128_own_queue"
   ],
   "note": "The TLS library is a parameter: a session is set up exactly if `meets` says so, and carries what is written into it; its first message starts like a TLS record. C128_unlike is for clients that send less than 768 MiB before they are answered: a token or TLS record read as the size of a message announces at least that much, and no more is sent."
  },
  {
   "property": "C129",
   "status": "partial",
   "theorems": [
    "Abq.Props.C129_arrives_partial",
    "Abq.Props.C129_summary_partial",
    "Abq.Props.C129_reported_partial",
    "Abq.Props.C129_stray_partial",
    "Abq.Props.C129_nothing_made_up",
    "Abq.Props.C129_each_once_partial",
    "Abq.Props.C129_current",
    "Abq.Props.C129_text",
    "Abq.Props.C129_too_deep",
    "Abq.Props.C129_clocks",
    "Abq.Props.C129_full_statement_fails"
   ],
   "note": "False in full: a message nested 121 to 127 deep can be read by the runner and not by the queue (C129_too_deep), and metadata named abq_metadata is replaced (C127). Proved for messages nested at most 120 deep that are written as in the protocol (arrays in place of objects are read too, but not covered) and do not have the members of several of its messages, and for all other metadata. C129_each_once_partial leaves out tests that have a failure without a location. That messages are neither lost nor reordered between the stages is the subject of C28, C29, C35, C36, C97, C98 and C114."
  },
  {
   "property": "C13",
   "status": "proved",
   "theorems": [
    "Abq.Props.C13_cancel_when_exhausted",
    "Abq.Props.C13_results_readable"
   ],
   "note": ""
  },
  {
   "property": "C130",
   "status": "proved",
   "theorems": [
    "Abq.Props.C130_body",
    "Abq.Props.C130_ends",
    "Abq.Props.C130_told",
    "Abq.Props.C130_queue",
    "Abq.Props.C130_refused",
    "Abq.Props.C130_schema",
    "Abq.Props.C130_recorded"
   ],
   "note": "The HTTP client and the URL library are parameters. Requests and their retries are those of C68, tokens those of C38."
  },
  {
   "property": "C131",
   "status": "proved",
   "theorems": [
    "Abq.Props.C131_returns",
    "Abq.Props.C131_no_deadlock",
    "Abq.Props.C131_exclusive",
    "Abq.Props.C131_holds_nothing"
   ],
   "note": "What a call finds in the registry is arbitrary here; what it does with it is in C09-C16. The locks are those of parking_lot: a reader may be held up by a writer in line. Locks of the results files are the subject of C125, that of the timers of C94."
  },
  {
   "property": "C132",
   "status": "partial",
   "theorems": [
    "Abq.Props.C132_reads_partial",
    "Abq.Props.C132_exact_partial",
    "Abq.Props.C132_exact_iff",
    "Abq.Props.C132_document_iff",
    "Abq.Props.C132_full_statement_fails"
   ],
   "note": "If names and outputs have only characters that XML has, the report is an XML document and says what it should, except that ends of lines and tabs are read as blanks (they are not escaped); exact if and only if there are none of those. It is an XML document exactly if there are no other control characters: in an output those are taken out with the escape codes, in a name they are not. The libraries that write XML are modelled from their use here; how numbers of seconds are printed is a parameter."
  },
  {
   "property": "C133",
   "status": "proved",
   "theorems": [
    "Abq.Props.C133_text_read",
    "Abq.Props.C133_text_distinct",
    "Abq.Props.C133_taken_exactly",
    "Abq.Props.C133_taken_valid",
    "Abq.Props.C133_ip_taken_exactly",
    "Abq.Props.C133_printed_address_usable",
    "Abq.Props.C133_told_addresses_received"
   ],
   "note": "The reader and writer of addresses are those of Rust's standard library 1.81.0, modelled function by function. Flow labels of IPv6 addresses are not written, so they are lost; no part of the code sets one."
  },
  {
   "property": "C134",
   "status": "partial",
   "theorems": [
    "Abq.Props.C134_runners_taken_exactly",
    "Abq.Props.C134_runners_started",
    "Abq.Props.C134_words_taken_exactly",
    "Abq.Props.C134_full_statement_fails"
   ],
   "note": "All but the last sentence is proved. The last is false: the error for an unknown --test-strategy says to give default or by-group, and neither is taken (C134_full_statement_fails)."
  },
  {
   "property": "C135",
   "status": "partial",
   "theorems": [
    "Abq.Props.C135_command_partial",
    "Abq.Props.C135_words_unique",
    "Abq.Props.C135_full_statement_fails"
   ],
   "note": "Holds for run ids of plain characters that do not begin with a dash. Others are printed without quotes: for the run id `nightly build` the command is one for the run `nightly` (C135_full_statement_fails). What a shell does is specified only for lines of plain words and blanks; that clap takes the word after an option for its value is part of the specification."
  },
  {
   "property": "C136",
   "status": "partial",
   "theorems": [
    "Abq.Props.C136_failure_shown_partial",
    "Abq.Props.C136_full_statement_fails"
   ],
   "note": "Proved for the first error, unless it has a column and no line. Errors beside the first (and those beside a manifest) are dropped, and a column without a line is not printed (C136_full_statement_fails)."
  },
  {
   "property": "C137",
   "status": "proved",
   "theorems": [
    "Abq.Props.C137_printed",
    "Abq.Props.C137_comes",
    "Abq.Props.C137_usable",
    "Abq.Props.C137_own_queue",
    "Abq.Props.C137_none_likelier"
   ],
   "note": "The generator (ChaCha20, seeded by the operating system) is the sequence of the words it draws; that these are equally likely is not modelled. `rand`'s `Alphanumeric` is modelled as in its version 0.8."
  },
  {
   "property": "C138",
   "status": "partial",
   "theorems": [
    "Abq.Props.C138_plain",
    "Abq.Props.C138_shown_partial",
    "Abq.Props.C138_result",
    "Abq.Props.C138_red_partial",
    "Abq.Props.C138_bar",
    "Abq.Props.C138_warning",
    "Abq.Props.C138_when",
    "Abq.Props.C138_never",
    "Abq.Props.C138_full_statement_fails"
   ],
   "note": "The full statement fails in three ways: the progress bar has colours although `NO_COLOR` is set or `TERM` is `dumb`; standard error gets colours if standard output is a terminal, even if standard error is a file; and codes in a test's own name or output go to the terminal as they are. The `_partial` theorems are about texts without codes of their own."
  },
  {
   "property": "C139",
   "status": "partial",
   "theorems": [
    "Abq.Props.C139_codes_partial",
    "Abq.Props.C139_any",
    "Abq.Props.C139_plain",
    "Abq.Props.C139_document",
    "Abq.Props.C139_full_statement_fails"
   ],
   "note": "The full statement fails: tabs and other control characters are taken out too, a code that is not ended takes the text after it along, and a command string with a character like \u00dc leaves its rest in the report. For outputs of text, control characters and codes that are ended, what is left is exactly the text. The libraries `strip-ansi-escapes` 0.1.1, `vte` 0.10.1 and `utf8parse` 0.2.0 are modelled byte by byte."
  },
  {
   "property": "C14",
   "status": "partial",
   "theorems": [
    "Abq.Props.C14_count_exact",
    "Abq.Props.C14_count_of_active_runs_partial",
    "Abq.Props.C14_drained_partial",
    "Abq.Props.C14_full_statement_fails"
   ],
   "note": "false of the code when a cancelled run is cancelled again; exact deviation proved"
  },
  {
   "property": "C140",
   "status": "partial",
   "theorems": [
    "Abq.Props.C140_taken_exactly",
    "Abq.Props.C140_started_partial",
    "Abq.Props.C140_too_large",
    "Abq.Props.C140_full_statement_fails",
    "Abq.Props.C04_bundles_of_a_run"
   ],
   "note": "The full statement fails: memory for a whole batch of results is set aside when a runner starts, however few tests there are, and a size for which there is none ends the worker, while the queue would have taken it for a hundred. `C140_too_large` says for which sizes a worker starts. `tokio`'s channels and `Vec::with_capacity` are modelled as to when they panic."
  },
  {
   "property": "C141",
   "status": "partial",
   "theorems": [
    "Abq.Props.C141_own_checks_never_fail",
    "Abq.Props.C141_failures_explained_partial",
    "Abq.Props.C141_manifest_twice",
    "Abq.Props.C141_too_early",
    "Abq.Props.C141_complete_unknown_run",
    "Abq.Props.C141_complete_not_at_work",
    "Abq.Props.C141_complete_not_seen",
    "Abq.Props.C141_not_a_worker",
    "Abq.Props.C141_join",
    "Abq.Props.C141_index_moves_forward",
    "Abq.Props.C141_index_may_go_back",
    "Abq.Props.C141_full_statement_fails"
   ],
   "note": "The full statement fails: a worker that is restarted before the manifest is there is taken for one that connects twice. The checks on the queue's own bookkeeping never fail, and each of the checks on what workers do fails exactly when the history shows the cause. `C141_index_moves_forward` is about requests interleaved down to their atomic operations, where the position in the manifest can go back at its very end (`C141_index_may_go_back`). The two checks on a map under the write lock and those of the file stores are not modelled."
  },
  {
   "property": "C142",
   "status": "proved",
   "theorems": [
    "Abq.Props.C142_half_begun",
    "Abq.Props.C142_ahead",
    "Abq.Props.C142_held",
    "Abq.Props.C142_held_restarts"
   ],
   "note": "`C142_half_begun` and `C142_ahead` are about the buffer at any time, also when it is flushed; the examples meet the bounds. `C142_held` is about the three tasks of a runner, at any time, also while it reports the failure of its native runner; `C142_held_restarts` says the same where the native runner may fail to start again."
  },
  {
   "property": "C143",
   "status": "proved",
   "theorems": [
    "Abq.Props.C143_little_left",
    "Abq.Props.C143_by_test"
   ],
   "note": "`C143_by_test` says what bundles are at most in a run split by test. Composition of C52, C27 and C142: the queue's registry with any number of runners. Bundles that cannot be written to a runner, and runners that get an error when they ask or cannot restart their native runner, are excluded (see C52, C73)."
  },
  {
   "property": "C144",
   "status": "partial",
   "theorems": [
    "Abq.Props.C144_nothing_lost_partial",
    "Abq.Props.C144_after_manifest_partial",
    "Abq.Props.C144_one_manifest",
    "Abq.Props.C144_served_partial",
    "Abq.Props.C144_served_all_partial",
    "Abq.Props.C144_summary_partial",
    "Abq.Props.C144_report_partial",
    "Abq.Props.C144_full_statement_fails"
   ],
   "note": "False as it stands: the registry hands out the manifest's tests, or marks the run as over if it is empty, before the handler of the manifest begins to record its size; a client that asks in between, when all runners are done, is sent results without a summary and its report fails. Proved: all that the queue took is recorded or about to be, once; what is served contains all recordings begun before the request and nothing that was not taken; if as many were begun as were taken it is exactly what was taken, with one summary, and the report succeeds when there are results of every test. In one life of the queue, if no write fails and no offload is left half done (C17), below 4 GiB."
  },
  {
   "property": "C145",
   "status": "proved",
   "theorems": [
    "Abq.Props.C145_report"
   ],
   "note": "Composition of C115 and C144: what is recorded is not assumed but follows from what the registry accepted and the batches taken. That the batches taken are those the runners' senders got through (C114), one result per attempt, clocks not set back and placeholders with ids of their own are hypotheses, as is that files are below 4 GiB. C144_full_statement_fails shows why recordings must have been begun before the client asks."
  },
  {
   "property": "C146",
   "status": "proved",
   "theorems": [
    "Abq.Props.C146_agree",
    "Abq.Props.C146_codes_differ"
   ],
   "note": "Composition of C76, C114, C80, C81 and C115, with the hypotheses of C115 (one result per attempt, clocks not set back, placeholders with ids of their own). The codes may differ when they are not 0: a crash in a later attempt gives 101 for the worker and 1 for the report (C146_codes_differ). How a pool of runners ends is C43."
  },
  {
   "property": "C147",
   "status": "proved",
   "theorems": [
    "Abq.Props.C147_put_off",
    "Abq.Props.C147_recording_ends",
    "Abq.Props.C147_request_ends",
    "Abq.Props.C147_in_the_end",
    "Abq.Props.C147_polling",
    "Abq.Props.C147_first_come",
    "Abq.Props.C147_once"
   ],
   "note": "Liveness under the fairness hypothesis `GoesOn`: a task does not wait for ever, that is, an operation on the file or on a connection returns, with whatever success, and the scheduler lets it go on; nothing in the code bounds how long an acknowledgement is written to a worker that does not read. That calls waiting for the locks of the file get them is C125. A scheduler that lets the oldest task go on meets it (C147_first_come). Offloads whose truncation cannot be synced are included here."
  },
  {
   "property": "C148",
   "status": "proved",
   "theorems": [
    "Abq.Props.C148_recorded",
    "Abq.Props.C148_served",
    "Abq.Props.C148_whole",
    "Abq.Props.C148_exit_code",
    "Abq.Props.C148_first_come"
   ],
   "note": "Liveness of the registry of runs and the files of results together, under fairness: a handler spawned for this run and a task of its file are not left waiting for ever. `C148_first_come` shows that a scheduler that serves the oldest first is fair in this sense. The example starts where `C144_full_statement_fails` leaves off. `C148_exit_code` composes C148 with C145. `C148_whole` composes this with what a client makes of the stream (C144): it gets exactly what the queue took, if every write succeeded and no offload was left half done; that the lines are lawful for the codec is a hypothesis, as in C144 (for the JSON of messages see C101 and C129)."
  },
  {
   "property": "C149",
   "status": "proved",
   "theorems": [
    "Abq.Props.C149_on_time",
    "Abq.Props.C149_turns",
    "Abq.Props.C149_served",
    "Abq.Props.C149_at_once",
    "Abq.Props.C149_unreachable"
   ],
   "note": "Times are milliseconds since the waiting began; sleeping takes exactly as long as it was told, and computing takes no time. `C149_turns` ties this to the untimed model of the client (C97, C98, C144, C145, C148): its result is that of the turns begun, but for one the end of the time cut off."
  },
  {
   "property": "C15",
   "status": "proved",
   "theorems": [
    "Abq.Props.C15_cancelled_only_without_progress",
    "Abq.Props.C15_cancelled_only_without_manifest",
    "Abq.Props.C15_new_position",
    "Abq.Props.C15_timeout_decides",
    "Abq.Props.C15_timer_fires"
   ],
   "note": ""
  },
  {
   "property": "C150",
   "status": "proved",
   "theorems": [
    "Abq.Props.C150_requests",
    "Abq.Props.C150_same_loop",
    "Abq.Props.C150_few",
    "Abq.Props.C150_soon",
    "Abq.Props.C150_queue"
   ],
   "note": "Times are milliseconds since the loop began; sleeping takes exactly as long as it was told, and computing takes no time. `C150_same_loop` ties this to the untimed loop of C61, `C150_queue` to the registry of runs. An i/o error ends the loop at once, with that error."
  },
  {
   "property": "C151",
   "status": "partial",
   "theorems": [
    "Abq.Props.C151_no_longer",
    "Abq.Props.C151_test_partial",
    "Abq.Props.C151_tests_partial",
    "Abq.Props.C151_startup_partial",
    "Abq.Props.C151_full_statement_fails",
    "Abq.Props.C151_same_worker"
   ],
   "note": "Two parts fail (`C151_full_statement_fails`): the time of a test includes the wait for room in the channel to the sender of results, so a test that was answered in time may be ended; and the limit for starting up is for the connection only, so a native runner that connects and says nothing is waited for for ever. The partial theorems are exact with the time at which results are with the sender (`Delivered`) in place of the answer, and for what a native runner does until it has connected. `C151_same_worker` ties this to the untimed worker of C121."
  },
  {
   "property": "C152",
   "status": "proved",
   "theorems": [
    "Abq.Props.C152_attempts",
    "Abq.Props.C152_spread",
    "Abq.Props.C152_patient",
    "Abq.Props.C152_soon",
    "Abq.Props.C152_same_loop",
    "Abq.Props.C152_queue"
   ],
   "note": "Times are milliseconds since the loop began; sleeping takes exactly as long as it was told, and computing takes no time. `C152_same_loop` ties this to the untimed loop of C118, `C152_queue` to the registry of runs and what it stored (C22). In `C152_queue` attempts get through to the queue. Of a run taken over from the remote store the queue has no record of who was given what, so there the tests are those stored."
  },
  {
   "property": "C153",
   "status": "proved",
   "theorems": [
    "Abq.Props.C153_in_time",
    "Abq.Props.C153_exit_code"
   ],
   "note": "The client of C149 with the queue of C144 and C145. As there: one life of the queue, no write to the file fails, no offload of it is left half done, and it is below 4 GiB. That the recordings have been begun is needed: C144_full_statement_fails is a client that is let in before. Examples: recordings that are not over when the client begins to wait, for two runs, one with the exit code."
  },
  {
   "property": "C154",
   "status": "partial",
   "theorems": [
    "Abq.Props.C154_attempts",
    "Abq.Props.C154_survives_partial",
    "Abq.Props.C154_gives_up",
    "Abq.Props.C154_lost",
    "Abq.Props.C154_same_sender",
    "Abq.Props.C154_fetch_reconnects",
    "Abq.Props.C154_fetch_gives_up",
    "Abq.Props.C154_fetch_lost",
    "Abq.Props.C154_same_fetcher",
    "Abq.Props.C154_full_statement_fails",
    "Abq.Props.C154_start_partial",
    "Abq.Props.C154_start_gives_up",
    "Abq.Props.C154_start_fails"
   ],
   "note": "Times are milliseconds; sleeping takes exactly as long as it was told, and computing takes no time. `C154_same_sender` ties this to the sender of C114. The full statement fails for asking for tests, which is tried three times with no pause: an outage of a few milliseconds ends the worker (`C154_full_statement_fails`, `C154_fetch_gives_up`); a lost connection alone does not (`C154_fetch_reconnects`). Nor does it hold of waiting for the manifest, where a single attempt to connect that fails ends the runner (`C154_start_fails`, `C154_start_gives_up`). Examples: an outage of eleven seconds that is survived with the fifth attempt, one of thirteen that is not, and a lost acknowledgement."
  },
  {
   "property": "C155",
   "status": "proved",
   "theorems": [
    "Abq.Props.C155_survives",
    "Abq.Props.C155_queue",
    "Abq.Props.C155_gives_up",
    "Abq.Props.C155_lost"
   ],
   "note": "Composes the loop of C152 with the attempts to connect of C154. Times are milliseconds; sleeping takes exactly as long as it was told, and computing takes no time. Examples: a manifest stored during an outage of eleven seconds, an outage of thirteen, and a lost answer."
  },
  {
   "property": "C156",
   "status": "proved",
   "theorems": [
    "Abq.Props.C156_few_unsent",
    "Abq.Props.C156_restarts",
    "Abq.Props.C156_all_sent"
   ],
   "note": "The model of C45. Handing over a batch is one step there: in the code the batch being sent is neither in the buffer nor acknowledged, so it may be lost, too (C114 says what becomes of it). A batch size of 0 is left out: the channel cannot be made then. Example: batches of one result, three answers, and nothing handed over, so the bound is sharp."
  },
  {
   "property": "C16",
   "status": "partial",
   "theorems": [
    "Abq.Props.C16_results_when_complete_partial",
    "Abq.Props.C16_waits_for",
    "Abq.Props.C16_active_exact",
    "Abq.Props.C16_full_statement_fails"
   ],
   "note": "False of the code when a runner fetches again after reporting completion; proved for every runner that does not (whatever others do), and that only runners which have not reported completion are waited for. `C16_active_exact` says exactly who is waited for, whatever runners do."
  },
  {
   "property": "C17",
   "status": "partial",
   "theorems": [
    "Abq.Props.C17_acknowledged_batches_are_read_partial",
    "Abq.Props.C17_each_batch_once_partial",
    "Abq.Props.C17_stream_exact",
    "Abq.Props.C17_full_statement_fails"
   ],
   "note": "excludes a failing sync after the truncation of an offload, where the code loses results; C17_stream_exact says what a stream holds whatever fails"
  },
  {
   "property": "C18",
   "status": "partial",
   "theorems": [
    "Abq.Props.C18_remote_holds_everything_partial",
    "Abq.Props.C18_remote_exact",
    "Abq.Props.C18_full_statement_fails"
   ],
   "note": "false of the code when the plan finishing last was made before the manifest was exhausted"
  },
  {
   "property": "C19",
   "status": "partial",
   "theorems": [
    "Abq.Props.C19_stream_is_everything_written_partial",
    "Abq.Props.C19_reading_succeeds_partial",
    "Abq.Props.C17_stream_exact",
    "Abq.Props.C19_first_exact",
    "Abq.Props.C19_full_statement_fails",
    "Abq.Props.C19_failed_first_load_overwrites_remote"
   ],
   "note": "false of the code without a remote, or when the remote fails at the first access; C17_stream_exact and C19_first_exact say what a stream holds whatever fails, and where it begins"
  },
  {
   "property": "C20",
   "status": "proved",
   "theorems": [
    "Abq.Props.C20_only_stale_nonempty_files",
    "Abq.Props.C20_stale_files_are_offloaded"
   ],
   "note": ""
  },
  {
   "property": "C21",
   "status": "partial",
   "theorems": [
    "Abq.Props.C21_remote_keys_differ",
    "Abq.Props.C21_local_files_differ_partial",
    "Abq.Props.C21_run_id_recovered_partial",
    "Abq.Props.C21_full_statement_fails"
   ],
   "note": "local files: false of the code for run ids with slashes"
  },
  {
   "property": "C22",
   "status": "proved",
   "theorems": [
    "Abq.Props.C22_fetch_only_when_stored",
    "Abq.Props.C22_stored_manifest",
    "Abq.Props.C22_live_retry",
    "Abq.Props.C22_told_to_wait",
    "Abq.Props.C22_one_task",
    "Abq.Props.C22_failed_write_never_fetched"
   ],
   "note": ""
  },
  {
   "property": "C23",
   "status": "partial",
   "theorems": [
    "Abq.Props.C23_fetch_never_wrong_partial",
    "Abq.Props.C23_second_fetch_succeeds_partial",
    "Abq.Props.C23_fetch_succeeds_partial",
    "Abq.Props.C23_fetch_succeeds_locally_partial",
    "Abq.Props.C23_partition_of_fetched",
    "Abq.Props.C23_another_manifest",
    "Abq.Props.C23_full_statement_fails"
   ],
   "note": "false of the code when a shorter manifest is dumped later (C23_another_manifest says exactly when), without a remote after an offload, or after a download that broke off"
  },
  {
   "property": "C24",
   "status": "proved",
   "theorems": [
    "Abq.Props.C24_round_trip",
    "Abq.Props.C24_other_version_incompatible",
    "Abq.Props.C24_found_has_all_parts",
    "Abq.Props.C24_found_in_range",
    "Abq.Props.C24_found_again",
    "Abq.Props.C24_understood_other_version_found",
    "Abq.Props.C24_not_found_iff"
   ],
   "note": "text format and metadata map of serde_json are parameters with a round-trip law"
  },
  {
   "property": "C25",
   "status": "proved",
   "theorems": [
    "Abq.Props.C25_retries_are_the_tests_that_always_failed",
    "Abq.Props.C25_passed_tests_are_not_retried"
   ],
   "note": ""
  },
  {
   "property": "C26",
   "status": "proved",
   "theorems": [
    "Abq.Props.C26_attempts_are_bounded",
    "Abq.Props.C26_end_of_work_comes"
   ],
   "note": ""
  },
  {
   "property": "C27",
   "status": "proved",
   "theorems": [
    "Abq.Props.C27_sources_in_order_then_retries",
    "Abq.Props.C27_end_of_work_is_last",
    "Abq.Props.C27_no_empty_bundle",
    "Abq.Props.C27_waits_only_for_results"
   ],
   "note": "sources are scripts of answers; their reconnections are not modelled"
  },
  {
   "property": "C28",
   "status": "proved",
   "theorems": [
    "Abq.Props.C28_delivered_once_in_order",
    "Abq.Props.C28_no_deadlock",
    "Abq.Props.C28_asked_before_dry",
    "Abq.Props.C28_requests_do_not_wait"
   ],
   "note": "a consumer that is dropped without flushing is modelled for C73 only, the one case in which this happens"
  },
  {
   "property": "C29",
   "status": "proved",
   "theorems": [
    "Abq.Props.C29_sent_in_order",
    "Abq.Props.C29_nothing_left_after_flush"
   ],
   "note": ""
  },
  {
   "property": "C30",
   "status": "proved",
   "theorems": [
    "Abq.Props.C30_one_record_per_tag",
    "Abq.Props.C30_insert_replaces",
    "Abq.Props.C30_order_kept",
    "Abq.Props.C30_insert_if_missing",
    "Abq.Props.C30_contains",
    "Abq.Props.C30_worker_count"
   ],
   "note": "any sequence of set operations"
  },
  {
   "property": "C31",
   "status": "partial",
   "theorems": [
    "Abq.Props.C31_delays_partial",
    "Abq.Props.C31_shape_partial",
    "Abq.Props.C31_delays_from_any_start",
    "Abq.Props.C31_exact",
    "Abq.Props.C31_constant",
    "Abq.Props.C31_full_statement_fails",
    "Abq.Props.C31_full_statement_fails_overflow"
   ],
   "note": "false for an initial delay above the cap (the first delay exceeds it) and for caps whose product with the multiplier overflows a Duration (panic); proved for all others, and C31_exact says for all delays, multipliers and caps what happens"
  },
  {
   "property": "C32",
   "status": "proved",
   "theorems": [
    "Abq.Props.C32_retry",
    "Abq.Props.C32_first_success"
   ],
   "note": "a limit of zero counts as one"
  },
  {
   "property": "C33",
   "status": "proved",
   "theorems": [
    "Abq.Props.C33_wait_only_after_all",
    "Abq.Props.C33_wait_returns_after_all",
    "Abq.Props.C33_wait_never_panics",
    "Abq.Props.C33_read",
    "Abq.Props.C33_dead",
    "Abq.Props.C33_signal_never_waits",
    "Abq.Props.C33_lost_signal"
   ],
   "note": ""
  },
  {
   "property": "C34",
   "status": "proved",
   "theorems": [
    "Abq.Props.C34_read_back",
    "Abq.Props.C34_injective",
    "Abq.Props.C34_limit_is_sharp",
    "Abq.Props.C34_streams"
   ],
   "note": "serde_json and gzip are parameters of which only that decoding undoes encoding and that no encoding is empty is assumed"
  },
  {
   "property": "C35",
   "status": "proved",
   "theorems": [
    "Abq.Props.C35_fragmentation",
    "Abq.Props.C35_all_delivered",
    "Abq.Props.C35_progress"
   ],
   "note": ""
  },
  {
   "property": "C36",
   "status": "partial",
   "theorems": [
    "Abq.Props.C36_cancel_partial",
    "Abq.Props.C36_abandoned_for_ever",
    "Abq.Props.C36_abandoned_compressed",
    "Abq.Props.C36_abandoned_followed",
    "Abq.Props.C36_json",
    "Abq.Props.C36_full_statement_fails"
   ],
   "note": "false: a read abandoned after the size of a message arrived and before any of its body makes the message unreadable when resumed; proved for cancellation at all other points. The exception is exact: a message that is not compressed is lost with all that follow it (C36_abandoned_for_ever), a compressed one is returned if nothing follows it yet (C36_abandoned_compressed), and lost if the next read goes beyond it (C36_abandoned_followed)"
  },
  {
   "property": "C37",
   "status": "partial",
   "theorems": [
    "Abq.Props.C37_accepted",
    "Abq.Props.C37_refused",
    "Abq.Props.C37_roles_partial",
    "Abq.Props.C37_roles_exact",
    "Abq.Props.C37_full_statement_fails",
    "Abq.Props.C37_roles_mean",
    "Abq.Props.C37_no_auth",
    "Abq.Props.C37_client_and_server",
    "Abq.Props.C37_no_token_refused"
   ],
   "note": "false only if user and admin token have the same 30 characters, when the admin token gives the client role; everything proved otherwise"
  },
  {
   "property": "C38",
   "status": "partial",
   "theorems": [
    "Abq.Props.C38_prefixes",
    "Abq.Props.C38_round_trip",
    "Abq.Props.C38_never_confused",
    "Abq.Props.C38_what_parses_partial",
    "Abq.Props.C38_exact_partial",
    "Abq.Props.C38_full_statement_fails"
   ],
   "note": "false: a token followed by the prefix again and anything parses; what parses is characterised exactly, round trip and non-confusion proved in full"
  },
  {
   "property": "C39",
   "status": "proved",
   "theorems": [
    "Abq.Props.C39_tests_in_order",
    "Abq.Props.C39_distinct_work_ids",
    "Abq.Props.C39_groups",
    "Abq.Props.C39_same_group_iff",
    "Abq.Props.C39_contiguous"
   ],
   "note": "UUIDs are taken as fresh: they are numbered in order of creation and never collide"
  },
  {
   "property": "C40",
   "status": "proved",
   "theorems": [
    "Abq.Props.C40_total_order",
    "Abq.Props.C40_sorted_permutation",
    "Abq.Props.C40_independent_of_arrival",
    "Abq.Props.C40_together"
   ],
   "note": "std's into_sorted_vec enters by its contract (ascending permutation); groups with equal keys may come in any order"
  },
  {
   "property": "C41",
   "status": "partial",
   "theorems": [
    "Abq.Props.C41_numbers",
    "Abq.Props.C41_test_time_partial",
    "Abq.Props.C41_test_time_fails",
    "Abq.Props.C41_tests_listed",
    "Abq.Props.C41_exit_code",
    "Abq.Props.C41_failed_partial",
    "Abq.Props.C41_full_statement_fails",
    "Abq.Props.C41_crashes_counted_each",
    "Abq.Props.C41_any_order"
   ],
   "note": "false without a condition on attempt numbers: a test that passed and fails when its worker is run again counts as failed, one that fails only in later attempts does not; numbers and exit code are characterised exactly for all histories"
  },
  {
   "property": "C42",
   "status": "proved",
   "theorems": [
    "Abq.Props.C42_never_stale"
   ],
   "note": ""
  },
  {
   "property": "C43",
   "status": "partial",
   "theorems": [
    "Abq.Props.C43_exit_code_partial",
    "Abq.Props.C43_manifest_output_partial",
    "Abq.Props.C43_exact",
    "Abq.Props.C43_full_statement_fails",
    "Abq.Props.C43_manifest_output_lost"
   ],
   "note": "false in general: the code takes the last runner's exit code and drops the manifest output if a later runner ends normally; proved where the last runner's is the highest / it is the one that has the output; C43_exact says for all pools what they are"
  },
  {
   "property": "C44",
   "status": "proved",
   "theorems": [
    "Abq.Props.C44_captured_prefix",
    "Abq.Props.C44_all",
    "Abq.Props.C44_forwarded",
    "Abq.Props.C44_not_forwarded",
    "Abq.Props.C44_combined",
    "Abq.Props.C44_peeked",
    "Abq.Props.C44_completes"
   ],
   "note": "a runner's capture closed early (timeout) captures a prefix"
  },
  {
   "property": "C45",
   "status": "proved",
   "theorems": [
    "Abq.Props.C45_reported_in_order",
    "Abq.Props.C45_every_test_reported",
    "Abq.Props.C45_failures_of_a_crash",
    "Abq.Props.C45_failures_of_a_timeout",
    "Abq.Props.C45_crash_is_last"
   ],
   "note": "whole-runner machine: fetcher, prefetch buffer, native runner as an oracle, results channel, result buffer; errors of restarting the native runner between attempts are not modelled"
  },
  {
   "property": "C46",
   "status": "partial",
   "theorems": [
    "Abq.Props.C46_flag_partial",
    "Abq.Props.C46_same_not_flagged",
    "Abq.Props.C46_one_change_flagged_partial",
    "Abq.Props.C46_more_arguments_flagged_partial",
    "Abq.Props.C46_full_statement_fails"
   ],
   "note": "false: program and arguments are hashed without separators; proved that same commands are never flagged and that a change of one component or added arguments always is"
  },
  {
   "property": "C47",
   "status": "proved",
   "theorems": [
    "Abq.Props.C47_only_supported_version",
    "Abq.Props.C47_other_versions"
   ],
   "note": ""
  },
  {
   "property": "C48",
   "status": "proved",
   "theorems": [
    "Abq.Props.C48_complete",
    "Abq.Props.C48_succeeds_iff",
    "Abq.Props.C48_incomplete",
    "Abq.Props.C48_each_reporter",
    "Abq.Props.C48_outputs",
    "Abq.Props.C48_finish_only_when_complete",
    "Abq.Props.C48_exit_code",
    "Abq.Props.C48_printed",
    "Abq.Props.C48_exit_code_one_run",
    "Abq.Props.C48_exit_code_exact",
    "Abq.Props.C48_clock_set_back"
   ],
   "note": "errors of writing to the terminal are not modelled"
  },
  {
   "property": "C49",
   "status": "partial",
   "theorems": [
    "Abq.Props.C49_never_overlaps",
    "Abq.Props.C49_skipped_while_active",
    "Abq.Props.C49_runs_again_partial",
    "Abq.Props.C49_full_statement_fails"
   ],
   "note": "no overlap and skipping proved in full; a run after a job that panicked is never executed, proved to fail"
  },
  {
   "property": "C50",
   "status": "proved",
   "theorems": [
    "Abq.Props.C50_test",
    "Abq.Props.C50_report",
    "Abq.Props.C50_report_remote",
    "Abq.Props.C50_readonly"
   ],
   "note": "TLS configuration from the key and certificate, and file contents, enter as functions of the world"
  },
  {
   "property": "C51",
   "status": "proved",
   "theorems": [
    "Abq.Props.C51_inferred_run_id",
    "Abq.Props.C51_nothing_inferred"
   ],
   "note": ""
  },
  {
   "property": "C52",
   "status": "partial",
   "theorems": [
    "Abq.Props.C52_end_only_after_all",
    "Abq.Props.C52_every_test_accounted",
    "Abq.Props.C52_all_delivered_partial",
    "Abq.Props.C52_full_statement_fails"
   ],
   "note": "false of the code when writing a bundle to a worker fails"
  },
  {
   "property": "C53",
   "status": "proved",
   "theorems": [
    "Abq.Props.C53_behaves_like_a_map",
    "Abq.Props.C53_returns_previous"
   ],
   "note": "any sequence of map operations"
  },
  {
   "property": "C54",
   "status": "proved",
   "theorems": [
    "Abq.Props.C54_timer_always_armed",
    "Abq.Props.C54_timer_position",
    "Abq.Props.C93_stuck_is_cancelled"
   ],
   "note": "that the timer is handled in the end is the hypothesis `Prompt` of C93_stuck_is_cancelled"
  },
  {
   "property": "C55",
   "status": "partial",
   "theorems": [
    "Abq.Props.C55_persistence_in_progress_partial",
    "Abq.Props.C55_available_iff",
    "Abq.Props.C55_stuck_for_ever",
    "Abq.Props.C22_failed_write_never_fetched",
    "Abq.Props.C55_full_statement_fails"
   ],
   "note": "false of the code when the last bundle cannot be written"
  },
  {
   "property": "C56",
   "status": "proved",
   "theorems": [
    "Abq.Props.C56_no_panic",
    "Abq.Props.C56_no_run_only_if_unknown"
   ],
   "note": ""
  },
  {
   "property": "C57",
   "status": "partial",
   "theorems": [
    "Abq.Props.C57_results_survive_restart_partial",
    "Abq.Props.C57_what_survives",
    "Abq.Props.C57_full_statement_fails"
   ],
   "note": "false of the code for results acknowledged but not yet copied to the remote"
  },
  {
   "property": "C58",
   "status": "partial",
   "theorems": [
    "Abq.Props.C58_retries_focus_on_failures_partial",
    "Abq.Props.C58_full_statement_fails"
   ],
   "note": "retries are narrowed to precisely the first failure of each attempt; false of the code for the second and later failures of one piece of work in one attempt"
  },
  {
   "property": "C59",
   "status": "proved",
   "theorems": [
    "Abq.Props.C59_attempts_until_success",
    "Abq.Props.C59_not_after_success"
   ],
   "note": ""
  },
  {
   "property": "C60",
   "status": "partial",
   "theorems": [
    "Abq.Props.C60_comes_to_rest",
    "Abq.Props.C60_finishes_or_hangs_partial",
    "Abq.Props.C60_runner_finishes_partial",
    "Abq.Props.C60_full_statement_fails"
   ],
   "note": "false in general: with retries a native runner failure can hang the worker. Proved: every fair schedule ends in a finished runner or in exactly that hang, and in a finished runner when there are no retries or no native runner failures"
  },
  {
   "property": "C61",
   "status": "proved",
   "theorems": [
    "Abq.Props.C61_first_definite_answer",
    "Abq.Props.C61_does_not_give_up",
    "Abq.Props.C61_same_as_iterator"
   ],
   "note": ""
  },
  {
   "property": "C62",
   "status": "proved",
   "theorems": [
    "Abq.Props.C62_errors",
    "Abq.Props.C62_outputs",
    "Abq.Props.C62_process_exit_code",
    "Abq.Props.C62_panic"
   ],
   "note": ""
  },
  {
   "property": "C63",
   "status": "partial",
   "theorems": [
    "Abq.Props.C63_no_message_made_up_partial",
    "Abq.Props.C63_blocking_reader_reports_end",
    "Abq.Props.C63_blocking_reader_times_out",
    "Abq.Props.C63_incremental_reader_reports_partial",
    "Abq.Props.C63_full_statement_fails"
   ],
   "note": "false for the incremental reader: an end of the connection within a body is not reported before the timeout, and the buffer grows with every read; no made-up messages, the blocking reader and the other cases proved"
  },
  {
   "property": "C64",
   "status": "proved",
   "theorems": [
    "Abq.Props.C64_per_file",
    "Abq.Props.C64_runners"
   ],
   "note": ""
  },
  {
   "property": "C65",
   "status": "proved",
   "theorems": [
    "Abq.Props.C65_list_tests"
   ],
   "note": ""
  },
  {
   "property": "C66",
   "status": "partial",
   "theorems": [
    "Abq.Props.C66_address_used_partial",
    "Abq.Props.C66_exact",
    "Abq.Props.C66_full_statement_fails"
   ],
   "note": "false after `abq login` with an organization's token: the address is ignored and the hosted queue used. C66_exact says exactly when the address is used"
  },
  {
   "property": "C67",
   "status": "proved",
   "theorems": [
    "Abq.Props.C67_health"
   ],
   "note": ""
  },
  {
   "property": "C68",
   "status": "proved",
   "theorems": [
    "Abq.Props.C68_retries",
    "Abq.Props.C68_at_most_six",
    "Abq.Props.C68_delays"
   ],
   "note": "time is counted, not measured"
  },
  {
   "property": "C69",
   "status": "proved",
   "theorems": [
    "Abq.Props.C69_answer",
    "Abq.Props.C69_only_on_success"
   ],
   "note": "URL parsing and DNS enter as fields of the answer"
  },
  {
   "property": "C70",
   "status": "partial",
   "theorems": [
    "Abq.Props.C70_not_without_signal",
    "Abq.Props.C70_retires_partial",
    "Abq.Props.C70_one_signal_kills",
    "Abq.Props.C70_full_statement_fails"
   ],
   "note": "false: one signal both retires and stops the queue, in every schedule"
  },
  {
   "property": "C71",
   "status": "partial",
   "theorems": [
    "Abq.Props.C71_no_crash_partial",
    "Abq.Props.C71_full_statement_fails",
    "Abq.Props.C71_after_reaped",
    "Abq.Props.C71_collected_twice",
    "Abq.Props.C71_collected_twice_exactly"
   ],
   "note": "false after `close` if the aborted tasks were not dropped yet, and when a native runner cannot be started again"
  },
  {
   "property": "C72",
   "status": "partial",
   "theorems": [
    "Abq.Props.C72_answered",
    "Abq.Props.C72_answers_reported",
    "Abq.Props.C72_attributed",
    "Abq.Props.C72_all_reported_partial",
    "Abq.Props.C72_exact",
    "Abq.Props.C72_whole_run_partial",
    "Abq.Props.C72_full_statement_fails"
   ],
   "note": "false for messages with several results, or none, and for tests that end in an error"
  },
  {
   "property": "C73",
   "status": "partial",
   "theorems": [
    "Abq.Props.C73_no_retries_partial",
    "Abq.Props.C73_never_told",
    "Abq.Props.C73_full_statement_fails",
    "Abq.Props.C73_failed_restart_panics",
    "Abq.Props.C73_unreported",
    "Abq.Props.C73_ends_partial",
    "Abq.Props.C73_hangs",
    "Abq.Props.C73_fate",
    "Abq.Props.C73_between_attempts"
   ],
   "note": "false: with retries the runner may hang, the test is not reported and the queue is never told; and where it does not hang it panics. `C73_unreported` says exactly which tests are not reported, and how many they are at most; `C73_ends_partial` that the runner ends if it was not fetching tests, `C73_hangs` that it never does if it waits to know which tests to try again; `C73_fate` that, while it fetches, it hangs if a further attempt at the test is allowed and the fetching ends with the next step if not; `C73_between_attempts` that this can happen only before the first test of an attempt"
  },
  {
   "property": "C74",
   "status": "partial",
   "theorems": [
    "Abq.Props.C74_all_run_partial",
    "Abq.Props.C74_missing",
    "Abq.Props.C74_told_at_the_end",
    "Abq.Props.C74_full_statement_fails"
   ],
   "note": "false: the message may overtake the last batches of results; C74_missing bounds how many results may be missing then, and the bound is met"
  },
  {
   "property": "C75",
   "status": "partial",
   "theorems": [
    "Abq.Props.C75_results_reported_partial",
    "Abq.Props.C75_all_but_the_last",
    "Abq.Props.C75_restart_fails",
    "Abq.Props.C75_full_statement_fails"
   ],
   "note": "false: waiting for room in the channel of results counts against the time limit. `C75_restart_fails` is about a native runner that cannot be started again"
  },
  {
   "property": "C76",
   "status": "proved",
   "theorems": [
    "Abq.Props.C76_every_test_reported_once",
    "Abq.Props.C76_until_success",
    "Abq.Props.C76_not_after_success",
    "Abq.Props.C76_one_runner",
    "Abq.Props.C76_crash_is_last"
   ],
   "note": "composition of C52, C45, C59: the answers of the queue's model are what the runners' models are given"
  },
  {
   "property": "C77",
   "status": "proved",
   "theorems": [
    "Abq.Props.C77_tells_the_queue",
    "Abq.Props.C77_at_most_once",
    "Abq.Props.C77_panics",
    "Abq.Props.C77_shutdown",
    "Abq.Props.C77_bounded"
   ],
   "note": "what execute_all_tests does with tests is one step here; see C45, C73"
  },
  {
   "property": "C78",
   "status": "partial",
   "theorems": [
    "Abq.Props.C78_every_attempt",
    "Abq.Props.C78_in_order_partial",
    "Abq.Props.C78_order_exact",
    "Abq.Props.C78_full_statement_fails",
    "Abq.Props.C78_tests",
    "Abq.Props.C78_named",
    "Abq.Props.C78_other_errors",
    "Abq.Props.C78_nothing_lost",
    "Abq.Props.C78_numbers",
    "Abq.Props.C78_status",
    "Abq.Props.C78_adds_up",
    "Abq.Props.C78_any_order"
   ],
   "note": "Everything is proved for all results except the order of attempts: it holds if attempts that come with a result have no further attempts of their own (C78_in_order_partial), and fails otherwise (C78_full_statement_fails); C78_order_exact says what the order is."
  },
  {
   "property": "C79",
   "status": "partial",
   "theorems": [
    "Abq.Props.C79_success_is_success",
    "Abq.Props.C79_agree_partial",
    "Abq.Props.C79_full_statement_fails"
   ],
   "note": "A report of success implies exit code 0, for all results. The converse fails after a crash that a retry made good, after a failure without location that a retry made good, and after a test that passed and failed when its file was tried again; it is proved when none of these occur."
  },
  {
   "property": "C80",
   "status": "partial",
   "theorems": [
    "Abq.Props.C80_told_everything_partial",
    "Abq.Props.C80_summary_partial",
    "Abq.Props.C80_finished_last_partial",
    "Abq.Props.C80_no_panic_partial",
    "Abq.Props.C80_finishes_partial",
    "Abq.Props.C80_full_statement_fails",
    "Abq.Props.C80_all_finished"
   ],
   "note": "Proved for all schedules and reporters if every answer sent has a result. Fails otherwise: an answer without a result panics the reporting task, and later results are lost (C80_full_statement_fails)."
  },
  {
   "property": "C81",
   "status": "proved",
   "theorems": [
    "Abq.Props.C81_exit_zero",
    "Abq.Props.C81_error_code"
   ],
   "note": "The exit code of the runners is that of C43. Errors of reporters are printed and do not change the exit code."
  },
  {
   "property": "C82",
   "status": "partial",
   "theorems": [
    "Abq.Props.C82_path_partial",
    "Abq.Props.C82_path_exact",
    "Abq.Props.C82_default_path",
    "Abq.Props.C82_print_parse_partial",
    "Abq.Props.C82_print_parse_exact",
    "Abq.Props.C82_accepted",
    "Abq.Props.C82_full_statement_fails"
   ],
   "note": "Proved for paths without `=`; a path with `=` is cut at it (C82_path_exact, C82_full_statement_fails). A path is text here: paths that are not UTF-8 cannot be given. White space is a parameter of which only that it has no printable ASCII characters is assumed."
  },
  {
   "property": "C83",
   "status": "proved",
   "theorems": [
    "Abq.Props.C83_never_both",
    "Abq.Props.C83_exactly_one",
    "Abq.Props.C83_default",
    "Abq.Props.C83_files",
    "Abq.Props.C83_output_shown_once",
    "Abq.Props.C83_default_beside_named"
   ],
   "note": "What a native runner writes to standard output when it is not piped is captured (C72, C73)."
  },
  {
   "property": "C84",
   "status": "partial",
   "theorems": [
    "Abq.Props.C84_sends_no_results",
    "Abq.Props.C84_unchanged_partial",
    "Abq.Props.C84_during",
    "Abq.Props.C84_full_statement_fails"
   ],
   "note": "Proved for runs whose report is available, replayed by runners that took part in them and that ended. Fails for a run in progress (tests are taken from the queue and their results never sent; cancelling the replay cancels the run), for a replay that is killed (the report stays unavailable) and for an unknown run id (C84_full_statement_fails)."
  },
  {
   "property": "C85",
   "status": "proved",
   "theorems": [
    "Abq.Props.C85_waits",
    "Abq.Props.C85_keeps_waiting",
    "Abq.Props.C85_follows",
    "Abq.Props.C85_never_unknown",
    "Abq.Props.C85_one_generator",
    "Abq.Props.C85_exactly_one_generator",
    "Abq.Props.C85_stored_exit",
    "Abq.Props.C85_late_worker",
    "Abq.Props.C85_cancelled_worker",
    "Abq.Props.C85_error",
    "Abq.Props.C85_message_says_why"
   ],
   "note": "That late workers succeed assumes that run states found in the remote store were stored by a queue. What the runners then do is C27, C59, C60, C77."
  },
  {
   "property": "C86",
   "status": "partial",
   "theorems": [
    "Abq.Props.C86_retry_partial",
    "Abq.Props.C86_retry_exact",
    "Abq.Props.C86_retry_stored_partial",
    "Abq.Props.C86_retry_stored_exact",
    "Abq.Props.C86_full_statement_fails"
   ],
   "note": "It is given again exactly what its runners 1 to n had been given (C86_retry_exact), which is everything precisely if the runners that were given tests are among them. Fails with fewer: the tests of the other runners are handed to nobody (C86_full_statement_fails)."
  },
  {
   "property": "C87",
   "status": "partial",
   "theorems": [
    "Abq.Props.C87_dots",
    "Abq.Props.C87_dots_each",
    "Abq.Props.C87_lines",
    "Abq.Props.C87_progress",
    "Abq.Props.C87_progress_bar",
    "Abq.Props.C87_progress_never_panics",
    "Abq.Props.C87_numbers_partial",
    "Abq.Props.C87_full_statement_fails"
   ],
   "note": "Everything but the numbers in the progress bar is proved in full. These are right if no test is retried; a test that fails and then passes is counted twice and as a failure (C87_full_statement_fails)."
  },
  {
   "property": "C88",
   "status": "partial",
   "theorems": [
    "Abq.Props.C88_summary",
    "Abq.Props.C88_failures_add_up_partial",
    "Abq.Props.C88_full_statement_fails"
   ],
   "note": "The lists are proved in full. That failures add up is proved if every failing test has a file and no native runner crashed; it fails otherwise (C88_full_statement_fails)."
  },
  {
   "property": "C89",
   "status": "partial",
   "theorems": [
    "Abq.Props.C89_failing_shown",
    "Abq.Props.C89_complete",
    "Abq.Props.C89_lines_exact",
    "Abq.Props.C89_lines_partial",
    "Abq.Props.C89_full_statement_fails"
   ],
   "note": "Completeness is proved in full. That headings stand on lines of their own is proved precisely for outputs that do not end in a newline followed by blanks (C89_lines_exact); it fails for these (C89_full_statement_fails)."
  },
  {
   "property": "C90",
   "status": "partial",
   "theorems": [
    "Abq.Props.C90_cases",
    "Abq.Props.C90_counts",
    "Abq.Props.C90_success_is_success",
    "Abq.Props.C90_agree_partial",
    "Abq.Props.C90_full_statement_fails",
    "Abq.Props.C90_long_times_fail"
   ],
   "note": "That a clean report means success is proved in full. The converse is proved if no native runner crashed and no test was run twice; it fails for a test that failed and passed when retried, which has two test cases (C90_full_statement_fails). How junit_report derives counts, and the stripping of escape codes, are trusted; the text it writes is the subject of C132."
  },
  {
   "property": "C91",
   "status": "partial",
   "theorems": [
    "Abq.Props.C91_course",
    "Abq.Props.C91_registry",
    "Abq.Props.C91_once",
    "Abq.Props.C91_results_kept",
    "Abq.Props.C91_cancelled",
    "Abq.Props.C91_next_turn",
    "Abq.Props.C91_full_statement_fails"
   ],
   "note": "All courses are characterised, and the runs are proved to be in a state that the logged calls bring about. The last sentence of the statement fails: cancellations, manifests and the word that a worker has run all its tests are acknowledged before they are carried out, so they are dropped if the acknowledgment cannot be written, and are not in effect right after it (C91_full_statement_fails). C91_cancelled is about handlers that have ended. The contents of answers are abstracted to what the registry came up with; streaming of results is C17 to C19."
  },
  {
   "property": "C92",
   "status": "proved",
   "theorems": [
    "Abq.Props.C92_no_trace",
    "Abq.Props.C92_unauthorised",
    "Abq.Props.C92_available",
    "Abq.Props.C92_separate"
   ],
   "note": "TLS and the sockets are not modelled: whether an accept, a read or a write succeeds is up to the schedule."
  },
  {
   "property": "C93",
   "status": "proved",
   "theorems": [
    "Abq.Props.C93_cancelled_only_when_stuck",
    "Abq.Props.C93_progress_is_safe",
    "Abq.Props.C93_stuck_is_cancelled"
   ],
   "note": "That the queue gets round to a timer within a given slack of its time is a hypothesis of the liveness theorem (`Prompt`); that it finds every timer that is due is C94."
  },
  {
   "property": "C94",
   "status": "proved",
   "theorems": [
    "Abq.Props.C94_once",
    "Abq.Props.C94_not_early",
    "Abq.Props.C94_found",
    "Abq.Props.C94_lets_in"
   ],
   "note": "FuturesUnordered and tokio's timer wheel are modelled as a list of due times."
  },
  {
   "property": "C95",
   "status": "partial",
   "theorems": [
    "Abq.Props.C95_spawned",
    "Abq.Props.C95_forms",
    "Abq.Props.C95_spawned_read",
    "Abq.Props.C95_manifest_said",
    "Abq.Props.C95_manifest_read",
    "Abq.Props.C95_failure_exact",
    "Abq.Props.C95_failure_read_partial",
    "Abq.Props.C95_manifest_refused",
    "Abq.Props.C95_results_said",
    "Abq.Props.C95_incremental_read",
    "Abq.Props.C95_single_exact",
    "Abq.Props.C95_single_read_partial",
    "Abq.Props.C95_multiple_exact",
    "Abq.Props.C95_multiple_read_partial",
    "Abq.Props.C95_results_refused",
    "Abq.Props.C95_reported",
    "Abq.Props.C95_failing",
    "Abq.Props.C95_made_up_failing",
    "Abq.Props.C95_all",
    "Abq.Props.C95_tests",
    "Abq.Props.C95_sent",
    "Abq.Props.C95_init",
    "Abq.Props.C95_init_success",
    "Abq.Props.C95_full_statement_fails"
   ],
   "note": "The type of a message is looked at only for incremental results: a failure that comes with a manifest is taken for a success (C95_full_statement_fails). The parts with the suffix assume that a message has none of the members of the messages tried before it. Arrays in place of objects and numbers in place of names of variants, which serde takes too, are modelled: the theorems say of every document exactly what it is taken for."
  },
  {
   "property": "C96",
   "status": "partial",
   "theorems": [
    "Abq.Props.C96_stored_in_s3",
    "Abq.Props.C96_stored_by_command_partial",
    "Abq.Props.C96_not_started_anew_partial",
    "Abq.Props.C96_full_statement_fails"
   ],
   "note": "Proved from the moment the state of the run is stored, for S3 whatever the store does, for a custom command as long as the command does not fail to load the state. C96_full_statement_fails: a command that fails once is taken for a missing state and the run is run again; so is a run whose queue is restarted between the last answer and the write of the state. Documents in the store are read as C24 says."
  },
  {
   "property": "C97",
   "status": "partial",
   "theorems": [
    "Abq.Props.C97_fetched_partial",
    "Abq.Props.C97_succeeds_partial",
    "Abq.Props.C97_cut",
    "Abq.Props.C97_why_not",
    "Abq.Props.C97_every_test_partial",
    "Abq.Props.C97_list_tests_partial",
    "Abq.Props.C97_no_false_success_partial",
    "Abq.Props.C97_full_statement_fails",
    "Abq.Props.C97_large_file_fails"
   ],
   "note": "Fails in full. A connection that ends early between two lines is not noticed: `abq report` then gives exit code 1 for a run whose retries passed, and `abq list-tests` prints fewer tests or none with exit code 0. The size of a stream is sent modulo 4 GiB. Proved: what is fetched is always a part from the start of what is recorded, at a moment when the run is over; it is all of it if the connection brings all and the file is below 4 GiB; `C97_cut` says exactly what becomes of a connection that ends early: it is noticed unless it ends where a line ends; errors say what is so; and even if lines are lost a report that succeeds has results of every test, and one with exit code 0 hides no failure."
  },
  {
   "property": "C98",
   "status": "partial",
   "theorems": [
    "Abq.Props.C98_fetched_partial",
    "Abq.Props.C98_fetched_all_partial",
    "Abq.Props.C98_report_partial",
    "Abq.Props.C98_full_statement_fails"
   ],
   "note": "Within one life of the queue that begins without the file, when no write to the file fails and no offload is left half done (C17_full_statement_fails shows why), for files below 4 GiB (C97_large_file_fails) and a stream that comes in whole (C97_full_statement_fails). The order of two recordings is not said: they may be written in either order (C17), and the report does not depend on it (C40)."
  },
  {
   "property": "C99",
   "status": "proved",
   "theorems": [
    "Abq.Props.C99_phase_is_history",
    "Abq.Props.C99_answers_by_phase",
    "Abq.Props.C99_unknown_run",
    "Abq.Props.C99_metadata",
    "Abq.Props.C99_cancel_reason",
    "Abq.Props.C99_cancelled_read"
   ],
   "note": "All schedules of the registry model."
  }
 ]
}