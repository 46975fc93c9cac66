# Formal model of rwx-research/abq in Lean 4: design

## Technique and layout

The model is a set of small, total, computable Lean functions and step relations,
one Lean definition per Rust function (or per lock-protected / atomic region of it).

* `lean/Verif/Model/*.lean`  the model; every definition cites the file and lines it models.
* `lean/Verif/Spec/*.lean`  the vocabulary of the properties: what is observed, stated apart from the functions of the model.
* `lean/Verif/Proof/*.lean`  invariants and helper lemmas.
* `lean/Verif/Props/*.lean`  small specifications and the property theorems, with an
  `example` beside each showing that its hypotheses are met by a concrete case.

Concurrency is modelled by interleaving at the granularity of the atomic operations
and of the lock-protected regions of the Rust code. A *schedule* is a list of steps,
theorems quantify over every schedule (list) and every number of threads.

## Trusted base

* Lean 4.33.0's kernel. Axioms used: at most `propext`, `Classical.choice`, `Quot.sound`
  (checked with `#print axioms`). No axioms are added, no `sorry`, no `native_decide`/`bv_decide`.
* The reading of the Rust source. The code is not compiled or run here.
* The model is of a release build: `debug_assert!` does nothing, `log_assert!` and `illegal_state!` only log
  (which of the queue's can fail is C141).
* What the model takes as given: Rust's type and memory safety; sequential consistency
  of the atomics (`abq_utils::atomic::ORDERING` is `SeqCst`); mutual exclusion of
  `Mutex`/`RwLock`; serde's derived translation between values and JSON documents as a parameter with a round-trip assumption, where it is not modelled
  (the text of JSON documents is modelled in `JsonText`, a model of the external library `serde_json` 1.0.94; that of the JUnit report in
  `JUnitText`, a model of `junit-report` 0.8.2 and `quick-xml` 0.26.0; the removal of escape codes in `StripCodes`, a model of
  `strip-ansi-escapes` 0.1.1, `vte` 0.10.1 and `utf8parse` 0.2.0)
  stated as a hypothesis where it is used; gzip likewise; the hash function of the test
  command as an injective parameter; file reads/writes as operations on byte lists.
* Not modelled: TLS and TCP themselves (a connection is a byte stream on which an operation succeeds or fails, as the
  schedule says), spawning of processes, the HTTP client, signals of the operating system beyond their delivery, tracing
  and logging, control codes other than the colours of `Colors` (`indicatif`'s drawing of the progress bar), the parser of command line arguments,
  cron expressions, randomness (ids are fresh), and test-only code (`#[cfg(test)]`, `abq_test_support`, `*_test_utils`).
  The table below says it file by file.

### What is modelled of each file

Line counts are without tests. "All" means every function that has an effect other than logging.

| file (`crates/`) | model | left out |
|---|---|---|
| `abq_queue/src/job_queue.rs` | `JobQueue` (all) | |
| `abq_queue/src/queue.rs` | `AllRuns` (the registry `AllRuns`, all public functions), `JobQueue` (`get_next_work_online`), `Results` (cells, plans), `Server` (`QueueServer`, `WorkScheduler`: every message), `Timed` (timer loop), `Lifecycle` (`Abq`), `Startup` (`start_queue`: the three listeners), `RegistryLocks` (the locks of `AllRuns`), `Recording` (the registry, the handlers that go on from its answers, and the files of results together), `Checks` (`log_assert!`, `illegal_state!`) | worker timings |
| `abq_queue/src/timeout.rs` | `Timed` (all) | the default for tests |
| `abq_queue/src/worker_tracking.rs` | `WorkerSet` (all), `Checks` (its `log_assert!`) | |
| `abq_queue/src/worker_timings.rs` | | all (logging) |
| `abq_queue/src/persistence/manifest.rs`, `manifest/fs.rs` | `ManifestView`, `ManifestStore`, `Names`, `OffloadJob` (all) | |
| `abq_queue/src/persistence/results.rs`, `results/fs.rs` | `Results`, `Names`, `OffloadJob`, `FileLocks` (all) | a call that is cancelled while it waits for a lock |
| `abq_queue/src/persistence/offload.rs` | `Results` (all), `OffloadJob` | |
| `abq_queue/src/persistence/run_state.rs` | `RunStateDoc` (all) | |
| `abq_queue/src/persistence/remote.rs`, `remote/{s3,noop,custom}.rs` | `RunStateDoc`, `Results`, `Names`, `Restart`, `RemoteConfig` (what is stored where, and what loading answers) | the S3 client, the process of the custom command |
| `abq_queue/src/persistence/{manifest,results}/in_memory.rs`, `remote/fake.rs` | | all (used in tests) |
| `abq_workers/src/negotiate.rs` | `Attach` (negotiator and worker side), `Server` (its connections), `Startup` (`ask_queue`), `Address` | |
| `abq_workers/src/workers.rs` | `Pool`, `Attach`, `Liveness`, `Replay`, `WorkerSignals`, `RunnerEnv` | the panic hook's text |
| `abq_workers/src/runner_strategy.rs` | `Backoff`, `StartWait`, `SendTime` (time), `RunnerStart`, `Attach`, `Replay` | |
| `abq_workers/src/liveness.rs`, `assigned_run.rs`, `results_handler.rs` | `Liveness`, `AllRuns`, `Pipeline`, `Fetcher`, `Replay`, `Delivery`, `SendTime` (time) | |
| `abq_workers/src/test_fetching.rs`, `test_fetching/*.rs` | `Fetcher`, `Retries`, `Pipeline`, `TestsConn`, `RetryWait`, `RetryOutage` (time), `SendTime` (time) (all) | |
| `abq_runners/generic_test_runner/src/lib.rs` | `RunnerStart`, `RunnerEnd`, `NativeRunner`, `TestTime` (time), `LostTests`, `Pipeline`, `Attribution`, `Journey`, `Command`, `RunnerEnv`, `WorkerSignals` | wording of other messages |
| `abq_runners/generic_test_runner/src/message_buffer.rs`, `buffered_results.rs` | `MessageBuffer`, `BufferedResults`, `Pipeline` (all); their allocations are in `BatchSize` | |
| `abq_utils/src/net_protocol.rs` | `Framing` (reading and writing, sync and async), `Basic`, `Fetch` (lines of results), `Retries` (`TestSpec`, `WorkerTest`), message types in `Server` and `AllRuns`, `Messages`, `QueueAnswers` (derived serialization of the messages between workers and queue, and of the files), `JsonText` (the text of all messages), `Address` (the text of addresses) | the sequence form of structs, which serde also reads |
| `abq_utils/src/net_protocol/runners.rs`, `runners/v0_2.rs` | `Protocol` (messages), `Flatten`, `Command`, `Durations` (`TestRuntime`), `ErrorText` (`Display` of errors) | constructors for tests |
| `abq_utils/src/auth/*.rs` | `Auth`, `TokenGen` (all) | the generator of random words |
| `abq_utils/src/{decay,retry,vec_map,whitespace,test_command_hash,exit}.rs` | `Backoff`, `WorkerSet`, `Output`, `Command`, `Summary` (all) | the hash function |
| `abq_utils/src/capture_output/*.rs` | `Capture` (all) | |
| `abq_utils/src/{net,net_async,net_opt,tls,time,timeout_future,oneshot_notify,error,log_assert,atomic}.rs`, `net/*`, `net_async/*` | `Access` (options of servers and clients, connect, handshake), `ReportWait` (`timeout_future`) | the rest: thin wrappers of sockets, clocks and channels; the TLS library is a parameter |
| `abq_utils/src/server_shutdown.rs` | `Shutdown` (all), `Lifecycle`, `Server` | |
| `abq_cli/src/main.rs`, `args.rs`, `abq_config.rs` | `Config` (choice of queue, tokens, run id; health), `Login` (the access token kept), `RunnerEnv` (the command), `Access` (tokens and certificates of `abq start`), `Options` (the words of `-n`) | the parsing of command lines by clap, the TOML library |
| `abq_cli/src/instance.rs`, `instance/periodic_job.rs` | `Signals`, `PeriodicJob`, `Lifecycle`, `Startup` (addresses, directories) | printing |
| `abq_cli/src/instance/{local,remote}_persistence.rs` | `Restart`, `RemoteConfig`, `Startup` (all) | |
| `abq_cli/src/health.rs` | `Config` | |
| `abq_cli/src/workers.rs`, `workers/reporting.rs` | `Pool`, `WorkerReport`, `Attach`, `WorkerSignals`, `ReporterOptions`, `WorkerExit`, `ReplayHint` | |
| `abq_cli/src/report.rs`, `report/ordered_results.rs` | `Report`, `Output`, `Fetch`, `ReportWait` (time), `Journey` (with the contents of results) | |
| `abq_cli/src/reporting.rs`, `reporting/summary.rs` | `ReporterOptions`, `Summary` (all), `Options` and `Colors` (`--color`) | |
| `abq_hosted/src/config.rs`, `error.rs` | `Hosted`, `HostedText`, `Config` | the HTTP client, the URL library |
| `abq_hosted/src/notify.rs` | `WorkerExit`, `HostedText` | the HTTP client |
| `abq_hosted/src/access_token.rs` | `Login` (a wrapper of a string) | |
| `abq_reporting/src/*.rs` | `Output`, `Terminal`, `Colors`, `Report`, `Durations` (times) | |
| `reporters/{dot,line,progress,junit_xml,rwx_v1_json}` | `Terminal`, `JUnit`, `JUnitText`, `RwxJson`, `RwxDoc` (all; the document `rwx_v1_json` writes is in `RwxDoc`, its text in `JsonText`; that of `junit_xml` in `JUnitText`, the removal of escape codes in `StripCodes`) | |

## Plan per property

| id | model | proof |
|----|-------|-------|
| C01 | `JobQueue` as interleaved atomic steps (fetch_add, clamp store, cell writes, end check; CAS step for by-file) | invariant over schedules: claimed intervals are disjoint and consecutive |
| C02 | same | invariant: claimed intervals tile `[0, min ptr len)`; at end the tile is everything |
| C03 | same | same tiling invariant, slices concatenated |
| C04 | same + `get_assigned_run` clamp | interval width arithmetic |
| C05 | `get_bounds_by_top_level_group` scan loop | loop invariant on the scan, invariant "ptr is a group boundary" |
| C06 | `get_next_work_online`, both sequential and interleaved | monotonicity of the exhausted condition |
| C07 | assignment cells in the interleaved model | invariant: cell i has tag t iff a finished claim of t covers i |
| C08 | `ManifestView::get_partition_for_entity` swap loop | loop invariant, equals `filter` |
| C09 | `AllRuns` as a state machine over a map of runs | per-step monotonicity, lifted to histories |
| C10 | same, joins split into check / remote lookup / insert / read steps | invariant counting "generate" answers per run |
| C11 | `find_or_create_run` with history of seen tags | refinement to the set of tags seen in the history |
| C12 | same | invariant: Cancelled is absorbing and yields no tests |
| C13 | `mark_cancelled` | case analysis + lifted invariants |
| C14 | counter with 64-bit wrap-around | negation with a witness (double cancel); partial: histories without repeated cancel |
| C15 | timeout functions | case analysis; over-advance handled by the interleaved queue model |
| C16 | `active_workers`/`seen_workers` | invariant: runner with tests outstanding is listed active |
| C17 | results cell + plans + file as interleaved steps | invariant relating counter, pending plans, file content |
| C18 | same with remote | negation with a witness schedule; partial: the last plan to finish is eligible |
| C19 | filesystem persistor: cache states, local file, remote object | refinement to an append-only log |
| C20 | offload predicate | direct |
| C21 | path/key builders on strings (lists of characters) | injectivity |
| C22 | persisted cell + persistence task | invariant |
| C23 | manifest file as byte list with offset | negation where the code breaks; partial |
| C24 | document decoder with serde as parameter | round trip, case analysis |
| C25, C26 | `RetryManifestTracker` | refinement to a per-test history of outcomes |
| C27 | `Fetcher` as state machine over source scripts | induction over bundles |
| C28 | producer and consumer as two tasks with two bounded channels; any interleaving | invariant: what is in the pipe is a sequence of framed batches; a token argument for the single outstanding request |
| C29 | `BufferedResults` over any calls | induction over calls |
| C30 | `WorkerSet` | induction over insertions |
| C31, C32, C33 | direct | induction |
| C34 | `write`/`read` over bytes with the 32-bit header, events of the socket as a list | round trip by induction over the events |
| C35, C36 | `AsyncReader` automaton fed by chunks | induction over chunks; C36 negation with witness, partial otherwise |
| C37, C38 | auth and token functions over bytes/characters | case analysis; C38 soundness negated by witness, partial otherwise |
| C39 | `flatten_manifest` over nested groups, with an explicit stack | induction over the stack; position lists |
| C40 | the order of `ordered_results.rs`; sorting by its contract | lexicographic order is total; sorted permutations with distinct keys are equal |
| C41, C42 | `SuiteTracker` | invariants over result sequences |
| C43 | the loop of `WorkerPool::shutdown` over joined outcomes | induction over outcomes; counterexamples |
| C44 | `Muxer::poll_write`, `mux_output`, `CapturePipes` as interleaved steps of child, two tasks and callers | invariant: taken ++ side channel ++ header ++ buffer ++ pipe = header ++ written; draining schedule for completion |
| C45 | the three tasks of `execute_all_tests` joined; native runner as an oracle that yields results or fails | invariant: results handed over, buffered, in the channel and in flight are the tests received, in order |
| C46 | `from_command` over an abstract injective hash, and the registry of runs | through C11_command_differs; counterexample |
| C47 | `open_native_runner_connection` | case analysis |
| C48 | `process_results`, `handle_result`, reporters as logs with an arbitrary error behaviour | induction over results; C41 for the exit code |
| C49 | calls of `run` as atomic steps in any order, with panics | invariant: the flag is set iff exactly one call holds it |
| C50, C51 | decision functions | case analysis against a table specification |
| C52 | composition of queue model and fetchers | corollary of the tiling invariant |
| C53 | `VecMap` as a list of pairs | induction; refinement to a function |
| C54, C55, C56 | `AllRuns` with timers, persistence tasks and panics as events | invariants over schedules |
| C57 | two lives of the results machine, the second starting with what the first left | corollary of C18 and the first read; negation with witness |
| C58 | the focus field of the tracker's entries | invariant beside the simulation of C25; negation with witness |
| C59 | composition of the fetcher with the tracker | invariant: who is handed out in which attempt |
| C60 | the same machine, infinite schedules | lexicographic measure: every schedule comes to rest; at rest nothing can move only if finished, or in one state that is described exactly; a concrete fair schedule that hangs |
| C31 | `ExpDecay` with `Duration` overflow as a panic | closed form of the k-th delay by induction; counterexamples |
| C32 | the retry loop over an oracle of outcomes, with its trace of attempts and sleeps | induction on attempts left |
| C33 | runners, bounded channel, counting task and polls of `wait` as atomic steps in any order | invariant: count + queued = not signalled; measure for termination |
| C61 | the polling loop over a list of replies | induction over the number of waits |
| C62 | as C43, and the exit code of `abq test` | induction over outcomes |
| C35 | `AsyncReader` as an automaton fed by reads of any length | invariant: consumed bytes = frames of what was returned + the part in the buffers |
| C36 | as C35 with cancellations and timers | same invariant; counterexample |
| C63 | as C35 with all faults; `read_exact_help` | invariant with a stuck state; counterexample |
| C37 | `ServerAuthStrategy`, `ClientAuthStrategy` over byte streams | case analysis on the first 30 bytes; the first byte of a frame is no token character |
| C38 | `parse_human_readable` with the iterator of `str::split` | characterisation of the leftmost match; counterexample |
| C41 | `SuiteTracker::account_result`, `suite_result` | invariant relating maps to the history; automaton of tags characterised; counterexamples |
| C42 | `load_aggregated_metrics` with its cache | invariant on the cache |
| C64 | the loop of `suite_result` over an ordered map | fold invariant |
| C65 | `print_tests_for_runner` | stability of merge sort |
| C50 | `resolve_config`, `validate_*`, `find_or_create_abq`, `testPlan`/`reportPlan` as the composition in `abq_main` | equivalence with a relational specification (`TestDocumented`) |
| C51 | `get_inferred_run_id` | equivalence with `CiRunId` by cases |
| C66 | as C50 | from C50's specification; counterexample |
| C67 | the loop of `abq health` | induction over the services |
| C68 | `send_request_with_decay_help` as a fold over replies | invariant of the fold |
| C69 | `HostedQueueConfig::from_api` | equivalence with the answer's fields |
| C70 | the signal listener and main loop of `start_abq_forever` | invariant over all schedules; leads-to lemma over sublists |
| C71 | as C44, with `close` and dropping of aborted tasks as separate steps | invariant; counterexample schedule |
| C72 | `send_and_wait_for_test_results` as a fold over messages and captures, composed with the capture model | induction over the messages; composition with C44 |
| C73 | `Life`: the pipeline of C45 with failed restarts, notification and timeouts | invariant over all schedules; a stuck state closed under all steps |
| C74 | as C73 | invariant of C45 extended to timeouts; counterexample schedule |
| C75 | as C73, with the results yielded read off the schedule | invariant `Kept`: what was yielded, less at most the last, followed by failures |
| C76 | the registry of runs of C52 and any number of runners of C73, each fed with what the queue wrote to it | composition: permutation of the manifest over the runners, then the invariants of each runner |
| C77 | `run_async` and `run_help` as a machine with a step per await; messages with five attempts to connect | the histories possible at each stage as an inductive invariant; a rank for the bound |
| C78 | Model/RwxJson: push_result, Attempt::from with nested past attempts, Summary | invariant over the results pushed so far (entry of each test, error list), by induction; closed form of the fold over tests |
| C79 | the same, beside Model/Summary | C78 and C41 on the two views of the same results |
| C80 | Model/WorkerReport: queue of messages, reporting task, reporters as arbitrary functions | invariant over all interleavings; measure for the end of the task |
| C81 | Model/WorkerReport: exit code; Model/Summary | case analysis over C41's characterisation of the suite result |
| C82 | Model/ReporterOptions: split at `=`, from_str, Display | induction over the option string |
| C83 | Model/ReporterOptions: outputs_to_stdout, build_reporters, pipes_to_parent_stdio | induction over the list of reporters |
| C84 | Model/Replay: execution modes and the messages of a worker on top of Model/AllRuns | noninterference: bisimulation of registries that differ only in connection ids; invariant of the flags of runners during a replay |
| C85 | Model/Attach: negotiator's message, the worker's loop, the pool that is started, its status; on top of Model/AllRuns | induction over the answers; composition with C10, C11; invariant on stored run states |
| C86 | Model/Attach, Model/AllRuns, Model/ManifestView | permutation of the tests by runner, induction over the history; C22 |
| C87 | Model/Terminal: the dot, line and progress reporters, as state machines over results and ticks | induction over the calls with the state described from the history |
| C88 | Model/Output: grouping, labels, ordering, the short summary | the tables are characterised by what they have and their order; sums by permutation |
| C89 | Model/Output: layout of a failing result and of the list of failures | induction over results; case analysis on how an output ends |
| C90 | Model/JUnit: the collector and the suite it writes; Model/Summary for the exit code | map over results; C41 for the exit code |
| C91 | Model/Server: the three servers, one task per connection, a program of answers and calls per message, on top of the registry of Model/AllRuns | invariant relating the phase of a connection to its log; refinement to schedules of the registry |
| C92 | Model/Server | steps of different connections commute; two-run induction over the schedule with the steps of a connection left out |
| C93 | Model/Timed: the registry of Model/AllRuns with a clock and a stamp for each task in flight | invariant tracing each timer back to a time when the run was there and had handed out as many tests; stage argument over the at most two periods of a stuck run |
| C94 | Model/Timed: Manager | induction over the schedule; permutation of what was set |
| C95 | Model/Protocol: the derived readers and writers on JSON trees, conversion to TestResultSpec | each reader is equivalent to a relation saying what a document says, in the form of the protocol or in any that is taken, by mutual recursion over the message; the untagged ones by cases; C39 for the order of tests |
| C96 | Model/Restart: the registry of Model/AllRuns over several lives of the queue, with a store of each strategy that outlives it | at most one state of a run waits to be stored and then the run ended with it; once stored, an invariant over steps and restarts (snoc induction), from which the answers follow |
| C97 | `Model/Fetch.lean`: the loop of the client, the answer of the queue as a function of the run state of `Model/AllRuns.lean`, the stream of `Model/Framing.lean`, splitting into lines, decoding (serde_json is a parameter with the laws stated in `Spec/Fetch.lean`), then `Model/Report.lean` | induction over the turns of the client and over the lines of the file; refuted in full by two witnesses |
| C98 | Model/Results.lean, Model/Framing.lean, Model/Fetch.lean, Model/Report.lean | that the file is opened empty is an invariant of the schedule; with C17/C19 the stream is a permutation of the recordings begun before the request; the size prefix and the lines are read back (Fetch), and the report is independent of the order (C40, C48) |
| C99 | Model/AllRuns.lean | the phase is an induction over the events of one run; the metadata and the reason over the schedule; the answers by cases on the state |
| C100 | `Model/JsonText.lean`: the compact writer and the reader of serde_json, the reader as a machine on bytes; `Spec/JsonText.lean`: the grammar | induction on documents and on the rest of the text; both directions between the machine and the grammar |
| C101 | Model/Messages.lean, Model/QueueAnswers.lean (encodings derived by serde for each message type), Model/JsonText.lean (their text), Model/Protocol.lean (what native runners write) | decoding after encoding field by field; the exact nesting of each encoding, by mutual induction over results and trees; with C100, what is too deep is exactly what is lost |
| C102 | the models of C76 (queue and runners), C98 (file of results and stream) and C48 (report), composed; Spec/Green.lean (what it means that a suite passed) | what the runners report is shown to be one run of a suite from C76, so that C98 and C48 apply; what is recorded for a crash has the time 0 and comes first in the order of the report, so it is resolved by results of any attempt; for lost results, the number of tests in the manifest, by the pigeonhole principle |
| C103 | `OffloadJob`: the walk over a directory, generic in the kind of file, over the machines of `Results` and `ManifestStore` for every run; entries with any name and metadata, others' steps in between | projection of a job to the steps of the machine of one run, so that C19 applies; characterisation of the summary visit by visit; induction over jobs for files that are not opened; witness for the lost manifest |
| C104 | `RemoteConfig`: `resolve`, splitting of the command, the keys and argument lists of the calls; the bucket as a map of keys, the program as any function that meets a specification of what the documentation asks for | refinement of both to an ideal store with a place for every kind and run, by injectivity of keys (C21) and names of kinds; splitting is inverse to joining with commas; C24 for run states; witness for jobs without a remote |
| C105 | the machines of `Results` for all runs | projection to the machine of one run; induction over its steps; for every number of runs a history that leaves as many files open |
| C106 | Model/Lifecycle: the Abq object, its calls and its end, on top of Model/Server | invariant relating the stage of shutdown to the loops; rank of the stage for its return; simulation of schedules without retire; counterexample schedules |
| C107 | Model/WorkerSignals: the main task of `abq test` over a pool of runners of Model/RunnerStart; a step is a signal, the end of the negotiation, a step of a runner, a runner noticing that it is to shut down, a branch of the loop's `select!`, or the end | Invariant on each phase (which runners may have been told, that each runner satisfies the invariant of C77); a rank of 29 per runner and 2 for the phases; explicit schedules for stopping; simulation for further signals |
| C108 | Model/RunnerEnv: environments as partial functions; the command line, the pool with the parameters of each runner, the processes each runner starts and their environments | Closed form of the pool; lookups through the layers of the environment; counting over the processes of all runners |
| C109 | Model/WorkerExit: do_shutdown as a list of writes that may fail, the reporters' end, the requests of notify.rs with a list of replies that may be too short (no answer), on top of Model/Pool and Model/WorkerReport | case analysis of the code over the lemmas of Proof/Pool; induction over the writes |
| C110 | `AllRuns` | invariant: tests taken from the queue are in answers or held by requests, a request that took none found the queue used up; a measure on pending requests for the last part |
| C111 | `AllRuns` | accounts: requests asked are, as multisets, those answered and those open, kept by every step; a measure on open joins |
| C112 | `Model/Startup`: the arguments of `abq start`, binding the three listeners, the addresses advertised; machines, routes and which listener a connection reaches; `ask_queue` and attaching. | Invariant of histories: ports in use on a machine are distinct; hence the listener an address reaches is unique. C85 for what the worker does. Witnesses with two machines for the failure. |
| C113 | `Model/Startup`: `PersistedDir`, `LocalPersistence`, the temporary directories of `new_ephemeral`, and their removal when dropped. | By cases; the failing case for all directories. |
| C114 | `Model/Delivery`: the task that sends results: buffering (`Model/BufferedResults`), the tracker, the five attempts to connect, writing, the acknowledgement, the local handler beside it; panics and being dropped. | Invariant: by the phase, what was received and told is all batches or all but the last; content of the buffer as in C29. |
| C115 | no new model: the models of the registry, of fetching and retries, of the runner, of sending results, of recording and fetching results, and of the report, put together in `Spec/Whole`. | Attempts at a test are in order, and none comes after one that passed (`Proof/Attempts`); what that makes of the summary's counts (`Proof/Whole`); permutations of what is recorded and sorted. |
| C116 | no new model: as C115. That placeholders come with the time 0 is in the hypotheses `stamped`, from the code. | as C115; a placeholder is the last attempt of its runner (`Proof/Crashes`) but the first of its test in the order of the report |
| C117 | Model/TestsConn: the connections of a runner and the queue's tasks at their other end, as interleaved steps with failures; bundles as the schedule says | invariant: on each connection, taken = returned ++ under way ++ lost, and at most one request is open; counting of requests and failures; C111 and C52 for the tests of a run |
| C118 | Model/TestsConn `fetchRetry`: the two nested loops of `async_retry_n` over what each attempt meets | C32 for both loops |
| C119 | `AllRuns`, `Restart`; the part of a history that concerns a run (Spec/Isolation) | simulation: the queue that only gets this part has, for the run, the same state, continuations and events, by induction over the history |
| C120 | Durations: f64 as multiples of 2^-1074, division and conversion rounded to 53 bits, decimals rounded to even | relative error of a rounding is at most 2^-53, hence less than a millisecond is lost, and the nearest hundredth of a whole number of milliseconds survives |
| C121 | NativeRunner: what the worker waits for at each point, the process, its connection and its output | exact characterisation of the states in which only the native runner can bring about a step; explicit paths to the end from all others |
| C122 | NativeRunner | invariant: all native runners but the one at hand are dead, and that one is dead when the worker has returned |
| C123 | LostTests: the message, the result made with the helper for fake results, the reports; with Messages and Output | direct, over the list of tests; the codec theorem C101 for what the queue receives; negation in every case |
| C124 | Shutdown: manager, receivers with their position in the broadcast channel of size one, shared flag; every call an atomic step | invariant: position of each receiver from what happened; the result of each poll is characterised exactly |
| C125 | FileLocks: the read-write lock of the cache and the mutex of each descriptor as queues, every call a task that takes the steps of `with_file` or `perform_offload` | invariant: who is in which queue follows from where each call is; termination by the rank of a call and the ranks of those before it |
| C126 | Login: `abq login`, the place of the configuration file, writing it with a cut at any byte, and what commands use; composed with Config | case analysis of one login on one file; induction over the history |
| C127 | RwxDoc: the document the JSON reporter writes, built on the collector of RwxJson (C78) with what each result carries | what a reader finds at each path of the document, by computation over the encoders; attempts and errors by C78; the text by C100 |
| C128 | Access: the options of `abq start`, of the queue of `abq test` and of clients, connect and handshake over plain TCP and TLS, followed by the reader of C36 | the handshake by C37; what follows by C36's reader: matching clients by its completeness, others because the size announced by the first four bytes is never reached |
| C129 | Journey: the loop that reads the messages for a test, the request, the line in the file, `abq report`'s heap and the reporter, over bytes; the codecs and the reporter are those of C95, C100, C101 and C127 | composition: what each message says by C95, that request and line are read back by C101 and C100, then C127; the order of the heap for the current attempt |
| C130 | HostedText: the derived decoders of the answer (untagged, so the first of the two that can be read) on JSON text, the errors made of statuses, from_api as a whole, the body of the message about a run | each decoder is equivalent to a reading of the document (Proof/HostedText), the end of the requests from C68; then case analysis; C100 for the message |
| C131 | RegistryLocks: for each function of AllRuns the locks it takes and gives back, in order, as a function of what it finds; threads with turns; readers and writers of parking_lot | the locks of each script go up a hierarchy (compositional: guards are neutral); some thread at the highest wanted lock can go on; a round either changes nothing, in which case nobody is busy, or lessens what is left to do |
| C132 | `JUnitText`: the text that is written, character by character; in `Spec/JUnitText` a reader of XML, character by character | the reader is run over each piece of the text; induction over characters, attributes and test cases; characters that XML does not have are refused anywhere |
| C133 | `Address`: addresses, `publicize_addr`, and the standard library's `Display` and `FromStr` for them; `Messages`, `QueueAnswers` for the messages; in `Spec/Address` the texts that say an address, as a grammar | the reader takes exactly the grammar (both directions, by induction over groups); what is written is in the grammar (an invariant of the search for the longest run of zeros) |
| C134 | `Options`: `FromStr` and `Display` of `NumRunners`, `TestStrategy` and `ColorPreference`, with the standard library's `usize::from_str`; in `Spec/Options` the words | the loop over digits gives the value of the numeral (induction), cases on words; a witness for the wrong error message |
| C135 | `ReplayHint`: the line printed, and the readers of the options it names; in `Spec/ReplayHint` the words a shell makes of a line | induction over the words, with C134 for the numbers; uniqueness of the words for the witness |
| C136 | `ErrorText`: the texts of errors, `retrieve_manifest` and what it leads to; `Pool` and `WorkerExit` for what is printed; in `Spec/ErrorText` the parts of an error and texts that mention them | composition of texts, with C109 for the end of `abq test`; witnesses |
| C137 | `TokenGen`: the loop of `new_random` over the words a generator draws, `abq token new`; in `Spec/TokenGen` renamings of sequences of words | induction over the words; an involution that exchanges the choices of two tokens; C38 and C128 for the use |
| C138 | `Colors`: the writes of the reporters, the summary, the report and warnings as text, `set_color` and `reset`; `termcolor`'s codes; the choice of colours; in `Spec/Colors` a terminal that knows the codes of ECMA-48 | induction over the writes: a terminal shows each as an interpreter of the writes does; every writer leaves the normal style; an invariant for the reporter of progress |
| C139 | `StripCodes`: `vte`'s table of states and bytes, `utf8parse`'s for characters beyond ASCII, and what is written; in `Spec/StripCodes` the pieces of an output by ECMA-48 | every byte and character by cases on the state; induction over characters and pieces; C132 for the document |
| C140 | `BatchSize`: the reading of the option, and the start of a runner with the panics of `usize` arithmetic, of `tokio`'s channels and of `Vec::with_capacity`, on a machine with any allocator; it ends in the initial state of `Pipeline` | arithmetic; an invariant on the sizes of batches over all schedules of `Pipeline`; C04 for the queue |
| C141 | `Checks`: for each critical section of `AllRuns` the checks that fail in it; the interleaved `JobQueue` for the position read by timers | invariants relating the state of a run to its history, by induction over schedules; exact conditions for each check |
| C142 | the model of C28 and C45: `MsgBuf.Buf`, `Pipe.Pipe` | invariant: when a fetch is under way or requested, half of the last bundle was returned; by induction over schedules |
| C143 | the models of C76: `Runs` and `RunnerEnd.Life`, with the history of the queue as the script of each runner | `Spec/Shared.lean`; invariants: bundles of first attempts are as small as those handed out, and tests are given for another attempt only when all first attempts were begun; C142 with an answer that is still unread; then C52 |
| C144 | `Model/Recording.lean`: `Runs` and one `Results.Res` per run, with the handlers that were given a cell and have not used it | invariants of the composition: what is due is a permutation of what was begun and what waits, also at each time of the past; a run that is over has one manifest; the file of a run follows a schedule of `Model/Results.lean`; then C98 and C48 |
| C145 | the queue of C144 (registry, handlers, files) with the runners and senders of C115; `calls` are the requests a schedule makes to the registry | what the registry has done is what a schedule of its own does (`registry_calls`); what is due is one summary and the batches (`due_perm`); then C144_served_all_partial and C115_exit_code |
| C146 | the runners of C115 in workers, each with the reporting task of C80 (`Spec/Workers.lean`) | a runner reports attempts at a test in order (`runner_order`), so the results a worker counts are in order for each test, whatever the interleaving of its runners (`pairwise_by_tag`); then no failure is counted iff each test passed (`all_passed_iff`); with C81 and C115 |
| C147 | `Model/Results.lean`, with endless schedules (`Spec/ResultsLive.lean`) | every recording begun is over or has exactly one task, likewise every request let in (`Books`); `processing` is the number of the former; a step of a task lessens what is left to do of it and of nothing else (`left_resume`), and nothing adds to it (`left_step`) |
| C148 | `Model/Recording.lean` with endless schedules (`Spec/Progress.lean`) | the books of each file (C147) are kept by every step of the whole queue (`books_all`); the number of lines owed and not begun goes down with each handler and never up (`all_begun`); then every recording ends (`all_over`); the place of a handler or task in its queue goes down with each service (`queue_fair`) |
| C149 | `Model/ReportWait.lean`: the loop of `wait_for_results` with the durations of everything in it | induction along the loop, which ends because each turn takes at least two seconds of the time left |
| C150 | `Model/StartWait.lean`: the loop of `get_init_context` in time, over a world that says what comes of a request begun at each moment | the moments of requests by induction over the loop; the pause before the last request is at most the time slept before and 10 ms; the answer of the registry changes only forward (C09) |
| C151 | `Model/TestTime.lean`: a test, the tests of a runner and the start of a native runner, in time, as functions of when things happen | the end of a test is characterised exactly by when its results are delivered or the native runner fails; induction over parts of an answer and over tests; witnesses for the two failures |
| C152 | `Model/RetryWait.lean`: the loop of `get_next_tests` in time, over a world that says what comes of an attempt begun at each moment | the moments of attempts by induction over the loop; once the manifest of a run is stored it stays so (invariant over the changes of a run), and the tests are those handed out by C22 |
| C153 | `Recording` and `ReportWait` (no new definitions of code): `FromQueue` in Spec/ReportServed.lean ties what the client reads to what is observed of the queue | a request is put off only while a recording is not over (induction over the steps of the file); from there C149_served and C144_served_all_partial; the exit code by C145 |
| C154 | `Model/SendTime.lean`: the four senders of messages in time, over a world that says what comes of an attempt to connect begun at each moment; `Model/StartOutage.lean`: the loop of C150 over that world | induction over the attempts with the end of the outage as bound, then over the messages; the sender of C114 by induction over the attempts; asking for tests by induction over its attempts, with a counterexample to the full statement |
| C155 | `Model/RetryOutage.lean`: each request of `RetryWait` over the world of `SendTime` | C154 bounds each request, C152 the loop; a request that cannot be answered ends it |
| C156 | the models of C45 (`Pipeline`) and C73 (`RunnerEnd`); `Spec/Unsent.lean`: the answers of the native runner in a schedule | invariant: what was handed over, what is in the buffer and the channel and what waits for room is the answers in order, then failures; sizes of buffer and channel |

## What is modelled of the registry of runs

`Model/AllRuns.lean` has every public function of `AllRuns` (`abq_queue/src/queue.rs`) as a function on the
state of one run, and the registry as a machine. A request is one atomic step when the Rust code
holds the run's lock for its whole duration; where the code gives up its locks (waiting on the remote
store, between pulling tests and marking the end, before decrementing the counter, between the read and
the write lock of the timeout handler, writing to the worker's connection, writing to storage) the rest
is a `Pending` continuation resumed at any later point of the schedule. Left out: worker timings, the
results cell (see `Model/Results.lean`, and `Model/Recording.lean` for the two together), logging.

## Disagreements between code and property

Each is proved as a theorem about the model with a concrete witness.

* C14 `C14_full_statement_fails`: cancelling a run that is cancelled already decrements the counter of
  active runs again (`queue.rs:1276-1305`), so that the queue can report itself drained while runs are active.
* C16 `C16_full_statement_fails`: `insert_by_tag_if_missing` in `next_work` does not re-activate a runner that
  reported completion (`queue.rs:795-809`); if it fetches again the results are served while it owes some.
* C52 `C52_full_statement_fails`: tests whose bundle cannot be written to the worker are not handed out again.
* C55 `C55_full_statement_fails`: when the last bundle cannot be written, the persistence plan is dropped
  with it (`queue.rs:2709-2711` returns before executing it) and retries wait for ever.

* C17 `C17_full_statement_fails`: if `sync_all` fails after `set_len(0)` in an offload of results, the file is
  taken as open although it was emptied (`results/fs.rs:311-315`).
* C18 `C18_full_statement_fails`: the dump to the remote is decided by the plan that finishes last
  (`results.rs:194-203`), which may have been made before the manifest was exhausted.
* C19 `C19_full_statement_fails`, `C19_failed_first_load_overwrites_remote`: an offload with the
  `NoopPersister` empties the file without keeping a copy; a failing first load is ignored and the next
  dump overwrites the remote copy (`results/fs.rs:176-188`).
* C57 `C57_full_statement_fails`: results are acknowledged before they are written, and at the first access
  the local file is replaced by the remote copy.
* C21 `C21_full_statement_fails`: run ids with slashes: `a/b` and `a//b` share a file, an absolute id leaves the
  storage directory, and `run_id_of_path` recovers the last component only.
* C23 `C23_full_statement_fails`: a manifest file is opened without truncation (`manifest/fs.rs:91-96`), so a
  shorter manifest dumped for the same run id is followed by the end of the longer one; without a remote
  an offload job loses the manifest; after a download that broke off the descriptor stands in the middle
  of the file when it is read again (`manifest/fs.rs:126-160`) and one more fetch fails.
* C58 `C58_full_statement_fails`: `account_failure` (`retries.rs`) narrows only when the failure starts a new
  attempt (`last + 1 == run_number`), so when a piece of work reports two failing tests in one attempt, the
  second is not among the tests the retry is narrowed to, and is never run again.
* C60: a worker can hang for ever. After a batch is half consumed the consumer asks for more; with all sources exhausted and retries enabled, the producer then loops in `fetch_next_tests` until the last result is accounted for. If now the native runner crashes or times out on the test it is running, `execute_all_tests` calls `tests_rx.flush()`, which waits for the producer to drop its sender, before it reports the failure the producer waits for (`C60_full_statement_fails`, one test, two attempts).
* C31: `ExpDecay::quadratic(starting, max)` with `starting > max` yields `starting` first, above the cap; with `max` above half of `Duration::MAX` it panics. The code uses neither.
* C43: `highest_exit_code = exit_code.max(exit_code)` (`workers.rs:304`) compares a runner's exit code with itself, so the pool's exit code is the last runner's. `manifest_generation_output = this_manifest_output.map(..)` (`:299`) is overwritten by every later runner, so what the first runner captured while generating the manifest is lost with two or more runners.
* C49: if the periodic job panics, `is_active` stays set and the job is never run again until restart.
* C34: `stream_length as i32` wraps: a message of 2 GiB or more is read with another size, as a compressed one (`C34_limit_is_sharp`).
* C36: `AsyncReader::next` extends `msg_buf` by the message size whenever it starts over with nothing of the body read (`net_protocol.rs:1147-1151`), so dropping the future after the size arrived and calling `next` again doubles the buffer: the body is then decoded with trailing zeroes (refused), or read into the next message. No caller in the repository resumes a dropped `next`.
* C63: the same lines make the reader spin when the peer closes the connection between size and body: `read` returns 0, which is not checked for in the body, and every iteration extends the buffer by the message size until the timeout.
* C37: the role of a connection (`role()`, `is_admin`) is not consulted anywhere outside tests, so at this commit the admin token gives no more rights than the user token. If both tokens have the same 30 characters, the admin token gives the client role.
* C38: `parse_human_readable` looks only at the first two parts of `s.split(prefix)`, so `abqs_<30 characters>abqs_anything` parses.
* C46: `TestCommandHash::from_command` concatenates program and arguments without separators: `make -j 4` and `make -j4` have the same hash.
* C41: `account_result` decides by `run_number == 1` whether a first failure counts. When a worker is run again its attempts are again numbered from 1, so a test that passed first and fails in the re-run is counted as failed in all attempts (`AlwaysFailed`); a test whose first result is of attempt 2 and fails is counted as a success (exit code 0). Each crash of a native runner that was not followed by results of its test counts as one test. Times are added as `u64` nanoseconds and wrap around at 2^64 (584 years).
* C48: results are accounted by timestamp within a test. If the clock is set back between two failing attempts, attempt 2 is accounted first and the report exits with 0 (`C48_clock_set_back`).
* C66: `abq login` stores a token; with an organization's token stored, `abq test --queue-addr x` asks the API and connects to the hosted queue, with the hosted queue's token; `x` is silently ignored. (Given both on the command line, `clap` refuses.)
* C68: a comment in the code gives delays up to 160 seconds and about five minutes in all; six requests have five delays, 5 to 80 seconds, 155 in all.
* C70: the documentation says that the queue retires on one signal and dies on two. The listener sends one message and ends, dropping the only sender; the main loop's second `recv` returns `None`, which is taken as the second signal. One signal kills the queue at once (`C70_one_signal_kills`).
* C71: `close` calls `abort` and replaces the join handles, so `finish` does not wait for the tasks; it unwraps the `Arc`s of the side channels with `expect`. After a timeout `run_help` calls `close` and then `finish`; if the aborted tasks were not dropped yet the worker panics.
* C72: each result of a message with several results gets all output captured with the message, so the output is reported several times; a message with no results loses it. When reading or writing fails, what was captured before is not in the report of the failure.
* C73: on an error from `reconcile_run_number` (also from killing the native runner) `run_tests_task` returns without flushing the prefetching buffer and without notifying the queue. The receiver of tests is dropped with the task (`flush` takes it by value, so the task owns it), so `fetch_tests_task` ends when it next sends or waits to be asked; but if it is fetching at that time, then, unless the attempt that could not begin was the last one allowed, it waits for a result that never comes, and the worker hangs (`C73_fate`).
* C74: `notify_all_tests_run` runs concurrently with the final flush of results (joined, not ordered), so `abq report` may see a complete run with results missing.
* C75: the time limit of a test covers sending its results to a bounded channel. If the queue is slow the results of a test that passed may be dropped, the native runner killed, and the test, with all that follow in the batch, reported as failed.
* C77: after the manifest was sent, failures to restart the native runner, to get the initialization context or to initialize the native runner end the runner with an error that the queue is not told of; the run then ends by the queue's timer.
* C78: attempts that came with a past attempt are listed after it in the JSON report, although they were made before it (`Attempt::from` pushes the attempt and then extends with its own past attempts).
* C79: the JSON report says failed although `abq report` exits with 0 when a native runner crashed, or a test without a location failed, and the retry passed; and when a test that passed failed as its file was run again.
* C80: an answer of a native runner that has no results (an empty list, or `incremental_result_done` with no last result) is accepted and sent on, and then `assert!(!results.is_empty())` ends the reporting task: later results reach no reporter.
* C82: `--reporter junit-xml=out/shard=1/r.xml` writes `out/shard`; everything after the second `=` is dropped without a word.
* C83: asked for by the side of a named terminal reporter, `default` adds a dot reporter, and both write to standard output. The comment on `ReporterKind::Default` allows it, so this is not counted as a violation.
* C84: the changelog says that a run can be replayed `without modifying the remote queue`, but a replaying worker sends everything but results: it takes tests from the queue of a run in progress, its interruption cancels such a run, and killing it leaves the report of a finished run unavailable.
* C86: a worker is matched with its earlier self by runner numbers: run again with a smaller `--num`, it silently leaves out the tests its missing runners had been given.
* C87: the progress bar counts attempts as tests, and a test that passed when retried stays among the failing ones.
* C88: the list of failures in the short summary leaves out failing tests without a file and native runner crashes, so that it may be empty under a number of failures that is not zero.
* C89: a captured output that ends in a newline followed by blanks is taken to end in a newline, and the next heading starts behind the blanks.
* C90: the JUnit report has a test case per attempt, so a test that passed when retried shows up as a failure of a suite that passed. A test's nanoseconds are cast to `i64`: from 2^63 on the time is negative.
* C91: the queue acknowledges a cancellation, a manifest and the end of a worker before it carries them out (`queue.rs` `handle_run_cancelled`, `handle_manifest_result`, `handle_worker_ran_all_tests_notification`): if the acknowledgment cannot be written the request is dropped, and a client that was acknowledged may find it not yet in effect.
* C95: `#[serde(tag = "type")]` on a struct is written but not checked when reading (`v0_2.rs:60-74`), and `ManifestMessage` is untagged: `{"type":"manifest_failure","error":..,"manifest":..}` is read as a success. Likewise a message of unknown type with a `test_result` is read as a single result.
* C96: `CustomPersister::try_load_run_state` takes every failure of the command for a missing run state (`custom.rs:161-163`), so that one failure of the command after a restart makes the queue run a finished run again; S3 distinguishes the two (`s3.rs:168-175`).
* C96: the run state is stored after the last worker was told that there are no more tests (`queue.rs:2700-2729`); a queue restarted in between starts the run anew.
* C97: `async_read_stream` reads at most the announced size and takes the end of the connection for the end of the stream, so lines are lost without an error if the connection ends between two lines; `process_results` checks only that every test has some result, and `list_tests` checks nothing. The size is cast to `i32`, so that a file of 4 GiB or more is cut.
* C98: same exclusions as C17 and C97: a half-done offload or a file of 4 GiB or more loses acknowledged lines without an error.
* C100: documents nested 128 deep or more are written without an error and cannot be read (serde_json without `unbounded_depth`).
* C101: the worker reads messages of native runners nested up to 127 deep, and sends their results in requests which are 4 to 7 levels deeper (`C101_full_statement_fails`): the queue fails to parse such a request, and all results in it are lost; the connection is closed, and the worker, which expects an acknowledgement, panics.
* C102: a failure reported in a retry under an id that did not occur in the first attempt (a hook that runs after the tests, say) does not count: the report ends with exit code 0 although the test with this id failed and never passed (`C102_full_statement_fails`). The tracker takes a test first seen in a later attempt as not failed. `C102_exit_code_exact` says what the exit code does say, and `C102_whole_run_fails` shows the failure of a whole run with two workers.
* C103: a results file that the queue has not opened since it was started is never moved to the remote (`perform_offload` fails with "has results on disk, but not found in cache"), so the disk space of earlier runs is not freed after a restart, however old they are (`C103_unopened_files_stay`, `C103_full_statement_fails`).
* C103: the job for manifests empties a file without asking whether the remote has it. If storing the manifest failed when it was dumped, the local file was the only copy, and it is lost (`C103_manifest_only_copy_emptied`).
* C104: offload jobs are scheduled whether or not a remote is configured, although `abq start --help` says "if any remote persistence is configured". Without one, a scheduled job empties the files of old runs without keeping them anywhere (`C104_full_statement_fails`).
* C104: with a custom command, every failure of loading the state of a run counts as "not found" (`C104_failing_command_is_not_found`), so a run that is known to the remote is taken for a new one. Over S3 it is an error.
* C105: the number of results files kept open is not bounded. `RESULTS_PERSISTENCE_LRU_CAPACITY`, described as the most there are to be, is only the initial capacity of a hash map; every run served leaves a file open until an offload job moves it (`C105_any_number_open`).
* C106: a retired queue takes new runs like any other (no server reads the retirement flag); `is_drained` is true while runners have not sent the results of the last tests; `shutdown` waits for the loops that accept connections but not for the connections, so that acknowledged results and manifests may never be stored.
* C107: a signal that arrives while `negotiate_and_start_pool` is awaited is not looked at before the negotiation ends, so that a worker whose queue does not answer cannot be terminated but by SIGKILL (the handlers of `Signals` replace the default action); a signal after `worker_pool.wait()` was chosen has no effect; if the queue cannot be reached, `NotifyCancellation::cancel` panics, and with it `WorkerPool::shutdown`. C107_full_statement_fails.
* C108: `ABQ_GENERATE_MANIFEST` is set for the process that generates the manifest but never removed for the others, so that an `abq test` run inside of a native runner that generates its manifest asks every one of its processes for a manifest. C108_full_statement_fails.
* C109: the HTTP client of notify.rs has no timeout: with an API that accepts the connection and never answers `abq test` does not exit although all tests are done and reported. A write to standard output that fails makes it panic (exit 101), before the reporters are finished if it is a runner's output that cannot be written, so that no JUnit or JSON file is written.
* C112: a queue started without `--public-ip` advertises the address it is bound to, by default 0.0.0.0 (`instance.rs:58-59`, `args.rs:71-83`). From another machine this leads to that machine itself: a worker there reaches the queue, and then panics, or attaches to another queue on its own machine.
* C113: `new_ephemeral` (`instance.rs:320-361`) holds the `TempDir`s of the queue it starts in local variables, which are dropped on return: the directories are removed while the queue runs, and every write of a manifest or of results fails.
* C116: `handle_native_runner_failure` (`generic_test_runner/src/lib.rs:1366-1376`) makes its placeholder result with `..TestResultSpec::fake()`, so its `timestamp` is 0 (`runners.rs:765`). `abq report` orders results of a test by time (`ordered_results.rs`), so a crash on a later attempt is put before the earlier attempts, whose results then resolve it (`summary.rs`). The report exits with 1, not 101, if the native runner crashed on a retry; and with 0 if the test had passed and the native runner crashed when the run was started again.
* C117: a bundle whose answer is lost on the way is lost for good: the runner reconnects and asks for the next (`persistent_test_fetcher.rs:82-91`), and the queue has moved on (`queue.rs:2683-2687` says so in a comment). The runner then finishes with success although some of its tests were run by nobody; they have no results.
* C121: after a message that cannot be read (or an end of the connection) while a test runs, `run_tests_task` waits for the native runner's process (`lib.rs:1015`) without killing it, and keeps the connection open; a native runner that waits for its next test never exits, the worker hangs and the test is not reported. Without a time limit are also: the first message after connecting (the limit is only on `accept`), the manifest and the exit after it, the answer to the initialization, all exits, and the end of the output.
* C71, C73: when a native runner cannot be started again for another attempt, `reconcile_run_number` has already called `finish` on the captured output of the earlier one; `run_help` calls `finish` on it again, which awaits join handles that have completed, and panics (`C73_failed_restart_panics`).
* C123: `handle_native_runner_failure` (`lib.rs:1366-1377`) fills the fields it does not set from `TestResultSpec::fake()`, a helper for tests: every report of a lost test says that the test is at `a/b/x.file:10:15`, in `TopLevel/SubModule/Test`, ran in November 1994, wrote `my stderr` to its standard output and `my stdout` to its standard error; these two texts are printed below the error message.
* C125: a results file is sent to a client while the mutex of the file and read access to the cache are held (`results/fs.rs:382-408`, `queue.rs:2466-2501`), with no limit on the time. The first result of a new run and the offload job ask for write access (`results/fs.rs:167, 272`), and tokio gives no read access after that. So one `abq report` client that does not read stops the results of all runs.
* C126: `write_abq_config` uses `fs::write`, which empties the file before it writes (`abq_config.rs:50`), and `read_abq_config` turns every failure into "no token" (`abq_config.rs:54-58`). A login that fails on a full disk or is killed takes the token stored before away, and the next `abq test` without a run id silently runs on a local queue.
* C127: `rwx_v1_json/src/lib.rs:320-329` inserts the numbers of worker and runner into the metadata under `abq_metadata`, and `insert` replaces what the native runner gave under that name.
* C128 (no violation): the role a token stands for is computed on each handshake (`auth/strategy.rs`, C37) and looked at by no server. The help text of `abq start --admin-token` speaks of admin messages; there are none.
* C129: which attempt of a test is the current one in a report depends on the clocks of the workers: results are ordered by time before run number (`ordered_results.rs:46-52`). If a failed test is run again on a worker whose clock is behind, and passes, the report shows the failure as current (`C129_clocks`).
* C132: a test name with a control character (an escape code, say) makes the JUnit report unreadable, because only outputs are cleaned (junit_xml/src/lib.rs:53-64); and the ends of lines in an output are blanks to whoever reads the report, because they are written unescaped into an attribute.
* C134: the error for an unknown `--test-strategy` says it "must be default or by-group" (`net_protocol.rs:535-538`), but the words taken are `by-test` and `by-file`, so following the advice fails again.
* C135: the replay command has the run id without quotes (`workers.rs:200-205`), so for a run id with blanks or characters special to a shell it is a command for another run, or another command.
* C136: of a native runner's failure to give a manifest only the first error is used (lib.rs:176-182); `other_errors` are dropped, also those beside a manifest (lib.rs:175). The text of a location leaves out a column if there is no line (`runners.rs:666-671`).
* C138: the progress bar is drawn with colours although `NO_COLOR` is set or `TERM` is `dumb` (`reporting.rs:295-300` looks only at what `StdoutPreferences::new` chose, which leaves these to `termcolor`); warnings to standard error have codes if standard output is a terminal and standard error is a file (`reporting.rs:252-273`); a test's name or output with codes of its own colours what follows it.
* C139: tabs and carriage returns are taken out of a test's output in the JUnit report (`junit_xml/src/lib.rs:57`: version 0.1.1 of the library keeps only line feeds), and a command to the terminal that is not ended takes the rest of the output with it. Of a command string (DCS, SOS, PM, APC) with a character whose UTF-8 encoding has the byte 9C, such as `Ü`, the part after that character is left in the report.
* C140: `--batch-size` is clamped by the queue (`queue.rs:1735-1743`) but not by the worker, which allocates a vector of that many results at once (`buffered_results.rs:14`): a number such as 1000000000000 ends the worker.
* C141: `find_or_create_run` takes a worker that joins again while the run waits for its manifest for an illegal state (`queue.rs:379-383`), although the worker may have been restarted, which the code for runs that are serving tests allows (`queue.rs:418-440`); and `read_index` can be seen going back (`queue.rs:1384-1390`) between the `fetch_add` and the `store` of `job_queue.rs:94-113`.
* C144: results are served without the summary when the last runner is done before the handler of the manifest builds the plan of recording it (`queue.rs:2133-2262`: `add_manifest` before `build_persist_summary_plan`); with an empty manifest the run is over at once.
* C151: `--startup-timeout-seconds` ("if the test command does not start up within the timeout, the test run will be cancelled") limits only the time until the native runner connects. Once it has, its first message is waited for without a limit. And `--inactivity-timeout-seconds` includes the time results wait to be sent, see C75.
* C154: a worker survives outages of twelve seconds when it sends a message, but asking for tests makes three attempts with no pause in between (`persistent_test_fetcher.rs:16, 70-91`), so if the queue is out of reach for a few milliseconds when a worker asks (say while it restarts), the worker panics. `C154_full_statement_fails`. While a runner waits for the manifest there is only one attempt to connect for each of its requests (`runner_strategy.rs:236`), so any outage that one of them meets ends it with an error. `C154_start_fails`.
