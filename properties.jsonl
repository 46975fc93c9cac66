{"id": "C01", "title": "A test is never handed to two requests", "statement": "Whatever number of workers ask the queue for work at the same time, and however their requests interleave, no entry of the manifest is contained in the bundles of two different requests of the same run.", "quantifier": "every manifest, both test strategies, every batch size, every number of concurrent requesters and every interleaving of their atomic steps", "why_tests_cant": "A race in the pointer bump/clamp shows only under particular thread schedules; a test samples a handful of them.", "anchors": ["crates/abq_queue/src/job_queue.rs: JobQueue::get_work, get_bounds_by_test, get_bounds_by_top_level_group"]}
{"id": "C02", "title": "Nothing in the manifest is skipped", "statement": "Once the queue reports that a run's work is exhausted, every entry of the manifest has been handed to some request; no entry is lost between two requests.", "quantifier": "every manifest, strategy, batch sizes, every interleaving of concurrent requests up to the point where one of them observes the end of the queue", "why_tests_cant": "Loss would need a particular schedule of the clamping store against other requests' pointer bumps.", "anchors": ["crates/abq_queue/src/job_queue.rs: JobQueue::get_bounds_by_test, JobQueue::is_at_end", "crates/abq_queue/src/queue.rs: AllRuns::get_next_work_online"]}
{"id": "C03", "title": "Bundles are consecutive pieces of the manifest in order", "statement": "Every bundle is a contiguous slice of the manifest in manifest order, and the bundles taken in the order in which requests claimed them concatenate to a prefix of the manifest.", "quantifier": "every manifest, strategy, batch sizes and every sequence/interleaving of requests", "why_tests_cant": "Order has to hold for all histories; tests check a few fixed ones.", "anchors": ["crates/abq_queue/src/job_queue.rs: JobQueue::get_work_with_group_ids"]}
{"id": "C04", "title": "Batch size is respected when splitting by test", "statement": "With the by-test strategy a bundle never has more tests than the run's batch size (at most 100 whatever the client asked for), and it is smaller only when the manifest ran out.", "quantifier": "every manifest length, client batch-size hint and history of requests", "why_tests_cant": "All sizes and boundary positions of the pointer relative to the end of the manifest.", "anchors": ["crates/abq_queue/src/job_queue.rs: get_bounds_by_test", "crates/abq_queue/src/queue.rs: MAX_BATCH_SIZE, get_assigned_run"]}
{"id": "C05", "title": "Files are never split when splitting by file", "statement": "With the by-file strategy all the tests of one top-level group of the manifest go out in the same bundle; a bundle has at least the batch-size hint of tests unless the manifest ran out, and it stops at the first group boundary where that is so.", "quantifier": "every manifest whose groups are contiguous (as produced by flattening), every hint and every history of requests", "why_tests_cant": "Group boundaries may fall anywhere relative to the hint; the claim is over all group layouts.", "anchors": ["crates/abq_queue/src/job_queue.rs: get_bounds_by_top_level_group", "crates/abq_utils/src/net_protocol/runners.rs: Manifest::flatten"]}
{"id": "C06", "title": "End-of-work is told exactly when the queue is exhausted", "statement": "A worker is told \"end of work\" with a bundle only if, at that time, every test of the manifest has been claimed; and a bundle that does not carry the end-of-work mark always contains at least one test, so a worker never gets an empty answer that asks it to poll again.", "quantifier": "every state of a run, every strategy, every interleaving of concurrent requests", "why_tests_cant": "Depends on the order of one request's pull against another request's end check.", "anchors": ["crates/abq_queue/src/queue.rs: AllRuns::next_work, AllRuns::get_next_work_online", "crates/abq_queue/src/job_queue.rs: JobQueue::is_at_end"]}
{"id": "C07", "title": "An out-of-process retry gets exactly what that worker had been given", "statement": "When a worker runner reconnects under the same tag during or after a run, the retry manifest it receives is exactly the set of tests previously handed to that tag, in manifest order, no more and no less; tests never handed out belong to nobody.", "quantifier": "every manifest and every history of requests from any set of tags", "why_tests_cant": "All assignment histories; concurrent assignment of disjoint regions.", "anchors": ["crates/abq_queue/src/job_queue.rs: JobQueue::get_partition_for_entity", "crates/abq_queue/src/queue.rs: AllRuns::get_retry_manifest"]}
{"id": "C08", "title": "The persisted manifest yields the same retry partition as the live queue", "statement": "After the manifest has been persisted, filtering it for a worker tag (done by in-place swapping) returns exactly the tests, in the same order, that the live queue would have returned for that tag.", "quantifier": "every manifest, every assignment of tags, every tag", "why_tests_cant": "The in-place compaction is correct or wrong depending on the arrangement of owners; all arrangements matter.", "anchors": ["crates/abq_queue/src/persistence/manifest.rs: ManifestView::get_partition_for_entity", "crates/abq_queue/src/job_queue.rs: JobQueue::into_manifest_view"]}
{"id": "C09", "title": "Run states only move forward", "statement": "A run goes waiting-for-manifest, then serving tests, then manifest-exhausted, and may be cancelled only before exhaustion; a cancelled or exhausted run never goes back to serving tests or waiting, and runs are never forgotten by the queue.", "quantifier": "every sequence of requests (joins, manifests, work requests, cancellations, timeouts, completions) over any number of runs", "why_tests_cant": "Needs all orders of events, including late and duplicated ones.", "anchors": ["crates/abq_queue/src/queue.rs: RunState, AllRuns"]}
{"id": "C10", "title": "Exactly one worker is asked to generate the manifest", "statement": "For each run id on one queue instance, at most one join request is ever answered with the instruction to generate the manifest, and it is the first one to create the run, even if many workers join at the same instant while the queue is waiting on remote storage; every other worker is answered without it.", "quantifier": "every interleaving of any number of joins of the same or other runs, with any answers of the remote store", "why_tests_cant": "The time-of-check/time-of-use window around the remote lookup needs specific interleavings.", "anchors": ["crates/abq_queue/src/queue.rs: find_or_create_run, try_create_run, try_create_globally_fresh_run"]}
{"id": "C11", "title": "How a joining worker is classified", "statement": "A worker joining a run is treated as fresh iff its tag has not been seen in that run, as a retry iff it has been seen and the manifest is known and not empty, as \"already done\" iff the manifest was exhausted and its tag never took part, and as cancelled iff the run was cancelled.", "quantifier": "every reachable state of a run and every worker tag", "why_tests_cant": "Must hold for all histories of joins, work requests and completions.", "anchors": ["crates/abq_queue/src/queue.rs: AllRuns::find_or_create_run", "crates/abq_queue/src/worker_tracking.rs: WorkerSet"]}
{"id": "C12", "title": "A cancelled run hands out no more tests", "statement": "After a run was cancelled (by user, missing manifest or lack of progress) no request of any kind made afterwards for that run returns a test; only a request that had already taken its tests from the queue when the run was cancelled is still answered with them.", "quantifier": "every history after the cancellation", "why_tests_cant": "Quantifies over all continuations.", "anchors": ["crates/abq_queue/src/queue.rs: mark_cancelled, next_work, get_retry_manifest, add_manifest"]}
{"id": "C13", "title": "Cancellation is refused once the manifest is exhausted", "statement": "A cancellation request for a run whose tests were all handed out and recorded leaves the run retryable and its results readable; it only marks the requesting worker inactive.", "quantifier": "every reachable exhausted state and every cancelling worker", "why_tests_cant": "All states and orders.", "anchors": ["crates/abq_queue/src/queue.rs: AllRuns::mark_cancelled"]}
{"id": "C14", "title": "The active-run counter is right", "statement": "The number of active runs the queue reports equals the number of runs waiting for a manifest or serving tests, so the queue is drained exactly when there are none.", "quantifier": "every history of requests over any number of runs, including repeated cancellations", "why_tests_cant": "Counter drift appears only after particular repetitions of events (e.g. cancelling twice).", "anchors": ["crates/abq_queue/src/queue.rs: AllRuns::num_active, mark_cancelled_help, Abq::is_drained"]}
{"id": "C15", "title": "A run is cancelled for lack of progress only when there was none", "statement": "When the progress timer fires, the run is cancelled iff it is still waiting for its manifest or its position in the manifest has not advanced since the previous observation; finished and cancelled runs are left alone, and a run that advanced gets a new timer with the new position.", "quantifier": "every run state and every previously observed position, including a transiently over-advanced one", "why_tests_cant": "Timing and races between timer and pulls.", "anchors": ["crates/abq_queue/src/queue.rs: handle_manifest_progress_timeout, query_manifest_progress_status, handle_timeout"]}
{"id": "C16", "title": "Results are readable only when all participating runners finished", "statement": "A results request is answered with results only if every runner that was handed tests has since notified completion; otherwise the answer lists the active runners.", "quantifier": "every history of work requests, retries and completion notifications", "why_tests_cant": "All orders of joins, retries, completions.", "anchors": ["crates/abq_queue/src/queue.rs: get_read_results_cell, mark_worker_complete, next_work"]}
{"id": "C17", "title": "Acknowledged results are in every later read", "statement": "If the queue acknowledged a batch of results before it receives a results request, and the request is answered with a stream, the stream contains that batch exactly once, unless its write to disk failed.", "quantifier": "every interleaving of result batches being recorded and of read requests, any number of them", "why_tests_cant": "Linearizability claim over concurrent schedules.", "anchors": ["crates/abq_queue/src/persistence/results.rs: ResultsPersistedCell, PersistencePlan::execute", "crates/abq_queue/src/queue.rs: handle_worker_results, handle_test_results_request"]}
{"id": "C18", "title": "The last recorded results reach remote storage", "statement": "When all the result batches of a run have been recorded after its manifest is exhausted, remote storage holds all of them.", "quantifier": "every interleaving of result recordings with the exhaustion of the manifest", "why_tests_cant": "Depends on which of several concurrent recordings finishes last.", "anchors": ["crates/abq_queue/src/persistence/results.rs: PersistencePlan::execute", "crates/abq_queue/src/queue.rs: get_write_results_cell"]}
{"id": "C19", "title": "Offloading and reloading lose no results", "statement": "Moving a run's results file to remote storage, and loading it back on the next access, is invisible to readers and writers: at any point reading returns all the batches recorded so far in order.", "quantifier": "every history of writes, reads, offload jobs and (as the code allows) failures of the remote", "why_tests_cant": "All interleavings of offload jobs with accesses.", "anchors": ["crates/abq_queue/src/persistence/results/fs.rs: FilesystemPersistor::with_file, perform_offload, dump, with_results_stream"]}
{"id": "C20", "title": "Only stale, non-empty files are offloaded", "statement": "A file is offloaded only if it is non-empty and its last access is at least the configured threshold in the past; a file accessed in the future or just now is left.", "quantifier": "every file size, access time, current time and threshold", "why_tests_cant": "Boundary conditions over all times.", "anchors": ["crates/abq_queue/src/persistence/offload.rs: OffloadConfig"]}
{"id": "C21", "title": "Storage names of different runs never collide", "statement": "Different runs, and different kinds of record of one run, get different local file names and different remote keys, and the run id can be recovered from a results file name.", "quantifier": "every pair of run ids and kinds", "why_tests_cant": "All strings.", "anchors": ["crates/abq_queue/src/persistence/results/fs.rs: get_path, run_id_of_path", "crates/abq_queue/src/persistence/manifest/fs.rs: get_path", "crates/abq_queue/src/persistence/remote/s3.rs: build_key"]}
{"id": "C22", "title": "A retry is pointed at a persisted manifest only when it exists", "statement": "A worker is told to fetch its retry manifest from persistence only after the manifest was successfully written; until then it is told to wait, and if writing fails it is never told to fetch.", "quantifier": "every interleaving of the persistence task with retry requests", "why_tests_cant": "Schedules and failures.", "anchors": ["crates/abq_queue/src/persistence/manifest.rs: ManifestPersistedCell, make_persistence_task", "crates/abq_queue/src/queue.rs: get_retry_manifest"]}
{"id": "C23", "title": "A manifest read back equals the manifest written", "statement": "Fetching a persisted manifest returns exactly the tests and owners that were dumped, whether it is still on the local disk, was offloaded, or both.", "quantifier": "every manifest and every history of dump, offload and fetch operations", "why_tests_cant": "Depends on file offsets and truncation across histories.", "anchors": ["crates/abq_queue/src/persistence/manifest/fs.rs: dump, load_manifest_view, perform_offload"]}
{"id": "C24", "title": "Run state survives the remote store; incompatible versions are not misread", "statement": "A run state serialized by the queue is read back identical; a stored state of another schema version whose shape is not understood is treated as incompatible (a fresh run), never as a found run.", "quantifier": "every run state and every stored document", "why_tests_cant": "All documents.", "anchors": ["crates/abq_queue/src/persistence/run_state.rs: SerializableRunState"]}
{"id": "C25", "title": "Workers retry exactly the tests that keep failing", "statement": "After an attempt, the tests retried in the next attempt are exactly those of the worker's tests that failed on every attempt so far, in their original order; tests that passed once are never run again.", "quantifier": "every list of tests, every outcome of every attempt, every order and batching of result notifications", "why_tests_cant": "All outcome sequences.", "anchors": ["crates/abq_workers/src/test_fetching/retries.rs: RetryManifestTracker"]}
{"id": "C26", "title": "Retries are bounded", "statement": "A test is attempted at most max-run-number (1 + retries) times, and once the retry manifest is exhausted the worker gets end-of-work.", "quantifier": "every retry limit and every outcome sequence", "why_tests_cant": "All outcome sequences.", "anchors": ["crates/abq_workers/src/test_fetching/retries.rs: try_assemble_retry_manifest"]}
{"id": "C27", "title": "A worker's fetcher delivers every test of every source once, in order, before retries", "statement": "The tests a runner receives are the concatenation, in order, of what its sources (retry manifest first, then the queue) supplied, followed by the in-band retries; end-of-work is signalled only after all of these, and never a non-final empty batch.", "quantifier": "every sequence of bundles from every source and every outcome", "why_tests_cant": "All bundle sequences, including empty ones and early end marks.", "anchors": ["crates/abq_workers/src/test_fetching.rs: Fetcher::get_next_tests", "crates/abq_workers/src/runner_strategy.rs"]}
{"id": "C28", "title": "The prefetch buffer delivers every message once and in order", "statement": "Items pushed into the prefetching buffer are received by the consumer exactly once in order; the producer is asked for more before the consumer runs dry, and neither side ever blocks forever while the other has work.", "quantifier": "every sequence of non-empty batches, every interleaving of producer and consumer", "why_tests_cant": "Deadlock freedom and ordering over all schedules.", "anchors": ["crates/abq_runners/generic_test_runner/src/message_buffer.rs: BatchedProducer, BatchedConsumer"]}
{"id": "C29", "title": "Buffered results are neither lost, duplicated nor reordered", "statement": "Every result pushed into a runner's result buffer is sent exactly once, in order, in batches no larger than the configured size, and nothing remains after the final flush.", "quantifier": "every sequence of pushes and flushes and every batch size", "why_tests_cant": "All sequences.", "anchors": ["crates/abq_runners/generic_test_runner/src/buffered_results.rs: BufferedResults"]}
{"id": "C30", "title": "One record per worker tag", "statement": "The queue's worker tracking holds at most one entry per worker tag; inserting replaces the entry of the same tag and returns the old one, leaving the other tags and their order untouched.", "quantifier": "every sequence of insertions", "why_tests_cant": "All histories.", "anchors": ["crates/abq_queue/src/worker_tracking.rs: WorkerSet"]}
{"id": "C31", "title": "Back-off delays grow up to a cap", "statement": "Successive delays of the exponential back-off never decrease, never exceed the cap, start at the configured initial delay and stay at the cap once reached.", "quantifier": "every initial delay, multiplier >= 1, cap and number of attempts", "why_tests_cant": "All parameters and unbounded attempts.", "anchors": ["crates/abq_utils/src/decay.rs: ExpDecay"]}
{"id": "C32", "title": "Retry helpers make at most the configured number of attempts", "statement": "A retried operation is attempted until it first succeeds or the configured number of attempts is made; the result is the first success or the last error.", "quantifier": "every attempt limit and every sequence of outcomes", "why_tests_cant": "All outcome sequences.", "anchors": ["crates/abq_utils/src/retry.rs: retry_n, async_retry_n"]}
{"id": "C33", "title": "Pool completion is signalled exactly when all runners completed", "statement": "Waiting on a worker pool returns exactly when every runner has signalled completion, independent of their order.", "quantifier": "every number of runners and every order of signals", "why_tests_cant": "All orders.", "anchors": ["crates/abq_workers/src/liveness.rs: LiveCount"]}
{"id": "C34", "title": "Messages survive the wire", "statement": "A message written to a connection is read back identical by the peer and exactly its bytes are consumed, whether or not it was compressed, so that consecutive messages never bleed into each other.", "quantifier": "every payload below the 2 GiB frame limit, every sequence of messages", "why_tests_cant": "All payloads and sequences.", "anchors": ["crates/abq_utils/src/net_protocol.rs: write, read, async_write, async_read"]}
{"id": "C35", "title": "How the network fragments bytes does not matter", "statement": "The incremental message reader returns the same messages however the byte stream is split into reads.", "quantifier": "every message sequence and every fragmentation", "why_tests_cant": "All fragmentations.", "anchors": ["crates/abq_utils/src/net_protocol.rs: AsyncReader"]}
{"id": "C36", "title": "The incremental reader may be cancelled and resumed at any point", "statement": "Abandoning a read future at any await point and calling it again later loses no bytes and returns the same messages (the reader is documented as cancellation safe).", "quantifier": "every message sequence, fragmentation and set of cancellation points", "why_tests_cant": "A single unlucky cancellation point suffices to break it.", "anchors": ["crates/abq_utils/src/net_protocol.rs: AsyncReader::next"]}
{"id": "C37", "title": "Access to the queue follows the tokens", "statement": "With authentication enabled a connection is accepted as client iff it presents the user token, as admin iff it presents the admin token, and is refused for anything else, including truncated tokens; without authentication everything is admin.", "quantifier": "every configuration of tokens and every byte string presented", "why_tests_cant": "All byte strings.", "anchors": ["crates/abq_utils/src/auth/strategy.rs: ServerAuthStrategy::verify_header, Role"]}
{"id": "C38", "title": "Tokens print and parse faithfully", "statement": "Every token printed by the tool parses back to the same token, user and admin tokens are never confused, and a string parses only if it is exactly the prefix followed by thirty alphanumerics.", "quantifier": "every token and every string", "why_tests_cant": "All strings.", "anchors": ["crates/abq_utils/src/auth/token.rs: parse_human_readable", "crates/abq_utils/src/auth/user.rs", "crates/abq_utils/src/auth/admin.rs"]}
{"id": "C39", "title": "Flattening a manifest keeps every test once, in order, under its top-level group", "statement": "Flattening returns exactly the tests of the manifest tree in depth-first document order, each with a distinct work id, and two tests share a group iff they are in the same top-level member, so that groups are contiguous.", "quantifier": "every manifest tree of any depth", "why_tests_cant": "All trees.", "anchors": ["crates/abq_utils/src/net_protocol/runners.rs: Manifest::flatten"]}
{"id": "C40", "title": "The report orders results deterministically", "statement": "The report shows a permutation of the received results sorted by test, then time, then attempt, independent of the order in which they were received when keys are distinct.", "quantifier": "every multiset of results and every arrival order", "why_tests_cant": "All permutations.", "anchors": ["crates/abq_cli/src/report/ordered_results.rs: OrderedAssociatedResults"]}
{"id": "C41", "title": "Suite counts and exit code follow the outcomes", "statement": "The suite's exit code is 0 iff no test failed in all its attempts and no internal error is outstanding, 101 iff an internal error is outstanding, and 1 otherwise; the number of tests, failures and retried tests in the summary are exactly the numbers of tests with those histories.", "quantifier": "every sequence of results of any number of tests and attempts", "why_tests_cant": "All sequences.", "anchors": ["crates/abq_cli/src/reporting/summary.rs: SuiteTracker::account_result, suite_result"]}
{"id": "C42", "title": "The summary cache is never stale", "statement": "The metrics reported at any point equal the metrics recomputed from scratch from all results accounted so far.", "quantifier": "every interleaving of accounting and querying", "why_tests_cant": "All histories.", "anchors": ["crates/abq_cli/src/reporting/summary.rs: SuiteTracker::aggregated_metrics"]}
{"id": "C43", "title": "The pool's exit code is the worst of its runners'", "statement": "When a pool of runners completes, its exit code is the highest exit code of any runner, and output captured while generating the manifest is reported.", "quantifier": "every list of runner outcomes", "why_tests_cant": "All lists.", "anchors": ["crates/abq_workers/src/workers.rs: WorkerPool::shutdown"]}
{"id": "C44", "title": "Captured output equals what the child wrote", "statement": "The bytes captured for a native runner, over all captures, are exactly the bytes it wrote, in order, each byte captured once; the bytes forwarded to the parent's stdio are the same bytes.", "quantifier": "every sequence of writes (with partial acceptance) and captures", "why_tests_cant": "All interleavings of writes and captures.", "anchors": ["crates/abq_utils/src/capture_output/muxer.rs: Muxer, SideChannel"]}
{"id": "C45", "title": "A crashing native runner still yields one result per outstanding test", "statement": "If the native runner fails in the middle of a batch, exactly one failure result is reported for the test it failed on and for each test not yet run of what was fetched, so that together with earlier results every fetched test has a result.", "quantifier": "every batch and every failure point", "why_tests_cant": "All failure points.", "anchors": ["crates/abq_runners/generic_test_runner/src/lib.rs: execute_all_tests, handle_native_runner_failure"]}
{"id": "C46", "title": "A worker with a different test command is detected", "statement": "Two workers of one run get the \"test command differs\" flag exactly when their commands (program and arguments) differ, assuming a collision-free hash function.", "quantifier": "every pair of commands", "why_tests_cant": "All pairs.", "anchors": ["crates/abq_utils/src/test_command_hash.rs: TestCommandHash", "crates/abq_queue/src/queue.rs: find_or_create_run"]}
{"id": "C47", "title": "Only the supported protocol version is accepted", "statement": "A native runner is accepted iff it announces exactly protocol version 0.2.", "quantifier": "every version pair", "why_tests_cant": "All pairs of integers.", "anchors": ["crates/abq_utils/src/net_protocol/runners.rs: AbqProtocolVersion::get_supported_witness"]}
{"id": "C48", "title": "A report is only produced from a complete set of results", "statement": "`abq report` succeeds only if a run summary was received and the number of distinct tests with results equals the manifest size in it; reporters are finished only then; each received result is given to each reporter exactly once, the output before/after a test's results attached to the first/last of them; for the results of a single run the exit code is 0 iff no test failed in all its attempts and no crash is left unresolved.", "quantifier": "every set of received result lines", "why_tests_cant": "All sets.", "anchors": ["crates/abq_cli/src/report.rs: process_results, handle_result"]}
{"id": "C49", "title": "A background job never overlaps itself", "statement": "The periodic offload job never runs twice concurrently; a run requested while one is active is skipped, and one requested afterwards is executed.", "quantifier": "every interleaving of any number of triggers", "why_tests_cant": "Schedules.", "anchors": ["crates/abq_cli/src/instance/periodic_job.rs: ConcurrencyControlledJob::run"]}
{"id": "C50", "title": "Where a worker connects follows the configuration", "statement": "The queue address, token, certificate and read-only mode a client uses are decided by the access-token kind, the explicit run id and the command line exactly as documented: configuration from the API wins unless a personal token is used without an explicit run id.", "quantifier": "every combination of options", "why_tests_cant": "Full product of options.", "anchors": ["crates/abq_cli/src/main.rs: resolve_config, validate_queue_location"]}
{"id": "C51", "title": "The run id is inferred from CI only when it should be", "statement": "A run id is inferred only in a CI environment with no explicit ABQ_RUN_ID, taking the first available of Buildkite, CircleCI, GitHub, Mint in this order.", "quantifier": "every environment", "why_tests_cant": "Full product.", "anchors": ["crates/abq_cli/src/main.rs: get_inferred_run_id"]}
{"id": "C52", "title": "Every test of a run is executed by some worker", "statement": "In a run with any number of workers that is not cancelled, when all workers have received end-of-work every test of the manifest has been delivered to exactly one runner as first attempt.", "quantifier": "every number of workers, every interleaving of their fetches", "why_tests_cant": "System-level composition over all schedules.", "anchors": ["crates/abq_queue/src/queue.rs: next_work", "crates/abq_workers/src/test_fetching.rs: Fetcher"]}
{"id": "C53", "title": "Small associative lists behave like maps", "statement": "The vector-backed map used for per-worker records (worker connection times) behaves as a map: after any sequence of insertions and removals a key is bound to its last inserted value unless removed since, each operation returns the previous binding, and a key is never bound twice.", "quantifier": "every sequence of operations, all keys and values", "why_tests_cant": "Removal swaps elements in place, so that positions change; all operation sequences.", "anchors": ["crates/abq_utils/src/vec_map.rs: VecMap"]}
{"id": "C54", "title": "Every active run is watched by a timer", "statement": "While a run is waiting for its manifest or serving tests, a progress timer for it is armed or being handled, so that a stalled run is always cancelled eventually; the position the timer compares with is never ahead of the tests handed out.", "quantifier": "every history of requests and timer expirations, at every point of it", "why_tests_cant": "Timers are one-shot and re-armed by the handler; a missed re-arm shows only in long histories.", "anchors": ["crates/abq_queue/src/queue.rs: handle_timeout, handle_manifest_progress_timeout, get_assigned_run", "crates/abq_queue/src/timeout.rs: RunTimeoutManager"]}
{"id": "C55", "title": "A manifest reported as not yet persisted will be persisted", "statement": "When a retrying worker is told to wait because the manifest is not yet persisted, a task is in progress that will persist it.", "quantifier": "every history of requests, including failures of connections and storage", "why_tests_cant": "A lost task shows only as an endless wait under one particular failure.", "anchors": ["crates/abq_queue/src/queue.rs: start_persistent_next_tests_requests_task, get_retry_manifest", "crates/abq_queue/src/persistence/manifest.rs: make_persistence_task"]}
{"id": "C56", "title": "Requests on known runs never panic the queue", "statement": "No request for a run the queue knows about makes the thread serving it panic, whatever the order of requests; requests for a run that was never created nor loaded are the only ones that can.", "quantifier": "every history of requests", "why_tests_cant": "Panics are slice indices and unwraps guarded by invariants over all histories.", "anchors": ["crates/abq_queue/src/queue.rs: AllRuns", "crates/abq_queue/src/job_queue.rs: get_work"]}
{"id": "C57", "title": "Acknowledged results survive a restart of the queue", "statement": "Results acknowledged by a queue that is then stopped or crashes are returned to results requests for the run by the next queue using the same storage.", "quantifier": "every history of recordings and every point at which the queue stops", "why_tests_cant": "Crash points are between the acknowledgement, the local write and the remote copy.", "anchors": ["crates/abq_queue/src/queue.rs: handle_worker_results", "crates/abq_queue/src/persistence/results/fs.rs: with_file"]}
{"id": "C58", "title": "Retries are narrowed to the tests that failed", "statement": "A piece of work retried in a worker is narrowed to the tests that failed: each of them failed in a previous attempt, and every test that failed in the last attempt is among them.", "quantifier": "every history of tests, results and retries of a worker, every set of failures within a piece of work", "why_tests_cant": "The set accumulates over attempts; histories are unbounded.", "anchors": ["crates/abq_workers/src/test_fetching/retries.rs: RetryManifest::account_results, account_failure", "crates/abq_utils/src/net_protocol/runners/v0_2.rs: add_test_focus"]}
{"id": "C59", "title": "A test is attempted until it passes or its attempts are used up", "statement": "When a worker's runner is told that there is no more work, every test it was given has been given for the last attempt allowed, or an attempt of it without failures was reported.", "quantifier": "every history of fetches, results and retries, every number of retries, every slicing into bundles", "why_tests_cant": "Combines the sources, the tracker and the bound over whole histories.", "anchors": ["crates/abq_workers/src/test_fetching.rs: Fetcher::fetch_next_tests", "crates/abq_workers/src/test_fetching/retries.rs: RetryManifest"]}
{"id": "C60", "title": "A runner always finishes", "statement": "Once a runner has got its initialization context, it comes to an end: every test it fetches is run or reported as failed, the end of work is reached, and all its tasks return, whatever the native runner does.", "quantifier": "every script of the queue's answers, every number of retries, every batch size, every failure point of the native runner, every fair interleaving of fetching, running and reporting", "why_tests_cant": "Liveness over all schedules; the hang needs a particular interleaving.", "anchors": ["crates/abq_runners/generic_test_runner/src/lib.rs: execute_all_tests", "crates/abq_runners/generic_test_runner/src/message_buffer.rs: BatchedProducer::start, BatchedConsumer::flush", "crates/abq_workers/src/test_fetching.rs: Fetcher::fetch_next_tests"]}
{"id": "C61", "title": "A worker waits for the manifest as long as it takes", "statement": "A runner that joined before the manifest is known asks again until it gets a definite answer, and takes the first one; it never gives up while told to wait, and between requests it waits 10 ms doubled each time, at most 3 s.", "quantifier": "every number of 'wait' answers and every answer after them", "why_tests_cant": "Needs arbitrarily many answers.", "anchors": ["crates/abq_workers/src/runner_strategy.rs: GetInitContextOnline::get_init_context"]}
{"id": "C62", "title": "A pool reports every runner's end", "statement": "When a pool ends it reports an error iff a runner ended with an error, with every error's message; it reports the final output of every runner exactly once; the process exits with 101 on errors and never with less than the suite's exit code otherwise.", "quantifier": "every list of runner outcomes", "why_tests_cant": "Quantifies over all lists of outcomes.", "anchors": ["crates/abq_workers/src/workers.rs: WorkerPool::shutdown", "crates/abq_cli/src/workers.rs: do_shutdown"]}
{"id": "C63", "title": "A connection that ends or stalls within a message does no harm", "statement": "If the connection ends, fails or stalls in the middle of a message, no message is made up from the part received, the reader reports an error as soon as it sees the end, and it does not use more memory than the message's size.", "quantifier": "every message sequence, every fragmentation, every point and kind of failure", "why_tests_cant": "All failure points.", "anchors": ["crates/abq_utils/src/net_protocol.rs: AsyncReader::next, read_exact_help"]}
{"id": "C64", "title": "Per-runner and per-file numbers add up", "statement": "For each runner and file the summary gives exactly the number of tests that failed, and that were retried, among the tests first run by that runner in that file; there is one entry per runner that ran something, in order.", "quantifier": "every history of results", "why_tests_cant": "All histories.", "anchors": ["crates/abq_cli/src/reporting/summary.rs: SuiteTracker::suite_result"]}
{"id": "C65", "title": "Listing the tests of a runner", "statement": "`abq list-tests` prints exactly the ids of the first-attempt results of the given runner, each once, in order of time, results of the same time in the order received.", "quantifier": "every set of received result lines, every runner", "why_tests_cant": "All sets and orders.", "anchors": ["crates/abq_cli/src/report.rs: print_tests_for_runner"]}
{"id": "C66", "title": "A queue address given on the command line is used", "statement": "If the user gives `--queue-addr`, then `abq test` connects to this address and to no other.", "quantifier": "every accepted combination of options, environment, stored token and API answer", "why_tests_cant": "Full product of options and stored configuration.", "anchors": ["crates/abq_cli/src/main.rs: resolve_config, ConfigFromApi", "crates/abq_cli/src/main.rs: find_or_create_abq"]}
{"id": "C67", "title": "`abq health` tells the truth", "statement": "`abq health` exits with 0 exactly if at least one service was named and every named service answers that it is healthy, and prints one line per service in order.", "quantifier": "every list of services and every answer of each", "why_tests_cant": "All lists of answers.", "anchors": ["crates/abq_cli/src/health.rs", "crates/abq_cli/src/main.rs: Command::Health"]}
{"id": "C68", "title": "Requests to the hosted API are retried a bounded number of times", "statement": "A request is sent again only after a server error or a rate limit, at most six times in all, with delays that double from 5 seconds; the reply returned is the last one received.", "quantifier": "every sequence of replies and network errors", "why_tests_cant": "All sequences of replies.", "anchors": ["crates/abq_hosted/src/config.rs: send_request_with_decay_help"]}
{"id": "C69", "title": "A queue from the hosted API is the one for this run", "statement": "An address, token and certificate are taken from an answer of the API only if the answer is a success and names the very run that was asked for, and they are those of the answer.", "quantifier": "every answer, every history of retries", "why_tests_cant": "All answers, including malformed ones.", "anchors": ["crates/abq_hosted/src/config.rs: HostedQueueConfig::from_api"]}
{"id": "C70", "title": "A queue retires on one signal and dies on two", "statement": "A queue that receives one termination signal takes no new runs but goes on with those it has; it stops on a second signal, and neither retires nor stops without a signal.", "quantifier": "every schedule of signals, the listening thread and the main loop", "why_tests_cant": "Interleavings of threads and signals.", "anchors": ["crates/abq_cli/src/instance.rs: start_abq_forever"]}
{"id": "C71", "title": "Collecting a killed runner's output never crashes the worker", "statement": "When a native runner ends, or is killed after a timeout, collecting its output returns what was captured and does not panic.", "quantifier": "every schedule of the child, the copying tasks, the runtime and the caller", "why_tests_cant": "Depends on when the runtime drops aborted tasks.", "anchors": ["crates/abq_utils/src/capture_output/capture_pipes.rs: close, finish", "crates/abq_runners/generic_test_runner/src/lib.rs: run_help"]}
{"id": "C72", "title": "A native runner's output is reported with its tests", "statement": "Everything a native runner writes is in the reports of the tests it ran, once and in order: the report of a test has the output from just before the test to its last answer, and what is left at the end is the final output.", "quantifier": "every sequence of messages from a native runner, every capture between them, any number of tests", "why_tests_cant": "All message sequences and capture points.", "anchors": ["crates/abq_runners/generic_test_runner/src/lib.rs: send_and_wait_for_test_results, handle_one_test_help", "crates/abq_utils/src/capture_output/*"]}
{"id": "C73", "title": "A failed restart of the native runner ends the worker's runner", "statement": "If the native runner cannot be restarted for another attempt, the runner ends with an error, the tests it was given are reported as failed, and the queue is not told that all tests were run.", "quantifier": "every schedule of the tasks, every script of the queue, every point at which a restart fails", "why_tests_cant": "Depends on where the fetching task is when the restart fails.", "anchors": ["crates/abq_runners/generic_test_runner/src/lib.rs: execute_all_tests, reconcile_run_number"]}
{"id": "C74", "title": "A runner says it ran all tests only when their results are at the queue", "statement": "When a runner tells the queue that it ran all tests, every test it was given has been reported, and it will be given no more.", "quantifier": "every schedule of the tasks, every script of the queue, crashes and timeouts on any test", "why_tests_cant": "Interleaving of notification and the last flush.", "anchors": ["crates/abq_runners/generic_test_runner/src/lib.rs: execute_all_tests: notify_all_tests_run, send_results_task"]}
{"id": "C75", "title": "A test answered by the native runner is reported as answered", "statement": "Results the native runner yields for a test are reported as they are, in order; a test is reported as failed by abq only if the native runner did not answer it.", "quantifier": "every schedule of the tasks, every sequence of answers, crashes, timeouts and back pressure", "why_tests_cant": "Needs a slow queue at the moment a test ends.", "anchors": ["crates/abq_runners/generic_test_runner/src/lib.rs: handle_one_test, try_send_result_to_channel", "crates/abq_utils/src/timeout_future.rs"]}
{"id": "C76", "title": "Every test of a finished run is reported once, whoever ran it", "statement": "When the queue has handed out all tests of a run, all its answers were written, and all workers that got tests have ended properly, then the reports of all workers together have each test of the manifest exactly once as a first attempt, no attempt at a test twice, and nothing else; a test was attempted until it succeeded or as often as allowed.", "quantifier": "every history of the queue with any number of runs and workers, every schedule of every runner's tasks, crashes of native runners, every outcome of every test", "why_tests_cant": "Two concurrent systems composed: hand-out at the queue and fetching, running, retrying and reporting at each worker.", "anchors": ["crates/abq_queue/src/queue.rs: AllRuns, handle_worker_connection", "crates/abq_runners/generic_test_runner/src/lib.rs: execute_all_tests", "crates/abq_workers/src/test_fetching.rs", "crates/abq_workers/src/results_handler.rs"]}
{"id": "C77", "title": "The queue is told what became of the manifest", "statement": "A runner asked for the manifest tells the queue, on every path, exactly one of: the manifest its native runner gave; that its native runner failed to give one; or, when told to shut down, that the run is cancelled. Only the loss of the queue prevents it. A runner not asked says nothing about the manifest. A shutdown at any point cancels the run.", "quantifier": "every outcome of every await, and a shutdown at any of them", "why_tests_cant": "All combinations of failures of launch, connection, manifest, restart and of the moment of a shutdown.", "anchors": ["crates/abq_runners/generic_test_runner/src/lib.rs: run_async, run_help, retrieve_manifest", "crates/abq_workers/src/runner_strategy.rs: SendManifestOnline, OnlineCancelNotifier"]}
{"id": "C78", "title": "The JSON report has every attempt of every test and its numbers add up", "statement": "Whatever results are reported, in whatever order, the JSON report (rwx-v1-json) lists each test once, under it every attempt of each of its results in the order in which the attempts were made with the latest as the current one, and as other errors every crash of a native runner and every failure without a location that came before the other results of its test. No result is lost. The numbers in the summary count tests by their last result and add up, and the status is failed exactly if a last result failed or timed out or there is another error.", "quantifier": "every list of results, with attempts of any depth, and every order in which the hash map is traversed", "why_tests_cant": "retries, nested attempts, missing locations and crashes combine in unboundedly many ways; the tests have one fixed list each", "anchors": ["crates/reporters/rwx_v1_json/src/lib.rs: Collector::push_result, Attempt::from, Summary::account, Summary::account_native_runner_errors, Collector::test_results"]}
{"id": "C79", "title": "The JSON report and the exit code agree on whether the suite succeeded", "statement": "For every list of results, the status in the JSON report is failed exactly if the exit code computed from the same results is not zero.", "quantifier": "every list of results, with any retries, crashes and locations", "why_tests_cant": "two independent accumulations of the same results have to agree for every history of retries and crashes", "anchors": ["crates/reporters/rwx_v1_json/src/lib.rs: Collector, Summary", "crates/abq_cli/src/reporting/summary.rs: SuiteTracker::account_result, suite_result"]}
{"id": "C80", "title": "A worker's own reporters are told every result its runners produced", "statement": "Each reporter of `abq test` is told every result the worker's runners sent, once and in the order in which they were sent, output captured before a test with the first of its results and output captured after it with the last, whatever reporters answer; then that there are no more results, and only then, once all runners are done, it is finished. The summary printed is the summary of exactly these results.", "quantifier": "every interleaving of runners and reporting task, every list of answers (with any number of results each), every behaviour of the reporters", "why_tests_cant": "results arrive while runners come and go and reporters fail; the tests send a few results with one runner", "anchors": ["crates/abq_cli/src/workers/reporting.rs: reporting_task, handle_associated_results, ReportingTaskHandle::join", "crates/abq_cli/src/workers.rs: do_shutdown"]}
{"id": "C81", "title": "abq test exits with zero exactly if everything its workers did succeeded", "statement": "`abq test` exits with 0 exactly if its reporting came to an end, the runners completed without an error and with exit code at most 0, no crash of a native runner was left unresolved and no test it reported failed; if a runner met an error the exit code is ABQ's error code.", "quantifier": "every list of results and every outcome of the runners", "why_tests_cant": "exit code is the combination of the outcome of runners and an accumulated summary of an unbounded list of results", "anchors": ["crates/abq_cli/src/workers.rs: do_shutdown", "crates/abq_cli/src/reporting/summary.rs: SuiteTracker", "crates/abq_utils/src/exit.rs"]}
{"id": "C82", "title": "A file reporter writes the file that was named", "statement": "`--reporter junit-xml=PATH` and `rwx-v1-json=PATH` write to PATH, and without a PATH or with a blank one to the documented default. What is printed for a reporter is understood again as that reporter, and nothing but the documented names is accepted.", "quantifier": "every option string", "why_tests_cant": "option strings are unbounded; the tests try a dozen", "anchors": ["crates/abq_cli/src/reporting.rs: ReporterKind::from_str, ReporterKind Display"]}
{"id": "C83", "title": "Standard output has one owner and all native output is shown once", "statement": "Whatever reporters are asked for and whatever the number of runners, the native runner and a reporter never both write to standard output; if a terminal reporter is asked for by name or as the default, exactly one of them does. Every file asked for is written. The output of every native runner is shown exactly once, while it runs or at the end.", "quantifier": "every list of reporters, every number of runners, every list of outputs", "why_tests_cant": "combinations of reporters and numbers of runners are unbounded, and the decision is made in two places that must agree", "anchors": ["crates/abq_cli/src/reporting.rs: ReporterKind::outputs_to_stdout, reporter_from_kind, build_reporters", "crates/abq_cli/src/workers.rs: start_workers_forever, do_shutdown", "crates/abq_utils/src/net_protocol.rs: RunnerMeta::pipes_to_parent_stdio"]}
{"id": "C84", "title": "Replaying a run does not change it", "statement": "With a personal access token `abq test` sends no results. A replay of a run leaves no trace at the queue once it has ended: everything asked of the queue later is answered as if the replay had not taken place, and the stored data and counts are the same. While it goes on, only the report and the status of the run show it.", "quantifier": "every history before, every replay by any number of workers in any order, every history after", "why_tests_cant": "needs two histories to be compared, with and without a replay, for all continuations", "anchors": ["crates/abq_cli/src/main.rs: abq_main (ExecutionMode)", "crates/abq_cli/src/workers.rs: ExecutionMode", "crates/abq_workers/src/runner_strategy.rs: RunnerStrategyGenerator", "crates/abq_queue/src/queue.rs: AllRuns"]}
{"id": "C85", "title": "A worker does what the queue decided about it", "statement": "A worker that attaches to a run starts the runners it was asked for, pointed at the queue's public addresses, sourcing tests from the queue, or first from what it was given before if it is run again; it warns if its command differs; it starts none if the run is over (and succeeds), cancelled (and fails with the reason) or in case of an error. It asks again only while the run is unknown, at growing intervals of at most 3 s. Among all runners of all workers of a run exactly one generates the manifest.", "quantifier": "every sequence of answers, every number of workers and runners, every history of the queue", "why_tests_cant": "number of workers, runners and requests is unbounded; one generator is a property of all workers and the queue together", "anchors": ["crates/abq_workers/src/negotiate.rs: negotiate_and_start_pool, wait_for_execution_context, QueueNegotiator::handle_conn, NegotiatedWorkers", "crates/abq_workers/src/workers.rs: WorkerPool::new", "crates/abq_workers/src/runner_strategy.rs: RunnerStrategyGenerator::generate", "crates/abq_queue/src/queue.rs: find_or_create_run, try_mark_reached_end_of_manifest"]}
{"id": "C86", "title": "A worker that is run again gets all its tests again", "statement": "If a worker of a run is run again, its runners together are given exactly the tests that the worker's runners were given before, each as often as before, whether the run is still in progress or its manifest is in storage.", "quantifier": "every history of the queue, every number of runners before and after", "why_tests_cant": "what a worker was given depends on the race of all workers; runners before and after are matched by number", "anchors": ["crates/abq_queue/src/queue.rs: get_retry_manifest", "crates/abq_queue/src/job_queue.rs: get_partition_for_entity", "crates/abq_workers/src/workers.rs: WorkerPool::new", "crates/abq_workers/src/runner_strategy.rs: RunnerStrategyGenerator::generate"]}
{"id": "C87", "title": "The terminal reporters show each result once, in order", "statement": "The dot reporter prints exactly one letter per result, in the order of arrival, 80 to a row, and after all results nothing is lost or broken; the line reporter prints one line per result with its name and status; the progress reporter prints each failing result with its output and, at every tick in a terminal, a bar with the number of tests run, passed and failed. None of them panics.", "quantifier": "every sequence of results and ticks, every output of a test", "why_tests_cant": "row breaks, blank lines and the numbers depend on the whole history of results and ticks", "anchors": ["crates/reporters/dot/src/lib.rs: DotReporter", "crates/reporters/line/src/lib.rs: LineReporter", "crates/reporters/progress/src/lib.rs: ProgressReporter", "crates/abq_reporting/src/output.rs: format_result_dot, format_result_line"]}
{"id": "C88", "title": "The summary's lists account for the failures", "statement": "The short summary at the end of a run lists, for failures and for retries, each file and each test in it under the worker and runner that ran it, each once, in a fixed order, with the number of times; the numbers of the list of failures add up to the number of failing tests that is shown.", "quantifier": "every set of results of every number of workers, runners, files and tests", "why_tests_cant": "grouping and ordering depend on all results; adding up is a statement about all of them together", "anchors": ["crates/abq_reporting/src/output.rs: format_short_suite_summary, ShortSummary::grouped_runner_summaries", "crates/abq_cli/src/reporting/summary.rs: SuiteTracker"]}
{"id": "C89", "title": "Every failing test is shown with all its output", "statement": "At the end of a run each failing result is shown, under a heading that names it, with its message, its standard output and its standard error complete, and each heading stands on a line of its own.", "quantifier": "every sequence of results, every output including empty ones, ones with no newline at the end and blank ones", "why_tests_cant": "the layout depends on how each output ends and what follows it; outputs are arbitrary", "anchors": ["crates/abq_reporting/src/output.rs: format_test_result_summary, push_newline_if_needed", "crates/abq_cli/src/report.rs: print_report"]}
{"id": "C90", "title": "The JUnit report agrees with the run", "statement": "The JUnit report has one test case per result, in order, with its name, its time and what became of it, together with the output if it did not pass; its counts are those of the results; and it shows no failure and no error exactly if the suite passed.", "quantifier": "every sequence of results", "why_tests_cant": "agreement with the exit code must hold for every combination of statuses and attempts", "anchors": ["crates/reporters/junit_xml/src/lib.rs: Collector::push_result, write_xml", "crates/abq_cli/src/reporting.rs: JUnitXmlReporter", "crates/abq_cli/src/reporting/summary.rs: SuiteTracker"]}
{"id": "C91", "title": "A request that reaches the queue is answered, and carried out as its answer says", "statement": "Each connection to the queue's servers carries one request; what happens on it is one of few courses fixed by the request: it is carried out at most once, what is answered is what the runs came up with, test results are kept even if their acknowledgment is lost, and a cancellation that was acknowledged is in effect. The runs change in no other way than by these requests. In particular a request that arrived is carried out, and is in effect once acknowledged.", "quantifier": "every schedule of accepts, handshakes, messages, successful and failing writes and continuations, on any number of connections", "why_tests_cant": "handlers of all connections interleave, and a client may vanish between any two steps", "anchors": ["crates/abq_queue/src/queue.rs: QueueServer::start_on, handle, handle_run_cancelled, handle_manifest_result, handle_worker_results, handle_worker_ran_all_tests_notification, handle_test_results_request, handle_run_status_request", "crates/abq_queue/src/queue.rs: WorkScheduler::handle_work_conn", "crates/abq_workers/src/negotiate.rs: QueueNegotiator::handle_conn"]}
{"id": "C92", "title": "Connections do not affect one another, and strangers affect nothing", "statement": "A connection on which no message arrives, be it for a failed handshake, a wrong token, a broken message or silence, leaves the runs, the servers and all other connections exactly as if it had never been made. As long as the queue is not shut down it keeps accepting: whatever happened on other connections, a new client that is let in is heard by each of the servers.", "quantifier": "every schedule, any number of connections, every byte stream a client sends", "why_tests_cant": "needs a comparison of two infinite families of executions, with and without the connection", "anchors": ["crates/abq_queue/src/queue.rs: QueueServer::start_on, WorkScheduler::start_on", "crates/abq_workers/src/negotiate.rs: QueueNegotiator::start", "crates/abq_utils/src/auth.rs: ServerAuthStrategy::async_verify_header"]}
{"id": "C93", "title": "A stuck run is cancelled in time, one that makes progress is not", "statement": "A run that is waiting for its manifest or handing out tests is cancelled only by a request, by a failed manifest, or after having handed out no test for a whole timeout period. Conversely, a run that hands out nothing is cancelled at the latest two periods later, plus the delay with which the queue gets round to its timers.", "quantifier": "every schedule of requests, continuations and passing time, every timeout period, every number of runs", "why_tests_cant": "tests shorten the period and wait for one timer; the bound depends on when tests are handed out relative to when timers are set and fire", "anchors": ["crates/abq_queue/src/timeout.rs: RunTimeoutManager, RunTimeoutStrategy", "crates/abq_queue/src/queue.rs: handle_fired_timeout, handle_timeout, AllRuns::handle_manifest_progress_timeout"]}
{"id": "C94", "title": "Timers are neither lost nor early, and can always be set", "statement": "Each timer that is set fires at most once, not before its time, and stays set until then no matter how often the loop that waits for timers gives up waiting to do something else. A timer that is due is found by the next poll, and waiting for timers lets go of the lock that setting one takes.", "quantifier": "every schedule of setting timers, polling, passing time and giving up waiting", "why_tests_cant": "the loss of a timer needs the waiting future to be dropped between particular polls", "anchors": ["crates/abq_queue/src/timeout.rs: RunTimeoutManager::insert_run_in_progress, next_timeout, TimeoutCell", "crates/abq_queue/src/queue.rs: start_queue (loop over timeouts)"]}
{"id": "C95", "title": "A native runner's messages are understood as they were meant", "statement": "Whatever the order of the members of a message, and whatever members it has beside those of the protocol, a spawn message, manifest, failure or result is read as exactly what it says, or refused if it says nothing the protocol knows; a message of one type is never taken for one of another. Results are reported with every field and past attempt as they were said, in order, from the right runner; the tests of a run are those of the document, in document order; and what abq sends says which test to run, with its metadata and focus.", "quantifier": "all JSON documents, written in any form the readers take: with objects and names of variants as the protocol has them, or with arrays of the fields and numbers of variants", "why_tests_cant": "the readers are derived and untagged variants are tried one after the other, so whether one message can be taken for another depends on every combination of members", "anchors": ["crates/abq_utils/src/net_protocol/runners.rs: RawManifestMessage, RawTestResultMessage, RawNativeRunnerSpawnedMessage, TestResultSpec, Status, TestCaseMessage, InitMessage", "crates/abq_utils/src/net_protocol/runners/v0_2.rs: TestOrGroup, ManifestMessage, TestResult, IncrementalTestResultMessage, TestResultMessage"]}
{"id": "C96", "title": "A run that came to its end is not started anew by a restarted queue", "statement": "Once a worker was told that a run has no more tests, no worker that joins the run later is told to start it or to take part in it as if it were new, whether or not the queue was restarted in between: a worker that took part may run its tests again, any other is told the exit code of the run, and either may be told that the queue failed if the store of run states could not be reached.", "quantifier": "all schedules of requests, continuations, restarts of the queue and faults of the store, for the stores S3 and custom command", "why_tests_cant": "it depends on where between the last answer, the write of the state and the lookup of the next worker the queue is restarted or the store fails", "anchors": ["crates/abq_queue/src/persistence/remote/custom.rs: CustomPersister::try_load_run_state, store_run_state", "crates/abq_queue/src/persistence/remote/s3.rs: try_load_run_state, store_run_state", "crates/abq_queue/src/persistence/remote/noop.rs: NoopPersister", "crates/abq_queue/src/queue.rs: AllRuns::try_create_run, try_load_remote_run"]}
{"id": "C97", "title": "`abq report` works from all recorded results, or fails", "statement": "Once a run is over and its results are recorded, `abq report` and `abq list-tests` work from exactly the results the queue has recorded, in order; otherwise they end with an error, and the error tells why: the run is unknown, waits for its manifest or was cancelled, the named runners are still active, no runner is left to take the remaining tests, the queue cannot be reached, or the time is up.", "quantifier": "every sequence of states of the queue in which the requests are handled, every failure and every early end of the connections, every set of recorded results", "why_tests_cant": "All cut points of a stream and all sequences of answers.", "anchors": ["crates/abq_cli/src/report.rs: wait_for_results_help, report_results, list_tests", "crates/abq_utils/src/net_protocol.rs: async_write_stream, async_read_stream, OpaqueLazyAssociatedTestResults::read_results_lines", "crates/abq_queue/src/queue.rs: handle_test_results_request, get_read_results_cell, StreamResultsCallback"]}
{"id": "C98", "title": "Recorded results are in the report", "statement": "When the queue has acknowledged results and a client that then asks for them is answered with the stream, the client gets every line whose recording was begun before it asked, once, and nothing else; and if those are the results of a whole run, `abq report` ends normally, with exit code 0 exactly when every test passed in one of its attempts and no crash is left without a result", "quantifier": "every schedule of the queue's recordings, offloads, reloads and requests, every number of times the client is told to wait, every file of results, every run of a suite", "why_tests_cant": "it joins the order in which the queue writes, offloads and reads a file with the size prefix, the splitting into lines and the sorting at the client; a test runs a few results through one order", "anchors": ["crates/abq_queue/src/persistence/results.rs ResultsPersistedCell", "crates/abq_queue/src/persistence/results/fs.rs FilesystemPersistor", "crates/abq_queue/src/queue.rs handle_results_stream", "crates/abq_cli/src/report.rs report_results", "crates/abq_cli/src/reporting.rs"]}
{"id": "C99", "title": "What the queue says about a run is what happened to it", "statement": "The phase a run is in (unknown, waiting for its manifest, serving tests, exhausted, cancelled) follows from the answers given about it so far, and fixes what is answered next: the status, whether results are taken and whether they are due for remote storage, whether results can be read, what a worker asking for metadata, tests or its old tests gets. The metadata a worker gets is what came with the accepted manifest (or the remote copy of the run); the reason given for a cancelled run is that of the last thing that cancelled it", "quantifier": "every schedule of joins, manifests, work requests, cancellations, timeouts and completions over any number of runs", "why_tests_cant": "every answer depends on all of the history, including late, repeated and refused requests; tests look at a few orders", "anchors": ["crates/abq_queue/src/queue.rs get_run_status, get_write_results_cell, get_read_results_cell, init_metadata, get_retry_manifest, next_work, mark_cancelled, mark_failed_to_receive_manifest, handle_manifest_progress_timeout"]}
{"id": "C100", "title": "What is written as JSON is read back, and JSON is what is read", "statement": "A document written by serde_json's writer is read back as the same document, provided it is nested less than 128 deep and its floating point numbers survive printing; it is written on one line; a document cut short at either end is not taken for one; and the reader accepts exactly the texts of the JSON grammar (with any blanks and escapes) which are nested less than 128 deep, as what they stand for", "quantifier": "every JSON document and every byte string", "why_tests_cant": "strings, escapes, surrogates, numbers and nesting combine without limit; tests look at a few documents, none of them deep", "anchors": ["crates/abq_utils/src/net_protocol.rs (from_slice, to_vec, to_writer)", "crates/abq_queue/src/persistence/manifest/fs.rs write_manifest, fetch_manifest", "crates/abq_queue/src/persistence/results/fs.rs", "crates/abq_queue/src/persistence/run_state.rs", "Cargo.toml serde_json features"]}
{"id": "C101", "title": "Messages arrive as they were sent", "statement": "Whatever a worker, a runner or a reporter sends to the queue, and whatever the queue answers, is received as it was sent: requests with results or manifests, requests for tests and their answers, what is said when a worker starts. What the queue has received it can write to its files and read back, and hand out to other workers. In particular, the results and manifests that a native runner reports, in whatever JSON, reach the queue", "quantifier": "every value of every message type, whose numbers have the range of their types, with arbitrary metadata, past attempts and nested groups; every text a native runner can write", "why_tests_cant": "values are unbounded (metadata and groups nest, attempts have attempts) and pass through several encodings with one limit on nesting each; tests send small ones", "anchors": ["crates/abq_utils/src/net_protocol.rs entity, queue, work_server, results, publicize_test_command", "crates/abq_utils/src/net_protocol/runners.rs TestResultSpec, TestResult, Status, ReportedManifest, ManifestMessage", "crates/abq_utils/src/net_protocol.rs async_read, async_write", "crates/abq_workers/src/negotiate.rs MessageToQueueNegotiator, MessageFromQueueNegotiator", "crates/abq_runners/generic_test_runner/src/lib.rs"]}
{"id": "C102", "title": "The exit code of a report says whether the suite passed", "statement": "A report of a run that came to its end has an attempt at every test of the manifest, and its exit code is 0 exactly if every test of the manifest passed: whatever was reported for it passed in one of its attempts, and there are results for it, not just a crash of the native runner. However a run went, with runners lost and connections cut, a report with exit code 0 means that the queue has recorded an attempt at every test of the manifest, and that none of them is left as failed", "quantifier": "every manifest, every number and schedule of runners, retries, native runner crashes and time limits, every interleaving of recordings, offloads and requests at the queue, every split of the connection to the client", "why_tests_cant": "the claim spans the queue, all workers, the file of results and the client; it fails if any one of them loses or repeats a test under some interleaving", "anchors": ["crates/abq_queue/src/queue.rs AllRuns", "crates/abq_workers/src/test_fetching", "crates/abq_runners/generic_test_runner/src/lib.rs", "crates/abq_queue/src/persistence/results/fs.rs", "crates/abq_cli/src/report.rs process_results", "crates/abq_cli/src/reporting/summary.rs SuiteTracker"]}
{"id": "C103", "title": "A job that moves old files to the remote treats every file by itself", "statement": "The job that walks a directory of results or manifests and moves the old files to the remote treats each file by itself: a failure with one entry, a foreign file or a file of another kind changes nothing for the others and does not stop the job; the summary names exactly the runs whose file was moved, in the order of the walk; a file that was moved is empty and the remote has its content; readers of any run still get everything recorded for it; and a file that is old enough is moved by the next job", "quantifier": "every directory, every set of runs, every interleaving of the job with recordings and requests for any run, every access time and failure of the file system and of the remote", "why_tests_cant": "the number of files, what else is in the directory, and what happens to which file between two visits are all unbounded; a test has a handful of files and one failure", "anchors": ["crates/abq_queue/src/persistence/results/fs.rs run_offload_job", "crates/abq_queue/src/persistence/manifest/fs.rs run_offload_job", "crates/abq_queue/src/persistence/offload.rs OffloadConfig OffloadSummary"]}
{"id": "C104", "title": "Remote persistence works as configured", "statement": "The options of a queue decide which remote it has: none without a strategy, a bucket with S3, a program with a custom command, and a missing option is an error. A configured remote is a place of its own for every kind of record of every run: what was stored last for a run is loaded for it, unchanged, and never for another run or kind; for a custom command this holds for every program that does what the documentation asks for, with whatever arguments. Files are moved to the remote by schedule only if a remote is configured", "quantifier": "every combination of options, every command string, every prefix, every history of storing and loading of any runs with any ids", "why_tests_cant": "run ids, command strings and prefixes are arbitrary strings which are put together to keys and argument lists; whether two of them can be mixed up is not a matter of examples", "anchors": ["crates/abq_cli/src/instance/remote_persistence.rs RemotePersistenceConfig", "crates/abq_queue/src/persistence/remote/custom.rs CustomPersister", "crates/abq_queue/src/persistence/remote/s3.rs S3Persister", "crates/abq_cli/src/instance.rs build_scheduled_jobs"]}
{"id": "C105", "title": "A queue keeps few files open", "statement": "However many runs a queue has served, it keeps no more than the configured number of results files open", "quantifier": "every number of runs and every history of reports, requests and offload jobs", "why_tests_cant": "the number of open files is a matter of how many runs were served since the queue was started, which no test reaches", "anchors": ["crates/abq_queue/src/persistence/results/fs.rs FilesystemPersistor", "crates/abq_cli/src/instance.rs RESULTS_PERSISTENCE_LRU_CAPACITY"]}
{"id": "C106", "title": "Retiring a queue and shutting it down", "statement": "A queue accepts connections until it is told to stop. Once shutdown has returned it accepts none any more, and shutdown returns whoever is connected. A queue that was told to retire takes no new runs; it reports that it is drained when its runs are over; and a drained queue that is shut down loses nothing: no results are outstanding and everything acknowledged is stored.", "quantifier": "all schedules of calls to retire and shutdown, of dropping the queue, of turns of the three server loops, of connections and of continuations; any number of connections and runs", "why_tests_cant": "The statement is about every point at which the queue may be told to stop and every interleaving with the connections being handled.", "anchors": ["crates/abq_queue/src/queue.rs: Abq::{retire, is_retired, is_drained, shutdown}, Drop for Abq, start_queue, QueueServer::start, WorkScheduler::start", "crates/abq_utils/src/server_shutdown.rs: ShutdownManager, ShutdownReceiver", "crates/abq_workers/src/negotiate.rs: QueueNegotiator::start, QueueNegotiator::join", "crates/abq_cli/src/instance.rs: start_abq_forever"]}
{"id": "C107", "title": "A worker that is told to terminate does, and cancels the run", "statement": "A process started with `abq test` that receives a signal to terminate exits with status 1 after each of its runners has ended by itself or has told the queue to cancel the run; a process that receives none never tells the queue to cancel, and exits with the status of the run.", "quantifier": "All numbers of runners, all points at which signals arrive (negotiating, generating the manifest, running tests, finishing, cancelling), all interleavings of the runners with the main task, all failures to reach the queue.", "why_tests_cant": "Tests send one signal at one point of a run whose queue answers; that every point is covered, that the process waits for nothing but the queue, and what a second signal does cannot be seen from them.", "anchors": ["crates/abq_cli/src/workers.rs: start_workers_standalone, do_shutdown, do_cancellation_shutdown", "crates/abq_workers/src/workers.rs: WorkerPool::cancel, WorkerPool::shutdown, ThreadWorker::new", "crates/abq_workers/src/negotiate.rs: NegotiatedWorkers", "crates/abq_runners/generic_test_runner/src/lib.rs: run_async"]}
{"id": "C108", "title": "Each native runner is told who it is and what for", "statement": "`abq test -n N -- cmd args` starts N runners. Each native runner process is `cmd args` with the environment of the worker, in which `ABQ_WORKER` is the worker's number, `ABQ_RUNNER` is the runner's number (1 to N, unique within the worker) and `ABQ_SOCKET` is an address to connect to; of all processes of a worker, retries included, exactly one is asked for the manifest if the worker is to generate it, and none otherwise.", "quantifier": "All command lines, environments of the worker, worker numbers, numbers of runners and numbers of retries.", "why_tests_cant": "Tests look at the variables of one runner in the environment of the test process; a clash between what the worker inherits and what it sets, or between numbers for some N, is not met there.", "anchors": ["crates/abq_cli/src/main.rs: validate_abq_test_args", "crates/abq_workers/src/workers.rs: WorkerPool::new", "crates/abq_utils/src/net_protocol.rs: RunnerKind::set_abq_runner_env_var", "crates/abq_runners/generic_test_runner/src/lib.rs: NativeRunnerHandle::new_native_runner, reconcile_for_start_of_run, reconcile_run_number, run_async"]}
{"id": "C109", "title": "Recording a run with the hosted API is best effort", "statement": "Once the runners of `abq test` have ended and every result is reported, the process prints the runners' output, finishes every reporter (also those that write files), prints the summary and the errors, and exits with the code the tests and runners gave it: 101 if a runner ended with an error, else the higher of the tests' and the pool's code. Whatever the hosted API does - success, any error, no answer - changes neither what is printed nor the code, and at most two identical requests are made, only for a remote queue with an access token, the second only after a status that is no success.", "quantifier": "every set of arguments, every way the runners ended, every state of the reporters, every sequence of replies of the API, every pattern of writes that fail", "why_tests_cant": "tests cannot enumerate how a remote API and the terminal fail in combination with how runners end; a test with a mock server shows one reply", "anchors": ["crates/abq_cli/src/workers.rs:do_shutdown", "crates/abq_cli/src/workers.rs:print_manifest_generation_output", "crates/abq_hosted/src/notify.rs:record_test_run_metadata", "crates/abq_hosted/src/notify.rs:try_n_times"]}
{"id": "C110", "title": "A run comes to its end", "statement": "Runners that keep asking for tests bring a run to its end and are told so. However many share the run and however their requests interleave, an answer that does not say that there are no more tests has at least one, so there are never more such answers than the manifest has tests; once more requests were answered than there are tests, the run is over and stays so, and every later request is told at once. Requests do not block one another: whatever is going on in the queue, those in progress can all be answered without anything else happening, in at most two steps each.", "quantifier": "every history of joins, manifests, requests, cancellations, timeouts and background tasks of a queue, in every interleaving; every run and every number of runners", "why_tests_cant": "how requests interleave, and whether they can block one another on the lock of the run, is up to the scheduler; a test sees a few interleavings of a few runners", "anchors": ["crates/abq_queue/src/queue.rs: AllRuns::next_work, get_next_work_online, try_mark_reached_end_of_manifest", "crates/abq_queue/src/job_queue.rs: JobQueue::get_work, is_at_end"]}
{"id": "C111", "title": "Every request is answered exactly once", "statement": "Every request of a worker to join a run is answered exactly once, or is still being worked on, and no answer is made up. From when a run is known the same holds for every request for its tests, and the answer is for the runner that asked; it is then written once and unchanged to that runner's connection, or lost with the connection, or still to be written. Any other request is answered at once, with one answer. Requests to join never block: whatever goes on in the queue and whatever the remote store says, two steps answer each of them.", "quantifier": "every history of joins, manifests, requests, cancellations, timeouts, background tasks and answers of the remote store, in every interleaving", "why_tests_cant": "a request that is dropped or answered twice in some interleaving of joins, loads from the remote store and requests of other workers shows only when a worker hangs; a test sees a few interleavings", "anchors": ["crates/abq_queue/src/queue.rs: AllRuns::find_or_create_run, try_create_run, next_work", "crates/abq_queue/src/queue.rs: WorkScheduler::start_persistent_next_tests_requests_task"]}
{"id": "C112", "title": "A worker that reaches a queue takes part in that queue's run", "statement": "A worker that reaches a queue at the address it is given deals with it only if both are of the same version, and otherwise ends with an error that names both versions without asking for anything else. If it goes on, it attaches to a run of that same queue, whatever other queues run on the machines: its runners get their tests from that queue and send their results to it. The servers of a queue listen at the ports asked for, and no two servers on a machine share one.", "quantifier": "all histories of queues started and ended on all machines, all arguments of address and ports, all networks, all versions and all answers of the queue", "why_tests_cant": "which address leads where depends on the machine it is seen from; tests run the queue, the worker and everything between on one machine, where 0.0.0.0 leads to the queue", "anchors": ["crates/abq_cli/src/instance.rs: start_abq_forever, QueueInstance/AbqInstance::from_remote", "crates/abq_queue/src/queue.rs: start_queue, handle_negotiator_info", "crates/abq_workers/src/negotiate.rs: QueueNegotiatorHandle::ask_queue", "crates/abq_utils/src/net_protocol.rs: publicize_addr"]}
{"id": "C113", "title": "A queue has somewhere to put its files", "statement": "The directories a queue stores manifests and results in are those it is configured with, or new temporary ones, and they exist for as long as the queue runs, so that what it stores can be written.", "quantifier": "all queues, started by abq start or by abq test for itself, and all configurations of their directories", "why_tests_cant": "a failed write of a manifest or of results only shows in the log; the tests that start a queue keep its directories themselves", "anchors": ["crates/abq_cli/src/instance.rs: start_abq_forever, new_ephemeral", "crates/abq_cli/src/instance/local_persistence.rs: PersistedDir, build"]}
{"id": "C114", "title": "A runner's results reach the queue once and in order, or the runner fails", "statement": "Whatever connections fail and wherever a runner is stopped, the results the queue has received from it are a first part of those it produced, in order and each once, and at most the batch that is being delivered is missing before those still buffered. The same is true of the worker's own reporters. A runner that comes to its end without a failure has had all of its results acknowledged by the queue. A connection is attempted at most five times for a batch; nothing is sent twice.", "quantifier": "all sequences of results and flushes, all batch sizes, all failures of connecting, writing and reading, all interleavings of delivery to the queue and to the local reporters, and all points where the runner is stopped", "why_tests_cant": "an acknowledgement can be lost after the queue recorded the results; tests use a queue that answers", "anchors": ["crates/abq_workers/src/results_handler.rs: MultiplexingResultsHandler, QueueResultsSender", "crates/abq_runners/generic_test_runner/src/buffered_results.rs: BufferedResults", "crates/abq_runners/generic_test_runner/src/lib.rs: execute_all_tests, send_results_task"]}
{"id": "C115", "title": "From the manifest to the exit code of a report", "statement": "When a run is over, its runners have ended without failing to send their results, the queue has recorded what it received, and a client then asks for the results, then the report is complete: its reporters are told every attempt at every test of the manifest exactly once. Its exit code is 0 if and only if every test of the manifest passed in one of its attempts.", "quantifier": "all runs of the queue with any number of runners and other runs beside, all manifests with distinct tests and names, native runners that report one result for an attempt, or crash, or time out, clocks that are not set back, all bounds on attempts, batch sizes and schedules of runners, all orders in which batches are recorded, all ways in which the client must wait or connect again", "why_tests_cant": "no test runs the whole path, and the claim is about every test of every manifest, under any schedule", "anchors": ["crates/abq_queue/src/queue.rs: AllRuns", "crates/abq_workers/src/test_fetching.rs: Fetcher", "crates/abq_workers/src/results_handler.rs: QueueResultsSender", "crates/abq_queue/src/persistence/results/fs.rs: FilesystemPersistor", "crates/abq_cli/src/report.rs: report_results"]}
{"id": "C116", "title": "A crash of the native runner shows in the exit code of a report", "statement": "If the native runner crashed, or timed out, on the last attempt that was made at a test, then a report of the run has the exit code 101 of an internal error, and not 0 or that of a failed test.", "quantifier": "all runs as in C115, all records of results of one or several runs of a suite, in any order of arrival", "why_tests_cant": "the time of the placeholder for a crash and the order of the report interact only if a test is tried more than once, and unit tests of the summary give the results in the order of attempts", "anchors": ["crates/abq_runners/generic_test_runner/src/lib.rs: handle_native_runner_failure", "crates/abq_utils/src/net_protocol/runners.rs: TestResultSpec::fake", "crates/abq_cli/src/report/ordered_results.rs: OrderedAssociatedResults", "crates/abq_cli/src/reporting/summary.rs: SuiteTracker::account_result"]}
{"id": "C117", "title": "Tests taken for a runner reach it, once and in order, or the runner fails", "statement": "Whatever connections fail, the bundles of tests returned to a runner are among those the queue took for it, in the same order and each once, and the tests of a run are received by at most one of its runners each. At most three attempts are made for a request, each but the first on a new connection, after which the runner fails. Every bundle that was taken for a runner is returned to it, unless the runner fails.", "quantifier": "all interleavings of the runner and the tasks of the queue that serve its connections, all failures of connecting, writing and reading on either side, also after what was written has arrived; all runs and all numbers of runners", "why_tests_cant": "an answer can be lost after the queue has taken the tests; tests use connections that fail before the request is read", "anchors": ["crates/abq_workers/src/test_fetching/persistent_test_fetcher.rs: PersistedTestsFetcher::get_next_tests, wait_for_next_work_bundle, try_request, ensure_persistent_conn", "crates/abq_queue/src/queue.rs: WorkScheduler::start_persistent_next_tests_requests_task"]}
{"id": "C118", "title": "A worker that is run again asks for its tests for a minute", "statement": "A runner of a worker that is run again takes the first answer to its request for the tests it had that is not that they are still being stored, among twenty that are three seconds apart, and asks no more; after twenty such answers it fails. For each request it makes up to five attempts to connect, and it fails if none succeeds or if there is no answer.", "quantifier": "all sequences of answers, and of failures of connecting, writing and reading", "why_tests_cant": "takes long sequences of answers and failures of the network at each point", "anchors": ["crates/abq_workers/src/test_fetching/out_of_process_retry_manifest_fetcher.rs: OutOfProcessRetryManifestFetcher::get_next_tests", "crates/abq_utils/src/retry.rs: async_retry_n"]}
{"id": "C119", "title": "Runs do not affect one another", "statement": "A queue that serves many runs at the same time treats each of them as if it were the only one: whatever is asked about other runs, whatever is done for them and however all this interleaves, the answers about a run, what is stored for it and what becomes of it are the same as if everything that concerns other runs had never happened, also across restarts of the queue with a remote store that all runs share.", "quantifier": "every interleaving of requests, continuations, timers and stored documents of any number of runs, every restart, every remote store", "why_tests_cant": "the number of runs, their requests and their interleavings are unbounded; tests run one or two runs", "anchors": ["crates/abq_queue/src/queue.rs AllRuns", "crates/abq_queue/src/persistence/remote.rs RemotePersistence", "crates/abq_queue/src/persistence/run_state.rs"]}
{"id": "C120", "title": "The times in the summary are right to the hundredth of a second", "statement": "The summary of a run says how long the suite took and how long was spent in test code, in seconds with two decimals. What is shown differs from the real duration by at most 5 ms upwards and less than 6 ms downwards, for every duration below 285 thousand years, although the code divides and rounds floating point numbers; the time spent in test code is the sum of the times of the results. A duration shown with units names minutes, seconds below 60 and milliseconds below 1000 that add up to it. Times given in milliseconds add exactly to times given in nanoseconds.", "quantifier": "all durations, all lists of results, both groupings", "why_tests_cant": "The code goes through f64 division and decimal formatting: tests look at five durations, while rounding errors depend on the value.", "anchors": ["crates/abq_reporting/src/output.rs: format_duration_to_partial_seconds, format_duration, format_short_suite_summary", "crates/abq_utils/src/net_protocol/runners.rs: TestRuntime", "crates/abq_cli/src/reporting.rs: write_short_summary_lines"]}
{"id": "C121", "title": "A native runner that stops answering does not stop its worker for good", "statement": "Whatever a native runner does or does not do (it does not connect, sends anything, hangs up, does not exit, leaves processes behind that hold its output open), its worker gets to its end in bounded time without it, and tests that were given to it are reported.", "quantifier": "every behaviour of the native runner, every point at which it stops answering, every schedule of time limits, answers of the queue and the worker", "why_tests_cant": "A native runner can go silent at any point of the protocol; tests try a few of them.", "anchors": ["crates/abq_runners/generic_test_runner/src/lib.rs: open_native_runner_connection, new_native_runner, handle_native_runner_connection_error, retrieve_manifest, send_init_message, send_fast_exit_message, reconcile_run_number, execute_all_tests, handle_one_test, run_help"]}
{"id": "C122", "title": "No native runner outlives its worker", "statement": "When a worker's runner has returned - after all tests, with an error, by a panic or because it was told to shut down - no native runner process that it started is alive; and at no time are two of them alive.", "quantifier": "every behaviour of the native runner, every schedule, every way to end", "why_tests_cant": "Depends on where the worker is when it ends.", "anchors": ["crates/abq_runners/generic_test_runner/src/lib.rs: new_native_runner, NativeRunnerState::kill, reconcile_for_start_of_run, reconcile_run_number, run_async"]}
{"id": "C123", "title": "What is reported of tests lost with their native runner is true", "statement": "When a native runner fails while it runs a test, that test and every test still handed to the runner is reported exactly once, in order, under a name of its own, as an internal error that names the command, the reason, the output captured and the runner; the queue receives these reports as they were sent; and they say nothing about a test that is not known.", "quantifier": "every command, reason, captured output, list of remaining tests and attempt", "why_tests_cant": "Tests look at the start of the message of one report; what the other fields contain depends on a helper written for tests.", "anchors": ["crates/abq_runners/generic_test_runner/src/lib.rs: handle_native_runner_failure", "crates/abq_utils/src/net_protocol/runners.rs: TestResultSpec::fake", "crates/abq_utils/src/net_protocol/runners/v0_2.rs: Location::fake", "crates/abq_reporting/src/output.rs: format_result_summary"]}
{"id": "C124", "title": "Telling a queue to stop reaches each of its servers once", "statement": "When a queue is told to shut down, each of its servers that still runs is told so the next time it waits for it, exactly once, no matter whether it was waiting, busy or not yet listening at that moment and how often it had begun to wait and given up; none is told if nobody asked, and each learns when the one that could ask is gone. Asking fails only if no server is left; asking twice panics. That the queue is to retire is seen by everyone from the moment anyone said so.", "quantifier": "every history of making and dropping receivers, waiting, giving up, shutting down, retiring and dropping the manager", "why_tests_cant": "Tests send one shutdown to one server that waits. Whether a message sent at another moment is missed depends on the history of every receiver.", "anchors": ["crates/abq_utils/src/server_shutdown.rs: ShutdownManager, ShutdownReceiver, RetirementCell", "crates/abq_queue/src/queue.rs: start_queue, QueueServer::start, WorkScheduler::start", "crates/abq_workers/src/negotiate.rs: QueueNegotiator::start"]}
{"id": "C125", "title": "A results file is used by one call at a time, and a call waits only for calls of its own run", "statement": "The results file of a run is written, read, sent to a client or offloaded by at most one call at any time, and while a file is opened for the first time or offloaded no other call does anything with any results file. If every call goes on whenever it can, every call returns; there is no deadlock. A call that stops in the middle, because its client does not read what it is sent, delays at most the calls for its own run.", "quantifier": "every history of calls that use or offload the results of any runs, in any interleaving, endless ones included", "why_tests_cant": "Tests run a few calls one after the other or with a client that reads. Deadlock, starvation and what a silent client holds up depend on the interleaving of all calls.", "anchors": ["crates/abq_queue/src/persistence/results/fs.rs: FilesystemPersistor::with_file, with_file_fast_path, perform_offload, with_results_stream", "crates/abq_queue/src/queue.rs: handle_test_results"]}
{"id": "C126", "title": "A token kept by `abq login` is the one that is used", "statement": "When `abq login` says that it stored an access token, typed or given, every later `abq test` and `abq report` that looks at the same configuration file and is not given a token does exactly what it would do if this token was given to it, until another login stores another one there. A token that is given is used whatever is kept. Logins for other files, and logins that fail, change nothing. A login that is interrupted never leaves another token behind than its own.", "quantifier": "every history of logins on a machine, with any environments, any tokens, and any point at which writing a file comes to an end; every later command with any arguments", "why_tests_cant": "A unit test writes one token to a fresh file and reads it back. Interrupted writes, several files and the interplay with arguments and environment are not covered.", "anchors": ["crates/abq_cli/src/abq_config.rs: write_abq_config, read_abq_config, abq_config_filepath", "crates/abq_cli/src/main.rs: Command::Login, get_abq_config_filepath"]}
{"id": "C127", "title": "The JSON report says of each attempt what its runner said", "statement": "In the report that `abq test --reporter rwx-v1-json` writes, every test that has a result that counts is there once, with the name, lineage and location its first result gave, and with every attempt of it: status word, message, exception, backtrace, duration, times, output and metadata are those the native runner sent, and the worker and runner number are those of the runner that ran it. The last result is the current attempt, the others are past ones in the order they were made. The summary counts exactly the tests and errors listed, and says `failed` exactly if one of them failed. The framework is the one the native runner announced. The text can be read back.", "quantifier": "every sequence of results with nested attempts, every specification of the native runner, every order in which the tests of the hash map are written", "why_tests_cant": "A unit test compares a few results with a snapshot. That no member of any result gets lost or into another test's attempt, for any history of retries over several runners, is not covered by snapshots.", "anchors": ["crates/reporters/rwx_v1_json/src/lib.rs: Collector::push_result, write_json, Attempt, AttemptStatus, Test, Summary, Framework", "crates/abq_utils/src/net_protocol.rs: TestResultSpec"]}
{"id": "C128", "title": "A queue reads the requests of those with its token and its certificate, and of nobody else", "statement": "A queue is started with both tokens, and with certificate and key, if either of the two was given, or it is not started. The requests of a client that has one of the tokens (or none, if the queue has none) and trusts the certificate (or uses no TLS, if the queue does not) are read, all and in order. Of any other client no request is read, whatever happens on the connection. Whoever sends whatever: a message is read by a queue with tokens only after one of them, and by a queue with a certificate only in a TLS session. A client with a certificate gives away its token only inside a session with a peer that has proved to have it. The queue `abq test` starts for itself can be used by that `abq test`. The user token allows all that the admin token allows.", "quantifier": "every combination of options of queue and client, every sequence of requests, every sequence of bytes of a stranger, every fragmentation and fault of the connection", "why_tests_cant": "Tests connect with a few combinations of matching and mismatching options and one message. That no schedule of reads lets a mismatched client's bytes be taken for a message (the token or the first TLS record read as the size of a message) is a claim about all of them.", "anchors": ["crates/abq_cli/src/main.rs: abq_main", "crates/abq_utils/src/net_opt.rs: ServerOptions, ClientOptions", "crates/abq_utils/src/tls.rs: ServerTlsStrategy, ClientTlsStrategy", "crates/abq_utils/src/net_async/tls.rs: ServerHandshakeCtx::handshake, ConfiguredClient::connect", "crates/abq_utils/src/net_async/tcp.rs: handshake, connect", "crates/abq_cli/src/instance.rs: AbqInstance::new_ephemeral"]}
{"id": "C129", "title": "What a native runner writes of a test is what the JSON report says of it", "statement": "Take the texts native runners write for their tests, however many and in whichever of the forms of the protocol, and follow them through the runners, the workers' requests, the queue, its file of results, `abq report` and the reporter `rwx-v1-json`. Everything the runners could read arrives. A result is in the report in the one test with its id, with each of its attempts, and each of them has the status, message, exception, backtrace, duration, times and metadata that were written and the runner that read it; the result itself also has the output captured while it ran. Failures without a location are in their test or among the other errors. Every attempt in the report was written by a native runner, and each is there once. The current attempt of a test is the last result of a run no other was later than. What is written is text that reads back as the report.", "quantifier": "every list of requests, of tests in them and of messages for a test, in every form of the protocol, with every order of members, extra members, metadata, output and timestamps; every order in which the sort may leave equal groups and the reporter its tests", "why_tests_cant": "Each stage has tests with a few fixed results. That no stage drops, changes, duplicates or mixes up anything, for every document a native runner may write, is a claim about the composition of five codecs and two reorderings over all documents.", "anchors": ["crates/abq_runners/generic_test_runner/src/lib.rs: send_and_wait_for_test_results, attach_pipe_output_to_test_result", "crates/abq_utils/src/net_protocol.rs: runners::RawTestResultMessage, runners::TestResult, queue::AssociatedTestResults, results::OpaqueLazyAssociatedTestResults", "crates/abq_queue/src/queue.rs: handle_worker_results", "crates/abq_cli/src/report.rs: report_results", "crates/abq_cli/src/report/ordered_results.rs: OrderedAssociatedResults", "crates/reporters/rwx_v1_json/src/lib.rs: Collector"]}
{"id": "C130", "title": "What the hosted API says is what a user of abq gets to hear", "statement": "Whatever the hosted API answers to the requests for a queue, and whatever the text of its last answer: there is an outcome as soon as an answer came for which the request is not repeated, or the sixth. A queue is used exactly if that answer is no error and its JSON names it: by a URL that resolves to one address and has a token and the id of this very run in its query, with the certificate given if there is one. Why there is none to be used is shown exactly if the answer says so and names no queue. That the access token is not known is said exactly if the last status is 401, that it is not allowed exactly if it is 403, and that the answer has an unexpected schema exactly if it names a queue without what is needed to use it. The message about a run says the run's id and the name, version and host of the native runner, and can be read back.", "quantifier": "every address of the API, run id, list of replies, text of the last one and behaviour of the URL library; every run id and native runner specification", "why_tests_cant": "The tests fix a handful of answers with a mock server. Which of two readings an answer gets when it has the members of both, unknown members, members in another order or twice, and which error comes of each sequence of statuses, ranges over all documents and sequences.", "anchors": ["crates/abq_hosted/src/config.rs: HostedQueueConfig::from_api, HostedQueueResponse, AccessTokenKind", "crates/abq_hosted/src/error.rs: Error", "crates/abq_hosted/src/notify.rs: RecordTestRunRequest, record_test_run_metadata"]}
{"id": "C131", "title": "Calls to the queue's registry of runs do not block one another", "statement": "However many requests the queue handles at a time, on the same run or on others, and whatever each finds there: no schedule leads to a deadlock, and each call returns once the threads have had enough turns, the number of which is proportional to that of the calls. This holds however the locks choose between readers and writers that wait. A call that asks the remote storage about a run keeps no lock meanwhile, so that storage which is slow or never answers holds up nobody else. Two calls never have a lock at a time that one of them writes.", "quantifier": "every list of calls on any runs, every course each may take depending on what it finds, every schedule of their threads, every choice of the locks among waiting readers and writers, and every subset of calls the storage never answers", "why_tests_cant": "A deadlock needs a particular interleaving, e.g. a writer that gets in line between two reads of one thread; that none exists is a claim about all interleavings of all functions.", "anchors": ["crates/abq_queue/src/queue.rs: AllRuns (runs, find_or_create_run, try_create_run, try_create_globally_fresh_run, try_load_remote_run, add_manifest, init_metadata, next_work, try_mark_reached_end_of_manifest, handle_manifest_progress_timeout, mark_cancelled, get_retry_manifest, mark_worker_complete, get_run_status)"]}
{"id": "C132", "title": "The JUnit report is an XML document that says what happened", "statement": "The file of the reporter `junit-xml` is an XML document, and an XML reader gets from it the counts of the run and, for each result in order, its name, its time, what happened and, if it failed or could not be carried out, its output, as they were.", "quantifier": "every sequence of results, with any names and outputs", "why_tests_cant": "names and outputs are any texts: every one of them has to be escaped so that what is read is what was meant, whatever stands beside it", "anchors": ["crates/reporters/junit_xml/src/lib.rs: Collector::push_result, write_xml", "crates/abq_cli/src/reporting.rs: JUnitXmlReporter"]}
{"id": "C133", "title": "The addresses a queue gives out can be used as they are", "statement": "The text of an address says that address and no other. The address in the command that `abq start` prints is taken by `--queue-addr`, as the public IP address (or else the one bound to) and the port of the queue. The addresses the queue tells workers (where to negotiate, to ask for tests, to send results) reach them with that IP address and the ports of its servers. The options take exactly the texts that say an address, and no text is taken for another address.", "quantifier": "every IPv4 and IPv6 address, port and scope; every listener, public IP address and IP address bound to; every text", "why_tests_cant": "there are 2^144 addresses and more texts: the compressed forms of IPv6, embedded IPv4 addresses and scopes have many boundaries", "anchors": ["crates/abq_utils/src/net_protocol.rs: publicize_addr, NegotiatorInfo", "crates/abq_workers/src/negotiate.rs: ExecutionContext", "crates/abq_cli/src/instance.rs: start_abq_forever", "crates/abq_cli/src/args.rs: queue_addr, bind, public_ip"]}
{"id": "C134", "title": "Options take exactly the words their help names", "statement": "`-n` takes \"cpu-cores\" and the positive numbers that fit in 64 bits, for what they say, and nothing else; so at least one runner is started, and exactly as many as the number says. `--test-strategy` takes \"by-test\" and \"by-file\", `--color` takes \"auto\" and \"never\", for what they say, and nothing else; a strategy given as it is printed is taken for itself. Where an error message says which words must be given, those words are taken.", "quantifier": "every text given to `-n`, `--test-strategy` and `--color`; every number of cores", "why_tests_cant": "there are infinitely many texts; the boundaries (zero, signs, leading zeros, overflow) are many, and no test gives an option the words its own error message names", "anchors": ["crates/abq_cli/src/args.rs: NumRunners", "crates/abq_utils/src/net_protocol.rs: TestStrategy", "crates/abq_cli/src/reporting.rs: ColorPreference"]}
{"id": "C135", "title": "The command printed for replaying replays this worker's tests", "statement": "The command that `abq test` prints for replaying its tests locally, run in a shell with the user's test command in its place, is a call of `abq test` with the run id of this run, the number of this worker, the number of runners it had, and the user's command.", "quantifier": "every run id that `abq test` takes, every worker number and number of runners, every test command", "why_tests_cant": "run ids are arbitrary texts, printed without quotes; tests print a few plain ones", "anchors": ["crates/abq_cli/src/workers.rs: do_shutdown", "crates/abq_cli/src/args.rs: Test", "crates/abq_utils/src/net_protocol.rs: RunId"]}
{"id": "C136", "title": "What a native runner says is wrong with its manifest is shown", "statement": "If a native runner answers with a failure when asked for a manifest, the queue is told, and `abq test` prints a text with all that the native runner said of each error (message, exception, file, line and column, backtrace, in this order) and exits with 101.", "quantifier": "every failure message of a native runner, with any errors; every pool of runners, every state of the reporters, every behaviour of the hosted API", "why_tests_cant": "errors have optional parts that combine in many ways and are put together in several places; tests look at one error", "anchors": ["crates/abq_utils/src/net_protocol/runners.rs: Display for Location, Display for OutOfBandError", "crates/abq_utils/src/error.rs: LocatedError", "crates/abq_runners/generic_test_runner/src/lib.rs: retrieve_manifest, run_help", "crates/abq_cli/src/workers.rs: do_shutdown"]}
{"id": "C137", "title": "A generated token can be used, and none is likelier than another", "statement": "Whatever its generator draws, `abq token new` prints `abqs_` and thirty letters and digits, as soon as thirty of the words drawn choose a character. What it prints is taken as a user's token and never as an admin's; a queue started with it reads the requests of the clients that are given it. A queue that `abq test` starts for itself reads its requests whatever token it generates for admins. Of any two tokens, as many sequences of words give the one as give the other.", "quantifier": "every sequence of words a generator draws, every pair of tokens, all requests and ways in which they arrive", "why_tests_cant": "generation is random: tests see a few tokens of 62^30, and cannot see how likely each is", "anchors": ["crates/abq_utils/src/auth/token.rs: RawToken::new_random", "crates/abq_utils/src/auth/user.rs: UserToken::new_random", "crates/abq_utils/src/auth/admin.rs: AdminToken::new_random", "crates/abq_cli/src/main.rs: Command::Token", "crates/abq_cli/src/instance.rs: AbqInstance::new_ephemeral"]}
{"id": "C138", "title": "Colours change nothing but colours, are undone, and are written only where they are shown", "statement": "A terminal shows of everything that abq's reporters, reports and warnings write with colours exactly the text that they write without, and is in its normal style afterwards. A success is green, a failure red and a test that did not run yellow, and something red is on the screen exactly if a test failed. Colours are written to a stream exactly if `--color` is `auto` and that stream is a terminal or the log of a CI service known to show colours, `TERM` is set and is not `dumb`, and `NO_COLOR` is not set.", "quantifier": "all sequences of results and ticks, all summaries and reports, all names, outputs and times, all environments", "why_tests_cant": "tests compare a few snapshots; they run without a terminal, so the codes and the choice whether to write them are hardly covered", "anchors": ["crates/abq_reporting/src/output.rs: with_color, with_color_spec, status_color, format_short_suite_summary, format_interactive_progress", "crates/abq_reporting/src/colors.rs: ColorProvider", "crates/abq_reporting/src/writer.rs: warn_line", "crates/reporters/dot/src/lib.rs: DotReporter", "crates/reporters/line/src/lib.rs: LineReporter", "crates/reporters/progress/src/lib.rs: ProgressReporter", "crates/abq_cli/src/reporting.rs: StdoutPreferences::new"]}
{"id": "C139", "title": "The JUnit report says of a test's output all but its escape codes", "statement": "Cleaning the output of a test for the JUnit report takes out the escape codes and nothing else: the text between them is kept, in order. It never fails, whatever the output is, and what it leaves has no control characters but line feeds, so that an output without U+FFFE and U+FFFF never keeps the report from being an XML document.", "quantifier": "all outputs: all sequences of text, control characters, and codes with all parameters and contents", "why_tests_cant": "there is one test, of one code; outputs come from any program and may have codes of all kinds, complete or cut off", "anchors": ["crates/reporters/junit_xml/src/lib.rs: Collector::push_result"]}
{"id": "C140", "title": "Any batch size can be given", "statement": "`--batch-size` and `ABQ_BATCH_SIZE` take every positive number of 64 bits, and a worker works with each of them: it starts, the queue sends it at most that many tests at a time, and it sends the queue no more results at a time.", "quantifier": "all words given, all machines and builds, all tests, all schedules of a runner's tasks", "why_tests_cant": "the tests use sizes below a hundred; what happens for large ones depends on the machine's memory and on how the program was built", "anchors": ["crates/abq_cli/src/args.rs: Command::Test batch_size", "crates/abq_runners/generic_test_runner/src/lib.rs: execute_all_tests", "crates/abq_runners/generic_test_runner/src/buffered_results.rs: BufferedResults::new", "crates/abq_runners/generic_test_runner/src/message_buffer.rs: channel", "crates/abq_queue/src/queue.rs: ChooseRunForWorker::get_assigned_run"]}
{"id": "C141", "title": "The queue's own checks", "statement": "The queue states what it expects of its state and of its workers in checks that are logged as errors when they fail (and end the handler in a debug build). As long as every worker process does what it should, whatever the order of events, none of them fails: nothing is logged as an illegal state.", "quantifier": "all schedules of requests, resumptions, i/o failures and answers of the remote store, any number of workers and runs", "why_tests_cant": "the tests run in debug builds and so show that the checks hold in the few orders of events they exercise", "anchors": ["crates/abq_utils/src/log_assert.rs: log_assert, illegal_state", "crates/abq_queue/src/queue.rs: AllRuns", "crates/abq_queue/src/worker_tracking.rs: WorkerSet", "crates/abq_queue/src/job_queue.rs: JobQueue::read_index"]}
{"id": "C142", "title": "A runner takes few tests ahead", "statement": "Although a runner is given tests before it has run the previous ones, it does not hoard them, so that the others find work. It is given another bundle only after at least half of the bundle before, and at least one test of it, was begun, and all tests of earlier bundles. So with bundles of at most n tests, at any time at most 2n - max(1, n/2) tests were given to it and not begun; and those it was given and has not reported are at most these, the one that is running and the results under way.", "quantifier": "all sequences of bundles of any sizes, all capacities and batch sizes, all interleavings of fetching, running and reporting, native runners failing, not starting again, and time limits passing at any point", "why_tests_cant": "how many tests are taken ahead depends on the interleaving of the task that fetches and the task that runs tests; a test sees one", "anchors": ["crates/abq_runners/generic_test_runner/src/message_buffer.rs: BatchedProducer::start, BatchedConsumer::recv, BatchedConsumer::flush", "crates/abq_runners/generic_test_runner/src/lib.rs: execute_all_tests"]}
{"id": "C143", "title": "The tests of a run are shared until the end", "statement": "No runner sits on tests while others have nothing to do. Once the queue has handed out all tests of a run, in bundles of at most n, so that whoever asks is told that there are no more, the tests that no runner has begun are at most 2n - max(1, n/2) for each runner. Every test of the manifest was begun by exactly one runner or is one of these.", "quantifier": "all histories of the queue after which the manifest is handed out, all numbers of runners, all manifests and sizes of bundles, every point of every schedule of each runner, with native runners that crash and tests that are retried", "why_tests_cant": "how the tests spread depends on the interleaving of all runners and on how far each is ahead of its native runner", "anchors": ["crates/abq_runners/generic_test_runner/src/message_buffer.rs: BatchedProducer::start, BatchedConsumer::recv", "crates/abq_runners/generic_test_runner/src/lib.rs: execute_all_tests", "crates/abq_workers/src/test_fetching.rs: Fetcher::get_next_tests", "crates/abq_queue/src/queue.rs: AllRuns::next_work"]}
{"id": "C144", "title": "What is served of a run is what the queue took for it", "statement": "When the queue streams the results of a run to a client, they are what it took for this run before the request, each once: one summary with the number of tests of the manifest it accepted, and every batch of results of workers. Nothing it took is lost or recorded twice, and no results are served of a run without a manifest.", "quantifier": "all interleavings of the handlers of manifests, of results and of requests for results, of any number of runs and workers, with the writes to the files, the offload job and all steps of the registry of runs", "why_tests_cant": "whether the summary is served depends on how the handler of the manifest is scheduled relative to the runners' last results and the request; a test sees one schedule", "anchors": ["crates/abq_queue/src/queue.rs: QueueServer::handle_manifest_success, handle_manifest_empty_or_failure, handle_worker_results, handle_test_results_request; AllRuns::add_manifest, mark_empty_manifest_complete, get_write_results_cell, get_read_results_cell", "crates/abq_queue/src/persistence/results.rs: ResultsPersistedCell::build_persist_results_plan, build_persist_summary_plan, eligible_to_retrieve", "crates/abq_cli/src/report.rs: report_results"]}
{"id": "C145", "title": "From the manifest to the exit code, through the queue as a whole", "statement": "Let the queue accept the manifest of a run and hand out its tests, the runners end properly, and the queue take the batches of results they send. If the queue has begun to record all of this when a client asks for the results, no write to the file fails and no offload of it is left half done, then the report the client makes is complete: its reporters are told every attempt at every test once, and its exit code is 0 if and only if every test of the manifest passed in one of its attempts.", "quantifier": "all schedules of the queue with any number of runs, workers, handlers, recordings, offloads and requests between each other, all manifests with distinct tests and names, all schedules of any number of runners, crashes and timeouts, bounds on attempts and batch sizes, all orders in which batches come and are recorded, all ways in which the client must wait or connect again", "why_tests_cant": "the registry, the handlers, the files and the runners interleave freely; a test sees a few of the orders, on one machine", "anchors": ["crates/abq_queue/src/queue.rs: handle_manifest_success, handle_worker_results, handle_test_results_request, AllRuns::get_write_results_cell, AllRuns::get_read_results_cell", "crates/abq_queue/src/persistence/results.rs: ResultsPersistedCell", "crates/abq_workers/src/workers.rs: start_generic_test_runner", "crates/abq_cli/src/report.rs: report_results, wait_for_results", "crates/abq_utils/src/exit.rs: ExitCode"]}
{"id": "C146", "title": "The workers of a run and its report agree on whether the suite passed", "statement": "When the workers of a run have run its suite to the end and all their results have come to the queue and to the workers' own reporting, then all calls of `abq test` exit with 0 if and only if `abq report` does and no pool of runners ended with an error or a positive exit code. So a suite that is green for its workers is green in the report, and one that is green in the report is red for a worker only because of how its runners ended.", "quantifier": "all runs of the queue, all numbers of workers and of runners of each, all schedules of runners, of their senders and of the workers' reporting tasks, all manifests with distinct tests and names, retries, crashes and timeouts, all orders in which results are recorded", "why_tests_cant": "a worker counts results in the order in which its runners hand them over and the report after sorting the results of all workers, with placeholders of crashes elsewhere in the order; tests try a few outcomes of one runner", "anchors": ["crates/abq_cli/src/workers.rs: do_shutdown", "crates/abq_cli/src/workers/reporting.rs: ReportingTask, handle_associated_results", "crates/abq_cli/src/report.rs: report_results", "crates/abq_cli/src/reporting/summary.rs: SuiteTracker"]}
{"id": "C147", "title": "Recordings end, and results are not put off for ever", "statement": "Once the runners of a run are done, a request for its results is put off exactly while the recording of some results that the queue took is not over. Every recording is over in the end, exactly once, whatever fails on the way (the acknowledgement, opening, downloading, writing or copying the file), and so once no more results come in there is a time from which on no request is put off. Every request that is not put off is dealt with in the end, exactly once: the results are sent, or they cannot be read and the connection is closed.", "quantifier": "all schedules of reports, requests, offloads and steps of tasks in progress, finite and endless, all failures of storage and of connections, all numbers of tasks", "why_tests_cant": "a counter that one path of errors fails to decrement makes `abq report` poll for ever; whether some combination of failures and interleavings does so cannot be seen from the combinations tried", "anchors": ["crates/abq_queue/src/persistence/results.rs: ResultsPersistedCell, PersistencePlan, execute, eligible_to_retrieve", "crates/abq_queue/src/persistence/results/fs.rs: with_file", "crates/abq_queue/src/queue.rs: handle_worker_results, handle_test_results_request"]}
{"id": "C148", "title": "The results of a run that is over are served in the end", "statement": "Once the queue takes nothing more for a run, neither a manifest nor results, there is a time from which on everything it took for that run has been recorded exactly once, whether the recording succeeded or failed. If clients go on asking for the results while all runners are done, one of them is let in at a time when everything the queue ever takes for the run has been recorded, and that one is dealt with: results are sent, or they cannot be read and the connection is closed. So a report that came too early (see C144) is not final: asking again gives the whole, if the recordings succeeded.", "quantifier": "all histories of all runs at the queue up to then, all endless schedules afterwards that let no handler of this run and no task of its file wait for ever, whatever else comes in for other runs, all failures of storage and connections", "why_tests_cant": "the answer depends on the order in which handlers that were spawned for manifests, results and requests reach the file, and on endless schedules; no test runs an endless schedule", "anchors": ["crates/abq_queue/src/queue.rs: handle_manifest_success, handle_manifest_empty_or_failure, handle_worker_results, handle_test_results_request, get_read_results_cell", "crates/abq_queue/src/persistence/results.rs: ResultsPersistedCell, eligible_to_retrieve, PersistencePlan"]}
{"id": "C149", "title": "A report waits as long as it was told, and no longer", "statement": "`abq report` and `abq list-tests` are over when the time given by `--timeout-seconds` is up, whatever the queue and the network do, and do not give up for the time before that. They ask at once, and again two seconds after each answer that results are pending, so turns are at least two seconds apart. Any other answer ends the waiting at once. A queue that cannot be reached is tried five times, three seconds apart, and then reported as unreachable. If turns are answered within d and results are ready at time r, they are got unless the time is up before r + 2d + 2 s.", "quantifier": "all time limits, all durations and outcomes of each attempt to connect and of each exchange, at whatever times turns happen, both outcomes of a race at the very end of the time", "why_tests_cant": "the end of the time can fall at any point of any turn, and how many turns fit depends on all the durations; tests run a few turns against a fake server without time passing", "anchors": ["crates/abq_cli/src/report.rs: wait_for_results, wait_for_results_help, RECONNECT_ATTEMPTS, RECONNECT_DELAY, PENDING_RESULTS_DELAY", "crates/abq_utils/src/timeout_future.rs: TimeoutFuture::wait", "crates/abq_utils/src/retry.rs: async_retry_n", "crates/abq_cli/src/args.rs: timeout_seconds"]}
{"id": "C150", "title": "A waiting runner starts soon after the manifest is there, and does not keep the queue busy", "statement": "A runner that waits for the manifest asks at once, and again 10 ms after it was told to wait, then 20 ms and so on, at most 3 s; it ends with the first other answer. Up to any time it makes at most eight requests and one for each three seconds. Once the run has its manifest, is over or is cancelled, the runner is told so within the time of two requests and a pause of at most 3 s, which is also at most 10 ms longer than it had waited by then.", "quantifier": "All times at which the manifest comes, all times requests take, all histories of the queue, any number of requests.", "why_tests_cant": "A test waits for one manifest that comes at one time; the bounds are for every time it may come and every speed of the queue.", "anchors": ["crates/abq_workers/src/runner_strategy.rs: GetInitContextOnline::get_init_context", "crates/abq_queue/src/queue.rs: AllRuns::init_metadata"]}
{"id": "C151", "title": "A native runner has as long as it was given, and no longer", "statement": "A test is over when the time given by `--inactivity-timeout-seconds` is up, whatever the native runner does, and is ended for the time only if it was not answered by then; parts of its results do not prolong the time. After a test that was ended so, or failed, no other is begun; no test lasts longer than its time. A native runner that does not connect within `--startup-timeout-seconds` is given up after that time and before twice as long, and none is given up earlier unless it said something wrong; one that does start up in time is used.", "quantifier": "All time limits, all times at which a native runner connects, is written to, answers in whole or in parts, hangs up or ends, all numbers of tests, both outcomes of a race at the very end of a time.", "why_tests_cant": "The end of the time can fall anywhere between the parts of an answer; tests use a limit of zero or one that never passes.", "anchors": ["crates/abq_runners/generic_test_runner/src/lib.rs: open_native_runner_connection, handle_native_runner_connection_error, execute_all_tests, handle_one_test, handle_one_test_help, send_and_wait_for_test_results", "crates/abq_utils/src/timeout_future.rs: TimeoutFuture::wait", "crates/abq_cli/src/args.rs: startup_timeout_seconds, inactivity_timeout_seconds"]}
{"id": "C152", "title": "A worker that is run again waits about a minute for its tests to be stored, and gets them soon after they are", "statement": "A runner of a worker that is run again asks for its tests at once, and again three seconds after it was told that they are not stored yet, twenty times at most; it gives up for that reason only after 57 seconds. If they are stored by then it has an answer within the time of two attempts and three seconds: exactly the tests it was given when it ran first, or an error if they cannot be read.", "quantifier": "All times at which the manifest is stored, all times attempts take, all histories of the queue.", "why_tests_cant": "A test waits for one manifest that is stored at one time; the bounds are for every time and every speed of the queue.", "anchors": ["crates/abq_workers/src/test_fetching/out_of_process_retry_manifest_fetcher.rs: get_next_tests, TRY_FETCH_MANIFEST_ATTEMPTS, TRY_FETCH_MANIFEST_BACKOFF", "crates/abq_utils/src/retry.rs: async_retry_n", "crates/abq_queue/src/queue.rs: AllRuns::get_retry_manifest"]}
{"id": "C153", "title": "A report has all results of a run within two requests and the pause between them after the last of them is recorded", "statement": "Let all runners of a run be done when `abq report` begins to wait, and the recording of all that the queue ever takes for the run have been begun by then. If all of it has been recorded by some moment, each request of the client is answered within d, and --timeout-seconds is not up before that moment plus two requests and the two seconds between them, then the client has the results by then: the size of the manifest and every batch of results that was taken, once each, and nothing else; requests that come earlier are put off or get just that as well, and no request after that moment is put off. The report it makes is complete, and its exit code is 0 iff every test of the manifest passed in one of its attempts.", "quantifier": "every history in time of the queue with any number of runs, workers and clients; every moment at which the last recording is over; every timing of the client's attempts and answers; every time limit", "why_tests_cant": "the moment at which a request reaches the queue relative to each of the recordings is arbitrary, and the bound must hold for all of them", "anchors": ["crates/abq_cli/src/report.rs: wait_for_results", "crates/abq_queue/src/queue.rs: handle_test_results_request", "crates/abq_queue/src/persistence/results.rs: ResultsPersistedCell::eligible_to_retrieve, retrieve_with_callback"]}
{"id": "C154", "title": "A worker survives outages of the queue of up to twelve seconds", "statement": "For each message it sends to the queue (its manifest, a batch of results, that it ran all its tests, that the run is cancelled) a worker makes up to five attempts to connect, the first at once and each three seconds after the end of the one before. So if the queue is never out of reach for more than twelve seconds, and then within reach for at least three seconds and the time of an attempt, and no connection is lost once it is there, all messages are acknowledged, each within 15 seconds, two attempts and the time for writing and reading. If the queue is out of reach for twelve seconds and four attempts, or a connection is lost, the worker ends with an error and sends nothing more. Asking for tests and waiting for the manifest survive such outages, too.", "quantifier": "every pattern of outages of the queue, every time that attempts to connect and exchanges take, and every sequence of messages at whatever times", "why_tests_cant": "outages can begin and end at any moment relative to the attempts; the bounds are sharp only at moments no test will hit", "anchors": ["crates/abq_workers/src/results_handler.rs: QueueResultsSender::send_results", "crates/abq_workers/src/runner_strategy.rs: notify_all_tests_run_impl, SendManifestOnline::send_manifest, OnlineCancelNotifier::cancel", "crates/abq_utils/src/retry.rs: async_retry_n", "crates/abq_workers/src/test_fetching/persistent_test_fetcher.rs: PersistedTestsFetcher::wait_for_next_work_bundle"]}
{"id": "C155", "title": "A worker that is run again gets its tests in spite of outages of the queue of up to twelve seconds", "statement": "For each request for its tests a worker that is run again makes up to five attempts to connect, three seconds apart. So if the queue is never out of reach for more than twelve seconds, and then within reach for at least three seconds and the time of an attempt, no connection is lost once it is there, and the queue can answer within 57 seconds from the first request on, the worker has its answer, tests or an error, at most 33 seconds, four attempts to connect and two exchanges after the queue can give it. If the queue is out of reach for twelve seconds and four attempts when it asks, or a connection is lost, the worker ends with an error.", "quantifier": "every pattern of outages of the queue, every time that attempts to connect and exchanges take, and every time at which the queue can answer", "why_tests_cant": "outages can begin and end at any moment relative to twenty requests of five attempts each; a test shows one of them", "anchors": ["crates/abq_workers/src/test_fetching/out_of_process_retry_manifest_fetcher.rs: OutOfProcessRetryManifestFetcher::get_next_tests, CONNECTION_ATTEMPTS, CONNECTION_BACKOFF", "crates/abq_utils/src/retry.rs: async_retry_n"]}
{"id": "C156", "title": "Few results are lost with a worker", "statement": "A runner does not sit on results. With batches of n results, at any time all answers of the native runner but the last 3n have been handed over to be sent to the queue, as they were given and in order; so if the worker dies, no more than these and the batch then on its way are lost. When a runner is through and its native runner did not fail, all have been handed over.", "quantifier": "every script of the queue, every number of attempts, every batch size, all results of tests, and every schedule of the runner's tasks at any moment of which the worker may die", "why_tests_cant": "how many results wait in the runner depends on how its three tasks are scheduled; a test sees one schedule", "anchors": ["crates/abq_runners/generic_test_runner/src/lib.rs: execute_all_tests, try_send_result_to_channel", "crates/abq_runners/generic_test_runner/src/buffered_results.rs: BufferedResults"]}
