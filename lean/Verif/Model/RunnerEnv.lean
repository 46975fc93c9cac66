/-!
# What a native runner is started with

The command of `abq test` (`crates/abq_cli/src/main.rs:811-831`), the runners of a worker
(`crates/abq_workers/src/workers.rs:137-230`), and the processes each of them starts
(`crates/abq_runners/generic_test_runner/src/lib.rs:400-420, 453-500, 603-680, 695-735`).
-/

namespace Abq.RunnerEnv

/-- Environment variables: those of a process, or the map `EnvironmentVariables` (`net_protocol.rs:345`). -/
abbrev Env := String → Option String

/-- `HashMap::insert`, `Command::env` (`net_protocol.rs:367-379`, `generic_test_runner/src/lib.rs:466-480`). -/
def Env.insert (e : Env) (k v : String) : Env := fun x => if x = k then some v else e x

/-- `Command::envs` (`generic_test_runner/src/lib.rs:480`). -/
def Env.over (new old : Env) : Env := fun x => (new x).or (old x)

/-- `net_protocol.rs:347-352` `NativeTestRunnerParams`. -/
structure Params where
  cmd : String
  args : List String
  extraEnv : Env

/-- `main.rs:811-830` `validate_abq_test_args`; `none` is the error. -/
def validate : List String → Option Params
  | [] => none
  | cmd :: args => some { cmd, args, extraEnv := Env.insert (fun _ => none) "FORCE_COLOR" "1" }

/-- `net_protocol.rs:367-379` `set_abq_runner_env_var`; `none` is the failed `debug_assert!`. -/
def Params.setRunner (p : Params) (id : Nat) : Option Params :=
  if p.extraEnv "ABQ_RUNNER" = none then some { p with extraEnv := p.extraEnv.insert "ABQ_RUNNER" (toString id) } else none

/-- A runner of a pool, `workers.rs:166-220`: its entity and `WorkerRunner` have the same tags. -/
structure Runner where
  worker : Nat
  runner : Nat
  asked : Bool
  singleton : Bool
  params : Params

/-- `runner_id as u32`, `workers.rs:175`. -/
def asU32 (n : Nat) : Nat := n % 4294967296

/-- `workers.rs:164-220`: one runner for each number from 1 to `num_runners`. -/
def pool (tag num : Nat) (generate : Bool) (p : Params) : Option (List Runner) :=
  (List.range' 1 num).mapM fun id =>
    (p.setRunner id).map fun params =>
      { worker := tag, runner := asU32 id, asked := generate && id == 1, singleton := num == 1, params }

/-- A native runner as it is started, `generic_test_runner/src/lib.rs:466-480`. -/
structure Process where
  program : String
  args : List String
  env : Env

/-- `generic_test_runner/src/lib.rs:453-480` `new_native_runner`, with the environment of the worker, which the process inherits, and the address it listens to;
and `lib.rs:712-720`, where `ABQ_WORKER` is added. -/
def Runner.spawn (r : Runner) (inherited : Env) (addr : String) (generate : Bool) : Process :=
  let env := inherited.insert "ABQ_SOCKET" addr
  let env := if generate then env.insert "ABQ_GENERATE_MANIFEST" "1" else env
  let extra := r.params.extraEnv.insert "ABQ_WORKER" (toString r.worker)
  { program := r.params.cmd, args := r.params.args, env := extra.over env }

/-- What the native runner of a process is started for (`generic_test_runner/src/lib.rs:604-740`). -/
inductive Purpose where
  | manifest
  | tests
  | retry
deriving DecidableEq, Repr

/-- The processes a runner starts, one after another, if each of them goes well: `lib.rs:730-740` the first, for the manifest if it is
asked; `lib.rs:604-623` `reconcile_for_start_of_run`, only after a manifest; `lib.rs:627-678` `reconcile_run_number`, one for each attempt. Each
listens to an address of its own, `lib.rs:463`. -/
def Runner.purposes (r : Runner) (retries : Nat) : List Purpose :=
  (if r.asked then [.manifest, .tests] else [.tests]) ++ List.replicate retries .retry

/-- `should_generate_manifest`: `lib.rs:730` `send_manifest.is_some()`, `lib.rs:615, 655`. -/
def Purpose.generates : Purpose → Bool
  | .manifest => true
  | .tests => false
  | .retry => false

/-- How a native runner decides what to do, as the simulated one does
(`abq_test_support/native_runner_simulator/src/lib.rs:125`). -/
def Process.asksManifest (p : Process) : Bool := p.env "ABQ_GENERATE_MANIFEST" == some "1"

/-- All processes a pool starts, with the number of retries of each runner and the address of each process
(`workers.rs:164-220`, `generic_test_runner/src/lib.rs:604-740`). -/
def started (inherited : Env) (addr : Nat → Nat → String) (rs : List (Runner × Nat)) : List Process :=
  rs.flatMap fun x => (x.1.purposes x.2).mapIdx fun i u => x.1.spawn inherited (addr x.1.runner i) u.generates

end Abq.RunnerEnv
