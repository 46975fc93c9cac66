import Verif.Model.AllRuns
/-!
# Progress timers in time

`crates/abq_queue/src/timeout.rs`, and the registry of runs (`Model/AllRuns.lean`) with a clock: a timer may fire only once its
time has come. Time is a number of ticks.
-/

namespace Abq.Timed

/-- `timeout.rs:41` `WAIT_FOR_MANIFEST_PROGRESS_DURATION`, in seconds. Queues that are not under test use it
(`RunTimeoutStrategy::RUN_BASED`); the theorems are about every constant. -/
def runBased : Nat := 60 * 60

/-! ## The registry of runs with a clock -/

/-- The registry of runs (`queue.rs`, see `Model/AllRuns.lean`) with a clock, and when its timers were set
(`timeout.rs:143-163`). -/
structure State (T : Type) where
  now : Nat
  runs : Runs T
  /-- When each of the tasks in flight, in their order, came to be what it is. -/
  born : List Nat

/-- The clock, or a step of the registry (`timeout.rs:143-183`; `queue.rs`, see `Model/AllRuns.lean`). -/
inductive Act (T : Type) where
  /-- Time passes. -/
  | tick (d : Nat)
  | act (a : RunsAct T)

namespace State
variable {T : Type}

/-- A queue that starts (`queue.rs:1615-1713`). -/
def start : State T := { now := 0, runs := Runs.init, born := [] }

/-- `timeout.rs:143-163`, `timeout.rs:169-183`: a timer is resumed only when `period` has passed since it was set.
Simplification: it is set at the moment the step before it is done. -/
def early (period : Nat) (s : State T) : RunsAct T → Bool
  | .resume k _ _ =>
    match s.runs.pending[k]?, s.born[k]? with
    | some (.timer _ _), some b => decide (s.now < b + period)
    | _, _ => false
  | _ => false

/-- The tasks that go on being what they are (`timeout.rs:143-163`). -/
def kept (s : State T) : RunsAct T → List Nat
  | .resume k _ _ =>
    match s.runs.pending[k]? with
    | none => s.born
    | some p => if p.writes && s.runs.readLocked p.rid then s.born else s.born.eraseIdx k
  | _ => s.born

/-- One step; a timer that is not due does nothing (`timeout.rs:104-118`). -/
def step (period : Nat) (s : State T) : Act T → State T
  | .tick d => { s with now := s.now + d }
  | .act a =>
    if s.early period a then s
    else
      { s with
        runs := s.runs.step a
        born := s.kept a ++ List.replicate ((s.runs.step a).pending.length - (s.kept a).length) s.now }

/-- A schedule (`timeout.rs:104-183`). -/
def run (period : Nat) (s : State T) (acts : List (Act T)) : State T := acts.foldl (step period) s

end State

/-! ## The manager of timers -/

/-- `timeout.rs:67-110`: the timers that were set, each with the time it is due (`TimeoutCell`), and whether `next_timeout`
holds the lock (`timeout.rs:170-183`), with the time at which it lets go of it. `F` is `FiredTimeout`. -/
structure Manager (F : Type) where
  now : Nat
  cells : List (Nat × F)
  holding : Option Nat
  /-- What `next_timeout` returned, and when. -/
  fired : List (Nat × F)

/-- The calls of `timeout.rs:126-184`, and the steps of `next_timeout`. -/
inductive ManagerAct (F : Type) where
  | tick (d : Nat)
  | insert (duration : Nat) (x : F)
  /-- `next_timeout` gets the lock. -/
  | lock
  /-- It polls the timers and finds the one at `j`. -/
  | poll (j : Nat)
  /-- It polls its own sleep. -/
  | pollSleep
  /-- The `select!` that waits for `next_timeout` goes on with something else and drops it (`queue.rs:1847-1864`). -/
  | drop

namespace Manager
variable {F : Type}

/-- `timeout.rs:129-134` `new`. -/
def new : Manager F := { now := 0, cells := [], holding := none, fired := [] }

/-- `timeout.rs:127` `MAX_TIMEOUT_WAIT_TIME`, in microseconds. -/
def maxWait : Nat := 10

/-- One step (`timeout.rs:104-183`). -/
def step (s : Manager F) : ManagerAct F → Manager F
  | .tick d => { s with now := s.now + d }
  | .insert duration x =>
    match s.holding with
    | none => { s with cells := s.cells ++ [(s.now + duration, x)] }
    | some _ => s
  | .lock =>
    match s.holding with
    | none => { s with holding := some (s.now + maxWait) }
    | some _ => s
  | .poll j =>
    match s.holding, s.cells[j]? with
    | some _, some (due, x) =>
      if due ≤ s.now then { s with cells := s.cells.eraseIdx j, holding := none, fired := s.fired ++ [(s.now, x)] } else s
    | _, _ => s
  | .pollSleep =>
    match s.holding with
    | some t => if t ≤ s.now then { s with holding := none } else s
    | none => s
  | .drop => { s with holding := none }

/-- A schedule (`timeout.rs:104-183`). -/
def run (s : Manager F) (acts : List (ManagerAct F)) : Manager F := acts.foldl step s

end Manager
end Abq.Timed
