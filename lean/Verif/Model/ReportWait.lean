import Verif.Model.Fetch
/-!
# How long a report waits

`crates/abq_cli/src/report.rs` `wait_for_results` with the time it takes. Times are milliseconds since the command began to wait. `Fetch`
has what the client makes of the answers.
-/

namespace Abq.ReportWait
open Fetch

/-- One turn of the loop, as the environment decides it: how long the attempts to connect take, and how long it takes to write the
request and to read the whole answer (`report.rs:249-310`). -/
structure Turn extends Attempt where
  tryTime : Nat → Nat
  exchange : Nat

/-- `report.rs:36-37` `RECONNECT_ATTEMPTS`, `RECONNECT_DELAY`. -/
def reconnectDelay : Nat := 3000

/-- `report.rs:39` `PENDING_RESULTS_DELAY`. -/
def pendingDelay : Nat := 2000

/-- `report.rs:258-262` with `retry.rs:3-29` `async_retry_n`: when the attempts to connect from the `k`-th on are over, with `left` of them
left, and whether one succeeded. -/
def connecting (t : Turn) : Nat → Nat → Nat × Bool
  | 0, _ => (0, false)
  | left + 1, k =>
    if t.connects k then (t.tryTime k, true)
    else if left = 0 then (t.tryTime k, false)
    else (t.tryTime k + reconnectDelay + (connecting t left (k + 1)).1, (connecting t left (k + 1)).2)

/-- How the waiting ended, when, and when turns were begun (`report.rs:227-310`). -/
structure Waited (L : Type) where
  result : Except Failure (List L)
  ended : Nat
  begun : List Nat

/-- `timeout_future.rs:18-27`: whether something that is over at `t` comes too late. If it is over at the very moment at which the time is
up, `tokio::select!` takes either; `tie` says which. -/
def late (tie : Bool) (limit t : Nat) : Bool := if tie then decide (limit < t) else decide (limit ≤ t)

/-- The time is up (`report.rs:238-246`). -/
def timeUp {L : Type} (limit : Nat) (begun : List Nat) : Waited L := ⟨.error .timedOut, limit, begun⟩

/-- `report.rs:227-310` `wait_for_results`, from a turn begun at `now` on; `begun` are the turns begun before. -/
def poll {L : Type} (c : Codec L) (tie : Bool) (limit : Nat) (world : Nat → Turn) (now : Nat) (begun : List Nat) : Waited L :=
  let turn := world now
  let begun := begun ++ [now]
  let connected := now + (connecting turn reconnectAttempts 1).1
  if late tie limit connected then timeUp limit begun
  else if (connecting turn reconnectAttempts 1).2 then
    let answered := connected + turn.exchange
    if late tie limit answered then timeUp limit begun
    else if turn.sent then
      match turn.reply with
      | none => ⟨.error .io, answered, begun⟩
      | some (.streaming conn) => ⟨readResults c conn, answered, begun⟩
      | some .pending =>
        if h : late tie limit (answered + pendingDelay) then timeUp limit begun
        else poll c tie limit world (answered + pendingDelay) begun
      | some (.inProgress active) => ⟨.error (if active.isEmpty then .noActiveRunners else .stillActive active), answered, begun⟩
      | some (.error reason) => ⟨.error (.refused reason), answered, begun⟩
    else ⟨.error .io, answered, begun⟩
  else ⟨.error .noConnection, connected, begun⟩
termination_by limit - now
decreasing_by
  simp only [answered, connected, turn, pendingDelay] at h ⊢
  revert h
  generalize (connecting (world now) reconnectAttempts 1).1 = x
  generalize (world now).exchange = y
  cases tie <;> simp only [late, Bool.false_eq_true, if_false, if_true, decide_eq_true_eq] <;> omega

/-- `report.rs:227-247` `wait_for_results`. -/
def wait {L : Type} (c : Codec L) (tie : Bool) (limit : Nat) (world : Nat → Turn) : Waited L := poll c tie limit world 0 []

end Abq.ReportWait
