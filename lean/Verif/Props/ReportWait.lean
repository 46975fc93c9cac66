import Verif.Proof.ReportWait

/-!
# C149: a report waits as long as it was told, and no longer

`limit` is `--timeout-seconds` in milliseconds. `world now` is what happens in a turn that the client begins at `now`. `tie` says what
happens if the end of a turn and the end of the time coincide.
-/

namespace Abq.Props
open Abq.ReportWait Abq.Fetch Abq.Spec.ReportWait
variable {L : Type}

/-- C149: the waiting is over when the time is up, whatever happens, and is not given up for the time before that. -/
theorem C149_on_time (c : Codec L) (tie : Bool) (limit : Nat) (world : Nat → Turn) :
    (wait c tie limit world).ended ≤ limit ∧
    ((wait c tie limit world).result = .error .timedOut → (wait c tie limit world).ended = limit) :=
  poll_ended 0 []

/-- C149: what it ends with is what follows from the turns begun (as in C97), but for a last one that the end of the time cut off. Two
turns are begun at least two seconds apart, so there are at most one more than the time allows for; the first is begun at once. -/
theorem C149_turns (c : Codec L) (tie : Bool) (limit : Nat) (world : Nat → Turn) :
    ∃ more k, (wait c tie limit world).begun = 0 :: more ∧
      (wait c tie limit world).result = fetch c (((0 :: more).map fun n => (world n).toAttempt).take k) ∧
      ((wait c tie limit world).result ≠ .error .timedOut → more.length < k) ∧ more.length ≤ k ∧
      (0 :: more).Pairwise (fun a b => a + 2000 ≤ b) ∧ (∀ b ∈ more, b ≤ limit) ∧ 2000 * more.length ≤ limit := by
  obtain ⟨more, k, h1, h2, h3, h4, h5, h6⟩ := poll_turns (c := c) (tie := tie) (limit := limit) (world := world) 0 []
  refine ⟨more, k, h1, h2, h3, h4, h5, h6, ?_⟩
  have spread : ∀ (l : List Nat) (x : Nat), (x :: l).Pairwise (fun a b => a + 2000 ≤ b) → x ≤ limit → (∀ b ∈ l, b ≤ limit) →
      x + 2000 * l.length ≤ limit := by
    intro l
    induction l with
    | nil => intro x _ hx _; simpa using hx
    | cons y l ih =>
      intro x hp hx hb
      have h1 := ih y (List.pairwise_cons.mp hp).2 (hb y (by simp)) fun b h => hb b (by simp [h])
      have h2 := (List.pairwise_cons.mp hp).1 y (by simp)
      rw [List.length_cons, Nat.mul_succ, Nat.add_comm (2000 * _), ← Nat.add_assoc]
      exact Nat.le_trans (Nat.add_le_add_right h2 _) h1
  simpa using spread more 0 h5 (Nat.zero_le _) h6

/-- C149: let the runners be done, and turns be answered within `d`. If results are not put off any more from `ready` on, and the time is
not up within two turns and the pause between them after that, the client gets the results it is sent. -/
theorem C149_served (c : Codec L) (tie : Bool) (limit : Nat) (world : Nat → Turn) (ready d : Nat) (hlim : ready + 2 * d + 2000 < limit)
    (h1 : ∀ n, n < limit → AnsweredIn (world n) d)
    (h2 : ∀ n, n < limit → (world n).reply = some .pending ∨ ∃ conn, (world n).reply = some (.streaming conn))
    (h3 : ∀ n, n < limit → ready ≤ n → (world n).reply ≠ some .pending) :
    ∃ n conn, n ≤ ready + d + 2000 ∧ (world n).reply = some (.streaming conn) ∧
      (wait c tie limit world).result = readResults c conn ∧ (wait c tie limit world).ended ≤ ready + 2 * d + 2000 :=
  poll_served 0 [] (by omega) hlim h1 h2 h3

/-- C149: an answer other than that results are pending ends it at once. -/
theorem C149_at_once (c : Codec L) (tie : Bool) (limit : Nat) (world : Nat → Turn) (d : Nat) (hlim : d < limit)
    (h : AnsweredIn (world 0) d) (hr : (world 0).reply ≠ some .pending) :
    (wait c tie limit world).ended ≤ d ∧ (wait c tie limit world).begun = [0] ∧
      (wait c tie limit world).result = fetch c [(world 0).toAttempt] := by
  obtain ⟨hc, hd⟩ := ReportWait.answered h
  have hs := h.2.1
  have hn := h.2.2
  rw [fetch_cons ((connecting_connect _).mp hc) hs, wait, poll]
  rw [if_neg (by rw [late_of_lt (by omega)]; simp), if_pos hc, if_neg (by rw [late_of_lt (by omega)]; simp), if_pos hs]
  cases hrep : (world 0).reply with
  | none => exact (hn hrep).elim
  | some r =>
    cases r with
    | pending => exact (hr hrep).elim
    | streaming conn => exact ⟨by simp only; omega, rfl, rfl⟩
    | inProgress active => exact ⟨by simp only; omega, rfl, rfl⟩
    | error reason => exact ⟨by simp only; omega, rfl, rfl⟩

/-- C149: a queue that cannot be reached is tried five times, three seconds apart. -/
theorem C149_unreachable (c : Codec L) (tie : Bool) (limit : Nat) (world : Nat → Turn)
    (h : ∀ k, 1 ≤ k → k ≤ 5 → (world 0).connects k = false)
    (hlim : ((List.range 5).map fun j => (world 0).tryTime (j + 1)).sum + 12000 < limit) :
    wait c tie limit world = ⟨.error .noConnection, ((List.range 5).map fun j => (world 0).tryTime (j + 1)).sum + 12000, [0]⟩ := by
  have e : connecting (world 0) reconnectAttempts 1 = _ := connecting_fails (world 0) 4 1 fun j h1 h2 => h j h1 (by omega)
  have e' : (fun j => (world 0).tryTime (1 + j)) = fun j => (world 0).tryTime (j + 1) := by funext j; rw [Nat.add_comm]
  rw [e'] at e
  rw [wait, poll]
  simp only [e]
  rw [if_neg (by rw [late_of_lt (by rw [Nat.zero_add]; exact hlim)]; simp), if_neg (by simp)]
  simp

/-! ## A case -/

/-- Each turn connects with the second attempt. The results are pending for 20 seconds, then they are there. -/
def waitWorld (n : Nat) : Turn :=
  { connects := fun k => k == 2, sent := true, tryTime := fun _ => 10, exchange := 30
    reply := some (if n < 20000 then .pending else .streaming ⟨[0, 0, 0, 0], false⟩) }

def waitCodec : Codec Unit := ⟨fun _ => [], fun _ => true, fun _ => none⟩

theorem waitWorld_answered (n : Nat) : AnsweredIn (waitWorld n) 3050 :=
  ⟨⟨2, by omega, by omega, rfl, fun j h1 h2 => by rw [show j = 1 by omega]; rfl, Nat.le_of_eq rfl⟩, rfl, by simp [waitWorld]⟩

/-- With the usual five minutes, the results are got after less than half a minute. -/
example : (wait waitCodec false 300000 waitWorld).result = .ok [] ∧ (wait waitCodec false 300000 waitWorld).ended ≤ 28100 := by
  obtain ⟨n, conn, -, h1, h2, h3⟩ := C149_served waitCodec false 300000 waitWorld 20000 3050 (by omega)
    (fun n _ => waitWorld_answered n)
    (fun n _ => by simp only [waitWorld]; split <;> simp)
    (fun n _ hn => by simp only [waitWorld, if_neg (Nat.not_lt.mpr hn)]; simp)
  refine ⟨?_, by omega⟩
  rw [h2]
  simp only [waitWorld] at h1
  split at h1
  · cases h1
  · cases h1; rfl

/-- With ten seconds, the time is up after ten seconds. -/
example : (wait waitCodec false 10000 waitWorld).result = .error .timedOut ∧ (wait waitCodec false 10000 waitWorld).ended = 10000 := by
  have h : ∀ n, n < 10000 → (waitWorld n).reply = some .pending := fun n hn => by simp [waitWorld, show n < 20000 by omega]
  have hr : (wait waitCodec false 10000 waitWorld).result = .error .timedOut := by
    rw [wait, poll]
    simp [poll, waitWorld, connecting, late, pendingDelay, reconnectDelay, reconnectAttempts, timeUp]
  exact ⟨hr, (C149_on_time waitCodec false 10000 waitWorld).2 hr⟩

/-- A runner is still active. -/
example : (wait waitCodec true 300000 fun n => { waitWorld n with reply := some (.inProgress [.runner ⟨1, 1⟩]) }).result = .error (.stillActive [.runner ⟨1, 1⟩]) ∧
    (wait waitCodec true 300000 fun n => { waitWorld n with reply := some (.inProgress [.runner ⟨1, 1⟩]) }).ended ≤ 3050 := by
  have := C149_at_once waitCodec true 300000 (fun n => { waitWorld n with reply := some (.inProgress [.runner ⟨1, 1⟩]) }) 3050 (by omega)
    ⟨(waitWorld_answered 0).1, rfl, by simp⟩ (by simp)
  refine ⟨?_, this.1⟩
  rw [this.2.2, fetch_cons ((connect_iff _).2 ⟨2, by omega, by omega, rfl⟩) rfl]
  rfl

/-- Nobody listens. -/
example : wait waitCodec true 300000 (fun n => { waitWorld n with connects := fun _ => false }) = ⟨.error .noConnection, 12050, [0]⟩ :=
  C149_unreachable waitCodec true 300000 _ (fun _ _ _ => rfl) (by decide)

end Abq.Props
