import Verif.Proof.TestsConn
import Verif.Props.Backoff

/-!
# Bundles of tests reach the runner they were taken for (C117), and its tests a worker that is run again (C118)

All theorems of C117 are about every schedule of the runner, of the tasks at the queue's end of its connections, and of failures of
connecting, writing and reading.
-/

namespace Abq.Props
open Abq.TestsConn
variable {β : Type}

/-- **C117.** The bundles returned to a runner are among those the queue took for it, in the same order and each at most once. On each
connection they are the first ones, and at most one is missing. In all, at most one is missing for each attempt that failed, and one
for a request that is open. -/
theorem C117_in_order (eow : β → Bool) (as : List (TestsConn.Act β)) :
    let w := (World.new β).run eow as
    w.got.Sublist w.pulled ∧
    (∀ c, on c w.pulled = on c w.got ∨ ∃ b, on c w.pulled = on c w.got ++ [b]) ∧
    w.pulled.length ≤ w.got.length + w.failed + 1 ∧
    (w.phase = .idle → w.pulled.length ≤ w.got.length + w.failed) := by
  intro w
  have inv : Inv w := inv_run eow as
  have hc := inv.count
  have hs : w.phase.slack ≤ 1 := by unfold Phase.slack; split <;> omega
  refine ⟨inv.sub, ?_, by omega, ?_⟩
  · intro c
    cases hx : w.conns[c]? with
    | none =>
      left
      have hl : w.conns.length ≤ c := List.getElem?_eq_none_iff.1 hx
      have h0 : on c w.pulled = [] := by
        unfold on
        rw [List.map_eq_nil_iff, List.filter_eq_nil_iff]
        intro p hp h
        have := inv.idx p hp
        have h' : p.1 = c := by simpa using h
        omega
      have := (inv.sub.filter (fun x => x.1 == c)).map (·.2)
      rw [show (w.pulled.filter (fun x => x.1 == c)).map (·.2) = [] from h0] at this
      rw [h0]
      exact (List.sublist_nil.1 this).symm
    | some x =>
      have hk := (inv.conn c x hx).mono (budget_le w c)
      obtain ⟨lost, h1, -⟩ := hk.stock
      have hf := hk.few
      rw [List.append_assoc] at h1
      generalize x.answers ++ x.task.held ++ lost = r at h1
      rw [h1, List.length_append] at hf
      match r, hf with
      | [], _ => left; rw [h1, List.append_nil]
      | [b], _ => exact .inr ⟨b, h1⟩
      | _ :: _ :: _, hf => simp only [List.length_cons] at hf; omega
  · intro hp
    rw [hp] at hc
    simp only [Phase.slack] at hc
    omega

/-- **C117.** On the connection a runner uses, nothing is missing between its requests: what was lost was lost with a connection
that was given up. -/
theorem C117_current (eow : β → Bool) (as : List (TestsConn.Act β)) (c : Nat)
    (hp : ((World.new β).run eow as).phase = .idle) (hc : ((World.new β).run eow as).current = some c) :
    on c ((World.new β).run eow as).pulled = on c ((World.new β).run eow as).got := by
  have inv := inv_run (β := β) eow as
  generalize (World.new β).run eow as = w at *
  have hl := inv.cur c hc
  have hk := inv.conn c _ (List.getElem?_eq_getElem hl)
  have hb : budgetOf w c = 0 := by simp [budgetOf, hc, hp, Phase.budget]
  rw [hb] at hk
  exact hk.empty.2.1

/-- **C117 (partial).** If no attempt failed, what was returned are the first of the bundles taken, at most the last is on its way, and
none is when a runner has what it asked for. Missing: the same when an attempt failed, which is false
(`C117_full_statement_fails`). -/
theorem C117_all_partial (eow : β → Bool) (as : List (TestsConn.Act β)) :
    let w := (World.new β).run eow as
    w.failed = 0 → w.got = w.pulled.take w.got.length ∧ w.pulled.length ≤ w.got.length + 1 ∧
      (w.phase = .idle → w.got = w.pulled) := by
  intro w hf
  have inv : Inv w := inv_run eow as
  obtain ⟨h1, -, h3, h4⟩ := C117_in_order eow as
  rw [show ((World.new β).run eow as).failed = 0 from hf] at h3 h4
  have hidle : w.phase = .idle → w.got = w.pulled := fun hp => h1.eq_of_length_le (by have := h4 hp; omega)
  exact ⟨List.prefix_iff_eq_take.1 (prefix_run eow as hf), by omega, hidle⟩

/-- **C117.** When an attempt fails the runner gives up its connection and makes another attempt on a new one, or panics if it was the
third. -/
theorem C117_failure (eow : β → Bool) (as : List (TestsConn.Act β)) (k : Nat) (s : Stage)
    (hp : ((World.new β).run eow as).phase = .asking k s) (a : TestsConn.Act β)
    (ha : (a = .connect false ∧ s = .connecting) ∨ (∃ r, a = .name false r ∧ s = .naming) ∨
      (∃ r, a = .request false r ∧ s = .requesting) ∨ (a = .read false ∧ s = .reading)) :
    let w := (World.new β).run eow as
    let v := (World.new β).run eow (as ++ [a])
    1 ≤ k ∧ k ≤ 3 ∧ v.got = w.got ∧ v.pulled = w.pulled ∧ v.failed = w.failed + 1 ∧
    (k < 3 → v.phase = .asking (k + 1) .connecting ∧ v.current = none) ∧
    (k = 3 → v.phase = .panicked) := by
  intro w v
  have hk := (inv_run eow as).attempts k s hp
  have hc := connected_run eow as k s hp
  refine ⟨hk.1, hk.2, ?_⟩
  have hv : v = w.step eow a := by simp [v, w, World.run, List.foldl_append]
  have key : ∀ u : World β, u.got = w.got → u.pulled = w.pulled → u.failed = w.failed →
      (u.fail k).got = w.got ∧ (u.fail k).pulled = w.pulled ∧ (u.fail k).failed = w.failed + 1 ∧
      (k < 3 → (u.fail k).phase = .asking (k + 1) .connecting ∧ (u.fail k).current = none) ∧
      (k = 3 → (u.fail k).phase = .panicked) := by
    intro u h1 h2 h3
    obtain ⟨g1, g2, g3, -⟩ := fail_keeps u k
    refine ⟨g1.trans h1, g2.trans h2, by rw [g3, h3], ?_, ?_⟩
    · intro hk; unfold World.fail; rw [if_pos (show k < maxAttempts from hk)]; exact ⟨rfl, rfl⟩
    · intro hk; unfold World.fail; rw [if_neg (by unfold maxAttempts; omega)]
  rw [hv]
  change w.phase = _ at hp
  change s = .requesting ∨ s = .reading → w.current.isSome at hc
  generalize w = w at *
  rcases ha with ⟨ha, hs⟩ | ⟨r, ha, hs⟩ | ⟨r, ha, hs⟩ | ⟨ha, hs⟩ <;> subst ha <;> subst hs <;> simp only [World.step, hp]
  · exact key _ rfl rfl rfl
  · exact key _ rfl rfl rfl
  · obtain ⟨c, hc⟩ := Option.isSome_iff_exists.1 (hc (.inl rfl))
    simp only [hc]
    exact key _ rfl rfl rfl
  · obtain ⟨c, hc⟩ := Option.isSome_iff_exists.1 (hc (.inr rfl))
    simp only [hc]
    exact key _ rfl rfl rfl

/-- **C117.** A runner that gets what it asks for meets at most two failures each time. -/
theorem C117_attempts (eow : β → Bool) (as : List (TestsConn.Act β)) :
    let w := (World.new β).run eow as
    w.failed ≤ 2 * asks as + 1 ∧ (w.phase = .idle → w.failed ≤ 2 * asks as) := by
  intro w
  have h : FailedOk w (asks as) := failedOk_run eow as
  unfold FailedOk at h
  refine ⟨?_, fun hp => ?_⟩
  · split at h <;> omega
  · rw [hp] at h; exact h

/-- **C117.** Whatever failed before, if a new connection can be made and nothing fails on it, the next bundle taken is returned. -/
theorem C117_recovers (eow : β → Bool) (w : World β) (k : Nat) (hp : w.phase = .asking k .connecting) (b : β) :
    let c := w.conns.length
    let v := w.run eow [.connect true, .name true true, .request true true, .serve c b, .answer c true, .read true]
    v.phase = .idle ∧ v.current = some c ∧ v.got = w.got ++ [(c, b)] ∧ v.pulled = w.pulled ++ [(c, b)] ∧
    v.conns[c]? = some ⟨true, 0, [], if eow b then .ended else .serving⟩ := by
  obtain ⟨conns, current, phase, pulled, got, failed⟩ := w
  simp only at hp
  subst hp
  simp only [World.run, List.foldl_cons, List.foldl_nil, World.step, if_true, List.length_append, List.length_cons, List.length_nil,
    Nat.zero_add, Nat.add_sub_cancel]
  have hm : ∀ (x : Conn β) (f : Conn β → Conn β), (conns ++ [x]).modify conns.length f = conns ++ [f x] := by
    intro x f
    rw [modify_eq_set _ _ x _ (by simp)]
    simp
  have hs : ∀ x y : Conn β, (conns ++ [x]).set conns.length y = conns ++ [y] := by intro x y; simp
  have hg : ∀ x : Conn β, (conns ++ [x])[conns.length]? = some x := by intro x; simp
  simp only [hm, hg, Conn.serve, Conn.fresh, hs, Conn.answer]
  simp [afterAnswer]

/-- **C117.** While nothing fails a runner keeps its connection, and each of its requests returns the bundle taken for it. The
connection is then as before, unless it was the last bundle. -/
theorem C117_serves (eow : β → Bool) (w : World β) (c : Nat) (x : Conn β) (hp : w.phase = .idle) (hc : w.current = some c)
    (hx : w.conns[c]? = some x) (hn : x.named = true) (ht : x.task = .serving) (he : x.answers = []) (b : β) :
    let v := w.run eow [.ask, .request true true, .serve c b, .answer c true, .read true]
    v.phase = .idle ∧ v.current = some c ∧ v.got = w.got ++ [(c, b)] ∧ v.pulled = w.pulled ++ [(c, b)] ∧
    v.conns[c]? = some { x with task := if eow b then .ended else .serving } := by
  obtain ⟨conns, current, phase, pulled, got, failed⟩ := w
  obtain ⟨named, requests, answers, task⟩ := x
  simp only at hp hc hx hn ht he
  subst hp; subst hc; subst hn; subst ht; subst he
  have hl : c < conns.length := (List.getElem?_eq_some_iff.1 hx).1
  have hg : ∀ y : Conn β, (conns.set c y)[c]? = some y := fun y => List.getElem?_set_self hl
  have hm : ∀ (y : Conn β) (f : Conn β → Conn β), (conns.set c y).modify c f = conns.set c (f y) := by
    intro y f
    rw [modify_eq_set _ _ y _ (hg y), List.set_set]
  simp only [World.run, List.foldl_cons, List.foldl_nil, World.step, if_true, stageFor, modify_eq_set _ _ _ _ hx]
  simp only [hg, Conn.serve, hm, List.set_set, Conn.answer]
  simp [hg, hm, Conn.answer, afterAnswer]

/-- A bundle here is its number and whether it is the last. The first request is answered; then the queue takes a bundle and the answer
does not arrive; on a new connection the runner gets the one after it. -/
def lossy : List (TestsConn.Act (Nat × Bool)) :=
  [.ask, .connect true, .name true true, .request true true, .serve 0 (1, false), .answer 0 true, .read true,
   .ask, .request true true, .serve 0 (2, false), .answer 0 false, .read false,
   .connect false, .connect true, .name true true, .request true true, .serve 1 (3, true), .answer 1 true, .read true]

/-- **C117, the full statement is false of the code:** the runner has what it asked for, has not failed, and has been told that these
are all tests; but a bundle that the queue took for it is nowhere. -/
theorem C117_full_statement_fails :
    let w := (World.new (Nat × Bool)).run (·.2) lossy
    w.phase = .idle ∧ w.pulled = [(0, (1, false)), (0, (2, false)), (1, (3, true))] ∧
    w.got = [(0, (1, false)), (1, (3, true))] ∧ w.failed = 2 := by decide

/-- Without the failures everything arrives. -/
example :
    let w := (World.new (Nat × Bool)).run (·.2)
      (lossy.take 7 ++ [.ask, .request true true, .serve 0 (2, true), .answer 0 true, .read true])
    w.phase = .idle ∧ w.failed = 0 ∧ w.got = w.pulled ∧ w.got = [(0, (1, false)), (0, (2, true))] := by decide

/-- A request on a connection that was given up may still be served, after the one that replaced it. -/
example :
    let w := (World.new (Nat × Bool)).run (·.2)
      [.ask, .connect true, .name true true, .request false true, .connect true, .name true true, .request true true,
       .serve 1 (1, false), .serve 0 (2, true), .answer 0 true, .answer 1 true, .read true]
    w.phase = .idle ∧ w.got = [(1, (1, false))] ∧ w.pulled = [(1, (1, false)), (0, (2, true))] := by decide

/-- Three failures: the runner panics. -/
example : ((World.new (Nat × Bool)).run (·.2) [.ask, .connect false, .connect false, .connect false]).phase = .panicked := by decide

/-! ## A worker that is run again -/

/-- Every attempt to get the manifest either ends the matter in one way, or has the worker wait and ask again. -/
theorem C118_attempt (p : Poll β) : (p.Waits ∧ ∀ r, ¬ p.Ends r) ∨ (¬ p.Waits ∧ ∃ r, p.Ends r ∧ ∀ r', p.Ends r' → r' = r) := by
  by_cases hc : p.Connects
  · cases hio : p.io with
    | false =>
      refine .inr ⟨(fun h => by rw [h.2.1] at hio; cases hio), .panic, .inr (.inl ⟨hc, hio, rfl⟩), ?_⟩
      rintro r (⟨h, -⟩ | ⟨-, -, h⟩ | ⟨-, h, -⟩)
      · exact absurd hc h
      · exact h
      · rw [hio] at h; cases h
    | true =>
      cases hr : p.reply with
      | notYetPersisted =>
        refine .inl ⟨⟨hc, hio, hr⟩, ?_⟩
        rintro r (⟨h, -⟩ | ⟨-, h, -⟩ | ⟨-, -, ⟨b, h, -⟩ | ⟨h, -⟩⟩)
        · exact absurd hc h
        · rw [hio] at h; cases h
        · rw [hr] at h; cases h
        · rw [hr] at h; cases h
      | manifest b =>
        refine .inr ⟨(fun h => by rw [h.2.2] at hr; cases hr), .manifest b, .inr (.inr ⟨hc, hio, .inl ⟨b, hr, rfl⟩⟩), ?_⟩
        rintro r (⟨h, -⟩ | ⟨-, h, -⟩ | ⟨-, -, ⟨b', h, h'⟩ | ⟨h, -⟩⟩)
        · exact absurd hc h
        · rw [hio] at h; cases h
        · rw [hr] at h; cases h; exact h'
        · rw [hr] at h; cases h
      | error =>
        refine .inr ⟨(fun h => by rw [h.2.2] at hr; cases hr), .error, .inr (.inr ⟨hc, hio, .inr ⟨hr, rfl⟩⟩), ?_⟩
        rintro r (⟨h, -⟩ | ⟨-, h, -⟩ | ⟨-, -, ⟨b', h, h'⟩ | ⟨-, h'⟩⟩)
        · exact absurd hc h
        · rw [hio] at h; cases h
        · rw [hr] at h; cases h
        · exact h'
  · refine .inr ⟨fun h => hc h.1, .panic, .inl ⟨hc, rfl⟩, ?_⟩
    rintro r (⟨-, h⟩ | ⟨h, -⟩ | ⟨h, -⟩)
    · exact h
    · exact absurd h hc
    · exact absurd h hc

/-- **C118.** A worker that is run again takes the first definite answer among the first twenty, and asks and waits no more. -/
theorem C118_first_answer (polls : Nat → Poll β) (n : Nat) (hn : n < 20) (hw : ∀ k, 1 ≤ k → k ≤ n → (polls k).Waits)
    (r : Fetched β) (hr : (polls (n + 1)).Ends r) :
    fetchRetry polls =
      (r, ((List.range' 1 n).flatMap fun j => [Backoff.Ev.attempt j, .sleep]) ++ [.attempt (n + 1)]) := by
  obtain ⟨last, l1, l2, l3, l4, l5, l6⟩ := C32_retry 20 (fun k => (tryFetch (polls k)).1)
  have hlast : last = n + 1 := by
    rcases Nat.lt_trichotomy last (n + 1) with h | h | h
    · have := l4 ⟨(), (tryFetch_waits _).1 (hw last l1 (by omega))⟩
      omega
    · exact h
    · obtain ⟨e, he⟩ := l3 (n + 1) (by omega) h
      rw [(tryFetch_ends _ _).1 hr] at he; cases he
  subst hlast
  rw [(tryFetch_ends _ _).1 hr] at l5
  rw [Nat.add_sub_cancel] at l6
  unfold fetchRetry
  rw [show Backoff.retryN 20 (fun k => (tryFetch (polls k)).1) = (.ok r, _) from Prod.ext l5 l6]

/-- **C118.** If it is told twenty times, three seconds apart, that the manifest is not there yet, its runner fails. -/
theorem C118_gives_up (polls : Nat → Poll β) (hw : ∀ k, 1 ≤ k → k ≤ 20 → (polls k).Waits) :
    fetchRetry polls =
      (.panic, ((List.range' 1 19).flatMap fun j => [Backoff.Ev.attempt j, .sleep]) ++ [.attempt 20]) := by
  obtain ⟨last, l1, l2, l3, l4, l5, l6⟩ := C32_retry 20 (fun k => (tryFetch (polls k)).1)
  have he := (tryFetch_waits _).1 (hw last l1 l2)
  have hlast : last = 20 := l4 ⟨(), he⟩
  subst hlast
  rw [he] at l5
  unfold fetchRetry
  rw [show Backoff.retryN 20 (fun k => (tryFetch (polls k)).1) = (.error (), _) from Prod.ext l5 l6]

/-- **C118.** Each time, at most five attempts to connect are made, and the first that succeeds is used. -/
theorem C118_connects (p : Poll β) :
    ∃ last, 1 ≤ last ∧ last ≤ 5 ∧ (∀ j, 1 ≤ j → j < last → p.connects j = false) ∧ (p.connects last = false → last = 5) ∧
      (tryFetch p).2 = ((List.range' 1 (last - 1)).flatMap fun j => [Backoff.Ev.attempt j, .sleep]) ++ [.attempt last] := by
  obtain ⟨last, l1, l2, l3, l4, -, l6⟩ := C32_retry 5 (fun k => if p.connects k then Except.ok () else Except.error ())
  refine ⟨last, l1, l2, ?_, ?_, ?_⟩
  · intro j h1 h2
    obtain ⟨e, he⟩ := l3 j h1 h2
    cases h : p.connects j with
    | false => rfl
    | true => rw [h] at he; cases he
  · intro h
    exact l4 ⟨(), by rw [h]; rfl⟩
  · rw [← l6, tryFetch_trace]

/-- The manifest is there at the third attempt, for which two attempts to connect are made. -/
example :
    let late : Nat → Poll Nat := fun k => ⟨fun j => decide (j = 2), true, if k = 3 then .manifest 7 else .notYetPersisted⟩
    (∀ k, 1 ≤ k → k ≤ 2 → (late k).Waits) ∧ (late 3).Ends (.manifest 7) ∧
    (tryFetch (late 3)).2 = [.attempt 1, .sleep, .attempt 2] := by
  refine ⟨?_, .inr (.inr ⟨⟨2, by omega, by omega, rfl⟩, rfl, .inl ⟨7, rfl, rfl⟩⟩), ?_⟩
  · intro k h1 h2
    refine ⟨⟨2, by omega, by omega, rfl⟩, rfl, ?_⟩
    simp only
    rw [if_neg (by omega)]
  · simp [tryFetch, Backoff.retryN, Backoff.retryLoop]

example : (⟨fun _ => false, true, .manifest 7⟩ : Poll Nat).Ends .panic := .inl ⟨(fun ⟨_, _, _, h⟩ => nomatch h), rfl⟩

end Abq.Props
