import Verif.Proof.Attach
import Verif.Props.AllRunsJoin
import Verif.Props.AllRunsResults
import Verif.Props.WorkerReport

/-!
# C85, C86: attaching to a run, and retrying a worker
-/

namespace Abq.Props
open Abq Abq.Runs Abq.Spec Abq.Attach
variable {T : Type}

/-! ## C85 -/

/-- C85: a worker asks again exactly as long as it is told that the run is unknown, and sleeps 10 ms, then twice as long each time
but at most 3 s; it acts on the first other answer, whatever it is. -/
theorem C85_waits (k : Nat) (a : Reply) (ha : a ≠ .message .runUnknown) (rest : List Reply) :
    waitForContext (List.replicate k (.message .runUnknown) ++ a :: rest) =
      ((List.range k).map (fun i => min (10 * 2 ^ i) 3000), (waitForContext [a]).2) := by
  have h := wait_unknown k 0 (a :: rest)
  rw [wait_answer _ a ha rest] at h
  rw [List.range_eq_range']
  simpa [waitForContext] using h

/-- C85: while it has only been told that the run is unknown it goes on waiting. -/
theorem C85_keeps_waiting (k : Nat) : (waitForContext (List.replicate k (.message .runUnknown))).2 = none := by
  have h := wait_unknown k 0 []
  simp only [List.append_nil, wait] at h
  exact congrArg Prod.snd h

/-- C85: what the queue decides about a worker that attaches is what the worker does: which runners it starts, where they get
their tests, who generates the manifest, or that it starts none. -/
theorem C85_follows (q : Queue) (w n : Nat) (a : Assigned) (ha : a ≠ .runUnknown) :
    ∃ d, (waitForContext [.message (q.message a)]).2 = some d ∧ Follows q w n a (start w n d) := by
  cases a with
  | fresh g d =>
    refine ⟨_, rfl, _, rfl, pool_tags _ _ _ _ _, fun r hr => ?_⟩
    obtain ⟨id, -, -, rfl⟩ := mem_pool hr
    exact ⟨⟨rfl, rfl⟩, rfl, by simp [Kind.someRunnerGenerates]⟩
  | retry d =>
    refine ⟨_, rfl, _, rfl, pool_tags _ _ _ _ _, fun r hr => ?_⟩
    obtain ⟨id, -, -, rfl⟩ := mem_pool hr
    exact ⟨⟨rfl, rfl⟩, rfl, rfl⟩
  | alreadyDone x => exact ⟨_, rfl, rfl⟩
  | cancelled r => exact ⟨_, rfl, rfl⟩
  | fatal => exact ⟨_, rfl, rfl⟩
  | runUnknown => exact (ha rfl).elim

/-- C85: the queue never says that the run is unknown, so a worker never waits here. -/
theorem C85_never_unknown (acts : List (RunsAct T)) (p : JoinParams) (a : Assigned)
    (h : .joined p a ∈ ((init : Runs T).run acts).events) : a ≠ .runUnknown := by
  rintro rfl
  exact C10_no_join_is_unknown acts p h

theorem generators_eq (q : Queue) (num : JoinParams → Nat) (hnum : ∀ p, 0 < num p) (rid : RunId) (ev : Event T) :
    (∀ p a, ev = .joined p a → ∃ w, p.entity.tag = .runner ⟨w, 1⟩) →
    generators q num rid ev =
      match ev with
      | .joined p (.fresh true _) => if p.rid = rid then [(p.entity.tag, p)] else []
      | _ => [] := by
  intro hev
  cases ev with
  | joined p a =>
    obtain ⟨w, hw⟩ := hev p a rfl
    have key : ∀ x y k, ((pool w (num p) x y k).filter (·.generatesManifest)).map (fun r => (r.tag, p)) =
        if k.someRunnerGenerates = true then [(.runner ⟨w, 1⟩, p)] else [] := by
      intro x y k
      have h1 := congrArg (List.map fun t => (t, p)) (generates_pool w (num p) x y k)
      rw [List.map_map] at h1
      have h2 : ((fun t => (t, p)) ∘ fun r : Attach.Runner => r.tag) = fun r => (r.tag, p) := rfl
      rw [h2] at h1
      rw [h1]
      simp only [hnum p, and_true]
      split <;> rfl
    cases a with
    | fresh g d =>
      have h1 : generators q num rid (.joined p (.fresh g d) : Event T) =
          if p.rid = rid then ((pool w (num p) (publicize q.work q.publicIp) (publicize q.results q.publicIp) (.fresh g)).filter
            (·.generatesManifest)).map (fun r => (r.tag, p)) else [] := by
        simp only [generators, hw]
        rfl
      rw [h1, key]
      cases g with
      | true => simp [Kind.someRunnerGenerates, hw]
      | false => simp [Kind.someRunnerGenerates]
    | retry d =>
      have h1 : generators q num rid (.joined p (.retry d) : Event T) =
          if p.rid = rid then ((pool w (num p) (publicize q.work q.publicIp) (publicize q.results q.publicIp) .retryAndContinue).filter
            (·.generatesManifest)).map (fun r => (r.tag, p)) else [] := by
        simp only [generators, hw]
        rfl
      rw [h1, key]
      simp [Kind.someRunnerGenerates]
    | alreadyDone x => simp only [generators, hw]; rfl
    | cancelled r => simp only [generators, hw]; rfl
    | runUnknown => simp only [generators, hw]; rfl
    | fatal => simp only [generators, hw]; rfl
  | _ => rfl

theorem generators_length (q : Queue) (num : JoinParams → Nat) (hnum : ∀ p, 0 < num p) (rid : RunId) (evs : List (Event T))
    (hev : ∀ p a, .joined p a ∈ evs → ∃ w, p.entity.tag = .runner ⟨w, 1⟩) :
    (evs.flatMap (generators q num rid)).length = (evs.filter (asksToGenerate rid)).length := by
  induction evs with
  | nil => rfl
  | cons ev evs ih =>
    rw [List.flatMap_cons, List.length_append, ih fun p a hm => hev p a (List.mem_cons_of_mem _ hm),
      generators_eq q num hnum rid ev (fun p a h => hev p a (h ▸ List.mem_cons_self)), List.filter_cons]
    have : ∀ b : Bool, (if b = true then ev :: evs.filter (asksToGenerate rid) else evs.filter (asksToGenerate rid)).length =
        (if b = true then 1 else 0) + (evs.filter (asksToGenerate rid)).length := by
      intro b; cases b <;> simp [Nat.add_comm]
    rw [this]
    congr 1
    cases ev with
    | joined p a =>
      cases a with
      | fresh g d =>
        cases g with
        | true => by_cases hr : p.rid = rid <;> simp [asksToGenerate, hr]
        | false => simp [asksToGenerate]
      | _ => simp [asksToGenerate]
    | _ => simp [asksToGenerate]

/-- C85: in all the workers of a run, with however many runners each, at most one native runner is started to generate the
manifest. -/
theorem C85_one_generator (q : Queue) (num : JoinParams → Nat) (hnum : ∀ p, 0 < num p) (acts : List (RunsAct T)) (rid : RunId)
    (hev : ∀ p a, .joined p a ∈ ((init : Runs T).run acts).events → ∃ w, p.entity.tag = .runner ⟨w, 1⟩) :
    (((init : Runs T).run acts).events.flatMap (generators q num rid)).length ≤ 1 := by
  rw [generators_length q num hnum rid _ hev]
  exact C10_at_most_one_generates acts rid

/-- C85: and exactly one, if the run exists and was not taken over from the remote store. -/
theorem C85_exactly_one_generator (q : Queue) (num : JoinParams → Nat) (hnum : ∀ p, 0 < num p) (acts : List (RunsAct T))
    (rid : RunId) (hev : ∀ p a, .joined p a ∈ ((init : Runs T).run acts).events → ∃ w, p.entity.tag = .runner ⟨w, 1⟩)
    (h : phaseOf ((init : Runs T).run acts) rid ≠ none) (hl : ((init : Runs T).run acts).events.any (isLoad rid) = false) :
    (((init : Runs T).run acts).events.flatMap (generators q num rid)).length = 1 := by
  rw [generators_length q num hnum rid _ hev]
  rcases C10_exactly_one_unless_loaded acts rid h with h1 | h1
  · exact h1
  · rw [hl] at h1; cases h1

/-- C85: the run states a queue stores say that late workers succeed. -/
theorem C85_stored_exit (acts : List (RunsAct T)) (rid : RunId) (d : RunDoc) (h : (rid, d) ∈ ((init : Runs T).run acts).remote) :
    d.exit = 0 := (exitZero_run acts).2 _ h

example : ((init : Runs Nat).run Sample.persisted).remote.map (fun d => (d.1, d.2.exit)) = [("run", 0)] := rfl


/-- C85: a worker that comes when all the tests of the run have been handed out, and that took no part in it, runs nothing and
succeeds, provided that run states found in the remote store were stored by queues (`C85_stored_exit`). `suite` is the exit code
of no results. -/
theorem C85_late_worker (acts : List (RunsAct T)) (p : JoinParams) (x : Int)
    (h : .joined p (.alreadyDone x) ∈ ((init : Runs T).run acts).events)
    (hl : ∀ d, .loaded p.rid d ∈ ((init : Runs T).run acts).events → d.exit = 0)
    (q : Queue) (w n : Nat) (d : Decision) (hd : (waitForContext [.message (q.message (.alreadyDone x))]).2 = some d)
    (ofPool : List Attach.Runner → Pool.Status) :
    (start w n d).exitCode ofPool (Summary.Tracker.new.suiteResult.1.exitCode) = 0 := by
  obtain ⟨a, b, hab⟩ := List.append_of_mem h
  have hx : x = 0 := by
    rcases C11_exit_code acts a b p x hab with h1 | ⟨d, hd, h1⟩
    · exact h1
    · rw [← h1]
      exact hl d (by rw [hab]; exact List.mem_append_left _ hd)
  subst hx
  cases hd
  rfl

/-- C85: a worker that comes to a cancelled run runs nothing, fails, and says why. -/
theorem C85_cancelled_worker (q : Queue) (w n : Nat) (r : CancelReason) (d : Decision)
    (hd : (waitForContext [.message (q.message (.cancelled r))]).2 = some d) (ofPool : List Attach.Runner → Pool.Status) (suite : Int) :
    (start w n d).status ofPool = some (.error [cancelMessage r]) ∧ (start w n d).exitCode ofPool suite = 101 := by
  cases hd
  exact ⟨rfl, rfl⟩

/-- C85: a worker that cannot reach the queue, or is told of a fatal error, starts nothing and exits with 101. -/
theorem C85_error (q : Queue) (w n : Nat) (a : Reply) (ha : a = .io ∨ a = .message (q.message .fatal)) (d : Decision)
    (hd : (waitForContext [a]).2 = some d) (ofPool : List Attach.Runner → Pool.Status) (suite : Int) :
    start w n d = .panicked ∧ (start w n d).exitCode ofPool suite = 101 := by
  rcases ha with rfl | rfl <;> cases hd <;> exact ⟨rfl, rfl⟩

/-- C85: the reasons give different messages. -/
theorem C85_message_says_why (r r' : CancelReason) (h : cancelMessage r = cancelMessage r') : r = r' := by
  have key : ∀ a b c : String, a ++ b = a ++ c → b = c := by
    intro a b c h
    have := congrArg String.toList h
    simp only [String.toList_append] at this
    exact String.toList_injective (List.append_cancel_left this)
  have h1 := key _ _ _ h
  cases r <;> cases r' <;> first | rfl | exact absurd h1 (by decide)

/-- Two workers join; the first, with three runners, is to generate the manifest, and its first runner does. -/
def attachQueue : Queue := ⟨"203.0.113.7", ⟨"0.0.0.0", 2222⟩, ⟨"0.0.0.0", 3333⟩⟩

example : ((init : Runs Nat).run Sample.persisted).events.flatMap (generators attachQueue (fun _ => 3) "run") =
    [(.runner ⟨1, 1⟩, Sample.jp 1)] := by decide

example : waitForContext [.message .runUnknown, .message .runUnknown, .message (attachQueue.message (.retry false))] =
    ([10, 20], some (.context ⟨"203.0.113.7", 2222⟩ ⟨"203.0.113.7", 3333⟩ .retryAndContinue false)) := by decide

example : .joined (Sample.jp 3) (.alreadyDone 0) ∈
    ((init : Runs Nat).run (Sample.persisted ++ [.join (Sample.jp 3), .resume 1 .notFound true])).events := by
  rw [show ((init : Runs Nat).run (Sample.persisted ++ [.join (Sample.jp 3), .resume 1 .notFound true])).events =
    ((init : Runs Nat).run Sample.persisted).events ++ [.joined (Sample.jp 3) (.alreadyDone 0)] from rfl]
  simp

/-! ## C86 -/

/-- C86, exactly: a worker that is run again with `n` runners while the run goes on is given again all the tests that were given to
its runners 1 to `n`, each as often as before, and no others. -/
theorem C86_retry_exact (acts : List (RunsAct T)) (rid : RunId) (w n : Nat) (ids : Nat → Nat)
    (h : phaseOf ((init : Runs T).run acts) rid = some .serving) :
    ((List.range n).flatMap fun i =>
      retried (answer ((init : Runs T).run acts) rid (.retryManifest ⟨ids i, .runner ⟨w, i + 1⟩⟩))).Perm
      (handedToRunners rid w n ((init : Runs T).run acts).events) := by
  have e : (fun i => retried (answer ((init : Runs T).run acts) rid (.retryManifest ⟨ids i, .runner ⟨w, i + 1⟩⟩))) =
      fun i => handedTo rid (.runner ⟨w, i + 1⟩) ((init : Runs T).run acts).events := by
    funext i
    rw [C22_live_retry acts rid _ h (by simp)]
    rfl
  rw [e]
  exact runners_perm rid w n _

/-- C86 (partial): it is given again all the tests it was given before, each as often as before, precisely if the runners that
were given some are among its runners now. Missing: with fewer runners (`C86_full_statement_fails`). -/
theorem C86_retry_partial (acts : List (RunsAct T)) (rid : RunId) (w n : Nat) (ids : Nat → Nat)
    (h : phaseOf ((init : Runs T).run acts) rid = some .serving) :
    ((List.range n).flatMap fun i =>
      retried (answer ((init : Runs T).run acts) rid (.retryManifest ⟨ids i, .runner ⟨w, i + 1⟩⟩))).Perm
      (handedToWorker rid w ((init : Runs T).run acts).events) ↔
    ∀ e items wr, .pulled rid e items ∈ ((init : Runs T).run acts).events → items ≠ [] → e.tag = .runner wr → wr.worker = w →
      1 ≤ wr.runner ∧ wr.runner ≤ n := by
  have hp := C86_retry_exact acts rid w n ids h
  obtain ⟨-, h2, h3⟩ := runners_all rid w n ((init : Runs T).run acts).events
  rw [← h2]
  constructor
  · intro hq
    exact (hp.symm.trans hq).length_eq
  · intro hl
    rw [h3 hl] at hp
    exact hp

/-- C86, exactly: likewise when it is run again after all tests were handed out, from the manifest in storage. -/
theorem C86_retry_stored_exact (acts : List (RunsAct T)) (rid : RunId) (v : ManifestView (WorkerTest T))
    (h : (rid, v) ∈ ((init : Runs T).run acts).store) (w n : Nat) :
    ((List.range n).flatMap fun i => (v.getPartitionForEntity (.runner ⟨w, i + 1⟩)).getD []).Perm
      (handedToRunners rid w n ((init : Runs T).run acts).events) := by
  have e : (fun i => (v.getPartitionForEntity (.runner ⟨w, i + 1⟩)).getD []) =
      fun i => handedTo rid (.runner ⟨w, i + 1⟩) ((init : Runs T).run acts).events := by
    funext i
    rw [(C22_stored_manifest acts rid v h _).1]
    rfl
  rw [e]
  exact runners_perm rid w n _

example : ((init : Runs Nat).run Sample.persisted).store.map (fun p => (p.1, handedToRunners "run" 2 1
    ((init : Runs Nat).run Sample.persisted).events)) = [("run", [⟨11, 1⟩])] := rfl


/-- C86 (partial): likewise for all the tests, from the manifest in storage. -/
theorem C86_retry_stored_partial (acts : List (RunsAct T)) (rid : RunId) (v : ManifestView (WorkerTest T))
    (h : (rid, v) ∈ ((init : Runs T).run acts).store) (w n : Nat) :
    ((List.range n).flatMap fun i => (v.getPartitionForEntity (.runner ⟨w, i + 1⟩)).getD []).Perm
      (handedToWorker rid w ((init : Runs T).run acts).events) ↔
    ∀ e items wr, .pulled rid e items ∈ ((init : Runs T).run acts).events → items ≠ [] → e.tag = .runner wr → wr.worker = w →
      1 ≤ wr.runner ∧ wr.runner ≤ n := by
  have hp := C86_retry_stored_exact acts rid v h w n
  obtain ⟨-, h2, h3⟩ := runners_all rid w n ((init : Runs T).run acts).events
  rw [← h2]
  constructor
  · intro hq
    exact (hp.symm.trans hq).length_eq
  · intro hl
    rw [h3 hl] at hp
    exact hp

/-- Worker 1 has two runners, which take a test each. -/
def twoRunners : List (RunsAct Nat) :=
  [.join (Sample.jp 1), .resume 0 .notFound true, .request "run" (.addManifest [(10, 0), (11, 0), (12, 0)] "md"),
   .request "run" (.nextWork ⟨1, .runner ⟨1, 1⟩⟩), .resume 1 .notFound true,
   .request "run" (.nextWork ⟨2, .runner ⟨1, 2⟩⟩), .resume 2 .notFound true]

/-- C86, the full statement is false of the code: a worker that is run again with fewer runners is not given again the tests of the
runners it no longer has, and nobody else is: they were handed out. -/
theorem C86_full_statement_fails :
    phaseOf ((init : Runs Nat).run twoRunners) "run" = some .serving ∧
    handedToWorker "run" 1 ((init : Runs Nat).run twoRunners).events = [⟨10, 1⟩, ⟨11, 1⟩] ∧
    ((List.range 2).flatMap fun i => retried (answer ((init : Runs Nat).run twoRunners) "run" (.retryManifest ⟨i, .runner ⟨1, i + 1⟩⟩))) =
      [⟨10, 1⟩, ⟨11, 1⟩] ∧
    ((List.range 1).flatMap fun i => retried (answer ((init : Runs Nat).run twoRunners) "run" (.retryManifest ⟨i, .runner ⟨1, i + 1⟩⟩))) =
      [⟨10, 1⟩] := by
  refine ⟨rfl, rfl, rfl, rfl⟩

/-- With one runner it is given the test of its first runner, with three those of both. -/
example : handedToRunners "run" 1 1 ((init : Runs Nat).run twoRunners).events = [⟨10, 1⟩] ∧
    handedToRunners "run" 1 3 ((init : Runs Nat).run twoRunners).events = [⟨10, 1⟩, ⟨11, 1⟩] := ⟨rfl, rfl⟩

end Abq.Props
