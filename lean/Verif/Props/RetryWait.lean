import Verif.Spec.RetryWait
import Verif.Props.TestsConn
import Verif.Props.AllRunsResults

/-!
# C152: a worker that is run again waits for about a minute for its tests to be stored, and gets them soon after they are

`world now` is what comes of an attempt begun at `now`.
-/

namespace Abq.Props
open Abq.RetryWait Abq.TestsConn Abq.Spec.RetryWait
variable {β T : Type}

theorem retry_waits (world : Nat → RetryWait.Visit β) (left now : Nat) (h : (world now).Waits) :
    ask world (left + 2) now =
      (now :: (ask world (left + 1) (now + (world now).takes + 3000)).1, (ask world (left + 1) (now + (world now).takes + 3000)).2) := by
  rw [ask, (tryFetch_waits _).1 h]
  dsimp only
  rw [if_neg (by omega)]

theorem retry_last (world : Nat → RetryWait.Visit β) (now : Nat) (h : (world now).Waits) :
    ask world 1 now = ([now], now + (world now).takes, .panic) := by
  rw [ask, (tryFetch_waits _).1 h]
  rfl

theorem retry_ends (world : Nat → RetryWait.Visit β) (left now : Nat) (r : Fetched β) (h : (world now).Ends r) :
    ask world (left + 1) now = ([now], now + (world now).takes, r) := by
  rw [ask, (tryFetch_ends _ _).1 h]

theorem retry_spacing (world : Nat → RetryWait.Visit β) (left : Nat) : ∀ now,
    ((ask world (left + 1) now).1.length ≤ left + 1) ∧
    (ask world (left + 1) now).1[0]? = some now ∧
    (∀ i t t', (ask world (left + 1) now).1[i]? = some t → (ask world (left + 1) now).1[i + 1]? = some t' →
      (world t).Waits ∧ t' = t + (world t).takes + 3000) ∧
    (∃ t, (ask world (left + 1) now).1.getLast? = some t ∧ (ask world (left + 1) now).2.1 = t + (world t).takes ∧
      ((world t).Ends (ask world (left + 1) now).2.2 ∨
        ((world t).Waits ∧ (ask world (left + 1) now).1.length = left + 1 ∧ (ask world (left + 1) now).2.2 = .panic))) := by
  induction left with
  | zero =>
    intro now
    rcases C118_attempt (world now).toPoll with ⟨h, -⟩ | ⟨-, r, h, -⟩
    · rw [retry_last _ _ h]
      exact ⟨Nat.le_refl _, rfl, fun i t t' _ h' => by simp at h', now, rfl, rfl, .inr ⟨h, rfl, rfl⟩⟩
    · rw [retry_ends _ _ _ _ h]
      exact ⟨Nat.le_refl _, rfl, fun i t t' _ h' => by simp at h', now, rfl, rfl, .inl h⟩
  | succ left ih =>
    intro now
    rcases C118_attempt (world now).toPoll with ⟨h, -⟩ | ⟨-, r, h, -⟩
    · rw [retry_waits _ _ _ h]
      obtain ⟨i1, i2, i3, t, i4, i5, i6⟩ := ih (now + (world now).takes + 3000)
      refine ⟨by simp only [List.length_cons]; omega, rfl, ?_, t, ?_, i5, ?_⟩
      · intro i a b ha hb
        cases i with
        | zero =>
          simp only [List.getElem?_cons_zero, Option.some.injEq] at ha
          subst ha
          rw [List.getElem?_cons_succ, i2] at hb
          exact ⟨h, (Option.some.inj hb).symm⟩
        | succ i =>
          rw [List.getElem?_cons_succ] at ha hb
          exact i3 i a b ha hb
      · rw [List.getLast?_cons, i4]
        rfl
      · rcases i6 with i6 | ⟨a, b, c⟩
        · exact .inl i6
        · exact .inr ⟨a, by rw [List.length_cons, b], c⟩
    · rw [retry_ends _ _ _ _ h]
      exact ⟨by simp, rfl, fun i t t' _ h' => by simp at h', now, rfl, rfl, .inl h⟩

/-- C152: the first attempt is made at once; another one, only if the tests are said not to be stored yet, three seconds after its end;
twenty at most. It ends with the first other outcome, when that is there, and fails after twenty. -/
theorem C152_attempts (world : Nat → RetryWait.Visit β) :
    (fetch world).1.length ≤ 20 ∧ (fetch world).1[0]? = some 0 ∧
    (∀ i t t', (fetch world).1[i]? = some t → (fetch world).1[i + 1]? = some t' → (world t).Waits ∧ t' = t + (world t).takes + 3000) ∧
    (∃ t, (fetch world).1.getLast? = some t ∧ (fetch world).2.1 = t + (world t).takes ∧
      ((world t).Ends (fetch world).2.2 ∨
        ((world t).Waits ∧ (fetch world).1.length = 20 ∧ (fetch world).2.2 = .panic))) :=
  retry_spacing world 19 0

/-- C152: attempt number `i`, from 0, is made after at least `3 i` seconds. -/
theorem C152_spread (world : Nat → RetryWait.Visit β) (i t : Nat) (h : (fetch world).1[i]? = some t) : 3000 * i ≤ t := by
  obtain ⟨-, -, h1, -⟩ := C152_attempts world
  induction i generalizing t with
  | zero => omega
  | succ i ih =>
    have hi : i + 1 < (fetch world).1.length := (List.getElem?_eq_some_iff.1 h).1
    have a := ih _ (List.getElem?_eq_getElem (Nat.lt_of_succ_lt hi))
    obtain ⟨-, c⟩ := h1 i _ t (List.getElem?_eq_getElem (Nat.lt_of_succ_lt hi)) h
    omega

/-- C152: a worker that was never told anything but that its tests are not stored yet has waited for 57 seconds at least. -/
theorem C152_patient (world : Nat → RetryWait.Visit β) (h : ∀ t ∈ (fetch world).1, (world t).Waits) :
    (fetch world).2.2 = .panic ∧ (fetch world).1.length = 20 ∧ 57000 ≤ (fetch world).2.1 := by
  obtain ⟨-, -, -, t, h2, h3, h4⟩ := C152_attempts world
  have ht : t ∈ (fetch world).1 := List.mem_of_getLast? h2
  rcases h4 with h4 | ⟨-, h5, h6⟩
  · rcases C118_attempt (world t).toPoll with ⟨-, hn⟩ | ⟨hn, -⟩
    · exact absurd h4 (hn _)
    · exact absurd (h t ht) hn
  · refine ⟨h6, h5, ?_⟩
    rw [List.getLast?_eq_getElem?, h5] at h2
    have := C152_spread world 19 t h2
    omega

/-- C152: let attempts take at most `d`. If from `ready` on, at most 57 seconds after the worker began to ask, nobody is told to wait any
more, the worker has another outcome three seconds and two attempts later, at the latest. -/
theorem C152_soon (world : Nat → RetryWait.Visit β) (ready d : Nat) (hready : ready ≤ 57000) (hd : ∀ t, (world t).takes ≤ d)
    (hr : ∀ t, ready ≤ t → ¬ (world t).Waits) :
    ∃ t r, (fetch world).2 = (t + (world t).takes, r) ∧ (world t).Ends r ∧ t ≤ ready + d + 3000 := by
  obtain ⟨-, h0, h1, t, h2, h3, h4⟩ := C152_attempts world
  rw [List.getLast?_eq_getElem?] at h2
  have hends : (world t).Ends (fetch world).2.2 := by
    rcases h4 with h4 | ⟨h4, h5, -⟩
    · exact h4
    · rw [h5] at h2
      have := C152_spread world 19 t h2
      exact absurd h4 (hr t (by omega))
  refine ⟨t, (fetch world).2.2, by rw [← h3], hends, ?_⟩
  generalize hi : (fetch world).1.length - 1 = i at h2
  cases i with
  | zero =>
    rw [h0] at h2
    cases h2
    omega
  | succ i =>
    have hlt : i + 1 < (fetch world).1.length := (List.getElem?_eq_some_iff.1 h2).1
    obtain ⟨a, b⟩ := h1 i _ t (List.getElem?_eq_getElem (Nat.lt_of_succ_lt hlt)) h2
    have := hd (fetch world).1[i]
    rcases Nat.lt_or_ge (fetch world).1[i] ready with hl | hl
    · omega
    · exact absurd a (hr _ hl)

/-- C152: this is the loop of C118, with times. -/
theorem C152_same_loop (world : Nat → RetryWait.Visit β) :
    (fetchRetry fun k => (world ((fetch world).1.getD (k - 1) 0)).toPoll).1 = (fetch world).2.2 := by
  obtain ⟨hl, h0, h1, t, h2, -, h4⟩ := C152_attempts world
  rw [List.getLast?_eq_getElem?] at h2
  have hpos : 0 < (fetch world).1.length := (List.getElem?_eq_some_iff.1 h0).1
  have hget : ∀ i (hi : i < (fetch world).1.length), (fetch world).1.getD i 0 = (fetch world).1[i] := by
    intro i hi
    rw [List.getD_eq_getElem?_getD, List.getElem?_eq_getElem hi]
    rfl
  have hlast : (fetch world).1.getD ((fetch world).1.length - 1) 0 = t := by
    rw [List.getD_eq_getElem?_getD, h2]
    rfl
  have hwaits : ∀ k, 1 ≤ k → k ≤ (fetch world).1.length - 1 → (world ((fetch world).1.getD (k - 1) 0)).Waits := by
    intro k hk1 hk2
    have hk : k - 1 < (fetch world).1.length := by omega
    rw [hget _ hk]
    exact (h1 (k - 1) _ _ (List.getElem?_eq_getElem hk) (List.getElem?_eq_getElem (show k - 1 + 1 < _ by omega))).1
  rcases h4 with h4 | ⟨h4, h5, h6⟩
  · rw [C118_first_answer _ ((fetch world).1.length - 1) (by omega) hwaits (fetch world).2.2
      (by rw [Nat.add_sub_cancel, hlast]; exact h4)]
  · rw [h6, C118_gives_up]
    intro k hk1 hk2
    rcases Nat.lt_or_ge k 20 with hk | hk
    · exact hwaits k hk1 (by omega)
    · have : k = 20 := by omega
      subst this
      rw [h5] at hlast
      rw [hlast]
      exact h4

/-- The manifest of the run is stored. -/
def isStored : Option (RunState T) → Prop
  | some (.done _ _ _ (.cell true) _) => True
  | _ => False

/-- The manifest of the run was empty. -/
def isEmptyRun : Option (RunState T) → Prop
  | some (.done _ _ _ .emptyManifest _) => True
  | _ => False

theorem stored_change {rid : RunId} {w : Bool} {s s' : Option (RunState T)} {evs : List (Event T)} (h : Runs.Change rid w s evs s')
    (hs : isStored s) : isStored s' := by
  cases h with
  | seen hq =>
    rename_i m h
    cases m with
    | cell b => cases b <;> exact hs
    | emptyManifest => exact hs
  | persisted => exact trivial
  | refl => exact hs
  | _ => exact hs.elim

theorem empty_change {rid : RunId} {w : Bool} {s s' : Option (RunState T)} {evs : List (Event T)} (h : Runs.Change rid w s evs s')
    (hs : isEmptyRun s) : isEmptyRun s' := by
  cases h with
  | seen hq =>
    rename_i m h
    cases m with
    | cell b => cases b <;> exact hs
    | emptyManifest => exact hs
  | refl => exact hs
  | _ => exact hs.elim

theorem stays_stored (pre more : List (RunsAct T)) (rid : RunId) (h : isStored (((Runs.init : Runs T).run pre).get rid)) :
    isStored (((Runs.init : Runs T).run (pre ++ more)).get rid) :=
  Runs.run_proj_induction' (rid := rid) (I := fun L => isStored L.s)
    (fun _ _ _ h hs => by obtain ⟨w, evs, hc, -⟩ := hs.change; exact stored_change hc h) pre more h

theorem stays_empty (pre more : List (RunsAct T)) (rid : RunId) (h : isEmptyRun (((Runs.init : Runs T).run pre).get rid)) :
    isEmptyRun (((Runs.init : Runs T).run (pre ++ more)).get rid) :=
  Runs.run_proj_induction' (rid := rid) (I := fun L => isEmptyRun L.s)
    (fun _ _ _ h hs => by obtain ⟨w, evs, hc, -⟩ := hs.change; exact empty_change hc h) pre more h

theorem retry_answer (σ : Runs T) (rid : RunId) (e : Entity) (s : RunState T) (hs : σ.get rid = some s) :
    Spec.answer σ rid (.retryManifest e) = [.retry rid e (s.retryManifest e).2] := by
  rw [answer_eq _ _ _ (by simp [Req.writes]), hs]
  rfl

theorem stored_iff (σ : Runs T) (rid : RunId) (e : Entity) :
    Spec.answer σ rid (.retryManifest e) = [.retry rid e .fetchFromPersistence] ↔ isStored (σ.get rid) := by
  cases hs : σ.get rid with
  | none =>
    rw [answer_eq _ _ _ (by simp [Req.writes]), hs]
    simp [Runs.reqEff, isStored]
  | some s =>
    rw [retry_answer σ rid e s hs]
    cases s with
    | done x md seen m h =>
      cases m with
      | cell b => cases b <;> simp [RunState.retryManifest, isStored]
      | emptyManifest => simp [RunState.retryManifest, isStored]
    | _ => simp [RunState.retryManifest, isStored]

/-- C152: at the queue. If the manifest of the run is stored at `ready`, at most 57 seconds after a worker that is run again began to ask,
and attempts take at most `d`, the worker has an answer three seconds and two attempts later, at the latest: exactly the tests it was
given when it ran first (unless the run is from the remote store, of which the queue does not know who was given what), or an error. -/
theorem C152_queue (history : Nat → List (RunsAct T)) (rid : RunId) (e : Entity) (inside : Nat → Nat)
    (world : Nat → RetryWait.Visit (List (WorkerTest T))) (hg : Spec.StartWait.Grows history) (hw : FromQueue history rid e inside world)
    (hext : e.tag ≠ .externalClient) (ready d : Nat) (hready : ready ≤ 57000) (hd : ∀ t, (world t).takes ≤ d)
    (h0 : Spec.phaseOf ((Runs.init : Runs T).run (history 0)) rid ≠ none)
    (hs : Spec.answer ((Runs.init : Runs T).run (history ready)) rid (.retryManifest e) = [.retry rid e .fetchFromPersistence]) :
    ∃ t r, (fetch world).2 = (t + (world t).takes, r) ∧ t + (world t).takes ≤ ready + 2 * d + 3000 ∧
      (r = .error ∨
        r = .manifest (Spec.handedTo rid e.tag ((Runs.init : Runs T).run (history (t + inside t))).events) ∨
        (∃ items, r = .manifest items) ∧ ((Runs.init : Runs T).run (history (t + inside t))).events.any (Spec.isLoad rid) = true) := by
  have hst := (stored_iff _ _ _).1 hs
  have known : ∀ t, ∃ s, ((Runs.init : Runs T).run (history t)).get rid = some s := by
    intro t
    obtain ⟨more, hm⟩ := hg 0 t (Nat.zero_le _)
    obtain ⟨p, hp⟩ := Option.ne_none_iff_exists'.1 h0
    obtain ⟨p', h1, -⟩ := C09_phases_only_move_forward (history 0) more rid p hp
    rw [hm] at h1
    unfold Spec.phaseOf at h1
    cases hx : ((Runs.init : Runs T).run (history t)).get rid with
    | none => rw [hx] at h1; cases h1
    | some s => exact ⟨s, rfl⟩
  have stored : ∀ t, ready ≤ t → isStored (((Runs.init : Runs T).run (history t)).get rid) := by
    intro t ht
    obtain ⟨more, hm⟩ := hg ready t ht
    rw [← hm]
    exact stays_stored _ _ _ hst
  have notEmpty : ∀ t, ¬ isEmptyRun (((Runs.init : Runs T).run (history t)).get rid) := by
    intro t he
    have both : ∀ o : Option (RunState T), isStored o → ¬ isEmptyRun o := by
      intro o h1 h2
      cases o with
      | none => exact h1
      | some s =>
        cases s with
        | done x md seen m h =>
          cases m with
          | cell b => exact h2
          | emptyManifest => exact h1
        | _ => exact h1
    rcases Nat.le_total ready t with h | h
    · exact both _ (stored t h) he
    · obtain ⟨more, hm⟩ := hg t ready h
      rw [← hm] at hst
      exact both _ hst (stays_empty _ _ _ he)
  have hwaits : ∀ t, ready ≤ t → ¬ (world t).Waits := by
    intro t ht hwt
    obtain ⟨-, -, -, h⟩ := hw t
    obtain ⟨s, hss⟩ := known (t + inside t)
    have h' := h s hss
    have hf := (stored_iff _ rid e).2 (stored (t + inside t) (by omega))
    rw [retry_answer _ _ _ s hss] at hf
    have hf' : (s.retryManifest e).2 = .fetchFromPersistence := by simpa using hf
    rw [hf'] at h'
    rw [hwt.2.2] at h'
    rcases h' with ⟨items, h', -⟩ | h' <;> cases h'
  obtain ⟨t, r, h1, h2, h3⟩ := C152_soon world ready d hready hd hwaits
  refine ⟨t, r, h1, by have := hd t; omega, ?_⟩
  obtain ⟨-, hc, hio, h⟩ := hw t
  obtain ⟨s, hss⟩ := known (t + inside t)
  have h' := h s hss
  have hrep : ((∃ b, (world t).reply = .manifest b ∧ r = .manifest b) ∨ ((world t).reply = .error ∧ r = .error)) := by
    rcases h2 with ⟨h2, -⟩ | ⟨-, h2, -⟩ | ⟨-, -, h2⟩
    · exact absurd hc h2
    · rw [hio] at h2; cases h2
    · exact h2
  rcases hrep with ⟨b, hb, rfl⟩ | ⟨-, hr⟩
  · right
    cases ha : (s.retryManifest e).2 with
    | manifest items =>
      rw [ha] at h'
      dsimp only at h'
      rw [hb] at h'
      injection h' with h'
      subst h'
      left
      have hne := notEmpty (t + inside t)
      rw [hss] at hne
      have hserving : Spec.phaseOf ((Runs.init : Runs T).run (history (t + inside t))) rid = some .serving := by
        unfold Spec.phaseOf
        rw [hss]
        cases s with
        | hasWork => rfl
        | done x md seen m h =>
          cases m with
          | cell b => cases b <;> cases ha
          | emptyManifest => exact absurd trivial hne
        | _ => cases ha
      have hl := C22_live_retry (history (t + inside t)) rid e hserving hext
      rw [retry_answer _ _ _ s hss, ha] at hl
      simpa using hl
    | fetchFromPersistence =>
      rw [ha] at h'
      rcases h' with ⟨items, h4, h5⟩ | h4
      · rw [hb] at h4
        injection h4 with h4
        subst h4
        have hf : Spec.answer ((Runs.init : Runs T).run (history (t + inside t))) rid (.retryManifest e) =
            [.retry rid e .fetchFromPersistence] := by rw [retry_answer _ _ _ s hss, ha]
        rcases C22_fetch_only_when_stored _ rid e hf with ⟨v, hv⟩ | hl
        · left
          have h6 := (C22_stored_manifest _ rid v hv e.tag).1
          rw [h5 v hv] at h6
          injection h6 with h6
          rw [h6]
        · exact .inr ⟨⟨_, rfl⟩, hl⟩
      · rw [hb] at h4; cases h4
    | notYetPersisted => rw [ha] at h'; dsimp only at h'; rw [hb] at h'; cases h'
    | manifestNeverReceived => rw [ha] at h'; dsimp only at h'; rw [hb] at h'; cases h'
    | runCancelled => rw [ha] at h'; dsimp only at h'; rw [hb] at h'; cases h'
  · exact .inl hr

/-! ## A case -/

/-- The manifest is stored ten seconds after worker 2 is run again. -/
def retryHistory (t : Nat) : List (RunsAct Nat) := if t < 10000 then Sample.pulls else Sample.persisted

/-- Attempts take 5 ms, and are handled after 3 ms. -/
def retryWorld (t : Nat) : RetryWait.Visit (List (WorkerTest Nat)) :=
  { connects := fun _ => true, io := true, takes := 5, reply := if t + 3 < 10000 then .notYetPersisted else .manifest [⟨11, 1⟩] }

theorem retryHistory_grows : Spec.StartWait.Grows retryHistory := by
  intro s t h
  unfold retryHistory
  by_cases h1 : s < 10000
  · rw [if_pos h1]
    by_cases h2 : t < 10000
    · rw [if_pos h2]; exact List.prefix_refl _
    · rw [if_neg h2]; exact List.prefix_append _ _
  · rw [if_neg h1, if_neg (by omega)]
    exact List.prefix_refl _

theorem retryWorld_queue : FromQueue retryHistory "run" (Sample.w 2) (fun _ => 3) retryWorld := by
  intro now
  refine ⟨(by decide : (3:Nat) ≤ 5), ⟨1, by omega, by omega, rfl⟩, rfl, ?_⟩
  intro s hs
  unfold retryHistory at hs ⊢
  unfold retryWorld
  by_cases h : now + 3 < 10000
  · rw [if_pos h] at hs
    rw [show s = _ from (Option.some.inj hs).symm]
    dsimp only
    rw [if_pos h]
    rfl
  · rw [if_neg h] at hs
    rw [show s = _ from (Option.some.inj hs).symm]
    dsimp only
    rw [if_neg h, if_neg h]
    refine .inl ⟨_, rfl, ?_⟩
    have : ∀ p ∈ ((Runs.init : Runs Nat).run Sample.persisted).store, p.2.getPartitionForEntity (Sample.w 2).tag = some [⟨11, 1⟩] := by decide
    exact fun v hv => this _ hv

/-- It has its tests at the fifth attempt, after twelve seconds, as `C152_queue` says. -/
example : fetch retryWorld = ([0, 3005, 6010, 9015, 12020], 12025, .manifest [⟨11, 1⟩]) := by
  have waits : ∀ t, t + 3 < 10000 → (retryWorld t).Waits := fun t h => ⟨⟨1, by omega, by omega, rfl⟩, rfl, if_pos h⟩
  have e1 : ask retryWorld 20 0 = (0 :: (ask retryWorld 19 3005).1, (ask retryWorld 19 3005).2) :=
    retry_waits retryWorld 18 0 (waits 0 (by decide))
  have e2 : ask retryWorld 19 3005 = (3005 :: (ask retryWorld 18 6010).1, (ask retryWorld 18 6010).2) :=
    retry_waits retryWorld 17 3005 (waits 3005 (by decide))
  have e3 : ask retryWorld 18 6010 = (6010 :: (ask retryWorld 17 9015).1, (ask retryWorld 17 9015).2) :=
    retry_waits retryWorld 16 6010 (waits 6010 (by decide))
  have e4 : ask retryWorld 17 9015 = (9015 :: (ask retryWorld 16 12020).1, (ask retryWorld 16 12020).2) :=
    retry_waits retryWorld 15 9015 (waits 9015 (by decide))
  have e5 : ask retryWorld 16 12020 = ([12020], 12025, .manifest [⟨11, 1⟩]) :=
    retry_ends retryWorld 15 12020 _ (.inr (.inr ⟨⟨1, by omega, by omega, rfl⟩, rfl, .inl ⟨_, rfl, rfl⟩⟩))
  rw [fetch, e1, e2, e3, e4, e5]

example : ∃ t r, (fetch retryWorld).2 = (t + 5, r) ∧ t + 5 ≤ 10000 + 2 * 5 + 3000 := by
  obtain ⟨t, r, h1, h2, -⟩ := C152_queue retryHistory "run" (Sample.w 2) (fun _ => 3) retryWorld retryHistory_grows retryWorld_queue
    (by decide) 10000 5 (by decide) (fun _ => Nat.le_refl _) (by decide) rfl
  exact ⟨t, r, h1, h2⟩

/-- A worker that is told to wait for ever gives up, after 57 seconds and twenty attempts. -/
example : (fetch (fun _ => ({ connects := fun _ => true, io := true, takes := 5, reply := .notYetPersisted } : RetryWait.Visit Nat))).2.2 =
    .panic :=
  (C152_patient _ fun _ _ => ⟨⟨1, by omega, by omega, rfl⟩, rfl, rfl⟩).1

end Abq.Props
