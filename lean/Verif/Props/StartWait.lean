import Verif.Spec.StartWait
import Verif.Props.AllRuns

/-!
# C150: a runner that waits for the manifest starts soon after it is there, and does not keep the queue busy

`world now` is what comes of a request begun at `now`.
-/

namespace Abq.Props
open Abq.StartWait Abq.Backoff Abq.Spec.StartWait
variable {Ctx T : Type}

theorem ask_waits (world : Nat → Visit Ctx) (n now decay : Nat) (h : (world now).reply = .waitingForManifest) :
    ask world (n + 1) now decay =
      (now :: (ask world n (now + (world now).takes + decay) (nextDecay 3000 decay)).1,
        (ask world n (now + (world now).takes + decay) (nextDecay 3000 decay)).2) := by
  rw [ask, h]

theorem ask_ends (world : Nat → Visit Ctx) (n now decay : Nat) (h : (world now).reply ≠ .waitingForManifest) :
    ask world (n + 1) now decay = ([now], some (now + (world now).takes, (world now).reply)) := by
  rw [ask]
  cases hr : (world now).reply with
  | waitingForManifest => exact absurd hr h
  | ioError => rfl
  | initContext c => rfl
  | runAlreadyCompleted c => rfl

theorem nextDecay_eq (k : Nat) : nextDecay 3000 (min (10 * 2 ^ k) 3000) = min (10 * 2 ^ (k + 1)) 3000 := by
  have h : 10 * 2 ^ (k + 1) = 2 * (10 * 2 ^ k) := by rw [Nat.pow_succ]; omega
  rw [h]
  unfold nextDecay
  dsimp only
  split <;> omega

theorem ask_spacing (world : Nat → Visit Ctx) (n : Nat) : ∀ now k,
    (0 < n → (ask world n now (min (10 * 2 ^ k) 3000)).1[0]? = some now) ∧
    (∀ i t t', (ask world n now (min (10 * 2 ^ k) 3000)).1[i]? = some t →
      (ask world n now (min (10 * 2 ^ k) 3000)).1[i + 1]? = some t' →
      (world t).reply = .waitingForManifest ∧ t' = t + (world t).takes + min (10 * 2 ^ (k + i)) 3000) ∧
    (∀ at' r, (ask world n now (min (10 * 2 ^ k) 3000)).2 = some (at', r) →
      ∃ t, (ask world n now (min (10 * 2 ^ k) 3000)).1.getLast? = some t ∧ at' = t + (world t).takes ∧ r = (world t).reply ∧
        r ≠ .waitingForManifest) ∧
    ((ask world n now (min (10 * 2 ^ k) 3000)).2 = none →
      (ask world n now (min (10 * 2 ^ k) 3000)).1.length = n ∧
      ∀ t ∈ (ask world n now (min (10 * 2 ^ k) 3000)).1, (world t).reply = .waitingForManifest) := by
  induction n with
  | zero =>
    intro now k
    simp [ask]
  | succ n ih =>
    intro now k
    by_cases h : (world now).reply = .waitingForManifest
    · rw [ask_waits _ _ _ _ h, nextDecay_eq]
      obtain ⟨i1, i2, i3, i4⟩ := ih (now + (world now).takes + min (10 * 2 ^ k) 3000) (k + 1)
      refine ⟨fun _ => rfl, ?_, ?_, ?_⟩
      · intro i t t' ht ht'
        cases i with
        | zero =>
          simp only [List.getElem?_cons_zero, Option.some.injEq] at ht
          subst ht
          refine ⟨h, ?_⟩
          rw [List.getElem?_cons_succ] at ht'
          have hn : 0 < n := by
            cases n with
            | zero => simp [ask] at ht'
            | succ n => omega
          rw [i1 hn] at ht'
          injection ht' with ht'
          rw [← ht', Nat.add_zero]
        | succ i =>
          rw [List.getElem?_cons_succ] at ht ht'
          have := i2 i t t' ht ht'
          rw [show k + (i + 1) = k + 1 + i by omega]
          exact this
      · intro at' r hr
        obtain ⟨t, h1, h2⟩ := i3 at' r hr
        refine ⟨t, ?_, h2⟩
        rw [List.getLast?_cons, h1]
        rfl
      · intro hnone
        obtain ⟨h1, h2⟩ := i4 hnone
        exact ⟨by rw [List.length_cons, h1], List.forall_mem_cons.2 ⟨h, h2⟩⟩
    · rw [ask_ends _ _ _ _ h]
      refine ⟨fun _ => rfl, ?_, ?_, by simp⟩
      · intro i t t' _ ht'
        simp at ht'
      · intro at' r hr
        simp only [Option.some.injEq, Prod.mk.injEq] at hr
        exact ⟨now, rfl, hr.1.symm, hr.2.symm, hr.2 ▸ h⟩

/-- C150: the first request is made at once. The next one is made, only if the answer is to wait, 10 ms after it, then 20 ms and so on, at
most 3 s. The loop ends with the first other answer, when it is there, and not before. -/
theorem C150_requests (world : Nat → Visit Ctx) (n : Nat) :
    (0 < n → (firstRequests world n).1[0]? = some 0) ∧
    (∀ i t t', (firstRequests world n).1[i]? = some t → (firstRequests world n).1[i + 1]? = some t' →
      (world t).reply = .waitingForManifest ∧ t' = t + (world t).takes + min (10 * 2 ^ i) 3000) ∧
    (∀ ended r, (firstRequests world n).2 = some (ended, r) →
      ∃ t, (firstRequests world n).1.getLast? = some t ∧ ended = t + (world t).takes ∧ r = (world t).reply ∧
        r ≠ .waitingForManifest) ∧
    ((firstRequests world n).2 = none →
      (firstRequests world n).1.length = n ∧ ∀ t ∈ (firstRequests world n).1, (world t).reply = .waitingForManifest) := by
  have := ask_spacing world n 0 0
  simpa [firstRequests] using this

/-- C150: this is the loop of C61, with times. -/
theorem C150_same_loop (world : Nat → Visit Ctx) (n : Nat) :
    (getInitContext ((firstRequests world n).1.map fun t => (world t).reply)).1 = (firstRequests world n).2.map (·.2) := by
  have key : ∀ n now decay, (pollLoop 3000 decay ((ask world n now decay).1.map fun t => (world t).reply)).1 =
      (ask world n now decay).2.map (·.2) := by
    intro n
    induction n with
    | zero => intro now decay; rfl
    | succ n ih =>
      intro now decay
      by_cases h : (world now).reply = .waitingForManifest
      · rw [ask_waits _ _ _ _ h]
        simp only [List.map_cons, h, pollLoop]
        exact ih _ _
      · rw [ask_ends _ _ _ _ h]
        simp only [List.map_cons, List.map_nil, Option.map_some]
        cases hr : (world now).reply with
        | waitingForManifest => exact absurd hr h
        | ioError => rfl
        | initContext c => rfl
        | runAlreadyCompleted c => rfl
  exact key n 0 10

theorem slept (world : Nat → Visit Ctx) (n i t : Nat) (h : (firstRequests world n).1[i]? = some t) :
    min (10 * 2 ^ i) 3000 ≤ t + 10 ∧ 3000 * (i + 1) ≤ t + 24890 := by
  obtain ⟨h0, h1, -, -⟩ := C150_requests world n
  have key : ∀ i t, (firstRequests world n).1[i]? = some t →
      min (10 * 2 ^ i) 3000 ≤ t + 10 ∧ (9 ≤ i → 5110 + 3000 * (i - 9) ≤ t) := by
    intro i
    induction i with
    | zero => intro t _; exact ⟨by omega, by omega⟩
    | succ i ih =>
      intro t ht
      have hi : i + 1 < (firstRequests world n).1.length := (List.getElem?_eq_some_iff.1 ht).1
      obtain ⟨a, b⟩ := ih _ (List.getElem?_eq_getElem (Nat.lt_of_succ_lt hi))
      obtain ⟨-, c⟩ := h1 i _ t (List.getElem?_eq_getElem (Nat.lt_of_succ_lt hi)) ht
      have hp : 10 * 2 ^ (i + 1) = 2 * (10 * 2 ^ i) := by rw [Nat.pow_succ]; omega
      refine ⟨by rw [hp]; omega, ?_⟩
      intro h9
      by_cases h8 : i = 8
      · subst h8
        omega
      · have h9' : 9 ≤ i := by omega
        have h3 : 3000 ≤ 10 * 2 ^ i := by
          have : 2 ^ 9 ≤ 2 ^ i := Nat.pow_le_pow_right (by omega) h9'
          omega
        have := b h9'
        omega
  obtain ⟨a, b⟩ := key i t h
  refine ⟨a, ?_⟩
  by_cases h9 : 9 ≤ i
  · have := b h9
    omega
  · have : i = 0 ∨ i = 1 ∨ i = 2 ∨ i = 3 ∨ i = 4 ∨ i = 5 ∨ i = 6 ∨ i = 7 ∨ i = 8 := by omega
    rcases this with rfl | rfl | rfl | rfl | rfl | rfl | rfl | rfl | rfl <;> omega

/-- C150: however long the manifest takes, and however fast the queue answers, up to any time `t` a waiting runner makes at most
`(t + 24890) / 3000` requests: eight, and one more every three seconds. -/
theorem C150_few (world : Nat → Visit Ctx) (n i t : Nat) (h : (firstRequests world n).1[i]? = some t) :
    3000 * (i + 1) ≤ t + 24890 := (slept world n i t h).2

/-- C150: let requests take at most `d`. If nobody is told to wait any more from `ready` on, the runner has its answer after another two
requests and a pause, which is at most 3 s and at most 10 ms more than the time waited by then. -/
theorem C150_soon (world : Nat → Visit Ctx) (ready d : Nat) (hd : ∀ t, (world t).takes ≤ d)
    (hr : ∀ t, ready ≤ t → (world t).reply ≠ .waitingForManifest) :
    ∃ n t, (firstRequests world n).2 = some (t + (world t).takes, (world t).reply) ∧ (world t).reply ≠ .waitingForManifest ∧
      t ≤ ready + d + min (ready + 10) 3000 := by
  have key : ∀ m k now, ready - now ≤ m → min (10 * 2 ^ k) 3000 ≤ now + 10 → now ≤ ready + d + min (ready + 10) 3000 →
      ∃ n t, (ask world n now (min (10 * 2 ^ k) 3000)).2 = some (t + (world t).takes, (world t).reply) ∧
        (world t).reply ≠ .waitingForManifest ∧ t ≤ ready + d + min (ready + 10) 3000 := by
    intro m
    induction m with
    | zero =>
      intro k now hm hk hb
      have := hr now (by omega)
      exact ⟨1, now, by rw [ask_ends _ _ _ _ this], this, hb⟩
    | succ m ih =>
      intro k now hm hk hb
      by_cases h : (world now).reply = .waitingForManifest
      · have hlt : now < ready := by
          rcases Nat.lt_or_ge now ready with h' | h'
          · exact h'
          · exact absurd h (hr now h')
        have hdn := hd now
        have hpos : 0 < 2 ^ k := Nat.two_pow_pos k
        have hp : 10 * 2 ^ (k + 1) = 2 * (10 * 2 ^ k) := by rw [Nat.pow_succ]; omega
        obtain ⟨n, t, h1, h2, h3⟩ := ih (k + 1) (now + (world now).takes + min (10 * 2 ^ k) 3000) (by omega) (by rw [hp]; omega) (by omega)
        refine ⟨n + 1, t, ?_, h2, h3⟩
        rw [ask_waits _ _ _ _ h, nextDecay_eq]
        exact h1
      · exact ⟨1, now, by rw [ask_ends _ _ _ _ h], h, hb⟩
  exact key ready 0 0 (by omega) (by omega) (by omega)

/-- C150: at the queue. Once the run has its manifest, or is over or cancelled, at `ready`, each of its waiting runners is told so within
the time of two requests and a pause of at most 3 s; and no later than in twice the time it has waited, but for 10 ms and the requests. -/
theorem C150_queue (history : Nat → List (RunsAct T)) (rid : RunId) (e : Entity) (takes inside : Nat → Nat) (world : Nat → Visit String)
    (hg : Grows history) (hw : FromQueue history rid e takes inside world) (ready d : Nat) (hd : ∀ t, takes t ≤ d)
    (h0 : Spec.phaseOf ((Runs.init : Runs T).run (history 0)) rid ≠ none) (p : Spec.Phase)
    (hp : Spec.phaseOf ((Runs.init : Runs T).run (history ready)) rid = some p) (hp' : p ≠ .waiting) :
    ∃ n t s, (firstRequests world n).2 = some (t + takes t, told (RunState.initMetadata s e).2) ∧
      ((Runs.init : Runs T).run (history (t + inside t))).get rid = some s ∧ Spec.phase s ≠ .waiting ∧
      t + takes t ≤ ready + 2 * d + min (ready + 10) 3000 := by
  have later : ∀ a t p, a ≤ t → Spec.phaseOf ((Runs.init : Runs T).run (history a)) rid = some p →
      ∃ s, ((Runs.init : Runs T).run (history t)).get rid = some s ∧ p.later (Spec.phase s) = true := by
    intro a t p ht hp
    obtain ⟨more, hm⟩ := hg a t ht
    obtain ⟨p', h1, h2⟩ := C09_phases_only_move_forward (history a) more rid p hp
    rw [hm] at h1
    unfold Spec.phaseOf at h1
    cases hs : ((Runs.init : Runs T).run (history t)).get rid with
    | none => rw [hs] at h1; cases h1
    | some s =>
      rw [hs] at h1
      injection h1 with h1
      exact ⟨s, rfl, h1 ▸ h2⟩
  have waits : ∀ s : RunState T, told (s.initMetadata e).2 = .waitingForManifest ↔ Spec.phase s = .waiting := by
    intro s
    cases s with
    | waiting ws b st h => exact ⟨fun _ => rfl, fun _ => rfl⟩
    | hasWork q b md act h => exact ⟨fun h => (nomatch h), fun h => (nomatch h)⟩
    | cancelled r => exact ⟨fun h => (nomatch h), fun h => (nomatch h)⟩
    | done x md seen m h =>
      refine ⟨fun h' => ?_, fun h => (nomatch h)⟩
      unfold RunState.initMetadata at h'
      dsimp only at h'
      split at h' <;> exact (nomatch h')
  obtain ⟨n, t, h1, h2, h3⟩ := C150_soon world ready d (fun t => (hw t).2.1 ▸ hd t) (by
    intro t ht
    obtain ⟨s, hs, hl⟩ := later ready (t + inside t) p (by omega) hp
    rw [(hw t).2.2 s hs]
    intro h
    rw [(waits s).1 h] at hl
    cases p <;> first | exact hp' rfl | cases hl)
  obtain ⟨q, hq⟩ := Option.ne_none_iff_exists'.1 h0
  obtain ⟨s, hs, -⟩ := later 0 (t + inside t) q (by omega) hq
  have hr := (hw t).2.2 s hs
  refine ⟨n, t, s, ?_, hs, ?_, ?_⟩
  · rw [h1, hr, (hw t).2.1]
  · intro h
    exact h2 (hr.trans ((waits s).2 h))
  · have := hd t
    omega

/-! ## A case -/

/-- The manifest comes after a minute. -/
def startHistory (t : Nat) : List (RunsAct Nat) := if t < 60000 then Sample.joins else Sample.serving

/-- Requests take 5 ms, and are handled after 3 ms. -/
def startWorld (t : Nat) : Visit String := ⟨5, if t + 3 < 60000 then .waitingForManifest else .initContext "md"⟩

theorem startHistory_grows : Grows startHistory := by
  intro s t h
  unfold startHistory
  by_cases h1 : s < 60000
  · rw [if_pos h1]
    by_cases h2 : t < 60000
    · rw [if_pos h2]; exact List.prefix_refl _
    · rw [if_neg h2]; exact List.prefix_append _ _
  · rw [if_neg h1, if_neg (by omega)]
    exact List.prefix_refl _

theorem startWorld_queue : FromQueue startHistory "run" (Sample.w 2) (fun _ => 5) (fun _ => 3) startWorld := by
  intro now
  refine ⟨(by decide : (3:Nat) ≤ 5), rfl, ?_⟩
  intro s hs
  unfold startHistory at hs
  unfold startWorld
  by_cases h : now + 3 < 60000
  · rw [if_pos h] at hs
    rw [show s = _ from (Option.some.inj hs).symm]
    dsimp only
    rw [if_pos h]
    rfl
  · rw [if_neg h] at hs
    rw [show s = _ from (Option.some.inj hs).symm]
    dsimp only
    rw [if_neg h]
    rfl

/-- The second worker has the answer after at most 63 seconds. -/
example : ∃ n ended, (firstRequests startWorld n).2 = some (ended, .initContext "md") ∧ ended ≤ 63010 := by
  obtain ⟨n, t, s, h1, h2, h3, h4⟩ := C150_queue startHistory "run" (Sample.w 2) (fun _ => 5) (fun _ => 3) startWorld startHistory_grows
    startWorld_queue 60000 5 (fun _ => by omega) (by decide) .serving (by decide) (by decide)
  refine ⟨n, t + 5, ?_, by omega⟩
  rw [h1]
  have hs : (startHistory (t + 3)) = Sample.serving := by
    unfold startHistory
    by_cases h : t + 3 < 60000
    · unfold startHistory at h2
      rw [if_pos h] at h2
      rw [show s = _ from (Option.some.inj h2).symm] at h3
      exact absurd rfl h3
    · rw [if_neg h]
  rw [hs] at h2
  rw [show s = _ from (Option.some.inj h2).symm]
  rfl

/-- It is the twenty-ninth request; the first ten are made in little more than five seconds. -/
example : (firstRequests startWorld 100).1.length = 29 ∧ ((firstRequests startWorld 100).1[9]?) = some 5155 ∧
    (firstRequests startWorld 100).2 = some (62255, .initContext "md") := by decide

end Abq.Props
