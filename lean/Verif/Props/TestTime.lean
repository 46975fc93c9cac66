import Verif.Spec.TestTime

/-!
# C151: a native runner has as long as it was given, and no longer

`limit` is `--inactivity-timeout-seconds` for a test, `--startup-timeout-seconds` for the start of a native runner.
-/

namespace Abq.Props
open Abq.TestTime Abq.NativeRunner Abq.Spec.TestTime

theorem answer_some (now : Nat) (hs : List Heard) (n : Nat) (ok : Bool) (h : answer now hs = some (n, ok)) :
    ∃ parts x later, hs = parts ++ x :: later ∧ (∀ p ∈ parts, p.what = some .increment) ∧
      n = now + together parts + x.after ∧ (ok = true → x.what = some .results) ∧
      (ok = false → x.what ≠ some .increment ∧ x.what ≠ some .results) := by
  induction hs generalizing now with
  | nil => cases h
  | cons y ys ih =>
    rw [answer] at h
    split at h
    · rename_i hy
      obtain ⟨parts, x, later, h1, h2, h3, h4, h5⟩ := ih _ h
      refine ⟨y :: parts, x, later, by rw [h1]; rfl, ?_, ?_, h4, h5⟩
      · intro p hp
        rcases List.mem_cons.1 hp with hp | hp
        · rw [hp]; exact hy
        · exact h2 p hp
      · rw [h3, together]; omega
    · rename_i hy
      cases h
      exact ⟨[], y, ys, rfl, (fun _ h => nomatch h), by simp [together], fun _ => hy, (fun h => nomatch h)⟩
    · rename_i hy1 hy2
      cases h
      exact ⟨[], y, ys, rfl, (fun _ h => nomatch h), by simp [together], (fun h => nomatch h), fun _ => ⟨hy1, hy2⟩⟩

theorem answer_parts (parts : List Heard) (hp : ∀ p ∈ parts, p.what = some .increment) (rest : List Heard) (now : Nat) :
    answer now (parts ++ rest) = answer (now + together parts) rest := by
  induction parts generalizing now with
  | nil => rfl
  | cons y ys ih =>
    rw [List.cons_append, answer, hp y List.mem_cons_self]
    dsimp only
    rw [ih (fun p h => hp p (List.mem_cons_of_mem _ h)), together]
    congr 1; omega

theorem help_delivered (t : Test) (n : Nat) : help t = some (n, .handed) ↔ Delivered t n := by
  constructor
  · intro h
    rw [help] at h
    split at h
    · cases h
    · cases h
    · rename_i w hw
      split at h
      · cases h
      · cases h
      · rename_i m hm
        obtain ⟨parts, x, later, h1, h2, h3, h4, -⟩ := answer_some _ _ _ _ hm
        cases hr : t.room with
        | none => rw [hr] at h; cases h
        | some r =>
          rw [hr] at h
          cases h
          exact ⟨m, r, ⟨w, parts, x, later, hw, h1, h2, h4 rfl, h3⟩, hr, rfl⟩
  · rintro ⟨m, r, ⟨w, parts, x, later, hw, h1, h2, h3, h4⟩, hr, rfl⟩
    rw [help, hw, h1, hr]
    dsimp only
    rw [answer_parts parts h2, answer, h3, h4]
    rfl

theorem help_fails (t : Test) (n : Nat) : help t = some (n, .broken) ↔ Fails t n := by
  constructor
  · intro h
    rw [help] at h
    split at h
    · cases h
    · rename_i hw
      cases h
      exact Or.inl hw
    · rename_i w hw
      split at h
      · cases h
      · rename_i m hm
        cases h
        obtain ⟨parts, x, later, h1, h2, h3, -, h5⟩ := answer_some _ _ _ _ hm
        exact Or.inr ⟨w, parts, x, later, hw, h1, h2, (h5 rfl).1, (h5 rfl).2, h3⟩
      · cases hr : t.room <;> rw [hr] at h <;> cases h
  · rintro (hw | ⟨w, parts, x, later, hw, h1, h2, h3, h4, h5⟩)
    · rw [help, hw]
    · rw [help, hw, h1]
      dsimp only
      rw [answer_parts parts h2, answer, h5]
      split
      · rename_i heq
        split at heq
        · rename_i h; exact absurd h h3
        · cases heq
        · cases heq
      · rename_i heq
        split at heq
        · rename_i h; exact absurd h h3
        · cases heq
        · cases heq; rfl
      · rename_i heq
        split at heq
        · rename_i h; exact absurd h h3
        · rename_i h; exact absurd h h4
        · cases heq

theorem help_no_limit (t : Test) (n : Nat) : help t ≠ some (n, .timedOut) := by
  intro h
  rw [help] at h
  split at h
  · cases h
  · cases h
  · split at h
    · cases h
    · cases h
    · cases hr : t.room <;> rw [hr] at h <;> cases h

theorem seen_iff (limit : Nat) (tie : Bool) (n : Nat) : seen limit tie n = true ↔ n < limit ∨ (n = limit ∧ tie = true) := by
  simp [seen]

/-- A test that is answered in two parts, after 2 and 7, the results of which wait for 1. -/
def twoParts : Test := ⟨.done 1, [⟨1, some .increment⟩, ⟨5, some .results⟩, ⟨3, none⟩], some 1⟩

/-- A test on which the native runner hangs up after 4. -/
def hangsUp : Test := ⟨.done 0, [⟨4, none⟩], some 0⟩

/-- C151: a test is over when its time is up, whatever the native runner does or does not do. -/
theorem C151_no_longer (limit : Nat) (tie : Bool) (t : Test) : (one limit tie t).1 ≤ limit := by
  rw [one]
  split
  · split
    · rename_i h
      rcases (seen_iff ..).1 h with h | h
      · exact Nat.le_of_lt h
      · exact Nat.le_of_eq h.1
    · exact Nat.le_refl _
  · exact Nat.le_refl _

example : one 10 true twoParts = (8, .handed) ∧ one 5 true twoParts = (5, .timedOut) ∧ one 10 true hangsUp = (4, .broken) ∧
    one 8 true twoParts = (8, .handed) ∧ one 8 false twoParts = (8, .timedOut) := by decide

/-- C151: what becomes of a test. Missing for the full statement: that the time is that of the native runner alone. It is that until its
results are with the sender of results. -/
theorem C151_test_partial (limit : Nat) (tie : Bool) (t : Test) (n : Nat) :
    (Delivered t n → n < limit → one limit tie t = (n, .handed)) ∧
    (Fails t n → n < limit → one limit tie t = (n, .broken)) ∧
    (one limit tie t = (n, .handed) → Delivered t n ∧ n ≤ limit) ∧
    (one limit tie t = (n, .broken) → Fails t n ∧ n ≤ limit) ∧
    (one limit tie t = (n, .timedOut) → n = limit ∧ ∀ m, Delivered t m ∨ Fails t m → limit ≤ m) := by
  have hle := C151_no_longer limit tie t
  refine ⟨?_, ?_, ?_, ?_, ?_⟩
  · intro h hn
    rw [one, (help_delivered t n).2 h]
    dsimp only
    rw [if_pos ((seen_iff ..).2 (Or.inl hn))]
  · intro h hn
    rw [one, (help_fails t n).2 h]
    dsimp only
    rw [if_pos ((seen_iff ..).2 (Or.inl hn))]
  · intro h
    rw [h] at hle
    refine ⟨(help_delivered t n).1 ?_, hle⟩
    rw [one] at h
    split at h
    · rename_i heq
      split at h
      · rw [heq, h]
      · cases h
    · cases h
  · intro h
    rw [h] at hle
    refine ⟨(help_fails t n).1 ?_, hle⟩
    rw [one] at h
    split at h
    · rename_i heq
      split at h
      · rw [heq, h]
      · cases h
    · cases h
  · intro h
    have key : ∀ m e, help t = some (m, e) → limit ≤ m := by
      intro m e hm
      rw [one, hm] at h
      dsimp only at h
      split at h
      · cases h
        exact absurd hm (help_no_limit t _)
      · rename_i hs
        have : ¬ (m < limit ∨ m = limit ∧ tie = true) := fun x => hs ((seen_iff ..).2 x)
        omega
    refine ⟨?_, ?_⟩
    · rw [one] at h
      split at h
      · rename_i heq
        split at h
        · cases h
          exact absurd heq (help_no_limit t _)
        · cases h; rfl
      · cases h; rfl
    · rintro m (hm | hm)
      · exact key m _ ((help_delivered t m).2 hm)
      · exact key m _ ((help_fails t m).2 hm)

example : Delivered twoParts 8 ∧ Fails hangsUp 4 :=
  ⟨⟨7, 1, ⟨1, [⟨1, some .increment⟩], _, _, rfl, rfl, by decide, rfl, rfl⟩, rfl, rfl⟩,
    Or.inr ⟨0, [], _, _, rfl, rfl, by decide, by decide, by decide, rfl⟩⟩

/-- Parts of the results do not make the time any longer. -/
example : one 10 true ⟨.done 0, [⟨4, some .increment⟩, ⟨4, some .increment⟩, ⟨4, some .results⟩], some 0⟩ = (10, .timedOut) := by decide

/-- C151: the tests of a runner. Each is begun as soon as it is there and the one before it is over; no test lasts longer than the limit;
all but the last that is begun were handed on; and if all the results are delivered in time, all are handed on. -/
theorem C151_tests_partial (limit now : Nat) (us : List Turn) :
    (tests limit now us).length ≤ us.length ∧
    (∀ (i b e : Nat) (r : End) (u : Turn), (tests limit now us)[i]? = some (b, e, r) → us[i]? = some u →
      (e - b, r) = one limit u.tie u.test ∧ b ≤ e ∧ e ≤ b + limit ∧ (r ≠ .handed → (tests limit now us).length = i + 1) ∧
      (∀ b' e' r' u', (tests limit now us)[i + 1]? = some (b', e', r') → us[i + 1]? = some u' → b' = e + u'.idle)) ∧
    (∀ (u : Turn), us[0]? = some u → ∃ e r, (tests limit now us)[0]? = some (now + u.idle, e, r)) ∧
    ((∀ u ∈ us, ∃ n, Delivered u.test n ∧ n < limit) →
      (tests limit now us).length = us.length ∧ ∀ x ∈ tests limit now us, x.2.2 = .handed) := by
  induction us generalizing now with
  | nil =>
    refine ⟨Nat.le_refl _, fun i b e r u h => ?_, (fun u h => nomatch h), fun _ => ⟨rfl, (fun _ h => nomatch h)⟩⟩
    simp [tests] at h
  | cons u us ih =>
    have hle := C151_no_longer limit u.tie u.test
    have hcases : (∃ n, one limit u.tie u.test = (n, .handed) ∧
          tests limit now (u :: us) = (now + u.idle, now + u.idle + n, .handed) :: tests limit (now + u.idle + n) us) ∨
        (∃ n r, r ≠ .handed ∧ one limit u.tie u.test = (n, r) ∧
          tests limit now (u :: us) = [(now + u.idle, now + u.idle + n, r)]) := by
      generalize hone : one limit u.tie u.test = o at hle
      obtain ⟨n, r⟩ := o
      rw [tests, hone]
      cases r with
      | handed => exact Or.inl ⟨n, rfl, rfl⟩
      | broken => exact Or.inr ⟨n, _, by decide, rfl, rfl⟩
      | timedOut => exact Or.inr ⟨n, _, by decide, rfl, rfl⟩
    rcases hcases with ⟨n, hone, heq⟩ | ⟨n, r, hr, hone, heq⟩
    · obtain ⟨h1, h2, h3, h4⟩ := ih (now + u.idle + n)
      rw [hone] at hle
      rw [heq]
      refine ⟨by simp only [List.length_cons]; omega, ?_, ?_, ?_⟩
      · intro i b e r v hi hv
        cases i with
        | zero =>
          simp only [List.getElem?_cons_zero, Option.some.injEq] at hi hv
          cases hi
          subst hv
          refine ⟨by rw [hone]; congr 1; omega, by omega, by simp only at hle; omega, fun h => absurd rfl h, ?_⟩
          intro b' e' r' u' hi' hu'
          simp only [Nat.zero_add, List.getElem?_cons_succ] at hi' hu'
          obtain ⟨e2, r2, h5⟩ := h3 u' hu'
          rw [h5] at hi'
          cases hi'
          rfl
        | succ i =>
          simp only [List.getElem?_cons_succ] at hi hv
          obtain ⟨g1, g2, g3, g4, g5⟩ := h2 i b e r v hi hv
          refine ⟨g1, g2, g3, fun h => by rw [List.length_cons, g4 h], ?_⟩
          intro b' e' r' u' hi' hu'
          simp only [List.getElem?_cons_succ] at hi' hu'
          exact g5 b' e' r' u' hi' hu'
      · intro v hv
        simp only [List.getElem?_cons_zero, Option.some.injEq] at hv
        subst hv
        exact ⟨_, _, rfl⟩
      · intro hall
        obtain ⟨k1, k2⟩ := h4 (fun v hv => hall v (List.mem_cons_of_mem _ hv))
        refine ⟨by simp only [List.length_cons]; omega, ?_⟩
        intro x hx
        rcases List.mem_cons.1 hx with hx | hx
        · rw [hx]
        · exact k2 x hx
    · rw [hone] at hle
      rw [heq]
      refine ⟨by simp, ?_, ?_, ?_⟩
      · intro i b e r' v hi hv
        cases i with
        | zero =>
          simp only [List.getElem?_cons_zero, Option.some.injEq] at hi hv
          cases hi
          subst hv
          refine ⟨by rw [hone]; congr 1; omega, by omega, by simp only at hle; omega, fun _ => rfl, ?_⟩
          intro b' e' r' u' hi'
          simp at hi'
        | succ i => simp at hi
      · intro v hv
        simp only [List.getElem?_cons_zero, Option.some.injEq] at hv
        subst hv
        exact ⟨_, _, rfl⟩
      · intro hall
        obtain ⟨m, hm, hml⟩ := hall u List.mem_cons_self
        have := (C151_test_partial limit u.tie u.test m).1 hm hml
        rw [hone] at this
        exact absurd (Prod.mk.inj this).2 hr

example : tests 10 0 [⟨2, true, twoParts⟩, ⟨3, true, hangsUp⟩, ⟨0, true, twoParts⟩] = [(2, 10, .handed), (13, 17, .broken)] ∧
    tests 10 0 [⟨2, true, twoParts⟩, ⟨3, true, twoParts⟩] = [(2, 10, .handed), (13, 21, .handed)] ∧
    tests 5 0 [⟨2, true, hangsUp⟩] = [(2, 6, .broken)] ∧ tests 5 0 [⟨2, true, twoParts⟩, ⟨2, true, twoParts⟩] = [(2, 7, .timedOut)] := by
  decide

/-- C151: the start of a native runner. One that connects in time is used, if what it says is right; one that does not is given up after
the time or, if its process has not ended by then, when it ends, or else after twice the time; none is given up earlier, unless it connected and said something else. Missing for the full statement:
what a native runner that has connected may take to say something. -/
theorem C151_startup_partial (limit : Nat) (l : Launch) :
    (∀ c g, l.connects = some c → c < limit → l.greets = some (g, true) → launch limit l = some (c + g, true)) ∧
    (∀ n, launch limit l = some (n, true) → ∃ c g, l.connects = some c ∧ c ≤ limit ∧ l.greets = some (g, true) ∧ n = c + g) ∧
    ((∀ c, l.connects = some c → limit < c) → ∃ n, launch limit l = some (n, false) ∧
      (l.over = none → n = 2 * limit) ∧ ∀ o, l.over = some o → n = max limit (min o (2 * limit))) ∧
    (∀ n, launch limit l = some (n, false) → n < limit →
      ∃ c g, l.connects = some c ∧ l.greets = some (g, false) ∧ c + g ≤ n) := by
  have href : ∀ now, now ≤ refused limit l now ∧ refused limit l now ≤ now + limit := by
    intro now
    rw [refused]
    split
    · split
      · rename_i hs
        have := (seen_iff ..).1 hs
        omega
      · omega
    · omega
  refine ⟨?_, ?_, ?_, ?_⟩
  · intro c g hc hlt hg
    rw [launch, hc]
    dsimp only
    rw [if_pos ((seen_iff ..).2 (Or.inl hlt)), hg]
  · intro n h
    rw [launch] at h
    split at h
    · rename_i c hc
      split at h
      · rename_i hs
        have := (seen_iff ..).1 hs
        split at h
        · cases h
        · rename_i g hg
          cases h
          exact ⟨c, g, hc, by omega, hg, rfl⟩
        · cases h
      · cases h
    · cases h
  · intro hc
    have : launch limit l = some (refused limit l limit, false) := by
      rw [launch]
      split
      · rename_i c hcc
        rw [if_neg]
        intro hs
        have := (seen_iff ..).1 hs
        have := hc c hcc
        omega
      · rfl
    refine ⟨_, this, fun ho => by rw [refused, ho]; simp only; omega, fun o ho => ?_⟩
    rw [refused, ho]
    simp only
    split
    · rename_i hs
      have := (seen_iff ..).1 hs
      omega
    · rename_i hs
      have : ¬ o - limit < limit := fun h => hs ((seen_iff ..).2 (.inl h))
      omega
  · intro n h hn
    rw [launch] at h
    split at h
    · rename_i c hc
      split at h
      · split at h
        · cases h
        · cases h
        · rename_i g hg
          cases h
          exact ⟨c, g, hc, hg, (href _).1⟩
      · cases h
        have := (href limit).1
        omega
    · cases h
      have := (href limit).1
      omega

example : launch 60 ⟨some 50, some (20, true), none, true, true⟩ = some (70, true) ∧
    launch 60 ⟨some 61, some (20, true), none, true, true⟩ = some (120, false) ∧
    launch 60 ⟨none, none, some 90, true, true⟩ = some (90, false) ∧ launch 60 ⟨none, none, some 3, true, true⟩ = some (60, false) ∧
    launch 60 ⟨some 5, some (1, false), some 6, true, true⟩ = some (6, false) := by decide

/-- C151 in full fails: a test that was answered at once is over only when the time is up, and counts as one that took too long, if the
sender of results is held up; and a native runner that connects and then says nothing is waited for for ever, whatever the limit. -/
theorem C151_full_statement_fails :
    (∀ limit tie, ∃ t, Answered t 0 ∧ one limit tie t = (limit, .timedOut)) ∧
    (∀ limit, 0 < limit → ∃ l, l.connects = some 0 ∧ launch limit l = none) := by
  refine ⟨fun limit tie => ⟨⟨.done 0, [⟨0, some .results⟩], none⟩, ⟨0, [], _, [], rfl, rfl, (fun _ h => nomatch h), rfl, rfl⟩, rfl⟩, ?_⟩
  intro limit h
  refine ⟨⟨some 0, none, none, true, true⟩, rfl, ?_⟩
  rw [launch]
  dsimp only
  rw [if_pos ((seen_iff ..).2 (Or.inl h))]

/-- C151: this is the worker of C121, with time. What is heard before a test is over, and then the end of its time if that is what ends
it, takes the worker from where it has given the test to the native runner to where it asks for another test, or has lost this one; when
the time is up the native runner is dead. (That model leaves out that results wait for room.) -/
theorem C151_same_worker (limit : Nat) (tie : Bool) (t : Test) (s : St) (w : Nat) (parts : List Heard)
    (hphase : s.phase = .testing) (halive : s.proc.alive = true) (hconn : s.proc.conn = .opened) (hinbox : s.proc.inbox = [])
    (hw : t.write = .done w) (hroom : t.room = some 0) (hp : ∀ p ∈ parts, p.what = some .increment) :
    (∀ h later, t.heard = parts ++ h :: later → h.what ≠ some .increment →
      ((one limit tie t).2 = .handed → (s.run (steps (parts ++ [h]))).phase = .idle) ∧
      ((one limit tie t).2 = .broken → (s.run (steps (parts ++ [h]))).phase = .lost)) ∧
    (s.run (steps parts ++ [.limit])).phase = .lost ∧ (s.run (steps parts ++ [.limit])).proc.alive = false := by
  have hparts : ∀ ps : List Heard, (∀ p ∈ ps, p.what = some .increment) → s.run (steps ps) = s := by
    intro ps hps
    induction ps with
    | nil => rfl
    | cons y ys ih =>
      obtain ⟨a, what⟩ := y
      have hy : what = some .increment := hps _ List.mem_cons_self
      subst hy
      have hgo : (s.step (.say .increment)).step .go = s := by
        obtain ⟨phase, purpose, ⟨alive, conn, inbox, out⟩, old, dropped, cc, cf, notes⟩ := s
        simp only at hphase halive hconn hinbox
        subst hphase halive hconn hinbox
        rfl
      show ((s.step (.say .increment)).step .go).run (steps ys) = s
      rw [hgo]
      exact ih fun p h => hps p (List.mem_cons_of_mem _ h)
  have happ : ∀ a b : List Act, s.run (a ++ b) = (s.run a).run b := by
    intro a b
    exact List.foldl_append
  have hsteps : ∀ a b : List Heard, steps (a ++ b) = steps a ++ steps b := by
    intro a b
    induction a with
    | nil => rfl
    | cons y ys ih =>
      obtain ⟨n, what⟩ := y
      cases what <;> simp only [List.cons_append, steps, ih]
  refine ⟨?_, ?_, ?_⟩
  · intro h later heq hne
    rw [hsteps, happ, hparts parts hp]
    have hhelp : ∀ n e, help t = some (n, e) → (e = .handed → h.what = some .results) ∧ (e = .broken → h.what ≠ some .results) := by
      intro n e hh
      rw [help, hw, heq] at hh
      dsimp only at hh
      rw [answer_parts parts hp, answer] at hh
      constructor
      · rintro rfl
        split at hh
        · cases hh
        · cases hh
        · rename_i hx
          split at hx
          · rename_i hi; exact absurd hi hne
          · rename_i hi; exact hi
          · cases hx
      · rintro rfl hi
        rw [hi, hroom] at hh
        cases hh
    obtain ⟨a, what⟩ := h
    have hlast : ∀ m, what = some m → s.run (steps [⟨a, what⟩]) = (s.step (.say m)).step .go := by
      rintro m rfl; rfl
    have hnone : what = none → s.run (steps [⟨a, what⟩]) = (s.step .hangUp).step .go := by
      rintro rfl; rfl
    obtain ⟨phase, purpose, ⟨alive, conn, inbox, out⟩, old, dropped, cc, cf, notes⟩ := s
    simp only at hphase halive hconn hinbox
    subst hphase halive hconn hinbox
    constructor
    · intro ho
      have := (hhelp _ _ ((help_delivered t _).2 ((C151_test_partial limit tie t (one limit tie t).1).2.2.1 (by rw [← ho])).1)).1 rfl
      simp only at this
      rw [hlast _ this]
      rfl
    · intro ho
      have := (hhelp _ _ ((help_fails t _).2 ((C151_test_partial limit tie t (one limit tie t).1).2.2.2.1 (by rw [← ho])).1)).2 rfl
      simp only at this hne
      cases what with
      | none => rw [hnone rfl]; rfl
      | some m =>
        rw [hlast m rfl]
        cases m with
        | increment => exact absurd rfl hne
        | results => exact absurd rfl this
        | _ => rfl
  · rw [happ, hparts parts hp]
    show (s.step .limit).phase = .lost
    rw [St.step, hphase]
  · rw [happ, hparts parts hp]
    show (s.step .limit).proc.alive = false
    rw [St.step, hphase]
    rfl

/-- A worker that has given a test to its native runner. -/
def gaveTest : St :=
  (init false).run [.connect, .go, .say (.version true), .go, .context true true, .say .initSuccess, .go, .test false true]

example : gaveTest.phase = .testing ∧ gaveTest.proc.alive = true ∧ gaveTest.proc.conn = .opened ∧ gaveTest.proc.inbox = [] := by decide

example : (one 10 true ⟨.done 0, [⟨4, some .increment⟩, ⟨4, some .results⟩], some 0⟩).2 = .handed ∧
    (gaveTest.run (steps ([⟨4, some .increment⟩] ++ [⟨4, some .results⟩]))).phase = .idle := by decide

end Abq.Props
