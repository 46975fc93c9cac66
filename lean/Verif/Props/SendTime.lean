import Verif.Spec.SendTime
import Verif.Props.Delivery
import Verif.Model.TestsConn

/-!
# C154: what outages of the queue a worker survives

`world t` is what comes of an attempt to connect that is begun at `t`, and `exchange t` of writing and reading from `t` on.
-/

namespace Abq.Props
open Abq.SendTime Abq.Spec.SendTime
variable {world : Nat → Try} {exchange : Nat → Exchange}

theorem connecting_times (left now : Nat) :
    (∀ t ∈ (connecting world left now).1, now ≤ t) ∧ (connecting world left now).1.Pairwise (fun a b => a + (world a).takes + 3000 = b ∨
      a + (world a).takes + 3000 < b) ∧ (connecting world left now).1.length ≤ left := by
  induction left generalizing now with
  | zero => simp [connecting]
  | succ left ih =>
    rw [connecting]
    split
    · simp
    split
    · simp
    · obtain ⟨h1, h2, h3⟩ := ih (now + (world now).takes + 3000)
      refine ⟨?_, ?_, ?_⟩
      · intro t ht
        rcases List.mem_cons.1 ht with rfl | ht
        · exact Nat.le_refl _
        · have := h1 t ht; omega
      · refine List.pairwise_cons.2 ⟨fun b hb => ?_, h2⟩
        have := h1 b hb; omega
      · simp only [List.length_cons]; omega

/-- With so many attempts left, an outage that is over when the last of them is begun at the earliest is survived. -/
theorem connecting_back {a back : Nat} (ha : ∀ t, (world t).takes ≤ a) (left now : Nat) (hback : back ≤ now + 3000 * left)
    (hup : ∀ u, back ≤ u → u < back + (3000 + a) → (world u).ok = true) (hnow : now < back + (3000 + a)) :
    (connecting world (left + 1) now).2.2 = true ∧ (connecting world (left + 1) now).2.1 ≤ max now (back + 3000 + a) + a := by
  induction left generalizing now with
  | zero =>
    rw [connecting, if_pos (hup now (by omega) hnow)]
    exact ⟨rfl, by have := ha now; simp only; omega⟩
  | succ left ih =>
    have := ha now
    rw [connecting]
    split
    · exact ⟨rfl, by simp only; omega⟩
    · rename_i hf
      rw [if_neg (by omega)]
      have hlt : now < back := by
        by_cases h : back ≤ now
        · exact (hf (hup now h hnow)).elim
        · omega
      have := ih (now + (world now).takes + 3000) (by omega) (by omega)
      exact ⟨this.1, by simp only; omega⟩

theorem connecting_down {a : Nat} (ha : ∀ t, (world t).takes ≤ a) (left now : Nat)
    (hd : Down world now (now + (3000 + a) * left)) :
    (connecting world (left + 1) now).2.2 = false ∧ now + 3000 * left ≤ (connecting world (left + 1) now).2.1 ∧
    (connecting world (left + 1) now).2.1 ≤ now + (3000 + a) * left + a := by
  induction left generalizing now with
  | zero =>
    have := ha now
    rw [connecting, if_neg (by rw [hd now (Nat.le_refl _) (by omega)]; simp), if_pos rfl]
    exact ⟨rfl, by simp only; omega, by simp only; omega⟩
  | succ left ih =>
    have := ha now
    rw [connecting, if_neg (by rw [hd now (Nat.le_refl _) (by omega)]; simp), if_neg (by omega)]
    rw [Nat.mul_succ (3000 + a)] at hd ⊢
    obtain ⟨h1, h2, h3⟩ := ih (now + (world now).takes + 3000) fun t h1 h2 => hd t (by omega) (by omega)
    exact ⟨h1, by simp only; omega, by simp only; omega⟩

/-- C154: a worker makes at most five attempts to connect for a message, the first at once and each three seconds after the end of the one
before, at the earliest. -/
theorem C154_attempts (world : Nat → Try) (now : Nat) : ∃ more, (connecting world 5 now).1 = now :: more ∧ more.length ≤ 4 ∧
    (now :: more).Pairwise (fun s t => s + (world s).takes + 3000 ≤ t) := by
  obtain ⟨-, h2, h3⟩ := connecting_times (world := world) 5 now
  have : ∃ more, (connecting world 5 now).1 = now :: more := by
    rw [connecting]
    split
    · exact ⟨_, rfl⟩
    split <;> exact ⟨_, rfl⟩
  obtain ⟨more, hm⟩ := this
  rw [hm] at h2 h3
  exact ⟨more, hm, by simpa using h3, h2.imp fun h => by omega⟩

/-- C154: let attempts to connect take at most `a`, and no connection be lost once it is there. If the queue is never out of reach for more
than twelve seconds, and then within reach for at least three seconds and an attempt, each message is acknowledged, at most 15 seconds and
two attempts (and what writing and reading take, at most `x`) after it was begun. So all messages of the worker are. This is part of the
property, because it says nothing about asking for tests: see `C154_full_statement_fails`. -/
theorem C154_survives_partial (world : Nat → Try) (exchange : Nat → Exchange) (a x : Nat) (ha : ∀ t, (world t).takes ≤ a)
    (hx : ∀ t, (exchange t).takes ≤ x) (hl : NoneLost exchange) (ho : ShortOutages world 12000 (3000 + a)) (now : Nat) (gaps : List Nat) :
    (sends world exchange now gaps).length = gaps.length ∧
    ∀ m ∈ sends world exchange now gaps, m.2.2 = true ∧ m.2.1 ≤ m.1 + 15000 + 2 * a + x := by
  have one : ∀ now, (send world exchange now).2 = true ∧ (send world exchange now).1 ≤ now + 15000 + 2 * a + x := by
    intro now
    have hc : (connecting world 5 now).2.2 = true ∧ (connecting world 5 now).2.1 ≤ now + 15000 + 2 * a := by
      cases hk : (world now).ok with
      | true =>
        have := ha now
        rw [connecting, if_pos hk]
        exact ⟨rfl, by simp only; omega⟩
      | false =>
        obtain ⟨back, h1, h2, h3⟩ := ho now hk
        obtain ⟨h4, h5⟩ : (connecting world 5 now).2.2 = true ∧ (connecting world 5 now).2.1 ≤ max now (back + 3000 + a) + a :=
          connecting_back ha 4 now (by omega) h3 (by omega)
        exact ⟨h4, by omega⟩
    have := hx (connecting world 5 now).2.1
    rw [send]
    simp only [hc.1, if_true, (hl _).1, (hl _).2, Bool.and_self, true_and]
    omega
  induction gaps generalizing now with
  | nil => simp [sends]
  | cons gap gaps ih =>
    obtain ⟨h1, h2⟩ := one (now + gap)
    obtain ⟨h3, h4⟩ := ih (send world exchange (now + gap)).1
    rw [sends]
    simp only [h1, if_true, List.length_cons, h3, List.mem_cons, true_and]
    rintro m (rfl | hm)
    · exact ⟨h1, h2⟩
    · exact h4 m hm

/-- C154: more than that it does not survive. If the queue is out of reach for twelve seconds and four attempts from the beginning of a
message on, the worker panics, no earlier than after twelve seconds, and no later than after another attempt; it sends nothing more. -/
theorem C154_gives_up (world : Nat → Try) (exchange : Nat → Exchange) (a : Nat) (ha : ∀ t, (world t).takes ≤ a) (now gap : Nat)
    (gaps : List Nat) (hd : Down world (now + gap) (now + gap + 12000 + 4 * a)) :
    ∃ n, sends world exchange now (gap :: gaps) = [(now + gap, n, false)] ∧ now + gap + 12000 ≤ n ∧ n ≤ now + gap + 12000 + 5 * a := by
  obtain ⟨h1, h2, h3⟩ : (connecting world 5 (now + gap)).2.2 = false ∧ now + gap + 3000 * 4 ≤ (connecting world 5 (now + gap)).2.1 ∧
      (connecting world 5 (now + gap)).2.1 ≤ now + gap + (3000 + a) * 4 + a :=
    connecting_down ha 4 (now + gap) fun t h1 h2 => hd t h1 (by omega)
  refine ⟨(connecting world 5 (now + gap)).2.1, ?_, by omega, by omega⟩
  rw [sends, send]
  simp [h1]

/-- C154: nor does it survive that the connection for a message is lost once it is there: only connecting is tried again. -/
theorem C154_lost (world : Nat → Try) (exchange : Nat → Exchange) (now gap : Nat) (gaps : List Nat)
    (hl : (exchange (connecting world 5 (now + gap)).2.1).written = false ∨ (exchange (connecting world 5 (now + gap)).2.1).acked = false) :
    ∃ n, sends world exchange now (gap :: gaps) = [(now + gap, n, false)] := by
  have : (send world exchange (now + gap)).2 = false := by
    rw [send]
    dsimp only
    split
    · rcases hl with h | h <;> simp [h]
    · rfl
  refine ⟨(send world exchange (now + gap)).1, ?_⟩
  rw [sends]
  rw [if_neg (by rw [this]; simp), ← this]

theorem asking_down {a : Nat} (ha : ∀ t, (world t).takes ≤ a) (left now : Nat) (hd : Down world now (now + a * left)) :
    (asking world exchange (left + 1) now).2 = false ∧ (asking world exchange (left + 1) now).1 ≤ now + a * left + a := by
  induction left generalizing now with
  | zero =>
    have := ha now
    rw [asking]
    simp only [hd now (Nat.le_refl _) (by omega), Bool.false_eq_true, if_false, asking, true_and]
    omega
  | succ left ih =>
    have := ha now
    rw [Nat.mul_succ a] at hd ⊢
    rw [asking]
    simp only [hd now (Nat.le_refl _) (by omega), Bool.false_eq_true, if_false]
    obtain ⟨h1, h2⟩ := ih (now + (world now).takes) fun t h1 h2 => hd t (by omega) (by omega)
    exact ⟨h1, by omega⟩

theorem asking_back {a b x back : Nat} (ha : ∀ t, (world t).takes ≤ a) (hb : ∀ t, b ≤ (world t).takes) (hx : ∀ t, (exchange t).takes ≤ x)
    (hl : NoneLost exchange) (left now : Nat) (hback : back ≤ now + b * left)
    (hup : ∀ u, back ≤ u → u ≤ now + a * left → (world u).ok = true) :
    (asking world exchange (left + 1) now).2 = true ∧ (asking world exchange (left + 1) now).1 ≤ now + a * left + a + x := by
  have done : ∀ (left now : Nat), (world now).ok = true → (asking world exchange (left + 1) now).2 = true ∧
      (asking world exchange (left + 1) now).1 ≤ now + a + x := by
    intro left now h
    have := ha now
    have := hx (now + (world now).takes)
    rw [asking]
    simp only [h, if_true, (hl _).1, (hl _).2, Bool.and_self, true_and]
    omega
  induction left generalizing now with
  | zero =>
    have := done 0 now (hup now (by omega) (by omega))
    exact ⟨this.1, by omega⟩
  | succ left ih =>
    have h1 := ha now
    have h2 := hb now
    rw [Nat.mul_succ a] at hup ⊢
    rw [Nat.mul_succ b] at hback
    cases hk : (world now).ok with
    | true =>
      have := done (left + 1) now hk
      exact ⟨this.1, by omega⟩
    | false =>
      rw [asking]
      simp only [hk, Bool.false_eq_true, if_false]
      obtain ⟨h3, h4⟩ := ih (now + (world now).takes) (by omega) fun u h3 h4 => hup u h3 (by omega)
      exact ⟨h3, by omega⟩

theorem asking_lost (hl : AllLost exchange) (left now : Nat) : (asking world exchange left now).2 = false := by
  induction left generalizing now with
  | zero => rfl
  | succ left ih =>
    have h : ∀ t, ((exchange t).written && (exchange t).acked) = false := fun t => by rcases hl t with h | h <;> simp [h]
    rw [asking]
    simp only [h, Bool.false_eq_true, if_false]
    split <;> exact ih _

theorem fetchNext_no (old : Option Exchange) (now start n : Nat) (hs : NoConnection old now start n) :
    fetchNext world exchange old now = asking world exchange n start := by
  rcases hs with ⟨rfl, rfl, rfl⟩ | ⟨x, rfl, hx, rfl, rfl⟩
  · rfl
  · have : (x.written && x.acked) = false := by rcases hx with h | h <;> simp [h]
    simp [fetchNext, this]

/-- C154: that the connection over which a worker asks for tests is lost it survives, if new connections are not, and the queue is within
reach again when the last attempt that it has left is begun. Let attempts take at least `b` and at most `a`, and the rest at most `x`. -/
theorem C154_fetch_reconnects (world : Nat → Try) (exchange : Nat → Exchange) (a b x : Nat) (ha : ∀ t, (world t).takes ≤ a)
    (hb : ∀ t, b ≤ (world t).takes) (hx : ∀ t, (exchange t).takes ≤ x) (hl : NoneLost exchange) (old : Option Exchange)
    (now start n : Nat) (hs : NoConnection old now start n) (back : Nat) (hback : back ≤ start + b * (n - 1))
    (hup : ∀ u, back ≤ u → u ≤ start + a * (n - 1) → (world u).ok = true) :
    (fetchNext world exchange old now).2 = true ∧ (fetchNext world exchange old now).1 ≤ start + a * n + x := by
  rw [fetchNext_no old now start n hs]
  have : 0 < n := by rcases hs with h | ⟨_, h⟩ <;> omega
  obtain ⟨k, rfl⟩ : ∃ k, n = k + 1 := ⟨n - 1, by omega⟩
  rw [Nat.add_sub_cancel] at hback hup
  obtain ⟨h1, h2⟩ := asking_back ha hb hx hl k start hback hup
  exact ⟨h1, by rw [Nat.mul_succ]; omega⟩

/-- C154: but if the queue is out of reach until the last attempt that it has left is begun, the worker panics when that has failed. -/
theorem C154_fetch_gives_up (world : Nat → Try) (exchange : Nat → Exchange) (a : Nat) (ha : ∀ t, (world t).takes ≤ a)
    (old : Option Exchange) (now start n : Nat) (hs : NoConnection old now start n) (hd : Down world start (start + a * (n - 1))) :
    (fetchNext world exchange old now).2 = false ∧ (fetchNext world exchange old now).1 ≤ start + a * n := by
  rw [fetchNext_no old now start n hs]
  have : 0 < n := by rcases hs with h | ⟨_, h⟩ <;> omega
  obtain ⟨k, rfl⟩ : ∃ k, n = k + 1 := ⟨n - 1, by omega⟩
  rw [Nat.add_sub_cancel] at hd
  obtain ⟨h1, h2⟩ := asking_down (exchange := exchange) ha k start hd
  exact ⟨h1, by rw [Nat.mul_succ]; omega⟩

/-- C154: so it does if new connections are lost, too. -/
theorem C154_fetch_lost (world : Nat → Try) (exchange : Nat → Exchange) (old : Option Exchange) (now start n : Nat)
    (hs : NoConnection old now start n) (hl : AllLost exchange) : (fetchNext world exchange old now).2 = false := by
  rw [fetchNext_no old now start n hs]
  exact asking_lost hl n start

/-- C154: it is the worker of C117 that panics then: three attempts to connect that fail end it, and two do not. -/
theorem C154_same_fetcher {β : Type} (eow : β → Bool) (w : TestsConn.World β) (hw : w.phase = .asking 1 .connecting) :
    (w.run eow [.connect false, .connect false]).phase = .asking 3 .connecting ∧
    (w.run eow [.connect false, .connect false, .connect false]).phase = .panicked := by
  simp [TestsConn.World.run, TestsConn.World.step, hw, TestsConn.World.fail, TestsConn.maxAttempts]

/-- What the sender of C114 sees of it: its attempts to connect and, if one of them succeeds, the rest. -/
def sendActs {α : Type} (world : Nat → Try) (exchange : Nat → Exchange) (now : Nat) : List (Delivery.Act α) :=
  (connecting world 5 now).1.map (fun t => .connect (world t).ok) ++
    let x := exchange (connecting world 5 now).2.1
    if (connecting world 5 now).2.2 then [.write x.written x.written, .ack x.acked] else []

/-- C154: this is the sender of C114 in time: with these steps a batch that it is to deliver is delivered, but for the local reporters, if
it is acknowledged here, and else the sender has panicked. -/
theorem C154_same_sender {α : Type} (world : Nat → Try) (exchange : Nat → Exchange) (now : Nat) (t : Delivery.Sender α) (l : Bool)
    (ht : t.phase = .sending (.connecting 1) l) :
    (t.run (sendActs world exchange now)).phase =
      if (send world exchange now).2 then Delivery.joined .done l else .panicked := by
  have panicked : ∀ (as : List (Delivery.Act α)) (t : Delivery.Sender α), t.phase = .panicked → (t.run as).phase = .panicked := by
    intro as
    induction as with
    | nil => exact fun _ h => h
    | cons b as ih =>
      intro t h
      refine ih _ ?_
      cases b <;> simp [Delivery.Sender.step, h]
  have conn : ∀ (left k now : Nat) (t : Delivery.Sender α), k + left = 5 → t.phase = .sending (.connecting k) l →
      (t.run ((connecting world (left + 1) now).1.map fun t => .connect (world t).ok)).phase =
        if (connecting world (left + 1) now).2.2 then .sending .writing l else .panicked := by
    intro left
    induction left with
    | zero =>
      intro k now t hk ht
      rw [connecting]
      split
      · rename_i h; simp [Delivery.Sender.run, Delivery.Sender.step, ht, h]
      · rename_i h; simp [Delivery.Sender.run, Delivery.Sender.step, ht, h]; omega
    | succ left ih =>
      intro k now t hk ht
      rw [connecting]
      split
      · rename_i h; simp [Delivery.Sender.run, Delivery.Sender.step, ht, h]
      · rename_i h
        rw [if_neg (by omega)]
        have := ih (k + 1) (now + (world now).takes + 3000) (t.step (.connect (world now).ok)) (by omega)
          (by simp [Delivery.Sender.step, ht, h]; omega)
        exact this
  have hc := conn 4 1 now t rfl ht
  have happ : t.run (sendActs world exchange now) =
      (t.run ((connecting world 5 now).1.map fun t => .connect (world t).ok)).run
        (if (connecting world 5 now).2.2 then
          [.write (exchange (connecting world 5 now).2.1).written (exchange (connecting world 5 now).2.1).written,
            .ack (exchange (connecting world 5 now).2.1).acked] else []) := by
    simp [sendActs, Delivery.Sender.run, List.foldl_append]
  rw [happ, send]
  generalize t.run ((connecting world 5 now).1.map fun t => .connect (world t).ok) = u at hc
  generalize hx : exchange (connecting world 5 now).2.1 = x
  cases hk : (connecting world 5 now).2.2 with
  | false =>
    rw [hk] at hc
    simpa using panicked [] u (by simpa using hc)
  | true =>
    rw [hk] at hc
    simp only [if_true] at hc ⊢
    obtain ⟨w, k, n⟩ := x
    cases w <;> cases k <;> simp [Delivery.Sender.run, Delivery.Sender.step, hc]

/-! ## A case -/

/-- The queue is out of reach for eleven seconds, from the first on. Attempts take 10 ms. -/
def sendWorld (t : Nat) : Try := ⟨!(decide (1000 ≤ t) && decide (t < 12000)), 10⟩

def sendExchange (_ : Nat) : Exchange := ⟨true, true, 5⟩

theorem sendWorld_short : ShortOutages sendWorld 12000 (3000 + 10) := by
  intro t ht
  simp only [sendWorld, Bool.not_eq_false', Bool.and_eq_true, decide_eq_true_eq] at ht
  exact ⟨12000, ht.2, by omega, fun u h _ => by simp [sendWorld]; omega⟩

/-- A message before the outage, one in it, and one after: the second needs all five attempts. -/
example : sends sendWorld sendExchange 0 [500, 500, 500] = [(500, 515, true), (1015, 13070, true), (13570, 13585, true)] ∧
    (connecting sendWorld 5 1015).1 = [1015, 4025, 7035, 10045, 13055] := by decide

example : ∀ m ∈ sends sendWorld sendExchange 0 [500, 500, 500], m.2.2 = true ∧ m.2.1 ≤ m.1 + 15000 + 2 * 10 + 5 :=
  (C154_survives_partial sendWorld sendExchange 10 5 (fun _ => Nat.le_refl _) (fun _ => Nat.le_refl _) (fun _ => ⟨rfl, rfl⟩) sendWorld_short 0 _).2

/-- Thirteen seconds are too many. -/
example : ∃ n, sends (fun t => ⟨!(decide (1000 ≤ t) && decide (t < 14000)), 10⟩) sendExchange 0 [1000, 500] = [(1000, n, false)] := by
  obtain ⟨n, h, -⟩ := C154_gives_up (fun t => ⟨!(decide (1000 ≤ t) && decide (t < 14000)), 10⟩) sendExchange 10 (fun _ => Nat.le_refl _) 0
    1000 [500] (fun t h1 h2 => by simp; omega)
  exact ⟨n, h⟩

/-- Nor is a lost acknowledgement survived. -/
example : sends sendWorld (fun _ => ⟨true, false, 5⟩) 0 [500, 500] = [(500, 515, false)] := by decide

example : ∃ n, sends sendWorld (fun _ => ⟨true, false, 5⟩) 0 [500, 500] = [(500, n, false)] :=
  C154_lost sendWorld (fun _ => ⟨true, false, 5⟩) 0 500 [500] (.inr rfl)

/-- C154 does not hold of asking for tests: an outage of less than twelve seconds ends the worker if it asks in it, even if no connection is
lost. -/
theorem C154_full_statement_fails : ¬ ∀ (world : Nat → Try) (exchange : Nat → Exchange) (a : Nat), (∀ t, (world t).takes ≤ a) →
    NoneLost exchange → ShortOutages world 12000 (3000 + a) → ∀ now, (fetchNext world exchange none now).2 = true := fun h =>
  absurd (h sendWorld sendExchange 10 (fun _ => Nat.le_refl _) (fun _ => ⟨rfl, rfl⟩) sendWorld_short 1015) (by decide)

/-- Even one of 25 ms does, if it takes the old connection, too: the two attempts left are over after 20. -/
example : fetchNext (fun t => ⟨!(decide (1000 ≤ t) && decide (t < 1025)), 10⟩) sendExchange (some ⟨false, false, 2⟩) 998 = (1020, false) ∧
    NoConnection (some ⟨false, false, 2⟩) 998 1000 2 := by
  exact ⟨by decide, .inr ⟨_, rfl, .inl rfl, rfl, rfl⟩⟩

example : (fetchNext (fun t => ⟨!(decide (1000 ≤ t) && decide (t < 1025)), 10⟩) sendExchange (some ⟨false, false, 2⟩) 998).2 = false :=
  (C154_fetch_gives_up _ sendExchange 10 (fun _ => Nat.le_refl _) _ 998 1000 2 (.inr ⟨_, rfl, .inl rfl, rfl, rfl⟩)
    (fun t h1 h2 => by simp; omega)).1

/-- One of 15 ms does not if there was no connection, and a lost connection alone does not. -/
example : (fetchNext (fun t => ⟨!(decide (1000 ≤ t) && decide (t < 1015)), 10⟩) sendExchange none 1000).2 = true :=
  (C154_fetch_reconnects _ sendExchange 10 10 5 (fun _ => Nat.le_refl _) (fun _ => Nat.le_refl _) (fun _ => Nat.le_refl _)
    (fun _ => ⟨rfl, rfl⟩) none 1000 1000 3 (.inl ⟨rfl, rfl, rfl⟩) 1015 (by decide) (fun u h _ => by simp; omega)).1

example : fetchNext sendWorld sendExchange (some ⟨true, false, 2⟩) 500 = (517, true) := by decide

example : (fetchNext sendWorld (fun _ => ⟨true, false, 5⟩) none 500).2 = false :=
  C154_fetch_lost _ _ none 500 500 3 (.inl ⟨rfl, rfl, rfl⟩) fun _ => .inr rfl

example : ((TestsConn.World.new Nat).run (fun _ => false) [.ask]).phase = .asking 1 .connecting := rfl

example : ((Delivery.Sender.new Nat 1).run [.op (.push 7)]).phase = .sending (.connecting 1) false ∧
    (((Delivery.Sender.new Nat 1).run [.op (.push 7)]).run (sendActs sendWorld sendExchange 1015)).phase = .sending .done false := by
  refine ⟨rfl, ?_⟩
  rw [C154_same_sender sendWorld sendExchange 1015 _ false rfl, if_pos (by decide)]
  rfl

end Abq.Props
