import Verif.Spec.BatchSize
import Verif.Props.Options
import Verif.Model.ManifestView
import Verif.Props.Pipeline
import Verif.Proof.BufferedResults
/-!
# Any batch size can be given (C140)
-/

namespace Abq.Props
open Abq.BatchSize Abq.Spec.BatchSize Abq.Options
open Abq.Fetch.Spec (WellFormed)

/-- C140: `--batch-size` takes exactly the positive numbers of 64 bits. -/
theorem C140_taken_exactly (s : List Char) (n : Nat) : parseBatch s = some n ↔ Says s n := by
  have h := parseUsize_iff s n
  unfold parseBatch Says
  cases hp : parseUsize s with
  | none =>
    rw [hp] at h
    exact ⟨(fun h => nomatch h), fun h' => absurd (h.mpr ⟨h'.2.1, h'.2.2⟩) nofun⟩
  | some m =>
    rw [hp] at h
    cases m with
    | zero =>
      refine ⟨(fun h => nomatch h), fun h' => ?_⟩
      have h0 := Option.some.inj (h.mpr ⟨h'.2.1, h'.2.2⟩)
      have := h'.1
      omega
    | succ m =>
      show some (m + 1) = some n ↔ _
      rw [h]
      refine ⟨fun h' => ⟨?_, h'.1, h'.2⟩, fun h' => ⟨h'.2.1, h'.2.2⟩⟩
      have := Option.some.inj (h.mpr h')
      omega

example : Says "7".toList 7 ∧ parseBatch "7".toList = some 7 ∧ parseBatch "0".toList = none ∧ parseBatch "seven".toList = none ∧
    parseBatch "18446744073709551616".toList = none :=
  ⟨(C140_taken_exactly _ _).mp rfl, rfl, rfl, rfl, rfl⟩

theorem out_of_step {p : Pipe.Pipe} {n : Nat} (h : Buffered.Ok p.out) (hn : p.out.batchSize = n) (a : Pipe.Act) :
    Buffered.Ok (Pipe.step p a).out ∧ (Pipe.step p a).out.batchSize = n := by
  have hpush : ∀ (b : Buffered.Buffer Retries.Results) r, (b.push r).batchSize = b.batchSize := by
    intro b r
    unfold Buffered.Buffer.push
    dsimp only
    split <;> rfl
  have hflush : ∀ (b : Buffered.Buffer Retries.Results), b.flush.batchSize = b.batchSize := by
    intro b
    unfold Buffered.Buffer.flush
    split <;> rfl
  cases a with
  | take =>
    show Buffered.Ok p.take.out ∧ p.take.out.batchSize = n
    unfold Pipe.Pipe.take
    split
    · rename_i r _ _
      exact ⟨Buffered.ok_op h (.push r), (hpush _ _).trans hn⟩
    · exact ⟨Buffered.ok_op h .flush, (hflush _).trans hn⟩
    · split
      · split
        · exact ⟨h, hn⟩
        · exact ⟨Buffered.ok_op h .flush, (hflush _).trans hn⟩
      · exact ⟨h, hn⟩
  | fetch =>
    have : p.fetch.out = p.out := by
      unfold Pipe.Pipe.fetch
      repeat' split
      all_goals rfl
    exact this ▸ ⟨h, hn⟩
  | produce => exact ⟨h, hn⟩
  | consume =>
    have : p.consume.out = p.out := by
      unfold Pipe.Pipe.consume
      repeat' split
      all_goals rfl
    exact this ▸ ⟨h, hn⟩
  | result rs =>
    have : (p.result rs).out = p.out := by
      unfold Pipe.Pipe.result
      split <;> rfl
    exact this ▸ ⟨h, hn⟩
  | crash =>
    have : p.crash.out = p.out := by
      unfold Pipe.Pipe.crash
      split <;> rfl
    exact this ▸ ⟨h, hn⟩
  | timeout =>
    have : p.timeout.out = p.out := by
      unfold Pipe.Pipe.timeout
      split <;> rfl
    exact this ▸ ⟨h, hn⟩
  | send =>
    have : p.send.out = p.out := by
      unfold Pipe.Pipe.send
      repeat' split
      all_goals rfl
    exact this ▸ ⟨h, hn⟩

theorem out_of_run (n : Nat) : ∀ (as : List Pipe.Act) (p : Pipe.Pipe), Buffered.Ok p.out → p.out.batchSize = n →
    Buffered.Ok (Pipe.run p as).out ∧ (Pipe.run p as).out.batchSize = n
  | [], _, h, hn => ⟨h, hn⟩
  | a :: as, p, h, hn => out_of_run n as (Pipe.step p a) (out_of_step h hn a).1 (out_of_step h hn a).2

theorem start_eq (checks : Bool) (mem : Nat → Bool) (size : Nat) (hs : 16 ≤ size) (src : List (List Fetch.Resp)) (mx b : Nat) (hb : 0 < b)
    (hb' : b < 2 ^ 64) :
    start checks mem size src mx b =
      if 2 ^ 63 ≤ b * size then .panic else if mem (b * size) then .ok (Pipe.init src mx b) else .abort := by
  have hm : b * 16 ≤ b * size := Nat.mul_le_mul (Nat.le_refl b) hs
  by_cases h1 : 2 ^ 63 ≤ b * size
  · rw [if_pos h1]
    unfold start
    split
    · rfl
    · have : withCapacity mem size b = .panic := by
        unfold withCapacity
        rw [if_pos (by omega)]
      rw [this]
  · rw [if_neg h1]
    have h2 : (twice checks b).bind channel = some (b * 2) := by
      unfold twice
      rw [if_pos (by omega)]
      show channel (b * 2) = _
      unfold channel
      rw [if_neg (by omega), if_neg (by omega)]
    unfold start
    rw [h2]
    dsimp only
    unfold withCapacity
    rw [if_neg (by omega)]
    by_cases h3 : mem (b * size) = true
    · rw [if_pos h3, if_pos h3]
      rfl
    · rw [if_neg h3, if_neg h3]

/-- C140: a worker given a batch size works with it, if the memory for that many results can be had: no batch of results is larger, and
none is empty; what is known of its runners for every batch size (C27, C45, C60) holds. `size` is the number of bytes of the record for the
results of one test, of which 16 are the id.

Missing for the full statement, which is false (`C140_full_statement_fails`): that memory, which is set aside when the worker starts, even
if there are few tests. -/
theorem C140_started_partial {s : List Char} {b : Nat} (h : parseBatch s = some b) (checks : Bool) (mem : Nat → Bool) (size : Nat)
    (hs : 16 ≤ size) (hm : mem (b * size) = true) (hi : b * size < 2 ^ 63) (src : List (List Fetch.Resp)) (mx : Nat) :
    start checks mem size src mx b = .ok (Pipe.init src mx b) ∧
    ∀ as : List Pipe.Act, ∀ batch ∈ (Pipe.run (Pipe.init src mx b) as).out.sent, batch ≠ [] ∧ batch.length ≤ b := by
  obtain ⟨h0, h1, -⟩ := (C140_taken_exactly s b).mp h
  refine ⟨?_, ?_⟩
  · rw [start_eq checks mem size hs src mx b h0 h1, if_neg (by omega), if_pos hm]
  · intro as batch hb
    obtain ⟨ho, hn⟩ := out_of_run b as (Pipe.init src mx b) (Buffered.ok_new b) rfl
    have := ho.sizes batch hb
    rw [hn] at this
    exact ⟨this.1, by omega⟩

example : start false (upTo 1000000) 144 [[.bundle ⟨[], true⟩]] 1 7 = .ok (Pipe.init [[.bundle ⟨[], true⟩]] 1 7) :=
  (C140_started_partial (s := "7".toList) rfl false (upTo 1000000) 144 (by decide) rfl (by decide) _ 1).1

/-- C140: and a worker given more than that does not start. It does not matter how the program was built, nor how many tests there are. -/
theorem C140_too_large {s : List Char} {b : Nat} (h : parseBatch s = some b) (checks : Bool) (m : Nat) (hm : m < 2 ^ 63) (size : Nat)
    (hs : 16 ≤ size) (src : List (List Fetch.Resp)) (mx : Nat) :
    (∃ p, start checks (upTo m) size src mx b = .ok p) ↔ b * size ≤ m := by
  obtain ⟨h0, h1, -⟩ := (C140_taken_exactly s b).mp h
  rw [start_eq checks _ size hs src mx b h0 h1]
  by_cases h2 : 2 ^ 63 ≤ b * size
  · rw [if_pos h2]
    exact ⟨fun ⟨_, h⟩ => (nomatch h), fun h => by omega⟩
  · rw [if_neg h2]
    by_cases h3 : b * size ≤ m
    · rw [if_pos (by exact decide_eq_true h3)]
      exact ⟨fun _ => h3, fun _ => ⟨_, rfl⟩⟩
    · rw [if_neg (by simpa [upTo] using h3)]
      exact ⟨fun ⟨_, h⟩ => (nomatch h), fun h => absurd h h3⟩

example : ¬ ∃ p, start false (upTo (2 ^ 40)) 144 [[.bundle ⟨[], true⟩]] 1 1000000000000 = .ok p :=
  fun h => absurd ((C140_too_large (s := "1000000000000".toList) rfl false (2 ^ 40) (by decide) 144 (by decide) _ 1).mp h) (by decide)

/-- C140, in full: a worker starts with every batch size that is taken, if the machine has enough memory for the tests there are. -/
def C140_full_statement : Prop :=
  ∀ (s : List Char) (b : Nat), parseBatch s = some b → ∀ (checks : Bool) (size : Nat), 16 ≤ size → ∀ (src : List (List Fetch.Resp)) (mx : Nat),
    ∃ m, ∀ mem : Nat → Bool, (∀ n ≤ m, mem n = true) → ∃ p, start checks mem size src mx b = .ok p

/-- The largest number makes the worker panic on every machine, though the queue would take it for a hundred. -/
theorem C140_full_statement_fails : ¬ C140_full_statement ∧
    parseBatch "18446744073709551615".toList = some (2 ^ 64 - 1) ∧ clampBatch (2 ^ 64 - 1) = 100 ∧
    ∀ (checks : Bool) (mem : Nat → Bool) (size : Nat), 16 ≤ size → ∀ (src : List (List Fetch.Resp)) (mx : Nat),
      start checks mem size src mx (2 ^ 64 - 1) = .panic := by
  have hp : ∀ (checks : Bool) (mem : Nat → Bool) (size : Nat), 16 ≤ size → ∀ (src : List (List Fetch.Resp)) (mx : Nat),
      start checks mem size src mx (2 ^ 64 - 1) = .panic := by
    intro checks mem size hs src mx
    rw [start_eq checks mem size hs src mx _ (by decide) (by decide), if_pos (by omega)]
  refine ⟨?_, rfl, rfl, hp⟩
  intro hall
  obtain ⟨m, hm⟩ := hall "18446744073709551615".toList (2 ^ 64 - 1) rfl false 144 (by decide) [] 1
  obtain ⟨p, h⟩ := hm (fun _ => true) (fun _ _ => rfl)
  rw [hp false _ 144 (by decide)] at h
  cases h

end Abq.Props
