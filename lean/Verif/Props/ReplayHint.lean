import Verif.Spec.ReplayHint
import Verif.Props.Options
/-!
# The command printed for replaying replays this worker's tests (C135)
-/

namespace Abq.Props
open Abq.ReplayHint Abq.Spec.ReplayHint Abq.Spec.Address
open Abq.Options (parseNum parseUsize)
open Abq.Address (number)

theorem plain_not_blank {c : Char} (h : Plain c) : ¬ Blank c := by
  rintro (rfl | rfl) <;> revert h <;> unfold Plain <;> decide

/-- C135: a line has at most one sequence of words. -/
theorem C135_words_unique {s : List Char} {ws ws' : List (List Char)} (h : Words s ws) (h' : Words s ws') : ws = ws' := by
  induction h generalizing ws' with
  | done =>
    generalize he : ([] : List Char) = s at h'
    cases h' with
    | done => rfl
    | blank _ _ => cases he
    | word hw _ _ _ => exact absurd (List.append_eq_nil_iff.1 he.symm).1 hw
  | @blank c s ws hb _ ih =>
    generalize he : c :: s = t at h'
    cases h' with
    | done => cases he
    | blank _ h1 => cases he; exact ih h1
    | @word w s' ws' hw hp _ _ =>
      cases w with
      | nil => exact absurd rfl hw
      | cons x w =>
        cases he
        exact absurd hb (plain_not_blank (hp _ (by simp)))
  | @word w s ws hw hp hs _ ih =>
    generalize he : w ++ s = t at h'
    cases h' with
    | done => exact absurd (List.append_eq_nil_iff.1 he).1 hw
    | blank hb _ =>
      cases w with
      | nil => exact absurd rfl hw
      | cons x w =>
        cases he
        exact absurd hb (plain_not_blank (hp _ (by simp)))
    | @word w' s' ws' hw' hp' hs' h1 =>
      have key : ∀ (a a' b b' : List Char), (∀ c ∈ a, Plain c) → (∀ c ∈ a', Plain c) → (∀ c, b.head? = some c → Blank c) →
          (∀ c, b'.head? = some c → Blank c) → a ++ b = a' ++ b' → a = a' ∧ b = b' := by
        intro a
        induction a with
        | nil =>
          intro a' b b' _ h2 h3 _ h5
          cases a' with
          | nil => exact ⟨rfl, h5⟩
          | cons x a' =>
            have h5 : b = x :: (a' ++ b') := h5
            exact absurd (h3 x (by rw [h5]; rfl)) (plain_not_blank (h2 x (by simp)))
        | cons y a ih =>
          intro a' b b' h1 h2 h3 h4 h5
          cases a' with
          | nil =>
            have h5 : y :: (a ++ b) = b' := h5
            exact absurd (h4 y (by rw [← h5]; rfl)) (plain_not_blank (h1 y (by simp)))
          | cons x a' =>
            have h5 : y :: (a ++ b) = x :: (a' ++ b') := h5
            obtain ⟨h6, h7⟩ := List.cons.inj h5
            obtain ⟨h8, h9⟩ := ih a' b b' (fun c hc => h1 c (by simp [hc])) (fun c hc => h2 c (by simp [hc])) h3 h4 h7
            exact ⟨by rw [h6, h8], h9⟩
      obtain ⟨e1, e2⟩ := key _ _ _ _ hp hp' hs hs' he
      subst e1 e2
      rw [ih h1]

theorem number_plain (n : Nat) : number 10 n ≠ [] ∧ (∀ c ∈ number 10 n, Plain c) ∧ (number 10 n).head? ≠ some '-' := by
  have hn := Address.number_numeral (r := 10) (by decide) (by decide) n
  have hd := Address.numeral_digits (r := 10) (by decide) hn
  have fact : ∀ c : Char, Address.isDig 10 c = true → '0' ≤ c ∧ c ≤ '9' := by
    intro c hc
    unfold Address.isDig at hc
    obtain ⟨d, hd⟩ := Option.isSome_iff_exists.1 hc
    have h := (Address.toDigit_iff (by decide) c d).1 hd
    have all : ∀ d < 10, ∀ c, Digit 10 c d → '0' ≤ c ∧ c ≤ '9' := by
      intro d hd c h
      have l : ∀ d < 10, ['0', '1', '2', '3', '4', '5', '6', '7', '8', '9', 'a', 'b', 'c', 'd', 'e', 'f'][d]? =
          some (['0', '1', '2', '3', '4', '5', '6', '7', '8', '9'].getD d '0') ∧
          ['0', '1', '2', '3', '4', '5', '6', '7', '8', '9', 'A', 'B', 'C', 'D', 'E', 'F'][d]? =
          some (['0', '1', '2', '3', '4', '5', '6', '7', '8', '9'].getD d '0') ∧
          '0' ≤ ['0', '1', '2', '3', '4', '5', '6', '7', '8', '9'].getD d '0' ∧
          ['0', '1', '2', '3', '4', '5', '6', '7', '8', '9'].getD d '0' ≤ '9' := by decide
      obtain ⟨l1, l2, l3⟩ := l d hd
      rcases h.2 with h | h
      · have h := l1.symm.trans h
        cases h
        exact l3
      · have h := l2.symm.trans h
        cases h
        exact l3
    exact all d h.1 c h
  refine ⟨Address.numeral_ne hn, fun c hc => .inr (.inr (.inl (fact c (hd c hc)))), fun h => ?_⟩
  cases hl : number 10 n with
  | nil => rw [hl] at h; cases h
  | cons c cs =>
    rw [hl] at h hd
    cases h
    exact absurd (hd '-' (by simp)) (by decide)

/-- One more word, after a blank. -/
theorem words_cons {w s : List Char} {ws : List (List Char)} (hw : w ≠ []) (hp : ∀ c ∈ w, Plain c) (h : Words (' ' :: s) ws) :
    Words (w ++ ' ' :: s) (w :: ws) :=
  .word hw hp (fun c hc => by cases hc; exact .inl rfl) h

theorem words_blank {s : List Char} {ws : List (List Char)} (h : Words s ws) : Words (' ' :: s) ws := .blank (.inl rfl) h

/-- The words of the line printed. -/
theorem line_words {runId command : List Char} {cs : List (List Char)} (worker runners : Nat) (h0 : runId ≠ [])
    (hp : ∀ c ∈ runId, Plain c) (hc : Words command cs) :
    Words (line runId worker runners command) ("abq".toList :: "test".toList :: "--run-id".toList :: runId :: "--worker".toList ::
      number 10 worker :: "--num".toList :: number 10 runners :: "--".toList :: cs) := by
  have plain : ∀ w ∈ ["abq".toList, "test".toList, "--run-id".toList, "--worker".toList, "--num".toList, "--".toList],
      w ≠ [] ∧ ∀ c ∈ w, Plain c := by unfold Plain; decide
  have e : line runId worker runners command = '\t' :: ("abq".toList ++ ' ' :: ("test".toList ++ ' ' :: ("--run-id".toList ++ ' ' ::
      (runId ++ ' ' :: ("--worker".toList ++ ' ' :: (number 10 worker ++ ' ' :: ("--num".toList ++ ' ' :: (number 10 runners ++ ' ' ::
      ("--".toList ++ ' ' :: command))))))))) := by
    unfold line
    have e1 : "\tabq".toList = '\t' :: "abq".toList := by decide
    have e2 : " test".toList = ' ' :: "test".toList := by decide
    have e3 : " --run-id ".toList = ' ' :: ("--run-id".toList ++ [' ']) := by decide
    have e4 : " --worker ".toList = ' ' :: ("--worker".toList ++ [' ']) := by decide
    have e5 : " --num ".toList = ' ' :: ("--num".toList ++ [' ']) := by decide
    have e6 : " -- ".toList = ' ' :: ("--".toList ++ [' ']) := by decide
    rw [e1, e2, e3, e4, e5, e6]
    simp only [List.append_assoc, List.cons_append, List.nil_append]
  rw [e]
  have step : ∀ w ∈ ["abq".toList, "test".toList, "--run-id".toList, "--worker".toList, "--num".toList, "--".toList], ∀ s ws,
      Words s ws → Words (w ++ ' ' :: s) (w :: ws) := fun w hw s ws h =>
    words_cons (plain w hw).1 (plain w hw).2 (words_blank h)
  refine .blank (.inr rfl) ?_
  refine step _ (by simp) _ _ ?_
  refine step _ (by simp) _ _ ?_
  refine step _ (by simp) _ _ ?_
  refine words_cons h0 hp (words_blank ?_)
  refine step _ (by simp) _ _ ?_
  refine words_cons (number_plain worker).1 (number_plain worker).2.1 (words_blank ?_)
  refine step _ (by simp) _ _ ?_
  refine words_cons (number_plain runners).1 (number_plain runners).2.1 (words_blank ?_)
  exact step _ (by simp) _ _ hc

theorem parseUsize_number {n : Nat} (h : n < 2 ^ 64) : parseUsize (number 10 n) = some n :=
  (parseUsize_iff _ _).2 ⟨h, _, Address.number_numeral (by decide) (by decide) n, .inl rfl⟩

/-- C135 (partial): if the run id has only plain characters and does not begin with a dash, a shell makes of the printed command, with a
command of the user in its place, a call of `abq test` with this run id, this number of the worker, this number of runners, and the
user's command. Missing: other run ids (`C135_full_statement_fails`). -/
theorem C135_command_partial {runId command : List Char} {cs : List (List Char)} {worker runners : Nat} (h0 : runId ≠ [])
    (hp : ∀ c ∈ runId, Plain c) (hd : runId.head? ≠ some '-') (hw : worker < 2 ^ 32) (h1 : 0 < runners) (hr : runners < 2 ^ 64)
    (hc : Words command cs) :
    ∃ ws, Words (line runId worker runners command) ws ∧ ws.take 2 = ["abq".toList, "test".toList] ∧ Runs ws cs ∧
      (∃ v, Given ws "--run-id".toList v ∧ parseRunId v = some runId) ∧
      (∃ v, Given ws "--worker".toList v ∧ parseWorker v = some worker) ∧
      ∃ v, Given ws "--num".toList v ∧ parseNum v = some (.fixed runners) := by
  have nd := fun n => (number_plain n).2.2
  have ne : ∀ (v w : List Char), v.head? ≠ some '-' → w.head? = some '-' → w ≠ v := by
    rintro v w h h' rfl; exact h h'
  have d1 := ne runId "--".toList hd (by decide)
  have d2 := ne runId "--worker".toList hd (by decide)
  have d3 := ne runId "--num".toList hd (by decide)
  have d4 := ne _ "--".toList (nd worker) (by decide)
  have d5 := ne _ "--num".toList (nd worker) (by decide)
  have d6 := ne _ "--".toList (nd runners) (by decide)
  have lit : "--".toList ≠ "abq".toList ∧ "--".toList ≠ "test".toList ∧ "--".toList ≠ "--run-id".toList ∧
      "--".toList ≠ "--worker".toList ∧ "--".toList ≠ "--num".toList := by decide
  have lit1 : "--run-id".toList ≠ "abq".toList ∧ "--run-id".toList ≠ "test".toList := by decide
  have lit2 : "--worker".toList ≠ "abq".toList ∧ "--worker".toList ≠ "test".toList ∧ "--worker".toList ≠ "--run-id".toList := by decide
  have lit3 : "--num".toList ≠ "abq".toList ∧ "--num".toList ≠ "test".toList ∧ "--num".toList ≠ "--run-id".toList ∧
      "--num".toList ≠ "--worker".toList := by decide
  obtain ⟨l1, l2, l3, l4, l5⟩ := lit
  obtain ⟨k1, k2⟩ := lit1
  obtain ⟨m1, m2, m3⟩ := lit2
  obtain ⟨n1, n2, n3, n4⟩ := lit3
  refine ⟨_, line_words worker runners h0 hp hc, rfl, ?_, ⟨runId, ?_, rfl⟩, ⟨number 10 worker, ?_, ?_⟩, ⟨number 10 runners, ?_, ?_⟩⟩
  · refine ⟨["abq".toList, "test".toList, "--run-id".toList, runId, "--worker".toList, number 10 worker, "--num".toList,
      number 10 runners], rfl, ?_⟩
    simp only [List.mem_cons, List.not_mem_nil, or_false, not_or]
    exact ⟨l1, l2, l3, d1, l4, d4, l5, d6⟩
  · refine ⟨["abq".toList, "test".toList], _, rfl, ?_, ?_, hd⟩
    · simp only [List.mem_cons, List.not_mem_nil, or_false, not_or]
      exact ⟨l1, l2⟩
    · simp only [List.mem_cons, List.not_mem_nil, or_false, not_or]
      exact ⟨k1, k2⟩
  · refine ⟨["abq".toList, "test".toList, "--run-id".toList, runId], _, rfl, ?_, ?_, nd worker⟩
    · simp only [List.mem_cons, List.not_mem_nil, or_false, not_or]
      exact ⟨l1, l2, l3, d1⟩
    · simp only [List.mem_cons, List.not_mem_nil, or_false, not_or]
      exact ⟨m1, m2, m3, d2⟩
  · have h := parseUsize_number (n := worker) (by omega)
    have hdash := nd worker
    unfold parseWorker
    split
    · rename_i cs e
      rw [e] at hdash
      exact absurd rfl hdash
    · rw [h]
      exact if_pos hw
  · refine ⟨["abq".toList, "test".toList, "--run-id".toList, runId, "--worker".toList, number 10 worker], _, rfl, ?_, ?_, nd runners⟩
    · simp only [List.mem_cons, List.not_mem_nil, or_false, not_or]
      exact ⟨l1, l2, l3, d1, l4, d4⟩
    · simp only [List.mem_cons, List.not_mem_nil, or_false, not_or]
      exact ⟨n1, n2, n3, d3, n4, d5⟩
  · exact (C134_runners_taken_exactly _ _).2 ⟨h1, hr, _, Address.number_numeral (by decide) (by decide) runners, .inl rfl⟩

example : ∃ ws, Words (line "build-17".toList 2 4 "yarn jest".toList) ws ∧ Runs ws ["yarn".toList, "jest".toList] := by
  have hc : Words "yarn jest".toList ["yarn".toList, "jest".toList] := by
    have e : "yarn jest".toList = "yarn".toList ++ ' ' :: "jest".toList := by decide
    have e' : "jest".toList = "jest".toList ++ [] := by decide
    rw [e]
    refine words_cons (by decide) (by unfold Plain; decide) (words_blank ?_)
    rw [e']
    exact .word (by decide) (by unfold Plain; decide) (fun c h => by cases h) .done
  obtain ⟨ws, h, _, h', _⟩ := C135_command_partial (runId := "build-17".toList) (worker := 2) (runners := 4) (by decide)
    (by unfold Plain; decide) (by decide) (by decide) (by decide) (by decide) hc
  exact ⟨ws, h, h'⟩

/-- C135, all of it: for every run id that `abq test` takes. -/
def C135_command_full : Prop :=
  ∀ (runId : List Char), runId ≠ [] → parseRunId runId = some runId → ∀ (worker runners : Nat), worker < 2 ^ 32 → 0 < runners →
    runners < 2 ^ 64 → ∀ command cs, Words command cs →
    ∃ ws, Words (line runId worker runners command) ws ∧ ∃ v, Given ws "--run-id".toList v ∧ parseRunId v = some runId

/-- A first mention of an option is the only one. -/
theorem given_unique {ws : List (List Char)} {o v v' : List Char} (h : Given ws o v) (h' : Given ws o v') : v = v' := by
  obtain ⟨b, a, e, -, n, -⟩ := h
  obtain ⟨b', a', e', -, n', -⟩ := h'
  subst e
  induction b generalizing b' with
  | nil =>
    cases b' with
    | nil => cases e'; rfl
    | cons x b' =>
      have := (List.cons.inj e').1
      exact absurd (by rw [this]; simp) n'
  | cons x b ih =>
    cases b' with
    | nil =>
      have := (List.cons.inj e').1
      exact absurd (by rw [this]; simp) n
    | cons y b' =>
      exact ih (fun h => n (by simp [h])) b' (fun h => n' (by simp [h])) (List.cons.inj e').2

/-- C135 does not hold in full: the run id is printed without quotes. For the run id `nightly build` the command printed is one for the
run `nightly`. -/
theorem C135_full_statement_fails : ¬ C135_command_full ∧
    ∀ worker runners ws v, Words (line "nightly build".toList worker runners []) ws → Given ws "--run-id".toList v →
      v = "nightly".toList := by
  have other : ∀ worker runners ws v, Words (line "nightly build".toList worker runners []) ws → Given ws "--run-id".toList v →
      v = "nightly".toList := by
    intro worker runners ws v h hg
    have e : line "nightly build".toList worker runners [] = '\t' :: ("abq".toList ++ ' ' :: ("test".toList ++ ' ' ::
        ("--run-id".toList ++ ' ' :: ("nightly".toList ++ ' ' :: ("build".toList ++ ' ' :: ("--worker".toList ++ ' ' ::
        (number 10 worker ++ ' ' :: ("--num".toList ++ ' ' :: (number 10 runners ++ ' ' :: ("--".toList ++ ' ' :: [])))))))))) := by
      unfold line
      have e0 : "nightly build".toList = "nightly".toList ++ ' ' :: "build".toList := by decide
      have e1 : "\tabq".toList = '\t' :: "abq".toList := by decide
      have e2 : " test".toList = ' ' :: "test".toList := by decide
      have e3 : " --run-id ".toList = ' ' :: ("--run-id".toList ++ [' ']) := by decide
      have e4 : " --worker ".toList = ' ' :: ("--worker".toList ++ [' ']) := by decide
      have e5 : " --num ".toList = ' ' :: ("--num".toList ++ [' ']) := by decide
      have e6 : " -- ".toList = ' ' :: ("--".toList ++ [' ']) := by decide
      rw [e0, e1, e2, e3, e4, e5, e6]
      simp only [List.append_assoc, List.cons_append, List.nil_append]
    have plain : ∀ w ∈ ["abq".toList, "test".toList, "--run-id".toList, "nightly".toList, "build".toList, "--worker".toList,
        "--num".toList, "--".toList], w ≠ [] ∧ ∀ c ∈ w, Plain c := by unfold Plain; decide
    have step : ∀ w ∈ ["abq".toList, "test".toList, "--run-id".toList, "nightly".toList, "build".toList, "--worker".toList,
        "--num".toList, "--".toList], ∀ s ws, Words s ws → Words (w ++ ' ' :: s) (w :: ws) := fun w hw s ws h =>
      words_cons (plain w hw).1 (plain w hw).2 (words_blank h)
    have hw : Words (line "nightly build".toList worker runners []) ("abq".toList :: "test".toList :: "--run-id".toList ::
        "nightly".toList :: "build".toList :: "--worker".toList :: number 10 worker :: "--num".toList :: number 10 runners ::
        "--".toList :: []) := by
      rw [e]
      refine .blank (.inr rfl) ?_
      refine step _ (by simp) _ _ ?_
      refine step _ (by simp) _ _ ?_
      refine step _ (by simp) _ _ ?_
      refine step _ (by simp) _ _ ?_
      refine step _ (by simp) _ _ ?_
      refine step _ (by simp) _ _ ?_
      refine words_cons (number_plain worker).1 (number_plain worker).2.1 (words_blank ?_)
      refine step _ (by simp) _ _ ?_
      refine words_cons (number_plain runners).1 (number_plain runners).2.1 (words_blank ?_)
      exact step _ (by simp) _ _ .done
    rw [← C135_words_unique hw h] at hg
    exact given_unique hg ⟨["abq".toList, "test".toList], _, rfl, by decide, by decide, by decide⟩
  refine ⟨fun h => ?_, other⟩
  obtain ⟨ws, h1, v, h2, h3⟩ := h "nightly build".toList (by decide) rfl 0 1 (by decide) (by decide) (by decide) [] [] .done
  have e := other _ _ _ _ h1 h2
  rw [e] at h3
  exact absurd h3 (by decide)

end Abq.Props
