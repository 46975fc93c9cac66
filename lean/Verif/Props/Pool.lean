import Verif.Proof.Pool

/-!
# What a pool of runners reports when it ends (C43, C62)
-/

namespace Abq.Props
open Abq.Pool

theorem codes_lastOk (js : List Joined) (k : Nat) (d : Int) :
    (codes js).getLastD d = match lastOk k js with | some (_, e) => e.exitCode | none => d := by
  induction js generalizing k d with
  | nil => rfl
  | cons j js ih =>
    cases j with
    | ok e =>
      show (e.exitCode :: codes js).getLastD d = match (lastOk (k + 1) js).or (some (k, e)) with | some (_, e) => e.exitCode | none => d
      rw [List.getLastD_cons, ih (k + 1)]
      cases lastOk (k + 1) js <;> rfl
    | err e => exact ih (k + 1) d
    | panicked => exact ih (k + 1) d

theorem lastManifest_lastOk (js : List Joined) (m : Option (Nat × Output)) (k : Nat) :
    lastManifest m k js =
      match lastOk k js with | some (k', e) => e.manifestOutput.map (fun o => (k', o)) | none => m := by
  induction js generalizing k m with
  | nil => rfl
  | cons j js ih =>
    cases j with
    | ok e =>
      show lastManifest (e.manifestOutput.map fun o => (k, o)) (k + 1) js =
        match (lastOk (k + 1) js).or (some (k, e)) with | some (k', e) => e.manifestOutput.map (fun o => (k', o)) | none => m
      rw [ih]
      cases lastOk (k + 1) js <;> rfl
    | err e => exact ih m (k + 1)
    | panicked => exact ih m (k + 1)

/-- **C43** (only if no runner's exit code is higher than that of the last runner that ended without an error).
The pool's exit code is the highest of its runners'. -/
theorem C43_exit_code_partial (js : List Joined) (hp : Joined.panicked ∉ js) (he : messages js = [])
    (hl : ∀ c ∈ codes js, c ≤ (codes js).getLastD 0) :
    ∃ x c, shutdown js = some x ∧ x.status = .completed c ∧ IsHighest c (codes js) := by
  obtain ⟨a, h1, h2, h3, _⟩ := loop_eq js Acc.init 1 hp
  refine ⟨_, (codes js).getLastD 0, by unfold shutdown; rw [h1], ?_, ?_⟩
  · have : a.errors = [] := by rw [h2, he]; rfl
    simp only [this, ne_eq, not_true_eq_false, if_false]
    rw [h3]; rfl
  · by_cases hc : codes js = []
    · exact .inl ⟨hc, by rw [hc]; rfl⟩
    · exact .inr ⟨getLastD_mem _ _ hc, hl⟩

/-- **C43** (only for output of the last runner that ended without an error, which is the runner generating the
manifest if there is one runner). Output captured while generating the manifest is reported. -/
theorem C43_manifest_output_partial (js : List Joined) (e : RunnerExit) (o : Output) (errs : List Joined)
    (hp : Joined.panicked ∉ js ++ .ok e :: errs) (ho : e.manifestOutput = some o) (hn : ∀ e', Joined.ok e' ∉ errs) :
    ∃ x, shutdown (js ++ .ok e :: errs) = some x ∧ x.manifestOutput = some (js.length + 1, o) := by
  obtain ⟨a, h1, -, -, -, h5, -⟩ := loop_eq (js ++ .ok e :: errs) Acc.init 1 hp
  refine ⟨_, by unfold shutdown; rw [h1], ?_⟩
  dsimp only
  rw [h5]
  clear h5 h1 hp
  have : ∀ m k, lastManifest m k (js ++ .ok e :: errs) = some (js.length + k, o) := by
    induction js with
    | nil =>
      intro m k
      show lastManifest (e.manifestOutput.map fun o => (k, o)) (k + 1) errs = _
      rw [lastManifest_errors errs _ _ hn, ho]; simp
    | cons j js ih =>
      intro m k
      have hk : js.length + (k + 1) = (j :: js).length + k := by simp; omega
      cases j with
      | ok e' => rw [← hk]; exact ih _ _
      | err e' => rw [← hk]; exact ih _ _
      | panicked => rw [← hk]; exact ih _ _
  rw [this]

/-- **C43**, what the code does, whatever the runners do: the exit code is that of the last runner that ended without an
error (0 if there is none), and the output captured while generating the manifest is that of the same runner, if it
has any. -/
theorem C43_exact (js : List Joined) (hp : Joined.panicked ∉ js) :
    ∃ x, shutdown js = some x ∧
      (messages js = [] → x.status = .completed (match lastOk 1 js with | some (_, e) => e.exitCode | none => 0)) ∧
      (∀ k o, x.manifestOutput = some (k, o) ↔ ∃ e, lastOk 1 js = some (k, e) ∧ e.manifestOutput = some o) := by
  obtain ⟨a, h1, h2, h3, _, h5, _⟩ := loop_eq js Acc.init 1 hp
  refine ⟨_, by unfold shutdown; rw [h1], ?_, ?_⟩
  · intro he
    have : a.errors = [] := by rw [h2, he]; rfl
    simp only [this, ne_eq, not_true_eq_false, if_false]
    rw [h3]
    exact congrArg Status.completed (codes_lastOk js 1 0)
  · intro k o
    dsimp only
    rw [h5, lastManifest_lastOk]
    cases h : lastOk 1 js with
    | none => simp [Acc.init]
    | some x =>
      obtain ⟨k', e⟩ := x
      constructor
      · intro hm
        simp only [Option.map_eq_some_iff, Prod.mk.injEq] at hm
        obtain ⟨o', ho, rfl, rfl⟩ := hm
        exact ⟨e, rfl, ho⟩
      · rintro ⟨e', he, ho⟩
        cases he
        simp [ho]

/-- One runner that generated the manifest and failed with code 5, one that ended with 0. -/
def failedThenFine : List Joined :=
  [.ok ⟨5, some [104, 105], ([], []), [], none⟩, .ok ⟨0, none, ([], []), [], none⟩]

/-- **C43 fails** as stated: with two runners ending with 5 and then 0 the pool's exit code is 0, not the highest. -/
theorem C43_full_statement_fails :
    ¬ ∀ js : List Joined, Joined.panicked ∉ js → messages js = [] →
      ∃ x c, shutdown js = some x ∧ x.status = .completed c ∧ IsHighest c (codes js) := by
  intro h
  obtain ⟨x, c, h1, h2, h3⟩ := h failedThenFine (by decide) (by decide)
  have : shutdown failedThenFine = some ⟨.completed 0, none, none, [(1, [], []), (2, [], [])], [(1, []), (2, [])]⟩ := by
    decide
  rw [this] at h1
  cases h1
  cases h2
  rcases h3 with ⟨h3, _⟩ | ⟨_, h3⟩
  · revert h3; decide
  · exact absurd (h3 5 (by decide)) (by decide)

/-- **C43 fails**: output captured while generating the manifest is lost whenever a later runner ends normally, since
only the first runner generates a manifest. -/
theorem C43_manifest_output_lost (e : RunnerExit) (js : List Joined) (hp : Joined.panicked ∉ js)
    (hn : ∀ e', Joined.ok e' ∈ js → e'.manifestOutput = none) (he : ∃ e', Joined.ok e' ∈ js) :
    ∃ x, shutdown (.ok e :: js) = some x ∧ x.manifestOutput = none := by
  obtain ⟨a, h1, _, _, _, h5, _⟩ := loop_eq (.ok e :: js) Acc.init 1 (by simpa using hp)
  refine ⟨_, by unfold shutdown; rw [h1], ?_⟩
  dsimp only
  rw [h5]
  exact lastManifest_none js _ _ hn he

example : lastOk 1 failedThenFine = some (2, ⟨0, none, ([], []), [], none⟩) := by decide
example : (shutdown failedThenFine).map (·.manifestOutput) = some none := by decide
example : manifestOutputs 1 failedThenFine = [(1, [104, 105])] := by decide

/-- **C62.** If any runner ended with an error the pool reports an error with exactly the messages of those that
did, in the order of the runners; if none did it completed. -/
theorem C62_errors (js : List Joined) (hp : Joined.panicked ∉ js) :
    ∃ x, shutdown js = some x ∧
      (messages js ≠ [] → x.status = .error (messages js)) ∧
      (messages js = [] → ∃ c, x.status = .completed c) := by
  obtain ⟨a, h1, h2, _⟩ := loop_eq js Acc.init 1 hp
  have h2 : a.errors = messages js := h2
  refine ⟨_, by unfold shutdown; rw [h1], ?_, ?_⟩
  · intro h; simp only [h2, h, ne_eq, not_false_eq_true, if_true]
  · intro h; exact ⟨a.highest, by simp only [h2, h, ne_eq, not_true_eq_false, if_false]⟩

/-- **C62.** There is exactly one final output per runner, its own, in order; and what is known of the native runner
is what the first runner knows that knows anything. -/
theorem C62_outputs (js : List Joined) (hp : Joined.panicked ∉ js) :
    ∃ x, shutdown js = some x ∧ x.processOutputs = (js.mapIdx fun i j => (i + 1, outputOf j)) ∧
      x.finalStdio.length = js.length ∧ x.nativeRunnerInfo = js.findSome? infoOf := by
  obtain ⟨a, h1, _, _, h4, _, h6, h7⟩ := loop_eq js Acc.init 1 hp
  refine ⟨_, by unfold shutdown; rw [h1], ?_, ?_, ?_⟩
  · dsimp only; rw [h4]; show [] ++ _ = _
    rw [List.nil_append]; congr 1; funext i j; congr 1; omega
  · dsimp only; rw [h7]; simp [Acc.init]
  · dsimp only; rw [h6]; simp [Acc.init]

/-- **C62.** The process exits with 101 if a runner ended with an error; otherwise with 0 only if the suite passed
and the last runner ended with a code of at most 0, and never with less than the suite's code. -/
theorem C62_process_exit_code (js : List Joined) (hp : Joined.panicked ∉ js) (suite : Int) :
    ∃ x, shutdown js = some x ∧
      (messages js ≠ [] → processExitCode suite x.status = 101) ∧
      (messages js = [] → suite ≤ processExitCode suite x.status ∧
        processExitCode suite x.status = max suite ((codes js).getLastD 0)) := by
  obtain ⟨a, h1, h2, h3, _⟩ := loop_eq js Acc.init 1 hp
  have h2 : a.errors = messages js := h2
  have h3 : a.highest = (codes js).getLastD 0 := h3
  refine ⟨_, by unfold shutdown; rw [h1], ?_, ?_⟩
  · intro h; simp only [h2, h, ne_eq, not_false_eq_true, if_true]; rfl
  · intro h; simp only [h2, h, ne_eq, not_true_eq_false, if_false, h3, processExitCode]
    exact ⟨by omega, trivial⟩

/-- A panic in any runner's task is not swallowed: shutting down panics. -/
theorem C62_panic (js : List Joined) (h : Joined.panicked ∈ js) : shutdown js = none := by
  unfold shutdown; rw [loop_panics js h]

example : shutdown [.err ⟨"boom", ([104], []), some 3⟩, .ok ⟨1, none, ([], []), [1, 2], some 4⟩] =
    some ⟨.error ["boom"], some 3, none, [(1, [104], []), (2, [], [])], [(1, [104, 10]), (2, [1, 2])]⟩ := by decide
example : processExitCode 1 (.completed 0) = 1 := by decide

end Abq.Props
