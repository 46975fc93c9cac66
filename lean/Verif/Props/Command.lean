import Verif.Props.AllRunsJoin
import Verif.Spec.Command

/-!
# Differing test commands (C46), and the protocol version (C47)
-/

namespace Abq.Props
open Abq Runs Spec

variable {T : Type}

/-- **C46** (what the flag says). A worker is flagged exactly if the texts obtained by writing its program and arguments
one after the other differ. -/
theorem C46_flag_partial (blake3 : String → String) (hinj : ∀ a b, blake3 a = blake3 b → a = b) (acts : List (RunsAct T))
    (p : JoinParams) (d : Bool) (c c' : Command) (h : AdmittedWith acts p d) (hs : StartedWith blake3 acts p.rid c)
    (hp : p.hash = commandHash blake3 c') :
    d = true ↔ c.cmd.toList ++ c.args.flatMap String.toList ≠ c'.cmd.toList ++ c'.args.flatMap String.toList := by
  obtain ⟨i, ans, ok, hpend, hev⟩ := h
  obtain ⟨x, hx, hor, hd⟩ := C11_command_differs acts i ans ok p d hpend hev
  rw [hd, hs x hx hor, hp]
  constructor
  · rintro ⟨c0, e, hne⟩ heq
    cases e
    apply hne
    unfold commandHash
    rw [heq]
  · intro hne
    refine ⟨_, rfl, fun e => hne ?_⟩
    have := congrArg String.toList (hinj _ _ e)
    simpa using this

/-- **C46.** Nobody with the same command is flagged. -/
theorem C46_same_not_flagged (blake3 : String → String) (acts : List (RunsAct T))
    (p : JoinParams) (d : Bool) (c : Command) (h : AdmittedWith acts p d) (hs : StartedWith blake3 acts p.rid c)
    (hp : p.hash = commandHash blake3 c) : d = false := by
  obtain ⟨i, ans, ok, hpend, hev⟩ := h
  obtain ⟨x, hx, hor, hd⟩ := C11_command_differs acts i ans ok p d hpend hev
  cases d with
  | false => rfl
  | true =>
    obtain ⟨c0, e, hne⟩ := hd.mp rfl
    rw [hs x hx hor] at e
    cases e
    exact absurd hp.symm hne

/-- **C46** (for a change in one place). If the commands have the same program and arguments but for one argument, or but
for the program, the worker is flagged. -/
theorem C46_one_change_flagged_partial (blake3 : String → String) (hinj : ∀ a b, blake3 a = blake3 b → a = b)
    (acts : List (RunsAct T)) (p : JoinParams) (d : Bool) (cmd cmd' x y : String) (pre post : List String)
    (h : AdmittedWith acts p d)
    (hch : (cmd ≠ cmd' ∧ x = y) ∨ (cmd = cmd' ∧ x ≠ y))
    (hs : StartedWith blake3 acts p.rid ⟨cmd, pre ++ x :: post⟩)
    (hp : p.hash = commandHash blake3 ⟨cmd', pre ++ y :: post⟩) : d = true := by
  rw [C46_flag_partial blake3 hinj acts p d _ _ h hs hp]
  intro e
  simp only [List.flatMap_append, List.flatMap_cons] at e
  rcases hch with ⟨hne, rfl⟩ | ⟨rfl, hne⟩
  · exact hne (String.ext (List.append_cancel_right e))
  · have e' := List.append_cancel_left (List.append_cancel_left e)
    exact hne (String.ext (List.append_cancel_right e'))

/-- **C46** (for arguments added at the end). -/
theorem C46_more_arguments_flagged_partial (blake3 : String → String) (hinj : ∀ a b, blake3 a = blake3 b → a = b)
    (acts : List (RunsAct T)) (p : JoinParams) (d : Bool) (cmd x : String) (pre post : List String)
    (h : AdmittedWith acts p d) (hx : x ≠ "")
    (hs : StartedWith blake3 acts p.rid ⟨cmd, pre⟩)
    (hp : p.hash = commandHash blake3 ⟨cmd, pre ++ x :: post⟩) : d = true := by
  rw [C46_flag_partial blake3 hinj acts p d _ _ h hs hp]
  intro e
  simp only [List.flatMap_append, List.flatMap_cons] at e
  have e' := congrArg List.length e
  simp only [List.length_append] at e'
  have : x.toList.length ≠ 0 := by
    intro h0
    exact hx (String.ext (by rw [List.length_eq_zero_iff.mp h0]; rfl))
  omega

/-- A run in which the first worker runs `make -j 4` and a later one `make -j4` or `make -j 5`. -/
def commandJoin (n : Nat) (c : Command) : JoinParams :=
  { Sample.jp n with hash := commandHash id c }

def commandSchedule (c c' : Command) : List (RunsAct Nat) :=
  [.join (commandJoin 1 c), .resume 0 .notFound true, .join (commandJoin 2 c')]

theorem commandSchedule_started (c c' : Command) : StartedWith id (commandSchedule c c') "run" c := by
  have : ((init : Runs Nat).run (commandSchedule c c')).events = [.joined (commandJoin 1 c) (.fresh true false)] := rfl
  intro x hx _
  rw [this, List.mem_singleton] at hx
  subst hx
  rfl

/-- **C46 fails** as stated: with `make -j 4` and `make -j4` (or `rspec spec` and `rspecspec`) the worker is not flagged,
whatever the hash function. -/
theorem C46_full_statement_fails :
    ¬ ∀ (blake3 : String → String) (_ : ∀ a b, blake3 a = blake3 b → a = b) (acts : List (RunsAct Nat)) (p : JoinParams)
      (d : Bool) (c c' : Command), AdmittedWith acts p d → StartedWith blake3 acts p.rid c →
      p.hash = commandHash blake3 c' → (d = true ↔ c ≠ c') := by
  intro h
  have := h id (fun _ _ e => e) (commandSchedule ⟨"make", ["-j", "4"]⟩ ⟨"make", ["-j4"]⟩) (commandJoin 2 ⟨"make", ["-j4"]⟩)
    false ⟨"make", ["-j", "4"]⟩ ⟨"make", ["-j4"]⟩ ⟨1, .notFound, true, rfl, .inl rfl⟩ (commandSchedule_started _ _) rfl
  exact absurd (this.mpr (by decide)) (by decide)

example (blake3 : String → String) :
    commandHash blake3 ⟨"rspec", ["spec"]⟩ = commandHash blake3 ⟨"rspecspec", []⟩ := rfl

/-- The hypotheses above are met by a run in which the second worker's last argument differs. -/
example : AdmittedWith (commandSchedule ⟨"make", ["-j", "4"]⟩ ⟨"make", ["-j", "5"]⟩)
    (commandJoin 2 ⟨"make", ["-j", "5"]⟩) true :=
  ⟨1, .notFound, true, rfl, .inl rfl⟩

/-- **C47.** A native runner is accepted exactly if it connects in time and announces version 0.2. -/
theorem C47_only_supported_version (s : Spawned) :
    (∃ w, openConnection s = .ok w) ↔ ∃ v, s = .announced v ∧ v.major = 0 ∧ v.minor = 2 := by
  cases s with
  | announced v =>
    obtain ⟨a, b⟩ := v
    by_cases h : a = 0 ∧ b = 2
    · obtain ⟨rfl, rfl⟩ := h
      exact ⟨fun _ => ⟨_, rfl, rfl, rfl⟩, fun _ => ⟨.v0_2, rfl⟩⟩
    · have e : (⟨a, b⟩ : ProtocolVersion).supported = none := by
        unfold ProtocolVersion.supported
        rw [if_neg]
        intro e; cases e; exact h ⟨rfl, rfl⟩
      constructor
      · rintro ⟨w, hw⟩; simp [openConnection, e] at hw
      · rintro ⟨v, hv, h1, h2⟩; cases hv; exact absurd ⟨h1, h2⟩ h
  | timeout => simp [openConnection]
  | acceptFailed => simp [openConnection]
  | readFailed => simp [openConnection]

/-- **C47.** Every other version is reported as incompatible. -/
theorem C47_other_versions (v : ProtocolVersion) (h : v ≠ ⟨0, 2⟩) :
    openConnection (.announced v) = .error .notCompatible := by
  simp [openConnection, ProtocolVersion.supported, h]

example : openConnection (.announced ⟨0, 2⟩) = .ok .v0_2 := rfl
example : openConnection (.announced ⟨0, 1⟩) = .error .notCompatible := rfl

example : AdmittedWith (commandSchedule ⟨"make", ["-j", "4"]⟩ ⟨"make", ["-j", "4"]⟩) (commandJoin 2 ⟨"make", ["-j", "4"]⟩) false ∧
    StartedWith id (commandSchedule ⟨"make", ["-j", "4"]⟩ ⟨"make", ["-j", "4"]⟩) "run" ⟨"make", ["-j", "4"]⟩ :=
  ⟨⟨1, .notFound, true, rfl, .inl rfl⟩, commandSchedule_started _ _⟩

end Abq.Props
