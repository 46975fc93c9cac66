import Verif.Model.ReplayHint
/-!
# What a shell makes of a line, as far as it has no quotes and nothing else of which a shell makes something special
-/

namespace Abq.Spec.ReplayHint

/-- The characters that stand for themselves in a POSIX shell, wherever they are in an argument. -/
def Plain (c : Char) : Prop :=
  ('a' ≤ c ∧ c ≤ 'z') ∨ ('A' ≤ c ∧ c ≤ 'Z') ∨ ('0' ≤ c ∧ c ≤ '9') ∨ c ∈ ['-', '_', '.', '/', ':', '@', '%', '+', ',', '=']

/-- What is between words. -/
def Blank (c : Char) : Prop := c = ' ' ∨ c = '\t'

/-- The words of a line. A line with a character that is neither plain nor blank is none of which this says anything. -/
inductive Words : List Char → List (List Char) → Prop where
  | done : Words [] []
  | blank {c s ws} : Blank c → Words s ws → Words (c :: s) ws
  | word {w s ws} : w ≠ [] → (∀ c ∈ w, Plain c) → (∀ c, s.head? = some c → Blank c) → Words s ws → Words (w ++ s) (w :: ws)

/-- Among the words of a command an option is given a value, by the first mention of it, before the arguments that are after `--`. A
word that begins with a dash is not taken for a value. -/
def Given (ws : List (List Char)) (option value : List Char) : Prop :=
  ∃ before after, ws = before ++ option :: value :: after ∧ "--".toList ∉ before ∧ option ∉ before ∧ value.head? ≠ some '-'

/-- The command of the user, after `--`. -/
def Runs (ws : List (List Char)) (command : List (List Char)) : Prop :=
  ∃ before, ws = before ++ "--".toList :: command ∧ "--".toList ∉ before

end Abq.Spec.ReplayHint
