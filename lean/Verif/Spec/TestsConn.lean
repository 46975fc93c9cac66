import Verif.Model.TestsConn

/-!
# Vocabulary of C117 and C118
-/

namespace Abq.TestsConn

/-- The bundles of a list that belong to one connection, in order. -/
def on {β : Type} (c : Nat) (l : List (Nat × β)) : List β := (l.filter (fun x => x.1 == c)).map (·.2)

/-- How often a bundle was asked for. -/
def asks {β : Type} (as : List (Act β)) : Nat :=
  as.countP fun
    | .ask => true
    | _ => false

/-- A step in which the runner finds that an operation failed. -/
def Act.fails {β : Type} : Act β → Bool
  | .connect ok => !ok
  | .name ok _ => !ok
  | .request ok _ => !ok
  | .read ok => !ok
  | _ => false

/-- One of the first five attempts to connect succeeds. -/
def Poll.Connects {β : Type} (p : Poll β) : Prop := ∃ k, 1 ≤ k ∧ k ≤ 5 ∧ p.connects k = true

/-- The worker is told that the manifest is not there yet. -/
def Poll.Waits {β : Type} (p : Poll β) : Prop := p.Connects ∧ p.io = true ∧ p.reply = .notYetPersisted

/-- The matter ends like this: with a panic if there is no connection or no answer, else with what the queue says. -/
def Poll.Ends {β : Type} (p : Poll β) (r : Fetched β) : Prop :=
  (¬ p.Connects ∧ r = .panic) ∨ (p.Connects ∧ p.io = false ∧ r = .panic) ∨
  (p.Connects ∧ p.io = true ∧ ((∃ b, p.reply = .manifest b ∧ r = .manifest b) ∨ (p.reply = .error ∧ r = .error)))

end Abq.TestsConn
