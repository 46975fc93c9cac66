import Verif.Model.Login

/-! What C126 speaks about. -/

namespace Abq.Spec.Login
open Abq.Login

/-- The TOML library reads what it wrote. -/
def Faithful (toml : Toml) : Prop := ∀ t, toml.read (toml.write t) = some t

/-- A file that was not written to its end is not taken for one with another token. -/
def Cautious (toml : Toml) : Prop :=
  ∀ t n, toml.read ((toml.write t).take n) = none ∨ toml.read ((toml.write t).take n) = some t

/-- The file named by `ABQ_CONFIG_FILE`, or else the conventional one. -/
def PlaceOf (e : Env) (p : String) : Prop :=
  (e.configFile = some p ∧ p ≠ "") ∨ (e.configFile = none ∧ ∃ h, e.home = some h ∧ p = h ++ "/.abq/config.toml")

/-- White space of Unicode 15. -/
def Space (c : Char) : Prop :=
  c.toNat ∈ [9, 10, 11, 12, 13, 32, 133, 160, 5760, 8192, 8193, 8194, 8195, 8196, 8197, 8198, 8199, 8200, 8201, 8202, 8232,
    8233, 8239, 8287, 12288]

/-- `t` is the token the user gave: as an argument or in the environment, or else typed, with white space around it. -/
def Told (c : Call) (t : String) : Prop :=
  c.given = some t ∨
  (c.given = none ∧ ∃ l r : List Char, c.typed = some (String.ofList (l ++ t.toList ++ r)) ∧
    (∀ x ∈ l, Space x) ∧ (∀ x ∈ r, Space x) ∧ (∀ x, t.toList.head? = some x → ¬ Space x) ∧
    (∀ x, t.toList.getLast? = some x → ¬ Space x))

/-- A call whose writing came to an end early: the disk was full, or the process was killed. -/
def CutShort (c : Call) : Prop := ∃ n k, c.disk = .cut n k

/-- What a command uses that looks at `p` and is not given a token. -/
def Kept (toml : Toml) (files : Files) (p : String) (t : Option String) : Prop :=
  ∀ e, PlaceOf e p → uses toml e files none = .token t

/-- C126 in full: the last token of which `abq login` said that it stored it in a file is used by every later command that looks
at this file and is not given one. -/
def KeptStatement : Prop :=
  ∀ toml, Faithful toml → Cautious toml → ∀ (files : Files) (c : Call) (cs : List Call) (p t : String), Told c t →
    (login toml files c).2 = .stored p →
    (∀ pre c' post, cs = pre ++ c' :: post → (login toml (logins toml (login toml files c).1 pre) c').2 ≠ .stored p) →
    Kept toml (logins toml (login toml files c).1 cs) p (some t)

/-! ## An example of a TOML library

It writes `rwx_access_token = "…"` and a line feed, and reads this with or without the line feed. -/

/-- What comes before the token. -/
def header : List Nat := [114, 119, 120, 95, 97, 99, 99, 101, 115, 115, 95, 116, 111, 107, 101, 110, 32, 61, 32, 34]

/-- A string without its quotes: quotes and backslashes have a backslash before them. -/
def escape : List Nat → List Nat
  | [] => []
  | c :: cs => if c = 34 ∨ c = 92 then 92 :: c :: escape cs else c :: escape cs

/-- The string up to its closing quote, after which there is at most a line feed. -/
def unquote (acc : List Nat) : List Nat → Option (List Nat)
  | [] => none
  | [c] => if c = 34 then some acc else none
  | c :: d :: rest =>
    if c = 34 then (if d = 10 ∧ rest = [] then some acc else none)
    else if c = 92 then unquote (acc ++ [d]) rest
    else unquote (acc ++ [c]) (d :: rest)

/-- The rest after a prefix. -/
def strip : List Nat → List Nat → Option (List Nat)
  | [], b => some b
  | _ :: _, [] => none
  | a :: as, b :: bs => if a = b then strip as bs else none

/-- The example. -/
def quoted : Toml where
  write t := header ++ (escape (t.toList.map Char.toNat) ++ [34, 10])
  read b :=
    match strip header b with
    | none => none
    | some b =>
      match unquote [] b with
      | none => none
      | some cs => some (String.ofList (cs.map Char.ofNat))

end Abq.Spec.Login
