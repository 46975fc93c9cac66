import Verif.Model.JsonText

/-!
# What JSON texts are to satisfy

The vocabulary of `Props/JsonText.lean`: how deep a document is nested, and which documents `serde_json` can hold.
-/

namespace Abq.Spec.JsonText
open RunStateDoc (Json)
open Abq.JsonText (Byte Floats)

mutual
/-- How many arrays and objects are around the innermost value, at most. -/
def depth : Json → Nat
  | .arr l => 1 + depths l
  | .obj m => 1 + memberDepths m
  | _ => 0
def depths : List Json → Nat
  | [] => 0
  | j :: l => max (depth j) (depths l)
def memberDepths : List (String × Json) → Nat
  | [] => 0
  | (_, j) :: l => max (depth j) (memberDepths l)
end

/-- The text of a number: a sign, digits, digits after a point, and an exponent. -/
structure Number where
  neg : Bool
  whole : List (Fin 10)
  fraction : List (Fin 10)
  /-- with its sign, which is `-` if `true` and may be missing -/
  exponent : Option (Option Bool × List (Fin 10))
  /-- the exponent is written with a capital letter -/
  capital : Bool := false

def digit (d : Fin 10) : Byte := UInt8.ofNat (48 + d.val)

def Number.text (n : Number) : List Byte :=
  (if n.neg then [45] else []) ++ n.whole.map digit ++
  (if n.fraction = [] then [] else 46 :: n.fraction.map digit) ++
  (match n.exponent with
   | none => []
   | some (none, ds) => (if n.capital then 69 else 101) :: ds.map digit
   | some (some true, ds) => (if n.capital then 69 else 101) :: 45 :: ds.map digit
   | some (some false, ds) => (if n.capital then 69 else 101) :: 43 :: ds.map digit)

/-- There are digits where there must be, and no zero before other digits. -/
def Number.Ok (n : Number) : Prop :=
  n.whole ≠ [] ∧ (n.whole.head? = some 0 → n.whole.length = 1) ∧ (∀ s ds, n.exponent = some (s, ds) → ds ≠ [])

/-- With a fraction or an exponent. -/
def Number.IsFloat (n : Number) : Prop := n.Ok ∧ (n.fraction ≠ [] ∨ n.exponent ≠ none)

/-- The number is the integer `i`, and is kept as one: it has 64 bits, and is not `-0`. -/
def Number.Is (n : Number) (i : Int) : Prop :=
  n.fraction = [] ∧ n.exponent = none ∧
  i = (if n.neg then -1 else 1) * ((n.whole.foldl (fun v d => v * 10 + d.val) 0 : Nat) : Int) ∧
  -2 ^ 63 ≤ i ∧ i < 2 ^ 64 ∧ (n.neg = true → i ≠ 0)

/-- `r` is what is printed for an `f64`, and it is read as the same `f64`. -/
def FloatKept (f : Floats) (r : String) : Prop :=
  (∃ n : Number, n.IsFloat ∧ Abq.JsonText.utf8 r = n.text) ∧ f.read (Abq.JsonText.utf8 r) = some r

mutual
/-- `serde_json` can hold the document: its integers are an `i64` or `u64`, and its other numbers are read as what they are
printed as. -/
def Holdable (f : Floats) : Json → Prop
  | .int n => -2 ^ 63 ≤ n ∧ n < 2 ^ 64
  | .float r => FloatKept f r
  | .arr l => HoldableAll f l
  | .obj m => HoldableMembers f m
  | _ => True
def HoldableAll (f : Floats) : List Json → Prop
  | [] => True
  | j :: l => Holdable f j ∧ HoldableAll f l
def HoldableMembers (f : Floats) : List (String × Json) → Prop
  | [] => True
  | (_, j) :: l => Holdable f j ∧ HoldableMembers f l
end

/-! ## The grammar

RFC 8259, with the limits of `serde_json`. -/

/-- What may be between tokens: spaces, tabs and line ends. -/
def Blank (t : List Byte) : Prop := ∀ b ∈ t, b = 32 ∨ b = 9 ∨ b = 10 ∨ b = 13

/-- The hexadecimal digits and their values. -/
def hexDigits : List (Byte × Nat) :=
  [(48, 0), (49, 1), (50, 2), (51, 3), (52, 4), (53, 5), (54, 6), (55, 7), (56, 8), (57, 9),
   (97, 10), (98, 11), (99, 12), (100, 13), (101, 14), (102, 15), (65, 10), (66, 11), (67, 12), (68, 13), (69, 14), (70, 15)]

/-- The four bytes are hexadecimal digits of `n`. -/
def Hex4 (a b c d : Byte) (n : Nat) : Prop :=
  ∃ w x y z, (a, w) ∈ hexDigits ∧ (b, x) ∈ hexDigits ∧ (c, y) ∈ hexDigits ∧ (d, z) ∈ hexDigits ∧
    n = w * 16 ^ 3 + x * 16 ^ 2 + y * 16 + z

/-- After a backslash, and what it stands for: `"`, `\`, `/`, backspace, form feed, line feed, carriage return, tab. -/
def shortEscapes : List (Byte × Byte) := [(34, 34), (92, 92), (47, 47), (98, 8), (102, 12), (110, 10), (114, 13), (116, 9)]

/-- What is between the quotes, and the bytes it stands for. -/
inductive Chars : List Byte → List Byte → Prop
  | nil : Chars [] []
  | plain {b t u} : ¬ b < 32 → b ≠ 34 → b ≠ 92 → Chars t u → Chars (b :: t) (b :: u)
  | short {e b t u} : (e, b) ∈ shortEscapes → Chars t u → Chars (92 :: e :: t) (b :: u)
  /-- `\uXXXX`; a `Char` is not a surrogate -/
  | unicode {a b c d t u} {ch : Char} : Hex4 a b c d ch.toNat → Chars t u →
      Chars (92 :: 117 :: a :: b :: c :: d :: t) (String.utf8EncodeChar ch ++ u)
  /-- two surrogates -/
  | pair {a b c d a' b' c' d' t u} {ch : Char} {hi lo : Nat} : Hex4 a b c d hi → Hex4 a' b' c' d' lo →
      0xD800 ≤ hi → hi < 0xDC00 → 0xDC00 ≤ lo → lo < 0xE000 → ch.toNat = 0x10000 + (hi - 0xD800) * 0x400 + (lo - 0xDC00) →
      Chars t u →
      Chars (92 :: 117 :: a :: b :: c :: d :: 92 :: 117 :: a' :: b' :: c' :: d' :: t) (String.utf8EncodeChar ch ++ u)

/-- The text of a string: quotes, and between them something that stands for its UTF-8 bytes. -/
def StringText (s : String) (t : List Byte) : Prop := ∃ body, t = 34 :: body ++ [34] ∧ Chars body s.toByteArray.data.toList

mutual
/-- `t` is a text of the document. -/
def Denotes (f : Floats) : Json → List Byte → Prop
  | .null, t => t = [110, 117, 108, 108]
  | .bool true, t => t = [116, 114, 117, 101]
  | .bool false, t => t = [102, 97, 108, 115, 101]
  | .int i, t => ∃ n : Number, n.Ok ∧ n.text = t ∧ n.Is i
  | .float r, t => ∃ n : Number, n.Ok ∧ n.text = t ∧ (∀ i, ¬ n.Is i) ∧ f.read t = some r
  | .str s, t => StringText s t
  | .arr l, t => ∃ body, t = 91 :: body ++ [93] ∧ Elems f l body
  | .obj m, t => ∃ body, t = 123 :: body ++ [125] ∧ Members f m body
/-- What is between the brackets. -/
def Elems (f : Floats) : List Json → List Byte → Prop
  | [], t => Blank t
  | j :: l, t => ∃ w v w' r, t = w ++ v ++ w' ++ r ∧ Blank w ∧ Blank w' ∧ Denotes f j v ∧ MoreElems f l r
/-- More elements, each after a comma. -/
def MoreElems (f : Floats) : List Json → List Byte → Prop
  | [], t => t = []
  | j :: l, t => ∃ w v w' r, t = 44 :: (w ++ v ++ w' ++ r) ∧ Blank w ∧ Blank w' ∧ Denotes f j v ∧ MoreElems f l r
def Members (f : Floats) : List (String × Json) → List Byte → Prop
  | [], t => Blank t
  | (k, j) :: l, t => ∃ w₁ n w₂ w₃ v w₄ r, t = w₁ ++ n ++ w₂ ++ 58 :: (w₃ ++ v ++ w₄ ++ r) ∧
      Blank w₁ ∧ Blank w₂ ∧ Blank w₃ ∧ Blank w₄ ∧ StringText k n ∧ Denotes f j v ∧ MoreMembers f l r
def MoreMembers (f : Floats) : List (String × Json) → List Byte → Prop
  | [], t => t = []
  | (k, j) :: l, t => ∃ w₁ n w₂ w₃ v w₄ r, t = 44 :: (w₁ ++ n ++ w₂ ++ 58 :: (w₃ ++ v ++ w₄ ++ r)) ∧
      Blank w₁ ∧ Blank w₂ ∧ Blank w₃ ∧ Blank w₄ ∧ StringText k n ∧ Denotes f j v ∧ MoreMembers f l r
end

/-- A text with this document, and nothing else but blanks. -/
def IsText (f : Floats) (j : Json) (t : List Byte) : Prop :=
  ∃ w v w', t = w ++ v ++ w' ∧ Blank w ∧ Blank w' ∧ Denotes f j v

end Abq.Spec.JsonText
