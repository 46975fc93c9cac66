import Verif.Model.RunStateDoc

/-!
# The text of JSON documents

All messages (`abq_utils/src/net_protocol.rs:983,1175-1177,1354`), manifests (`abq_queue/src/persistence/manifest/fs.rs:110-126,254`),
lines of results (`persistence/results/fs.rs:340`, `net_protocol.rs:759-795`) and run states (`persistence/run_state.rs:86-110`) are
JSON texts written by `serde_json::to_vec`/`to_writer` and read by `from_slice`/`from_str`/`from_reader` of `serde_json` 1.0.94
with the features of `/repo/Cargo.toml:29` (no `float_roundtrip`, no `unbounded_depth`). This is a model of that library, which is
not part of the repository.

The writer is the compact one. The reader is a machine that takes one byte at a time and keeps a stack of the arrays and objects it
is in; the library does the same by recursion. Simplifications: numbers with a fraction, with an exponent or outside the range of 64
bits are kept as the text `serde_json` would print for the `f64` it reads (`Floats`); all strings are checked to be UTF-8, also those
in members which are ignored.
-/

namespace Abq.JsonText
open RunStateDoc (Json)

/-- Bytes of texts (`serde_json`, called at `net_protocol.rs:1354`, `results/fs.rs:340`, `run_state.rs:104`). -/
abbrev Byte := UInt8

/-- The bytes of a string (`serde_json`, called at `net_protocol.rs:1354`, `results/fs.rs:340`, `run_state.rs:104`). -/
def utf8 (s : String) : List Byte := s.toByteArray.data.toList

/-- The string of some bytes, if they are UTF-8 (`serde_json`, called at `net_protocol.rs:983, 1175-1177`,
`run_state.rs:86`). -/
def ofUtf8 (bs : List Byte) : Option String := String.fromUTF8? ⟨bs.toArray⟩

/-- Reading a number as `f64`: the text that would be printed for it; `none` if it is out of range (`serde_json`, called at
`net_protocol.rs:983, 1175-1177`, `run_state.rs:86`). -/
structure Floats where
  read : List Byte → Option String

/-! ## Writing -/

/-- A hexadecimal digit as it is written (`serde_json`, called at `net_protocol.rs:1354`, `results/fs.rs:340`,
`run_state.rs:104`). -/
def hexDigit (n : Nat) : Byte := if n < 10 then UInt8.ofNat (48 + n) else UInt8.ofNat (87 + n)

/-- `serde_json`'s table `ESCAPE` and `write_char_escape`: what is written for a byte of a string (`serde_json`, called at
`net_protocol.rs:1354`, `results/fs.rs:340`, `run_state.rs:104`). -/
def escape (b : Byte) : List Byte :=
  if b = 34 then [92, 34]
  else if b = 92 then [92, 92]
  else if b = 8 then [92, 98]
  else if b = 9 then [92, 116]
  else if b = 10 then [92, 110]
  else if b = 12 then [92, 102]
  else if b = 13 then [92, 114]
  else if b < 32 then [92, 117, 48, 48, hexDigit (b.toNat / 16), hexDigit (b.toNat % 16)]
  else [b]

/-- A string in quotes (`serde_json`, called at `net_protocol.rs:1354`, `results/fs.rs:340`, `run_state.rs:104`). -/
def printStr (s : String) : List Byte := 34 :: (utf8 s).flatMap escape ++ [34]

/-- A number in decimal (`itoa`) (`serde_json`, called at `net_protocol.rs:1354`, `results/fs.rs:340`, `run_state.rs:104`).
-/
def digits (n : Nat) : List Byte :=
  if n < 10 then [UInt8.ofNat (48 + n)] else digits (n / 10) ++ [UInt8.ofNat (48 + n % 10)]
termination_by n

/-- An integer in decimal (`serde_json`, called at `net_protocol.rs:1354`, `results/fs.rs:340`, `run_state.rs:104`). -/
def printInt : Int → List Byte
  | .ofNat n => digits n
  | .negSucc n => 45 :: digits (n + 1)

mutual
/-- `serde_json::to_vec`, `to_writer` (`serde_json`, called at `net_protocol.rs:1354`, `results/fs.rs:340`,
`run_state.rs:104`). -/
def print : Json → List Byte
  | .null => [110, 117, 108, 108]
  | .bool true => [116, 114, 117, 101]
  | .bool false => [102, 97, 108, 115, 101]
  | .int n => printInt n
  | .float r => utf8 r
  | .str s => printStr s
  | .arr l => 91 :: printElems l
  | .obj m => 123 :: printMembers m
/-- The elements and the closing bracket (`serde_json`, called at `net_protocol.rs:1354`, `results/fs.rs:340`,
`run_state.rs:104`). -/
def printElems : List Json → List Byte
  | [] => [93]
  | j :: l => print j ++ printMoreElems l
/-- The elements after the first (`serde_json`, called at `net_protocol.rs:1354`, `results/fs.rs:340`, `run_state.rs:104`).
-/
def printMoreElems : List Json → List Byte
  | [] => [93]
  | j :: l => 44 :: print j ++ printMoreElems l
/-- The members and the closing brace (`serde_json`, called at `net_protocol.rs:1354`, `results/fs.rs:340`,
`run_state.rs:104`). -/
def printMembers : List (String × Json) → List Byte
  | [] => [125]
  | (k, j) :: l => printStr k ++ 58 :: print j ++ printMoreMembers l
/-- The members after the first (`serde_json`, called at `net_protocol.rs:1354`, `results/fs.rs:340`, `run_state.rs:104`). -/
def printMoreMembers : List (String × Json) → List Byte
  | [] => [125]
  | (k, j) :: l => 44 :: printStr k ++ 58 :: print j ++ printMoreMembers l
end

/-! ## Reading -/

/-- An array or object that has been begun; `member` is an object with the name of the member whose value comes next
(`serde_json`, called at `net_protocol.rs:983, 1175-1177`, `run_state.rs:86`). -/
inductive Frame where
  | arr (l : List Json)
  | obj (m : List (String × Json))
  | member (m : List (String × Json)) (key : String)

/-- What the string being read is (`serde_json`, called at `net_protocol.rs:983, 1175-1177`, `run_state.rs:86`). -/
inductive Use where
  | value
  | key
deriving DecidableEq

/-- What may come next (`serde_json`, called at `net_protocol.rs:983, 1175-1177`, `run_state.rs:86`). -/
inductive Mode where
  | value
  | elemOrEnd
  | nextElem
  | keyOrEnd
  | key
  | nextMember
  | colon
  | str (use : Use) (acc : List Byte)
  | esc (use : Use) (acc : List Byte)
  /-- in `\uXXXX`: the digits to come, and the number so far -/
  | hex (use : Use) (acc : List Byte) (left : Nat) (code : Nat)
  /-- after a leading surrogate, with what is seen of `\u` and the digits -/
  | lowEsc (use : Use) (acc : List Byte) (hi : Nat)
  | lowU (use : Use) (acc : List Byte) (hi : Nat)
  | lowHex (use : Use) (acc : List Byte) (hi : Nat) (left : Nat) (code : Nat)
  | lit (rest : List Byte) (v : Json)
  | num (acc : List Byte)
  | done (v : Json)

/-- The state of the reader (`serde_json`, called at `net_protocol.rs:983, 1175-1177`, `run_state.rs:86`). -/
structure State where
  mode : Mode
  stack : List Frame

/-- `remaining_depth` of a new `Deserializer` (`serde_json`, called at `net_protocol.rs:983, 1175-1177`, `run_state.rs:86`).
-/
def depthLimit : Nat := 128

/-- Whitespace (`serde_json`, called at `net_protocol.rs:983, 1175-1177`, `run_state.rs:86`). -/
def isSpace (b : Byte) : Bool := b = 32 || b = 9 || b = 10 || b = 13
/-- A decimal digit (`serde_json`, called at `net_protocol.rs:983, 1175-1177`, `run_state.rs:86`). -/
def isDigit (b : Byte) : Bool := 48 ≤ b && b ≤ 57
/-- The bytes of which numbers consist (`serde_json`, called at `net_protocol.rs:983, 1175-1177`, `run_state.rs:86`). -/
def isNumByte (b : Byte) : Bool := isDigit b || b = 45 || b = 43 || b = 46 || b = 101 || b = 69

/-- The value of a hexadecimal digit (`serde_json`, called at `net_protocol.rs:983, 1175-1177`, `run_state.rs:86`). -/
def hexVal (b : Byte) : Option Nat :=
  if isDigit b then some (b.toNat - 48)
  else if 97 ≤ b && b ≤ 102 then some (b.toNat - 87)
  else if 65 ≤ b && b ≤ 70 then some (b.toNat - 55)
  else none

/-- The value of digits (`serde_json`, called at `net_protocol.rs:983, 1175-1177`, `run_state.rs:86`). -/
def decimal (ds : List Byte) : Nat := ds.foldl (fun n d => n * 10 + (d.toNat - 48)) 0

/-- An exponent, if any, and nothing else (`serde_json`, called at `net_protocol.rs:983, 1175-1177`, `run_state.rs:86`). -/
def exponentOk : List Byte → Bool
  | [] => true
  | e :: rest =>
    (e = 101 || e = 69) &&
      match rest with
      | [] => false
      | s :: ds => if s = 45 || s = 43 then !ds.isEmpty && ds.all isDigit else (s :: ds).all isDigit

/-- A fraction, if any, an exponent, if any, and nothing else (`serde_json`, called at `net_protocol.rs:983, 1175-1177`,
`run_state.rs:86`). -/
def fractionOk : List Byte → Bool
  | [] => true
  | b :: rest =>
    if b = 46 then !(rest.takeWhile isDigit).isEmpty && exponentOk (rest.dropWhile isDigit) else exponentOk (b :: rest)

/-- The digits before a fraction: not empty, and no zero before other digits (`serde_json`, called at
`net_protocol.rs:983, 1175-1177`, `run_state.rs:86`). -/
def integerOk (ds : List Byte) : Bool := !ds.isEmpty && (ds.length = 1 || ds.head? ≠ some 48)

/-- Whether there is a minus sign, and what comes after it (`serde_json`, called at `net_protocol.rs:983, 1175-1177`,
`run_state.rs:86`). -/
def sign : List Byte → Bool × List Byte
  | [] => (false, [])
  | b :: rest => if b = 45 then (true, rest) else (false, b :: rest)

/-- `parse_any_number`: integers of 64 bits are kept as such (`serde_json`, called at `net_protocol.rs:983, 1175-1177`,
`run_state.rs:86`). -/
def readNum (f : Floats) (text : List Byte) : Option Json :=
  let neg := (sign text).1
  let ds := (sign text).2.takeWhile isDigit
  let rest := (sign text).2.dropWhile isDigit
  if integerOk ds && fractionOk rest then
    if rest.isEmpty && !neg && decide (decimal ds < 2 ^ 64) then some (.int (decimal ds))
    else if rest.isEmpty && neg && decide (0 < decimal ds) && decide (decimal ds ≤ 2 ^ 63) then some (.int (-(decimal ds : Int)))
    else (f.read text).map .float
  else none

/-- The value is complete: it goes into the array or object it is in (`serde_json`, called at
`net_protocol.rs:983, 1175-1177`, `run_state.rs:86`). -/
def deliver (v : Json) : List Frame → State
  | [] => ⟨.done v, []⟩
  | .arr l :: st => ⟨.nextElem, .arr (l ++ [v]) :: st⟩
  | .member m k :: st => ⟨.nextMember, .obj (m ++ [(k, v)]) :: st⟩
  | .obj m :: st => ⟨.done v, .obj m :: st⟩

/-- The end of a string (`serde_json`, called at `net_protocol.rs:983, 1175-1177`, `run_state.rs:86`). -/
def endStr (st : List Frame) (use : Use) (acc : List Byte) : Option State :=
  match ofUtf8 acc with
  | none => none
  | some s =>
    match use with
    | .value => some (deliver (.str s) st)
    | .key =>
      match st with
      | .obj m :: st => some ⟨.colon, .member m s :: st⟩
      | _ => none

/-- An array or object is begun; `check_recursion!` (`serde_json`, called at `net_protocol.rs:983, 1175-1177`,
`run_state.rs:86`). -/
def open' (mode : Mode) (frame : Frame) (st : List Frame) : Option State :=
  if st.length + 1 < depthLimit then some ⟨mode, frame :: st⟩ else none

/-- `parse_value` at the first byte of a value (`serde_json`, called at `net_protocol.rs:983, 1175-1177`,
`run_state.rs:86`). -/
def beginValue (st : List Frame) (b : Byte) : Option State :=
  if b = 34 then some ⟨.str .value [], st⟩
  else if b = 91 then open' .elemOrEnd (.arr []) st
  else if b = 123 then open' .keyOrEnd (.obj []) st
  else if b = 110 then some ⟨.lit [117, 108, 108] .null, st⟩
  else if b = 116 then some ⟨.lit [114, 117, 101] (.bool true), st⟩
  else if b = 102 then some ⟨.lit [97, 108, 115, 101] (.bool false), st⟩
  else if isDigit b || b = 45 then some ⟨.num [b], st⟩
  else none

/-- The bytes of a code point below 65536 that is no surrogate, or of one made of two (`serde_json`, called at
`net_protocol.rs:983, 1175-1177`, `run_state.rs:86`). -/
def encodeChar (code : Nat) : Option (List Byte) :=
  if code.isValidChar then some (String.utf8EncodeChar (Char.ofNat code)) else none

/-- `parse_escape`, after the backslash (`serde_json`, called at `net_protocol.rs:983, 1175-1177`, `run_state.rs:86`). -/
def unescape (b : Byte) : Option Byte :=
  if b = 34 then some 34
  else if b = 92 then some 92
  else if b = 47 then some 47
  else if b = 98 then some 8
  else if b = 102 then some 12
  else if b = 110 then some 10
  else if b = 114 then some 13
  else if b = 116 then some 9
  else none

/-- The last digit of `\uXXXX` has been read (`serde_json`, called at `net_protocol.rs:983, 1175-1177`, `run_state.rs:86`).
-/
def endHex (st : List Frame) (use : Use) (acc : List Byte) (code : Nat) : Option State :=
  if 0xD800 ≤ code ∧ code < 0xDC00 then some ⟨.lowEsc use acc code, st⟩
  else (encodeChar code).map fun bs => ⟨.str use (acc ++ bs), st⟩

/-- The last digit of the second of two surrogates has been read (`serde_json`, called at `net_protocol.rs:983, 1175-1177`,
`run_state.rs:86`). -/
def endLow (st : List Frame) (use : Use) (acc : List Byte) (hi code : Nat) : Option State :=
  if 0xDC00 ≤ code ∧ code < 0xE000 then
    (encodeChar (0x10000 + (hi - 0xD800) * 1024 + (code - 0xDC00))).map fun bs => ⟨.str use (acc ++ bs), st⟩
  else none

/-- The next byte, unless a number has to be ended by it (`serde_json`, called at `net_protocol.rs:983, 1175-1177`,
`run_state.rs:86`). -/
def stepPlain (s : State) (b : Byte) : Option State :=
  match s.mode with
  | .value => if isSpace b then some s else beginValue s.stack b
  | .elemOrEnd =>
    if isSpace b then some s
    else if b = 93 then
      match s.stack with
      | .arr l :: st => some (deliver (.arr l) st)
      | _ => none
    else beginValue s.stack b
  | .nextElem =>
    if isSpace b then some s
    else if b = 44 then some ⟨.value, s.stack⟩
    else if b = 93 then
      match s.stack with
      | .arr l :: st => some (deliver (.arr l) st)
      | _ => none
    else none
  | .keyOrEnd =>
    if isSpace b then some s
    else if b = 34 then some ⟨.str .key [], s.stack⟩
    else if b = 125 then
      match s.stack with
      | .obj m :: st => some (deliver (.obj m) st)
      | _ => none
    else none
  | .key =>
    if isSpace b then some s
    else if b = 34 then some ⟨.str .key [], s.stack⟩
    else none
  | .nextMember =>
    if isSpace b then some s
    else if b = 44 then some ⟨.key, s.stack⟩
    else if b = 125 then
      match s.stack with
      | .obj m :: st => some (deliver (.obj m) st)
      | _ => none
    else none
  | .colon =>
    if isSpace b then some s
    else if b = 58 then some ⟨.value, s.stack⟩
    else none
  | .str use acc =>
    if b = 34 then endStr s.stack use acc
    else if b = 92 then some ⟨.esc use acc, s.stack⟩
    else if b < 32 then none
    else some ⟨.str use (acc ++ [b]), s.stack⟩
  | .esc use acc =>
    if b = 117 then some ⟨.hex use acc 4 0, s.stack⟩
    else (unescape b).map fun c => ⟨.str use (acc ++ [c]), s.stack⟩
  | .hex use acc left code =>
    match hexVal b with
    | none => none
    | some d => if left = 1 then endHex s.stack use acc (code * 16 + d) else some ⟨.hex use acc (left - 1) (code * 16 + d), s.stack⟩
  | .lowEsc use acc hi => if b = 92 then some ⟨.lowU use acc hi, s.stack⟩ else none
  | .lowU use acc hi => if b = 117 then some ⟨.lowHex use acc hi 4 0, s.stack⟩ else none
  | .lowHex use acc hi left code =>
    match hexVal b with
    | none => none
    | some d =>
      if left = 1 then endLow s.stack use acc hi (code * 16 + d)
      else some ⟨.lowHex use acc hi (left - 1) (code * 16 + d), s.stack⟩
  | .lit rest v =>
    match rest with
    | [] => none
    | [c] => if b = c then some (deliver v s.stack) else none
    | c :: rest => if b = c then some ⟨.lit rest v, s.stack⟩ else none
  | .num _ => none
  | .done _ => if isSpace b then some s else none

/-- The next byte (`serde_json`, called at `net_protocol.rs:983, 1175-1177`, `run_state.rs:86`). -/
def step (f : Floats) (s : State) (b : Byte) : Option State :=
  match s.mode with
  | .num acc =>
    if isNumByte b then some ⟨.num (acc ++ [b]), s.stack⟩
    else (readNum f acc).bind fun v => stepPlain (deliver v s.stack) b
  | _ => stepPlain s b

/-- The end of the text (`Deserializer::end`) (`serde_json`, called at `net_protocol.rs:983, 1175-1177`, `run_state.rs:86`).
-/
def finish (f : Floats) (s : State) : Option Json :=
  match s.stack with
  | [] =>
    match s.mode with
    | .done v => some v
    | .num acc => readNum f acc
    | _ => none
  | _ => none

/-- Reading on (`serde_json`, called at `net_protocol.rs:983, 1175-1177`, `run_state.rs:86`). -/
def parseFrom (f : Floats) (s : State) : List Byte → Option Json
  | [] => finish f s
  | b :: bs => (step f s b).bind fun s => parseFrom f s bs

/-- The reader at the beginning (`serde_json`, called at `net_protocol.rs:983, 1175-1177`, `run_state.rs:86`). -/
def start : State := ⟨.value, []⟩

/-- `serde_json::from_slice`, `from_str`, `from_reader`: the document (`serde_json`, called at
`net_protocol.rs:983, 1175-1177`, `run_state.rs:86`). -/
def parse (f : Floats) (text : List Byte) : Option Json := parseFrom f start text

/-- How many bytes `from_reader` has taken from the file when it fails: up to and with the first one that cannot follow, or
all (`serde_json`, called at `net_protocol.rs:983, 1175-1177`, `run_state.rs:86`). -/
def consumed (f : Floats) (s : State) : List Byte → Nat
  | [] => 0
  | b :: bs =>
    match step f s b with
    | none => 1
    | some s => 1 + consumed f s bs

end Abq.JsonText
