/-!
# Addresses and their text

The addresses that users give (`crates/abq_cli/src/args.rs:73-101, 295, 456, 483-491`), that `abq start` prints
(`crates/abq_cli/src/instance.rs:104-118`) and that the queue sends to workers (`crates/abq_utils/src/net_protocol.rs:487-492`,
`crates/abq_workers/src/negotiate.rs:66-75`) are `std::net` addresses; `clap` and `serde` read and write them with the `FromStr` and
`Display` of Rust's standard library (1.81.0, `/repo/rust-toolchain.toml`), which are modelled here. A reader takes characters from the
front of a text and leaves the rest; where it fails nothing is taken (`read_atomically`).

Simplification: numbers are `Nat`; that they have the range of their types is part of what is proved. Where the library checks each
step of the arithmetic against the range (ports, scopes), the model checks the value: no prefix of a number has a larger value.
-/

namespace Abq.Address

/-- `Ipv4Addr`, by its octets (`args.rs:74, 101`). -/
structure V4 where
  a : Nat
  b : Nat
  c : Nat
  d : Nat
deriving DecidableEq

/-- `IpAddr` (`args.rs:74, 101`): an `Ipv6Addr` by its eight segments. -/
inductive Ip where
  | v4 (ip : V4)
  | v6 (segments : List Nat)
deriving DecidableEq

/-- `SocketAddr` (`net_protocol.rs:489`, `negotiate.rs:69-71`, `args.rs:295`). -/
inductive Sock where
  | v4 (ip : V4) (port : Nat)
  | v6 (segments : List Nat) (port flowinfo scope : Nat)
deriving DecidableEq

/-- `SocketAddr::ip` (of the addresses at `net_protocol.rs:489`, `negotiate.rs:69-71`). -/
def Sock.ip : Sock → Ip
  | .v4 ip _ => .v4 ip
  | .v6 segments _ _ _ => .v6 segments

/-- `SocketAddr::port` (of the addresses at `net_protocol.rs:489`, `negotiate.rs:69-71`). -/
def Sock.port : Sock → Nat
  | .v4 _ port => port
  | .v6 _ port _ _ => port

/-- `net_protocol.rs:926-929` `publicize_addr`: `SocketAddr::set_ip`, which makes a new address if the family is another one. -/
def publicize : Sock → Ip → Sock
  | .v4 _ port, .v4 ip => .v4 ip port
  | .v6 _ port flowinfo scope, .v6 segments => .v6 segments port flowinfo scope
  | .v4 _ port, .v6 segments => .v6 segments port 0 0
  | .v6 _ port _ _, .v4 ip => .v4 ip port

/-! ## Writing -/

/-- A number (`{}` and `{:x}`, in the addresses of `instance.rs:104-118`). -/
def number (radix n : Nat) : List Char := Nat.toDigits radix n

/-- `Display` of `Ipv4Addr` (`instance.rs:104-118`, `net_protocol.rs:489`). -/
def writeV4 (ip : V4) : List Char :=
  number 10 ip.a ++ '.' :: number 10 ip.b ++ '.' :: number 10 ip.c ++ '.' :: number 10 ip.d

/-- `fmt_subslice` in `Display` of `Ipv6Addr` (`instance.rs:104-118`, `net_protocol.rs:489`). -/
def writeGroups : List Nat → List Char
  | [] => []
  | [g] => number 16 g
  | g :: gs => number 16 g ++ ':' :: writeGroups gs

/-- The longest run of zeros, the first of several: start and length. `i` is the index of the first segment given, `longest` and
`current` the runs so far (the loop in `Display` of `Ipv6Addr`; `instance.rs:104-118`, `net_protocol.rs:489`). -/
def zeros : Nat → List Nat → Nat × Nat → Nat × Nat → Nat × Nat
  | _, [], longest, _ => longest
  | i, s :: ss, longest, current =>
    if s = 0 then
      let current := (if current.2 = 0 then i else current.1, current.2 + 1)
      zeros (i + 1) ss (if longest.2 < current.2 then current else longest) current
    else zeros (i + 1) ss longest (0, 0)

/-- `Ipv6Addr::to_ipv4_mapped` (in its `Display`; `instance.rs:104-118`, `net_protocol.rs:489`). -/
def mapped : List Nat → Option V4
  | [0, 0, 0, 0, 0, 65535, ab, cd] => some ⟨ab / 256, ab % 256, cd / 256, cd % 256⟩
  | _ => none

/-- `Display` of `Ipv6Addr` (`instance.rs:104-118`, `net_protocol.rs:489`). -/
def writeV6 (segments : List Nat) : List Char :=
  match mapped segments with
  | some ip => ':' :: ':' :: 'f' :: 'f' :: 'f' :: 'f' :: ':' :: writeV4 ip
  | none =>
    let z := zeros 0 segments (0, 0) (0, 0)
    if 1 < z.2 then writeGroups (segments.take z.1) ++ ':' :: ':' :: writeGroups (segments.drop (z.1 + z.2))
    else writeGroups segments

/-- `Display` of `IpAddr` (the default at `args.rs:73`). -/
def writeIp : Ip → List Char
  | .v4 ip => writeV4 ip
  | .v6 segments => writeV6 segments

/-- `Display` of `SocketAddr` (`instance.rs:104-118`), also what `serde` writes (`net_protocol.rs:489`, `negotiate.rs:69-71`). -/
def write : Sock → List Char
  | .v4 ip port => writeV4 ip ++ ':' :: number 10 port
  | .v6 segments port _ scope =>
    '[' :: writeV6 segments ++ (if scope = 0 then [] else '%' :: number 10 scope) ++ ']' :: ':' :: number 10 port

/-- `instance.rs:58-59, 115-118`: the address in the command that `abq start` prints, for the address its server listens to. -/
def advertised (server : Sock) (publicIp : Option Ip) (bindIp : Ip) : List Char := write (publicize server (publicIp.getD bindIp))

/-! ## Reading -/

/-- A reader (`std::net::parser`, used for `args.rs:74, 101, 295`, `net_protocol.rs:489`). -/
abbrev Reader (α : Type) := List Char → Option (α × List Char)

/-- `char::to_digit` (in `std::net::parser`, used for `args.rs:74, 101, 295`, `net_protocol.rs:489`). -/
def toDigit (radix : Nat) (c : Char) : Option Nat :=
  let n := c.toNat
  let d := if 48 ≤ n ∧ n ≤ 57 then some (n - 48) else if 97 ≤ n ∧ n ≤ 102 then some (n - 87)
    else if 65 ≤ n ∧ n ≤ 70 then some (n - 55) else none
  d.filter (· < radix)

/-- The loop over digits in `read_number` (`std::net::parser`, used for `args.rs:74, 101, 295`, `net_protocol.rs:489`). -/
def readDigits (radix : Nat) : List Char → List Nat × List Char
  | [] => ([], [])
  | c :: cs =>
    match toDigit radix c with
    | some d => (d :: (readDigits radix cs).1, (readDigits radix cs).2)
    | none => ([], c :: cs)

/-- `read_number` (`std::net::parser`, used for `args.rs:74, 101, 295`, `net_protocol.rs:489`); `max` is the largest value of its type. -/
def readNumber (radix : Nat) (maxDigits : Option Nat) (zeroPrefix : Bool) (max : Nat) : Reader Nat := fun s =>
  let ds := (readDigits radix s).1
  if ds = [] then none
  else if maxDigits.any (· < ds.length) then none
  else if zeroPrefix = false ∧ s.head? = some '0' ∧ 1 < ds.length then none
  else if ds.foldl (fun n d => n * radix + d) 0 ≤ max then some (ds.foldl (fun n d => n * radix + d) 0, (readDigits radix s).2)
  else none

/-- `read_given_char` (`std::net::parser`, used for `args.rs:74, 101, 295`, `net_protocol.rs:489`). -/
def readChar (c : Char) : Reader Unit
  | [] => none
  | x :: xs => if x = c then some ((), xs) else none

/-- `read_separator` (`std::net::parser`, used for `args.rs:74, 101, 295`, `net_protocol.rs:489`). -/
def readSep {α : Type} (sep : Char) (index : Nat) (inner : Reader α) : Reader α := fun s =>
  if 0 < index then (readChar sep s).bind fun r => inner r.2 else inner s

/-- An octet in `read_ipv4_addr` (`std::net::parser`, used for `args.rs:74, 101, 295`, `net_protocol.rs:489`). -/
def readOctet (index : Nat) : Reader Nat := readSep '.' index (readNumber 10 (some 3) false 255)

/-- `read_ipv4_addr` (`std::net::parser`, used for `args.rs:74, 101, 295`, `net_protocol.rs:489`). -/
def readV4 : Reader V4 := fun s =>
  (readOctet 0 s).bind fun a => (readOctet 1 a.2).bind fun b => (readOctet 2 b.2).bind fun c => (readOctet 3 c.2).map fun d =>
    (⟨a.1, b.1, c.1, d.1⟩, d.2)

/-- `read_groups` in `read_ipv6_addr` (`std::net::parser`, used for `args.rs:74, 101, 295`, `net_protocol.rs:489`), from group `index` on,
with room for `left` more: the groups, whether the last two were an IPv4 address, and the rest of the text. -/
def readGroups : (left index : Nat) → List Char → List Nat × Bool × List Char
  | 0, _, s => ([], false, s)
  | left + 1, index, s =>
    match (if 0 < left then readSep ':' index readV4 s else none) with
    | some (ip, rest) => ([ip.a * 256 + ip.b, ip.c * 256 + ip.d], true, rest)
    | none =>
      match readSep ':' index (readNumber 16 (some 4) true 65535) s with
      | some (g, rest) => (g :: (readGroups left (index + 1) rest).1, (readGroups left (index + 1) rest).2)
      | none => ([], false, s)

/-- `read_ipv6_addr` (`std::net::parser`, used for `args.rs:74, 101, 295`, `net_protocol.rs:489`). -/
def readV6 : Reader (List Nat) := fun s =>
  let head := readGroups 8 0 s
  if head.1.length = 8 then some (head.1, head.2.2)
  else if head.2.1 then none
  else
    (readChar ':' head.2.2).bind fun r => (readChar ':' r.2).map fun r =>
      let tail := readGroups (8 - (head.1.length + 1)) 0 r.2
      (head.1 ++ List.replicate (8 - tail.1.length - head.1.length) 0 ++ tail.1, tail.2.2)

/-- `read_port` (`std::net::parser`, used for `args.rs:295`, `net_protocol.rs:489`). -/
def readPort : Reader Nat := fun s => (readChar ':' s).bind fun r => readNumber 10 none true 65535 r.2

/-- `read_scope_id` (`std::net::parser`, used for `args.rs:295`, `net_protocol.rs:489`). -/
def readScope : Reader Nat := fun s => (readChar '%' s).bind fun r => readNumber 10 none true 4294967295 r.2

/-- `read_socket_addr_v4` (`std::net::parser`, used for `args.rs:295`, `net_protocol.rs:489`). -/
def readSockV4 : Reader Sock := fun s =>
  (readV4 s).bind fun ip => (readPort ip.2).map fun port => (.v4 ip.1 port.1, port.2)

/-- `read_socket_addr_v6` (`std::net::parser`, used for `args.rs:295`, `net_protocol.rs:489`). -/
def readSockV6 : Reader Sock := fun s =>
  (readChar '[' s).bind fun r => (readV6 r.2).bind fun ip =>
    let scope := (readScope ip.2).getD (0, ip.2)
    (readChar ']' scope.2).bind fun r => (readPort r.2).map fun port => (.v6 ip.1 port.1 0 scope.1, port.2)

/-- `parse_with` (`std::net::parser`, used for `args.rs:74, 101, 295`, `net_protocol.rs:489`): the whole text must be taken. -/
def whole {α : Type} (r : Reader α) (s : List Char) : Option α :=
  (r s).bind fun x => if x.2 = [] then some x.1 else none

/-- `FromStr` of `SocketAddr`, for `--queue-addr` (`args.rs:295, 456`) and `serde` (`net_protocol.rs:489`, `negotiate.rs:69-71`). -/
def parse : List Char → Option Sock := whole fun s => (readSockV4 s).or (readSockV6 s)

/-- `FromStr` of `IpAddr`, for `--bind` and `--public-ip` (`args.rs:74, 101`). -/
def parseIp : List Char → Option Ip :=
  whole fun s => ((readV4 s).map fun x => (Ip.v4 x.1, x.2)).or ((readV6 s).map fun x => (Ip.v6 x.1, x.2))

end Abq.Address
