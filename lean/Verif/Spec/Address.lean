import Verif.Model.Address
/-!
# Addresses as people write them
-/

namespace Abq.Spec.Address
open Abq.Address (V4 Ip Sock)

/-- An IPv4 address has four octets. -/
def V4Ok (ip : V4) : Prop := ip.a ≤ 255 ∧ ip.b ≤ 255 ∧ ip.c ≤ 255 ∧ ip.d ≤ 255

/-- An IPv6 address has eight segments of 16 bits. -/
def V6Ok (segments : List Nat) : Prop := segments.length = 8 ∧ ∀ s ∈ segments, s ≤ 65535

/-- The IP addresses. -/
def IpOk : Ip → Prop
  | .v4 ip => V4Ok ip
  | .v6 segments => V6Ok segments

/-- The socket addresses: ports have 16 bits, flow labels and scopes 32. -/
def SockOk : Sock → Prop
  | .v4 ip port => V4Ok ip ∧ port ≤ 65535
  | .v6 segments port flowinfo scope => V6Ok segments ∧ port ≤ 65535 ∧ flowinfo ≤ 4294967295 ∧ scope ≤ 4294967295

/-- The address without its flow label, which is not written. -/
def noFlow : Sock → Sock
  | .v4 ip port => .v4 ip port
  | .v6 segments port _ scope => .v6 segments port 0 scope

/-- The scope of an address, 0 for none. -/
def scopeOf : Sock → Nat
  | .v4 _ _ => 0
  | .v6 _ _ _ scope => scope

/-- A digit and its value, in a radix of at most 16; letters in either case. -/
def Digit (radix : Nat) (c : Char) (d : Nat) : Prop :=
  d < radix ∧ (['0', '1', '2', '3', '4', '5', '6', '7', '8', '9', 'a', 'b', 'c', 'd', 'e', 'f'][d]? = some c ∨
    ['0', '1', '2', '3', '4', '5', '6', '7', '8', '9', 'A', 'B', 'C', 'D', 'E', 'F'][d]? = some c)

/-- One or more digits, and their value. -/
inductive Numeral (radix : Nat) : List Char → Nat → Prop
  | one {c d} : Digit radix c d → Numeral radix [c] d
  | more {cs n c d} : Numeral radix cs n → Digit radix c d → Numeral radix (cs ++ [c]) (n * radix + d)

/-- An octet: one to three decimal digits up to 255, without a leading zero. -/
def Octet (cs : List Char) (n : Nat) : Prop :=
  Numeral 10 cs n ∧ cs.length ≤ 3 ∧ n ≤ 255 ∧ (cs.head? = some '0' → cs.length = 1)

/-- An IPv4 address: four octets with dots between them. -/
def Dotted (cs : List Char) (ip : V4) : Prop :=
  ∃ a b c d, Octet a ip.a ∧ Octet b ip.b ∧ Octet c ip.c ∧ Octet d ip.d ∧ cs = a ++ '.' :: b ++ '.' :: c ++ '.' :: d

/-- A group: one to four hexadecimal digits. -/
def Group (cs : List Char) (n : Nat) : Prop := Numeral 16 cs n ∧ cs.length ≤ 4

/-- One or more groups with colons between them; where `v4`, the last two may be written as an IPv4 address. -/
inductive Groups (v4 : Bool) : List Char → List Nat → Prop
  | one {cs g} : Group cs g → Groups v4 cs [g]
  | dotted {cs ip} : v4 = true → Dotted cs ip → Groups v4 cs [ip.a * 256 + ip.b, ip.c * 256 + ip.d]
  | more {cs g rest gs} : Group cs g → Groups v4 rest gs → Groups v4 (cs ++ ':' :: rest) (g :: gs)

/-- Any number of groups. -/
def Side (v4 : Bool) (cs : List Char) (gs : List Nat) : Prop := (cs = [] ∧ gs = []) ∨ Groups v4 cs gs

/-- An IPv6 address: eight groups, or fewer with `::` in place of one or more that are zero. -/
def Colons (cs : List Char) (segments : List Nat) : Prop :=
  (Groups true cs segments ∧ segments.length = 8) ∨
  ∃ l r ls rs k, Side false l ls ∧ Side true r rs ∧ cs = l ++ ':' :: ':' :: r ∧
    ls.length + k + rs.length = 8 ∧ 1 ≤ k ∧ segments = ls ++ List.replicate k 0 ++ rs

/-- A port. -/
def Port (cs : List Char) (n : Nat) : Prop := Numeral 10 cs n ∧ n ≤ 65535

/-- Nothing, for no scope, or `%` and its number. -/
def Scope (cs : List Char) (n : Nat) : Prop :=
  (cs = [] ∧ n = 0) ∨ ∃ ds, cs = '%' :: ds ∧ Numeral 10 ds n ∧ n ≤ 4294967295

/-- A text that says an IP address. -/
def SaysIp (cs : List Char) : Ip → Prop
  | .v4 ip => Dotted cs ip
  | .v6 segments => Colons cs segments

/-- A text that says a socket address: `1.2.3.4:80`, `[::1]:80` or `[fe80::1%2]:80`. -/
def Says (cs : List Char) : Sock → Prop
  | .v4 ip port => ∃ i p, Dotted i ip ∧ Port p port ∧ cs = i ++ ':' :: p
  | .v6 segments port flowinfo scope =>
    flowinfo = 0 ∧ ∃ i s p, Colons i segments ∧ Scope s scope ∧ Port p port ∧ cs = '[' :: i ++ s ++ ']' :: ':' :: p

end Abq.Spec.Address
