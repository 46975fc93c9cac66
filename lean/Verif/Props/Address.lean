import Verif.Proof.Address
import Verif.Props.QueueAnswers
/-!
# The addresses a queue gives out can be used as they are (C133)
-/

namespace Abq.Props
open Abq.Address Abq.Spec.Address
open Abq.Messages (send receive encAddr decAddr encNegotiated decNegotiated)
open Abq.Spec.Messages (AddrOk)

/-- C133: the text of an address says that address: it is read back with the same IP address, port and scope. (Flow labels are not
written.) -/
theorem C133_text_read (a : Sock) (h : SockOk a) :
    parse (write a) = some (noFlow a) ∧ (noFlow a).ip = a.ip ∧ (noFlow a).port = a.port ∧ scopeOf (noFlow a) = scopeOf a :=
  ⟨(parse_iff _ _).2 (write_says h), by cases a <;> exact ⟨rfl, rfl, rfl⟩⟩

example : SockOk (.v6 [65152, 0, 0, 0, 0, 0, 0, 1] 8080 7 2) := by
  refine ⟨⟨rfl, ?_⟩, ?_, ?_, ?_⟩ <;> decide

example : write (.v6 [65152, 0, 0, 0, 0, 0, 0, 1] 8080 7 2) = "[fe80::1%2]:8080".toList := by decide

example : write (.v6 [0, 0, 0, 0, 0, 65535, 258, 772] 80 0 0) = "[::ffff:1.2.3.4]:80".toList := by decide

/-- C133: no two addresses have the same text, but for flow labels. -/
theorem C133_text_distinct (a b : Sock) (ha : SockOk a) (hb : SockOk b) (h : write a = write b) :
    a.ip = b.ip ∧ a.port = b.port ∧ scopeOf a = scopeOf b := by
  obtain ⟨h1, a1, a2, a3⟩ := C133_text_read a ha
  obtain ⟨h2, b1, b2, b3⟩ := C133_text_read b hb
  rw [h, h2] at h1
  have e := Option.some.inj h1
  exact ⟨a1.symm.trans (e ▸ b1), a2.symm.trans (e ▸ b2), a3.symm.trans (e ▸ b3)⟩

example : SockOk (.v4 ⟨127, 0, 0, 1⟩ 1) := by
  refine ⟨⟨?_, ?_, ?_, ?_⟩, ?_⟩ <;> decide

/-- C133: `--queue-addr` takes exactly the texts that say an address (`1.2.3.4:80`, `[::1]:80`, `[fe80::1%2]:80`), and takes them for
the address they say. -/
theorem C133_taken_exactly (s : List Char) (a : Sock) : parse s = some a ↔ Says s a := parse_iff s a

/-- C133: what is taken is an address: its parts are in the ranges of their types. -/
theorem C133_taken_valid (s : List Char) (a : Sock) (h : parse s = some a) : SockOk a := says_ok ((parse_iff s a).1 h)

example : parse "10.0.0.1:0080".toList = some (.v4 ⟨10, 0, 0, 1⟩ 80) := by decide
example : parse "[2001:DB8::7:0:9]:443".toList = some (.v6 [8193, 3512, 0, 0, 0, 7, 0, 9] 443 0 0) := by decide
example : parse "[1:2:3:4:5:6:7::]:1".toList = some (.v6 [1, 2, 3, 4, 5, 6, 7, 0] 1 0 0) := by decide
example : parse "[1:2:3:4:5:6:7.8.9.10]:1".toList = some (.v6 [1, 2, 3, 4, 5, 6, 1800, 2314] 1 0 0) := by decide
/-- Leading zeros, names, ports out of range, and IPv6 addresses without brackets are refused. -/
example : parse "010.0.0.1:80".toList = none ∧ parse "localhost:80".toList = none ∧ parse "1.2.3.4:65536".toList = none ∧
    parse "::1:80".toList = none ∧ parse "[1::2::3]:80".toList = none ∧ parse "1.2.3.4".toList = none := by decide

/-- C133: `--bind` and `--public-ip` take exactly the texts that say an IP address, and the text of an IP address is read back as it. -/
theorem C133_ip_taken_exactly :
    (∀ s ip, parseIp s = some ip ↔ SaysIp s ip) ∧ (∀ s ip, parseIp s = some ip → IpOk ip) ∧
    (∀ ip, IpOk ip → parseIp (writeIp ip) = some ip) :=
  ⟨parseIp_iff, fun s ip h => saysIp_ok ((parseIp_iff s ip).1 h), fun _ h => (parseIp_iff _ _).2 (writeIp_says h)⟩

example : parseIp "0.0.0.0".toList = some (.v4 ⟨0, 0, 0, 0⟩) ∧ parseIp "::".toList = some (.v6 [0, 0, 0, 0, 0, 0, 0, 0]) ∧
    parseIp "::1.2.3.4".toList = some (.v6 [0, 0, 0, 0, 0, 0, 258, 772]) ∧ parseIp "1.2.3".toList = none := by decide

/-- An address with another IP address. -/
theorem publicize_ok {a : Sock} {ip : Ip} (ha : SockOk a) (hi : IpOk ip) : SockOk (publicize a ip) := by
  cases a <;> cases ip
  · exact ⟨hi, ha.2⟩
  · exact ⟨hi, ha.2, Nat.zero_le _, Nat.zero_le _⟩
  · exact ⟨hi, ha.2.1⟩
  · exact ⟨hi, ha.2⟩

theorem publicize_parts (a : Sock) (ip : Ip) : (publicize a ip).ip = ip ∧ (publicize a ip).port = a.port := by
  cases a <;> cases ip <;> exact ⟨rfl, rfl⟩

/-- C133: the address in the command that `abq start` prints is taken by `--queue-addr`, as the IP address given with `--public-ip`, or
else the one with `--bind`, and the port of the queue's server. -/
theorem C133_printed_address_usable (server : Sock) (publicIp : Option Ip) (bindIp : Ip) (hs : SockOk server)
    (hp : ∀ ip, publicIp = some ip → IpOk ip) (hb : IpOk bindIp) :
    ∃ a, parse (advertised server publicIp bindIp) = some a ∧ a.port = server.port ∧
      (∀ ip, publicIp = some ip → a.ip = ip) ∧ (publicIp = none → a.ip = bindIp) := by
  have hi : IpOk (publicIp.getD bindIp) := by
    cases publicIp with
    | none => exact hb
    | some ip => exact hp ip rfl
  obtain ⟨h, h1, h2, _⟩ := C133_text_read _ (publicize_ok hs hi)
  obtain ⟨p1, p2⟩ := publicize_parts server (publicIp.getD bindIp)
  refine ⟨_, h, h2.trans p2, ?_, ?_⟩
  · rintro ip rfl
    exact h1.trans p1
  · rintro rfl
    exact h1.trans p1

example : parse (advertised (.v4 ⟨0, 0, 0, 0⟩ 8000) (some (.v6 [8193, 3512, 0, 0, 0, 0, 0, 1])) (.v4 ⟨0, 0, 0, 0⟩)) =
    some (.v6 [8193, 3512, 0, 0, 0, 0, 0, 1] 8000 0 0) := by decide

theorem noFlow_ok {a : Sock} (h : SockOk a) : AddrOk (noFlow a) := by
  cases a with
  | v4 ip port => exact ⟨h, rfl⟩
  | v6 segs port flow scope => exact ⟨⟨h.1, h.2.1, Nat.zero_le _, h.2.2.2⟩, rfl⟩

theorem encAddr_noFlow (a : Sock) : encAddr (noFlow a) = encAddr a := by cases a <;> rfl

/-- C133: the addresses of its servers that the queue tells workers, each made public, reach them: where to negotiate, where to ask for
tests, and where to send results. -/
theorem C133_told_addresses_received (f : JsonText.Floats) (ip : Ip) (hi : IpOk ip) :
    (∀ (negotiator : Sock) (version : String), SockOk negotiator →
      ∃ a : Sock, receive QueueAnswers.decInfo f (send QueueAnswers.encInfo ⟨publicize negotiator ip, version⟩) = some ⟨a, version⟩ ∧
        a.ip = ip ∧ a.port = negotiator.port) ∧
    (∀ (work results : Sock) (kind : Messages.RunKind) (differs : Bool), SockOk work → SockOk results →
      ∃ w r : Sock, receive decNegotiated f (send encNegotiated (.context (publicize work ip) (publicize results ip) kind differs)) =
          some (.context w r kind differs) ∧
        w.ip = ip ∧ w.port = work.port ∧ r.ip = ip ∧ r.port = results.port) := by
  have parts : ∀ a : Sock, (noFlow (publicize a ip)).ip = ip ∧ (noFlow (publicize a ip)).port = a.port := by
    intro a
    cases a <;> cases ip <;> exact ⟨rfl, rfl⟩
  constructor
  · intro a v ha
    have h := (C101_answers_received f).2.1 ⟨noFlow (publicize a ip), v⟩ (noFlow_ok (publicize_ok ha hi))
    have e : send QueueAnswers.encInfo ⟨noFlow (publicize a ip), v⟩ = send QueueAnswers.encInfo ⟨publicize a ip, v⟩ := by
      simp only [send, QueueAnswers.encInfo, encAddr_noFlow]
    rw [e] at h
    exact ⟨_, h, parts a⟩
  · intro w r k d hw hr
    have h := (C101_negotiation_received f).2 (.context (noFlow (publicize w ip)) (noFlow (publicize r ip)) k d) (fun _ h => by cases h)
      (fun _ _ _ _ h => by cases h; exact ⟨noFlow_ok (publicize_ok hw hi), noFlow_ok (publicize_ok hr hi)⟩)
    have e : send encNegotiated (.context (noFlow (publicize w ip)) (noFlow (publicize r ip)) k d) =
        send encNegotiated (.context (publicize w ip) (publicize r ip) k d) := by
      simp only [send, encNegotiated, encAddr_noFlow]
    rw [e] at h
    exact ⟨_, _, h, (parts w).1, (parts w).2, (parts r).1, (parts r).2⟩

example : IpOk (.v4 ⟨192, 168, 0, 1⟩) ∧ SockOk (.v4 ⟨0, 0, 0, 0⟩ 8001) := by
  refine ⟨⟨?_, ?_, ?_, ?_⟩, ⟨?_, ?_, ?_, ?_⟩, ?_⟩ <;> decide

end Abq.Props
