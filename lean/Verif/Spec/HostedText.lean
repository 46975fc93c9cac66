import Verif.Model.HostedText
import Verif.Spec.Hosted
import Verif.Spec.Protocol
import Verif.Spec.RwxDoc
import Verif.Spec.Auth
import Verif.Spec.JsonText

/-! # Vocabulary of C130: what an answer of the hosted API says -/

namespace Abq.Spec.HostedText
open RunStateDoc (Json)
open Abq.Protocol (Only Given Maybe SaysStr Members)
open Abq.Hosted (TokenKind Reply)
open Abq.HostedText (Urls)

/-- The word for the kind of an access token; `serde` also takes an object with this one member, which is `null`. -/
def SaysKind (k : TokenKind) (j : Json) : Prop :=
  let word := match k with
    | .personal => "personal_access_token"
    | .organization => "organization_access_token"
  j = .str word ∨ j = .obj [(word, .null)]

/-- The answer names a queue: by a URL, with a certificate or without, for a kind of access token; in an object, or in an array in this
order. -/
def NamesQueue (urls : Urls) (j : Json) (addrs : Option (List String)) (query : List (String × String)) (cert : Option String)
    (kind : TokenKind) : Prop :=
  ∃ url, urls url = some (addrs, query) ∧
    ((∃ ms, j = .obj ms ∧ Only ms "queue_url" (.str url) ∧ Maybe ms "tls_public_certificate" SaysStr cert ∧
        Given ms "rwx_access_token_kind" SaysKind kind) ∨
     (∃ c k, j = .arr [.str url, c, k] ∧ (match cert with | none => c = .null | some t => c = .str t) ∧ SaysKind kind k))

/-- The answer says that there is none to be used, and why. -/
def Refuses (j : Json) (why : String) (kind : TokenKind) : Prop :=
  (∃ ms, j = .obj ms ∧ Given ms "rwx_access_token_kind" SaysKind kind ∧ Given ms "usage_error" SaysStr why) ∨
  (∃ k, j = .arr [k, .str why] ∧ SaysKind kind k)

/-- The requests were answered so in the end: after answers for which they were repeated, of which there were at most five, and it is
not one for which they are, or the sixth. -/
def Ends (replies : List Reply) (r : Reply) : Prop :=
  ∃ pre post, replies = pre ++ r :: post ∧ (∀ x ∈ pre, x.Retried) ∧ pre.length ≤ 5 ∧ (¬ r.Retried ∨ pre.length = 5)

/-- The last answer, which is not an error, is this JSON document. -/
def Answered (f : JsonText.Floats) (replies : List Reply) (text : List JsonText.Byte) (j : Json) : Prop :=
  (∃ code, Ends replies (.status code) ∧ ¬ (400 ≤ code ∧ code < 600)) ∧ JsonText.parse f text = some j

/-- The text of a user token: `abqs_` and thirty letters and digits. As `C38` says, `abqs_` and anything may follow. -/
def TokenText (t : String) (token : List Nat) : Prop :=
  Auth.IsToken token ∧ (Auth.ascii t = [97, 98, 113, 115, 95] ++ token ∨
    ∃ g, Auth.ascii t = [97, 98, 113, 115, 95] ++ token ++ [97, 98, 113, 115, 95] ++ g)

/-- The bytes of a text. -/
def utf8 (s : String) : List Nat := s.toUTF8.data.toList.map UInt8.toNat

end Abq.Spec.HostedText
