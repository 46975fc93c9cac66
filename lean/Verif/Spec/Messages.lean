import Verif.Model.Messages
import Verif.Spec.JsonText
import Verif.Spec.Address
/-!
# The messages of the queue and its workers

What values the types have (`Ok`): Rust's integers have a range, ids are of 16 bytes, and free-form metadata consists of values that
`serde_json` can hold. And how deep a result or a manifest is nested
(`height`).
-/

namespace Abq.Spec.Messages
open Abq.Messages Abq.Protocol Abq.Spec.JsonText
open RunStateDoc (Json)
open Abq.JsonText (Floats)

/-! ## Values of the types -/

def U32 (n : Nat) : Prop := n < 2 ^ 32
def U64 (n : Nat) : Prop := n < 2 ^ 64

/-- `[u8; len]`. -/
def Bytes (len : Nat) (l : List Nat) : Prop := l.length = len ∧ ∀ b ∈ l, b < 256

/-- An address, without a flow label. -/
def AddrOk (a : Abq.Address.Sock) : Prop := Address.SockOk a ∧ Address.noFlow a = a

def TagOk : Tag → Prop
  | .runner r => U32 r.worker ∧ U32 r.runner
  | _ => True

def EntityOk (e : RunStateDoc.Entity) : Prop := Bytes 16 e.id ∧ TagOk e.tag

def MetadataOk (f : Floats) (m : Metadata) : Prop := Holdable f (.obj m)

def VersionOk (v : Version) : Prop := U64 v.major ∧ U64 v.minor

def LocationOk (l : Location) : Prop := (∀ n, l.line = some n → U64 n) ∧ ∀ n, l.column = some n → U64 n

def ErrorOk (f : Floats) (e : OutOfBandError) : Prop :=
  (∀ l, e.location = some l → LocationOk l) ∧ ∀ m, e.metadata = some m → MetadataOk f m

def RuntimeOk (f : Floats) : Runtime → Prop
  | .milliseconds r => FloatKept f r
  | .nanoseconds n => U64 n

def FieldsOk (f : Floats) (r : SpecFields) : Prop :=
  RuntimeOk f r.runtime ∧ U64 r.timestamp ∧ MetadataOk f r.metadata ∧ (∀ l, r.location = some l → LocationOk l) ∧
  ∀ es, r.otherErrors = some es → ∀ e ∈ es, ErrorOk f e

mutual
def SpecOk (f : Floats) : ResultSpec → Prop
  | .mk r none => FieldsOk f r
  | .mk r (some past) => FieldsOk f r ∧ SpecsOk f past
def SpecsOk (f : Floats) : List ResultSpec → Prop
  | [] => True
  | r :: rs => SpecOk f r ∧ SpecsOk f rs
end

def ResultOk (f : Floats) (r : Result) : Prop := U32 r.source.runner.worker ∧ U32 r.source.runner.runner ∧ SpecOk f r.result

def AssociatedOk (f : Floats) (a : Associated) : Prop := Bytes 16 a.workId ∧ U32 a.runNumber ∧ ∀ r ∈ a.results, ResultOk f r

mutual
def TreeOk (f : Floats) : TestOrGroup → Prop
  | .test _ _ m => MetadataOk f m
  | .group _ members _ m => ForestOk f members ∧ MetadataOk f m
def ForestOk (f : Floats) : List TestOrGroup → Prop
  | [] => True
  | t :: ts => TreeOk f t ∧ ForestOk f ts
end

def ManifestResultOk (f : Floats) : ManifestResult → Prop
  | .manifest r => ForestOk f r.manifest.members ∧ MetadataOk f r.manifest.initMeta ∧ VersionOk r.protocol
  | .runnerError .. => True

def MessageOk (f : Floats) : Message → Prop
  | .manifestResult _ r => ManifestResultOk f r
  | .workerResult _ rs => ∀ a ∈ rs, AssociatedOk f a
  | _ => True

def RequestOk (f : Floats) (r : Request) : Prop := EntityOk r.entity ∧ MessageOk f r.message

def LineOk (f : Floats) : Line → Prop
  | .results rs => ∀ a ∈ rs, AssociatedOk f a
  | .summary n v _ => U64 n ∧ VersionOk v

def TestOk (f : Floats) (t : Messages.Test) : Prop := Bytes 16 t.workId ∧ U32 t.runNumber ∧ MetadataOk f t.testCase.metadata

def InvokeOk (w : Invoke) : Prop := 0 < w.batchSizeHint ∧ U64 w.batchSizeHint ∧ Bytes 32 w.commandHash

/-! ## How deep it is nested -/

/-- An error: its backtrace and location, and its metadata. -/
def errorHeight (e : OutOfBandError) : Nat :=
  max (if e.backtrace.isSome ∨ e.location.isSome then 2 else 1)
    (match e.metadata with
     | none => 0
     | some m => 1 + depth (.obj m))

def errorsHeight : List OutOfBandError → Nat
  | [] => 0
  | e :: es => max (errorHeight e) (errorsHeight es)

/-- What is said about a failure. -/
def statusHeight : AbqStatus → Nat
  | .failure _ b => if b.isSome then 4 else 3
  | .error _ b => if b.isSome then 4 else 3
  | _ => 2

/-- A result without its past attempts: its status, its metadata, and the errors beside it. -/
def fieldsHeight (r : SpecFields) : Nat :=
  max (max (statusHeight r.status) (1 + depth (.obj r.metadata)))
    (match r.otherErrors with
     | none => 0
     | some es => 2 + errorsHeight es)

mutual
/-- A result. -/
def height : ResultSpec → Nat
  | .mk r none => fieldsHeight r
  | .mk r (some past) => max (fieldsHeight r) (2 + heights past)
def heights : List ResultSpec → Nat
  | [] => 0
  | r :: rs => max (height r) (heights rs)
end

mutual
/-- A test or group. -/
def treeHeight : TestOrGroup → Nat
  | .test _ _ m => 1 + depth (.obj m)
  | .group _ members _ m => max (1 + depth (.obj m)) (2 + forestHeight members)
def forestHeight : List TestOrGroup → Nat
  | [] => 0
  | t :: ts => max (treeHeight t) (forestHeight ts)
end

/-- A manifest. -/
def manifestHeight (m : Manifest) : Nat := max (1 + depth (.obj m.initMeta)) (2 + forestHeight m.members)

mutual
/-- The tests of a manifest, in order. -/
def testsOf : TestOrGroup → List (String × Metadata)
  | .test id _ m => [(id, m)]
  | .group _ members _ _ => testsOfAll members
def testsOfAll : List TestOrGroup → List (String × Metadata)
  | [] => []
  | t :: ts => testsOf t ++ testsOfAll ts
end

/-! ## What must not be lost -/

/-- The results in a set. -/
def resultsIn {S : Type} : ResultSet S → List ResultSpec
  | .all rs => rs.map (·.2)
  | .one r => [r.2]
  | .done r => r.toList.map (·.2)

/-- The result, with the output that was captured while it ran. -/
def withOutput (stderr stdout : Option (List UInt8)) : ResultSpec → ResultSpec
  | .mk r past => .mk { r with stderr := stderr, stdout := stdout } past

/-- A request is not nested too deep: a result or manifest in it is at most so deep. -/
def Shallow : Message → Prop
  | .workerResult _ rs => ∀ a ∈ rs, ∀ r ∈ a.results, height r.result ≤ 120
  | .manifestResult _ (.manifest r) => manifestHeight r.manifest ≤ 122
  | _ => True

end Abq.Spec.Messages
