import Verif.Model.Basic

/-!
# Stored run states

`abq_queue/src/persistence/run_state.rs` and its use in `remote/s3.rs:149-190`. The code derived by
`serde` is modelled on syntax trees of JSON documents; the text format itself, and the free-form metadata
of a run (`serde_json::Map`), are parameters with their laws (`Text`, `Meta`).
-/

namespace Abq.RunStateDoc

/-- A JSON document as the parser delivers it: members of an object in order, names may be repeated (read at
`run_state.rs:73-111`). -/
inductive Json where
  | null
  | bool (b : Bool)
  | int (n : Int)
  | float (repr : String)
  | str (s : String)
  | arr (l : List Json)
  | obj (m : List (String × Json))
deriving Repr

/-- What is used of the text format of `serde_json`: what is printed is parsed back, if it is a document that can be (`ok`;
`Props/JsonText.lean` has an instance) (`run_state.rs:73-111`). -/
structure Text where
  print : Json → List UInt8
  parse : List UInt8 → Option Json
  ok : Json → Prop
  roundtrip : ∀ j, ok j → parse (print j) = some j

/-- What is used of `serde_json::Map<String, Value>` (`run_state.rs:26-34`). -/
structure Meta where
  M : Type
  enc : M → Json
  dec : Json → Option M
  roundtrip : ∀ m, dec (enc m) = some m

/-- `net_protocol.rs:188-191` `Entity`: the id is 16 bytes. -/
structure Entity where
  id : List Nat
  tag : Tag
deriving DecidableEq, Repr

/-- `run_state.rs:26-34` `RunState`; the hash of the command is 32 bytes. -/
structure RunState (m : Meta) where
  newWorkerExitCode : Int
  initMetadata : m.M
  seenWorkers : List Entity
  testCommandHash : Option (List Nat)

/-- How many `u32`s there are (`net_protocol.rs:93-94`). -/
def u32Bound : Nat := 4294967296

/-- The value is one of the Rust type: an `i32`, `u32`s, `[u8; 16]`s, a `[u8; 32]` (`net_protocol.rs:93-158`,
`run_state.rs:26-34`). -/
def byte (n : Nat) : Prop := n < 256
/-- The numbers of a tag are `u32`s (`net_protocol.rs:93-121`). -/
def Tag.InRange : Tag → Prop
  | .runner r => r.worker < 2 ^ 32 ∧ r.runner < 2 ^ 32
  | _ => True
/-- The id is 16 bytes (`net_protocol.rs:183-191`). -/
def Entity.InRange (e : Entity) : Prop := e.id.length = 16 ∧ (∀ b ∈ e.id, byte b) ∧ Tag.InRange e.tag
/-- The exit code is an `i32`, the hash 32 bytes (`run_state.rs:26-34`). -/
def RunState.InRange {m : Meta} (s : RunState m) : Prop :=
  (-2 ^ 31 ≤ s.newWorkerExitCode ∧ s.newWorkerExitCode < 2 ^ 31) ∧
  (∀ e ∈ s.seenWorkers, e.InRange) ∧
  (∀ h, s.testCommandHash = some h → h.length = 32 ∧ ∀ b ∈ h, byte b)

/-! ## Serialization -/

/-- An array of bytes (`net_protocol.rs:183`). -/
def encBytes (l : List Nat) : Json := .arr (l.map (fun b : Nat => .int b))

/-- Derived for `entity::Tag` (`net_protocol.rs:158-165`), externally tagged. -/
def encTag : Tag → Json
  | .runner r => .obj [("Runner", .arr [.int r.worker, .int r.runner])]
  | .localClient => .str "LocalClient"
  | .externalClient => .str "ExternalClient"

/-- Derived `Serialize`: `net_protocol.rs:188-191` `Entity`. -/
def encEntity (e : Entity) : Json := .obj [("id", encBytes e.id), ("tag", encTag e.tag)]

/-- `run_state.rs:17`. -/
def currentVersion : Nat := 1

/-- Derived for `SerializedRunStateInner` (`run_state.rs:48-55`), both parts flattened. -/
def encDoc {m : Meta} (version : Nat) (s : RunState m) : Json :=
  .obj ([("schema_version", .int version), ("new_worker_exit_code", .int s.newWorkerExitCode),
      ("init_metadata", m.enc s.initMetadata), ("seen_workers", .arr (s.seenWorkers.map encEntity))] ++
    (match s.testCommandHash with
     | none => []
     | some h => [("test_command_hash", encBytes h)]))

/-- `run_state.rs:73-80,103-111`: `SerializableRunState::new` and `serialize`. -/
def serialize {m : Meta} (t : Text) (s : RunState m) : List UInt8 := t.print (encDoc currentVersion s)

/-! ## Deserialization -/

/-- A field of a derived struct: missing (`some none`), given once, or a duplicate (`none`) (`run_state.rs:85-101`). -/
def field (name : String) (ms : List (String × Json)) : Option (Option Json) :=
  match ms.filter (fun p => p.1 = name) with
  | [] => some none
  | [p] => some (some p.2)
  | _ => none

/-- A field that must be given (`run_state.rs:85-101`). -/
def reqField {α : Type} (name : String) (ms : List (String × Json)) (dec : Json → Option α) :
    Option α :=
  match field name ms with
  | some (some j) => dec j
  | _ => none

/-- An `Option` field (`run_state.rs:85-101`). -/
def optField {α : Type} (name : String) (ms : List (String × Json)) (dec : Json → Option α) :
    Option (Option α) :=
  match field name ms with
  | none => none
  | some none => some none
  | some (some .null) => some none
  | some (some j) => (dec j).map some

/-- An unsigned integer of a type with that many values (`run_state.rs:85-101`). -/
def decNat (bound : Nat) : Json → Option Nat
  | .int n => if 0 ≤ n ∧ n < bound then some n.toNat else none
  | _ => none

/-- `i32`: `exit.rs` `ExitCode`, in `run_state.rs:28`. -/
def decI32 : Json → Option Int
  | .int n => if -2 ^ 31 ≤ n ∧ n < 2 ^ 31 then some n else none
  | _ => none

/-- `u32` (`run_state.rs:23`, `net_protocol.rs:58, 75`). -/
def decU32 : Json → Option Nat := decNat u32Bound

/-- `[u8; len]` (`net_protocol.rs:183`). -/
def decBytes (len : Nat) : Json → Option (List Nat)
  | .arr l => if l.length = len then l.mapM (decNat 256) else none
  | _ => none

/-- Derived `Deserialize`: `net_protocol.rs:93-94` `WorkerRunner`. -/
def decWorkerRunner : Json → Option WorkerRunner
  | .arr [w, r] => (decU32 w).bind (fun w => (decU32 r).map (fun r => ⟨w, r⟩))
  | _ => none

/-- Derived `Deserialize`: `net_protocol.rs:158-165` `Tag`. -/
def decTag : Json → Option Tag
  | .str s =>
    if s = "LocalClient" then some .localClient
    else if s = "ExternalClient" then some .externalClient
    else none
  | .obj [(name, j)] =>
    if name = "Runner" then (decWorkerRunner j).map .runner
    else
      match j with
      | .null =>
        if name = "LocalClient" then some .localClient
        else if name = "ExternalClient" then some .externalClient
        else none
      | _ => none
  | _ => none

/-- A derived struct is read from an object or from an array of its fields (`net_protocol.rs:188-191`). -/
def decEntity : Json → Option Entity
  | .obj ms =>
    match reqField "id" ms (decBytes 16), reqField "tag" ms decTag with
    | some id, some tag => some ⟨id, tag⟩
    | _, _ => none
  | .arr [i, t] =>
    match decBytes 16 i, decTag t with
    | some id, some tag => some ⟨id, tag⟩
    | _, _ => none
  | _ => none

/-- `run_state.rs:30` `seen_workers`. -/
def decEntities : Json → Option (List Entity)
  | .arr l => l.mapM decEntity
  | _ => none

/-- Derived for `SerializedRunStateInner`: a flattened struct is read from an object, unknown members are
ignored (`run_state.rs:48-55`). -/
def decDoc (m : Meta) : Json → Option (Nat × RunState m)
  | .obj ms =>
    (reqField "schema_version" ms decU32).bind (fun v =>
    (reqField "new_worker_exit_code" ms decI32).bind (fun c =>
    (reqField "init_metadata" ms m.dec).bind (fun md =>
    (reqField "seen_workers" ms decEntities).bind (fun ws =>
    (optField "test_command_hash" ms (decBytes 32)).map (fun h =>
      (v, { newWorkerExitCode := c, initMetadata := md, seenWorkers := ws, testCommandHash := h }))))))
  | _ => none

/-- Derived for `SchemaVersion` (`run_state.rs:21-24`). -/
def decVersion : Json → Option Nat
  | .obj ms => reqField "schema_version" ms decU32
  | .arr [v] => decU32 v
  | _ => none

/-- The result of `deserialize` (`run_state.rs:85-101`). -/
inductive Parsed (m : Meta) where
  | ok (s : RunState m)
  | incompatible (found : Nat)
  | other

/-- `run_state.rs:85-101` `deserialize`, with `into_run_state`. -/
def deserialize (m : Meta) (t : Text) (bytes : List UInt8) : Parsed m :=
  match t.parse bytes with
  | none => .other
  | some j =>
    match decDoc m j with
    | some (_, s) => .ok s
    | none =>
      match decVersion j with
      | none => .other
      | some v => if v ≠ currentVersion then .incompatible v else .other

/-- `remote.rs:63-67` `LoadedRunState`, or an error. -/
inductive Loaded (m : Meta) where
  | found (s : RunState m)
  | notFound
  | incompatible (found : Nat)
  | error

/-- What the object store answers to a request for the key (`s3.rs:158-183`). -/
inductive Object where
  | bytes (b : List UInt8)
  | noSuchKey
  | fails

/-- `remote/s3.rs:158-183` `try_load_run_state`. -/
def tryLoad (m : Meta) (t : Text) : Object → Loaded m
  | .noSuchKey => .notFound
  | .fails => .error
  | .bytes b =>
    match deserialize m t b with
    | .ok s => .found s
    | .incompatible v => .incompatible v
    | .other => .error

end Abq.RunStateDoc
