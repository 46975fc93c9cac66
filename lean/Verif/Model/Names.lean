/-!
# Names of the records of a run in local and remote storage

`abq_queue/src/persistence/{manifest,results}/fs.rs` and `persistence/remote{,/s3}.rs`. Strings and
paths are lists of characters; run ids are any strings (`net_protocol.rs:266-272`).
-/

namespace Abq.Names

/-- Paths and run ids (`results/fs.rs:75-98`, `net_protocol.rs:249-272`). -/
abbrev Str := List Char

/-- `remote.rs:38-42` `PersistenceKind`. -/
inductive Kind where
  | manifest
  | results
  | runState
deriving DecidableEq, Repr

/-- `remote.rs:45-51` `kind_str`. -/
def Kind.str : Kind → Str
  | .manifest => "manifest".toList
  | .results => "results".toList
  | .runState => "run_state".toList

/-- `remote.rs:53-59` `file_extension`. -/
def Kind.ext : Kind → Str
  | .manifest => "json".toList
  | .results => "jsonl".toList
  | .runState => "json".toList

/-- `remote/s3.rs:97-102` `build_key`. -/
def buildKey (pre : Str) (k : Kind) (runId : Str) : Str :=
  pre ++ '/' :: (runId ++ '/' :: (k.str ++ '.' :: k.ext))

/-- The kinds of record kept in local files (`manifest/fs.rs:53-57`, `results/fs.rs:75-79`). -/
inductive Local where
  | manifest
  | results
deriving DecidableEq, Repr

/-- The suffixes in `manifest/fs.rs:56,72` and `results/fs.rs:77,93`. -/
def Local.suffix : Local → Str
  | .manifest => ".manifest.json".toList
  | .results => ".results.jsonl".toList

/-- `Path::join` of the standard library on Unix: an absolute path replaces the root (`manifest/fs.rs:53-57`,
`results/fs.rs:75-79`). -/
def join (root name : Str) : Str :=
  match name with
  | '/' :: _ => name
  | _ => if root = [] ∨ root.getLast? = some '/' then root ++ name else root ++ '/' :: name

/-- `manifest/fs.rs:53-57`, `results/fs.rs:75-79` `get_path`. -/
def getPath (root : Str) (k : Local) (runId : Str) : Str := join root (runId ++ k.suffix)

/-- The pieces of a path between slashes (`manifest/fs.rs:59-76`, `results/fs.rs:81-98`). -/
def pieces : Str → List Str
  | [] => [[]]
  | c :: cs =>
    if c = '/' then [] :: pieces cs
    else
      match pieces cs with
      | [] => [[c]]
      | p :: ps => (c :: p) :: ps

/-- `Path::components` on Unix: empty pieces and `.` do not count (`manifest/fs.rs:59-76`, `results/fs.rs:81-98`). -/
def components (p : Str) : List Str := (pieces p).filter (fun c => decide (c ≠ [] ∧ c ≠ ['.']))

/-- `Path::file_name`: the last component, unless it is `..` (`manifest/fs.rs:59-76`, `results/fs.rs:81-98`). -/
def fileName (p : Str) : Option Str :=
  match (components p).getLast? with
  | some ['.', '.'] => none
  | o => o

/-- `str::strip_suffix` (`manifest/fs.rs:59-76`, `results/fs.rs:81-98`). -/
def stripSuffix (s suf : Str) : Option Str :=
  if suf.isSuffixOf s then some (s.take (s.length - suf.length)) else none

/-- `manifest/fs.rs:59-76`, `results/fs.rs:81-98` `run_id_of_path`. -/
def runIdOfPath (k : Local) (p : Str) : Option Str :=
  match fileName p with
  | none => none
  | some n => stripSuffix n k.suffix

end Abq.Names
