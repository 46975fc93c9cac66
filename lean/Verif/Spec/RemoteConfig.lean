import Verif.Model.RemoteConfig

/-! # Vocabulary for remote persistence -/

namespace Abq.RemoteConfig.Spec
open Abq.RemoteConfig
open Abq.Names (Str Kind)
open Abq.Results (Bytes LoadOut)

/-- What remote persistence is meant to be: for every kind of record and every run a place of its own, from which
what was stored last is loaded. -/
structure Ideal where
  disk : Str → Option Bytes
  kept : Kind → Str → Option Bytes

/-- Storing and loading there. -/
inductive Does : Ideal → Op → Ideal → Bool → Prop where
  | write (s : Ideal) (p b) :
      Does s (.write p b) { s with disk := fun q => if q = p then some b else s.disk q } true
  /-- a file that is stored is kept for its run and kind -/
  | store (s : Ideal) (k r p b) : s.disk p = some b →
      Does s (.store k r p .ok)
        { s with kept := fun k' r' => if k' = k ∧ r' = r then some b else s.kept k' r' } true
  | storeNoFile (s : Ideal) (k r p out) : s.disk p = none → Does s (.store k r p out) s false
  | storeFails (s : Ideal) (k r p) : Does s (.store k r p .refused) s false
  /-- if the answer is lost, it is kept all the same -/
  | storeUnanswered (s : Ideal) (k r p b) : s.disk p = some b →
      Does s (.store k r p .unanswered)
        { s with kept := fun k' r' => if k' = k ∧ r' = r then some b else s.kept k' r' } false
  /-- loading puts into the file what was kept, and changes nothing else -/
  | load (s : Ideal) (k r p b) : s.kept k r = some b →
      Does s (.load k r p .ok) { s with disk := fun q => if q = p then some b else s.disk q } true
  | loadNothing (s : Ideal) (k r p out) : s.kept k r = none → Does s (.load k r p out) s false
  | loadRefused (s : Ideal) (k r p) : Does s (.load k r p .refused) s false
  | loadCut (s : Ideal) (k r p b n) : s.kept k r = some b →
      Does s (.load k r p (.cut n)) { s with disk := fun q => if q = p then some (b.take n) else s.disk q } false

/-- A history of operations, with their answers. -/
inductive Runs : Ideal → List Op → Ideal → List Bool → Prop where
  | nil (s : Ideal) : Runs s [] s []
  | cons {s t u : Ideal} {op ops a as} : Does s op t a → Runs t ops u as → Runs s (op :: ops) u (a :: as)

/-- The name of a kind of record in calls of the command (`abq start --help`). -/
def typeName : Kind → String
  | .manifest => "manifest"
  | .results => "results"
  | .runState => "run_state"

/-- A program that does what the documentation of `--remote-persistence-command` asks for, keeping the files by
their type and run id: called as `<executable> <...arguments> <mode> <file-type> <run-id> <local-path>`, it
reads the local path on `store` and writes it on `load`, and fails if there is nothing to read. -/
structure Documented (exec : Exec (Str → Str → Option Bytes)) (command : Str) (headArgs : List Str) : Prop where
  store : ∀ type runId path w b, w.disk path = some b →
    exec command (headArgs ++ ["store".toList, type, runId, path]) w =
      ({ w with remote := fun t r => if t = type ∧ r = runId then some b else w.remote t r }, some true)
  storeNoFile : ∀ type runId path w, w.disk path = none →
    exec command (headArgs ++ ["store".toList, type, runId, path]) w = (w, some false)
  load : ∀ type runId path w b, w.remote type runId = some b →
    exec command (headArgs ++ ["load".toList, type, runId, path]) w =
      ({ w with disk := fun q => if q = path then some b else w.disk q }, some true)
  loadNothing : ∀ type runId path w, w.remote type runId = none →
    exec command (headArgs ++ ["load".toList, type, runId, path]) w = (w, some false)

/-- Joining with commas. -/
def joinComma : List Str → Str
  | [] => []
  | [p] => p
  | p :: ps => p ++ ',' :: joinComma ps

/-- No failures of the remote: for the program of a command, which is what fails or not. -/
def Smooth : Op → Prop
  | .store _ _ _ out => out = .ok
  | .load _ _ _ out => out = .ok
  | .write .. => True

end Abq.RemoteConfig.Spec
