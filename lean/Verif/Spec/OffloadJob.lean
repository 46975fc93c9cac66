import Verif.Model.OffloadJob
import Verif.Spec.ManifestStore
import Verif.Spec.Results

/-! # Vocabulary for the offload jobs over a directory -/

namespace Abq.OffloadJob.Spec
open Abq.Names (Str)
open Abq.Results (OffloadConfig OffloadOut)

/-- The file is not empty and was last accessed the threshold ago, or earlier. -/
def Stale (c : OffloadConfig) (now accessed size : Nat) : Prop :=
  0 < size ∧ ∃ threshold, c = some threshold ∧ accessed ≤ now ∧ accessed + threshold ≤ now

/-- The entry is the file of this run, with the suffix of the kind of file. -/
def FileOf (suffix : String) (e : Entry) (r : Str) : Prop := e.name = some (r ++ suffix.toList)

/-- The moves that concern the results file of a run, as steps of the machine of that file: the steps of
others and the visits of its entry in which it looked stale. -/
inductive ResultsSteps (c : OffloadConfig) (now : Nat) (r : Str) :
    List (Move Results.Act) → List Results.Act → Prop where
  | nil : ResultsSteps c now r [] []
  | other {ms as} (a : Results.Act) :
      ResultsSteps c now r ms as → ResultsSteps c now r (.other r a :: ms) (a :: as)
  | otherRun {ms as} (r' : Str) (a : Results.Act) :
      r' ≠ r → ResultsSteps c now r ms as → ResultsSteps c now r (.other r' a :: ms) as
  | visit {ms as} (e : Entry) (accessed size acc : Nat) (o : OffloadOut) :
      FileOf ".results.jsonl" e r → e.seen = some (accessed, size) → Stale c now accessed size →
      ResultsSteps c now r ms as →
      ResultsSteps c now r (.visit e acc o :: ms) (.offload c now acc o :: as)
  | visitNot {ms as} (e : Entry) (acc : Nat) (o : OffloadOut) :
      (∀ accessed size, FileOf ".results.jsonl" e r → e.seen = some (accessed, size) →
        ¬ Stale c now accessed size) →
      ResultsSteps c now r ms as → ResultsSteps c now r (.visit e acc o :: ms) as

/-- A visit of the entry `e`, with `acc` the access time read under the lock and `o` the outcome of the i/o,
moves the results file of run `r` in state `σ` to the remote: the entry is its file, looked stale, is in use by
this queue, is stale, and nothing failed. -/
def Goes (c : OffloadConfig) (now : Nat) (e : Entry) (acc : Nat) (o : OffloadOut) (σ : Results.Res)
    (r : Str) : Prop :=
  FileOf ".results.jsonl" e r ∧ (∃ accessed size, e.seen = some (accessed, size) ∧ Stale c now accessed size) ∧
    σ.fd = some .opened ∧ Stale c now acc σ.disk.length ∧ o = .ok

/-- The same for the file of a manifest, which needs not be in use. -/
def GoesManifest (c : OffloadConfig) (now : Nat) (e : Entry) (acc : Nat) (o : OffloadOut)
    (s : ManifestStore.Store) (r : Str) : Prop :=
  FileOf ".manifest.json" e r ∧ (∃ accessed size, e.seen = some (accessed, size) ∧ Stale c now accessed size) ∧
    Stale c now acc s.disk.length ∧ o = .ok

/-- The name of an entry of a directory: it has no slash, is not empty, and is neither `.` nor `..`. -/
def FileName (n : Str) : Prop := '/' ∉ n ∧ n ≠ [] ∧ n ≠ ['.'] ∧ n ≠ ['.', '.']

/-- What the job visits are entries of a directory. -/
def Listing {A : Type} (ms : List (Move A)) : Prop :=
  ∀ e acc o n, Move.visit e acc o ∈ ms → e.name = some n → FileName n

/-- No step of anyone else concerns the run. -/
def Untouched {A : Type} (r : Str) (ms : List (Move A)) : Prop :=
  ∀ r' a, Move.other r' a ∈ ms → r' ≠ r

end Abq.OffloadJob.Spec
