/-!
# The locks of the results files

`abq_queue/src/persistence/results/fs.rs`: the cache of file descriptors is a map behind a read-write lock, each
descriptor in it is behind a mutex of its own, and both are held while a file is used. A client that is sent results
is sent them while both are held (results/fs.rs:382-408, queue.rs:2466-2501).

`Model/Results.lean` has what an operation does to the file of its run, as one step. Here is what that rests on: who holds
which lock while it does so. The operations of all runs take part.

The locks are those of `tokio::sync` (tokio 1.26), which are given to those that wait for them in the order in which they
asked; in particular no read access is given while somebody waits for write access. Not modelled: calls that are cancelled
while they wait.
-/

namespace Abq.FileLocks

/-- Where a task is. The first six are `with_file` (results/fs.rs:121-211), which `dump`, `dump_to_remote` and
`with_results_stream` (results/fs.rs:324-408) go through; the next three are `perform_offload` (results/fs.rs:264-319). -/
inductive Stage where
  /-- waits for read access to the cache, first `with_file_fast_path` (results/fs.rs:127) -/
  | first
  /-- there was no descriptor: waits for write access (results/fs.rs:167) -/
  | slow
  /-- has write access, downloads and opens the file (results/fs.rs:168-194) -/
  | opening
  /-- waits for read access, second `with_file_fast_path` -/
  | second
  /-- has read access, waits for the mutex of the descriptor (results/fs.rs:133) -/
  | queued
  /-- has read access and the mutex, uses the file (results/fs.rs:134-156) -/
  | busy
  /-- waits for write access in order to offload (results/fs.rs:272) -/
  | want
  /-- has write access, waits for the mutex (results/fs.rs:277) -/
  | latched
  /-- has write access and the mutex, offloads the file (results/fs.rs:278-318) -/
  | moving
  /-- has returned -/
  | gone
deriving DecidableEq, Repr

/-- A call of one of these functions for a run (results/fs.rs:121-408). -/
structure Task where
  run : String
  stage : Stage
deriving DecidableEq, Repr

/-- `results/fs.rs:36-40` `FdCacheInner` and the calls made so far. A lock is the list of those that hold it or wait for
it, in the order in which they asked. -/
structure St where
  /-- the lock of the cache; the flag says that write access is asked for -/
  cache : List (Nat × Bool)
  /-- the mutex of the descriptor of a run (`FdMap`, results/fs.rs:34) -/
  mutex : String → List Nat
  /-- the runs that have a descriptor; none is ever removed -/
  known : String → Bool
  tasks : List Task

/-- `results/fs.rs:59-65` `FilesystemPersistor::new`. -/
def init : St := { cache := [], mutex := fun _ => [], known := fun _ => false, tasks := [] }

/-- Does `t` hold the read-write lock? The first in line does, and so do all that ask for read access and have nobody
before them that asks for write access (`tokio::sync::RwLock`, results/fs.rs:38). -/
def granted (q : List (Nat × Bool)) (t : Nat) : Bool :=
  q.head?.map Prod.fst == some t || (q.takeWhile (fun p => !p.2)).any (fun p => p.1 == t)

/-- What may happen (results/fs.rs:121-408). -/
inductive Act where
  /-- somebody begins to use the results file of a run (results/fs.rs:159) -/
  | use (run : String)
  /-- the offload job begins with the file of a run (results/fs.rs:264) -/
  | offload (run : String)
  /-- the task does what is next, if it has the lock it waits for; `ok` is whether a file could be opened
  (results/fs.rs:182) -/
  | go (t : Nat) (ok : Bool)
deriving DecidableEq, Repr

namespace St

/-- The task is at another place (results/fs.rs:121-319). -/
def goto (s : St) (t : Nat) (r : String) (st : Stage) : St := { s with tasks := s.tasks.set t ⟨r, st⟩ }

/-- Gives back the access to the cache: the guard is dropped (results/fs.rs:157, 195, 319). -/
def release (s : St) (t : Nat) : St := { s with cache := s.cache.filter (fun p => p.1 != t) }

/-- Asks for access to the cache (results/fs.rs:127, 167, 272). -/
def ask (s : St) (t : Nat) (write : Bool) : St := { s with cache := s.cache ++ [(t, write)] }

/-- Asks for the mutex of a descriptor (results/fs.rs:133, 277). -/
def latch (s : St) (t : Nat) (r : String) : St :=
  { s with mutex := fun x => if x = r then s.mutex r ++ [t] else s.mutex x }

/-- Gives back the mutex (results/fs.rs:157, 319). -/
def unlatch (s : St) (t : Nat) (r : String) : St :=
  { s with mutex := fun x => if x = r then (s.mutex r).filter (· != t) else s.mutex x }

/-- A descriptor is inserted into the cache (results/fs.rs:190). -/
def learn (s : St) (r : String) : St := { s with known := fun x => x == r || s.known x }

/-- What task `t` does next (results/fs.rs:121-211, 264-319). Simplification: the mutex and the access to the cache are
given back at once. A download that fails in `busy` ends the call like any other failure (results/fs.rs:139-143). -/
def go (s : St) (t : Nat) (ok : Bool) : St :=
  match s.tasks[t]? with
  | none => s
  | some ⟨r, .first⟩ =>
    if granted s.cache t then
      if s.known r then (s.latch t r).goto t r .queued
      else ((s.release t).ask t true).goto t r .slow
    else s
  | some ⟨r, .slow⟩ => if granted s.cache t then s.goto t r .opening else s
  | some ⟨r, .opening⟩ =>
    if s.known r || ok then (((s.learn r).release t).ask t false).goto t r .second
    else (s.release t).goto t r .gone
  | some ⟨r, .second⟩ =>
    if granted s.cache t then
      if s.known r then (s.latch t r).goto t r .queued else (s.release t).goto t r .gone
    else s
  | some ⟨r, .queued⟩ => if (s.mutex r).head? = some t then s.goto t r .busy else s
  | some ⟨r, .busy⟩ => ((s.unlatch t r).release t).goto t r .gone
  | some ⟨r, .want⟩ =>
    if granted s.cache t then
      if s.known r then (s.latch t r).goto t r .latched else (s.release t).goto t r .gone
    else s
  | some ⟨r, .latched⟩ => if (s.mutex r).head? = some t then s.goto t r .moving else s
  | some ⟨r, .moving⟩ => ((s.unlatch t r).release t).goto t r .gone
  | some ⟨_, .gone⟩ => s

/-- One step (results/fs.rs:121-408). A call gets the next number. -/
def step (s : St) : Act → St
  | .use r => { s.ask s.tasks.length false with tasks := s.tasks ++ [⟨r, .first⟩] }
  | .offload r => { s.ask s.tasks.length true with tasks := s.tasks ++ [⟨r, .want⟩] }
  | .go t ok => s.go t ok

/-- A history (results/fs.rs:121-408). -/
def run (s : St) (acts : List Act) : St := acts.foldl step s

/-- The first `n` steps of a history without end (results/fs.rs:121-408). -/
def after (f : Nat → Act) : Nat → St
  | 0 => init
  | n + 1 => (after f n).step (f n)

end St
end Abq.FileLocks
