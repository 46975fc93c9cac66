/-!
# Shared vocabulary of the model

Identifiers, tags and entities used by the queue and the workers.
-/

namespace Abq

/-- `abq_utils/src/net_protocol.rs:93-94` `WorkerRunner(WorkerTag, RunnerTag)`.
Simplification: the two `u32`s are natural numbers. -/
structure WorkerRunner where
  worker : Nat
  runner : Nat
deriving DecidableEq, Repr

/-- `abq_utils/src/net_protocol.rs:158-165` `entity::Tag`. -/
inductive Tag where
  | runner (wr : WorkerRunner)
  | localClient
  | externalClient
deriving DecidableEq, Repr

/-- `abq_utils/src/net_protocol.rs:188-191` `entity::Entity`: a unique id (16 random bytes,
here a number) and a tag. -/
structure Entity where
  id : Nat
  tag : Tag
deriving DecidableEq, Repr

/-- `abq_utils/src/net_protocol.rs:503-514` `queue::TestStrategy`. -/
inductive TestStrategy where
  | byTest
  | byTopLevelGroup
deriving DecidableEq, Repr

end Abq
