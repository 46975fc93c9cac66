import Verif.Model.Restart
/-!
# What concerns one run

Vocabulary of C119: the part of a history of the queue that concerns one run.
-/

namespace Abq.Spec.Isolation
variable {T : Type}

/-- The part of one action that concerns run `rid`. Something that was going on and is resumed is named by its position among all that
is going on; here, by its position among what is going on for that run. -/
def concerning (rid : RunId) (σ : Runs T) : RunsAct T → List (RunsAct T)
  | .join p => if p.rid = rid then [.join p] else []
  | .request r q => if r = rid then [.request r q] else []
  | .resume i ans ok =>
    match σ.pending[i]? with
    | none => []
    | some p => if p.rid = rid then [.resume (((σ.pending.take i).filter (fun q => q.rid == rid)).length) ans ok] else []

/-- The part of a history that concerns run `rid`. -/
def only (rid : RunId) : Runs T → List (RunsAct T) → List (RunsAct T)
  | _, [] => []
  | σ, a :: as => concerning rid σ a ++ only rid (σ.step a) as

/-! ## With restarts of the queue, and a store that all runs share -/

/-- What is observed is about run `rid`, or about the queue as a whole. -/
def about (rid : RunId) : Restart.Obs T → Bool
  | .queue e => e.rid == rid
  | .stored r _ => r == rid
  | .unreachable r => r == rid
  | .restarted => true

/-- The part of one thing that happens that concerns run `rid`. -/
def concerningWorld (rid : RunId) (w : Restart.World T) : Restart.Act T → List (Restart.Act T)
  | .join p => if p.rid = rid then [.join p] else []
  | .request r q => if r = rid then [.request r q] else []
  | .resume i fault ok =>
    match w.queue.pending[i]? with
    | none => []
    | some p =>
      if p.rid = rid then [.resume (((w.queue.pending.take i).filter (fun q => q.rid == rid)).length) fault ok] else []
  | .restart => [.restart]

/-- The part of a history that concerns run `rid`. -/
def onlyWorld (st : Restart.Strategy) (rid : RunId) : Restart.World T → List (Restart.Act T) → List (Restart.Act T)
  | _, [] => []
  | w, a :: as => concerningWorld rid w a ++ onlyWorld st rid (w.step st a) as

end Abq.Spec.Isolation
