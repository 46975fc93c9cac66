import Verif.Spec.ResultsLive
import Verif.Proof.Results

/-! # Progress of recording and serving results (C147) -/

namespace Abq.ResultsLive
open Abq.Results Abq.Results.Spec

/-- The recording a task is about. -/
def recId : Task → Option Nat
  | .ack id _ _ => some id
  | .op (.dump id _) _ _ => some id
  | .finish id _ => some id
  | _ => none

/-- The request a task is about. -/
def readId : Task → Option Nat
  | .op (.read r) _ _ => some r
  | _ => none

/-- How many more steps a task and what comes of it may take. -/
def cost : Task → Nat
  | .ack .. => 8
  | .op (.dump ..) _ .fast => 7
  | .op (.dump ..) _ .slow => 6
  | .op (.dump ..) _ .second => 5
  | .finish .. => 4
  | .op _ _ .fast => 3
  | .op _ _ .slow => 2
  | .op _ _ .second => 1

def costs (ts : List Task) : Nat := (ts.map cost).sum

theorem cost_pos (t : Task) : 0 < cost t := by
  unfold cost; split <;> omega

/-- What a step does to the books. -/
structure Did (σ : Res) (ts : List Task) (t : Task) (τ : Res) (evs : List Ev) (new : List Task) : Prop where
  events : τ.events = σ.events ++ evs
  tasks : τ.tasks = ts ++ new
  recs : over evs ++ new.filterMap recId = (recId t).toList
  reads : served evs ++ new.filterMap readId = (readId t).toList
  begun : begun evs = []
  admitted : admitted evs = []
  less : costs new < cost t
  processing : τ.processing = σ.processing - (over evs).length
  nextId : τ.nextId = σ.nextId
  nextRead : τ.nextRead = σ.nextRead

theorem fastPath_frame {σ τ : Res} {o : Op} {out : Out} {ev : Ev} (hf : fastPath σ o out = some (τ, ev)) :
    τ.events = σ.events ∧ τ.tasks = σ.tasks ∧ τ.processing = σ.processing ∧ τ.nextId = σ.nextId ∧ τ.nextRead = σ.nextRead := by
  unfold fastPath at hf
  split at hf
  · simp at hf
  · simp only [Option.some.injEq, Prod.mk.injEq] at hf
    obtain ⟨rfl, -⟩ := hf; simp
  · dsimp only at hf
    split at hf <;> simp only [Option.some.injEq, Prod.mk.injEq] at hf <;> obtain ⟨rfl, -⟩ := hf <;> simp

theorem did_op {σ τ : Res} {ts : List Task} {o : Op} {e : Bool} {st : Stage} {ev : Ev} (hev : EvOf o ev)
    (h1 : τ.events = σ.events) (h2 : τ.tasks = ts) (h3 : τ.processing = σ.processing) (h4 : τ.nextId = σ.nextId)
    (h5 : τ.nextRead = σ.nextRead) : Did σ ts (.op o e st) (τ.add [ev] (after o e)) [ev] (after o e) := by
  refine ⟨by simp [Res.add, h1], by simp [Res.add, h2], ?_, ?_, ?_, ?_, ?_, ?_, h4, h5⟩
  all_goals
    cases o with
    | dump id line => obtain ⟨c, ok, rfl, -⟩ := hev; cases st <;> simp [over, served, begun, admitted, after, recId, readId, costs, cost, Res.add, h3]
    | toRemote => obtain ⟨ok, rfl⟩ := hev; cases st <;> simp [over, served, begun, admitted, after, recId, readId, costs, cost, Res.add, h3]
    | read r => rcases hev with ⟨b, rfl⟩ | rfl <;> cases st <;> simp [over, served, begun, admitted, after, recId, readId, costs, cost, Res.add, h3]

theorem did_stepTask (σ : Res) (ts : List Task) (out : Out) (t : Task) :
    ∃ evs new, Did σ ts t (stepTask { σ with tasks := ts } out t) evs new := by
  cases t with
  | ack id line e =>
    simp only [stepTask]
    split
    · exact ⟨[.acked id], [.op (.dump id line) e .fast], by constructor <;> simp [Res.add, over, served, begun, admitted, recId, readId, costs, cost]⟩
    · exact ⟨[], [.op (.dump id line) e .fast], by constructor <;> simp [Res.add, over, served, begun, admitted, recId, readId, costs, cost]⟩
  | finish id e =>
    simp only [stepTask]
    refine ⟨[.finished id e], _, rfl, rfl, ?_, ?_, rfl, rfl, ?_, ?_, rfl, rfl⟩
    · split <;> simp [over, recId]
    · split <;> simp [served, readId]
    · split <;> simp [costs, cost]
    · simp [over, Res.add]
  | op o e st =>
    cases st with
    | fast =>
      simp only [stepTask]
      cases hf : fastPath { σ with tasks := ts } o out with
      | none => exact ⟨[], [.op o e .slow], by constructor <;> cases o <;> simp [Res.add, over, served, begun, admitted, recId, readId, costs, cost]⟩
      | some x =>
        obtain ⟨h1, h2, h3, h4, h5⟩ := fastPath_frame hf
        exact ⟨_, _, did_op (fastPath_ev hf) h1 h2 h3 h4 h5⟩
    | second =>
      simp only [stepTask]
      cases hf : fastPath { σ with tasks := ts } o out with
      | none => exact ⟨_, _, did_op (failed_ev o) rfl rfl rfl rfl rfl⟩
      | some x =>
        obtain ⟨h1, h2, h3, h4, h5⟩ := fastPath_frame hf
        exact ⟨_, _, did_op (fastPath_ev hf) h1 h2 h3 h4 h5⟩
    | slow =>
      simp only [stepTask]
      unfold slowPath
      cases hfd : σ.fd with
      | some fd =>
        simp only [if_true]
        exact ⟨[], [.op o e .second], by constructor <;> cases o <;> simp [Res.add, over, served, begun, admitted, recId, readId, costs, cost]⟩
      | none =>
        by_cases ho : out.openOk = true
        · simp only [ho, if_true]
          exact ⟨[.opened (load σ.remote σ.disk out.load).2], [.op o e .second],
            by constructor <;> cases o <;> simp [Res.add, over, served, begun, admitted, recId, readId, costs, cost]⟩
        · simp only [ho]
          exact ⟨_, _, did_op (failed_ev o) rfl rfl rfl rfl rfl⟩

/-- The books: every recording begun is over or has one task, every request let in is answered or has one task. -/
structure Books (σ : Res) : Prop where
  begun : begun σ.events = List.range σ.nextId
  admitted : admitted σ.events = List.range σ.nextRead
  recs : (over σ.events ++ σ.tasks.filterMap recId).Perm (Spec.begun σ.events)
  reads : (served σ.events ++ σ.tasks.filterMap readId).Perm (Spec.admitted σ.events)
  processing : σ.processing = (σ.tasks.filterMap recId).length

theorem begun_append (a b : List Ev) : begun (a ++ b) = begun a ++ begun b := by simp [begun]
theorem over_append (a b : List Ev) : over (a ++ b) = over a ++ over b := by simp [over]
theorem admitted_append (a b : List Ev) : admitted (a ++ b) = admitted a ++ admitted b := by simp [admitted]
theorem served_append (a b : List Ev) : served (a ++ b) = served a ++ served b := by simp [served]

theorem filterMap_erase {f : Task → Option Nat} {ts : List Task} {i : Nat} {t : Task} (h : ts[i]? = some t) :
    (ts.filterMap f).Perm ((f t).toList ++ (ts.eraseIdx i).filterMap f) := by
  have := (perm_eraseIdx h).filterMap f
  cases hf : f t <;> simpa [List.filterMap_cons, hf] using this

theorem perm_move {a b c x y : List Nat} {p : List Nat} (h : (a ++ b).Perm p) (hb : b.Perm (x ++ y)) (hc : c ++ z = x) :
    (a ++ c ++ (y ++ z)).Perm p := by
  subst hc
  refine List.Perm.trans ?_ h
  refine List.Perm.trans ?_ (hb.symm.append_left a)
  rw [List.append_assoc, List.append_assoc]
  refine List.Perm.append_left _ (List.Perm.append_left _ List.perm_append_comm)

theorem books_init (noop : Bool) (disk : Bytes) (remote : Option Bytes) : Books (init noop disk remote) := by
  constructor <;> simp [init, begun, admitted, over, served]

theorem offload_frame (σ : Res) (c : OffloadConfig) (now accessed : Nat) (o : OffloadOut) :
    ∃ b, (offload σ c now accessed o).events = σ.events ++ [.offload b] ∧ (offload σ c now accessed o).tasks = σ.tasks ∧
      (offload σ c now accessed o).nextId = σ.nextId ∧ (offload σ c now accessed o).nextRead = σ.nextRead ∧
      (offload σ c now accessed o).processing = σ.processing := by
  unfold offload
  split
  · cases o <;> simp [Res.add]
  · simp [Res.add]

theorem books_step {σ : Res} (h : Books σ) (a : Act) : Books (step σ a) := by
  obtain ⟨h1, h2, h3, h4, h5⟩ := h
  have plan : ∀ (line : Bytes) (t : Task), recId t = some σ.nextId → readId t = none →
      Books ({ σ with processing := σ.processing + 1, nextId := σ.nextId + 1 }.add [.planned σ.nextId line] [t]) := by
    intro line t ht hr
    constructor
    · simp only [Res.add, begun_append, h1, List.range_succ]; rfl
    · simp only [Res.add, admitted_append, h2]; simp [admitted]
    · simp only [Res.add, begun_append, over_append, List.filterMap_append]
      have e1 : over [Ev.planned σ.nextId line] = [] := rfl
      have e2 : begun [Ev.planned σ.nextId line] = [σ.nextId] := rfl
      have e3 : [t].filterMap recId = [σ.nextId] := by simp [ht]
      rw [e1, e2, e3, List.append_nil, ← List.append_assoc]
      exact h3.append_right _
    · simp only [Res.add, admitted_append, served_append, List.filterMap_append]
      have e1 : served [Ev.planned σ.nextId line] = [] := rfl
      have e2 : admitted [Ev.planned σ.nextId line] = [] := rfl
      have e3 : [t].filterMap readId = [] := by simp [hr]
      rw [e1, e2, e3]
      simpa using h4
    · simp [Res.add, h5, ht]
  cases a with
  | results line e => exact plan line _ rfl rfl
  | summary line e => exact plan line _ rfl rfl
  | request =>
    simp only [step]
    split
    · constructor
      · simp only [Res.add, begun_append, h1]; simp [begun]
      · simp only [Res.add, admitted_append, h2, List.range_succ]; rfl
      · have e3 : [Task.op (.read σ.nextRead) false .fast].filterMap recId = [] := rfl
        simpa [Res.add, begun_append, over_append, begun, over, e3] using h3
      · simp only [Res.add, admitted_append, served_append, List.filterMap_append]
        have e1 : served [Ev.asked σ.nextRead] = [] := rfl
        have e2 : admitted [Ev.asked σ.nextRead] = [σ.nextRead] := rfl
        have e3 : [Task.op (.read σ.nextRead) false .fast].filterMap readId = [σ.nextRead] := rfl
        rw [e1, e2, e3, List.append_nil, ← List.append_assoc]
        exact h4.append_right _
      · simp only [Res.add, List.filterMap_append, List.length_append, h5]; rfl
    · constructor
      · simp only [Res.add, begun_append, h1]; simp [begun]
      · simp only [Res.add, admitted_append, h2]; simp [admitted]
      · simpa [Res.add, begun_append, over_append, begun, over] using h3
      · simpa [Res.add, admitted_append, served_append, admitted, served] using h4
      · simpa [Res.add] using h5
  | resume i out =>
    simp only [step]
    cases ht : σ.tasks[i]? with
    | none => exact ⟨h1, h2, h3, h4, h5⟩
    | some t =>
      obtain ⟨evs, new, d⟩ := did_stepTask σ (σ.tasks.eraseIdx i) out t
      constructor
      · rw [d.events, begun_append, d.begun, List.append_nil, d.nextId, h1]
      · rw [d.events, admitted_append, d.admitted, List.append_nil, d.nextRead, h2]
      · rw [d.events, begun_append, d.begun, List.append_nil, over_append, d.tasks, List.filterMap_append]
        exact perm_move h3 (filterMap_erase ht) d.recs
      · rw [d.events, admitted_append, d.admitted, List.append_nil, served_append, d.tasks, List.filterMap_append]
        exact perm_move h4 (filterMap_erase ht) d.reads
      · have hl := (filterMap_erase (f := recId) ht).length_eq
        have hd := congrArg List.length d.recs
        rw [d.processing, d.tasks, List.filterMap_append, h5]
        simp only [List.length_append] at hl hd ⊢
        omega
  | offload c now accessed o =>
    obtain ⟨b, e1, e2, e3, e4, e5⟩ := offload_frame σ c now accessed o
    simp only [step]
    constructor
    · rw [e1, e3, begun_append, h1]; simp [begun]
    · rw [e1, e4, admitted_append, h2]; simp [admitted]
    · rw [e1, e2, begun_append, over_append]; simpa [begun, over] using h3
    · rw [e1, e2, admitted_append, served_append]; simpa [admitted, served] using h4
    · rw [e5, e2, h5]

theorem books_run {σ : Res} (h : Books σ) (acts : List Act) : Books (run σ acts) := by
  induction acts generalizing σ with
  | nil => exact h
  | cons a as ih => exact ih (books_step h a)

/-- How many more steps the tasks about `j` may take. -/
def left (j : Job) (ts : List Task) : Nat := (ts.map fun t => if job t = some j then cost t else 0).sum

theorem left_append (j : Job) (a b : List Task) : left j (a ++ b) = left j a + left j b := by simp [left]

theorem left_le (j : Job) (ts : List Task) : left j ts ≤ costs ts := by
  induction ts with
  | nil => simp [left, costs]
  | cons t ts ih => simp only [left, costs, List.map_cons, List.sum_cons] at ih ⊢; split <;> omega

theorem left_none {j : Job} {ts : List Task} (h : ∀ t ∈ ts, job t ≠ some j) : left j ts = 0 := by
  induction ts with
  | nil => rfl
  | cons t ts ih =>
    simp only [left, List.map_cons, List.sum_cons, if_neg (h t (by simp))] at ih ⊢
    simpa using ih fun u hu => h u (by simp [hu])

theorem left_pos {j : Job} {ts : List Task} (h : left j ts ≠ 0) : ∃ t ∈ ts, job t = some j := by
  refine Classical.byContradiction fun hc => h (left_none fun t ht he => hc ⟨t, ht, he⟩)

theorem left_zero {j : Job} {ts : List Task} (h : left j ts = 0) : ∀ t ∈ ts, job t ≠ some j := by
  intro t ht he
  induction ts with
  | nil => simp at ht
  | cons u ts ih =>
    simp only [left, List.map_cons, List.sum_cons] at h ih
    rcases List.mem_cons.mp ht with rfl | ht
    · have := cost_pos t; rw [if_pos he] at h; omega
    · exact ih (by omega) ht

theorem job_rec {t : Task} {id : Nat} : job t = some (.recording id) ↔ recId t = some id := by
  cases t with
  | op o e st => cases o <;> simp [job, recId]
  | _ => simp [job, recId]

theorem job_read {t : Task} {r : Nat} : job t = some (.request r) ↔ readId t = some r := by
  cases t with
  | op o e st => cases o <;> simp [job, readId]
  | _ => simp [job, readId]

theorem left_erase {j : Job} {ts : List Task} {i : Nat} {t : Task} (h : ts[i]? = some t) :
    left j ts = (if job t = some j then cost t else 0) + left j (ts.eraseIdx i) := by
  have := ((perm_eraseIdx h).map fun t => if job t = some j then cost t else 0).sum_nat
  simpa [left] using this

/-- What comes of a task is about the same thing. -/
theorem did_job {σ τ : Res} {ts new : List Task} {t : Task} {evs : List Ev} (d : Did σ ts t τ evs new) {u : Task} (hu : u ∈ new)
    {j : Job} (hj : job u = some j) : job t = some j := by
  cases j with
  | recording id =>
    rw [job_rec] at hj ⊢
    have : id ∈ (recId t).toList := by
      rw [← d.recs]; exact List.mem_append_right _ (List.mem_filterMap.mpr ⟨u, hu, hj⟩)
    simpa using this
  | request r =>
    rw [job_read] at hj ⊢
    have : r ∈ (readId t).toList := by
      rw [← d.reads]; exact List.mem_append_right _ (List.mem_filterMap.mpr ⟨u, hu, hj⟩)
    simpa using this

/-- A task that goes on has less to do, and leaves the others alone. -/
theorem left_resume {σ : Res} {i : Nat} {t : Task} (out : Out) (ht : σ.tasks[i]? = some t) (j : Job) :
    left j (step σ (.resume i out)).tasks ≤ left j σ.tasks ∧
    (job t = some j → left j (step σ (.resume i out)).tasks < left j σ.tasks) := by
  obtain ⟨evs, new, d⟩ := did_stepTask σ (σ.tasks.eraseIdx i) out t
  have hs : (step σ (.resume i out)).tasks = σ.tasks.eraseIdx i ++ new := by
    simp only [step, ht]; exact d.tasks
  rw [hs, left_append, left_erase ht]
  have hl := d.less
  have hle := left_le j new
  by_cases hj : job t = some j
  · simp only [if_pos hj]; exact ⟨by omega, fun _ => by omega⟩
  · rw [left_none fun u hu he => hj (did_job d hu he)]
    simp only [if_neg hj]
    exact ⟨by omega, fun h => (hj h).elim⟩

/-- Something that was begun. -/
def Known (σ : Res) : Job → Prop
  | .recording id => id ∈ begun σ.events
  | .request r => r ∈ admitted σ.events

theorem known_step {σ : Res} {j : Job} (h : ResultsLive.Known σ j) (a : Act) : ResultsLive.Known (step σ a) j := by
  obtain ⟨evs, he⟩ : ∃ evs, (step σ a).events = σ.events ++ evs := by
    cases a with
    | results => exact ⟨_, rfl⟩
    | summary => exact ⟨_, rfl⟩
    | request => simp only [step]; split <;> exact ⟨_, rfl⟩
    | resume i out =>
      simp only [step]
      cases ht : σ.tasks[i]? with
      | none => exact ⟨[], by simp⟩
      | some t => obtain ⟨evs, new, d⟩ := did_stepTask σ (σ.tasks.eraseIdx i) out t; exact ⟨_, d.events⟩
    | offload c now accessed o => obtain ⟨b, e1, -⟩ := offload_frame σ c now accessed o; exact ⟨_, e1⟩
  cases j <;> simp only [ResultsLive.Known, he, begun_append, admitted_append, List.mem_append] at h ⊢ <;> exact Or.inl h

theorem known_run {σ : Res} {j : Job} (h : ResultsLive.Known σ j) (acts : List Act) : ResultsLive.Known (run σ acts) j := by
  induction acts generalizing σ with
  | nil => exact h
  | cons a as ih => exact ih (known_step h a)

/-- Nothing adds to what is left to do of something that was begun. -/
theorem left_step {σ : Res} (hb : Books σ) {j : Job} (hk : ResultsLive.Known σ j) (a : Act) :
    left j (step σ a).tasks ≤ left j σ.tasks := by
  have fresh : ∀ (u : Task), job u = some (.recording σ.nextId) → left j [u] = 0 := by
    intro u hu
    refine left_none fun t ht he => ?_
    rw [List.mem_singleton.mp ht, hu] at he
    obtain rfl := Option.some.inj he
    simp [ResultsLive.Known, hb.begun] at hk
  have freshRead : ∀ (u : Task), job u = some (.request σ.nextRead) → left j [u] = 0 := by
    intro u hu
    refine left_none fun t ht he => ?_
    rw [List.mem_singleton.mp ht, hu] at he
    obtain rfl := Option.some.inj he
    simp [ResultsLive.Known, hb.admitted] at hk
  cases a with
  | results line e => simp only [step, Res.add, left_append, fresh _ (rfl : job (.ack _ _ _) = _)]; omega
  | summary line e => simp only [step, Res.add, left_append, fresh _ (rfl : job (.op (.dump _ _) _ _) = _)]; omega
  | request =>
    simp only [step]
    split
    · simp only [Res.add, left_append, freshRead _ (rfl : job (.op (.read _) _ _) = _)]; omega
    · simp [Res.add]
  | resume i out =>
    cases ht : σ.tasks[i]? with
    | none => simp [step, ht]
    | some t => exact (left_resume out ht j).1
  | offload c now accessed o =>
    obtain ⟨b, e1, e2, -⟩ := offload_frame σ c now accessed o
    simp [step, e2]

theorem left_run {σ : Res} (hb : Books σ) {j : Job} (hk : ResultsLive.Known σ j) (acts : List Act) :
    left j (run σ acts).tasks ≤ left j σ.tasks := by
  induction acts generalizing σ with
  | nil => exact Nat.le_refl _
  | cons a as ih => exact Nat.le_trans (ih (books_step hb a) (known_step hk a)) (left_step hb hk a)

theorem first_add (f : Nat → Act) (n k : Nat) : first f (n + k) = first f n ++ (List.range k).map fun i => f (n + i) := by
  simp [first, List.range_add]

theorem first_succ (f : Nat → Act) (n : Nat) : first f (n + 1) = first f n ++ [f n] := by
  simp [first, List.range_succ]

theorem run_append (σ : Res) (a b : List Act) : run σ (a ++ b) = run (run σ a) b := by simp [run, List.foldl_append]

theorem left_later {σ : Res} (hb : Books σ) {j : Job} (hk : ResultsLive.Known σ j) (f : Nat → Act) {n m : Nat} (h : n ≤ m) :
    left j (run σ (first f m)).tasks ≤ left j (run σ (first f n)).tasks := by
  obtain ⟨k, rfl⟩ := Nat.exists_eq_add_of_le h
  rw [first_add, run_append]
  exact left_run (books_run hb _) (known_run hk _) _

/-- A task that does not wait for ever does not from some time on. -/
theorem goesOn_later {σ : Res} {f : Nat → Act} {j : Job} (h : GoesOn σ f j) (k : Nat) :
    GoesOn (run σ (first f k)) (fun i => f (k + i)) j := by
  have e : ∀ n, run (run σ (first f k)) (first (fun i => f (k + i)) n) = run σ (first f (k + n)) := by
    intro n
    rw [first_add, run_append]
    rfl
  intro n hn
  rw [e] at hn
  obtain ⟨m, hm, i, out, t, h1, h2, h3⟩ := h (k + n) hn
  obtain ⟨d, rfl⟩ := Nat.exists_eq_add_of_le (Nat.le_trans (Nat.le_add_right k n) hm)
  exact ⟨d, by omega, i, out, t, h1, by rw [e]; exact h2, h3⟩

/-- What was begun comes to its end. -/
theorem ends {σ : Res} (hb : Books σ) {j : Job} (hk : ResultsLive.Known σ j) {f : Nat → Act} (hg : GoesOn σ f j) :
    ∃ N, ∀ n, N ≤ n → left j (run σ (first f n)).tasks = 0 := by
  suffices h : ∀ k n, left j (run σ (first f n)).tasks ≤ k → ∃ N, left j (run σ (first f N)).tasks = 0 by
    obtain ⟨N, hN⟩ := h _ 0 (Nat.le_refl _)
    exact ⟨N, fun n hn => Nat.le_zero.mp (hN ▸ left_later hb hk f hn)⟩
  intro k
  induction k with
  | zero => exact fun n h => ⟨n, Nat.le_zero.mp h⟩
  | succ k ih =>
    intro n h
    by_cases h0 : left j (run σ (first f n)).tasks = 0
    · exact ⟨n, h0⟩
    obtain ⟨m, hm, i, out, t, hf, ht, hj⟩ := hg n (left_pos h0)
    refine ih (m + 1) ?_
    have h1 := (left_resume out ht j).2 hj
    have h2 := left_later hb hk f hm
    rw [first_succ, run_append, hf]
    have h3 : run (run σ (first f m)) [.resume i out] = step (run σ (first f m)) (.resume i out) := rfl
    rw [h3]
    omega

theorem over_of_left {σ : Res} (hb : Books σ) {id : Nat} (hk : id ∈ begun σ.events) (h : left (.recording id) σ.tasks = 0) :
    id ∈ over σ.events := by
  rcases List.mem_append.mp (hb.recs.mem_iff.mpr hk) with h1 | h1
  · exact h1
  · obtain ⟨t, ht, he⟩ := List.mem_filterMap.mp h1
    exact (left_zero h t ht (job_rec.mpr he)).elim

theorem served_of_left {σ : Res} (hb : Books σ) {r : Nat} (hk : r ∈ admitted σ.events) (h : left (.request r) σ.tasks = 0) :
    r ∈ served σ.events := by
  rcases List.mem_append.mp (hb.reads.mem_iff.mpr hk) with h1 | h1
  · exact h1
  · obtain ⟨t, ht, he⟩ := List.mem_filterMap.mp h1
    exact (left_zero h t ht (job_read.mpr he)).elim

/-- Nothing new is recorded: the recordings begun stay the same. -/
theorem begun_step {σ : Res} {a : Act} (ha : NothingNew a) : begun (step σ a).events = begun σ.events := by
  cases a with
  | results => exact ha.elim
  | summary => exact ha.elim
  | request => simp only [step]; split <;> simp [Res.add, begun]
  | resume i out =>
    simp only [step]
    cases ht : σ.tasks[i]? with
    | none => rfl
    | some t =>
      obtain ⟨evs, new, d⟩ := did_stepTask σ (σ.tasks.eraseIdx i) out t
      simp only [d.events, begun_append, d.begun, List.append_nil]
  | offload c now accessed o =>
    obtain ⟨b, e1, -⟩ := offload_frame σ c now accessed o
    simp [step, e1, begun]

theorem begun_run {σ : Res} {acts : List Act} (ha : ∀ a ∈ acts, NothingNew a) : begun (run σ acts).events = begun σ.events := by
  induction acts generalizing σ with
  | nil => rfl
  | cons a as ih => exact (ih fun b hb => ha b (by simp [hb])).trans (begun_step (ha a (by simp)))

/-- A choice other than a step of a task leaves the tasks in their places. -/
theorem keeps_place {σ : Res} {a : Act} (ha : ∀ i out, a ≠ .resume i out) {p : Nat} {t : Task} (h : σ.tasks[p]? = some t) :
    (step σ a).tasks[p]? = some t := by
  have add : ∀ new : List Task, (σ.tasks ++ new)[p]? = some t := by
    intro new
    have hp : p < σ.tasks.length := by
      rcases Nat.lt_or_ge p σ.tasks.length with hp | hp
      · exact hp
      · rw [List.getElem?_eq_none hp] at h; cases h
    rw [List.getElem?_append_left hp, h]
  cases a with
  | results line e => exact add _
  | summary line e => exact add _
  | request => simp only [step]; split <;> exact add _
  | resume i out => exact (ha i out rfl).elim
  | offload c now accessed o => obtain ⟨b, e1, e2, -⟩ := offload_frame σ c now accessed o; simp only [step, e2, h]

/-- When the task that waits longest goes on, the others move up. -/
theorem moves_up {σ : Res} {out : Out} {p : Nat} {t : Task} (h : σ.tasks[p + 1]? = some t) :
    (step σ (.resume 0 out)).tasks[p]? = some t := by
  cases hts : σ.tasks with
  | nil => rw [hts] at h; simp at h
  | cons u us =>
    have h0 : σ.tasks[0]? = some u := by rw [hts]; rfl
    obtain ⟨evs, new, d⟩ := did_stepTask σ (σ.tasks.eraseIdx 0) out u
    have e : (step σ (.resume 0 out)).tasks = us ++ new := by
      simp only [step, h0]
      rw [d.tasks, hts]
      rfl
    rw [hts, List.getElem?_cons_succ] at h
    have hp : p < us.length := by
      rcases Nat.lt_or_ge p us.length with hp | hp
      · exact hp
      · rw [List.getElem?_eq_none hp] at h; cases h
    rw [e, List.getElem?_append_left hp, h]

/-- First come, first served: no task waits for ever. -/
theorem fifo {σ : Res} {f : Nat → Act} (h0 : ∀ n i out, f n = .resume i out → i = 0)
    (hgo : ∀ n, ∃ m, n ≤ m ∧ ∃ out, f m = .resume 0 out) (j : Job) : GoesOn σ f j := by
  have key : ∀ (p d n : Nat) (t : Task), (run σ (first f n)).tasks[p]? = some t → job t = some j → (∃ out, f (n + d) = .resume 0 out) →
      ∃ m, n ≤ m ∧ ∃ i out t, f m = .resume i out ∧ (run σ (first f m)).tasks[i]? = some t ∧ job t = some j := by
    intro p
    induction p with
    | zero =>
      intro d
      induction d with
      | zero => intro n t ht hj ⟨out, hf⟩; exact ⟨n, Nat.le_refl _, 0, out, t, hf, ht, hj⟩
      | succ d ih =>
        intro n t ht hj ⟨out, hf⟩
        by_cases hr : ∃ i out, f n = .resume i out
        · obtain ⟨i, out', hi⟩ := hr
          obtain rfl := h0 n i out' hi
          exact ⟨n, Nat.le_refl _, 0, out', t, hi, ht, hj⟩
        · have := keeps_place (a := f n) (fun i out he => hr ⟨i, out, he⟩) ht
          obtain ⟨m, hm, rest⟩ := ih (n + 1) t (by rw [first_succ, run_append]; exact this) hj ⟨out, by rw [← hf]; congr 1; omega⟩
          exact ⟨m, by omega, rest⟩
    | succ p ihp =>
      intro d
      induction d with
      | zero =>
        intro n t ht hj ⟨out, hf⟩
        have := moves_up (out := out) ht
        obtain ⟨m', hm', hf'⟩ := hgo (n + 1)
        obtain ⟨d', rfl⟩ := Nat.exists_eq_add_of_le hm'
        obtain ⟨m, hm, rest⟩ := ihp d' (n + 1) t (by rw [first_succ, run_append, show f n = _ from hf]; exact this) hj hf'
        exact ⟨m, by omega, rest⟩
      | succ d ih =>
        intro n t ht hj ⟨out, hf⟩
        by_cases hr : ∃ i out, f n = .resume i out
        · obtain ⟨i, out', hi⟩ := hr
          obtain rfl := h0 n i out' hi
          have := moves_up (out := out') ht
          obtain ⟨m, hm, rest⟩ := ihp d (n + 1) t (by rw [first_succ, run_append, hi]; exact this) hj ⟨out, by rw [← hf]; congr 1; omega⟩
          exact ⟨m, by omega, rest⟩
        · have := keeps_place (a := f n) (fun i out he => hr ⟨i, out, he⟩) ht
          obtain ⟨m, hm, rest⟩ := ih (n + 1) t (by rw [first_succ, run_append]; exact this) hj ⟨out, by rw [← hf]; congr 1; omega⟩
          exact ⟨m, by omega, rest⟩
  intro n ⟨t, ht, hj⟩
  obtain ⟨p, hp⟩ := List.mem_iff_getElem?.mp ht
  obtain ⟨m, hm, hf⟩ := hgo n
  obtain ⟨d, rfl⟩ := Nat.exists_eq_add_of_le hm
  exact key p d n t hp hj hf

end Abq.ResultsLive
