import Verif.Spec.WorkerSignals
import Verif.Proof.RunnerStart

/-! # Helpers for C107 -/

namespace Abq.WorkerSignals
open RunnerStart (Run Inv Live sentIn)

def RInv (r : Run) : Prop := Inv r.asked r.stage r.events

theorem rinv_step {r : Run} (h : RInv r) (a : RunnerStart.Act) : RInv (r.step a) := by
  unfold RInv
  rw [RunnerStart.step_asked]
  exact RunnerStart.inv_step h a

theorem live_quiet {asked s evs} (h : Live asked s evs) : .shutdown ∉ evs ∧ .cancel ∉ sentIn evs := by
  cases h <;> (try rename_i c _ ; cases c) <;> (try rename_i c; cases c) <;> (try cases asked) <;>
    simp [RunnerStart.ready, RunnerStart.ack, sentIn]

theorem told_of_queue {r : Run} (h : RInv r) (ht : toldQueue r) : wasTold r := by
  unfold toldQueue at ht
  unfold wasTold
  unfold RInv at h
  revert h ht
  generalize r.events = evs
  generalize r.stage = s
  intro h ht
  cases h with
  | live h => exact absurd ht (live_quiet h).2
  | cancelling c h => simp
  | cancelled h => simp
  | noLaunch => simp [sentIn] at ht
  | noManifest => simp [sentIn] at ht
  | noFirst => simp [sentIn] at ht
  | noSecond => simp [sentIn] at ht
  | closed h => exact absurd ht (live_quiet h).2
  | panic e he h =>
    cases e <;> simp only [RunnerStart.lossy] at he <;>
      exact absurd (by simpa [sentIn] using ht) (live_quiet h).2
  | cancelPanic e c he h => simp

theorem ended_told {r : Run} (h : RInv r) (he : hasEnded r = true) (hp : hasPanicked r = false) :
    ∃ o, o ≠ .panic ∧ r.ended o ∧ (wasTold r → o = .exit 1 ∧ toldQueue r) := by
  unfold toldQueue wasTold RunnerStart.Run.ended
  unfold RInv at h
  unfold hasEnded at he
  unfold hasPanicked at hp
  revert h he hp
  generalize r.events = evs
  generalize r.stage = s
  intro h he hp
  cases h with
  | live h => cases h <;> simp at he
  | cancelling c h => simp at he
  | cancelled h => exact ⟨_, by simp, rfl, fun _ => ⟨rfl, by simp [sentIn]⟩⟩
  | noLaunch => exact ⟨_, by simp, rfl, by simp⟩
  | noManifest => exact ⟨_, by simp, rfl, by simp⟩
  | noFirst => exact ⟨_, by simp, rfl, by simp⟩
  | noSecond => exact ⟨_, by simp, rfl, by simp⟩
  | @closed o evs h =>
    refine ⟨o, ?_, rfl, fun ht => absurd ht (live_quiet h).1⟩
    rintro rfl
    simp at hp
  | panic e he h => simp at hp
  | cancelPanic e c he h => simp at hp

theorem step_quiet {r : Run} {a : RunnerStart.Act} (ha : a ≠ .shutdown) (h : ¬ wasTold r) : ¬ wasTold (r.step a) := by
  obtain ⟨asked, s, evs⟩ := r
  unfold wasTold at *
  cases a with
  | shutdown => exact absurd rfl ha
  | _ =>
    cases s with
    | telling m c k =>
      cases c <;> simp only [RunnerStart.Run.step, RunnerStart.Run.tell] <;> (try exact h)
      all_goals first
        | (split <;> simpa [RunnerStart.Run.to] using h)
        | (cases k <;> simpa [RunnerStart.Run.to, RunnerStart.Run.follow] using h)
        | simpa [RunnerStart.Run.to] using h
    | launching => cases asked <;> simpa [RunnerStart.Run.step, RunnerStart.Run.to] using h
    | _ => simpa [RunnerStart.Run.step, RunnerStart.Run.to] using h

theorem ended_still {r : Run} (h : hasEnded r = true) (a : RunnerStart.Act) : r.step a = r := by
  obtain ⟨asked, s, evs⟩ := r
  cases s <;> simp [hasEnded] at h
  exact RunnerStart.ended_step a

/-! ### The invariant -/

def Quiet (w : Worker) : Prop := ∀ r ∈ w.runners, ¬ wasTold r

def AllEnded (w : Worker) : Prop := w.runners.all hasEnded = true

def At (w : Worker) (as : List Act) : Phase → Prop
  | .negotiating => w.runners = [] ∧ w.told = false ∧ (.signal ∈ as → 0 < w.pending)
  | .running => w.told = false ∧ Quiet w ∧ (.signal ∈ as → 0 < w.pending)
  | .finishing => Quiet w ∧ AllEnded w
  | .cancelling => .signal ∈ as ∧ w.told = true
  | .exited c => AllEnded w ∧ w.runners.any hasPanicked = false ∧
      ((.finish c ∈ as ∧ Quiet w) ∨ (c = 1 ∧ .signal ∈ as))
  | .panicked => Quiet w ∨ .signal ∈ as

structure WInv (w : Worker) (as : List Act) : Prop where
  runners : ∀ r ∈ w.runners, RInv r
  pending : 0 < w.pending → .signal ∈ as
  at_ : At w as w.phase

theorem modify_mem {α : Type} {l : List α} {i : Nat} {f : α → α} {x : α} (h : x ∈ l.modify i f) : x ∈ l ∨ ∃ y ∈ l, x = f y := by
  obtain ⟨j, hj, e⟩ := List.mem_iff_getElem.mp h
  rw [List.getElem_modify] at e
  have hj' : j < l.length := by simpa using hj
  split at e
  · exact .inr ⟨_, List.getElem_mem hj', e.symm⟩
  · exact .inl (e ▸ List.getElem_mem hj')

theorem modify_still {α : Type} {l : List α} {i : Nat} {f : α → α} (h : ∀ x ∈ l, f x = x) : l.modify i f = l := by
  apply List.ext_getElem (by simp)
  intro j h1 h2
  rw [List.getElem_modify]
  split
  · exact h _ (List.getElem_mem h2)
  · rfl

theorem at_mono {w : Worker} {as : List Act} {p : Phase} (h : At w as p) (a : Act) (ha : a ≠ .signal) : At w (as ++ [a]) p := by
  have : (.signal ∈ as ++ [a]) = (.signal ∈ as) := by simp [Ne.symm ha]
  cases p <;> simp only [At, this] at h ⊢
  · exact h
  · exact h
  · exact h
  · exact h
  · exact ⟨h.1, h.2.1, h.2.2.imp (fun x => ⟨List.mem_append_left _ x.1, x.2⟩) (fun x => x)⟩
  · exact h

theorem winv_mono {w : Worker} {as : List Act} (h : WInv w as) (a : Act) (ha : a ≠ .signal) : WInv w (as ++ [a]) :=
  ⟨h.runners, fun x => List.mem_append_left _ (h.pending x), at_mono h.at_ a ha⟩

theorem pool_rinv (n : Nat) (asked : Bool) : ∀ r ∈ pool n asked, RInv r ∧ ¬ wasTold r := by
  intro r hr
  simp only [pool, List.mem_map] at hr
  obtain ⟨i, _, rfl⟩ := hr
  exact ⟨.live .launching, by simp [wasTold]⟩

theorem winv_modify {w : Worker} {as : List Act} (h : WInv w as) (i : Nat) (a : RunnerStart.Act)
    (ha : a = .shutdown → w.phase = .cancelling ∨ AllEnded w) (a' : Act) (ha' : a' ≠ .signal) :
    WInv { w with runners := w.runners.modify i (·.step a) } (as ++ [a']) := by
  have still : AllEnded w → w.runners.modify i (·.step a) = w.runners := fun h =>
    modify_still fun x hx => ended_still (List.all_eq_true.mp h x hx) a
  by_cases he : AllEnded w
  · rw [still he]
    exact winv_mono h a' ha'
  have quiet : a ≠ .shutdown → Quiet w → Quiet { w with runners := w.runners.modify i (·.step a) } := by
    intro hne hq r hr
    rcases modify_mem hr with h1 | ⟨y, hy, rfl⟩
    · exact hq _ h1
    · exact step_quiet hne (hq _ hy)
  refine ⟨?_, fun x => List.mem_append_left _ (h.pending x), ?_⟩
  · intro r hr
    rcases modify_mem hr with h1 | ⟨y, hy, rfl⟩
    · exact h.runners _ h1
    · exact rinv_step (h.runners _ hy) _
  have hat := at_mono h.at_ a' ha'
  obtain ⟨p, pe, rs, t⟩ := w
  cases p <;> simp only [At] at hat ⊢
  · obtain ⟨e, _⟩ := hat
    exact absurd (by simp [AllEnded, show rs = [] from e]) he
  · refine ⟨hat.1, quiet ?_ hat.2.1, hat.2.2⟩
    intro e
    rcases ha e with h | h
    · cases h
    · exact he h
  · exact absurd hat.2 he
  · exact hat
  · exact absurd hat.1 he
  · by_cases e : a = .shutdown
    · rcases ha e with h | h
      · cases h
      · exact absurd h he
    · exact hat.imp (quiet e) id

theorem step_runner (w : Worker) (i : Nat) (b : RunnerStart.Act) (hb : b ≠ .shutdown) :
    w.step (.runner i b) = w ∨ w.step (.runner i b) = { w with runners := w.runners.modify i (·.step b) } := by
  obtain ⟨p, pe, rs, t⟩ := w
  cases b <;> cases p <;> first | exact .inl rfl | exact .inr rfl | exact absurd rfl hb

theorem winv_step {w : Worker} {as : List Act} (h : WInv w as) (a : Act) : WInv (w.step a) (as ++ [a]) := by
  have mono := winv_mono h a
  have hat' := at_mono h.at_ a
  have hat := h.at_
  have hp := h.pending
  have hr := h.runners
  cases a with
  | signal =>
    refine ⟨h.runners, fun _ => by simp, ?_⟩
    obtain ⟨p, pe, rs, t⟩ := w
    cases p <;> simp only [At, Worker.step] at hat ⊢
    · exact ⟨hat.1, hat.2.1, fun _ => Nat.succ_pos _⟩
    · exact ⟨hat.1, hat.2.1, fun _ => Nat.succ_pos _⟩
    · exact hat
    · exact ⟨List.mem_append_left _ hat.1, hat.2⟩
    · exact ⟨hat.1, hat.2.1, hat.2.2.imp (fun x => ⟨List.mem_append_left _ x.1, x.2⟩)
        (fun x => ⟨x.1, List.mem_append_left _ x.2⟩)⟩
    · exact hat.imp id (List.mem_append_left _)
  | negotiated n asked =>
    replace mono := mono (fun e => nomatch e)
    replace hat' := hat' (fun e => nomatch e)
    obtain ⟨p, pe, rs, t⟩ := w
    cases p <;> try exact mono
    exact ⟨fun r hr => (pool_rinv n asked r hr).1, fun x => List.mem_append_left _ (hp x), hat.2.1,
      fun r hr => (pool_rinv n asked r hr).2, hat'.2.2⟩
  | failed =>
    replace mono := mono (fun e => nomatch e)
    replace hat' := hat' (fun e => nomatch e)
    obtain ⟨p, pe, rs, t⟩ := w
    cases p <;> try exact mono
    refine ⟨hr, mono.pending, .inl ?_⟩
    rintro r hr
    rw [show rs = [] from hat.1] at hr
    cases hr
  | runner i b =>
    replace mono := mono (fun e => nomatch e)
    replace hat' := hat' (fun e => nomatch e)
    by_cases hb : b = .shutdown
    · subst hb
      obtain ⟨p, pe, rs, t⟩ := w
      cases p <;> exact mono
    · rcases step_runner w i b hb with e | e <;> rw [e]
      · exact mono
      · exact winv_modify h i b (fun e => absurd e hb) _ (fun e => nomatch e)
  | notice i =>
    replace mono := mono (fun e => nomatch e)
    replace hat' := hat' (fun e => nomatch e)
    simp only [Worker.step]
    split
    · exact mono
    · exact mono
    · rename_i h1 h2
      split
      · rename_i ht
        refine winv_modify h i .shutdown (fun _ => ?_) _ (fun e => nomatch e)
        obtain ⟨p, pe, rs, t⟩ := w
        cases p <;> simp only [At] at hat
        · rw [hat.2.1] at ht; cases ht
        · rw [hat.1] at ht; cases ht
        · exact .inr hat.2
        · exact .inl rfl
        · exact absurd rfl (h1 _)
        · exact absurd rfl h2
      · exact mono
  | done =>
    replace mono := mono (fun e => nomatch e)
    replace hat' := hat' (fun e => nomatch e)
    obtain ⟨p, pe, rs, t⟩ := w
    cases p <;> try exact mono
    simp only [Worker.step]
    split
    · rename_i he
      exact ⟨hr, mono.pending, hat.2.1, he⟩
    · exact mono
  | caught =>
    replace mono := mono (fun e => nomatch e)
    replace hat' := hat' (fun e => nomatch e)
    obtain ⟨p, pe, rs, t⟩ := w
    cases p <;> try exact mono
    simp only [Worker.step]
    split
    · rename_i he
      exact ⟨hr, fun x => List.mem_append_left _ (hp he), List.mem_append_left _ (hp he), rfl⟩
    · exact mono
  | finish code =>
    replace mono := mono (fun e => nomatch e)
    replace hat' := hat' (fun e => nomatch e)
    obtain ⟨p, pe, rs, t⟩ := w
    cases p <;> try exact mono
    · simp only [Worker.step]
      split
      · rename_i he
        refine ⟨hr, mono.pending, ?_⟩
        dsimp only
        split
        · exact .inl hat.1
        · rename_i hn
          exact ⟨he, by simpa using hn, .inl ⟨by simp, hat.1⟩⟩
      · exact mono
    · simp only [Worker.step]
      split
      · rename_i he
        refine ⟨hr, mono.pending, ?_⟩
        dsimp only
        split
        · exact .inr (List.mem_append_left _ hat.1)
        · rename_i hn
          exact ⟨he, by simpa using hn, .inr ⟨rfl, List.mem_append_left _ hat.1⟩⟩
      · exact mono

theorem winv_run (as : List Act) : WInv ((Worker.run {} as)) as := by
  suffices ∀ (w : Worker) (bs : List Act), WInv w bs → WInv (w.run as) (bs ++ as) from
    this {} [] ⟨by simp, by simp, rfl, rfl, by simp⟩
  induction as with
  | nil => intro w bs h; simpa [Worker.run] using h
  | cons a as ih =>
    intro w bs h
    have := ih _ _ (winv_step h a)
    simpa [Worker.run] using this

theorem run_append (w : Worker) (as bs : List Act) : w.run (as ++ bs) = (w.run as).run bs := by
  simp [Worker.run, List.foldl_append]

/-! ### Everything comes to an end -/

def Phase.rank : Phase → Nat
  | .negotiating => 3
  | .running => 2
  | .finishing => 1
  | .cancelling => 1
  | .exited _ => 0
  | .panicked => 0

def Worker.rank (w : Worker) : Nat := w.phase.rank + (w.runners.map (·.stage.rank)).sum

theorem modify_rank (a : RunnerStart.Act) : ∀ (rs : List Run) (i : Nat), rs.modify i (·.step a) = rs ∨
    ((rs.modify i (·.step a)).map (·.stage.rank)).sum < (rs.map (·.stage.rank)).sum := by
  intro rs
  induction rs with
  | nil => intro i; left; simp
  | cons r rs ih =>
    intro i
    cases i with
    | zero =>
      rcases RunnerStart.rank_step r a with h | h
      · left; simp [h]
      · right; simp only [List.modify_zero_cons, List.map_cons, List.sum_cons]; omega
    | succ i =>
      rcases ih i with h | h
      · left; simp [h]
      · right; simp only [List.modify_succ_cons, List.map_cons, List.sum_cons]; omega

theorem rank_step (w : Worker) (a : Act) (hw : w.phase ≠ .negotiating) :
    (w.step a).phase ≠ .negotiating ∧ (a = .signal ∧ (w.step a).rank = w.rank ∨ w.step a = w ∨ (w.step a).rank < w.rank) := by
  have hm : ∀ i b, ({ w with runners := w.runners.modify i (·.step b) } : Worker) = w ∨
      ({ w with runners := w.runners.modify i (·.step b) } : Worker).rank < w.rank := by
    intro i b
    rcases modify_rank b w.runners i with h | h
    · left; rw [h]
    · right; exact Nat.add_lt_add_left h _
  cases a with
  | signal => exact ⟨hw, .inl ⟨rfl, rfl⟩⟩
  | runner i b =>
    by_cases hb : b = .shutdown
    · subst hb
      obtain ⟨p, pe, rs, t⟩ := w
      cases p <;> exact ⟨hw, .inr (.inl rfl)⟩
    · rcases step_runner w i b hb with e | e <;> rw [e]
      · exact ⟨hw, .inr (.inl rfl)⟩
      · exact ⟨hw, .inr (hm i b)⟩
  | notice i =>
    simp only [Worker.step]
    split
    · exact ⟨hw, .inr (.inl rfl)⟩
    · exact ⟨hw, .inr (.inl rfl)⟩
    · split
      · exact ⟨hw, .inr (hm i .shutdown)⟩
      · exact ⟨hw, .inr (.inl rfl)⟩
  | negotiated n b =>
    obtain ⟨p, pe, rs, t⟩ := w
    cases p <;> first | exact absurd rfl hw | exact ⟨hw, .inr (.inl rfl)⟩
  | failed =>
    obtain ⟨p, pe, rs, t⟩ := w
    cases p <;> first | exact absurd rfl hw | exact ⟨hw, .inr (.inl rfl)⟩
  | done =>
    obtain ⟨p, pe, rs, t⟩ := w
    cases p <;> try exact ⟨hw, .inr (.inl rfl)⟩
    simp only [Worker.step]
    split
    · exact ⟨(fun e => nomatch e), .inr (.inr (Nat.add_lt_add_right (by decide : 1 < 2) _))⟩
    · exact ⟨hw, .inr (.inl rfl)⟩
  | caught =>
    obtain ⟨p, pe, rs, t⟩ := w
    cases p <;> try exact ⟨hw, .inr (.inl rfl)⟩
    simp only [Worker.step]
    split
    · exact ⟨(fun e => nomatch e), .inr (.inr (Nat.add_lt_add_right (by decide : 1 < 2) _))⟩
    · exact ⟨hw, .inr (.inl rfl)⟩
  | finish code =>
    obtain ⟨p, pe, rs, t⟩ := w
    cases p <;> try exact ⟨hw, .inr (.inl rfl)⟩
    all_goals
      simp only [Worker.step]
      split
      · split <;> exact ⟨(fun e => nomatch e), .inr (.inr (Nat.add_lt_add_right (by decide : 0 < 1) _))⟩
      · exact ⟨hw, .inr (.inl rfl)⟩

theorem changes_rank (as : List Act) : ∀ w : Worker, w.phase ≠ .negotiating → changes w as ≤ w.rank := by
  induction as with
  | nil => intro w _; exact Nat.zero_le _
  | cons a as ih =>
    intro w hw
    obtain ⟨h1, h2⟩ := rank_step w a hw
    have := ih _ h1
    simp only [changes]
    rcases h2 with ⟨h, e⟩ | h | h
    · rw [if_pos (.inl h)]; omega
    · rw [if_pos (.inr h)]; rw [h] at this ⊢; omega
    · split <;> omega

theorem stage_rank_le (s : RunnerStart.Stage) : s.rank ≤ 29 := by
  cases s with
  | telling m c k =>
    have : c.rank ≤ 8 := by cases c <;> simp [RunnerStart.Conn.rank] <;> omega
    cases k <;> simp only [RunnerStart.Stage.rank] <;> omega
  | _ => simp [RunnerStart.Stage.rank]

theorem rank_le (w : Worker) (hw : w.phase ≠ .negotiating) : w.rank ≤ 29 * w.runners.length + 2 := by
  have h1 : w.phase.rank ≤ 2 := by
    obtain ⟨p, pe, rs, t⟩ := w
    cases p <;> first | exact absurd rfl hw | simp [Phase.rank]
  have h2 : ∀ rs : List Run, (rs.map (·.stage.rank)).sum ≤ 29 * rs.length := by
    intro rs
    induction rs with
    | nil => simp
    | cons r rs ih =>
      have := stage_rank_le r.stage
      simp only [List.map_cons, List.sum_cons, List.length_cons]
      omega
  have := h2 w.runners
  unfold Worker.rank
  omega

/-! ### A worker that is told to terminate can -/

def sched (n : Nat) : List RunnerStart.Act := .shutdown :: (List.replicate n .fail ++ [.ok, .ok, .ok])

theorem shutdown_one (n : Nat) (hn : n < 5) (r : Run) (hr : r.stage.live = true) :
    (r.run (sched n)).stage = .ended (.exit 1) ∧ toldQueue (r.run (sched n)) := by
  have h2 : ∀ m : Nat, ∀ q : Run, q.stage = .telling .cancel (.connecting m) .cancelled →
      (q.run [.ok, .ok, .ok]).stage = .ended (.exit 1) ∧ toldQueue (q.run [.ok, .ok, .ok]) := by
    rintro m ⟨qa, qs, qe⟩ hq
    simp only at hq
    subst hq
    refine ⟨rfl, ?_⟩
    show RunnerStart.Msg.cancel ∈ sentIn (((qe ++ []) ++ [.sent .cancel]) ++ [])
    simp [sentIn]
  have h3 : ∀ k m : Nat, ∀ q : Run, m + k ≤ 5 → q.stage = .telling .cancel (.connecting m) .cancelled →
      (q.run (List.replicate k .fail)).stage = .telling .cancel (.connecting (m + k)) .cancelled := by
    intro k
    induction k with
    | zero => intro m q _ hq; exact hq
    | succ k ih =>
      rintro m ⟨qa, qs, qe⟩ hm hq
      simp only at hq
      subst hq
      have : (Run.mk qa (.telling .cancel (.connecting m) .cancelled) qe).step .fail =
          Run.mk qa (.telling .cancel (.connecting (m + 1)) .cancelled) (qe ++ []) := by
        simp only [RunnerStart.Run.step, RunnerStart.Run.tell]
        rw [if_neg (by omega)]
        rfl
      have := ih (m + 1) _ (by omega) (congrArg RunnerStart.Run.stage this)
      rw [show m + 1 + k = m + (k + 1) by omega] at this
      exact this
  have h1 : r.step .shutdown = r.to (.telling .cancel (.connecting 1) .cancelled) [.shutdown] := by
    simp [RunnerStart.Run.step, hr]
  have := h2 (1 + n) ((r.step .shutdown).run (List.replicate n .fail)) (h3 n 1 _ (by omega) (by rw [h1]; rfl))
  simpa [sched, RunnerStart.Run.run, List.foldl_append] using this

theorem ended_run {r : Run} (h : hasEnded r = true) (as : List RunnerStart.Act) : r.run as = r := by
  induction as with
  | nil => rfl
  | cons a as ih =>
    show (r.step a).run as = r
    rw [ended_still h]
    exact ih

theorem live_or_ended {r : Run} (h : RInv r) (hq : ¬ wasTold r) : r.stage.live = true ∨ hasEnded r = true := by
  unfold wasTold at hq
  unfold hasEnded
  unfold RInv at h
  revert h hq
  generalize r.events = evs
  generalize r.stage = s
  intro h hq
  cases h with
  | live h => exact .inl (RunnerStart.live_live h)
  | cancelling c h => simp at hq
  | _ => exact .inr rfl

theorem modify_mid {α : Type} (f : α → α) (pre post : List α) (x : α) :
    (pre ++ x :: post).modify pre.length f = pre ++ f x :: post := by
  induction pre with
  | nil => simp
  | cons y pre ih => simp [ih]

/-- In the middle of its cancellation, a runner goes on. -/
theorem runner_go (pe : Nat) (pre post : List Run) (t : Bool) (b : RunnerStart.Act) (hb : b ≠ .shutdown) (r : Run) :
    (Worker.mk .cancelling pe (pre ++ r :: post) t).step (.runner pre.length b) =
      Worker.mk .cancelling pe (pre ++ r.step b :: post) t := by
  have : (pre ++ r :: post).modify pre.length (·.step b) = pre ++ r.step b :: post := by
    exact modify_mid _ pre post r
  rw [← this]
  cases b <;> first | rfl | exact absurd rfl hb

theorem runner_goes (pe : Nat) (pre post : List Run) (t : Bool) (bs : List RunnerStart.Act) (hb : .shutdown ∉ bs) :
    ∀ r : Run, (Worker.mk .cancelling pe (pre ++ r :: post) t).run (bs.map (.runner pre.length)) =
      Worker.mk .cancelling pe (pre ++ r.run bs :: post) t := by
  induction bs with
  | nil => intro r; rfl
  | cons b bs ih =>
    intro r
    show Worker.run (Worker.step _ _) _ = _
    rw [runner_go pe pre post t b (fun e => hb (by simp [e]))]
    exact ih (fun h => hb (List.mem_cons_of_mem _ h)) _

theorem notice_go (pe : Nat) (pre post : List Run) (r : Run) :
    (Worker.mk .cancelling pe (pre ++ r :: post) true).step (.notice pre.length) =
      Worker.mk .cancelling pe (pre ++ r.step .shutdown :: post) true := by
  have : (pre ++ r :: post).modify pre.length (·.step .shutdown) = pre ++ r.step .shutdown :: post := by
    exact modify_mid _ pre post r
  rw [← this]
  rfl

theorem shut_go (pe : Nat) (pre post : List Run) (r : Run) (n : Nat) :
    (Worker.mk .cancelling pe (pre ++ r :: post) true).run (shutsDownAfter pre.length n) =
      Worker.mk .cancelling pe (pre ++ r.run (sched n) :: post) true := by
  have e : shutsDownAfter pre.length n =
      .notice pre.length :: (List.replicate n .fail ++ [.ok, .ok, .ok] : List RunnerStart.Act).map (.runner pre.length) := by
    simp [shutsDownAfter]
  rw [e]
  show Worker.run (Worker.step _ _) _ = _
  rw [notice_go, runner_goes]
  · rfl
  · simp

theorem all_go (pe : Nat) : ∀ (ns : List Nat) (pre rest : List Run), rest.length = ns.length →
    (Worker.mk .cancelling pe (pre ++ rest) true).run (allShutDown pre.length ns) =
      Worker.mk .cancelling pe (pre ++ List.zipWith (fun r n => r.run (sched n)) rest ns) true := by
  intro ns
  induction ns with
  | nil =>
    intro pre rest h
    cases rest with
    | nil => rfl
    | cons _ _ => cases h
  | cons n ns ih =>
    intro pre rest h
    cases rest with
    | nil => cases h
    | cons r rest =>
      rw [allShutDown, run_append, shut_go]
      have := ih (pre ++ [r.run (sched n)]) rest (by simpa using h)
      simp only [List.length_append, List.length_cons, List.length_nil, List.append_assoc, List.cons_append, List.nil_append] at this
      simp only [List.zipWith_cons_cons]
      exact this

end Abq.WorkerSignals
