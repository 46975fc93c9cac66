import Verif.Spec.NativeRunner

namespace Abq.NativeRunner
open Abq.Spec

/-- Facts about all states that are reached. -/
structure Inv (s : St) : Prop where
  oldDead : ∀ p ∈ s.old, p.alive = false ∧ p.outputOpen = false
  droppedDead : ∀ p ∈ s.dropped, p.alive = false
  ended : ∀ r, s.phase = .ended r → s.proc.alive = false ∧ s.old = none
  old : s.purpose = .retry → s.phase = .accepting ∨ s.phase = .greeting ∨ s.phase = .refused → s.old.isSome
  noOld : s.old.isSome → s.phase = .accepting ∨ s.phase = .greeting ∨ s.phase = .refused
  closed : s.captureClosed = true → s.phase = .lost ∨ (∃ r, s.phase = .output r) ∨ ∃ r, s.phase = .ended r
  finished : s.captureFinished = true → (∃ r, s.phase = .output r) ∨ ∃ r, s.phase = .ended r
  exited : ∀ b, s.phase = .manifestOutput b → b = true → s.proc.alive = false
  restart : s.phase = .restartOutput → s.proc.alive = false

theorem inv_init (m : Bool) : Inv (init m) := by
  constructor <;> cases m <;> simp [init]

theorem kill_alive (p : Proc) : p.kill.alive = false := rfl
theorem kill_output (p : Proc) : p.kill.outputOpen = p.outputOpen := rfl
theorem kill_inbox (p : Proc) : p.kill.inbox = p.inbox := rfl

theorem inv_end {s : St} (h : Inv s) (r : Outcome) (n : List Note) : Inv { s.end r with notes := n } := by
  constructor <;> simp_all [St.end]
  · intro p hp
    rcases hp with ⟨q, _, rfl⟩ | hp
    · rfl
    · exact h.droppedDead p hp
  · rfl

theorem inv_end' {s : St} (h : Inv s) (r : Outcome) : Inv (s.end r) := inv_end h r s.notes

theorem inv_refuse {s : St} (h : Inv s) : Inv s.refuse := by
  unfold St.refuse
  split
  · exact inv_end h _ _
  · exact inv_end' h _
  · split
    · rename_i p hp
      have hd := h.droppedDead
      constructor <;> simp_all
      rfl
    · exact h

theorem read_alive {p q : Proc} {m : Option Msg} (h : p.read = some (m, q)) :
    q.alive = p.alive ∧ q.outputOpen = p.outputOpen ∧ q.conn = p.conn := by
  unfold Proc.read at h
  split at h
  · cases h; exact ⟨rfl, rfl, rfl⟩
  · split at h
    · cases h
    · cases h; exact ⟨rfl, rfl, rfl⟩

theorem inv_connected {s : St} (h : Inv s) (hp : s.phase = .greeting) (p : Proc) : Inv (s.connected p) := by
  have h1 := h.droppedDead
  have h2 := h.closed
  have h3 := h.finished
  constructor <;> simp_all [St.connected]
  · intro p hp
    rcases hp with ⟨q, _, rfl⟩ | hp
    · rfl
    · exact h1 p hp
  all_goals (cases s.purpose <;> simp)

theorem inv_start {s : St} (h : Inv s) (ha : s.proc.alive = false) (ho : s.proc.outputOpen = false) (n : List Note)
    (hp : (∃ b, s.phase = .manifestOutput b) ∨ s.phase = .restartOutput) (q : Purpose) :
    Inv (St.start { s with notes := n } q) := by
  have h1 := h.droppedDead
  have h2 := h.closed
  have h3 := h.finished
  rcases hp with ⟨b, hp⟩ | hp <;> (constructor <;> simp_all [St.start])

theorem inv_go {s : St} (h : Inv s) : Inv s.go := by
  have h1 := h.droppedDead
  have h2 := h.closed
  have h3 := h.finished
  have h4 := h.oldDead
  have h5 := h.old
  have h6 := h.noOld
  have h7 := h.ended
  have h8 := h.exited
  have h9 := h.restart
  unfold St.go
  split
  case _ hp => split <;> first | exact h | (constructor <;> simp_all)
  case _ hp =>
    split
    · exact h
    · exact inv_connected h hp _
    · constructor <;> simp_all
  case _ hp => split <;> first | exact h | exact inv_refuse h
  case _ hp => split <;> first | exact h | (constructor <;> simp_all)
  case _ hp => split <;> first | exact h | (constructor <;> simp_all)
  case _ ok hp =>
    split
    · exact h
    · split
      · exact inv_start h (h8 _ hp ‹_›) (by simp_all) _ (.inl ⟨_, hp⟩) _
      · exact inv_end h _ _
  case _ hp => split <;> first | exact h | (constructor <;> simp_all <;> split <;> simp)
  case _ hp => split <;> first | exact h | (constructor <;> simp_all)
  case _ hp => split <;> first | exact h | (constructor <;> simp_all)
  case _ hp =>
    split
    · exact h
    · exact inv_start (s := s) h (h9 hp) (by simp_all) s.notes (.inr hp) _
  case _ hp => split <;> first | exact h | (constructor <;> simp_all)
  case _ hp => split <;> first | exact h | (constructor <;> simp_all)
  case _ hp => split <;> first | exact h | (constructor <;> simp_all)
  case _ hp =>
    split
    · exact inv_end' h _
    · split
      · exact inv_end' h _
      · split
        · exact h
        · exact inv_end' h _
  all_goals exact h

theorem inv_step {s : St} (h : Inv s) (a : Act) : Inv (s.step a) := by
  have h1 := h.droppedDead
  have h2 := h.closed
  have h3 := h.finished
  have h4 := h.oldDead
  have h5 := h.old
  have h6 := h.noOld
  have h7 := h.ended
  have h8 := h.exited
  have h9 := h.restart
  have hk : Inv { s with proc := s.proc.kill } := by
    constructor <;> simp_all [kill_alive]
  cases a with
  | connect => simp only [St.step]; split <;> first | exact h | (constructor <;> simp_all)
  | say m => simp only [St.step]; split <;> first | exact h | (constructor <;> simp_all)
  | hangUp => simp only [St.step]; split <;> first | exact h | (constructor <;> simp_all)
  | exit => exact hk
  | closeOutput => constructor <;> simp_all [St.step]
  | limit =>
    simp only [St.step]
    split
    · constructor <;> simp_all
    · exact inv_refuse hk
    · constructor <;> simp_all
    · exact h
  | context t w =>
    simp only [St.step]; split
    · split <;> (try split) <;> (constructor <;> simp_all)
    · exact h
  | noContext => simp only [St.step]; split <;> first | exact h | (constructor <;> simp_all)
  | test t w =>
    simp only [St.step]; split
    · split <;> (split <;> (constructor <;> simp_all))
    · exact h
  | noTests w =>
    simp only [St.step]; split
    · split <;> (constructor <;> simp_all)
    · exact h
  | notStarted =>
    simp only [St.step]; split
    · refine inv_refuse ?_
      constructor <;> simp_all [Proc.never]
    · exact h
  | go => exact inv_go h
  | cancel =>
    simp only [St.step]; split
    · exact h
    · exact inv_end' h _

theorem inv_run {s : St} (h : Inv s) (as : List Act) : Inv (s.run as) := by
  induction as generalizing s with
  | nil => exact h
  | cons a as ih => exact ih (inv_step h a)

theorem inv (m : Bool) (as : List Act) : Inv ((init m).run as) := inv_run (inv_init m) as

/-- The worker can get to its end from here without the native runner. -/
def CanEnd (s : St) : Prop := ∃ bs, (∀ b ∈ bs, Rest b) ∧ Returned (s.run bs)

theorem canEnd_step {s : St} (a : Act) (ha : Rest a) (h : CanEnd (s.step a)) : CanEnd s := by
  obtain ⟨bs, h1, h2⟩ := h
  refine ⟨a :: bs, ?_, h2⟩
  intro b hb
  rcases List.mem_cons.1 hb with rfl | hb
  · exact ha
  · exact h1 b hb

theorem canEnd_go {s : St} (h : CanEnd s.go) : CanEnd s := canEnd_step .go ⟨rfl, nofun⟩ h
theorem canEnd_limit {s : St} (h : CanEnd (s.step .limit)) : CanEnd s := canEnd_step .limit ⟨rfl, nofun⟩ h
theorem canEnd_ended {s : St} (h : Returned s) : CanEnd s := ⟨[], nofun, h⟩

theorem read_none {p : Proc} : p.read = none ↔ p.inbox = [] ∧ p.conn = .opened := by
  unfold Proc.read
  split
  · rename_i h; simp [h]
  · rename_i h; split <;> simp_all

/-- What the worker does when what it waits for is not there. -/
theorem stuck_step {s : St} (h : Inv s) (hs : Stuck s) (a : Act) (ha : Rest a) : s.step a = s := by
  obtain ⟨w, hw, hn⟩ := hs
  obtain ⟨ha, hc⟩ := ha
  have h2 := h.closed
  have h3 := h.finished
  have hr : w = .message → s.proc.read = none := by
    rintro rfl
    rw [read_none]
    simp only [There] at hn
    refine ⟨Classical.byContradiction fun k => hn (.inl k), Classical.byContradiction fun k => hn (.inr k)⟩
  cases a <;> first | cases ha | exact absurd rfl hc | skip
  all_goals (cases hp : s.phase <;> simp_all [unlimited, There, St.step, St.go])
  all_goals (subst hw; simp_all)

theorem limit_refused {s : St} (hp : s.phase = .refused) :
    s.step .limit = ({ s with proc := s.proc.kill } : St).refuse := by
  simp [St.step, hp]

theorem refuse_phase {s : St} (h : Inv s) (hp : s.phase = .refused) : s.refuse.phase ≠ .refused := by
  have h5 := h.old
  unfold St.refuse
  split
  · simp [St.end]
  · simp [St.end]
  · split
    · simp
    · simp_all

theorem connected_phase (s : St) (p : Proc) : (s.connected p).phase ≠ .greeting := by
  unfold St.connected; cases s.purpose <;> simp

/-- The worker can go on if what it waits for is there. -/
theorem unstuck {s : St} (h : Inv s) (he : ¬ Returned s) (hs : ¬ Stuck s) : ∃ a, Rest a ∧ (s.step a).phase ≠ s.phase := by
  have hread : s.proc.inbox ≠ [] ∨ s.proc.conn ≠ .opened → s.proc.read ≠ none := by
    intro k hn
    rw [read_none] at hn
    rcases k with k | k
    · exact k hn.1
    · exact k hn.2
  have hthere : ∀ w, unlimited s.phase = some w → There s w := fun w hw =>
    Classical.byContradiction fun k => hs ⟨w, hw, k⟩
  have h2 := h.closed
  have h3 := h.finished
  have hgo : Rest .go := ⟨rfl, nofun⟩
  have hlim : Rest .limit := ⟨rfl, nofun⟩
  cases hp : s.phase with
  | accepting => exact ⟨.limit, hlim, by simp [St.step, hp]⟩
  | refused =>
    refine ⟨.limit, hlim, ?_⟩
    rw [limit_refused hp]
    exact refuse_phase (inv_step h .exit) hp
  | testing => exact ⟨.limit, hlim, by simp [St.step, hp]⟩
  | context => exact ⟨.noContext, ⟨rfl, nofun⟩, by simp [St.step, hp]⟩
  | idle => exact ⟨.noTests true, ⟨rfl, nofun⟩, by simp [St.step, hp, St.wrote]⟩
  | ended r => exact absurd ⟨r, hp⟩ he
  | greeting =>
    have hr := hread (hthere .message (by rw [hp]; rfl))
    refine ⟨.go, hgo, ?_⟩
    simp only [St.step, St.go, hp]
    split
    · contradiction
    · exact connected_phase _ _
    · simp
  | manifest =>
    have hr := hread (hthere .message (by rw [hp]; rfl))
    refine ⟨.go, hgo, ?_⟩
    simp only [St.step, St.go, hp]
    split <;> simp_all
  | initializing =>
    have hr := hread (hthere .message (by rw [hp]; rfl))
    refine ⟨.go, hgo, ?_⟩
    simp only [St.step, St.go, hp]
    split
    · contradiction
    · simp only; split <;> simp
    · simp
  | manifestExit b | fastExit | restartExit | lost | closing =>
    have hr := hthere .exit (by rw [hp]; rfl)
    refine ⟨.go, hgo, ?_⟩
    simp only [There] at hr
    simp [St.step, St.go, hp, hr]
  | manifestOutput b | restartOutput =>
    have hr := hthere .output (by rw [hp]; rfl)
    refine ⟨.go, hgo, ?_⟩
    simp only [There] at hr
    simp only [hp] at h2 h3
    simp at h2 h3
    simp [h2, h3] at hr
    first
    | simp [St.step, St.go, hp, hr, St.start, St.end]; split <;> simp
    | simp [St.step, St.go, hp, hr, St.start]
  | output r =>
    have hr := hthere .output (by rw [hp]; rfl)
    refine ⟨.go, hgo, ?_⟩
    simp only [There] at hr
    simp only [St.step, St.go, hp]
    repeat' split
    all_goals simp_all [St.end]

theorem kill_conn (p : Proc) : p.kill.conn ≠ .opened := by
  unfold Proc.kill; simp only; split <;> simp_all

theorem rest_go : Rest .go := ⟨rfl, nofun⟩

theorem canEnd_output {s : St} {r : Outcome} (hp : s.phase = .output r) (ho : There s .output) : CanEnd s := by
  refine canEnd_go (canEnd_ended ?_)
  simp only [There] at ho
  simp only [St.go, hp, Returned]
  repeat' split
  all_goals simp_all [St.end]

theorem canEnd_refuse {s : St} (h : Inv s) (hp : s.phase = .refused) : CanEnd s.refuse := by
  have h5 := h.old
  unfold St.refuse
  split
  · exact canEnd_ended ⟨_, rfl⟩
  · exact canEnd_ended ⟨_, rfl⟩
  · split
    · exact canEnd_output rfl (.inr (.inr rfl))
    · simp_all

theorem canEnd_refused {s : St} (h : Inv s) (hp : s.phase = .refused) : CanEnd s := by
  refine canEnd_limit ?_
  rw [limit_refused hp]
  exact canEnd_refuse (inv_step h .exit) hp

theorem canEnd_accepting {s : St} (h : Inv s) (hp : s.phase = .accepting) : CanEnd s := by
  refine canEnd_limit ?_
  have h' := inv_step h .limit
  simp only [St.step, hp] at h' ⊢
  exact canEnd_refused h' rfl

theorem canEnd_lost {s : St} (hp : s.phase = .lost) (ha : s.proc.alive = false) (ho : There s .output) : CanEnd s := by
  refine canEnd_go ?_
  simp only [St.go, hp, ha, Bool.false_eq_true, if_false]
  exact canEnd_output rfl ho

theorem canEnd_testing {s : St} (hp : s.phase = .testing) : CanEnd s := by
  refine canEnd_limit ?_
  simp only [St.step, hp]
  exact canEnd_lost rfl rfl (.inr (.inl rfl))

/-- Once the native runner has exited and its output is closed, the worker can end. -/
theorem canEnd_exited {s : St} (h : Inv s) (ha : s.proc.alive = false) (hc : s.proc.conn ≠ .opened) (ho : s.proc.outputOpen = false) :
    CanEnd s := by
  have hread : s.proc.read ≠ none := fun hn => hc (read_none.1 hn).2
  have closing : ∀ t : St, t.phase = .closing → t.proc.alive = false → t.proc.outputOpen = false → CanEnd t := by
    intro t hp ha ho
    refine canEnd_go ?_
    simp only [St.go, hp, ha, Bool.false_eq_true, if_false]
    exact canEnd_output rfl (.inl ho)
  have idle : ∀ t : St, t.phase = .idle → t.proc.alive = false → t.proc.outputOpen = false → CanEnd t := by
    intro t hp ha ho
    refine canEnd_step (.noTests true) ⟨rfl, nofun⟩ ?_
    simp only [St.step, hp, if_true, St.wrote, Bool.true_or]
    exact closing _ rfl ha ho
  have init : ∀ t : St, Inv t → t.phase = .initializing → t.proc.alive = false → t.proc.conn ≠ .opened →
      t.proc.outputOpen = false → CanEnd t := by
    intro t ht hp ha hc ho
    have hn : t.proc.read ≠ none := fun hn => hc (read_none.1 hn).2
    have h' := inv_step ht .go
    refine canEnd_go ?_
    simp only [St.step, St.go, hp] at h' ⊢
    cases hr : t.proc.read with
    | none => contradiction
    | some v =>
      obtain ⟨m, p⟩ := v
      obtain ⟨k1, k2, _⟩ := read_alive hr
      rw [hr] at h'
      rcases m with _ | m
      · exact canEnd_output rfl (.inl (k2.trans ho))
      · cases m with
        | initSuccess =>
          simp only at h' ⊢
          split
          · rename_i hq
            rw [if_pos hq] at h'
            exact canEnd_testing rfl
          · exact idle _ rfl (k1.trans ha) (k2.trans ho)
        | _ => exact canEnd_output rfl (.inl (k2.trans ho))
  have manifestOutput : ∀ t : St, Inv t → ∀ b, t.phase = .manifestOutput b → t.proc.outputOpen = false → CanEnd t := by
    intro t ht b hp ho
    have h' := inv_step ht .go
    refine canEnd_go ?_
    simp only [St.step, St.go, hp, ho, Bool.false_eq_true, if_false] at h' ⊢
    split
    · rename_i hb
      rw [if_pos hb] at h'
      exact canEnd_accepting h' rfl
    · exact canEnd_ended ⟨_, rfl⟩
  have manifest : ∀ t : St, Inv t → t.phase = .manifest → t.proc.alive = false → t.proc.conn ≠ .opened →
      t.proc.outputOpen = false → CanEnd t := by
    intro t ht hp ha hc ho
    have hn : t.proc.read ≠ none := fun hn => hc (read_none.1 hn).2
    have h' := inv_step ht .go
    refine canEnd_go ?_
    simp only [St.step, St.go, hp] at h' ⊢
    have exits : ∀ u : St, Inv u → ∀ b, u.phase = .manifestExit b → u.proc.alive = false → u.proc.outputOpen = false → CanEnd u := by
      intro u hu b hp ha ho
      have h' := inv_step hu .go
      refine canEnd_go ?_
      simp only [St.step, St.go, hp, ha, Bool.false_eq_true, if_false] at h' ⊢
      exact manifestOutput _ h' _ rfl ho
    cases hr : t.proc.read with
    | none => contradiction
    | some v =>
      obtain ⟨m, p⟩ := v
      obtain ⟨k1, k2, _⟩ := read_alive hr
      rw [hr] at h'
      rcases m with _ | m
      · exact manifestOutput _ h' _ rfl (k2.trans ho)
      · cases m with
        | manifest => exact exits _ h' _ rfl (k1.trans ha) (k2.trans ho)
        | manifestFailure => exact exits _ h' _ rfl (k1.trans ha) (k2.trans ho)
        | _ => exact manifestOutput _ h' _ rfl (k2.trans ho)
  have context : ∀ t : St, t.phase = .context → t.proc.outputOpen = false → CanEnd t := by
    intro t hp ho
    refine canEnd_step .noContext ⟨rfl, nofun⟩ ?_
    simp only [St.step, hp, if_true]
    exact canEnd_output rfl (.inl ho)
  cases hp : s.phase with
  | accepting => exact canEnd_accepting h hp
  | refused => exact canEnd_refused h hp
  | testing => exact canEnd_testing hp
  | context => exact context s hp ho
  | idle => exact idle s hp ha ho
  | ended r => exact canEnd_ended ⟨r, hp⟩
  | closing => exact closing s hp ha ho
  | lost => exact canEnd_lost hp ha (.inl ho)
  | output r => exact canEnd_output hp (.inl ho)
  | initializing => exact init s h hp ha hc ho
  | manifest => exact manifest s h hp ha hc ho
  | manifestOutput b => exact manifestOutput s h b hp ho
  | manifestExit b =>
    have h' := inv_step h .go
    refine canEnd_go ?_
    simp only [St.step, St.go, hp, ha, Bool.false_eq_true, if_false] at h' ⊢
    exact manifestOutput _ h' _ rfl ho
  | fastExit =>
    refine canEnd_go ?_
    simp only [St.go, hp, ha, Bool.false_eq_true, if_false]
    exact canEnd_output rfl (.inl ho)
  | restartExit =>
    have h' := inv_step h .go
    refine canEnd_go ?_
    simp only [St.step, St.go, hp, ha, Bool.false_eq_true, if_false] at h' ⊢
    have h'' := inv_step h' .go
    refine canEnd_go ?_
    simp only [St.step, St.go, ho, Bool.false_eq_true, if_false] at h'' ⊢
    exact canEnd_accepting h'' rfl
  | restartOutput =>
    have h' := inv_step h .go
    refine canEnd_go ?_
    simp only [St.step, St.go, hp, ho, Bool.false_eq_true, if_false] at h' ⊢
    exact canEnd_accepting h' rfl
  | greeting =>
    have h' := inv_step h .go
    refine canEnd_go ?_
    simp only [St.step, St.go, hp] at h' ⊢
    cases hr : s.proc.read with
    | none => contradiction
    | some v =>
      obtain ⟨m, p⟩ := v
      obtain ⟨k1, k2, k3⟩ := read_alive hr
      rw [hr] at h'
      rcases m with _ | m
      · exact canEnd_refused h' rfl
      · cases m with
        | version b =>
          cases b with
          | false => exact canEnd_refused h' rfl
          | true =>
            simp only at h' ⊢
            unfold St.connected at h' ⊢
            cases hq : s.purpose with
            | manifest => rw [hq] at h'; exact manifest _ h' rfl (k1.trans ha) (fun e => hc (k3 ▸ e)) (k2.trans ho)
            | run => exact context _ rfl (k2.trans ho)
            | retry => rw [hq] at h'; exact init _ h' rfl (k1.trans ha) (fun e => hc (k3 ▸ e)) (k2.trans ho)
        | _ => exact canEnd_refused h' rfl

theorem end_finished (s : St) (r : Outcome) : (s.end r).captureFinished = s.captureFinished := rfl

theorem refuse_finished (s : St) (h : s.refuse.captureFinished = true) :
    s.captureFinished = true ∨ s.purpose = .retry ∧ s.refuse.phase = .output .error := by
  unfold St.refuse at h ⊢
  split at h
  · exact .inl h
  · exact .inl h
  · split at h
    · exact .inr ⟨‹_›, rfl⟩
    · exact .inl h

theorem go_finished (s : St) (h : s.go.captureFinished = true) :
    s.captureFinished = true ∨ s.purpose = .retry ∧ s.phase = .refused ∧ s.go.phase = .output .error := by
  by_cases hp : s.phase = .refused
  · by_cases ho : s.proc.outputOpen = true
    · simp only [St.go, hp, if_pos ho] at h
      exact .inl h
    · have e : s.go = s.refuse := by simp only [St.go, hp, if_neg ho]
      rw [e] at h ⊢
      rcases refuse_finished s h with k | ⟨k1, k2⟩
      · exact .inl k
      · exact .inr ⟨k1, hp, k2⟩
  · left
    revert h
    unfold St.go
    split <;> (try contradiction) <;> (repeat' split) <;> simp [St.connected, St.start, St.end]

theorem step_finished (s : St) (a : Act) (h : (s.step a).captureFinished = true) :
    s.captureFinished = true ∨
      s.purpose = .retry ∧ (s.phase = .accepting ∨ s.phase = .refused) ∧ (s.step a).phase = .output .error := by
  cases a with
  | go =>
    rcases go_finished s h with k | ⟨k1, k2, k3⟩
    · exact .inl k
    · exact .inr ⟨k1, .inr k2, k3⟩
  | limit =>
    by_cases hp : s.phase = .refused
    · rw [limit_refused hp] at h ⊢
      rcases refuse_finished _ h with k | ⟨k1, k2⟩
      · exact .inl k
      · exact .inr ⟨k1, .inr hp, k2⟩
    · left
      revert h
      simp only [St.step]
      split <;> (try contradiction) <;> simp
  | notStarted =>
    by_cases hp : s.phase = .accepting ∧ s.proc = {}
    · simp only [St.step, if_pos hp] at h ⊢
      rcases refuse_finished _ h with k | ⟨k1, k2⟩
      · exact .inl k
      · exact .inr ⟨k1, .inl hp.1, k2⟩
    · simp only [St.step, if_neg hp] at h
      exact .inl h
  | _ => left; revert h; simp only [St.step]; (repeat' split) <;> simp [St.end]

/-- A panic is one of a second `finish`. -/
def PanicOk (s : St) : Prop := s.phase ≠ .output .panic ∧ (s.phase = .ended .panic → s.captureFinished = true)

theorem refuse_panic {s : St} (h : PanicOk s) : PanicOk s.refuse := by
  unfold St.refuse
  split
  · simp [PanicOk, St.end]
  · simp [PanicOk, St.end]
  · split
    · simp [PanicOk]
    · exact h

theorem go_panic {s : St} (h : PanicOk s) : PanicOk s.go := by
  by_cases hp : s.phase = .refused
  · simp only [St.go, hp]
    split
    · exact h
    · exact refuse_panic h
  · unfold St.go
    split <;> (try contradiction) <;> (repeat' split) <;> (try exact h) <;> simp_all [PanicOk, St.connected, St.start, St.end]
    all_goals (first | (split <;> simp) | skip)

theorem step_panic {s : St} (h : PanicOk s) (a : Act) : PanicOk (s.step a) := by
  cases a with
  | go => exact go_panic h
  | limit =>
    simp only [St.step]
    split
    · simp [PanicOk]
    · exact refuse_panic h
    · simp [PanicOk]
    · exact h
  | notStarted =>
    simp only [St.step]
    split
    · exact refuse_panic h
    · exact h
  | exit => exact h
  | closeOutput => exact h
  | _ => simp only [St.step]; (repeat' split) <;> first | exact h | simp [PanicOk, St.end]

theorem collected_twice (m : Bool) (as : List Act) (h : ((init m).run as).phase = .ended .panic) :
    ∃ pre a, pre ++ [a] <+: as ∧ ((init m).run pre).purpose = .retry ∧
      (((init m).run pre).phase = .accepting ∨ ((init m).run pre).phase = .refused) ∧
      ((init m).run (pre ++ [a])).phase = .output .error := by
  have hp : ∀ (as : List Act) (s : St), PanicOk s → PanicOk (s.run as) := by
    intro as
    induction as with
    | nil => intro s h; exact h
    | cons a as ih => intro s h; exact ih _ (step_panic h a)
  have hf := (hp as (init m) (by simp [PanicOk, init])).2 h
  clear h
  have key : ∀ (bs pre : List Act), ((init m).run (pre ++ bs)).captureFinished = true →
      ((init m).run pre).captureFinished = true ∨ ∃ p a, p ++ [a] <+: pre ++ bs ∧ ((init m).run p).purpose = .retry ∧
      (((init m).run p).phase = .accepting ∨ ((init m).run p).phase = .refused) ∧
      ((init m).run (p ++ [a])).phase = .output .error := by
    intro bs
    induction bs with
    | nil => intro pre h; exact .inl (by simpa using h)
    | cons b bs ih =>
      intro pre h
      rw [show pre ++ b :: bs = (pre ++ [b]) ++ bs by simp] at h ⊢
      have hs : (init m).run (pre ++ [b]) = ((init m).run pre).step b := by simp [St.run]
      rcases ih _ h with k | k
      · rw [hs] at k
        rcases step_finished _ b k with k | ⟨k1, k2, k3⟩
        · exact .inl k
        · exact .inr ⟨pre, b, List.prefix_append _ _, k1, k2, hs ▸ k3⟩
      · exact .inr k
  rcases key as [] hf with k | k
  · cases m <;> simp [St.run, init] at k
  · exact k

end Abq.NativeRunner
