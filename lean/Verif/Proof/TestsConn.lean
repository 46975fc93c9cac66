import Verif.Spec.TestsConn
import Verif.Props.Backoff

/-!
# Invariants of asking for tests (C117)
-/

namespace Abq.TestsConn
variable {β : Type}

/-- What a task has taken and not written. -/
def Task.held : Task β → List β
  | .holding b => [b]
  | _ => []

theorem on_append (c : Nat) (l m : List (Nat × β)) : on c (l ++ m) = on c l ++ on c m := by simp [on]

theorem on_same (c : Nat) (b : β) : on c [(c, b)] = [b] := by simp [on]

theorem on_other {c d : Nat} (b : β) (h : d ≠ c) : on c [(d, b)] = [] := by simp [on, h]

/-- How many requests or bundles may be under way on the current connection. -/
def Phase.budget : Phase → Nat
  | .idle => 0
  | .asking _ .requesting => 0
  | _ => 1

/-- One connection. -/
structure ConnOk (pulled got : List β) (x : Conn β) (budget : Nat) : Prop where
  stock : ∃ lost, pulled = got ++ (x.answers ++ x.task.held) ++ lost ∧ (lost ≠ [] → x.task = .ended)
  few : x.requests + pulled.length ≤ got.length + budget

/-- How many requests may be under way on a connection. -/
def budgetOf (w : World β) (c : Nat) : Nat := if w.current = some c then w.phase.budget else 1

/-- The open request of the runner. -/
def Phase.slack : Phase → Nat
  | .asking _ .reading => 1
  | .dropped => 1
  | _ => 0

def reqs (l : List (Conn β)) : Nat := (l.map (·.requests)).sum

/-- What holds at all times. -/
structure Inv (w : World β) : Prop where
  idx : ∀ p ∈ w.pulled, p.1 < w.conns.length
  cur : ∀ c, w.current = some c → c < w.conns.length
  naming : ∀ k, w.phase = .asking k .naming → 0 < w.conns.length ∧ w.current ≠ some (w.conns.length - 1) ∧
    ∀ x, w.conns[w.conns.length - 1]? = some x → x.requests + (on (w.conns.length - 1) w.pulled).length = 0
  conn : ∀ (c : Nat) x, w.conns[c]? = some x → ConnOk (on c w.pulled) (on c w.got) x (budgetOf w c)
  sub : w.got.Sublist w.pulled
  pend : ∀ (c : Nat) x k b, w.current = some c → w.phase = .asking k .reading → w.conns[c]? = some x →
    b ∈ x.answers ++ x.task.held → (w.got ++ [(c, b)]).Sublist w.pulled
  count : reqs w.conns + w.pulled.length ≤ w.got.length + w.failed + w.phase.slack
  attempts : ∀ k s, w.phase = .asking k s → 1 ≤ k ∧ k ≤ 3

theorem inv_new : Inv (World.new β) where
  idx := by intro p hp; cases hp
  cur := by intro c h; cases h
  naming := by intro k h; cases h
  conn := by intro c x h; cases h
  sub := List.Sublist.slnil
  pend := by intro c x k b h; cases h
  count := by simp [World.new, reqs]
  attempts := by intro k s h; cases h

theorem reqs_set (l : List (Conn β)) (c : Nat) (x y : Conn β) (h : l[c]? = some x) :
    reqs (l.set c y) + x.requests = reqs l + y.requests := by
  induction l generalizing c with
  | nil => simp at h
  | cons a l ih =>
    cases c with
    | zero => simp at h; subst h; simp [reqs]; omega
    | succ c =>
      simp at h
      have := ih c h
      simp only [reqs, List.set_cons_succ, List.map_cons, List.sum_cons] at this ⊢
      omega

theorem modify_eq_set (l : List (Conn β)) (c : Nat) (x : Conn β) (g : Conn β → Conn β) (h : l[c]? = some x) :
    l.modify c g = l.set c (g x) := by
  induction l generalizing c with
  | nil => simp at h
  | cons a l ih =>
    cases c with
    | zero => simp at h; subst h; simp
    | succ c => simp at h; simp [ih c h]

theorem modify_none (l : List (Conn β)) (c : Nat) (g : Conn β → Conn β) (h : l[c]? = none) : l.modify c g = l := by
  induction l generalizing c with
  | nil => simp
  | cons a l ih =>
    cases c with
    | zero => simp at h
    | succ c => simp only [List.getElem?_cons_succ] at h; simp [ih c h]

theorem get_set (l : List (Conn β)) (c d : Nat) (x y z : Conn β) (h : l[c]? = some x) (hd : (l.set c y)[d]? = some z) :
    (d = c ∧ z = y) ∨ (d ≠ c ∧ l[d]? = some z) := by
  by_cases hdc : d = c
  · subst hdc
    have hl : d < l.length := (List.getElem?_eq_some_iff.1 h).1
    rw [List.getElem?_set_self hl] at hd
    exact .inl ⟨rfl, (Option.some.inj hd).symm⟩
  · rw [List.getElem?_set_ne (Ne.symm hdc)] at hd
    exact .inr ⟨hdc, hd⟩

theorem ConnOk.mono {p g : List β} {x : Conn β} {a b : Nat} (h : ConnOk p g x a) (hb : a ≤ b) : ConnOk p g x b :=
  ⟨h.stock, by have := h.few; omega⟩

theorem budget_le (w : World β) (c : Nat) : budgetOf w c ≤ 1 := by
  unfold budgetOf Phase.budget; repeat' split
  all_goals omega

/-- Nothing is under way when nothing may be. -/
theorem ConnOk.empty {p g : List β} {x : Conn β} (h : ConnOk p g x 0) : x.answers ++ x.task.held = [] ∧ p = g ∧ x.requests = 0 := by
  obtain ⟨lost, h1, -⟩ := h.stock
  have h2 := h.few
  have h3 : p.length = g.length + (x.answers ++ x.task.held).length + lost.length := by rw [h1]; simp; omega
  have h4 : (x.answers ++ x.task.held) = [] := List.length_eq_zero_iff.1 (by omega)
  have h5 : lost = [] := List.length_eq_zero_iff.1 (by omega)
  refine ⟨h4, ?_, by omega⟩
  rw [h1, h4, h5]; simp

/-- Changes of a connection that leave its stock alone. -/
theorem ConnOk.same {p g : List β} {x y : Conn β} {a b : Nat} (h : ConnOk p g x a)
    (h1 : y.answers = x.answers) (h2 : y.task = x.task) (h3 : y.requests + a ≤ x.requests + b) : ConnOk p g y b :=
  ⟨by rw [h1, h2]; exact h.stock, by have := h.few; omega⟩

/-- A failed attempt keeps the invariant, if what was open counts. -/
theorem inv_fail {w : World β} (k : Nat) (hk : 1 ≤ k ∧ k ≤ 3) (idx : ∀ p ∈ w.pulled, p.1 < w.conns.length)
    (cur : ∀ c, w.current = some c → c < w.conns.length)
    (conn : ∀ (c : Nat) x, w.conns[c]? = some x → ConnOk (on c w.pulled) (on c w.got) x 1)
    (sub : w.got.Sublist w.pulled) (count : reqs w.conns + w.pulled.length ≤ w.got.length + w.failed + 1) :
    Inv (w.fail k) := by
  unfold World.fail maxAttempts
  split
  · refine ⟨idx, (fun c h => by cases h), (fun j h => by cases h), ?_, sub, (fun c x j b h => by cases h), ?_, ?_⟩
    · intro c x h; exact conn c x h
    · show _ ≤ _ + (w.failed + 1) + 0; omega
    · intro j s h; injection h with h; omega
  · refine ⟨idx, cur, (fun j h => by cases h), ?_, sub, (fun c x j b _ h => by cases h), ?_, ?_⟩
    · intro c x h
      refine (conn c x h).mono ?_
      simp only [budgetOf, Phase.budget]; split <;> omega
    · show _ ≤ _ + (w.failed + 1) + 0; omega
    · intro j s h; cases h

theorem answer_keeps (eow : β → Bool) (x : Conn β) (ok : Bool) : (x.answer eow ok).requests = x.requests := by
  unfold Conn.answer; repeat' split
  all_goals rfl

theorem answer_ok {p g : List β} {x : Conn β} {a : Nat} (eow : β → Bool) (ok : Bool) (h : ConnOk p g x a) :
    ConnOk p g (x.answer eow ok) a := by
  refine ⟨?_, by rw [answer_keeps]; exact h.few⟩
  obtain ⟨lost, h1, h2⟩ := h.stock
  unfold Conn.answer
  cases ht : x.task with
  | serving => exact ⟨lost, by simpa only [ht] using h1, by simpa only [ht] using h2⟩
  | ended => exact ⟨lost, by simpa only [ht] using h1, fun _ => ht⟩
  | holding b =>
    rw [ht] at h1 h2
    have hl : lost = [] := Classical.byContradiction fun hl => nomatch h2 hl
    subst hl
    cases ok with
    | true =>
      refine ⟨[], ?_, fun h => absurd rfl h⟩
      have : (afterAnswer eow b).held = [] := by unfold afterAnswer; split <;> rfl
      simp only [if_true, this]
      simpa [Task.held] using h1
    | false =>
      refine ⟨[b], ?_, fun _ => rfl⟩
      simpa [Task.held] using h1

theorem hangup_ok {p g : List β} {x : Conn β} {a : Nat} (h : ConnOk p g x a) : ConnOk p g x.hangup a := by
  obtain ⟨lost, h1, h2⟩ := h.stock
  unfold Conn.hangup
  cases ht : x.task with
  | serving =>
    refine ⟨⟨lost, ?_, fun _ => rfl⟩, h.few⟩
    simpa [ht, Task.held] using h1
  | ended => exact h
  | holding b => exact h

/-- The queue changes one connection and takes nothing. -/
theorem inv_queue {w : World β} (inv : Inv w) (c : Nat) (f : Conn β → Conn β)
    (hr : ∀ x, (f x).requests = x.requests) (hm : ∀ x b, b ∈ (f x).answers ++ (f x).task.held → b ∈ x.answers ++ x.task.held)
    (hok : ∀ p g x a, ConnOk p g x a → ConnOk (β := β) p g (f x) a) : Inv { w with conns := w.conns.modify c f } := by
  cases hx : w.conns[c]? with
  | none => rw [modify_none _ _ _ hx]; exact inv
  | some x =>
    rw [modify_eq_set _ _ x _ hx]
    refine ⟨?_, ?_, ?_, ?_, inv.sub, ?_, ?_, inv.attempts⟩
    · intro p hp; rw [List.length_set]; exact inv.idx p hp
    · intro d hd; rw [List.length_set]; exact inv.cur d hd
    · intro k hk
      obtain ⟨h1, h2, h3⟩ := inv.naming k hk
      refine ⟨by rwa [List.length_set], by rwa [List.length_set], ?_⟩
      rw [List.length_set]
      intro y hy
      rcases get_set _ _ _ x _ y hx hy with ⟨h4, h5⟩ | ⟨-, h5⟩
      · rw [h5, hr]; rw [h4] at h3 ⊢; exact h3 x hx
      · exact h3 y h5
    · intro d y hy
      rcases get_set _ _ _ x _ y hx hy with ⟨h4, h5⟩ | ⟨-, h5⟩
      · rw [h4, h5]; exact hok _ _ _ _ (inv.conn c x hx)
      · exact inv.conn d y h5
    · intro d y k b hd hp hy hb
      rcases get_set _ _ _ x _ y hx hy with ⟨h4, h5⟩ | ⟨-, h5⟩
      · subst h4; subst h5; exact inv.pend d x k b hd hp hx (hm x b hb)
      · exact inv.pend d y k b hd hp h5 hb
    · have := reqs_set w.conns c x (f x) hx
      have h1 := inv.count
      rw [hr] at this
      show reqs (w.conns.set c (f x)) + _ ≤ _
      simp only
      omega

theorem inv_step (eow : β → Bool) {w : World β} (inv : Inv w) (a : Act β) : Inv (w.step eow a) := by
  cases a with
  | ask =>
    simp only [World.step]
    split
    · rename_i hp
      have hcount := inv.count
      rw [hp] at hcount
      refine ⟨inv.idx, inv.cur, ?_, ?_, inv.sub, ?_, ?_, ?_⟩
      · intro k h
        simp only [stageFor] at h
        split at h <;> cases h
      · intro c x hx
        have := inv.conn c x hx
        refine this.mono ?_
        simp only [budgetOf, hp, Phase.budget]
        split <;> omega
      · intro c x k b hc h
        simp only [stageFor] at h
        split at h <;> cases h
      · exact Nat.le_trans hcount (by simp [Phase.slack])
      · intro k s h; injection h with h; omega
    · exact inv
  | connect ok =>
    simp only [World.step]
    split
    · rename_i k hp
      have hcount := inv.count
      rw [hp] at hcount
      simp only [Phase.slack] at hcount
      split
      · have hlen : (w.conns ++ [Conn.fresh β]).length = w.conns.length + 1 := by simp
        have hnew : on w.conns.length w.pulled = [] := by
          unfold on
          rw [List.map_eq_nil_iff, List.filter_eq_nil_iff]
          intro p hp' h
          have := inv.idx p hp'
          have h' : p.1 = w.conns.length := by simpa using h
          omega
        have hnew' : on w.conns.length w.got = [] := by
          have := (inv.sub.filter (fun x => x.1 == w.conns.length)).map (·.2)
          rw [show (w.pulled.filter (fun x => x.1 == w.conns.length)).map (·.2) = [] from hnew] at this
          exact List.sublist_nil.1 this
        refine ⟨?_, ?_, ?_, ?_, inv.sub, ?_, ?_, ?_⟩
        · intro p h; rw [hlen]; have := inv.idx p h; omega
        · intro c h; rw [hlen]; have := inv.cur c h; omega
        · intro j _
          refine ⟨by rw [hlen]; omega, ?_, ?_⟩
          · intro h
            rw [hlen, Nat.add_sub_cancel] at h
            have := inv.cur _ h; omega
          · rw [hlen, Nat.add_sub_cancel]
            intro x hx
            rw [hnew]
            rw [List.getElem?_concat_length] at hx
            cases hx; rfl
        · intro c x hx
          by_cases hc : c = w.conns.length
          · subst hc
            rw [List.getElem?_concat_length] at hx
            cases hx
            rw [hnew, hnew']
            exact ⟨⟨[], rfl, fun h => absurd rfl h⟩, Nat.zero_le _⟩
          · have hlt : c < w.conns.length := by
              have := (List.getElem?_eq_some_iff.1 hx).1
              rw [hlen] at this; omega
            rw [List.getElem?_append_left hlt] at hx
            refine (inv.conn c x hx).mono ?_
            simp only [budgetOf, hp, Phase.budget]
            split <;> omega
        · intro c x j b _ h; cases h
        · have : reqs (w.conns ++ [Conn.fresh β]) = reqs w.conns := by simp [reqs, Conn.fresh]
          simp only [this, Phase.slack]; omega
        · intro j s h; injection h with h; subst h; exact inv.attempts k _ hp
      · exact inv_fail k (inv.attempts k _ hp) inv.idx inv.cur
          (fun c x h => (inv.conn c x h).mono (budget_le w c)) inv.sub (by omega)
    · exact inv
  | name ok reaches =>
    simp only [World.step]
    split
    · rename_i k hp
      have hcount := inv.count
      rw [hp] at hcount
      simp only [Phase.slack] at hcount
      obtain ⟨hpos, hcur, hq⟩ := inv.naming k hp
      have hlt : w.conns.length - 1 < w.conns.length := by omega
      have hx : w.conns[w.conns.length - 1]? = some (w.conns[w.conns.length - 1]) := List.getElem?_eq_getElem hlt
      generalize w.conns[w.conns.length - 1] = x at hx
      have hq := hq x hx
      rw [modify_eq_set _ _ x _ hx]
      have hreq := reqs_set w.conns (w.conns.length - 1) x { x with named := reaches } hx
      have hc1 : ∀ (c : Nat) y, (w.conns.set (w.conns.length - 1) { x with named := reaches })[c]? = some y →
          ConnOk (on c w.pulled) (on c w.got) y 1 := by
        intro c y hy
        rcases get_set _ _ _ x _ y hx hy with ⟨h4, h5⟩ | ⟨-, h5⟩
        · rw [h4, h5]
          exact (inv.conn _ x hx).same rfl rfl (by have := budget_le w (w.conns.length - 1); simp only; omega)
        · exact (inv.conn c y h5).mono (budget_le w c)
      split
      · refine ⟨?_, ?_, ?_, ?_, inv.sub, ?_, ?_, ?_⟩
        · intro p h; simp only [List.length_set]; exact inv.idx p h
        · intro c h; cases h; simp only [List.length_set]; omega
        · intro j h; cases h
        · intro c y hy
          rcases get_set _ _ _ x _ y hx hy with ⟨h4, h5⟩ | ⟨h4, h5⟩
          · rw [h4, h5]
            refine ⟨(inv.conn _ x hx).stock, ?_⟩
            simp only
            omega
          · refine (inv.conn c y h5).mono ?_
            simp only [budgetOf, Option.some.injEq]
            rw [if_neg (Ne.symm h4)]
            exact budget_le w c
        · intro c y j b _ h; cases h
        · simp only [Phase.slack] at hreq ⊢; omega
        · intro j s h; injection h with h; subst h; exact inv.attempts k _ hp
      · refine inv_fail k (inv.attempts k _ hp) ?_ ?_ hc1 inv.sub ?_
        · intro p h; simp only [List.length_set]; exact inv.idx p h
        · intro c h; simp only [List.length_set]; exact inv.cur c h
        · simp only at hreq ⊢; omega
    · exact inv
  | request ok reaches =>
    simp only [World.step]
    split
    · rename_i k c hp hc
      have hcount := inv.count
      rw [hp] at hcount
      simp only [Phase.slack] at hcount
      have hlt := inv.cur c hc
      have hx : w.conns[c]? = some (w.conns[c]) := List.getElem?_eq_getElem hlt
      generalize w.conns[c] = x at hx
      rw [modify_eq_set _ _ x _ hx]
      have hb0 : budgetOf w c = 0 := by simp [budgetOf, hc, hp, Phase.budget]
      have hk := inv.conn c x hx
      rw [hb0] at hk
      obtain ⟨he, hpg, hr0⟩ := hk.empty
      have hreq := reqs_set w.conns c x { x with requests := x.requests + if reaches then 1 else 0 } hx
      have hle : (if reaches = true then 1 else 0) ≤ 1 := by split <;> omega
      have hc1 : ∀ (d : Nat) y, (w.conns.set c { x with requests := x.requests + if reaches then 1 else 0 })[d]? = some y →
          ConnOk (on d w.pulled) (on d w.got) y 1 := by
        intro d y hy
        rcases get_set _ _ _ x _ y hx hy with ⟨h4, h5⟩ | ⟨-, h5⟩
        · rw [h4, h5]
          exact hk.same rfl rfl (by simp only; omega)
        · exact (inv.conn d y h5).mono (budget_le w d)
      split
      · refine ⟨?_, ?_, ?_, ?_, inv.sub, ?_, ?_, ?_⟩
        · intro p h; simp only [List.length_set]; exact inv.idx p h
        · intro d h; simp only [List.length_set]; exact inv.cur d h
        · intro j h; cases h
        · intro d y hy
          refine (hc1 d y hy).mono ?_
          simp only [budgetOf, Phase.budget]
          split <;> omega
        · intro d y j b hd _ hy hb
          rw [hc] at hd
          cases hd
          rcases get_set _ _ _ x _ y hx hy with ⟨-, h5⟩ | ⟨h4, -⟩
          · rw [h5] at hb
            simp only at hb
            rw [he] at hb; cases hb
          · exact absurd rfl h4
        · simp only [Phase.slack] at hreq ⊢; omega
        · intro j s h; injection h with h; subst h; exact inv.attempts k _ hp
      · refine inv_fail k (inv.attempts k _ hp) ?_ ?_ hc1 inv.sub ?_
        · intro p h; simp only [List.length_set]; exact inv.idx p h
        · intro d h; simp only [List.length_set]; exact inv.cur d h
        · simp only at hreq ⊢; omega
    · exact inv
  | read ok =>
    simp only [World.step]
    split
    · rename_i k c hp hc
      have hcount := inv.count
      rw [hp] at hcount
      simp only [Phase.slack] at hcount
      split
      · split
        · rename_i x hx
          split
          · rename_i b bs hb
            have hk := inv.conn c x hx
            have hb1 : budgetOf w c = 1 := by simp [budgetOf, hc, hp, Phase.budget]
            rw [hb1] at hk
            obtain ⟨lost, h1, h2⟩ := hk.stock
            have hreq := reqs_set w.conns c x { x with answers := bs } hx
            have hpend := inv.pend c x k b hc hp hx (by rw [hb]; simp)
            refine ⟨?_, ?_, ?_, ?_, hpend, ?_, ?_, ?_⟩
            · intro p h; simp only [List.length_set]; exact inv.idx p h
            · intro d h; simp only [List.length_set]; exact inv.cur d h
            · intro j h; cases h
            · intro d y hy
              rcases get_set _ _ _ x _ y hx hy with ⟨h4, h5⟩ | ⟨h4, h5⟩
              · subst h4; subst h5
                refine ⟨⟨lost, ?_, h2⟩, ?_⟩
                · rw [on_append, on_same, h1, hb]; simp
                · have := hk.few
                  rw [on_append, on_same]
                  simp only [budgetOf, hc, Phase.budget, List.length_append, List.length_cons, List.length_nil, if_true]
                  omega
              · rw [on_append, on_other b (Ne.symm h4), List.append_nil]
                refine (inv.conn d y h5).mono ?_
                simp only [budgetOf, hc, Option.some.injEq, if_neg (Ne.symm h4)]
                exact Nat.le_refl _
            · intro d y j b' _ h; cases h
            · simp only [Phase.slack, List.length_append, List.length_cons, List.length_nil] at hreq ⊢; omega
            · intro j s h; cases h
          · exact inv
        · exact inv
      · exact inv_fail k (inv.attempts k _ hp) inv.idx inv.cur
          (fun d x h => (inv.conn d x h).mono (budget_le w d)) inv.sub (by omega)
    · exact inv
  | drop =>
    simp only [World.step]
    split
    · exact inv
    · refine ⟨inv.idx, inv.cur, (fun k h => by cases h), ?_, inv.sub, (fun c x k b _ h => by cases h), ?_, (fun k s h => by cases h)⟩
      · intro c x hx
        refine (inv.conn c x hx).mono ?_
        have := budget_le w c
        simp only [budgetOf, Phase.budget] at this ⊢
        split <;> simp_all
      · have := inv.count
        have hs : w.phase.slack ≤ 1 := by unfold Phase.slack; split <;> omega
        simp only [Phase.slack]
        omega
  | serve c b =>
    simp only [World.step]
    split
    · rename_i x hx
      split
      · rename_i y hy
        have hs : x.task = .serving ∧ x.named = true ∧ 0 < x.requests ∧
            y = { x with requests := x.requests - 1, task := .holding b } := by
          unfold Conn.serve at hy
          split at hy
          · rename_i ht
            split at hy
            · rename_i hn
              exact ⟨ht, hn.1, hn.2, (Option.some.inj hy).symm⟩
            · cases hy
          · cases hy
        obtain ⟨ht, -, hr, hy⟩ := hs
        subst hy
        have hk := inv.conn c x hx
        have hk1 := hk.mono (budget_le w c)
        obtain ⟨lost, h1, h2⟩ := hk.stock
        have hl : lost = [] := Classical.byContradiction fun hl => by have := h2 hl; rw [ht] at this; cases this
        subst hl
        have hf := hk1.few
        have hans : x.answers = [] := by
          have : (on c w.pulled).length = (on c w.got).length + x.answers.length := by
            rw [h1, ht]; simp [Task.held]
          exact List.length_eq_zero_iff.1 (by omega)
        have hreq := reqs_set w.conns c x { x with requests := x.requests - 1, task := .holding b } hx
        refine ⟨?_, ?_, ?_, ?_, ?_, ?_, ?_, inv.attempts⟩
        · intro p h
          simp only [List.length_set]
          rcases List.mem_append.1 h with h | h
          · exact inv.idx p h
          · rw [List.mem_singleton] at h
            rw [h]; exact (List.getElem?_eq_some_iff.1 hx).1
        · intro d h; simp only [List.length_set]; exact inv.cur d h
        · intro j h
          obtain ⟨g1, g2, g3⟩ := inv.naming j h
          simp only [List.length_set]
          refine ⟨g1, g2, ?_⟩
          intro z hz
          rcases get_set _ _ _ x _ z hx hz with ⟨h4, -⟩ | ⟨h4, h5⟩
          · rw [h4] at g3
            have := g3 x hx
            omega
          · rw [on_append, on_other b (Ne.symm h4), List.append_nil]
            exact g3 z h5
        · intro d z hz
          rcases get_set _ _ _ x _ z hx hz with ⟨h4, h5⟩ | ⟨h4, h5⟩
          · subst h4; subst h5
            refine ⟨⟨[], ?_, fun h => absurd rfl h⟩, ?_⟩
            · rw [on_append, on_same, h1, ht]
              simp [Task.held]
            · have := hk.few
              rw [on_append, on_same]
              simp only [List.length_append, List.length_cons, List.length_nil]
              show _ ≤ _ + budgetOf w d
              omega
          · rw [on_append, on_other b (Ne.symm h4), List.append_nil]
            exact inv.conn d z h5
        · exact inv.sub.trans (List.sublist_append_left _ _)
        · intro d z k b' hd hp hz hb'
          rcases get_set _ _ _ x _ z hx hz with ⟨h4, h5⟩ | ⟨-, h5⟩
          · subst h4; subst h5
            have : b' = b := by simpa [hans, Task.held] using hb'
            rw [this]
            exact inv.sub.append (List.Sublist.refl _)
          · exact (inv.pend d z k b' hd hp h5 hb').trans (List.sublist_append_left _ _)
        · have := inv.count
          simp only [List.length_append, List.length_cons, List.length_nil] at hreq ⊢
          omega
      · exact inv
    · exact inv
  | answer c ok =>
    simp only [World.step]
    refine inv_queue inv c _ (fun x => answer_keeps eow x ok) ?_ (fun p g x a h => answer_ok eow ok h)
    intro x b h
    unfold Conn.answer at h
    split at h
    · rename_i b' ht
      split at h
      · have : (afterAnswer eow b').held = [] := by unfold afterAnswer; split <;> rfl
        simp only [this] at h
        rw [ht]; simpa [Task.held] using h
      · simp only [Task.held] at h
        simp at h
        simp [h]
    · exact h
  | hangup c =>
    simp only [World.step]
    refine inv_queue inv c _ (fun x => ?_) ?_ (fun p g x a h => hangup_ok h)
    · unfold Conn.hangup; split <;> rfl
    · intro x b h
      unfold Conn.hangup at h
      split at h
      · rename_i ht
        rw [ht]; exact h
      · exact h

theorem inv_run (eow : β → Bool) (as : List (Act β)) : Inv ((World.new β).run eow as) := by
  have : ∀ (as : List (Act β)) (w : World β), Inv w → Inv (w.run eow as) := by
    intro as
    induction as with
    | nil => exact fun w h => h
    | cons a as ih => exact fun w h => ih _ (inv_step eow h a)
  exact this as _ inv_new

theorem fail_keeps (w : World β) (k : Nat) : (w.fail k).got = w.got ∧ (w.fail k).pulled = w.pulled ∧
    (w.fail k).failed = w.failed + 1 ∧ (w.fail k).conns = w.conns := by
  unfold World.fail; split <;> exact ⟨rfl, rfl, rfl, rfl⟩

theorem step_grows (eow : β → Bool) (w : World β) (a : Act β) :
    ((w.step eow a).got = w.got ∨ (w.step eow a).phase = .idle) ∧ w.pulled <+: (w.step eow a).pulled ∧
    w.failed ≤ (w.step eow a).failed := by
  cases a <;> simp only [World.step] <;> repeat' split
  all_goals
    first
    | exact ⟨.inl rfl, List.prefix_refl _, Nat.le_refl _⟩
    | exact ⟨.inl (fail_keeps _ _).1, by rw [(fail_keeps _ _).2.1]; exact List.prefix_refl _, by rw [(fail_keeps _ _).2.2.1]; exact Nat.le_succ _⟩
    | exact ⟨.inr rfl, List.prefix_refl _, Nat.le_refl _⟩
    | exact ⟨.inl trivial, List.prefix_refl _, Nat.le_refl _⟩
    | exact ⟨.inl rfl, List.prefix_append _ _, Nat.le_refl _⟩

/-- While nothing failed, what was returned are the first bundles taken. -/
theorem prefix_run (eow : β → Bool) (as : List (Act β)) :
    ((World.new β).run eow as).failed = 0 → ((World.new β).run eow as).got <+: ((World.new β).run eow as).pulled := by
  have : ∀ (as : List (Act β)) (w : World β), Inv w → (w.failed = 0 → w.got <+: w.pulled) →
      (w.run eow as).failed = 0 → (w.run eow as).got <+: (w.run eow as).pulled := by
    intro as
    induction as with
    | nil => exact fun w _ h => h
    | cons a as ih =>
      intro w inv h
      have inv' := inv_step eow inv a
      refine ih _ inv' ?_
      intro hf
      obtain ⟨h1, h2, h3⟩ := step_grows eow w a
      rcases h1 with h1 | h1
      · rw [h1]
        exact (h (by omega)).trans h2
      · have hc := inv'.count
        rw [h1] at hc
        simp only [Phase.slack] at hc
        rw [inv'.sub.eq_of_length_le (by omega)]
        exact List.prefix_refl _
  exact this as _ inv_new fun _ => List.prefix_refl _

/-- The runner has a connection when it writes a request or reads the answer. -/
def Connected (w : World β) : Prop :=
  ∀ k s, w.phase = .asking k s → s = .requesting ∨ s = .reading → w.current.isSome

theorem connected_fail (w : World β) (k : Nat) : Connected (w.fail k) := by
  intro j s h hs
  unfold World.fail at h
  split at h
  · cases h; rcases hs with hs | hs <;> cases hs
  · cases h

theorem connected_step (eow : β → Bool) {w : World β} (h : Connected w) (a : Act β) : Connected (w.step eow a) := by
  cases a <;> simp only [World.step] <;> repeat' split
  all_goals
    first
    | exact h
    | exact connected_fail _ _
    | (intro k s hp hs; cases hp; done)
    | (intro k s hp hs; cases hp; rcases hs with hs | hs <;> cases hs; done)
    | (intro k s hp hs; rfl)
    | skip
  · intro k s hp hs
    cases hc : w.current with
    | some c => rfl
    | none =>
      simp only [hc, stageFor] at hp
      cases hp; rcases hs with hs | hs <;> cases hs
  all_goals
    intro j s _ _
    simp_all

theorem connected_run (eow : β → Bool) (as : List (Act β)) : Connected ((World.new β).run eow as) := by
  have : ∀ (as : List (Act β)) (w : World β), Connected w → Connected (w.run eow as) := by
    intro as
    induction as with
    | nil => exact fun w h => h
    | cons a as ih => exact fun w h => ih _ (connected_step eow h a)
  exact this as _ (by intro k s h; cases h)

/-- How many attempts can have failed after some requests. -/
def FailedOk (w : World β) (n : Nat) : Prop :=
  match w.phase with
  | .idle => w.failed ≤ 2 * n
  | .asking k _ => 1 ≤ k ∧ k ≤ 3 ∧ w.failed + 3 ≤ 2 * n + k
  | _ => w.failed ≤ 2 * n + 1

theorem failedOk_fail {w : World β} {n k : Nat} {s : Stage} (hp : w.phase = .asking k s) (h : FailedOk w n) (v : World β)
    (hv : v.failed = w.failed) : FailedOk (v.fail k) n := by
  unfold FailedOk at h
  rw [hp] at h
  simp only at h
  unfold World.fail maxAttempts
  split
  · unfold FailedOk; simp only; omega
  · unfold FailedOk; simp only; omega

theorem failedOk_step (eow : β → Bool) {w : World β} {n : Nat} (h : FailedOk w n) (a : Act β) :
    FailedOk (w.step eow a) (n + asks [a]) := by
  cases a with
  | ask =>
    simp only [World.step]
    split
    · rename_i hp
      unfold FailedOk at h ⊢
      rw [hp] at h
      simp only [asks, List.countP_cons, List.countP_nil] at h ⊢
      simp only [if_true]; omega
    · unfold FailedOk at h ⊢
      simp only [asks, List.countP_cons, List.countP_nil, if_true]
      split <;> simp_all <;> omega
  | connect ok =>
    show FailedOk _ (n + 0)
    simp only [World.step]
    repeat' split
    · rename_i k hp _; unfold FailedOk at h ⊢; rw [hp] at h; exact h
    · rename_i k hp _; exact failedOk_fail hp h _ rfl
    · exact h
  | name ok r =>
    show FailedOk _ (n + 0)
    simp only [World.step]
    repeat' split
    · rename_i k hp _; unfold FailedOk at h ⊢; rw [hp] at h; exact h
    · rename_i k hp _; exact failedOk_fail hp h _ rfl
    · exact h
  | request ok r =>
    show FailedOk _ (n + 0)
    simp only [World.step]
    split
    · rename_i k c hp _
      by_cases hok : ok = true
      · rw [if_pos hok]; unfold FailedOk at h ⊢; rw [hp] at h; exact h
      · rw [if_neg hok]; exact failedOk_fail hp h _ rfl
    · exact h
  | read ok =>
    show FailedOk _ (n + 0)
    simp only [World.step]
    repeat' split
    · rename_i hp _ _ _ _ _ _ _ _ _; unfold FailedOk at h ⊢; rw [hp] at h; simp only at h ⊢; omega
    · exact h
    · exact h
    · rename_i k c hp _ _; exact failedOk_fail hp h _ rfl
    · exact h
  | drop =>
    show FailedOk _ (n + 0)
    simp only [World.step]
    split
    · exact h
    · unfold FailedOk at h ⊢
      simp only
      split at h <;> omega
  | serve c b =>
    show FailedOk _ (n + 0)
    simp only [World.step]
    repeat' split
    all_goals exact h
  | answer c ok => exact h
  | hangup c => exact h

theorem failedOk_run (eow : β → Bool) (as : List (Act β)) : FailedOk ((World.new β).run eow as) (asks as) := by
  have : ∀ (as : List (Act β)) (w : World β) (n : Nat), FailedOk w n → FailedOk (w.run eow as) (n + asks as) := by
    intro as
    induction as with
    | nil => exact fun w n h => h
    | cons a as ih =>
      intro w n h
      have := ih _ _ (failedOk_step eow h a)
      have e : asks (a :: as) = asks [a] + asks as := by
        rw [show a :: as = [a] ++ as from rfl]; unfold asks; exact List.countP_append
      rw [e, ← Nat.add_assoc]
      exact this
  have := this as (World.new β) 0 (Nat.le_refl 0)
  rwa [Nat.zero_add] at this

/-! ## A worker that is run again -/

theorem connect_some (p : Poll β) (h : p.Connects) :
    ∃ tr, Abq.Backoff.retryN 5 (fun k => if p.connects k then Except.ok () else Except.error ()) = (Except.ok (ε := Unit) (), tr) := by
  obtain ⟨last, l1, l2, l3, l4, l5, l6⟩ :=
    Abq.Props.C32_retry 5 (fun k => if p.connects k then Except.ok () else Except.error ())
  refine ⟨_, Prod.ext ?_ rfl⟩
  rw [l5]
  cases hl : p.connects last with
  | true => rfl
  | false =>
    obtain ⟨k, h1, h2, h3⟩ := h
    have hlast : last = 5 := l4 ⟨(), by rw [hl]; rfl⟩
    subst hlast
    by_cases hk : k = 5
    · subst hk; rw [hl] at h3; cases h3
    · obtain ⟨e, he⟩ := l3 k h1 (by omega)
      rw [h3] at he; cases he

theorem connect_none (p : Poll β) (h : ¬ p.Connects) :
    ∃ tr, Abq.Backoff.retryN 5 (fun k => if p.connects k then Except.ok () else Except.error ()) =
      (Except.error (α := Unit) (), tr) := by
  obtain ⟨last, l1, l2, l3, l4, l5, l6⟩ :=
    Abq.Props.C32_retry 5 (fun k => if p.connects k then Except.ok () else Except.error ())
  refine ⟨_, Prod.ext ?_ rfl⟩
  rw [l5]
  cases hl : p.connects last with
  | false => rfl
  | true => exact absurd ⟨last, l1, l2, hl⟩ h

theorem tryFetch_waits (p : Poll β) : p.Waits ↔ (tryFetch p).1 = .error () := by
  unfold tryFetch
  by_cases hc : p.Connects
  · obtain ⟨tr, h⟩ := connect_some p hc
    rw [h]
    constructor
    · rintro ⟨-, hio, hr⟩
      simp only [hio, if_true, hr]
    · intro h
      refine ⟨hc, ?_⟩
      cases hio : p.io with
      | false => simp [hio] at h
      | true =>
        refine ⟨rfl, ?_⟩
        cases hr : p.reply <;> simp [hio, hr] at h ⊢
  · obtain ⟨tr, h⟩ := connect_none p hc
    rw [h]
    exact ⟨fun h => absurd h.1 hc, fun h => by simp at h⟩

theorem tryFetch_ends (p : Poll β) (r : Fetched β) : p.Ends r ↔ (tryFetch p).1 = .ok r := by
  unfold tryFetch Poll.Ends
  by_cases hc : p.Connects
  · obtain ⟨tr, h⟩ := connect_some p hc
    rw [h]
    cases hio : p.io with
    | false => simp only [hc]; simp; exact eq_comm
    | true => cases hr : p.reply <;> simp [hc] <;> exact eq_comm
  · obtain ⟨tr, h⟩ := connect_none p hc
    rw [h]
    simp [hc]
    exact eq_comm

theorem tryFetch_trace (p : Poll β) :
    (tryFetch p).2 = (Abq.Backoff.retryN 5 (fun k => if p.connects k then Except.ok () else Except.error (ε := Unit) (α := Unit) ())).2 := by
  unfold tryFetch
  repeat' split
  all_goals simp_all

end Abq.TestsConn
