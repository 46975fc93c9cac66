import Verif.Spec.FileLocks

/-! # Who holds the locks of the results files -/

namespace Abq.FileLocks

/-- The access a stage has or asks for. -/
def Stage.mode : Stage → Option Bool
  | .first | .second | .queued | .busy => some false
  | .slow | .opening | .want | .latched | .moving => some true
  | .gone => none

/-- The access has been given. -/
def Stage.holds : Stage → Bool
  | .queued | .busy | .opening | .latched | .moving => true
  | _ => false

/-- Holds or waits for the mutex. -/
def Stage.inMutex : Stage → Bool
  | .queued | .busy | .latched | .moving => true
  | _ => false

/-- Holds the mutex. -/
def Stage.top : Stage → Bool
  | .busy | .moving => true
  | _ => false

/-- How far from its end. -/
def Stage.rank : Stage → Nat
  | .first => 7
  | .slow => 6
  | .opening => 5
  | .second => 4
  | .want => 4
  | .queued => 3
  | .latched => 3
  | .busy => 2
  | .moving => 2
  | .gone => 0

/-! ## The read-write lock -/

/-- See `granted`. -/
def Granted (q : List (Nat × Bool)) (t : Nat) : Prop :=
  ∃ pre w post, q = pre ++ (t, w) :: post ∧ (∀ p ∈ pre, p.2 = false) ∧ (w = true → pre = [])

theorem granted_iff (q : List (Nat × Bool)) (t : Nat) : granted q t = true ↔ Granted q t := by
  unfold granted
  rw [Bool.or_eq_true]
  constructor
  · rintro (h | h)
    · cases q with
      | nil => simp at h
      | cons p q =>
        obtain ⟨u, w⟩ := p
        simp at h
        subst h
        exact ⟨[], w, q, rfl, by simp, fun _ => rfl⟩
    · rw [List.any_eq_true] at h
      obtain ⟨p, hp, he⟩ := h
      obtain ⟨u, w⟩ := p
      have hu : u = t := by simpa using he
      subst hu
      obtain ⟨a, b, hab⟩ := List.append_of_mem hp
      have hall : ∀ p ∈ q.takeWhile (fun p => !p.2), p.2 = false := by
        intro p hp
        have := List.all_takeWhile (l := q) (p := fun p => !p.2)
        rw [List.all_eq_true] at this
        simpa using this p hp
      have hq := List.takeWhile_append_dropWhile (p := fun p : Nat × Bool => !p.2) (l := q)
      refine ⟨a, w, b ++ q.dropWhile (fun p => !p.2), ?_, ?_, ?_⟩
      · have h2 := congrArg (· ++ q.dropWhile (fun p => !p.2)) hab
        simp only [hq] at h2
        exact h2.trans (by simp)
      · intro p hp
        exact hall p (by rw [hab]; simp [hp])
      · intro hw
        have := hall (u, w) hp
        simp [hw] at this
  · rintro ⟨pre, w, post, rfl, hpre, hw⟩
    cases w with
    | true =>
      left
      rw [hw rfl]
      simp
    | false =>
      right
      rw [List.any_eq_true]
      refine ⟨(t, false), ?_, by simp⟩
      have : (pre ++ (t, false) :: post).takeWhile (fun p => !p.2) =
          pre ++ ((t, false) :: post).takeWhile (fun p => !p.2) := by
        apply List.takeWhile_append_of_pos
        intro p hp
        simp [hpre p hp]
      rw [this]
      simp

theorem Granted.append {q : List (Nat × Bool)} {t : Nat} (h : Granted q t) (x : List (Nat × Bool)) :
    Granted (q ++ x) t := by
  obtain ⟨pre, w, post, rfl, h1, h2⟩ := h
  exact ⟨pre, w, post ++ x, by simp, h1, h2⟩

theorem Granted.filter {q : List (Nat × Bool)} {t u : Nat} (h : Granted q t) (hu : t ≠ u) :
    Granted (q.filter (fun p => p.1 != u)) t := by
  obtain ⟨pre, w, post, rfl, h1, h2⟩ := h
  refine ⟨pre.filter (fun p => p.1 != u), w, post.filter (fun p => p.1 != u), ?_, ?_, ?_⟩
  · rw [List.filter_append, List.filter_cons_of_pos (by simpa using hu)]
  · intro p hp
    exact h1 p (List.mem_filter.mp hp).1
  · intro hw
    rw [h2 hw]
    rfl

/-- Where one that has write access is, there is nobody else. -/
theorem Granted.alone {q : List (Nat × Bool)} {t u : Nat} (hn : (q.map Prod.fst).Nodup) (ht : Granted q t)
    (hw : (t, true) ∈ q) (hu : Granted q u) : u = t := by
  obtain ⟨pre, w, post, hq, h1, h2⟩ := ht
  have hwt : w = true := by
    subst hq
    simp only [List.map_append, List.map_cons, List.nodup_append, List.nodup_cons] at hn
    rcases List.mem_append.mp hw with h | h
    · exact absurd rfl (hn.2.2 t (List.mem_map.mpr ⟨_, h, rfl⟩) t List.mem_cons_self)
    · rcases List.mem_cons.mp h with h | h
      · cases h; rfl
      · exact absurd (List.mem_map.mpr ⟨_, h, rfl⟩) hn.2.1.1
  have hpre := h2 hwt
  subst hpre hwt
  obtain ⟨pre', w', post', hq', h1', _⟩ := hu
  rw [hq] at hq'
  cases pre' with
  | nil => simp at hq'; exact hq'.1.1.symm
  | cons p pre' =>
    simp at hq'
    have := h1' p List.mem_cons_self
    rw [← hq'.1] at this
    simp at this

/-- The first in line has access. -/
theorem granted_head {p : Nat × Bool} (q : List (Nat × Bool)) : Granted (p :: q) p.1 :=
  ⟨[], p.2, q, rfl, by simp, fun _ => rfl⟩

/-! ## The invariant -/

/-- Every call is in the lines it should be in, and has what its place says it has. -/
structure Inv (s : St) : Prop where
  cNodup : (s.cache.map Prod.fst).Nodup
  cMem : ∀ t w, (t, w) ∈ s.cache ↔ ∃ k, s.tasks[t]? = some k ∧ k.stage.mode = some w
  hold : ∀ t k, s.tasks[t]? = some k → k.stage.holds = true → Granted s.cache t
  mNodup : ∀ r, (s.mutex r).Nodup
  mMem : ∀ r t, t ∈ s.mutex r ↔ ∃ st, s.tasks[t]? = some ⟨r, st⟩ ∧ st.inMutex = true
  top : ∀ t r st, s.tasks[t]? = some ⟨r, st⟩ → st.top = true → (s.mutex r).head? = some t

theorem inv_init : Inv init := by
  constructor <;> simp [init]

theorem get_set {s : St} {t : Nat} {k : Task} (hk : s.tasks[t]? = some k) (k' : Task) (u : Nat) :
    (s.tasks.set t k')[u]? = if u = t then some k' else s.tasks[u]? := by
  rw [List.getElem?_set]
  have hlt : t < s.tasks.length := (List.getElem?_eq_some_iff.mp hk).1
  by_cases h : t = u
  · simp [h, h ▸ hlt]
  · rw [if_neg h, if_neg (fun e => h e.symm)]

/-- A call that asks for access to the cache. -/
theorem inv_start {s : St} (h : Inv s) (r : String) (st : Stage) (w : Bool) (hm : st.mode = some w)
    (hh : st.holds = false) (hi : st.inMutex = false) (ht : st.top = false) :
    Inv { s.ask s.tasks.length w with tasks := s.tasks ++ [⟨r, st⟩] } := by
  have hget : ∀ u : Nat, (s.tasks ++ [⟨r, st⟩])[u]? = if u = s.tasks.length then some ⟨r, st⟩ else s.tasks[u]? := by
    intro u
    by_cases hu : u = s.tasks.length
    · subst hu; simp
    · rw [if_neg hu]
      by_cases hl : u < s.tasks.length
      · rw [List.getElem?_append_left hl]
      · rw [List.getElem?_eq_none (by simp; omega), List.getElem?_eq_none (by omega)]
  have hnew : ∀ w, (s.tasks.length, w) ∉ s.cache := by
    intro w hw
    obtain ⟨k, hk, _⟩ := (h.cMem _ _).mp hw
    simp at hk
  constructor
  · show ((s.cache ++ [(s.tasks.length, w)]).map Prod.fst).Nodup
    rw [List.map_append, List.nodup_append]
    refine ⟨h.cNodup, by simp, ?_⟩
    intro a ha b hb hab
    simp at hb
    subst hb hab
    obtain ⟨p, hp, he⟩ := List.mem_map.mp ha
    obtain ⟨a, b⟩ := p
    simp at he
    exact hnew b (he ▸ hp)
  · intro t w'
    show (t, w') ∈ s.cache ++ [(s.tasks.length, w)] ↔ ∃ k, (s.tasks ++ [(⟨r, st⟩ : Task)])[t]? = some k ∧ _
    rw [hget, List.mem_append]
    by_cases ht' : t = s.tasks.length
    · subst ht'
      rw [if_pos rfl]
      constructor
      · rintro (h' | h')
        · exact absurd h' (hnew _)
        · simp at h'
          exact ⟨_, rfl, by rw [h']; exact hm⟩
      · rintro ⟨k, hk, hkm⟩
        cases hk
        right
        have : w = w' := Option.some.inj (hm.symm.trans hkm)
        simp [this]
    · rw [if_neg ht', ← h.cMem]
      simp [ht']
  · intro t k hk hkh
    show Granted (s.cache ++ [(s.tasks.length, w)]) t
    change (s.tasks ++ [(⟨r, st⟩ : Task)])[t]? = some k at hk
    rw [hget] at hk
    split at hk
    · cases hk
      rw [show (⟨r, st⟩ : Task).stage = st from rfl, hh] at hkh
      cases hkh
    · exact (h.hold t k hk hkh).append _
  · exact h.mNodup
  · intro r' t
    show t ∈ s.mutex r' ↔ ∃ st', (s.tasks ++ [(⟨r, st⟩ : Task)])[t]? = some ⟨r', st'⟩ ∧ _
    rw [hget]
    split
    · rename_i ht'
      subst ht'
      rw [h.mMem]
      constructor
      · rintro ⟨st', h1, _⟩
        simp at h1
      · rintro ⟨st', h1, h2⟩
        cases h1
        rw [hi] at h2
        cases h2
    · exact h.mMem r' t
  · intro t r' st' hk hkt
    change (s.tasks ++ [(⟨r, st⟩ : Task)])[t]? = some _ at hk
    rw [hget] at hk
    split at hk
    · cases hk
      rw [ht] at hkt
      cases hkt
    · exact h.top t r' st' hk hkt

/-- A call that was given what it waited for. -/
theorem inv_goto {s : St} (h : Inv s) {t : Nat} {r : String} {st st' : Stage} (hk : s.tasks[t]? = some ⟨r, st⟩)
    (hm : st'.mode = st.mode) (hi : st'.inMutex = st.inMutex) (hg : Granted s.cache t)
    (htop : st'.top = true → (s.mutex r).head? = some t) : Inv (s.goto t r st') := by
  constructor
  · exact h.cNodup
  · intro u w
    show (u, w) ∈ s.cache ↔ ∃ k, (s.tasks.set t ⟨r, st'⟩)[u]? = some k ∧ _
    rw [get_set hk]
    split
    · rename_i hu
      subst hu
      rw [h.cMem]
      constructor
      · rintro ⟨k, h1, h2⟩
        rw [hk] at h1
        cases h1
        exact ⟨_, rfl, hm.trans h2⟩
      · rintro ⟨k, h1, h2⟩
        cases h1
        exact ⟨_, hk, hm.symm.trans h2⟩
    · exact h.cMem u w
  · intro u k hu hh
    change (s.tasks.set t ⟨r, st'⟩)[u]? = some k at hu
    rw [get_set hk] at hu
    split at hu
    · rename_i he
      subst he
      exact hg
    · exact h.hold u k hu hh
  · exact h.mNodup
  · intro r' u
    show u ∈ s.mutex r' ↔ ∃ st1, (s.tasks.set t ⟨r, st'⟩)[u]? = some ⟨r', st1⟩ ∧ _
    rw [get_set hk]
    split
    · rename_i hu
      subst hu
      rw [h.mMem]
      constructor
      · rintro ⟨k, h1, h2⟩
        rw [hk] at h1
        cases h1
        exact ⟨_, rfl, hi.trans h2⟩
      · rintro ⟨k, h1, h2⟩
        cases h1
        exact ⟨_, hk, hi.symm.trans h2⟩
    · exact h.mMem r' u
  · intro u r' st1 hu ht1
    change (s.tasks.set t ⟨r, st'⟩)[u]? = some _ at hu
    rw [get_set hk] at hu
    split at hu
    · rename_i he
      subst he
      cases hu
      exact htop ht1
    · exact h.top u r' st1 hu ht1

/-- A call that asks for a mutex. -/
theorem inv_latch {s : St} (h : Inv s) {t : Nat} {r : String} {st st' : Stage} (hk : s.tasks[t]? = some ⟨r, st⟩)
    (hm : st'.mode = st.mode) (hi : st.inMutex = false) (hi' : st'.inMutex = true) (hg : Granted s.cache t)
    (htop : st'.top = false) : Inv ((s.latch t r).goto t r st') := by
  have hno : ∀ r', t ∉ s.mutex r' := by
    intro r' hr
    obtain ⟨st1, h1, h2⟩ := (h.mMem r' t).mp hr
    rw [hk] at h1
    cases h1
    rw [hi] at h2
    cases h2
  constructor
  · exact h.cNodup
  · intro u w
    show (u, w) ∈ s.cache ↔ ∃ k, (s.tasks.set t ⟨r, st'⟩)[u]? = some k ∧ _
    rw [get_set hk]
    split
    · rename_i hu
      subst hu
      rw [h.cMem]
      constructor
      · rintro ⟨k, h1, h2⟩
        rw [hk] at h1
        cases h1
        exact ⟨_, rfl, hm.trans h2⟩
      · rintro ⟨k, h1, h2⟩
        cases h1
        exact ⟨_, hk, hm.symm.trans h2⟩
    · exact h.cMem u w
  · intro u k hu hh
    change (s.tasks.set t ⟨r, st'⟩)[u]? = some k at hu
    rw [get_set hk] at hu
    split at hu
    · rename_i he
      subst he
      exact hg
    · exact h.hold u k hu hh
  · intro r'
    show (if r' = r then s.mutex r ++ [t] else s.mutex r').Nodup
    split
    · rw [List.nodup_append]
      refine ⟨h.mNodup r, by simp, ?_⟩
      intro a ha b hb hab
      simp at hb
      subst hb hab
      exact hno r ha
    · exact h.mNodup r'
  · intro r' u
    show u ∈ (if r' = r then s.mutex r ++ [t] else s.mutex r') ↔
      ∃ st1, (s.tasks.set t ⟨r, st'⟩)[u]? = some ⟨r', st1⟩ ∧ _
    rw [get_set hk]
    by_cases hu : u = t
    · subst hu
      rw [if_pos rfl]
      by_cases hr : r' = r
      · subst hr
        simp [hi']
      · rw [if_neg hr]
        constructor
        · intro h'
          exact absurd h' (hno r')
        · rintro ⟨k, h1, _⟩
          cases h1
          exact absurd rfl hr
    · rw [if_neg hu, ← h.mMem]
      split
      · rename_i hr
        subst hr
        simp [hu]
      · rfl
  · intro u r' st1 hu ht1
    change (s.tasks.set t ⟨r, st'⟩)[u]? = some _ at hu
    rw [get_set hk] at hu
    split at hu
    · cases hu
      rw [htop] at ht1
      cases ht1
    · have := h.top u r' st1 hu ht1
      show (if r' = r then s.mutex r ++ [t] else s.mutex r').head? = some u
      split
      · rename_i hr
        subst hr
        rw [List.head?_append, this]
        rfl
      · exact this

/-- Entries other than `t`. -/
theorem mem_without {q : List (Nat × Bool)} {t u : Nat} {w : Bool} :
    (u, w) ∈ q.filter (fun p => p.1 != t) ↔ (u, w) ∈ q ∧ u ≠ t := by
  simp

theorem nodup_without {q : List (Nat × Bool)} (h : (q.map Prod.fst).Nodup) (t : Nat) :
    ((q.filter (fun p => p.1 != t)).map Prod.fst).Nodup :=
  h.sublist (List.filter_sublist.map _)

/-- A call that gives back its access and asks for another. -/
theorem inv_requeue {s : St} (h : Inv s) {t : Nat} {r : String} {st st' : Stage} {w : Bool}
    (hk : s.tasks[t]? = some ⟨r, st⟩) (hm : st'.mode = some w) (hi : st.inMutex = false) (hi' : st'.inMutex = false)
    (hh : st'.holds = false) (htop : st'.top = false) : Inv (((s.release t).ask t w).goto t r st') := by
  constructor
  · show ((s.cache.filter (fun p => p.1 != t) ++ [(t, w)]).map Prod.fst).Nodup
    rw [List.map_append, List.nodup_append]
    refine ⟨nodup_without h.cNodup t, by simp, ?_⟩
    intro a ha b hb hab
    simp at hb
    subst hb hab
    obtain ⟨p, hp, he⟩ := List.mem_map.mp ha
    obtain ⟨a, b⟩ := p
    exact (mem_without.mp hp).2 he
  · intro u w'
    show (u, w') ∈ s.cache.filter (fun p => p.1 != t) ++ [(t, w)] ↔
      ∃ k, (s.tasks.set t ⟨r, st'⟩)[u]? = some k ∧ _
    rw [get_set hk, List.mem_append, mem_without]
    by_cases hu : u = t
    · subst hu
      simp [hm]
      exact eq_comm
    · rw [if_neg hu, ← h.cMem]
      simp [hu]
  · intro u k hu hh'
    change (s.tasks.set t ⟨r, st'⟩)[u]? = some k at hu
    rw [get_set hk] at hu
    split at hu
    · cases hu
      rw [show (⟨r, st'⟩ : Task).stage = st' from rfl, hh] at hh'
      cases hh'
    · rename_i hne
      exact ((h.hold u k hu hh').filter hne).append _
  · exact h.mNodup
  · intro r' u
    show u ∈ s.mutex r' ↔ ∃ st1, (s.tasks.set t ⟨r, st'⟩)[u]? = some ⟨r', st1⟩ ∧ _
    rw [get_set hk]
    split
    · rename_i hu
      subst hu
      rw [h.mMem]
      constructor
      · rintro ⟨k, h1, h2⟩
        rw [hk] at h1
        cases h1
        rw [hi] at h2
        cases h2
      · rintro ⟨k, h1, h2⟩
        cases h1
        rw [hi'] at h2
        cases h2
    · exact h.mMem r' u
  · intro u r' st1 hu ht1
    change (s.tasks.set t ⟨r, st'⟩)[u]? = some _ at hu
    rw [get_set hk] at hu
    split at hu
    · cases hu
      rw [htop] at ht1
      cases ht1
    · exact h.top u r' st1 hu ht1

/-- A call that returns. -/
theorem inv_leave {s : St} (h : Inv s) {t : Nat} {r : String} {st : Stage}
    (hk : s.tasks[t]? = some ⟨r, st⟩) : Inv (((s.unlatch t r).release t).goto t r .gone) := by
  constructor
  · exact nodup_without h.cNodup t
  · intro u w'
    show (u, w') ∈ s.cache.filter (fun p => p.1 != t) ↔ ∃ k, (s.tasks.set t ⟨r, .gone⟩)[u]? = some k ∧ _
    rw [get_set hk, mem_without]
    by_cases hu : u = t
    · subst hu
      simp [Stage.mode]
    · rw [if_neg hu, ← h.cMem]
      simp [hu]
  · intro u k hu hh'
    change (s.tasks.set t ⟨r, .gone⟩)[u]? = some k at hu
    rw [get_set hk] at hu
    split at hu
    · cases hu
      cases hh'
    · rename_i hne
      exact (h.hold u k hu hh').filter hne
  · intro r'
    show (if r' = r then (s.mutex r).filter (· != t) else s.mutex r').Nodup
    split
    · exact (h.mNodup r).sublist List.filter_sublist
    · exact h.mNodup r'
  · intro r' u
    show u ∈ (if r' = r then (s.mutex r).filter (· != t) else s.mutex r') ↔
      ∃ st1, (s.tasks.set t ⟨r, .gone⟩)[u]? = some ⟨r', st1⟩ ∧ _
    rw [get_set hk]
    by_cases hu : u = t
    · subst hu
      rw [if_pos rfl]
      constructor
      · intro h'
        exfalso
        split at h'
        · simp at h'
        · rename_i hr
          obtain ⟨st1, h1, _⟩ := (h.mMem r' u).mp h'
          rw [hk] at h1
          cases h1
          exact hr rfl
      · rintro ⟨k, h1, h2⟩
        cases h1
        cases h2
    · rw [if_neg hu, ← h.mMem]
      split
      · rename_i hr
        subst hr
        simp [hu]
      · rfl
  · intro u r' st1 hu ht1
    change (s.tasks.set t ⟨r, .gone⟩)[u]? = some _ at hu
    rw [get_set hk] at hu
    split at hu
    · cases hu
      cases ht1
    · rename_i hne
      have := h.top u r' st1 hu ht1
      show (if r' = r then (s.mutex r).filter (· != t) else s.mutex r').head? = some u
      split
      · rename_i hr
        subst hr
        cases hl : s.mutex r' with
        | nil => rw [hl] at this; cases this
        | cons a l =>
          rw [hl] at this
          cases this
          rw [List.filter_cons_of_pos (by simpa using hne)]
          rfl
      · exact this

/-- One that is not in the line for the mutex need not leave it. -/
theorem unlatch_self {s : St} (h : Inv s) {t : Nat} {r : String} {st : Stage} (hk : s.tasks[t]? = some ⟨r, st⟩)
    (hi : st.inMutex = false) : s.unlatch t r = s := by
  have hno : t ∉ s.mutex r := by
    intro hr
    obtain ⟨st1, h1, h2⟩ := (h.mMem r t).mp hr
    rw [hk] at h1
    cases h1
    rw [hi] at h2
    cases h2
  unfold St.unlatch
  have : (s.mutex r).filter (· != t) = s.mutex r := by
    rw [List.filter_eq_self]
    intro a ha
    simp
    rintro rfl
    exact hno ha
  rw [this]
  have : (fun x => if x = r then s.mutex r else s.mutex x) = s.mutex := by
    funext x
    split
    · rename_i hx; rw [hx]
    · rfl
  rw [this]

theorem inv_learn {s : St} (h : Inv s) (r : String) : Inv (s.learn r) :=
  ⟨h.cNodup, h.cMem, h.hold, h.mNodup, h.mMem, h.top⟩

theorem inv_go {s : St} (h : Inv s) (t : Nat) (ok : Bool) : Inv (s.go t ok) := by
  unfold St.go
  split
  · exact h
  · rename_i r hk
    split
    · rename_i hg
      split
      · exact inv_latch h hk rfl rfl rfl ((granted_iff _ _).mp hg) rfl
      · exact inv_requeue h hk rfl rfl rfl rfl rfl
    · exact h
  · rename_i r hk
    split
    · rename_i hg
      exact inv_goto h hk rfl rfl ((granted_iff _ _).mp hg) (by intro h'; cases h')
    · exact h
  · rename_i r hk
    split
    · exact inv_requeue (inv_learn h r) hk rfl rfl rfl rfl rfl
    · rw [← unlatch_self h hk rfl]
      exact inv_leave h hk
  · rename_i r hk
    split
    · rename_i hg
      split
      · exact inv_latch h hk rfl rfl rfl ((granted_iff _ _).mp hg) rfl
      · rw [← unlatch_self h hk rfl]
        exact inv_leave h hk
    · exact h
  · rename_i r hk
    split
    · rename_i hg
      exact inv_goto h hk rfl rfl (h.hold _ _ hk rfl) (fun _ => hg)
    · exact h
  · rename_i r hk
    exact inv_leave h hk
  · rename_i r hk
    split
    · rename_i hg
      split
      · exact inv_latch h hk rfl rfl rfl ((granted_iff _ _).mp hg) rfl
      · rw [← unlatch_self h hk rfl]
        exact inv_leave h hk
    · exact h
  · rename_i r hk
    split
    · rename_i hg
      exact inv_goto h hk rfl rfl (h.hold _ _ hk rfl) (fun _ => hg)
    · exact h
  · rename_i r hk
    exact inv_leave h hk
  · exact h

theorem inv_step {s : St} (h : Inv s) (a : Act) : Inv (s.step a) := by
  cases a with
  | use r => exact inv_start h r .first false rfl rfl rfl rfl
  | offload r => exact inv_start h r .want true rfl rfl rfl rfl
  | go t ok => exact inv_go h t ok

theorem inv_run {s : St} (h : Inv s) (acts : List Act) : Inv (s.run acts) := by
  induction acts generalizing s with
  | nil => exact h
  | cons a acts ih => exact ih (inv_step h a)

/-! ## Everybody's turn -/

/-- How far a call is from its end. -/
def rankOf (s : St) (t : Nat) : Nat :=
  match s.tasks[t]? with
  | none => 0
  | some k => k.stage.rank

/-- Those in line before a call, in the line in which it stands. -/
def ahead (s : St) (t : Nat) : List Nat :=
  match s.tasks[t]? with
  | some ⟨_, .first⟩ | some ⟨_, .slow⟩ | some ⟨_, .second⟩ | some ⟨_, .want⟩ =>
    (s.cache.takeWhile (fun p => p.1 != t)).map Prod.fst
  | some ⟨r, .queued⟩ | some ⟨r, .latched⟩ => (s.mutex r).takeWhile (· != t)
  | _ => []

/-- What those have to do. -/
def weight (s : St) (t : Nat) : Nat := ((ahead s t).map (rankOf s)).sum

/-- A call that can do its next step. -/
def Enabled (s : St) (t : Nat) : Prop :=
  ∃ r st, s.tasks[t]? = some ⟨r, st⟩ ∧ st ≠ .gone ∧
    (st.holds = false → Granted s.cache t) ∧ (st.inMutex = true → (s.mutex r).head? = some t)

theorem inv_after (f : Nat → Act) (n : Nat) : Inv (St.after f n) := by
  induction n with
  | zero => exact inv_init
  | succ n ih => exact inv_step ih _

/-- What a step of call `t` does to the other calls, and to itself. -/
theorem go_other {s : St} {t u : Nat} (ok : Bool) (hu : u ≠ t) : (s.go t ok).tasks[u]? = s.tasks[u]? := by
  unfold St.go
  have key : ∀ k : Task, (s.tasks.set t k)[u]? = s.tasks[u]? := fun k => List.getElem?_set_ne (fun e => hu e.symm)
  split <;> (try rfl) <;> (repeat' split) <;> first | rfl | exact key _

theorem length_go (s : St) (t : Nat) (ok : Bool) : (s.go t ok).tasks.length = s.tasks.length := by
  unfold St.go
  have key : ∀ k : Task, (s.tasks.set t k).length = s.tasks.length := fun k => List.length_set
  split <;> (try rfl) <;> (repeat' split) <;> first | rfl | exact key _

/-- A step of a call that can do one brings it nearer to its end. -/
theorem go_enabled {s : St} {t : Nat} (ok : Bool) (h : Enabled s t) : rankOf (s.go t ok) t < rankOf s t := by
  obtain ⟨r, st, hk, hne, hg, hm⟩ := h
  have key : ∀ (s' : St) (st' : Stage), s'.tasks = s.tasks → rankOf (s'.goto t r st') t = st'.rank := by
    intro s' st' hs
    unfold rankOf
    have : (s'.goto t r st').tasks[t]? = some ⟨r, st'⟩ := by
      show (s'.tasks.set t ⟨r, st'⟩)[t]? = _
      rw [hs, get_set hk, if_pos rfl]
    rw [this]
  have h0 : rankOf s t = st.rank := by
    unfold rankOf
    rw [hk]
  rw [h0]
  unfold St.go
  rw [hk]
  cases st with
  | gone => exact absurd rfl hne
  | first =>
    dsimp only
    rw [if_pos ((granted_iff _ _).mpr (hg rfl))]
    split
    · refine Nat.lt_of_le_of_lt (Nat.le_of_eq (key _ _ ?_)) ?_ <;> first | rfl | decide
    · refine Nat.lt_of_le_of_lt (Nat.le_of_eq (key _ _ ?_)) ?_ <;> first | rfl | decide
  | slow =>
    dsimp only
    rw [if_pos ((granted_iff _ _).mpr (hg rfl))]
    refine Nat.lt_of_le_of_lt (Nat.le_of_eq (key _ _ ?_)) ?_ <;> first | rfl | decide
  | opening =>
    dsimp only
    split
    · refine Nat.lt_of_le_of_lt (Nat.le_of_eq (key _ _ ?_)) ?_ <;> first | rfl | decide
    · refine Nat.lt_of_le_of_lt (Nat.le_of_eq (key _ _ ?_)) ?_ <;> first | rfl | decide
  | second =>
    dsimp only
    rw [if_pos ((granted_iff _ _).mpr (hg rfl))]
    split
    · refine Nat.lt_of_le_of_lt (Nat.le_of_eq (key _ _ ?_)) ?_ <;> first | rfl | decide
    · refine Nat.lt_of_le_of_lt (Nat.le_of_eq (key _ _ ?_)) ?_ <;> first | rfl | decide
  | queued =>
    dsimp only
    rw [if_pos (hm rfl)]
    refine Nat.lt_of_le_of_lt (Nat.le_of_eq (key _ _ ?_)) ?_ <;> first | rfl | decide
  | busy =>
    dsimp only
    refine Nat.lt_of_le_of_lt (Nat.le_of_eq (key _ _ ?_)) ?_ <;> first | rfl | decide
  | want =>
    dsimp only
    rw [if_pos ((granted_iff _ _).mpr (hg rfl))]
    split
    · refine Nat.lt_of_le_of_lt (Nat.le_of_eq (key _ _ ?_)) ?_ <;> first | rfl | decide
    · refine Nat.lt_of_le_of_lt (Nat.le_of_eq (key _ _ ?_)) ?_ <;> first | rfl | decide
  | latched =>
    dsimp only
    rw [if_pos (hm rfl)]
    refine Nat.lt_of_le_of_lt (Nat.le_of_eq (key _ _ ?_)) ?_ <;> first | rfl | decide
  | moving =>
    dsimp only
    refine Nat.lt_of_le_of_lt (Nat.le_of_eq (key _ _ ?_)) ?_ <;> first | rfl | decide

/-- A step of a call that cannot do one does nothing. -/
theorem go_disabled {s : St} {t : Nat} (ok : Bool) (hi : Inv s) (h : ¬ Enabled s t) : s.go t ok = s := by
  unfold St.go
  split
  · rfl
  all_goals (try rfl)
  all_goals rename_i r hk
  · rw [if_neg]
    intro hg
    exact h ⟨r, _, hk, by decide, fun _ => (granted_iff _ _).mp hg, fun e => by cases e⟩
  · rw [if_neg]
    intro hg
    exact h ⟨r, _, hk, by decide, fun _ => (granted_iff _ _).mp hg, fun e => by cases e⟩
  · exact absurd ⟨r, _, hk, by decide, fun e => (by cases e), fun e => (by cases e)⟩ h
  · rw [if_neg]
    intro hg
    exact h ⟨r, _, hk, by decide, fun _ => (granted_iff _ _).mp hg, fun e => by cases e⟩
  · rw [if_neg]
    intro hg
    exact h ⟨r, _, hk, by decide, fun e => (by cases e), fun _ => hg⟩
  · exact absurd ⟨r, _, hk, by decide, fun e => (by cases e), fun _ => hi.top _ _ _ hk rfl⟩ h
  · rw [if_neg]
    intro hg
    exact h ⟨r, _, hk, by decide, fun _ => (granted_iff _ _).mp hg, fun e => by cases e⟩
  · rw [if_neg]
    intro hg
    exact h ⟨r, _, hk, by decide, fun e => (by cases e), fun _ => hg⟩
  · exact absurd ⟨r, _, hk, by decide, fun e => (by cases e), fun _ => hi.top _ _ _ hk rfl⟩ h

/-- The lines after a step of call `v`: at most `v` is gone from its place, and perhaps stands at the end. -/
theorem cache_go (s : St) (v : Nat) (ok : Bool) :
    ∃ x : List (Nat × Bool), (s.go v ok).cache = s.cache ++ x ∨
      (s.go v ok).cache = s.cache.filter (fun p => p.1 != v) ++ x := by
  have h0 : ∀ s' : St, s'.cache = s.cache → ∃ x : List (Nat × Bool), s'.cache = s.cache ++ x ∨
      s'.cache = s.cache.filter (fun p => p.1 != v) ++ x := fun s' hs => ⟨[], .inl (by rw [hs]; simp)⟩
  have h1 : ∀ s' : St, s'.cache = s.cache.filter (fun p => p.1 != v) → ∃ x : List (Nat × Bool),
      s'.cache = s.cache ++ x ∨ s'.cache = s.cache.filter (fun p => p.1 != v) ++ x :=
    fun s' hs => ⟨[], .inr (by rw [hs]; simp)⟩
  have h2 : ∀ (s' : St) (w : Bool), s'.cache = s.cache.filter (fun p => p.1 != v) ++ [(v, w)] →
      ∃ x : List (Nat × Bool), s'.cache = s.cache ++ x ∨ s'.cache = s.cache.filter (fun p => p.1 != v) ++ x :=
    fun s' w hs => ⟨[(v, w)], .inr hs⟩
  unfold St.go
  split <;> (repeat' split) <;> first | exact h0 _ rfl | exact h1 _ rfl | exact h2 _ true rfl | exact h2 _ false rfl

theorem mutex_go (s : St) (v : Nat) (ok : Bool) (r : String) :
    ∃ x : List Nat, (s.go v ok).mutex r = s.mutex r ++ x ∨
      (s.go v ok).mutex r = (s.mutex r).filter (· != v) ++ x := by
  have hl : ∀ (r' : String) (s' : St), s'.mutex = s.mutex → ∃ x : List Nat, (s'.latch v r').mutex r = s.mutex r ++ x ∨
      (s'.latch v r').mutex r = (s.mutex r).filter (· != v) ++ x := by
    intro r' s' hs
    unfold St.latch
    dsimp only
    split
    · rename_i hr
      exact ⟨[v], .inl (by rw [hs, hr])⟩
    · exact ⟨[], .inl (by rw [hs]; simp)⟩
  have hu : ∀ (r' : String) (s' : St), s'.mutex = s.mutex → ∃ x : List Nat, (s'.unlatch v r').mutex r = s.mutex r ++ x ∨
      (s'.unlatch v r').mutex r = (s.mutex r).filter (· != v) ++ x := by
    intro r' s' hs
    unfold St.unlatch
    dsimp only
    split
    · rename_i hr
      exact ⟨[], .inr (by rw [hs, hr]; simp)⟩
    · exact ⟨[], .inl (by rw [hs]; simp)⟩
  have h0 : ∀ s' : St, s'.mutex = s.mutex → ∃ x : List Nat, s'.mutex r = s.mutex r ++ x ∨
      s'.mutex r = (s.mutex r).filter (· != v) ++ x := fun s' hs => ⟨[], .inl (by rw [hs]; simp)⟩
  unfold St.go
  split <;> (repeat' split) <;> first | exact h0 _ rfl | exact hl _ s rfl | exact hu _ s rfl

/-- What is before `t` in a line, after others left it or went to its end. -/
theorem before_stays {α : Type} (p q : α → Bool) (l x : List α) (hin : ∃ a ∈ l, p a = false)
    (hq : ∀ a, p a = false → q a = true) :
    (l ++ x).takeWhile p = l.takeWhile p ∧ (l.filter q ++ x).takeWhile p = (l.takeWhile p).filter q := by
  induction l with
  | nil => obtain ⟨a, ha, _⟩ := hin; cases ha
  | cons a l ih =>
    cases hp : p a with
    | false =>
      constructor
      · simp [hp]
      · rw [List.filter_cons_of_pos (hq a hp)]
        simp [hp]
    | true =>
      have hin' : ∃ a ∈ l, p a = false := by
        obtain ⟨b, hb, hpb⟩ := hin
        rcases List.mem_cons.mp hb with rfl | hb
        · rw [hp] at hpb; cases hpb
        · exact ⟨b, hb, hpb⟩
      obtain ⟨h1, h2⟩ := ih hin'
      constructor
      · simp [hp, h1]
      · cases hqa : q a with
        | true =>
          rw [List.filter_cons_of_pos hqa, List.cons_append, List.takeWhile_cons, hp, List.takeWhile_cons, hp]
          simp [h2, hqa]
        | false =>
          rw [List.filter_cons_of_neg (by simp [hqa]), List.takeWhile_cons, hp]
          simp [h2, hqa]

theorem map_filter_fst (l : List (Nat × Bool)) (v : Nat) :
    (l.filter (fun p => p.1 != v)).map Prod.fst = (l.map Prod.fst).filter (· != v) := by
  rw [List.filter_map]
  rfl

/-- Those before `t`, after a step of somebody else. -/
theorem ahead_step {s : St} (h : Inv s) {t : Nat} {k : Task} (hk : s.tasks[t]? = some k) {a : Act}
    (ha : ∀ ok, a ≠ .go t ok) : (s.step a).tasks[t]? = some k ∧
    (ahead (s.step a) t = ahead s t ∨
      ∃ v ok, a = .go v ok ∧ ahead (s.step a) t = (ahead s t).filter (· != v)) := by
  have hlt : t < s.tasks.length := (List.getElem?_eq_some_iff.mp hk).1
  have hcin : ∀ w, k.stage.mode = some w → ∃ p ∈ s.cache, (p.1 != t) = false := fun w hw =>
    ⟨(t, w), (h.cMem t w).mpr ⟨k, hk, hw⟩, by simp⟩
  have hmin : k.stage.inMutex = true → ∃ u ∈ s.mutex k.run, (u != t) = false := fun hw =>
    ⟨t, (h.mMem k.run t).mpr ⟨k.stage, hk, hw⟩, by simp⟩
  cases a with
  | go v ok =>
    have hvt : v ≠ t := fun e => ha ok (by rw [e])
    have hk' : (s.go v ok).tasks[t]? = some k := (go_other ok (fun e => hvt e.symm)).trans hk
    refine ⟨hk', ?_⟩
    show ahead (s.go v ok) t = _ ∨ ∃ v' ok', _ ∧ ahead (s.go v ok) t = _
    have hc : ∀ w, k.stage.mode = some w →
        ((s.go v ok).cache.takeWhile (fun p => p.1 != t)).map Prod.fst =
            (s.cache.takeWhile (fun p => p.1 != t)).map Prod.fst ∨
        ((s.go v ok).cache.takeWhile (fun p => p.1 != t)).map Prod.fst =
            ((s.cache.takeWhile (fun p => p.1 != t)).map Prod.fst).filter (· != v) := by
      intro w hw
      obtain ⟨x, hx⟩ := cache_go s v ok
      obtain ⟨b1, b2⟩ := before_stays (fun p : Nat × Bool => p.1 != t) (fun p => p.1 != v) s.cache x (hcin w hw)
        (by intro a ha; simp at ha ⊢; rw [ha]; exact fun e => hvt e.symm)
      rcases hx with hx | hx
      · left; rw [hx, b1]
      · right; rw [hx, b2, map_filter_fst]
    have hm : k.stage.inMutex = true →
        ((s.go v ok).mutex k.run).takeWhile (· != t) = (s.mutex k.run).takeWhile (· != t) ∨
        ((s.go v ok).mutex k.run).takeWhile (· != t) = ((s.mutex k.run).takeWhile (· != t)).filter (· != v) := by
      intro hw
      obtain ⟨x, hx⟩ := mutex_go s v ok k.run
      obtain ⟨b1, b2⟩ := before_stays (fun p : Nat => p != t) (fun p => p != v) (s.mutex k.run) x (hmin hw)
        (by intro a ha; simp at ha ⊢; rw [ha]; exact fun e => hvt e.symm)
      rcases hx with hx | hx
      · left; rw [hx, b1]
      · right; rw [hx, b2]
    obtain ⟨r, st⟩ := k
    unfold ahead
    rw [hk', hk]
    cases st <;> dsimp only
    · exact (hc false rfl).imp id (fun e => ⟨v, ok, rfl, e⟩)
    · exact (hc true rfl).imp id (fun e => ⟨v, ok, rfl, e⟩)
    · exact .inl rfl
    · exact (hc false rfl).imp id (fun e => ⟨v, ok, rfl, e⟩)
    · exact (hm rfl).imp id (fun e => ⟨v, ok, rfl, e⟩)
    · exact .inl rfl
    · exact (hc true rfl).imp id (fun e => ⟨v, ok, rfl, e⟩)
    · exact (hm rfl).imp id (fun e => ⟨v, ok, rfl, e⟩)
    · exact .inl rfl
    · exact .inl rfl
  | use r' =>
    have hk' : (s.step (.use r')).tasks[t]? = some k := by
      show (s.tasks ++ [_])[t]? = _
      rw [List.getElem?_append_left hlt, hk]
    refine ⟨hk', .inl ?_⟩
    have hc : ∀ w, k.stage.mode = some w → (s.step (.use r')).cache.takeWhile (fun p => p.1 != t) =
        s.cache.takeWhile (fun p => p.1 != t) := fun w hw =>
      (before_stays _ (fun _ => true) s.cache _ (hcin w hw) (fun _ _ => rfl)).1
    obtain ⟨r, st⟩ := k
    unfold ahead
    rw [hk', hk]
    cases st <;> dsimp only <;> first | rfl | rw [hc _ rfl]
  | offload r' =>
    have hk' : (s.step (.offload r')).tasks[t]? = some k := by
      show (s.tasks ++ [_])[t]? = _
      rw [List.getElem?_append_left hlt, hk]
    refine ⟨hk', .inl ?_⟩
    have hc : ∀ w, k.stage.mode = some w → (s.step (.offload r')).cache.takeWhile (fun p => p.1 != t) =
        s.cache.takeWhile (fun p => p.1 != t) := fun w hw =>
      (before_stays _ (fun _ => true) s.cache _ (hcin w hw) (fun _ _ => rfl)).1
    obtain ⟨r, st⟩ := k
    unfold ahead
    rw [hk', hk]
    cases st <;> dsimp only <;> first | rfl | rw [hc _ rfl]

theorem sum_sublist {l' l : List Nat} (h : l'.Sublist l) (g : Nat → Nat) : (l'.map g).sum ≤ (l.map g).sum := by
  induction h with
  | slnil => simp
  | cons a _ ih => simp; omega
  | cons_cons a _ ih => simp; omega

theorem sum_le {l : List Nat} {g' g : Nat → Nat} (h : ∀ u ∈ l, g' u ≤ g u) : (l.map g').sum ≤ (l.map g).sum := by
  induction l with
  | nil => simp
  | cons a l ih =>
    have h1 := h a List.mem_cons_self
    have h2 := ih (fun u hu => h u (List.mem_cons_of_mem _ hu))
    simp; omega

theorem sum_lt {l : List Nat} {g' g : Nat → Nat} (h : ∀ u ∈ l, g' u ≤ g u) {v : Nat} (hv : v ∈ l) (hlt : g' v < g v) :
    (l.map g').sum < (l.map g).sum := by
  induction l with
  | nil => cases hv
  | cons a l ih =>
    have h1 := h a List.mem_cons_self
    have h2 := sum_le (fun u hu => h u (List.mem_cons_of_mem a hu))
    rcases List.mem_cons.mp hv with rfl | hv
    · simp; omega
    · have := ih (fun u hu => h u (List.mem_cons_of_mem _ hu)) hv
      simp; omega

/-- Nobody goes back. -/
theorem rank_step {s : St} (h : Inv s) (a : Act) {u : Nat} (hu : u < s.tasks.length) :
    rankOf (s.step a) u ≤ rankOf s u := by
  cases a with
  | go v ok =>
    show rankOf (s.go v ok) u ≤ _
    by_cases huv : u = v
    · subst huv
      by_cases he : Enabled s u
      · exact Nat.le_of_lt (go_enabled ok he)
      · rw [go_disabled ok h he]
        exact Nat.le_refl _
    · unfold rankOf
      rw [go_other ok huv]
      exact Nat.le_refl _
  | use r =>
    unfold rankOf
    rw [show (s.step (.use r)).tasks[u]? = s.tasks[u]? from List.getElem?_append_left hu]
    exact Nat.le_refl _
  | offload r =>
    unfold rankOf
    rw [show (s.step (.offload r)).tasks[u]? = s.tasks[u]? from List.getElem?_append_left hu]
    exact Nat.le_refl _

theorem length_step (s : St) (a : Act) : s.tasks.length ≤ (s.step a).tasks.length := by
  cases a with
  | go v ok => exact Nat.le_of_eq (length_go s v ok).symm
  | use r => simp [St.step]
  | offload r => simp [St.step]

/-- Those in line are calls. -/
theorem ahead_lt {s : St} (h : Inv s) {t u : Nat} (hu : u ∈ ahead s t) : u < s.tasks.length := by
  have hc : u ∈ (s.cache.takeWhile (fun p => p.1 != t)).map Prod.fst → u < s.tasks.length := by
    intro hm
    obtain ⟨p, hp, he⟩ := List.mem_map.mp hm
    obtain ⟨k, hk, _⟩ := (h.cMem p.1 p.2).mp ((List.takeWhile_sublist _).subset hp)
    rw [he] at hk
    exact (List.getElem?_eq_some_iff.mp hk).1
  have hm : ∀ r, u ∈ (s.mutex r).takeWhile (· != t) → u < s.tasks.length := by
    intro r hm
    obtain ⟨st, hk, _⟩ := (h.mMem r u).mp ((List.takeWhile_sublist _).subset hm)
    exact (List.getElem?_eq_some_iff.mp hk).1
  unfold ahead at hu
  split at hu <;> first | exact hc hu | exact hm _ hu | cases hu

/-- Nearer to the end of `t`. -/
def Less (s' s : St) (t : Nat) : Prop :=
  rankOf s' t < rankOf s t ∨ (rankOf s' t = rankOf s t ∧ weight s' t < weight s t)

/-- Not farther from the end of `t`. -/
def Leq (s' s : St) (t : Nat) : Prop :=
  rankOf s' t < rankOf s t ∨ (rankOf s' t = rankOf s t ∧ weight s' t ≤ weight s t)

theorem Less.trans {s'' s' s : St} {t : Nat} (h : Less s'' s' t) (h' : Leq s' s t) : Less s'' s t := by
  unfold Less Leq at *
  omega

theorem step_leq {s : St} (h : Inv s) {t : Nat} (ht : t < s.tasks.length) (a : Act) : Leq (s.step a) s t := by
  by_cases ha : ∃ ok, a = .go t ok
  · obtain ⟨ok, rfl⟩ := ha
    by_cases he : Enabled s t
    · exact .inl (go_enabled ok he)
    · rw [show s.step (.go t ok) = s from go_disabled ok h he]
      exact .inr ⟨rfl, Nat.le_refl _⟩
  · obtain ⟨k, hk⟩ : ∃ k, s.tasks[t]? = some k := ⟨_, List.getElem?_eq_getElem ht⟩
    obtain ⟨hk', hahead⟩ := ahead_step h hk (fun ok e => ha ⟨ok, e⟩)
    right
    refine ⟨by unfold rankOf; rw [hk', hk], ?_⟩
    have hsub : (ahead (s.step a) t).Sublist (ahead s t) := by
      rcases hahead with e | ⟨v, _, _, e⟩
      · rw [e]; exact List.Sublist.refl _
      · rw [e]; exact List.filter_sublist
    exact Nat.le_trans (sum_sublist hsub _) (sum_le (fun u hu => rank_step h a (ahead_lt h hu)))

/-- Call `b` can go on and has to before `t` can. -/
def Blocks (s : St) (b t : Nat) : Prop := (b = t ∨ b ∈ ahead s t) ∧ Enabled s b

theorem step_less {s : St} (h : Inv s) {b t : Nat} (ht : t < s.tasks.length) (hb : Blocks s b t) (ok : Bool) :
    Less (s.step (.go b ok)) s t := by
  by_cases hbt : b = t
  · subst hbt
    exact .inl (go_enabled ok hb.2)
  · have hin := hb.1.resolve_left hbt
    obtain ⟨k, hk⟩ : ∃ k, s.tasks[t]? = some k := ⟨_, List.getElem?_eq_getElem ht⟩
    obtain ⟨hk', hahead⟩ := ahead_step h hk (a := .go b ok) (fun ok' e => hbt (by cases e; rfl))
    right
    refine ⟨by unfold rankOf; rw [hk', hk], ?_⟩
    have hsub : (ahead (s.step (.go b ok)) t).Sublist (ahead s t) := by
      rcases hahead with e | ⟨v, _, _, e⟩
      · rw [e]; exact List.Sublist.refl _
      · rw [e]; exact List.filter_sublist
    exact Nat.lt_of_le_of_lt (sum_sublist hsub _)
      (sum_lt (fun u hu => rank_step h _ (ahead_lt h hu)) hin (go_enabled ok hb.2))

/-- One that can go on can go on until it does. -/
theorem enabled_step {s : St} {b : Nat} (h : Enabled s b) {a : Act} (ha : ∀ ok, a ≠ .go b ok) :
    Enabled (s.step a) b := by
  obtain ⟨r, st, hk, hne, hg, hm⟩ := h
  have hlt : b < s.tasks.length := (List.getElem?_eq_some_iff.mp hk).1
  cases a with
  | go v ok =>
    have hbv : b ≠ v := fun e => ha ok (by rw [e])
    refine ⟨r, st, (go_other ok hbv).trans hk, hne, ?_, ?_⟩
    · intro hh
      obtain ⟨x, hx⟩ := cache_go s v ok
      show Granted (s.go v ok).cache b
      rcases hx with hx | hx
      · rw [hx]; exact (hg hh).append _
      · rw [hx]; exact ((hg hh).filter hbv).append _
    · intro hh
      obtain ⟨x, hx⟩ := mutex_go s v ok r
      show ((s.go v ok).mutex r).head? = some b
      have h0 := hm hh
      rcases hx with hx | hx
      · rw [hx, List.head?_append, h0]; rfl
      · rw [hx]
        cases hl : s.mutex r with
        | nil => rw [hl] at h0; cases h0
        | cons c l =>
          rw [hl] at h0
          cases h0
          rw [List.filter_cons_of_pos (by simpa using hbv)]
          rfl
  | use r' =>
    exact ⟨r, st, (List.getElem?_append_left hlt).trans hk, hne, fun hh => (hg hh).append _, hm⟩
  | offload r' =>
    exact ⟨r, st, (List.getElem?_append_left hlt).trans hk, hne, fun hh => (hg hh).append _, hm⟩

theorem blocks_step {s : St} (h : Inv s) {b t : Nat} (ht : t < s.tasks.length) (hb : Blocks s b t) {a : Act}
    (ha : ∀ ok, a ≠ .go b ok) (hat : ∀ ok, a ≠ .go t ok) : Blocks (s.step a) b t := by
  refine ⟨?_, enabled_step hb.2 ha⟩
  rcases hb.1 with e | hin
  · exact .inl e
  · right
    obtain ⟨k, hk⟩ : ∃ k, s.tasks[t]? = some k := ⟨_, List.getElem?_eq_getElem ht⟩
    obtain ⟨_, hahead⟩ := ahead_step h hk hat
    rcases hahead with e | ⟨v, ok, e', e⟩
    · rw [e]; exact hin
    · rw [e, List.mem_filter]
      refine ⟨hin, ?_⟩
      simp
      rintro rfl
      exact ha ok e'

theorem length_after (f : Nat → Act) (n d : Nat) : (St.after f n).tasks.length ≤ (St.after f (n + d)).tasks.length := by
  induction d with
  | zero => exact Nat.le_refl _
  | succ d ih => exact Nat.le_trans ih (length_step _ _)

/-- When the one that blocks goes on, `t` is nearer to its end. -/
theorem nearer (f : Nat → Act) {t b : Nat} {ok : Bool} (d : Nat) : ∀ m, t < (St.after f m).tasks.length →
    Blocks (St.after f m) b t → f (m + d) = .go b ok → ∃ m', m ≤ m' ∧ Less (St.after f m') (St.after f m) t := by
  induction d with
  | zero =>
    intro m ht hb hf
    refine ⟨m + 1, by omega, ?_⟩
    show Less ((St.after f m).step (f m)) _ t
    rw [show f m = .go b ok from hf]
    exact step_less (inv_after f m) ht hb ok
  | succ d ih =>
    intro m ht hb hf
    have hi := inv_after f m
    by_cases h1 : ∃ ok, f m = .go b ok
    · obtain ⟨ok', h1⟩ := h1
      refine ⟨m + 1, by omega, ?_⟩
      show Less ((St.after f m).step (f m)) _ t
      rw [h1]
      exact step_less hi ht hb ok'
    · have hnext : Blocks (St.after f (m + 1)) b t ∨ Less (St.after f (m + 1)) (St.after f m) t := by
        show Blocks ((St.after f m).step (f m)) b t ∨ Less ((St.after f m).step (f m)) _ t
        by_cases h2 : ∃ ok, f m = .go t ok
        · obtain ⟨ok', h2⟩ := h2
          rw [h2]
          by_cases he : Enabled (St.after f m) t
          · exact .inr (.inl (go_enabled ok' he))
          · rw [show (St.after f m).step (.go t ok') = St.after f m from go_disabled ok' hi he]
            exact .inl hb
        · exact .inl (blocks_step hi ht hb (fun ok e => h1 ⟨ok, e⟩) (fun ok e => h2 ⟨ok, e⟩))
      rcases hnext with hn | hn
      · obtain ⟨m', hm, hl⟩ := ih (m + 1) (Nat.lt_of_lt_of_le ht (length_step _ _)) hn
          (by rw [show m + 1 + d = m + (d + 1) from by omega]; exact hf)
        exact ⟨m', by omega, hl.trans (step_leq hi ht _)⟩
      · exact ⟨m + 1, by omega, hn⟩

theorem returned_iff {s : St} {t : Nat} (ht : t < s.tasks.length) : Spec.FileLocks.Returned s t ↔ rankOf s t = 0 := by
  obtain ⟨⟨r, st⟩, hk⟩ : ∃ k, s.tasks[t]? = some k := ⟨_, List.getElem?_eq_getElem ht⟩
  unfold Spec.FileLocks.Returned rankOf
  rw [hk]
  constructor
  · rintro ⟨r', h⟩
    cases h
    rfl
  · intro h
    cases st <;> first | exact ⟨r, rfl⟩ | cases h

/-- If the one that blocks `t` always goes on sooner or later, then `t` returns. -/
theorem returns (f : Nat → Act) {n t : Nat} (ht : t < (St.after f n).tasks.length)
    (hb : ∀ m, n ≤ m → ¬ Spec.FileLocks.Returned (St.after f m) t →
      ∃ b m', Blocks (St.after f m) b t ∧ m ≤ m' ∧ ∃ ok, f m' = .go b ok) :
    ∃ m, n ≤ m ∧ Spec.FileLocks.Returned (St.after f m) t := by
  have key : ∀ x y m, n ≤ m → rankOf (St.after f m) t = x → weight (St.after f m) t = y →
      ∃ m', n ≤ m' ∧ Spec.FileLocks.Returned (St.after f m') t := by
    intro x
    induction x using Nat.strongRecOn with
    | _ x ihx =>
      intro y
      induction y using Nat.strongRecOn with
      | _ y ihy =>
        intro m hm hx hy
        have htm : t < (St.after f m).tasks.length := by
          have := length_after f n (m - n)
          rw [show n + (m - n) = m from by omega] at this
          omega
        by_cases hr : Spec.FileLocks.Returned (St.after f m) t
        · exact ⟨m, hm, hr⟩
        · obtain ⟨b, m', hbl, hmm, ok, hf⟩ := hb m hm hr
          obtain ⟨m'', hm'', hl⟩ := nearer f (m' - m) m htm hbl
            (by rw [show m + (m' - m) = m' from by omega]; exact hf)
          rcases hl with hl | ⟨he, hl⟩
          · exact ihx _ (by omega) _ m'' (by omega) rfl rfl
          · exact ihy _ (by omega) m'' (by omega) (by omega) rfl
  exact key _ _ n (Nat.le_refl n) rfl rfl

/-- One that has access is before one that has none. -/
theorem granted_before {q : List (Nat × Bool)} {t u : Nat} (hu : Granted q u) (ht : ¬ Granted q t) :
    u ∈ (q.takeWhile (fun p => p.1 != t)).map Prod.fst := by
  obtain ⟨pre, w, post, rfl, h1, h2⟩ := hu
  have hut : u ≠ t := by
    rintro rfl
    exact ht ⟨pre, w, post, rfl, h1, h2⟩
  have hpre : ∀ p ∈ pre, (p.1 != t) = true := by
    intro p hp
    simp
    rintro rfl
    obtain ⟨a, b, rfl⟩ := List.append_of_mem hp
    have hp2 : p.2 = false := h1 p (by simp)
    refine ht ⟨a, p.2, b ++ (u, w) :: post, by simp, fun x hx => h1 x (by simp [hx]), ?_⟩
    intro e
    rw [hp2] at e
    cases e
  rw [List.takeWhile_append_of_pos hpre, List.takeWhile_cons]
  simp [hut]

/-- Somebody can go on and has to. -/
theorem blocked {s : St} (h : Inv s) {t : Nat} {r : String} {st : Stage} (hk : s.tasks[t]? = some ⟨r, st⟩)
    (hne : st ≠ .gone) : ∃ b, Blocks s b t := by
  -- the holder of a mutex can go on
  have hmutex : ∀ (u : Nat) (r' : String), (s.mutex r').head? = some u → Enabled s u ∧ Granted s.cache u := by
    intro u r' hu
    have hmem : u ∈ s.mutex r' := List.mem_of_head? hu
    obtain ⟨st', hk', hi'⟩ := (h.mMem r' u).mp hmem
    have hholds : st'.holds = true := by cases st' <;> first | rfl | cases hi'
    exact ⟨⟨r', st', hk', fun e => (by subst e; cases hi'), fun e => (by rw [hholds] at e; cases e), fun _ => hu⟩,
      h.hold u _ hk' hholds⟩
  by_cases hin : st.inMutex = true
  · have hmem : t ∈ s.mutex r := (h.mMem r t).mpr ⟨st, hk, hin⟩
    cases hl : s.mutex r with
    | nil => rw [hl] at hmem; cases hmem
    | cons u l =>
      have hhead : (s.mutex r).head? = some u := by rw [hl]; rfl
      have hen := (hmutex u r hhead).1
      by_cases hut : u = t
      · exact ⟨u, .inl hut, hen⟩
      · refine ⟨u, .inr ?_, hen⟩
        have htop : st.top = false := by
          cases ht : st.top with
          | false => rfl
          | true =>
            have := h.top t r st hk ht
            rw [hhead] at this
            cases this
            exact absurd rfl hut
        unfold ahead
        rw [hk]
        have hmm : u ∈ (s.mutex r).takeWhile (· != t) := by
          rw [hl, List.takeWhile_cons]
          simp [hut]
        cases st <;> first | exact hmm | exact absurd hin (by decide) | exact absurd htop (by decide)
  · have hin' : st.inMutex = false := by simpa using hin
    by_cases hh : st.holds = true
    · exact ⟨t, .inl rfl, r, st, hk, hne, fun e => (by rw [hh] at e; cases e), fun e => absurd e hin⟩
    · by_cases hg : Granted s.cache t
      · exact ⟨t, .inl rfl, r, st, hk, hne, fun _ => hg, fun e => absurd e hin⟩
      · have hahead : ahead s t = (s.cache.takeWhile (fun p => p.1 != t)).map Prod.fst := by
          unfold ahead
          rw [hk]
          cases st <;> first | rfl | exact absurd rfl hh | exact absurd rfl hne
        obtain ⟨w, hw⟩ : ∃ w, st.mode = some w := by
          cases st <;> first | exact ⟨_, rfl⟩ | exact absurd rfl hne
        have hmem : (t, w) ∈ s.cache := (h.cMem t w).mpr ⟨_, hk, hw⟩
        cases hl : s.cache with
        | nil => rw [hl] at hmem; cases hmem
        | cons p l =>
          have hgp : Granted s.cache p.1 := by rw [hl]; exact granted_head l
          have hpin : (p.1, p.2) ∈ s.cache := by rw [hl]; exact List.mem_cons_self
          obtain ⟨⟨rp, sp⟩, hkp, hmp⟩ := (h.cMem p.1 p.2).mp hpin
          by_cases hpm : sp.inMutex = true
          · have hmem' : p.1 ∈ s.mutex rp := (h.mMem rp p.1).mpr ⟨sp, hkp, hpm⟩
            cases hl' : s.mutex rp with
            | nil => rw [hl'] at hmem'; cases hmem'
            | cons u l' =>
              obtain ⟨hen, hgu⟩ := hmutex u rp (by rw [hl']; rfl)
              exact ⟨u, .inr (by rw [hahead]; exact granted_before hgu hg), hen⟩
          · refine ⟨p.1, .inr (by rw [hahead]; exact granted_before hgp hg), rp, sp, hkp, ?_, fun _ => hgp,
              fun e => absurd e hpm⟩
            rintro rfl
            cases hmp

/-! ## When somebody stops -/

/-- One that has somebody before it has access only if both only read. -/
theorem granted_reads {q : List (Nat × Bool)} {t u : Nat} (h : Granted q t)
    (hu : u ∈ (q.takeWhile (fun p => p.1 != t)).map Prod.fst) : (u, false) ∈ q ∧ (t, false) ∈ q := by
  obtain ⟨pre, w, post, rfl, h1, h2⟩ := h
  obtain ⟨p, hp, rfl⟩ := List.mem_map.mp hu
  have hpre : p ∈ pre := by
    by_cases hall : ∀ x ∈ pre, (x.1 != t) = true
    · rw [List.takeWhile_append_of_pos hall, List.takeWhile_cons] at hp
      simpa using hp
    · have hx : ∃ x ∈ pre, (x.1 != t) = false := by
        apply Classical.byContradiction
        intro hn
        exact hall (fun x hx => by
          cases hc : (x.1 != t) with
          | true => rfl
          | false => exact absurd ⟨x, hx, hc⟩ hn)
      rw [(before_stays (fun p : Nat × Bool => p.1 != t) (fun p => p.1 == t) pre _ hx (by simp)).1] at hp
      exact (List.takeWhile_sublist _).subset hp
  have hw : w = false := by
    cases w with
    | false => rfl
    | true => rw [h2 rfl] at hpre; cases hpre
  subst hw
  refine ⟨?_, by simp⟩
  have := h1 p hpre
  obtain ⟨a, b⟩ := p
  cases this
  simp [hpre]

/-- `t` waits for the cache. -/
def Waiting (st : Stage) : Prop := st = .first ∨ st = .slow ∨ st = .second ∨ st = .want

theorem ahead_waiting {s : St} {t : Nat} {r : String} {st : Stage} (hk : s.tasks[t]? = some ⟨r, st⟩) (hw : Waiting st) :
    ahead s t = (s.cache.takeWhile (fun p => p.1 != t)).map Prod.fst := by
  unfold ahead
  rw [hk]
  rcases hw with rfl | rfl | rfl | rfl <;> rfl

/-- A call behind one that is not to share with it cannot go on. -/
theorem stuck_behind {s : St} (h : Inv s) {t u : Nat} {r r' : String} {st su : Stage} (hk : s.tasks[t]? = some ⟨r, st⟩)
    (hw : Waiting st) (hu : s.tasks[u]? = some ⟨r', su⟩) (hin : u ∈ ahead s t)
    (hmode : su.mode = some true ∨ st.mode = some true) : ¬ Enabled s t := by
  rintro ⟨r1, st1, hk1, _, hg, _⟩
  rw [hk] at hk1
  cases hk1
  have hh : st.holds = false := by rcases hw with rfl | rfl | rfl | rfl <;> rfl
  rw [ahead_waiting hk hw] at hin
  obtain ⟨h1, h2⟩ := granted_reads (hg hh) hin
  obtain ⟨k1, hk1, hm1⟩ := (h.cMem _ _).mp h1
  obtain ⟨k2, hk2, hm2⟩ := (h.cMem _ _).mp h2
  rw [hu] at hk1
  rw [hk] at hk2
  cases hk1
  cases hk2
  rcases hmode with e | e
  · rw [show (⟨r', su⟩ : Task).stage.mode = su.mode from rfl, e] at hm1; cases hm1
  · rw [show (⟨r, st⟩ : Task).stage.mode = st.mode from rfl, e] at hm2; cases hm2

/-- What stays as it is once somebody is stuck. -/
structure Frozen (s : St) (stalled u N : Nat) (ks ku : Task) : Prop where
  st : s.tasks[stalled]? = some ks
  wait : s.tasks[u]? = some ku
  before : stalled ∈ ahead s u
  late : ∀ t, N ≤ t → t < s.tasks.length → ∃ r st, s.tasks[t]? = some ⟨r, st⟩ ∧ Waiting st ∧ u ∈ ahead s t

theorem Frozen.step {s : St} (hi : Inv s) {stalled u N : Nat} {ks ku : Task} (h : Frozen s stalled u N ks ku)
    (hku : ku.stage = .slow ∨ ku.stage = .want) (hN : u < N) {a : Act} (ha : ∀ ok, a ≠ .go stalled ok) :
    Frozen (s.step a) stalled u N ks ku := by
  obtain ⟨ru, su⟩ := ku
  obtain ⟨rs, ss⟩ := ks
  have hwu : Waiting su := by
    rcases hku with e | e <;> cases e <;> simp [Waiting]
  have hmu : su.mode = some true := by
    rcases hku with e | e <;> cases e <;> rfl
  have hnu : ¬ Enabled s u := stuck_behind hi h.wait hwu h.st h.before (.inr hmu)
  by_cases hau : ∃ ok, a = .go u ok
  · obtain ⟨ok, rfl⟩ := hau
    rw [show s.step (.go u ok) = s from go_disabled ok hi hnu]
    exact h
  have hau' : ∀ ok, a ≠ .go u ok := fun ok e => hau ⟨ok, e⟩
  obtain ⟨h1, h2⟩ := ahead_step hi h.wait hau'
  refine ⟨(ahead_step hi h.st ha).1, h1, ?_, ?_⟩
  · rcases h2 with e | ⟨v, ok, e', e⟩
    · rw [e]; exact h.before
    · rw [e, List.mem_filter]
      refine ⟨h.before, ?_⟩
      simp
      rintro rfl
      exact ha ok e'
  · intro t hNt ht
    by_cases hold : t < s.tasks.length
    · obtain ⟨r, st, hk, hw, hin⟩ := h.late t hNt hold
      by_cases hat : ∃ ok, a = .go t ok
      · obtain ⟨ok, rfl⟩ := hat
        rw [show s.step (.go t ok) = s from go_disabled ok hi (stuck_behind hi hk hw h.wait hin (.inl hmu))]
        exact ⟨r, st, hk, hw, hin⟩
      · obtain ⟨h3, h4⟩ := ahead_step hi hk (fun ok e => hat ⟨ok, e⟩)
        refine ⟨r, st, h3, hw, ?_⟩
        rcases h4 with e | ⟨v, ok, e', e⟩
        · rw [e]; exact hin
        · rw [e, List.mem_filter]
          refine ⟨hin, ?_⟩
          simp
          rintro rfl
          exact hau' ok e'
    · have hnew : ∀ (r : String) (st : Stage) (w : Bool) (s' : St), Waiting st →
          s'.tasks = s.tasks ++ [⟨r, st⟩] → s'.cache = s.cache ++ [(s.tasks.length, w)] → t < s'.tasks.length →
          ∃ r st, s'.tasks[t]? = some ⟨r, st⟩ ∧ Waiting st ∧ u ∈ ahead s' t := by
        intro r st w s' hw ht' hc' hlt
        have hte : t = s.tasks.length := by
          rw [ht'] at hlt
          simp at hlt
          omega
        have hk : s'.tasks[t]? = some ⟨r, st⟩ := by rw [ht', hte]; simp
        refine ⟨r, st, hk, hw, ?_⟩
        rw [ahead_waiting hk hw, hc']
        have hall : ∀ p ∈ s.cache, (p.1 != t) = true := by
          intro p hp
          obtain ⟨k, hk', _⟩ := (hi.cMem p.1 p.2).mp hp
          have := (List.getElem?_eq_some_iff.mp hk').1
          simp
          omega
        rw [List.takeWhile_append_of_pos hall]
        have hu : (u, true) ∈ s.cache := (hi.cMem u true).mpr ⟨_, h.wait, hmu⟩
        exact List.mem_map.mpr ⟨_, List.mem_append_left _ hu, rfl⟩
      cases a with
      | go v ok =>
        rw [show (s.step (.go v ok)).tasks.length = s.tasks.length from length_go s v ok] at ht
        exact absurd ht hold
      | use r => exact hnew r .first false _ (.inl rfl) rfl rfl ht
      | offload r => exact hnew r .want true _ (.inr (.inr (.inr rfl))) rfl rfl ht

/-- A call stays with its run. -/
theorem forRun_step {s : St} {t : Nat} {r : String} (h : Spec.FileLocks.ForRun s t r) (a : Act) :
    Spec.FileLocks.ForRun (s.step a) t r := by
  obtain ⟨st, hk⟩ := h
  have hlt : t < s.tasks.length := (List.getElem?_eq_some_iff.mp hk).1
  cases a with
  | use r' => exact ⟨st, (List.getElem?_append_left hlt).trans hk⟩
  | offload r' => exact ⟨st, (List.getElem?_append_left hlt).trans hk⟩
  | go v ok =>
    by_cases htv : t = v
    · subst htv
      have hset : ∀ st', (s.tasks.set t ⟨r, st'⟩)[t]? = some ⟨r, st'⟩ := fun st' => by
        rw [List.getElem?_set_self hlt]
      show Spec.FileLocks.ForRun (s.go t ok) t r
      have h0 : Spec.FileLocks.ForRun s t r := ⟨st, hk⟩
      have h1 : ∀ s' : St, ∀ st', s'.tasks = s.tasks.set t ⟨r, st'⟩ → Spec.FileLocks.ForRun s' t r :=
        fun s' st' e => ⟨st', by rw [e]; exact hset st'⟩
      unfold St.go
      rw [hk]
      cases st <;> dsimp only <;> (repeat' split) <;> first | exact h0 | exact h1 _ _ rfl
    · exact ⟨st, (go_other ok htv).trans hk⟩

theorem forRun_after (f : Nat → Act) {n m t : Nat} {r : String} (hnm : n ≤ m)
    (h : Spec.FileLocks.ForRun (St.after f n) t r) : Spec.FileLocks.ForRun (St.after f m) t r := by
  induction hnm with
  | refl => exact h
  | step _ ih => exact forRun_step ih _

end Abq.FileLocks
