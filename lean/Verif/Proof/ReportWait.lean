import Verif.Spec.ReportWait
import Verif.Props.Fetch
/-! # Lemmas about how long a report waits -/

namespace Abq.ReportWait
open Fetch Abq.Spec.ReportWait
open Abq.Props (connect_iff)
variable {L : Type} {c : Codec L} {tie : Bool} {limit : Nat} {world : Nat → Turn}

theorem readResults_not_timedOut (c : Codec L) (conn : Conn) : readResults c conn ≠ .error .timedOut := by
  unfold readResults
  repeat' (first | split | simp)

theorem not_late {t : Nat} (h : late tie limit t = false) : t ≤ limit := by
  cases tie <;> simp [late] at h <;> omega

theorem late_of_lt {t : Nat} (h : t < limit) : late tie limit t = false := by
  cases tie <;> simp [late] <;> omega

/-- What holds of the end of the waiting, whatever happens. -/
theorem poll_ended (now : Nat) (begun : List Nat) :
    (poll c tie limit world now begun).ended ≤ limit ∧
    ((poll c tie limit world now begun).result = .error .timedOut → (poll c tie limit world now begun).ended = limit) := by
  fun_induction poll c tie limit world now begun <;> simp_all [timeUp, readResults_not_timedOut]
  all_goals first
    | exact not_late (tie := tie) (by assumption)
    | exact ⟨not_late (tie := tie) (by assumption), by split <;> simp⟩

theorem connecting_iff (t : Turn) (left k : Nat) : (connecting t left k).2 = true ↔ ∃ j, k ≤ j ∧ j < k + left ∧ t.connects j = true := by
  induction left generalizing k with
  | zero => simp only [connecting, Bool.false_eq_true, false_iff]; rintro ⟨j, h1, h2, -⟩; omega
  | succ left ih =>
    rw [connecting]
    split
    · rename_i h
      simp only [true_iff]
      exact ⟨k, Nat.le_refl _, by omega, h⟩
    · rename_i h
      split
      · rename_i hl
        simp only [Bool.false_eq_true, false_iff]
        rintro ⟨j, h1, h2, h3⟩
        have : j = k := by omega
        subst this
        exact h h3
      · rw [ih]
        constructor
        · rintro ⟨j, h1, h2, h3⟩; exact ⟨j, by omega, by omega, h3⟩
        · rintro ⟨j, h1, h2, h3⟩
          refine ⟨j, ?_, by omega, h3⟩
          rcases Nat.lt_or_eq_of_le h1 with h' | h'
          · omega
          · subst h'; exact (h h3).elim

theorem connecting_connect (t : Turn) : (connecting t reconnectAttempts 1).2 = true ↔ connect t.toAttempt = .ok () := by
  rw [connecting_iff, connect_iff]
  constructor
  · rintro ⟨j, h1, h2, h3⟩; exact ⟨j, h1, by simp only [reconnectAttempts] at h2; omega, h3⟩
  · rintro ⟨j, h1, h2, h3⟩; exact ⟨j, h1, by simp only [reconnectAttempts]; omega, h3⟩

/-- How long connecting takes. -/
theorem connecting_time (t : Turn) (left k n : Nat) (hn : n < left) (h : t.connects (k + n) = true)
    (hf : ∀ j, k ≤ j → j < k + n → t.connects j = false) :
    connecting t left k = (((List.range (n + 1)).map fun j => t.tryTime (k + j)).sum + 3000 * n, true) := by
  induction left generalizing k n with
  | zero => omega
  | succ left ih =>
    rw [connecting]
    cases n with
    | zero => rw [if_pos (by simpa using h)]; simp
    | succ n =>
      rw [if_neg (by rw [hf k (Nat.le_refl _) (by omega)]; simp), if_neg (by omega),
        ih (k + 1) n (by omega) (by rwa [show k + 1 + n = k + (n + 1) by omega]) fun j h1 h2 => hf j (by omega) (by omega)]
      simp only [reconnectDelay, Prod.mk.injEq, and_true]
      rw [List.range_succ_eq_map (n := n + 1)]
      simp only [List.map_cons, List.map_map, List.sum_cons, Nat.add_zero]
      have : ((fun j => t.tryTime (k + j)) ∘ Nat.succ) = fun j => t.tryTime (k + 1 + j) := by
        funext j; simp only [Function.comp]; congr 1; omega
      rw [this]
      omega

theorem connecting_fails (t : Turn) (left k : Nat) (hf : ∀ j, k ≤ j → j < k + (left + 1) → t.connects j = false) :
    connecting t (left + 1) k = (((List.range (left + 1)).map fun j => t.tryTime (k + j)).sum + 3000 * left, false) := by
  induction left generalizing k with
  | zero => simp [connecting, hf k (Nat.le_refl _) (by omega)]
  | succ left ih =>
    rw [connecting, if_neg (by rw [hf k (Nat.le_refl _) (by omega)]; simp), if_neg (by omega),
      ih (k + 1) fun j h1 h2 => hf j (by omega) (by omega)]
    simp only [reconnectDelay, Prod.mk.injEq, and_true]
    rw [List.range_succ_eq_map (n := left + 1)]
    simp only [List.map_cons, List.map_map, List.sum_cons, Nat.add_zero]
    have : ((fun j => t.tryTime (k + j)) ∘ Nat.succ) = fun j => t.tryTime (k + 1 + j) := by
      funext j; simp only [Function.comp]; congr 1; omega
    rw [this]
    omega

/-- A turn that is answered in time. -/
theorem answered {t : Turn} {d : Nat} (h : AnsweredIn t d) :
    (connecting t reconnectAttempts 1).2 = true ∧ (connecting t reconnectAttempts 1).1 + t.exchange ≤ d := by
  obtain ⟨⟨k, h1, h2, h3, h4, h5⟩, -, -⟩ := h
  have := connecting_time t reconnectAttempts 1 (k - 1) (by simp only [reconnectAttempts]; omega)
    (by rwa [show 1 + (k - 1) = k by omega]) fun j h6 h7 => h4 j h6 (by omega)
  rw [this]
  refine ⟨rfl, ?_⟩
  simp only [spent] at h5
  rw [show k - 1 + 1 = k by omega]
  have e : (fun j => t.tryTime (1 + j)) = fun j => t.tryTime (j + 1) := by funext j; rw [Nat.add_comm]
  rw [e]
  exact h5

theorem fetch_cons {a : Attempt} (hc : connect a = .ok ()) (hs : a.sent = true) (rest : List Attempt) :
    fetch c (a :: rest) = match a.reply with
      | none => .error .io
      | some (.streaming conn) => readResults c conn
      | some .pending => fetch c rest
      | some (.inProgress active) => .error (if active.isEmpty then .noActiveRunners else .stillActive active)
      | some (.error reason) => .error (.refused reason) := by
  rw [fetch, hc]
  simp only [hs, if_true]
  cases a.reply with
  | none => rfl
  | some r => cases r <;> rfl

/-- The turns begun, and what came of them. -/
theorem poll_turns (now : Nat) (begun : List Nat) :
    ∃ more k, (poll c tie limit world now begun).begun = begun ++ now :: more ∧
      (poll c tie limit world now begun).result = fetch c (((now :: more).map fun n => (world n).toAttempt).take k) ∧
      ((poll c tie limit world now begun).result ≠ .error .timedOut → more.length < k) ∧ more.length ≤ k ∧
      (now :: more).Pairwise (fun a b => a + 2000 ≤ b) ∧ ∀ b ∈ more, b ≤ limit := by
  fun_induction poll c tie limit world now begun
  case case1 => exact ⟨[], 0, rfl, rfl, fun h => (h rfl).elim, by simp, by simp, by simp⟩
  case case2 => exact ⟨[], 0, rfl, rfl, fun h => (h rfl).elim, by simp, by simp, by simp⟩
  case case3 now begun turn begun' connected _ hc answered _ hs hr =>
    refine ⟨[], 1, rfl, ?_, by simp, by simp, by simp, by simp⟩
    simp only [List.map_cons, List.map_nil, List.take_succ_cons, List.take_nil]
    rw [fetch_cons ((connecting_connect _).mp hc) hs]
    simp only [turn] at hr
    rw [hr]
  case case4 now begun turn begun' connected _ hc answered _ hs conn hr =>
    refine ⟨[], 1, rfl, ?_, by simp, by simp, by simp, by simp⟩
    simp only [List.map_cons, List.map_nil, List.take_succ_cons, List.take_nil]
    rw [fetch_cons ((connecting_connect _).mp hc) hs]
    simp only [turn] at hr
    rw [hr]
  case case5 now begun turn begun' connected _ hc answered _ hs hr _ =>
    refine ⟨[], 1, rfl, ?_, by simp, by simp, by simp, by simp⟩
    simp only [List.map_cons, List.map_nil, List.take_succ_cons, List.take_nil]
    rw [fetch_cons ((connecting_connect _).mp hc) hs]
    simp only [turn] at hr
    rw [hr]
    rfl
  case case6 now begun turn begun' connected _ hc answered _ hs hr hl ih =>
    obtain ⟨more, k, h1, h2, h3, h4, h5, h6⟩ := ih
    have hle : answered + pendingDelay ≤ limit := not_late (by simpa using hl)
    refine ⟨(answered + pendingDelay) :: more, k + 1, by rw [h1]; simp [begun'], ?_, fun h => ?_, by simp; omega, ?_, ?_⟩
    · rw [h2]
      simp only [List.map_cons, List.take_succ_cons]
      rw [fetch_cons ((connecting_connect _).mp hc) hs]
      simp only [turn] at hr
      rw [hr]
    · have := h3 h
      simp; omega
    · refine List.pairwise_cons.mpr ⟨fun b hb => ?_, h5⟩
      have hd : now + 2000 ≤ answered + pendingDelay := by simp only [answered, connected, pendingDelay]; omega
      rcases List.mem_cons.mp hb with rfl | hb
      · exact hd
      · have := (List.pairwise_cons.mp h5).1 b hb
        omega
    · intro b hb
      rcases List.mem_cons.mp hb with rfl | hb
      · exact hle
      · exact h6 b hb
  case case7 now begun turn begun' connected _ hc answered _ hs active hr =>
    refine ⟨[], 1, rfl, ?_, by simp, by simp, by simp, by simp⟩
    simp only [List.map_cons, List.map_nil, List.take_succ_cons, List.take_nil]
    rw [fetch_cons ((connecting_connect _).mp hc) hs]
    simp only [turn] at hr
    rw [hr]
  case case8 now begun turn begun' connected _ hc answered _ hs reason hr =>
    refine ⟨[], 1, rfl, ?_, by simp, by simp, by simp, by simp⟩
    simp only [List.map_cons, List.map_nil, List.take_succ_cons, List.take_nil]
    rw [fetch_cons ((connecting_connect _).mp hc) hs]
    simp only [turn] at hr
    rw [hr]
  case case9 now begun turn begun' connected _ hc answered _ hs =>
    refine ⟨[], 1, rfl, ?_, by simp, by simp, by simp, by simp⟩
    simp only [List.map_cons, List.map_nil, List.take_succ_cons, List.take_nil]
    rw [fetch, (connecting_connect _).mp hc]
    simp only [turn] at hs
    simp [hs]
  case case10 now begun turn begun' connected _ hc =>
    refine ⟨[], 1, rfl, ?_, by simp, by simp, by simp, by simp⟩
    simp only [List.map_cons, List.map_nil, List.take_succ_cons, List.take_nil]
    have : connect (world now).toAttempt = .error () := by
      cases h : connect (world now).toAttempt with
      | error _ => rfl
      | ok _ => exact (hc ((connecting_connect _).mpr h)).elim
    rw [fetch, this]

/-- Answers come in the end. -/
theorem poll_served {ready d : Nat} (now : Nat) (begun : List Nat) (hnow : now ≤ ready + d + 2000) (hlim : ready + 2 * d + 2000 < limit)
    (h1 : ∀ n, n < limit → AnsweredIn (world n) d)
    (h2 : ∀ n, n < limit → (world n).reply = some .pending ∨ ∃ conn, (world n).reply = some (.streaming conn))
    (h3 : ∀ n, n < limit → ready ≤ n → (world n).reply ≠ some .pending) :
    ∃ n conn, n ≤ ready + d + 2000 ∧ (world n).reply = some (.streaming conn) ∧
      (poll c tie limit world now begun).result = readResults c conn ∧
      (poll c tie limit world now begun).ended ≤ ready + 2 * d + 2000 := by
  fun_induction poll c tie limit world now begun
  case case1 now begun turn begun' connected hl =>
    have := (answered (h1 now (by omega))).2
    rw [late_of_lt (by simp only [connected, turn]; omega)] at hl
    cases hl
  case case2 now begun turn begun' connected _ _ answer hl =>
    have := (answered (h1 now (by omega))).2
    rw [late_of_lt (by simp only [answer, connected, turn]; omega)] at hl
    cases hl
  case case3 now begun turn begun' connected _ hc answered _ hs hr => exact ((h1 now (by omega)).2.2 hr).elim
  case case4 now begun turn begun' connected _ hc answer _ hs conn hr =>
    have := (answered (h1 now (by omega))).2
    exact ⟨now, conn, hnow, hr, rfl, by simp only [answer, connected, turn]; omega⟩
  case case5 now begun turn begun' connected _ hc answer _ hs hr hl =>
    have := (answered (h1 now (by omega))).2
    have : now < ready := Nat.lt_of_not_le fun h => h3 now (by omega) h hr
    rw [late_of_lt (by simp only [answer, connected, turn, pendingDelay]; omega)] at hl
    cases hl
  case case6 now begun turn begun' connected _ hc answer _ hs hr hl ih =>
    have := (answered (h1 now (by omega))).2
    have : now < ready := Nat.lt_of_not_le fun h => h3 now (by omega) h hr
    exact ih (by simp only [answer, connected, turn, pendingDelay]; omega)
  case case7 now begun turn begun' connected _ hc answered _ hs active hr =>
    rcases h2 now (by omega) with h | ⟨_, h⟩ <;> simp only [turn] at hr <;> rw [h] at hr <;> cases hr
  case case8 now begun turn begun' connected _ hc answered _ hs reason hr =>
    rcases h2 now (by omega) with h | ⟨_, h⟩ <;> simp only [turn] at hr <;> rw [h] at hr <;> cases hr
  case case9 now begun turn begun' connected _ hc answered _ hs => exact (hs (h1 now (by omega)).2.1).elim
  case case10 now begun turn begun' connected _ hc => exact (hc (answered (h1 now (by omega))).1).elim

end Abq.ReportWait
