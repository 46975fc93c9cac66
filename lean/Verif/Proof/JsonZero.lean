import Verif.Proof.JsonText

/-! # A text with a zero in it is no document -/

namespace Abq.JsonText
open RunStateDoc (Json)

/-- No literal that is being read has a zero in it. -/
def LitOk (s : State) : Prop := ∀ rest v, s.mode = .lit rest v → (0 : Byte) ∉ rest

theorem litOk_deliver (v : Json) (st : List Frame) : LitOk (deliver v st) := by
  intro rest w h
  unfold deliver at h
  split at h <;> simp at h

theorem litOk_of {m : Mode} {st : List Frame} (h : ∀ rest v, m ≠ .lit rest v) : LitOk ⟨m, st⟩ :=
  fun rest v e => absurd e (h rest v)

theorem litOk_begin {st : List Frame} {b : Byte} {s : State} (h : beginValue st b = some s) : LitOk s := by
  unfold beginValue open' at h
  intro rest v hm
  revert h
  repeat' split
  all_goals
    intro h
    first
    | (cases h; simp only [Mode.lit.injEq, reduceCtorEq] at hm; try (obtain ⟨rfl, -⟩ := hm; decide))
    | cases h

theorem litOk_plain {s s' : State} {b : Byte} (hs : LitOk s) (h : stepPlain s b = some s') : LitOk s' := by
  unfold stepPlain at h
  split at h
  case h_14 =>
    rename_i rest v hm
    have h0 := hs _ _ hm
    split at h
    · cases h
    · split at h
      · cases h; exact litOk_deliver _ _
      · cases h
    · split at h
      · cases h
        intro r w e
        simp only [Mode.lit.injEq] at e
        obtain ⟨rfl, -⟩ := e
        intro hz
        exact h0 (List.mem_cons_of_mem _ hz)
      · cases h
  all_goals
    revert h
    repeat' split
    all_goals
      intro h
      first
      | (cases h; done)
      | (cases h; first | exact hs | exact litOk_deliver _ _ | (apply litOk_of; simp; done))
      | exact litOk_begin h
      | (unfold endStr at h; revert h; repeat' split
         all_goals
           intro h
           first
           | (cases h; done)
           | (cases h; first | exact litOk_deliver _ _ | (apply litOk_of; simp; done)))
      | (unfold endHex at h; revert h; repeat' split
         all_goals
           intro h
           first
           | (cases h; done)
           | (cases h; (apply litOk_of; simp; done))
           | (simp only [Option.map_eq_some_iff] at h; obtain ⟨x, -, rfl⟩ := h; (apply litOk_of; simp; done)))
      | (unfold endLow at h; revert h; repeat' split
         all_goals
           intro h
           first
           | (simp only [Option.map_eq_some_iff] at h; obtain ⟨x, -, rfl⟩ := h; (apply litOk_of; simp; done))
           | (cases h; done))
      | (simp only [Option.map_eq_some_iff] at h; obtain ⟨x, -, rfl⟩ := h; (apply litOk_of; simp; done))

theorem litOk_step {f : Floats} {s s' : State} {b : Byte} (hs : LitOk s) (h : step f s b = some s') : LitOk s' := by
  unfold step at h
  split at h
  · split at h
    · cases h; (apply litOk_of; simp; done)
    · simp only [Option.bind_eq_some_iff] at h
      obtain ⟨v, -, h⟩ := h
      exact litOk_plain (litOk_deliver _ _) h
  · exact litOk_plain hs h

theorem plain_zero {s : State} (hs : LitOk s) : stepPlain s 0 = none := by
  unfold stepPlain
  split
  case h_14 =>
    rename_i rest v hm
    have h0 := hs _ _ hm
    split
    · rfl
    · split
      · rename_i e; subst e; simp at h0
      · rfl
    · split
      · rename_i e; subst e; simp at h0
      · rfl
  all_goals first | rfl | (simp [isSpace, beginValue, isDigit, unescape, hexVal]; done)

theorem step_zero {f : Floats} {s : State} (hs : LitOk s) : step f s 0 = none := by
  unfold step
  split
  · split
    · rename_i h; exact absurd h (by decide)
    · cases readNum f _ with
      | none => rfl
      | some v => exact plain_zero (litOk_deliver _ _)
  · exact plain_zero hs

/-- A text with a zero in it is no document. -/
theorem parse_zero (f : Floats) (t : List Byte) (h : 0 ∈ t) : parse f t = none := by
  suffices ∀ s, LitOk s → parseFrom f s t = none from this _ (litOk_of (by simp))
  induction t with
  | nil => cases h
  | cons b t ih =>
    intro s hs
    rw [parseFrom_cons]
    cases hb : step f s b with
    | none => rfl
    | some s' =>
      rcases List.mem_cons.mp h with rfl | h
      · rw [step_zero hs] at hb; cases hb
      · exact ih h s' (litOk_step hs hb)
end Abq.JsonText
