import Verif.Spec.WorkerExit
import Verif.Proof.Pool

namespace Abq.WorkerExit
open Abq.Spec.WorkerExit

theorem writes_ok (ok : Nat → Bool) (h : ∀ n, ok n = true) :
    ∀ (ws : List Write) (n : Nat), writes ok n ws = (n + ws.length, ws.map fun w => .printed w.piece, true) := by
  intro ws
  induction ws with
  | nil => intro n; rfl
  | cons w ws ih =>
    intro n
    rw [writes, if_pos (h n), ih]
    simp only [List.length_cons, List.map_cons, Prod.mk.injEq, and_true]
    omega

theorem writes_ev (ok : Nat → Bool) :
    ∀ (ws : List Write) (n : Nat) (e : Ev), e ∈ (writes ok n ws).2.1 → ∃ w ∈ ws, e = .printed w.piece ∨ e = .lost w.piece := by
  intro ws
  induction ws with
  | nil => intro n e h; cases h
  | cons w ws ih =>
    intro n e h
    rw [writes] at h
    split at h
    · rcases List.mem_cons.1 h with rfl | h
      · exact ⟨w, List.mem_cons_self, .inl rfl⟩
      · obtain ⟨w', h1, h2⟩ := ih _ _ h
        exact ⟨w', List.mem_cons_of_mem _ h1, h2⟩
    · split at h
      · rcases List.mem_cons.1 h with rfl | h
        · exact ⟨w, List.mem_cons_self, .inr rfl⟩
        · cases h
      · rcases List.mem_cons.1 h with rfl | h
        · exact ⟨w, List.mem_cons_self, .inr rfl⟩
        · obtain ⟨w', h1, h2⟩ := ih _ _ h
          exact ⟨w', List.mem_cons_of_mem _ h1, h2⟩

theorem requests_append (a b : List Ev) : requests (a ++ b) = requests a ++ requests b := List.filterMap_append

theorem pieces_append (a b : List Ev) : pieces (a ++ b) = pieces a ++ pieces b := List.filterMap_append

theorem requests_writes (ok : Nat → Bool) (ws : List Write) (n : Nat) : requests (writes ok n ws).2.1 = [] := by
  unfold requests
  rw [List.filterMap_eq_nil_iff]
  intro e he
  obtain ⟨w, -, rfl | rfl⟩ := writes_ev ok ws n e he <;> rfl

theorem timesFinished_append (a b : List Ev) : timesFinished (a ++ b) = timesFinished a + timesFinished b :=
  List.countP_append

theorem timesFinished_writes (ok : Nat → Bool) (ws : List Write) (n : Nat) : timesFinished (writes ok n ws).2.1 = 0 := by
  unfold timesFinished
  rw [List.countP_eq_zero]
  intro e he
  obtain ⟨w, -, rfl | rfl⟩ := writes_ev ok ws n e he <;> simp

theorem pieces_printed (ws : List Write) : pieces (ws.map fun w => .printed w.piece) = ws.map (·.piece) := by
  induction ws with
  | nil => rfl
  | cons w ws ih => exact congrArg (w.piece :: ·) ih

theorem requests_replicate (n : Nat) (r : Request) : requests (List.replicate n (.request r)) = List.replicate n r := by
  induction n with
  | zero => rfl
  | succ n ih => exact congrArg (r :: ·) ih

theorem pieces_replicate (n : Nat) (r : Request) : pieces (List.replicate n (.request r)) = [] := by
  induction n with
  | zero => rfl
  | succ n ih => exact ih

theorem timesFinished_replicate (n : Nat) (r : Request) : timesFinished (List.replicate n (.request r)) = 0 := by
  induction n with
  | zero => rfl
  | succ n ih => exact ih

theorem requests_finished (rs : List Report.Reporter) (evs : List Ev) : requests (.finished rs :: evs) = requests evs := rfl

theorem pieces_finished (rs : List Report.Reporter) (evs : List Ev) : pieces (.finished rs :: evs) = pieces evs := rfl

theorem timesFinished_finished (rs : List Report.Reporter) (evs : List Ev) :
    timesFinished (.finished rs :: evs) = timesFinished evs + 1 :=
  List.countP_cons_of_pos rfl

theorem writes_fail (ok : Nat → Bool) (h : ∀ n, ok n = false) :
    ∀ (ws : List Write) (n : Nat), (∃ w ∈ ws, w.must = true) → (writes ok n ws).2.2 = false := by
  intro ws
  induction ws with
  | nil => intro n ⟨w, hw, _⟩; cases hw
  | cons w ws ih =>
    intro n ⟨w', hw, hm⟩
    rw [writes, if_neg (by rw [h n]; decide)]
    split
    · rfl
    · next hn =>
      rcases List.mem_cons.1 hw with rfl | hw
      · exact absurd hm hn
      · exact ih _ ⟨w', hw, hm⟩

/-- The telemetry: nothing, or requests for this run. -/
theorem record_cases (push : String → String → Option String) (specs : Nat → Spec) (a : Args) (info : Option Nat)
    (replies : List Hosted.Reply) :
    record push specs a info replies = ([], true) ∨
    ∃ token i url, a.record = true ∧ a.accessToken = some token ∧ info = some i ∧ push a.apiUrl "record_test_run" = some url ∧
      record push specs a info replies =
        (List.replicate (tryTimes attempts 0 replies).1 (.request ⟨url, token, a.runId, specs i⟩),
          (tryTimes attempts 0 replies).2.isSome) := by
  unfold record
  cases h : a.record with
  | false => exact .inl rfl
  | true =>
    rw [if_pos rfl]
    cases ht : a.accessToken with
    | none => exact .inl rfl
    | some token =>
      cases info with
      | none => exact .inl rfl
      | some i =>
        dsimp only
        cases hu : push a.apiUrl "record_test_run" with
        | none => exact .inl rfl
        | some url => exact .inr ⟨token, i, url, rfl, rfl, rfl, rfl, rfl⟩

theorem try_count (replies : List Hosted.Reply) :
    ((tryTimes attempts 0 replies).1 = 1 ∨ (tryTimes attempts 0 replies).1 = 2) ∧
    ((tryTimes attempts 0 replies).1 = 2 ↔ ∃ code rest, replies = .status code :: rest ∧ ¬ Success code) ∧
    (2 ≤ replies.length → (tryTimes attempts 0 replies).2.isSome = true) := by
  have hs : ∀ c, Hosted.isSuccess c = true ↔ Success c := by
    intro c; simp [Hosted.isSuccess, Success]; omega
  rcases replies with _ | ⟨r | c, rest⟩
  · simp [tryTimes]
  · simp [tryTimes]
  · by_cases h : Success c
    · simp [tryTimes, attempts, (hs c).2 h, h]
    · have h' : Hosted.isSuccess c = false := by
        cases h' : Hosted.isSuccess c
        · rfl
        · exact absurd ((hs c).1 h') h
      rcases rest with _ | ⟨_ | c', _⟩ <;> simp [tryTimes, attempts, h', h]

theorem pieces_record (push : String → String → Option String) (specs : Nat → Spec) (a : Args) (info : Option Nat)
    (replies : List Hosted.Reply) :
    pieces (record push specs a info replies).1 = [] ∧ timesFinished (record push specs a info replies).1 = 0 := by
  rcases record_cases push specs a info replies with h | ⟨_, _, _, _, _, _, _, h⟩
  · rw [h]; exact ⟨rfl, rfl⟩
  · rw [h]; exact ⟨pieces_replicate _ _, timesFinished_replicate _ _⟩

def NotHeader : Piece → Prop
  | .header _ => False
  | _ => True

theorem outputs_skip (p : Piece) (ps : List Piece) (h : NotHeader p) : outputs (p :: ps) = outputs ps := by
  cases p <;> first | rfl | exact absurd h id

theorem outputs_skip_all (qs ps : List Piece) (h : ∀ p ∈ qs, NotHeader p) : outputs (qs ++ ps) = outputs ps := by
  induction qs with
  | nil => rfl
  | cons q qs ih =>
    rw [List.cons_append, outputs_skip _ _ (h q List.mem_cons_self)]
    exact ih fun p hp => h p (List.mem_cons_of_mem _ hp)

theorem outputs_writes (os : List (Nat × List Nat)) (ps : List Piece) :
    outputs ((outputWrites false os).map (·.piece) ++ ps) = os.filter (fun o => !o.2.isEmpty) ++ outputs ps := by
  induction os with
  | nil => rfl
  | cons o os ih =>
    obtain ⟨k, o⟩ := o
    rw [outputWrites] at ih ⊢
    rw [List.flatMap_cons, List.map_append, List.append_assoc]
    cases o with
    | nil => exact ih
    | cons b o =>
      show outputs (Piece.header k :: .output (b :: o) :: _) = _
      rw [outputs]
      exact congrArg ((k, b :: o) :: ·) ih

theorem outputs_writes_pipes (os : List (Nat × List Nat)) : outputWrites true os = [] := by
  induction os with
  | nil => rfl
  | cons o os ih => exact ih

theorem outputWrites_piece (pipes : Bool) (os : List (Nat × List Nat)) (w : Write) (h : w ∈ outputWrites pipes os) :
    (∃ k, w.piece = .header k) ∨ ∃ o, w.piece = .output o := by
  obtain ⟨⟨k, o⟩, -, ho⟩ := List.mem_flatMap.1 h
  dsimp only at ho
  split at ho
  · cases ho
  · rcases List.mem_cons.1 ho with rfl | ho
    · exact .inl ⟨_, rfl⟩
    · rcases List.mem_cons.1 ho with rfl | ho
      · exact .inr ⟨_, rfl⟩
      · cases ho

theorem manifestWrites_piece (blank : Nat → Bool) (m : Option (Nat × List Nat)) (w : Write) :
    w ∈ manifestWrites blank m ↔ ∃ k o, m = some (k, o) ∧ o.all blank = false ∧ w = ⟨.manifestOutput o, false⟩ := by
  rcases m with _ | ⟨k, o⟩
  · simp [manifestWrites]
  · rw [manifestWrites]
    cases h : o.all blank
    · rw [if_neg Bool.false_ne_true]
      constructor
      · intro hw; rw [List.mem_singleton] at hw; exact ⟨k, o, rfl, h, hw⟩
      · rintro ⟨k', o', h1, -, h2⟩; cases h1; rw [h2]; exact List.mem_singleton.2 rfl
    · rw [if_pos rfl]
      constructor
      · intro hw; cases hw
      · rintro ⟨k', o', h1, h3, -⟩; cases h1; rw [h] at h3; cases h3

theorem errorWrites_piece (rs : List Report.Reporter) (w : Write) :
    w ∈ errorWrites rs ↔ ∃ i r, rs[i]? = some r ∧ r.refuses r.log .finish = true ∧ w = ⟨.reporterError i, true⟩ := by
  unfold errorWrites
  rw [List.mem_map]
  constructor
  · rintro ⟨i, hi, rfl⟩
    rw [List.mem_filter] at hi
    obtain ⟨-, hi⟩ := hi
    split at hi
    · next r hr => exact ⟨i, r, hr, hi, rfl⟩
    · cases hi
  · rintro ⟨i, r, hr, hf, rfl⟩
    refine ⟨i, List.mem_filter.2 ⟨List.mem_range.2 ?_, ?_⟩, rfl⟩
    · exact (List.getElem?_eq_some_iff.1 hr).1
    · rw [hr]; exact hf

end Abq.WorkerExit
