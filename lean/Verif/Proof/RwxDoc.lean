import Verif.Spec.RwxDoc
import Verif.Proof.RwxJson
import Verif.Props.RwxJson
import Verif.Proof.Messages

namespace Abq.RwxDocProof
open RunStateDoc (Json)
open Protocol (SpecFields ResultSpec AbqStatus Metadata)
open Abq.Messages (Result struct present)
open Abq.RwxDoc Abq.Spec.RwxDoc
open RwxJson (Spec Attempt Test Collector)

theorem member_nil (n : String) : member n (struct []) = none := rfl

theorem member_cons (n k : String) (o : Option Json) (ms : List (String × Option Json)) :
    member n (struct ((k, o) :: ms)) = if k = n then o.or (member n (struct ms)) else member n (struct ms) := by
  cases o with
  | none => simp [struct, present]
  | some j =>
    by_cases h : k = n
    · simp [struct, present, member, h]
    · simp [struct, present, member, h]

theorem member_insert (n k : String) (j : Json) (m : Metadata) :
    member n (.obj (Abq.RwxDoc.insert k j m)) = if n = k then some j else member n (.obj m) := by
  unfold Abq.RwxDoc.insert member
  simp only [List.find?_append]
  by_cases h : n = k
  · subst h
    rw [if_pos rfl]
    have : (m.filter (fun x => decide (x.1 ≠ n))).find? (fun x => x.1 == n) = none := by
      rw [List.find?_eq_none]
      intro x hx
      have := (List.mem_filter.1 hx).2
      simpa using this
    rw [this]
    simp
  · rw [if_neg h]
    have h' : (k == n) = false := by simpa using fun e : k = n => h e.symm
    have : (m.filter (fun x => decide (x.1 ≠ k))).find? (fun x => x.1 == n) = m.find? (fun x => x.1 == n) := by
      induction m with
      | nil => rfl
      | cons x m ih =>
        by_cases hx : x.1 = k
        · have h1 : (x.1 == n) = false := by rw [hx]; exact h'
          rw [List.filter_cons, if_neg (by simp [hx]), List.find?_cons, h1, ih]
        · rw [List.filter_cons, if_pos (by simp [hx]), List.find?_cons, List.find?_cons, ih]
    rw [this]
    simp [List.find?_cons, h']

/-- The attempt that is made of a result. -/
def own (f : SpecFields) (w : WorkerRunner) : Attempt Copied := (specOf w (.mk f none)).own

theorem says (rd : Readers) (f : SpecFields) (w : WorkerRunner) (h : f.status ≠ .privateNativeRunnerError) :
    Says rd (encAttempt rd (own f w)) f w := by
  obtain ⟨st, id, dn, out, rt, md, loc, sa, fa, lin, oe, se, so, ts⟩ := f
  constructor
  · cases st <;> simp [own, specOf, RwxJson.Spec.own, RwxJson.reportedStatus, RwxJson.Spec.status, status, at', encAttempt, member_cons, member_nil, encStatus, kindOf] at h ⊢
  · cases st <;> simp [own, specOf, RwxJson.Spec.own, RwxJson.reportedStatus, RwxJson.Spec.status, RwxJson.Spec.output, status, at', encAttempt, member_cons, member_nil, encStatus] at h ⊢
  · cases st <;> simp [own, specOf, RwxJson.Spec.own, RwxJson.reportedStatus, RwxJson.Spec.status, RwxJson.Spec.payload, status, at', encAttempt, member_cons, member_nil, encStatus, exception] at h ⊢
  · cases st <;> simp [own, specOf, RwxJson.Spec.own, RwxJson.reportedStatus, RwxJson.Spec.status, RwxJson.Spec.payload, status, at', encAttempt, member_cons, member_nil, encStatus, backtrace, Protocol.encStrs] at h ⊢
    all_goals rfl
  · cases rt <;> simp [own, specOf, RwxJson.Spec.own, RwxJson.Spec.payload, at', encAttempt, member_cons, member_nil, duration]
  · simp [own, specOf, RwxJson.Spec.own, RwxJson.Spec.payload, at', encAttempt, member_cons, member_nil]
  · simp [own, specOf, RwxJson.Spec.own, RwxJson.Spec.payload, at', encAttempt, member_cons, member_nil]
  · simp [own, specOf, RwxJson.Spec.own, RwxJson.Spec.payload, at', encAttempt, member_cons, member_nil]
  · simp [own, specOf, RwxJson.Spec.own, RwxJson.Spec.payload, at', encAttempt, member_cons, member_nil]
  · simp [own, specOf, RwxJson.Spec.own, RwxJson.Spec.payload, at', encAttempt, member_cons, member_nil, metadata, member_insert]
    rfl
  · simp [own, specOf, RwxJson.Spec.own, RwxJson.Spec.payload, at', encAttempt, member_cons, member_nil, metadata, member_insert]
    rfl
  · intro name hn
    simp [own, specOf, RwxJson.Spec.own, RwxJson.Spec.payload, at', encAttempt, member_cons, member_nil, metadata, member_insert, hn]

/-! ## Results -/

theorem specOf_mk (w : WorkerRunner) (f : SpecFields) (past : Option (List ResultSpec)) :
    specOf w (.mk f past) =
      .mk f.id f.displayName (status f.status) f.output f.location.isSome (f, w) (past.map (specsOf w)) := by
  cases past <;> simp [specOf]

theorem own_eq (w : WorkerRunner) (r : ResultSpec) : (specOf w r).own = own (fieldsOf r) w := by
  obtain ⟨f, past⟩ := r
  unfold own
  rw [specOf_mk, specOf_mk]; rfl

theorem material_eq (w : WorkerRunner) (r : ResultSpec) : (specOf w r).material = !crashed r := by
  obtain ⟨f, past⟩ := r
  rw [specOf_mk]
  unfold RwxJson.Spec.material RwxJson.Spec.status crashed fieldsOf
  cases f.status <;> rfl

theorem stray_eq (w : WorkerRunner) (r : ResultSpec) : (specOf w r).stray = stray r := by
  obtain ⟨f, past⟩ := r
  rw [specOf_mk]
  unfold RwxJson.Spec.stray RwxJson.Spec.status RwxJson.Spec.located stray fieldsOf
  cases f.location <;> cases f.status <;> rfl

theorem id_eq (w : WorkerRunner) (r : ResultSpec) : (specOf w r).id = (fieldsOf r).id := by
  obtain ⟨f, past⟩ := r
  rw [specOf_mk]; rfl

theorem specsOf_eq (w : WorkerRunner) (rs : List ResultSpec) : specsOf w rs = rs.map (specOf w) := by
  induction rs with
  | nil => rfl
  | cons r rs ih => rw [specsOf, ih]; rfl

mutual
theorem chronicle_eq (w : WorkerRunner) (r : ResultSpec) :
    RwxJson.chronicle (specOf w r) = (chronicle r).map (own · w) := by
  match r with
  | .mk f none =>
    have := own_eq w (.mk f none)
    rw [specOf_mk] at this ⊢
    show [_] = [_]
    exact congrArg (fun x => [x]) this
  | .mk f (some past) =>
    have := own_eq w (.mk f (some past))
    have ih := chronicles_eq w past
    rw [specOf_mk] at this ⊢
    simp only [Option.map_some] at this ⊢
    rw [RwxJson.chronicle, chronicle, List.map_append, ih]
    exact congrArg (fun x => _ ++ [x]) this

theorem chronicles_eq (w : WorkerRunner) (rs : List ResultSpec) :
    RwxJson.chronicles (specsOf w rs) = (chronicles rs).map (own · w) := by
  match rs with
  | [] => rfl
  | r :: rs =>
    have h1 := chronicle_eq w r
    have h2 := chronicles_eq w rs
    rw [specsOf, RwxJson.chronicles, chronicles, List.map_append, h2, material_eq]
    cases crashed r with
    | true => rfl
    | false => simp [h1]
end

mutual
theorem chronicle_ok (r : ResultSpec) (h : crashed r = false) : ∀ f ∈ chronicle r, f.status ≠ .privateNativeRunnerError := by
  match r with
  | .mk f none =>
    intro g hg
    simp only [chronicle, List.mem_singleton] at hg
    subst hg
    exact of_decide_eq_false h
  | .mk f (some past) =>
    intro g hg
    rw [chronicle, List.mem_append, List.mem_singleton] at hg
    rcases hg with hg | rfl
    · exact chronicles_ok past g hg
    · exact of_decide_eq_false h

theorem chronicles_ok (rs : List ResultSpec) : ∀ f ∈ chronicles rs, f.status ≠ .privateNativeRunnerError := by
  match rs with
  | [] => exact fun f hf => nomatch hf
  | r :: rs =>
    intro f hf
    rw [chronicles, List.mem_append] at hf
    rcases hf with hf | hf
    · cases hc : crashed r with
      | true => rw [hc] at hf; simp at hf
      | false =>
        rw [hc] at hf
        exact chronicle_ok r hc f (by simpa using hf)
    · exact chronicles_ok rs f hf
end

theorem counted_eq (rs : List Result) (id : String) : RwxJson.countedOf (rs.map given) id = (countedOf rs id).map given := by
  unfold RwxJson.countedOf RwxJson.resultsOf countedOf
  rw [List.filter_map, List.dropWhile_map]
  have h1 : ((fun s : Spec Copied => s.material && s.id == id) ∘ given) =
      fun r : Result => !crashed r.result && (fieldsOf r.result).id == id := by
    funext r
    show ((given r).material && (given r).id == id) = _
    unfold given
    rw [material_eq, id_eq]
  have h2 : ((fun s : Spec Copied => s.stray) ∘ given) = fun r : Result => stray r.result := by
    funext r
    exact stray_eq _ _
  rw [h1, h2]

theorem counted_ok {rs : List Result} {id : String} {r : Result} (h : r ∈ countedOf rs id) :
    crashed r.result = false ∧ (fieldsOf r.result).id = id := by
  have := (List.mem_filter.1 ((List.dropWhile_sublist _).subset h)).2
  simpa using this

theorem made_eq (rs : List Result) :
    (rs.map given).flatMap RwxJson.chronicle = (attemptsMade rs).map fun m => own m.1 m.2 := by
  induction rs with
  | nil => rfl
  | cons r rs ih =>
    unfold attemptsMade at ih ⊢
    rw [List.map_cons, List.flatMap_cons, List.flatMap_cons, List.map_append, ih]
    unfold given
    rw [chronicle_eq, List.map_map]; rfl

theorem each_map {α β γ : Type} {R : γ → β → Prop} (f : α → γ) (g : α → β) (l : List α) (h : ∀ a ∈ l, R (f a) (g a)) :
    Each R (l.map f) (l.map g) := by
  induction l with
  | nil => trivial
  | cons a l ih => exact ⟨h a (List.mem_cons_self ..), ih fun b hb => h b (List.mem_cons_of_mem _ hb)⟩

theorem each_says (rd : Readers) (l : List (SpecFields × WorkerRunner)) (h : ∀ m ∈ l, m.1.status ≠ .privateNativeRunnerError) :
    Each (fun j (m : SpecFields × WorkerRunner) => Says rd j m.1 m.2) ((l.map fun m => own m.1 m.2).map (encAttempt rd)) l := by
  have := each_map (R := fun j (m : SpecFields × WorkerRunner) => Says rd j m.1 m.2) (fun m => encAttempt rd (own m.1 m.2)) id l
    fun m hm => says rd m.1 m.2 (h m hm)
  rw [List.map_id] at this
  rw [List.map_map]; exact this

/-! ## Other errors -/

theorem crashMessage_eq (w : WorkerRunner) (r : ResultSpec) : (specOf w r).crashMessage = crashMessage r := by
  obtain ⟨f, past⟩ := r
  rw [specOf_mk]; rfl

theorem strayMessage_eq (w : WorkerRunner) (r : ResultSpec) : (specOf w r).strayError = strayMessage r := by
  obtain ⟨f, past⟩ := r
  rw [specOf_mk]; rfl

mutual
theorem crashes_eq (w : WorkerRunner) (r : ResultSpec) : RwxJson.crashesOf (specOf w r) = crashesOf r := by
  match r with
  | .mk f none => rfl
  | .mk f (some past) =>
    have := crashesIn_eq w past
    rw [specOf_mk]
    exact this

theorem crashesIn_eq (w : WorkerRunner) (rs : List ResultSpec) : RwxJson.crashesIn (specsOf w rs) = crashesIn rs := by
  match rs with
  | [] => rfl
  | r :: rs =>
    have h1 := crashes_eq w r
    have h2 := crashesIn_eq w rs
    rw [specsOf, RwxJson.crashesIn, crashesIn, h2, material_eq, h1, crashMessage_eq]
    cases crashed r <;> rfl
end

theorem errors_eq (before rs : List Result) : RwxJson.errorsFrom (before.map given) (rs.map given) = errorsFrom before rs := by
  induction rs generalizing before with
  | nil => rfl
  | cons r rs ih =>
    have := ih (before ++ [r])
    rw [List.map_append] at this
    rw [List.map_cons, RwxJson.errorsFrom, errorsFrom]
    have e : List.map given before ++ [given r] = List.map given before ++ List.map given [r] := rfl
    rw [e, this]
    unfold given
    rw [material_eq, crashes_eq, stray_eq, id_eq, strayMessage_eq, crashMessage_eq]
    have hc := counted_eq before (fieldsOf r.result).id
    unfold given at hc
    rw [hc]
    have : (List.map (fun r : Result => specOf r.source.runner r.result) (countedOf before (fieldsOf r.result).id)).isEmpty =
        (countedOf before (fieldsOf r.result).id).isEmpty := by simp [List.isEmpty_iff, Bool.eq_iff_iff]
    rw [this]
    cases crashed r.result <;> rfl

/-! ## The document -/

theorem testsOf_document (rd : Readers) (c : Collector Copied) (order : List (String × Test Copied))
    (spec : Option Protocol.Specification) : testsOf (document rd c order spec) = order.map (encTest rd) := by
  simp [testsOf, at', document, member_cons, elements]

theorem test_id (rd : Readers) (t : String × Test Copied) : at' (encTest rd t) ["id"] = some (.str t.1) := by
  simp [at', encTest, member_cons]

theorem test_name (rd : Readers) (t : String × Test Copied) : at' (encTest rd t) ["name"] = some (.str t.2.name) := by
  simp [at', encTest, member_cons]

theorem test_lineage (rd : Readers) (t : String × Test Copied) :
    at' (encTest rd t) ["lineage"] = t.2.first.1.lineage.map fun l => .arr (l.map .str) := by
  simp [at', encTest, member_cons, member_nil]
  rfl

theorem test_location (rd : Readers) (t : String × Test Copied) :
    at' (encTest rd t) ["location"] = t.2.first.1.location.map encLocation := by
  simp [at', encTest, member_cons, member_nil]

theorem test_file (rd : Readers) (t : String × Test Copied) :
    at' (encTest rd t) ["location", "file"] = t.2.first.1.location.map fun l => .str l.file := by
  simp [at', encTest, member_cons, member_nil]
  cases t.2.first.1.location <;> simp [encLocation, member_cons]

theorem test_line (rd : Readers) (t : String × Test Copied) :
    at' (encTest rd t) ["location", "line"] = t.2.first.1.location.bind fun l => l.line.map fun n : Nat => .int n := by
  simp [at', encTest, member_cons, member_nil]
  cases t.2.first.1.location <;> simp [encLocation, member_cons, member_nil]

theorem test_column (rd : Readers) (t : String × Test Copied) :
    at' (encTest rd t) ["location", "column"] = t.2.first.1.location.bind fun l => l.column.map fun n : Nat => .int n := by
  simp [at', encTest, member_cons, member_nil]
  cases t.2.first.1.location <;> simp [encLocation, member_cons, member_nil]

theorem test_attempt (rd : Readers) (t : String × Test Copied) :
    at' (encTest rd t) ["attempt"] = some (encAttempt rd t.2.attempt) := by
  simp [at', encTest, member_cons, member_nil]

theorem test_past (rd : Readers) (t : String × Test Copied) :
    at' (encTest rd t) ["pastAttempts"] = t.2.past.map fun l => .arr (l.map (encAttempt rd)) := by
  simp [at', encTest, member_cons, member_nil]

theorem test_attempts (rd : Readers) (t : String × Test Copied) :
    attemptsOf (encTest rd t) = (t.2.past.getD [] ++ [t.2.attempt]).map (encAttempt rd) := by
  unfold attemptsOf
  rw [test_attempt, test_past]
  cases t.2.past <;> simp [elements]

theorem filter_unique {α : Type} {l : List (String × α)} (h : (l.map (·.1)).Nodup) {k : String} {a : α} (hm : (k, a) ∈ l) :
    l.filter (·.1 == k) = [(k, a)] := by
  induction l with
  | nil => cases hm
  | cons x l ih =>
    rw [List.map_cons, List.nodup_cons] at h
    rcases List.mem_cons.1 hm with rfl | hm
    · rw [List.filter_cons, if_pos (by simp)]
      congr 1
      rw [List.filter_eq_nil_iff]
      intro y hy e
      exact h.1 (List.mem_map.2 ⟨y, hy, by simpa using e⟩)
    · have : x.1 ≠ k := fun e => h.1 (e ▸ List.mem_map.2 ⟨(k, a), hm, rfl⟩)
      rw [List.filter_cons, if_neg (by simpa using this), ih h.2 hm]

theorem perm_map {α β : Type} (f : α → β) {l l' : List β} (h : l.Perm l') : ∀ m, l' = m.map f → ∃ m' : List α, m'.Perm m ∧ l = m'.map f := by
  induction h with
  | nil =>
    intro m hm
    exact ⟨m, .refl _, hm⟩
  | cons x h ih =>
    intro m hm
    cases m with
    | nil => cases hm
    | cons a m =>
      rw [List.map_cons, List.cons.injEq] at hm
      obtain ⟨m', hp, e⟩ := ih m hm.2
      exact ⟨a :: m', hp.cons _, by rw [List.map_cons, e, hm.1]⟩
  | swap x y l =>
    intro m hm
    match m, hm with
    | a :: b :: m, hm =>
      simp only [List.map_cons, List.cons.injEq] at hm
      exact ⟨b :: a :: m, .swap .., by simp [hm]⟩
  | trans h1 h2 ih1 ih2 =>
    intro m hm
    obtain ⟨m', hp, e⟩ := ih2 m hm
    obtain ⟨m'', hp', e'⟩ := ih1 m' e
    exact ⟨m'', hp'.trans hp, e'⟩

theorem shallow_eq (r : Result) (h : Shallow r) : (given r).shallow := by
  obtain ⟨src, f, past⟩ := r
  intro ps hps p hp
  unfold given at hps
  dsimp only at hps
  rw [specOf_mk] at hps
  cases past with
  | none => cases hps
  | some qs =>
    have : specsOf src.runner qs = ps := by
      unfold RwxJson.Spec.past at hps
      simpa using hps
    rw [specsOf_eq] at this
    subst this
    obtain ⟨q, hq, rfl⟩ := List.mem_map.1 hp
    obtain ⟨g, rfl⟩ := h f qs rfl q hq
    rw [specOf_mk]; rfl

theorem in_order (rs : List (Spec Copied)) (id : String) (h : ∀ s ∈ RwxJson.countedOf rs id, s.shallow) :
    RwxJson.historyOf (RwxJson.collect rs) id = (RwxJson.countedOf rs id).flatMap RwxJson.chronicle := by
  rw [RwxJson.history_eq]
  revert h
  generalize RwxJson.countedOf rs id = l
  intro h
  induction l with
  | nil => rfl
  | cons s l ih =>
    rw [List.flatMap_cons, List.flatMap_cons, ih fun x hx => h x (List.mem_cons_of_mem _ hx),
      RwxJson.listed_shallow s (h s (List.mem_cons_self ..))]

/-! ## The summary -/

def kindText : RwxJson.AttemptStatus → String
  | .canceled => "canceled"
  | .failed _ => "failed"
  | .pended _ => "pended"
  | .skipped _ => "skipped"
  | .successful => "successful"
  | .timedOut => "timedOut"
  | .todo _ => "todo"
  | .quarantined => "quarantined"

theorem test_kind (rd : Readers) (t : String × Test Copied) :
    at' (encTest rd t) ["attempt", "status", "kind"] = some (.str (kindText t.2.attempt.status)) := by
  simp [at', encTest, encAttempt, encStatus, member_cons, member_nil]
  cases t.2.attempt.status <;> simp [kindText, member_cons, member_nil]

theorem count_document (rd : Readers) (c : Collector Copied) (order : List (String × Test Copied))
    (spec : Option Protocol.Specification) (kind : String) :
    countOf (document rd c order spec) kind = order.countP fun t => kindText t.2.attempt.status == kind := by
  unfold countOf
  rw [testsOf_document, List.countP_map]
  refine List.countP_congr fun t _ => ?_
  simp only [Function.comp_apply, test_kind]

theorem at_summary (rd : Readers) (c : Collector Copied) (order : List (String × Test Copied))
    (spec : Option Protocol.Specification) (names : List String) :
    at' (document rd c order spec) ("summary" :: names) = at' (encSummary (RwxJson.summarise c)) names := by
  simp [at', document, member_cons]

theorem at_errors (rd : Readers) (c : Collector Copied) (order : List (String × Test Copied))
    (spec : Option Protocol.Specification) :
    at' (document rd c order spec) ["otherErrors"] = some (.arr (c.errors.map encError)) := by
  simp [at', document, member_cons]

theorem summary_eq {c : Collector Copied} {order : List (String × Test Copied)} (hp : order.Perm c.tests) :
    RwxJson.summarise c =
      { failed := order.any (·.2.attempt.status.bad) || decide (0 < c.errors.length)
        tests := order.length
        otherErrors := c.errors.length
        retries := order.countP (·.2.retried)
        canceled := order.countP (fun t => kindText t.2.attempt.status == "canceled")
        failures := order.countP (fun t => kindText t.2.attempt.status == "failed")
        pended := order.countP (fun t => kindText t.2.attempt.status == "pended")
        quarantined := order.countP (fun t => kindText t.2.attempt.status == "quarantined")
        skipped := order.countP (fun t => kindText t.2.attempt.status == "skipped")
        successful := order.countP (fun t => kindText t.2.attempt.status == "successful")
        timedOut := order.countP (fun t => kindText t.2.attempt.status == "timedOut")
        todo := order.countP (fun t => kindText t.2.attempt.status == "todo") } := by
  rw [← Abq.Props.C78_any_order c order hp]
  unfold RwxJson.summarise
  rw [RwxJson.account_fold]
  simp only [RwxJson.Summary.accountErrors, List.countP_map, List.any_map, List.length_map, Nat.zero_add, Bool.false_or]
  have key : ∀ (p q : RwxJson.AttemptStatus → Bool), (∀ s, p s = q s) →
      List.countP ((fun t : Test Copied => p t.attempt.status) ∘ fun x : String × Test Copied => x.2) order =
        order.countP (fun t => q t.2.attempt.status) := by
    intro p q h
    refine List.countP_congr fun t _ => ?_
    simp only [Function.comp_apply, h]
  congr 1
  · cases c.errors <;> simp <;> rfl
  · exact key (fun s => decide (s = .canceled)) (fun s => kindText s == "canceled") fun s => by cases s <;> rfl
  · exact key (fun s => RwxJson.isFailed s) (fun s => kindText s == "failed") fun s => by cases s <;> rfl
  · exact key (fun s => RwxJson.isPended s) (fun s => kindText s == "pended") fun s => by cases s <;> rfl
  · exact key (fun s => decide (s = .quarantined)) (fun s => kindText s == "quarantined") fun s => by cases s <;> rfl
  · exact key (fun s => RwxJson.isSkipped s) (fun s => kindText s == "skipped") fun s => by cases s <;> rfl
  · exact key (fun s => decide (s = .successful)) (fun s => kindText s == "successful") fun s => by cases s <;> rfl
  · exact key (fun s => decide (s = .timedOut)) (fun s => kindText s == "timedOut") fun s => by cases s <;> rfl
  · exact key (fun s => RwxJson.isTodo s) (fun s => kindText s == "todo") fun s => by cases s <;> rfl

theorem retried_eq (rd : Readers) (t : String × Test Copied) :
    t.2.retried = decide (2 ≤ (attemptsOf (encTest rd t)).length) := by
  rw [test_attempts]
  unfold RwxJson.Test.retried
  cases t.2.past with
  | none => simp
  | some l => cases l <;> simp

end Abq.RwxDocProof

namespace Abq.RwxDocProof
open RunStateDoc (Json)
open Protocol (SpecFields ResultSpec AbqStatus Metadata)
open Abq.Messages (Result struct present)
open Abq.RwxDoc Abq.Spec.RwxDoc
open RwxJson (Spec Attempt Test Collector)
open Abq.Spec.JsonText Abq.Spec.Messages
open Abq.JsonText (Floats)
open Abq.Messages (Fit Fit.mono fit_struct fit_map fit_str fit_nat some_fit fit_strs)

/-! ## The text -/

theorem fit_members {f : Floats} {k : Nat} (m : Metadata) :
    Fit f (k + 1) (.obj m) ↔ ∀ x ∈ m, Fit f k x.2 := by
  have : (HoldableMembers f m ∧ memberDepths m ≤ k) ↔ ∀ x ∈ m, Fit f k x.2 := by
    induction m with
    | nil => simp [HoldableMembers, memberDepths]
    | cons x m ih =>
      obtain ⟨n, j⟩ := x
      rw [HoldableMembers, memberDepths, List.forall_mem_cons, ← ih]
      unfold Fit
      rw [Nat.max_le]
      constructor
      · rintro ⟨⟨a, b⟩, c, d⟩; exact ⟨⟨a, c⟩, b, d⟩
      · rintro ⟨⟨a, c⟩, b, d⟩; exact ⟨⟨a, b⟩, c, d⟩
  rw [← this]
  unfold Fit
  rw [Holdable, depth]
  constructor
  · rintro ⟨a, b⟩; exact ⟨a, by omega⟩
  · rintro ⟨a, b⟩; exact ⟨a, by omega⟩

theorem fit_insert {f : Floats} {k : Nat} {n : String} {j : Json} {m : Metadata} (h : Fit f (k + 1) (.obj m)) (hj : Fit f k j) :
    Fit f (k + 1) (.obj (Abq.RwxDoc.insert n j m)) := by
  rw [fit_members] at h ⊢
  intro x hx
  rcases List.mem_append.1 hx with hx | hx
  · exact h x (List.mem_filter.1 hx).1
  · rw [List.mem_singleton] at hx; subst hx; exact hj

theorem map_fit {α : Type} {f : Floats} {k : Nat} {o : Option α} {enc : α → Json} (h : ∀ a, o = some a → Fit f k (enc a)) :
    ∀ j, o.map enc = some j → Fit f k j := by
  intro j hj
  obtain ⟨a, ha, rfl⟩ := Option.map_eq_some_iff.1 hj
  exact h a ha

theorem fit_status (f : Floats) (a : Attempt Copied) : Fit f 2 (encStatus a) := by
  have s : ∀ k (o : Option String), ∀ j, o.map Json.str = some j → Fit f k j := fun k o => map_fit fun a _ => fit_str ..
  unfold encStatus
  cases a.status <;> dsimp only
  · exact fit_struct ⟨some_fit (fit_str ..), trivial⟩
  · exact fit_struct ⟨some_fit (fit_str ..), s _ _, s _ _, map_fit fun l _ => fit_strs f l, trivial⟩
  · exact fit_struct ⟨some_fit (fit_str ..), s _ _, trivial⟩
  · exact fit_struct ⟨some_fit (fit_str ..), s _ _, trivial⟩
  · exact fit_struct ⟨some_fit (fit_str ..), trivial⟩
  · exact fit_struct ⟨some_fit (fit_str ..), trivial⟩
  · exact fit_struct ⟨some_fit (fit_str ..), s _ _, trivial⟩
  · exact fit_struct ⟨some_fit (fit_str ..), trivial⟩

theorem fit_attempt (f : Floats) (rd : Readers) (a : Attempt Copied) (hn : ∀ t, rd.nanos t < 2 ^ 64)
    (hw : U32 a.payload.2.worker ∧ U32 a.payload.2.runner) (hf : FieldsOk f a.payload.1)
    (hd : depth (.obj a.payload.1.metadata) ≤ 122) : Fit f 123 (encAttempt rd a) := by
  have s : ∀ k (o : Option String), ∀ j, o.map Json.str = some j → Fit f k j := fun k o => map_fit fun a _ => fit_str ..
  refine fit_struct ⟨some_fit (fit_nat f _ _ ?_), some_fit ?_, some_fit ((fit_status f a).mono (by decide)),
    map_fit fun b _ => fit_str .., map_fit fun b _ => fit_str .., s _ _, s _ _, trivial⟩
  · have := hf.1
    unfold duration
    cases h : a.payload.1.runtime with
    | milliseconds t => exact hn t
    | nanoseconds n => rw [h] at this; exact this
  · refine fit_insert (k := 121) ⟨hf.2.2.1, hd⟩ ?_
    refine Fit.mono (k := 1) ((fit_members _).2 ?_) (by decide)
    intro x hx
    have l : (2 : Nat) ^ 32 < 2 ^ 64 := by decide
    simp only [List.mem_cons, List.not_mem_nil, or_false] at hx
    rcases hx with rfl | rfl
    · exact fit_nat f 0 _ (Nat.lt_trans hw.1 l)
    · exact fit_nat f 0 _ (Nat.lt_trans hw.2 l)

theorem fit_place (f : Floats) {l : Protocol.Location} (h : LocationOk l) : Fit f 1 (encLocation l) :=
  fit_struct ⟨some_fit (fit_str ..), map_fit fun n hn => fit_nat f 0 n (h.1 n hn), map_fit fun n hn => fit_nat f 0 n (h.2 n hn), trivial⟩

/-- What an attempt of a report is copied from. -/
def From (rs : List Result) (c : Copied) : Prop := ∃ r ∈ rs, c.2 = r.source.runner ∧ c.1 ∈ chronicle r.result

theorem own_payload (g : SpecFields) (w : WorkerRunner) : (own g w).payload = (g, w) := by
  unfold own; rw [specOf_mk]; rfl

theorem fields_mem (r : ResultSpec) : fieldsOf r ∈ chronicle r := by
  obtain ⟨g, past⟩ := r
  cases past <;> simp [fieldsOf, chronicle]

theorem from_tests (rs : List Result) (x : String × Test Copied) (hx : x ∈ (collected rs).tests) :
    From rs x.2.first ∧ ∀ a ∈ x.2.past.getD [] ++ [x.2.attempt], From rs a.payload := by
  obtain ⟨id, t⟩ := x
  have hfind := RwxJson.find_of_mem (RwxJson.inv (rs.map given)).nodup hx
  have sub : ∀ r ∈ countedOf rs id, r ∈ rs := fun r hr => (List.mem_filter.1 ((List.dropWhile_sublist _).subset hr)).1
  refine ⟨?_, fun a ha => ?_⟩
  · obtain ⟨s, hs, -, -, hf⟩ := Abq.Props.C78_named (rs.map given) id t hx
    rw [counted_eq, List.head?_map] at hs
    obtain ⟨r, hr, rfl⟩ := Option.map_eq_some_iff.1 hs
    refine ⟨r, sub r (List.mem_of_head? hr), ?_⟩
    rw [hf]
    unfold given
    obtain ⟨src, g, past⟩ := r
    dsimp only
    rw [specOf_mk]
    exact ⟨rfl, fields_mem (.mk g past)⟩
  · obtain ⟨hp, -⟩ := Abq.Props.C78_every_attempt (rs.map given) id
    have hh : RwxJson.historyOf (RwxJson.collect (rs.map given)) id = t.past.getD [] ++ [t.attempt] := by
      unfold RwxJson.historyOf; rw [hfind]
    rw [counted_eq, made_eq, hh] at hp
    obtain ⟨m, hm, rfl⟩ := List.mem_map.1 (hp.mem_iff.1 ha)
    obtain ⟨r, hr, hm⟩ := List.mem_flatMap.1 hm
    obtain ⟨g, hg, rfl⟩ := List.mem_map.1 hm
    rw [own_payload]
    exact ⟨r, sub r hr, rfl, hg⟩

theorem fit_test (f : Floats) (rd : Readers) (rs : List Result) (hn : ∀ t, rd.nanos t < 2 ^ 64)
    (hr : ∀ r ∈ rs, U32 r.source.runner.worker ∧ U32 r.source.runner.runner ∧
      ∀ g ∈ chronicle r.result, FieldsOk f g ∧ depth (.obj g.metadata) ≤ 122)
    (x : String × Test Copied) (hx : x ∈ (collected rs).tests) : Fit f 125 (encTest rd x) := by
  obtain ⟨h1, h2⟩ := from_tests rs x hx
  have att : ∀ a ∈ x.2.past.getD [] ++ [x.2.attempt], Fit f 123 (encAttempt rd a) := by
    intro a ha
    obtain ⟨r, hr', hw, hg⟩ := h2 a ha
    obtain ⟨w1, w2, hall⟩ := hr r hr'
    obtain ⟨hf, hd⟩ := hall _ hg
    exact fit_attempt f rd a hn (by rw [hw]; exact ⟨w1, w2⟩) hf hd
  refine fit_struct ⟨some_fit (fit_str ..), some_fit (fit_str ..), map_fit fun l _ => (fit_strs f l).mono (by decide),
    map_fit fun l hl => (fit_place f ?_).mono (by decide),
    some_fit ((att _ (List.mem_append_right _ (List.mem_singleton.2 rfl))).mono (by decide)),
    map_fit fun l hl => fit_map fun a ha => att a (List.mem_append_left _ (by rw [hl]; exact ha)), trivial⟩
  obtain ⟨r, hr', -, hg⟩ := h1
  obtain ⟨-, -, hall⟩ := hr r hr'
  exact (hall _ hg).1.2.2.2.1 l hl

theorem fit_framework (f : Floats) (spec : Option Protocol.Specification) : Fit f 1 (encFramework spec) := by
  unfold encFramework
  split
  · exact fit_struct ⟨some_fit (fit_str ..), some_fit (fit_str ..), trivial⟩
  · split
    · exact fit_struct ⟨some_fit (fit_str ..), some_fit (fit_str ..), trivial⟩
    · split
      · exact fit_struct ⟨some_fit (fit_str ..), some_fit (fit_str ..), trivial⟩
      · exact fit_struct ⟨some_fit (fit_str ..), some_fit (fit_str ..), some_fit (fit_str ..), some_fit (fit_str ..), trivial⟩

theorem fit_document (f : Floats) (rd : Readers) (rs : List Result) (spec : Option Protocol.Specification)
    (order : List (String × Test Copied)) (hp : order.Perm (collected rs).tests) (hn : ∀ t, rd.nanos t < 2 ^ 64)
    (hr : ∀ r ∈ rs, U32 r.source.runner.worker ∧ U32 r.source.runner.runner ∧
      ∀ g ∈ chronicle r.result, FieldsOk f g ∧ depth (.obj g.metadata) ≤ 122)
    (hs : order.length < 2 ^ 64) (he : (collected rs).errors.length < 2 ^ 64) :
    Fit f 127 (document rd (collected rs) order spec) := by
  refine fit_struct ⟨some_fit (fit_str ..), some_fit ((fit_framework f spec).mono (by decide)), some_fit ?_,
    some_fit (fit_map fun x hx => fit_test f rd rs hn hr x (hp.mem_iff.1 hx)),
    some_fit (Fit.mono (k := 2) (fit_map fun m _ => fit_struct ⟨some_fit (fit_str ..), trivial⟩) (by decide)), trivial⟩
  rw [summary_eq hp]
  refine Fit.mono (k := 2) ?_ (by decide)
  have c : ∀ p : String × Test Copied → Bool, Fit f 1 (.int (order.countP p)) := fun p =>
    fit_nat f 1 _ (Nat.lt_of_le_of_lt (List.countP_le_length (p := p)) hs)
  exact fit_struct ⟨some_fit (fit_struct ⟨some_fit (fit_str ..), trivial⟩), some_fit (fit_nat f 1 _ hs), some_fit (fit_nat f 1 _ he),
    some_fit (c _), some_fit (c _), some_fit (c _), some_fit (c _), some_fit (c _), some_fit (c _), some_fit (c _), some_fit (c _),
    some_fit (c _), trivial⟩

end Abq.RwxDocProof
