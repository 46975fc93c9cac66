import Verif.Spec.RwxJson
import Verif.Proof.Summary

namespace Abq.RwxJson
open Abq.Summary (Status)

variable {P : Type}

/-! ## One result -/

/-- The attempts before a result, in the order in which the report has them. -/
def earlier (s : Spec P) : Option (List (Attempt P)) := s.past.map fun ps => (attemptsOf ps).1

def listed (s : Spec P) : List (Attempt P) := (earlier s).getD [] ++ [s.own]

theorem attemptOf_eq (s : Spec P) :
    attemptOf s = if s.material then .attempt s.own (earlier s) ((s.past.map fun ps => (attemptsOf ps).2).getD [])
      else .synthetic s.crashMessage := by
  obtain ⟨id, name, status, output, located, payload, past⟩ := s
  cases status <;> cases past <;>
    simp [attemptOf, statusOf, Spec.material, Spec.status, Spec.own, reportedStatus, Spec.output, Spec.payload,
      earlier, Spec.past, Spec.crashMessage]

mutual
theorem crashes_eq (s : Spec P) : (s.past.map fun ps => (attemptsOf ps).2).getD [] = crashesOf s := by
  match s with
  | .mk _ _ _ _ _ _ none => rfl
  | .mk _ _ _ _ _ _ (some ps) => exact crashesIn_eq ps

theorem crashesIn_eq (ps : List (Spec P)) : (attemptsOf ps).2 = crashesIn ps := by
  match ps with
  | [] => rfl
  | p :: ps =>
    have h1 := crashes_eq p
    have h2 := crashesIn_eq ps
    rw [attemptsOf, attemptOf_eq, crashesIn, h1]
    by_cases h : p.material
    · rw [if_pos h, if_pos h, ← h2]
    · rw [if_neg h, if_neg h, ← h2]; rfl
end

mutual
theorem listed_perm (s : Spec P) : (listed s).Perm (chronicle s) := by
  match s with
  | .mk _ _ _ _ _ _ none => exact .refl _
  | .mk _ _ _ _ _ _ (some ps) => exact (attempts_perm ps).append_right _

theorem attempts_perm (ps : List (Spec P)) : (attemptsOf ps).1.Perm (chronicles ps) := by
  match ps with
  | [] => exact .refl _
  | p :: ps =>
    have h1 := listed_perm p
    have h2 := attempts_perm ps
    rw [attemptsOf, attemptOf_eq, chronicles]
    by_cases h : p.material
    · rw [if_pos h, if_pos h]
      refine .append (.trans ?_ h1) h2
      exact (List.perm_append_singleton _ _).symm
    · rw [if_neg h, if_neg h]; exact h2
end

theorem attemptsOf_listed (ps : List (Spec P)) : (attemptsOf ps).1 = asListedAll ps := by
  match ps with
  | [] => rfl
  | p :: ps =>
    have ih := attemptsOf_listed ps
    rw [attemptsOf, attemptOf_eq, asListedAll]
    by_cases hm : p.material = true
    · have hp : asListed p = p.own :: (earlier p).getD [] := by
        match p with
        | .mk id name status output located payload none => rw [asListed]; rfl
        | .mk id name status output located payload (some qs) =>
          have := attemptsOf_listed qs
          rw [asListed]
          simp [earlier, Spec.past, this]
      simp [hm, hp, ih]
    · simp [hm, ih]
termination_by sizeOf ps

theorem listed_none {s : Spec P} (h : s.past = none) : listed s = [s.own] ∧ chronicle s = [s.own] := by
  obtain ⟨id, name, status, output, located, payload, past⟩ := s
  cases h
  exact ⟨rfl, rfl⟩

theorem attempts_shallow (ps : List (Spec P)) (h : ∀ p ∈ ps, p.past = none) : (attemptsOf ps).1 = chronicles ps := by
  induction ps with
  | nil => rfl
  | cons p ps ih =>
    have h1 := h p (List.mem_cons_self ..)
    rw [attemptsOf, attemptOf_eq, chronicles, (listed_none h1).2, ← ih fun q hq => h q (List.mem_cons_of_mem _ hq)]
    by_cases hm : p.material
    · rw [if_pos hm, if_pos hm]; simp [earlier, h1]
    · rw [if_neg hm, if_neg hm]; rfl

theorem listed_shallow (s : Spec P) (h : s.shallow) : listed s = chronicle s := by
  obtain ⟨id, name, status, output, located, payload, past⟩ := s
  cases past with
  | none => rfl
  | some ps => exact congrArg (· ++ _) (attempts_shallow ps (h ps rfl))

/-! ## The collector -/

theorem stray_eq (s : Spec P) : strayMessage s.name s.output = s.strayError := by
  unfold strayMessage Spec.strayError
  cases s.output with
  | some m => rfl
  | none =>
    show "'" ++ s.name ++ "': " ++ "failed outside the test suite" = "'" ++ s.name ++ "': failed outside the test suite"
    rw [String.append_assoc]
    congr 1

theorem collect_snoc (rs : List (Spec P)) (s : Spec P) : collect (rs ++ [s]) = (collect rs).push s := by
  simp [collect, List.foldl_append]

theorem push_eq (c : Collector P) (s : Spec P) :
    c.push s =
      if s.material then
        if s.id ∈ c.tests.map (·.1) then
          { tests := change s.id (·.retry s.own (earlier s)) c.tests, errors := c.errors ++ crashesOf s }
        else if s.stray then { c with errors := c.errors ++ (crashesOf s ++ [s.strayError]) }
        else { tests := c.tests ++ [(s.id, ⟨s.name, s.located, s.payload, s.own, earlier s⟩)], errors := c.errors ++ crashesOf s }
      else { c with errors := c.errors ++ [s.crashMessage] } := by
  unfold Collector.push
  rw [attemptOf_eq, crashes_eq]
  rw [← stray_eq]
  simp only [List.contains_iff_mem]
  by_cases hm : s.material
  · simp only [hm, if_true]
    by_cases hk : s.id ∈ c.tests.map (·.1)
    · rw [if_pos hk, if_pos hk]
    · rw [if_neg hk, if_neg hk]
      cases hl : s.located
      · simp only [Bool.false_eq_true, if_false, Spec.stray, hl, Bool.not_false, Bool.true_and]
        cases hs : s.status <;>
          simp [Spec.own, reportedStatus, hs, Spec.material, List.append_assoc] at hm ⊢
      · simp [Spec.stray, hl]
  · simp only [hm, Bool.false_eq_true, if_false]
    split <;> rfl

theorem errorsFrom_append (b xs ys : List (Spec P)) :
    errorsFrom b (xs ++ ys) = errorsFrom b xs ++ errorsFrom (b ++ xs) ys := by
  induction xs generalizing b with
  | nil => simp [errorsFrom]
  | cons x xs ih => simp [errorsFrom, ih, List.append_assoc]

theorem countedOf_snoc (rs : List (Spec P)) (s : Spec P) (id : String) :
    countedOf (rs ++ [s]) id =
      if s.material = true ∧ s.id = id then
        if countedOf rs id = [] then (if s.stray then [] else [s]) else countedOf rs id ++ [s]
      else countedOf rs id := by
  by_cases h : s.material = true ∧ s.id = id
  · have h1 : resultsOf (rs ++ [s]) id = resultsOf rs id ++ [s] := by
      simp [resultsOf, h.1, h.2]
    have h2 : countedOf (rs ++ [s]) id =
        if (countedOf rs id).isEmpty then [s].dropWhile (·.stray) else countedOf rs id ++ [s] := by
      rw [countedOf, h1, List.dropWhile_append]; rfl
    rw [if_pos h, h2, List.dropWhile_cons, List.dropWhile_nil]
    by_cases hd : countedOf rs id = []
    · simp [hd]
    · simp [hd, List.isEmpty_iff]
  · rw [if_neg h, countedOf, resultsOf, List.filter_append]
    have : [s].filter (fun s => s.material && s.id == id) = [] := by
      simp only [List.filter_cons, List.filter_nil, Bool.and_eq_true, beq_iff_eq, if_neg h]
    rw [this, List.append_nil]; rfl

theorem find_map_fst {α β : Type} [BEq α] [LawfulBEq α] (l : List (α × β)) (k : α) :
    l.find? (·.1 == k) = none ↔ k ∉ l.map (·.1) := by
  simp only [List.find?_eq_none, List.mem_map, not_exists, not_and, beq_iff_eq]

theorem change_keys (id : String) (f : Test P → Test P) (l : List (String × Test P)) :
    (change id f l).map (·.1) = l.map (·.1) := by
  induction l with
  | nil => rfl
  | cons p l ih =>
    rw [change]; split
    · rfl
    · simp [ih]

theorem change_find (id k : String) (f : Test P → Test P) (l : List (String × Test P)) :
    (change id f l).find? (·.1 == k) = (l.find? (·.1 == k)).map fun p => if k = id then (p.1, f p.2) else p := by
  induction l with
  | nil => rfl
  | cons p l ih =>
    obtain ⟨q, t⟩ := p
    rw [change]
    by_cases h : q = id
    · subst h
      rw [if_pos rfl]
      by_cases hk : q = k
      · subst hk; simp
      · have hk' : (q == k) = false := by simpa using hk
        rw [List.find?_cons, List.find?_cons]
        simp only [hk']
        have : k ≠ q := fun e => hk e.symm
        simp [this]
    · rw [if_neg h]
      by_cases hk : q = k
      · subst hk; simp [h]
      · have hk' : (q == k) = false := by simpa using hk
        rw [List.find?_cons, List.find?_cons]
        simp only [hk', ih]

/-- What is known of the entry of a test. -/
def EntryOf (rs : List (Spec P)) (id : String) (c : Collector P) : Prop :=
  match c.tests.find? (·.1 == id), countedOf rs id with
  | none, [] => True
  | some (k, t), s :: ss => k = id ∧ t.past.getD [] ++ [t.attempt] = (s :: ss).flatMap listed ∧ t.name = s.name ∧
      (t.located = s.located ∧ t.first = s.payload) ∧ some t.attempt = (s :: ss).getLast?.map (·.own)
  | _, _ => False

structure Inv (rs : List (Spec P)) (c : Collector P) : Prop where
  nodup : (c.tests.map (·.1)).Nodup
  entry : ∀ id, EntryOf rs id c
  errors : c.errors = errorsFrom [] rs

theorem EntryOf.mem {rs : List (Spec P)} {id : String} {c : Collector P} (h : EntryOf rs id c) :
    id ∈ c.tests.map (·.1) ↔ countedOf rs id ≠ [] := by
  unfold EntryOf at h
  split at h
  · next h1 h2 => simp [(find_map_fst _ _).1 h1, h2]
  · next k t s ss h1 h2 =>
    rw [h2]
    refine ⟨fun _ => by simp, fun _ => ?_⟩
    refine Classical.byContradiction fun hn => ?_
    rw [(find_map_fst _ _).2 hn] at h1; cases h1
  · exact h.elim

theorem EntryOf.congr {rs rs' : List (Spec P)} {id : String} {c c' : Collector P} (h : EntryOf rs id c)
    (h1 : c'.tests.find? (·.1 == id) = c.tests.find? (·.1 == id)) (h2 : countedOf rs' id = countedOf rs id) :
    EntryOf rs' id c' := by
  unfold EntryOf at *
  rw [h1, h2]; exact h

theorem inv_push {rs : List (Spec P)} {c : Collector P} (h : Inv rs c) (s : Spec P) : Inv (rs ++ [s]) (c.push s) := by
  have hmem := (h.entry s.id).mem
  have herr : errorsFrom [] (rs ++ [s]) = c.errors ++ errorsFrom rs [s] := by
    rw [errorsFrom_append, h.errors]; rfl
  have hes : errorsFrom rs [s] = (if s.material then
      crashesOf s ++ (if s.stray && (countedOf rs s.id).isEmpty then [s.strayError] else [])
    else [s.crashMessage]) := by simp [errorsFrom]
  rw [push_eq]
  by_cases hm : s.material
  · rw [if_pos hm] at hes ⊢
    by_cases hk : s.id ∈ c.tests.map (·.1)
    · rw [if_pos hk]
      have hc := hmem.1 hk
      refine ⟨by dsimp only; rw [change_keys]; exact h.nodup, fun id => ?_, ?_⟩
      · by_cases he : s.id = id
        · subst he
          have hen := h.entry s.id
          unfold EntryOf at hen ⊢
          rw [change_find, countedOf_snoc, if_pos ⟨hm, rfl⟩, if_neg hc]
          split at hen
          · next h1 h2 => exact (hc h2).elim
          · next k t s' ss h1 h2 =>
            rw [h1, h2]
            obtain ⟨rfl, e1, e2, e3, e4⟩ := hen
            simp only [Option.map_some, if_true]
            refine ⟨rfl, ?_, e2, e3, ?_⟩
            · simp only [Test.retry, Option.getD_some]
              show _ = (s' :: (ss ++ [s])).flatMap listed
              have : (s' :: (ss ++ [s])).flatMap listed = (s' :: ss).flatMap listed ++ listed s := by
                rw [← List.cons_append, List.flatMap_append]; simp
              rw [this, ← e1, listed]
              simp [List.append_assoc]
            · simp only [Test.retry]
              show some s.own = (s' :: (ss ++ [s])).getLast?.map (·.own)
              rw [← List.cons_append, List.getLast?_append]; rfl
          · exact hen.elim
        · refine (h.entry id).congr ?_ ?_
          · dsimp only; rw [change_find]
            have : id ≠ s.id := fun e => he e.symm
            simp [this]
          · rw [countedOf_snoc, if_neg fun e => he e.2]
      · rw [herr, hes]
        have : (countedOf rs s.id).isEmpty = false := by simpa [List.isEmpty_iff] using hc
        simp [this]
    · rw [if_neg hk]
      have hc : countedOf rs s.id = [] := by
        exact Classical.byContradiction fun hne => hk (hmem.2 hne)
      by_cases hs : s.stray
      · rw [if_pos hs]
        refine ⟨h.nodup, fun id => (h.entry id).congr rfl ?_, ?_⟩
        · rw [countedOf_snoc]
          split
          · next he => rw [← he.2, hc]; simp [hs]
          · rfl
        · rw [herr, hes]; simp [hs, hc]
      · rw [if_neg hs]
        refine ⟨?_, fun id => ?_, ?_⟩
        · simp only [List.map_append, List.map_cons, List.map_nil]
          rw [List.nodup_append]
          refine ⟨h.nodup, by simp, ?_⟩
          rintro a ha b hb rfl
          simp only [List.mem_singleton] at hb
          subst hb; exact hk ha
        · by_cases he : s.id = id
          · subst he
            unfold EntryOf
            rw [countedOf_snoc, if_pos ⟨hm, rfl⟩, if_pos hc, if_neg hs]
            dsimp only
            rw [List.find?_append, (find_map_fst _ _).2 hk]
            simp [listed]
          · refine (h.entry id).congr ?_ ?_
            · dsimp only
              rw [List.find?_append]
              have : (s.id == id) = false := by simpa using he
              simp [this]
            · rw [countedOf_snoc, if_neg fun e => he e.2]
        · rw [herr, hes]; simp [hs]
  · rw [if_neg hm] at hes ⊢
    refine ⟨h.nodup, fun id => (h.entry id).congr rfl ?_, ?_⟩
    · rw [countedOf_snoc, if_neg fun e => hm e.1]
    · rw [herr, hes]

theorem inv (rs : List (Spec P)) : Inv rs (collect rs) := by
  have : ∀ n (l : List (Spec P)), l.length = n → Inv l (collect l) := by
    intro n
    induction n with
    | zero =>
      intro l hl
      rw [List.length_eq_zero_iff] at hl; subst hl
      exact ⟨List.nodup_nil, fun _ => trivial, rfl⟩
    | succ n ih =>
      intro l hl
      obtain ⟨l', s, rfl⟩ : ∃ l' s, l = l' ++ [s] :=
        ⟨l.dropLast, l.getLast (by rintro rfl; simp at hl), (List.dropLast_concat_getLast _).symm⟩
      rw [collect_snoc]
      exact inv_push (ih l' (by simpa using hl)) s
  exact this _ rs rfl

theorem history_eq (rs : List (Spec P)) (id : String) : historyOf (collect rs) id = (countedOf rs id).flatMap listed := by
  have h := (inv rs).entry id
  unfold EntryOf at h
  unfold historyOf
  split at h
  · next h1 h2 => rw [h1, h2]; rfl
  · next k t s ss h1 h2 => rw [h1, h2]; exact h.2.1
  · exact h.elim

/-! ## The summary -/

/-- A status that makes the report fail. -/
def AttemptStatus.bad : AttemptStatus → Bool
  | .canceled | .failed _ | .timedOut => true
  | _ => false

def isFailed : AttemptStatus → Bool | .failed _ => true | _ => false
def isPended : AttemptStatus → Bool | .pended _ => true | _ => false
def isSkipped : AttemptStatus → Bool | .skipped _ => true | _ => false
def isTodo : AttemptStatus → Bool | .todo _ => true | _ => false

theorem account_fold (l : List (Test P)) (s : Summary) :
    l.foldl Summary.account s =
      { failed := s.failed || l.any (·.attempt.status.bad)
        tests := s.tests + l.length
        otherErrors := s.otherErrors
        retries := s.retries + l.countP (·.retried)
        canceled := s.canceled + l.countP (fun t => t.attempt.status = .canceled)
        failures := s.failures + l.countP (fun t => isFailed t.attempt.status)
        pended := s.pended + l.countP (fun t => isPended t.attempt.status)
        quarantined := s.quarantined + l.countP (fun t => t.attempt.status = .quarantined)
        skipped := s.skipped + l.countP (fun t => isSkipped t.attempt.status)
        successful := s.successful + l.countP (fun t => t.attempt.status = .successful)
        timedOut := s.timedOut + l.countP (fun t => t.attempt.status = .timedOut)
        todo := s.todo + l.countP (fun t => isTodo t.attempt.status) } := by
  induction l generalizing s with
  | nil => simp
  | cons t l ih =>
    rw [List.foldl_cons, ih]
    unfold Summary.account
    cases h : t.attempt.status <;>
      simp [List.countP_cons, h, AttemptStatus.bad, isFailed, isPended, isSkipped, isTodo] <;> omega

theorem find_of_mem {α β : Type} [BEq α] [LawfulBEq α] {l : List (α × β)} (h : (l.map (·.1)).Nodup) {k : α} {b : β}
    (hm : (k, b) ∈ l) : l.find? (·.1 == k) = some (k, b) := by
  induction l with
  | nil => cases hm
  | cons p l ih =>
    rw [List.map_cons, List.nodup_cons] at h
    rcases List.mem_cons.1 hm with rfl | hm'
    · simp
    · have hne : (p.1 == k) = false := by
        simp only [beq_eq_false_iff_ne]
        rintro rfl
        exact h.1 (List.mem_map.2 ⟨_, hm', rfl⟩)
      rw [List.find?_cons, hne]; exact ih h.2 hm'

/-- The last result of the test of an entry, and the number of its attempts. -/
theorem entry_mem (rs : List (Spec P)) {k : String} {t : Test P} (h : (k, t) ∈ (collect rs).tests) :
    (∃ s, (countedOf rs k).getLast? = some s ∧ s.material = true ∧ t.attempt = s.own) ∧
      (t.retried = true ↔ 2 ≤ ((countedOf rs k).flatMap chronicle).length) := by
  have hi := inv rs
  have he := hi.entry k
  unfold EntryOf at he
  rw [find_of_mem hi.nodup h] at he
  split at he
  · next h1 _ => cases h1
  · next k' t' s ss h1 h2 =>
    cases h1
    obtain ⟨-, e1, -, -, e4⟩ := he
    rw [h2]
    constructor
    · cases hl : (s :: ss).getLast? with
      | none => rw [hl] at e4; cases e4
      | some x =>
        rw [hl] at e4
        refine ⟨x, rfl, ?_, by simpa using e4⟩
        have hx : x ∈ countedOf rs k := h2 ▸ List.mem_of_getLast? hl
        have := (List.dropWhile_sublist _).subset hx
        simp only [resultsOf, List.mem_filter, Bool.and_eq_true] at this
        exact this.2.1
    · have hl : ((s :: ss).flatMap chronicle).length = ((s :: ss).flatMap listed).length := by
        simp only [List.length_flatMap]
        congr 1
        exact List.map_congr_left fun x _ => (listed_perm x).length_eq.symm
      rw [hl, ← e1]
      unfold Test.retried
      cases t.past with
      | none => simp
      | some l => cases l <;> simp
  · exact he.elim

theorem keys_perm (rs : List (Spec P)) {ids : List String} (h : TestsOf rs ids) :
    ((collect rs).tests.map (·.1)).Perm ids :=
  (List.perm_ext_iff_of_nodup (inv rs).nodup h.1).2 fun id => by rw [((inv rs).entry id).mem, h.2]

theorem countP_entries (rs : List (Spec P)) {ids : List String} (h : TestsOf rs ids) (p : Test P → Bool) (q : String → Bool)
    (hpq : ∀ k t, (k, t) ∈ (collect rs).tests → p t = q k) :
    ((collect rs).tests.map (·.2)).countP p = ids.countP q := by
  rw [← (keys_perm rs h).countP_eq, List.countP_map, List.countP_map]
  exact List.countP_congr fun x hx => by
    obtain ⟨k, t⟩ := x
    simp only [Function.comp_apply, hpq k t hx]

theorem exists_testsOf (rs : List (Spec P)) : ∃ ids, TestsOf rs ids :=
  ⟨(collect rs).tests.map (·.1), (inv rs).nodup, fun id => ((inv rs).entry id).mem⟩

/-! ## The summary of the suite -/

theorem errorsFrom_snoc (rs : List (Spec P)) (s : Spec P) : errorsFrom [] (rs ++ [s]) = errorsFrom [] rs ++
    (if s.material then
      crashesOf s ++ (if s.stray && (countedOf rs s.id).isEmpty then [s.strayError] else [])
    else [s.crashMessage]) := by
  rw [errorsFrom_append]; simp [errorsFrom]

theorem snoc_induction {α : Type} {P : List α → Prop} (h0 : P []) (h1 : ∀ l a, P l → P (l ++ [a])) (l : List α) : P l := by
  have : ∀ n (l : List α), l.length = n → P l := by
    intro n
    induction n with
    | zero => intro l hl; rw [List.length_eq_zero_iff] at hl; exact hl ▸ h0
    | succ n ih =>
      intro l hl
      obtain ⟨l', s, rfl⟩ : ∃ l' s, l = l' ++ [s] :=
        ⟨l.dropLast, l.getLast (by rintro rfl; simp at hl), (List.dropLast_concat_getLast _).symm⟩
      exact h1 _ _ (ih l' (by simpa using hl))
  exact this _ l rfl

theorem material_of_errors {rs : List (Spec P)} (h : errorsFrom [] rs = []) : ∀ s ∈ rs, s.material = true := by
  revert h
  refine snoc_induction (P := fun rs => errorsFrom [] rs = [] → ∀ s ∈ rs, s.material = true) ?_ ?_ rs
  · intro _ s hs; cases hs
  · intro l a ih h s hs
    rw [errorsFrom_snoc, List.append_eq_nil_iff] at h
    rcases List.mem_append.1 hs with hs | hs
    · exact ih h.1 s hs
    · simp only [List.mem_singleton] at hs
      subst hs
      refine Classical.byContradiction fun hm => ?_
      rw [if_neg hm] at h
      cases h.2

theorem counted_of_errors {rs : List (Spec P)} (h : errorsFrom [] rs = []) (id : String) :
    countedOf rs id = resultsOf rs id := by
  revert h
  refine snoc_induction (P := fun rs => errorsFrom [] rs = [] → countedOf rs id = resultsOf rs id) ?_ ?_ rs
  · intro _; rfl
  · intro l a ih h
    rw [errorsFrom_snoc, List.append_eq_nil_iff] at h
    have ih := ih h.1
    rw [countedOf_snoc, resultsOf, List.filter_append]
    by_cases hm : a.material = true ∧ a.id = id
    · have h2 := h.2
      rw [if_pos hm.1, List.append_eq_nil_iff] at h2
      have h2 := h2.2
      rw [if_pos hm]
      have e : [a].filter (fun s => s.material && s.id == id) = [a] := by simp [hm.1, hm.2]
      rw [e]
      show _ = resultsOf l id ++ [a]
      rw [← ih]
      by_cases hc : countedOf l id = []
      · rw [hm.2, hc] at h2
        cases hs : a.stray with
        | true => simp [hs] at h2
        | false => simp [hc]
      · simp [hc]
    · rw [if_neg hm, ih]
      have e : [a].filter (fun s => s.material && s.id == id) = [] := by
        simp only [List.filter_cons, List.filter_nil, Bool.and_eq_true, beq_iff_eq, if_neg hm]
      rw [e, List.append_nil]; rfl

theorem errors_nil (b rs : List (Spec P)) (h : ∀ s ∈ rs, s.material = true ∧ crashesOf s = [] ∧ s.stray = false) :
    errorsFrom b rs = [] := by
  induction rs generalizing b with
  | nil => rfl
  | cons s rs ih =>
    obtain ⟨h1, h2, h3⟩ := h s (List.mem_cons_self ..)
    rw [errorsFrom, ih _ fun x hx => h x (List.mem_cons_of_mem _ hx)]
    simp [h1, h2, h3]

theorem unresolved_material (h : List Summary.Result) (hm : ∀ r ∈ h, r.material = true) : Summary.unresolved h = [] := by
  induction h with
  | nil => rfl
  | cons r h ih =>
    rw [Summary.unresolved, hm r (List.mem_cons_self ..)]
    simpa using ih fun x hx => hm x (List.mem_cons_of_mem _ hx)

theorem statuses_agree (h : List (Reported P)) (id : String) :
    (Summary.resultsOf (h.map (·.view)) id).map (·.status) = (resultsOf (h.map (·.spec)) id).map (·.status) := by
  simp only [Summary.resultsOf, resultsOf, List.filter_map, List.map_map]
  rfl

/-- A test whose last result is not a failure did not fail. -/
theorem failedTest_last (rs : List Summary.Result) (h : ∀ r, rs.getLast? = some r → r.status.isFailLike = false) :
    Summary.failedTest rs = false := by
  unfold Summary.failedTest
  split
  · rfl
  · next r later e =>
    have hs : (r :: later) <:+ rs := e ▸ List.dropWhile_suffix _
    obtain ⟨pre, rfl⟩ := hs
    have hr : r.status.isFailLike = true := by
      have := List.head?_dropWhile_not (fun r : Summary.Result => !r.status.isFailLike) (pre ++ r :: later)
      rw [e] at this
      simpa using this
    cases hb : (r.runNumber == 1 && later.all (·.status.isFailLike)) with
    | false => rfl
    | true =>
      simp only [Bool.and_eq_true, List.all_eq_true] at hb
      have hl := h ((r :: later).getLast (by simp)) (by
        rw [List.getLast?_append, List.getLast?_eq_some_getLast (by simp)]; rfl)
      rcases List.mem_cons.1 (List.getLast_mem (l := r :: later) (by simp)) with e' | e'
      · rw [e', hr] at hl; cases hl
      · rw [hb.2 _ e'] at hl; cases hl

end Abq.RwxJson
