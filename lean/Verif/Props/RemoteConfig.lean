import Verif.Spec.RemoteConfig
import Verif.Props.Names
import Verif.Props.OffloadJob
import Verif.Props.RunStateDoc

/-! # Remote persistence works as configured (C104) -/

namespace Abq.RemoteConfig
open Abq.RemoteConfig.Spec
open Abq.Names (Str Kind buildKey)
open Abq.Results (Bytes LoadOut)

theorem splitComma_ne (s : Str) : splitComma s ≠ [] := by
  cases s with
  | nil => simp [splitComma]
  | cons c cs =>
    simp only [splitComma]
    split
    · simp
    · split <;> simp

theorem splitComma_spec (s : Str) : joinComma (splitComma s) = s ∧ ∀ p ∈ splitComma s, ',' ∉ p := by
  induction s with
  | nil => simp [splitComma, joinComma]
  | cons c cs ih =>
    obtain ⟨h1, h2⟩ := ih
    simp only [splitComma]
    cases hs : splitComma cs with
    | nil => exact absurd hs (splitComma_ne cs)
    | cons p ps =>
      rw [hs] at h1 h2
      by_cases hc : c = ','
      · subst hc
        simp only [if_true]
        refine ⟨by rw [joinComma, h1]; rfl; simp, ?_⟩
        intro q hq
        rcases List.mem_cons.mp hq with rfl | hq
        · simp
        · exact h2 q hq
      · simp only [hc, if_false]
        refine ⟨?_, ?_⟩
        · cases ps with
          | nil => simp only [joinComma] at h1 ⊢; rw [h1]
          | cons q qs => simp only [joinComma] at h1 ⊢; rw [← h1]; rfl
        · intro q hq
          rcases List.mem_cons.mp hq with rfl | hq
          · simp only [List.mem_cons, not_or]
            exact ⟨fun e => hc e.symm, h2 p (by simp)⟩
          · exact h2 q (by simp [hq])

theorem kind_str (k : Kind) : k.str = (typeName k).toList := by cases k <;> rfl

theorem typeName_inj {k k' : Kind} (h : (typeName k).toList = (typeName k').toList) : k = k' := by
  revert h
  cases k <;> cases k' <;> decide

end Abq.RemoteConfig

namespace Abq.Props
open Abq.RemoteConfig Abq.RemoteConfig.Spec
open Abq.Names (Str Kind buildKey)
open Abq.Results (Bytes LoadOut)

/-- C104: which persister a queue works with. Without a strategy there is none, whatever else is given; S3 needs
a bucket and a key prefix, a command needs the command; nothing else is asked for, and nothing is made up. -/
theorem C104_configuration (o : Options) (p : Persister) :
    resolve true o = .ok p ↔
      (o.strategy = none ∧ p = .noop) ∨
      (o.strategy = some .s3 ∧ ∃ b pre, o.bucket = some b ∧ o.keyPrefix = some pre ∧ p = .s3 b pre) ∨
      (o.strategy = some .custom ∧ ∃ c args, o.command = some (joinComma (c :: args)) ∧
        (∀ x ∈ c :: args, ',' ∉ x) ∧ p = .custom c args) := by
  have huniq : ∀ (a b : List Str), a ≠ [] → b ≠ [] → (∀ x ∈ a, ',' ∉ x) → (∀ x ∈ b, ',' ∉ x) →
      joinComma a = joinComma b → a = b := by
    have hsplit : ∀ (l : List Str), l ≠ [] → (∀ x ∈ l, ',' ∉ x) → splitComma (joinComma l) = l := by
      have hone : ∀ (p s : Str), ',' ∉ p → splitComma (p ++ ',' :: s) = p :: splitComma s := by
        intro p
        induction p with
        | nil => intro s _; simp [splitComma]
        | cons c cs ih =>
          intro s hp
          simp only [List.mem_cons, not_or] at hp
          have hc : c ≠ ',' := fun e => hp.1 e.symm
          simp only [List.cons_append, splitComma, hc, if_false, ih s hp.2]
      have hlast : ∀ (p : Str), ',' ∉ p → splitComma p = [p] := by
        intro p
        induction p with
        | nil => intro _; rfl
        | cons c cs ih =>
          intro hp
          simp only [List.mem_cons, not_or] at hp
          have hc : c ≠ ',' := fun e => hp.1 e.symm
          simp only [splitComma, hc, if_false, ih hp.2]
      intro l
      induction l with
      | nil => intro h; exact absurd rfl h
      | cons p ps ih =>
        intro _ hl
        cases ps with
        | nil => simp only [joinComma]; exact hlast p (hl p (by simp))
        | cons q qs =>
          simp only [joinComma]
          rw [hone p _ (hl p (by simp)), ih (by simp) (fun x hx => hl x (by simp [hx]))]
    intro a b ha hb ha' hb' h
    rw [← hsplit a ha ha', ← hsplit b hb hb', h]
  unfold resolve
  cases hs : o.strategy with
  | none => simp [eq_comm]
  | some s =>
    cases s with
    | s3 =>
      simp only [if_true, buildS3]
      cases o.bucket <;> cases o.keyPrefix <;> simp [eq_comm]
    | custom =>
      simp only [buildCustom]
      cases hc : o.command with
      | none => simp
      | some c =>
        have hne := splitComma_ne c
        obtain ⟨h1, h2⟩ := splitComma_spec c
        cases hsp : splitComma c with
        | nil => exact absurd hsp hne
        | cons q qs =>
          rw [hsp] at h1 h2
          simp only [hsp, Except.ok.injEq, reduceCtorEq, false_and, false_or, true_and, Option.some.injEq]
          constructor
          · rintro rfl; exact ⟨q, qs, h1.symm, h2, rfl⟩
          · rintro ⟨c', args, hc', hno, rfl⟩
            have := huniq (q :: qs) (c' :: args) (by simp) (by simp) h2 hno (h1.trans hc')
            injection this with e1 e2
            rw [e1, e2]

/-- The command of the documentation, with two arguments. -/
example :
    resolve true { strategy := some .custom, command := some "node,store.js,-v".toList, bucket := none,
                   keyPrefix := none, offloadManifests := none, offloadResults := none, staleHours := 6 } =
      .ok (.custom "node".toList ["store.js".toList, "-v".toList]) := by rfl

/-- C104: a strategy is read from its name as it is shown, and from nothing else. -/
theorem C104_strategy_names (s : Str) (x : Strategy) : parseStrategy s = some x ↔ s = x.str := by
  unfold parseStrategy
  cases x <;> simp only [Strategy.str]
  · constructor
    · intro h
      split at h
      · assumption
      · split at h <;> simp at h
    · intro h; rw [if_pos h]
  · constructor
    · intro h
      split at h
      · simp at h
      · split at h
        · assumption
        · simp at h
    · rintro rfl; rfl

/-- C104: over S3, whatever the prefix of the keys, the remote is a place of its own for every kind of record of
every run: any history of storing and loading, of any runs and with any failures, goes as on the ideal store. -/
theorem C104_s3_is_ideal (pre : Str) (w : World (Str → Option Bytes)) (ops : List Op) :
    let run := ops.foldl (fun (s : World (Str → Option Bytes) × List Bool) op =>
      ((s3Step pre s.1 op).1, s.2 ++ [(s3Step pre s.1 op).2])) (w, [])
    Runs ⟨w.disk, fun k r => w.remote (buildKey pre k r)⟩ ops
      ⟨run.1.disk, fun k r => run.1.remote (buildKey pre k r)⟩ run.2 := by
  have hstep : ∀ (w : World (Str → Option Bytes)) (op : Op),
      Does ⟨w.disk, fun k r => w.remote (buildKey pre k r)⟩ op
        ⟨(s3Step pre w op).1.disk, fun k r => (s3Step pre w op).1.remote (buildKey pre k r)⟩
        (s3Step pre w op).2 := by
    intro w op
    cases op with
    | write p b => exact .write _ p b
    | store k r p f =>
      simp only [s3Step]
      cases hd : w.disk p with
      | none => exact .storeNoFile _ k r p f hd
      | some b =>
        have heq : (fun k' r' => put w.remote (buildKey pre k r) b (buildKey pre k' r')) =
            fun k' r' => if k' = k ∧ r' = r then some b else w.remote (buildKey pre k' r') := by
          funext k' r'
          unfold put
          by_cases h : k' = k ∧ r' = r
          · obtain ⟨rfl, rfl⟩ := h; simp
          · rw [if_neg h, if_neg (fun e => h (C21_remote_keys_differ pre k' k r' r e))]
        cases f with
        | refused => exact .storeFails _ k r p
        | ok =>
          have := Does.store ⟨w.disk, fun k r => w.remote (buildKey pre k r)⟩ k r p b hd
          dsimp only
          rw [heq]
          exact this
        | unanswered =>
          have := Does.storeUnanswered ⟨w.disk, fun k r => w.remote (buildKey pre k r)⟩ k r p b hd
          dsimp only
          rw [heq]
          exact this
    | load k r p out =>
      simp only [s3Step]
      cases hr : w.remote (buildKey pre k r) with
      | none => exact .loadNothing _ k r p out hr
      | some b =>
        cases out with
        | ok => exact .load _ k r p b hr
        | refused => exact .loadRefused _ k r p
        | cut n => exact .loadCut _ k r p b n hr
  dsimp only
  have hgen : ∀ (ops : List Op) (w : World (Str → Option Bytes)) (acc : List Bool),
      ∃ as, (ops.foldl (fun (s : World (Str → Option Bytes) × List Bool) op =>
          ((s3Step pre s.1 op).1, s.2 ++ [(s3Step pre s.1 op).2])) (w, acc)).2 = acc ++ as ∧
        Runs ⟨w.disk, fun k r => w.remote (buildKey pre k r)⟩ ops
          ⟨(ops.foldl (fun (s : World (Str → Option Bytes) × List Bool) op =>
            ((s3Step pre s.1 op).1, s.2 ++ [(s3Step pre s.1 op).2])) (w, acc)).1.disk,
           fun k r => (ops.foldl (fun (s : World (Str → Option Bytes) × List Bool) op =>
            ((s3Step pre s.1 op).1, s.2 ++ [(s3Step pre s.1 op).2])) (w, acc)).1.remote (buildKey pre k r)⟩ as := by
    intro ops
    induction ops with
    | nil => intro w acc; exact ⟨[], by simp, .nil _⟩
    | cons op ops ih =>
      intro w acc
      obtain ⟨as, h1, h2⟩ := ih (s3Step pre w op).1 (acc ++ [(s3Step pre w op).2])
      refine ⟨(s3Step pre w op).2 :: as, ?_, ?_⟩
      · rw [List.foldl_cons, h1]; simp
      · rw [List.foldl_cons]
        exact .cons (hstep w op) h2
  obtain ⟨as, h1, h2⟩ := hgen ops w []
  rw [h1]
  exact h2

/-- C104: with a command that does what the documentation asks for, whatever arguments it is configured with, the
remote is a place of its own for every kind of record of every run. -/
theorem C104_command_is_ideal (exec : Exec (Str → Str → Option Bytes)) (command : Str) (args : List Str)
    (hdoc : Documented exec command args) (w : World (Str → Str → Option Bytes)) (ops : List Op)
    (hsm : ∀ op ∈ ops, Smooth op) :
    let run := ops.foldl (fun (s : World (Str → Str → Option Bytes) × List Bool) op =>
      ((customStep exec command args s.1 op).1, s.2 ++ [(customStep exec command args s.1 op).2])) (w, [])
    Runs ⟨w.disk, fun k r => w.remote (typeName k).toList r⟩ ops
      ⟨run.1.disk, fun k r => run.1.remote (typeName k).toList r⟩ run.2 := by
  have hstep : ∀ (w : World (Str → Str → Option Bytes)) (op : Op), Smooth op →
      Does ⟨w.disk, fun k r => w.remote (typeName k).toList r⟩ op
        ⟨(customStep exec command args w op).1.disk,
          fun k r => (customStep exec command args w op).1.remote (typeName k).toList r⟩
        (customStep exec command args w op).2 := by
    intro w op hop
    cases op with
    | write p b => exact .write _ p b
    | store k r p f =>
      have hf : f = .ok := hop
      subst hf
      simp only [customStep, call, Bool.false_eq_true, if_false, kind_str]
      cases hd : w.disk p with
      | none =>
        rw [hdoc.storeNoFile _ _ _ _ hd]
        exact .storeNoFile _ k r p .ok hd
      | some b =>
        rw [hdoc.store _ _ _ _ b hd]
        have heq : (fun (k' : Kind) r' => if (typeName k').toList = (typeName k).toList ∧ r' = r then some b
            else w.remote (typeName k').toList r') =
            fun (k' : Kind) r' => if k' = k ∧ r' = r then some b else w.remote (typeName k').toList r' := by
          funext k' r'
          by_cases h : k' = k ∧ r' = r
          · obtain ⟨rfl, rfl⟩ := h; simp
          · rw [if_neg h, if_neg (fun e => h ⟨typeName_inj e.1, e.2⟩)]
        have := Does.store ⟨w.disk, fun k r => w.remote (typeName k).toList r⟩ k r p b hd
        simp only [decide_true]
        rw [heq]
        exact this
    | load k r p out =>
      have ho : out = .ok := hop
      subst ho
      simp only [customStep, call, if_true, kind_str]
      cases hr : w.remote (typeName k).toList r with
      | none =>
        rw [hdoc.loadNothing _ _ _ _ hr]
        exact .loadNothing _ k r p .ok hr
      | some b =>
        rw [hdoc.load _ _ _ _ b hr]
        exact .load _ k r p b hr
  dsimp only
  have hgen : ∀ (ops : List Op) (w : World (Str → Str → Option Bytes)) (acc : List Bool),
      (∀ op ∈ ops, Smooth op) →
      ∃ as, (ops.foldl (fun (s : World (Str → Str → Option Bytes) × List Bool) op =>
          ((customStep exec command args s.1 op).1, s.2 ++ [(customStep exec command args s.1 op).2]))
            (w, acc)).2 = acc ++ as ∧
        Runs ⟨w.disk, fun k r => w.remote (typeName k).toList r⟩ ops
          ⟨(ops.foldl (fun (s : World (Str → Str → Option Bytes) × List Bool) op =>
            ((customStep exec command args s.1 op).1, s.2 ++ [(customStep exec command args s.1 op).2]))
              (w, acc)).1.disk,
           fun k r => (ops.foldl (fun (s : World (Str → Str → Option Bytes) × List Bool) op =>
            ((customStep exec command args s.1 op).1, s.2 ++ [(customStep exec command args s.1 op).2]))
              (w, acc)).1.remote (typeName k).toList r⟩ as := by
    intro ops
    induction ops with
    | nil => intro w acc _; exact ⟨[], by simp, .nil _⟩
    | cons op ops ih =>
      intro w acc hs
      obtain ⟨as, h1, h2⟩ := ih (customStep exec command args w op).1
        (acc ++ [(customStep exec command args w op).2]) (fun o h => hs o (by simp [h]))
      refine ⟨(customStep exec command args w op).2 :: as, ?_, ?_⟩
      · rw [List.foldl_cons, h1]; simp
      · rw [List.foldl_cons]
        exact .cons (hstep w op (hs op (by simp))) h2
  obtain ⟨as, h1, h2⟩ := hgen ops w [] hsm
  rw [h1]
  exact h2

/-- A program that does what the documentation asks for. -/
def documentedExec (command : Str) (args : List Str) : Exec (Str → Str → Option Bytes) :=
  fun c as w =>
    if c = command ∧ as.take args.length = args then
      match as.drop args.length with
      | [mode, type, runId, path] =>
        if mode = "store".toList then
          match w.disk path with
          | some b => ({ w with remote := fun t r => if t = type ∧ r = runId then some b else w.remote t r },
              some true)
          | none => (w, some false)
        else
          match w.remote type runId with
          | some b => ({ w with disk := fun q => if q = path then some b else w.disk q }, some true)
          | none => (w, some false)
      | _ => (w, some false)
    else (w, none)

/-- There is such a program for every command and arguments. -/
theorem documented_exec (command : Str) (args : List Str) : Documented (documentedExec command args) command args := by
  have hl : ("load".toList : Str) ≠ "store".toList := by decide
  constructor
  · intro type runId path w b h; simp [documentedExec, h]
  · intro type runId path w h; simp [documentedExec, h]
  · intro type runId path w b h
    simp only [documentedExec, List.take_left, List.drop_left, and_self, if_true, if_neg hl, h]
  · intro type runId path w h
    simp only [documentedExec, List.take_left, List.drop_left, and_self, if_true, if_neg hl, h]

/-- What is stored for one run and kind is loaded for it, and not for another. -/
example :
    let exec := documentedExec "node".toList ["s.js".toList]
    let w : World (Str → Str → Option Bytes) := ⟨fun p => if p = "/f".toList then some [1] else none, fun _ _ => none⟩
    let w1 := (customStep exec "node".toList ["s.js".toList] w (.store .results "a".toList "/f".toList .ok)).1
    ((customStep exec "node".toList ["s.js".toList] w1 (.load .results "a".toList "/g".toList .ok)).1.disk
      "/g".toList, (customStep exec "node".toList ["s.js".toList] w1 (.load .results "b".toList "/g".toList .ok)).2,
     (customStep exec "node".toList ["s.js".toList] w1 (.load .manifest "a".toList "/g".toList .ok)).2) =
      (some [1], false, false) := by rfl

/-- C104: the state of a run that was stored through such a command is found again, from wherever the temporary
files were; and the state of a run for which none was stored is not found. -/
theorem C104_run_state_through_command (m : RunStateDoc.Meta) (t : RunStateDoc.Text)
    (exec : Exec (Str → Str → Option Bytes)) (command : Str) (args : List Str)
    (hdoc : Documented exec command args) (w : World (Str → Str → Option Bytes)) (runId tmp tmp' : Str)
    (s : RunStateDoc.RunState m) (h : s.InRange) (ht : t.ok (RunStateDoc.encDoc 1 s)) :
    (customStoreState exec command args runId tmp (RunStateDoc.serialize t s) w).2 = true ∧
    (customLoadState m t exec command args runId tmp'
      (customStoreState exec command args runId tmp (RunStateDoc.serialize t s) w).1).2 = .found s ∧
    (∀ other, other ≠ runId → w.remote "run_state".toList other = none →
      (customLoadState m t exec command args other tmp'
        (customStoreState exec command args runId tmp (RunStateDoc.serialize t s) w).1).2 = .notFound) := by
  have hrt := C24_round_trip m t s h ht
  simp only [RunStateDoc.tryLoad] at hrt
  generalize RunStateDoc.serialize t s = doc at *
  have hst : customStoreState exec command args runId tmp doc w =
      ({ disk := put w.disk tmp doc
         remote := fun t' r => if t' = "run_state".toList ∧ r = runId then some doc else w.remote t' r },
        true) := by
    simp only [customStoreState, call, Bool.false_eq_true, if_false, kind_str, typeName]
    rw [hdoc.store _ _ _ _ doc (if_pos rfl)]
    rfl
  rw [hst]
  refine ⟨rfl, ?_, ?_⟩
  · simp only [customLoadState, call, if_true, kind_str, typeName]
    rw [hdoc.load _ _ _ _ doc (if_pos ⟨rfl, rfl⟩)]
    simp only [decide_true, if_true]
    exact hrt
  · intro other ho hno
    simp only [customLoadState, call, if_true, kind_str, typeName]
    rw [hdoc.loadNothing _ _ _ _ ((if_neg (fun e => ho e.2)).trans hno)]
    exact if_neg (fun h => nomatch of_decide_eq_true h)

/-- C104: whatever goes wrong with the command when the state of a run is asked for, the run counts as unknown. So
with a command "not found" does not mean that the run was never stored (compare C24_not_found_iff). -/
theorem C104_failing_command_is_not_found {E : Type} (m : RunStateDoc.Meta) (t : RunStateDoc.Text) (exec : Exec E)
    (command : Str) (args : List Str) (runId tmp : Str) (w : World E)
    (hfail : ∀ w', (exec command (args ++ ["load".toList, "run_state".toList, runId, tmp]) w').2 ≠ some true) :
    (customLoadState m t exec command args runId tmp w).2 = .notFound := by
  simp only [customLoadState, call, if_true, kind_str, typeName]
  have := hfail { w with disk := put w.disk tmp [] }
  exact if_neg (fun h => this (of_decide_eq_true h))

/-- A command that always fails, though the state was stored. -/
example (m : RunStateDoc.Meta) (t : RunStateDoc.Text) :
    (customLoadState m t (E := Unit) (fun _ _ w => (w, some false)) "node".toList [] "a".toList "/tmp/x".toList
      ⟨fun _ => none, ()⟩).2 = .notFound :=
  C104_failing_command_is_not_found m t _ _ _ _ _ _ (fun _ h => nomatch h)

/-- Two runs over S3 with ids that look alike. -/
example :
    let w : World (Str → Option Bytes) := ⟨fun p => if p = "/f".toList then some [1] else some [2], fun _ => none⟩
    let w1 := (s3Step "p".toList w (.store .results "a".toList "/f".toList .ok)).1
    let w2 := (s3Step "p".toList w1 (.store .results "a/results.jsonl".toList "/h".toList .ok)).1
    ((s3Step "p".toList w2 (.load .results "a".toList "/g".toList .ok)).1.disk "/g".toList,
     (s3Step "p".toList w2 (.load .manifest "a".toList "/g".toList .ok)).2) = (some [1], false) := by rfl

/-- C104: an offload job is there for the kinds of files for which a schedule is given, and a file is stale after
the number of hours given, whatever number of hours. -/
theorem C104_jobs (o : Options) (hh : o.staleHours < 2 ^ 32) :
    (Names.Local.manifest ∈ scheduled o ↔ o.offloadManifests ≠ none) ∧
    (Names.Local.results ∈ scheduled o ↔ o.offloadResults ≠ none) ∧
    (scheduled o).length ≤ 2 ∧ threshold o = o.staleHours * 3600 := by
  refine ⟨?_, ?_, ?_, ?_⟩
  · unfold scheduled; cases o.offloadManifests <;> cases o.offloadResults <;> simp
  · unfold scheduled; cases o.offloadManifests <;> cases o.offloadResults <;> simp
  · unfold scheduled; cases o.offloadManifests <;> cases o.offloadResults <;> simp
  · unfold threshold
    rw [Nat.mod_eq_of_lt hh]
    omega

/-- What `abq start --help` says of the schedules: files are moved to the remote, if one is configured. So without
one a scheduled job moves nothing. -/
def OnlyWithRemote : Prop :=
  ∀ (o : Options) (p : Persister) (now : Nat) (w : Str → Results.Res) (ms : List (OffloadJob.Move Results.Act))
    (r : Str), resolve true o = .ok p → Names.Local.results ∈ scheduled o → p = .noop → (w r).noop = true →
    OffloadJob.Spec.Untouched r ms →
    ((OffloadJob.runJob (OffloadJob.resultsJob "/d".toList (some (threshold o)) now) w ms true).1 r).disk =
      (w r).disk

/-- C104 does not hold in full: with a schedule and without a remote, the job empties the files of old runs and
keeps nothing; by C19_full_statement_fails they are lost. -/
theorem C104_full_statement_fails : ¬ OnlyWithRemote := by
  intro h
  have := h { strategy := none, command := none, bucket := none, keyPrefix := none, offloadManifests := none,
              offloadResults := some "0 0 * * * *".toList, staleHours := 6 } .noop 30000
    (fun _ => { Results.init true [1, 10] none with fd := some .opened })
    [.visit ⟨some "a.results.jsonl".toList, some (10, 2)⟩ 10 .ok] "a".toList rfl (by decide) rfl rfl (by
      intro r' a hm
      simp at hm)
  revert this
  decide

end Abq.Props
