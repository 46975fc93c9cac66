import Verif.Model.Names

/-! # Storage names of different runs never collide (C21) -/

namespace Abq.Props
open Abq.Names

/-- Specification: what a path denotes is whether it is absolute and its components; two paths that
agree on both are the same file for the operating system. (Paths that differ may still be the same file
through `..` and links, neither of which a run id without a slash can bring in.) -/
def fileOf (p : Str) : Bool × List Str := (p.head? == some '/', components p)

theorem key_manifest : '/' :: (Kind.str .manifest ++ '.' :: Kind.ext .manifest) =
    ['/', 'm', 'a', 'n', 'i', 'f', 'e', 's', 't', '.', 'j', 's', 'o', 'n'] := by decide
theorem key_results : '/' :: (Kind.str .results ++ '.' :: Kind.ext .results) =
    ['/', 'r', 'e', 's', 'u', 'l', 't', 's', '.', 'j', 's', 'o', 'n', 'l'] := by decide
theorem key_runState : '/' :: (Kind.str .runState ++ '.' :: Kind.ext .runState) =
    ['/', 'r', 'u', 'n', '_', 's', 't', 'a', 't', 'e', '.', 'j', 's', 'o', 'n'] := by decide
theorem local_manifest : Local.suffix .manifest =
    ['.', 'm', 'a', 'n', 'i', 'f', 'e', 's', 't', '.', 'j', 's', 'o', 'n'] := by decide
theorem local_results : Local.suffix .results =
    ['.', 'r', 'e', 's', 'u', 'l', 't', 's', '.', 'j', 's', 'o', 'n', 'l'] := by decide

/-- Remote keys are strings compared character by character: different runs and different kinds have
different keys. -/
theorem C21_remote_keys_differ (pre : Str) (k k' : Kind) (r r' : Str)
    (h : buildKey pre k r = buildKey pre k' r') : k = k' ∧ r = r' := by
  simp only [buildKey, List.append_cancel_left_eq, List.cons.injEq, true_and] at h
  have hrev := congrArg List.reverse h
  cases k <;> cases k' <;>
    simp [key_manifest, key_results, key_runState] at hrev ⊢ <;> exact hrev

/-- Two runs with ids that look alike. -/
example : buildKey "p".toList .manifest "a".toList = "p/a/manifest.json".toList ∧
    buildKey "p".toList .results "a/manifest.json".toList ≠ buildKey "p".toList .manifest "a".toList := by
  decide

theorem pieces_ne_nil (s : Str) : pieces s ≠ [] := by
  cases s with
  | nil => simp [pieces]
  | cons c cs =>
    simp only [pieces]
    split
    · simp
    · split <;> simp

theorem pieces_noslash (s : Str) (h : '/' ∉ s) : pieces s = [s] := by
  induction s with
  | nil => rfl
  | cons c cs ih =>
    simp only [List.mem_cons, not_or] at h
    have hc : c ≠ '/' := fun e => h.1 e.symm
    simp [pieces, hc, ih h.2]

theorem pieces_append (a s : Str) : pieces (a ++ '/' :: s) = pieces a ++ pieces s := by
  induction a with
  | nil => simp [pieces]
  | cons c cs ih =>
    simp only [List.cons_append, pieces, ih]
    split
    · simp
    · cases hp : pieces cs with
      | nil => exact absurd hp (pieces_ne_nil cs)
      | cons p ps => simp

theorem components_join (root name : Str) (h : '/' ∉ name) (hne : name ≠ []) :
    components (join root name) = components root ++ components name := by
  have hj : ∀ x, name.head? = some x → x ≠ '/' := by
    intro x hx e
    subst e
    exact h (List.mem_of_head? hx)
  have : join root name =
      if root = [] ∨ root.getLast? = some '/' then root ++ name else root ++ '/' :: name := by
    unfold join
    split
    · exact absurd rfl (hj '/' rfl)
    · rfl
  rw [this]
  split
  · rename_i hr
    rcases hr with rfl | hr
    · simp [components, pieces]
    · obtain ⟨pre, rfl⟩ : ∃ pre, root = pre ++ ['/'] := by
        refine ⟨root.dropLast, ?_⟩
        have hrne : root ≠ [] := by rintro rfl; simp at hr
        rw [List.getLast?_eq_some_getLast hrne, Option.some.injEq] at hr
        rw [← hr]; exact (List.dropLast_concat_getLast hrne).symm
      simp only [List.append_assoc, List.cons_append, List.nil_append, components, pieces_append]
      simp [pieces]
  · simp [components, pieces_append]

theorem suffix_shape (k : Local) : ∃ c cs, k.suffix = '.' :: c :: cs ∧ c ≠ '.' ∧ '/' ∉ k.suffix := by
  cases k
  · exact ⟨'m', "anifest.json".toList, by decide⟩
  · exact ⟨'r', "esults.jsonl".toList, by decide⟩

/-- The file name of a run is one component. -/
theorem components_name (r : Str) (k : Local) (h : '/' ∉ r) :
    components (r ++ k.suffix) = [r ++ k.suffix] ∧ '/' ∉ r ++ k.suffix ∧ r ++ k.suffix ≠ [] ∧
      r ++ k.suffix ≠ ['.', '.'] := by
  obtain ⟨c, cs, hs, hc, hk⟩ := suffix_shape k
  have h1 : '/' ∉ r ++ k.suffix := by simp [h, hk]
  have hlen : 2 < k.suffix.length := by cases k <;> decide
  have hne : ∀ s : Str, s.length ≤ 2 → r ++ k.suffix ≠ s := by
    intro s hl e
    have := congrArg List.length e
    simp at this
    omega
  refine ⟨?_, h1, hne [] (by simp), hne _ (by simp)⟩
  rw [components, pieces_noslash _ h1]
  simp [hne [] (by simp), hne ['.'] (by simp)]

/-- C21, local files: runs with ids free of slashes have different files, and so do the manifest and the
results of one run, even in the same directory. -/
theorem C21_local_files_differ_partial (root : Str) (k k' : Local) (r r' : Str)
    (hr : '/' ∉ r) (hr' : '/' ∉ r')
    (h : fileOf (getPath root k r) = fileOf (getPath root k' r')) : k = k' ∧ r = r' := by
  obtain ⟨h1, h2, h3, -⟩ := components_name r k hr
  obtain ⟨h1', h2', h3', -⟩ := components_name r' k' hr'
  have h := congrArg Prod.snd h
  simp only [fileOf, getPath, components_join _ _ h2 h3, components_join _ _ h2' h3', h1, h1',
    List.append_cancel_left_eq, List.cons.injEq, and_true] at h
  have hrev := congrArg List.reverse h
  cases k <;> cases k' <;> simp [local_manifest, local_results] at hrev ⊢ <;> exact hrev

/-- C21: the run id is recovered from the path of its file. -/
theorem C21_run_id_recovered_partial (root : Str) (k : Local) (r : Str) (hr : '/' ∉ r) :
    runIdOfPath k (getPath root k r) = some r := by
  obtain ⟨h1, h2, h3, h4⟩ := components_name r k hr
  have hf : fileName (getPath root k r) = some (r ++ k.suffix) := by
    unfold fileName
    rw [getPath, components_join _ _ h2 h3, h1]
    simp only [List.getLast?_append, List.getLast?_singleton, Option.some_or]
    split
    · rename_i heq
      exact absurd (Option.some.inj heq) h4
    · rfl
  simp only [runIdOfPath, hf, stripSuffix]
  simp

/-- Ids with dots and suffixes of file names in them. -/
example :
    runIdOfPath .results (getPath "/tmp/abq/".toList .results "..results.jsonl".toList) =
      some "..results.jsonl".toList ∧
    runIdOfPath .manifest (getPath "/tmp/abq/".toList .results "x".toList) = none := by decide

/-- C21 does not hold of ids with slashes: two runs share a file, an absolute id ignores the storage
directory (and meets the file of another run), and offloading takes the file for that of another run. -/
theorem C21_full_statement_fails :
    fileOf (getPath "/tmp".toList .results "a/b".toList) =
      fileOf (getPath "/tmp".toList .results "a//b".toList) ∧
    getPath "/tmp".toList .results "/tmp/x".toList = getPath "/tmp".toList .results "x".toList ∧
    runIdOfPath .results (getPath "/tmp".toList .results "a/b".toList) = some "b".toList := by
  decide

end Abq.Props
