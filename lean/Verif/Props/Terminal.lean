import Verif.Proof.Terminal
/-!
# What the terminal reporters show (C87)
-/

namespace Abq.Props
open Terminal
open Summary (Status)

/-- A result for the examples. -/
def termResult (id : String) (s : Status) (out : String) : Terminal.Result :=
  ⟨id, ("test " ++ id).toList, s, some out.toList, none, none⟩

/-- A test that fails, is run again and passes; a test that is skipped; ticks between. -/
def termCalls : List Terminal.Call :=
  [.tick "1s".toList, .push 1 (termResult "a" .failure "expected 1"), .push 1 (termResult "b" .skipped ""),
   .push 2 (termResult "a" .success "")] ++ List.replicate 10 (.tick "9s".toList)

/-- **C87**, dots. Unless the native runner crashed, the reporter of dots writes one letter for each result it is given,
in the order in which it is given them, in lines of 80 of which only the last may be shorter. -/
theorem C87_dots (calls : List Terminal.Call) (hc : ∀ r ∈ given calls, r.status ≠ .nativeRunnerError) :
    ∃ rows, Rows rows ∧ dots calls = rows.flatMap (· ++ ['\n']) ∧ rows.flatten.length = (given calls).length ∧
      ∀ (i : Nat) (r : Terminal.Result) (c : Char), (given calls)[i]? = some r → rows.flatten[i]? = some c →
        Letter r.status c := by
  obtain ⟨rows, hr, hf, hx⟩ := rows_dots (given calls).length (given calls) (Nat.le_refl _) hc 0 rfl
  refine ⟨rows, hr, ?_, ?_, ?_⟩
  · rw [dots_eq, hx]
  · rw [hf, List.length_map]
  · intro i r c hi hrow
    rw [hf, List.getElem?_map, hi] at hrow
    cases hrow
    exact letter_dot _

example : dots termCalls = "FS.\n".toList := by decide

example : ∃ rows : List Text, Rows rows ∧ rows.length = 2 ∧
    dots (List.replicate 81 (.push 1 (termResult "a" .success ""))) = rows.flatMap (· ++ ['\n']) :=
  ⟨[List.replicate 80 '.', ['.']], .full _ _ (by decide) (.last _ (by decide) (by decide)), rfl,
    by set_option maxRecDepth 20000 in decide⟩

/-- **C87**, dots, one result. It adds its letter, a line break if that was the 80th, 160th ... result, and if the native
runner crashed, what is known of the crash. Nothing that was written before is changed. -/
theorem C87_dots_each (calls : List Terminal.Call) (n : Nat) (r : Terminal.Result) :
    ∃ c, Letter r.status c ∧
      ((calls ++ [Terminal.Call.push n r]).foldl Dots.call .new).out
        = (calls.foldl Dots.call .new).out ++ [c] ++ (if 80 ∣ (given calls).length + 1 then ['\n'] else [])
          ++ (if r.status = .nativeRunnerError then
                (match r.output with
                  | some o => o
                  | none => "<no output>".toList) ++ ['\n']
              else []) := by
  refine ⟨dot r.status, letter_dot _, ?_⟩
  rw [List.foldl_append]
  show (Dots.push _ n r).out = _
  rw [Dots.push_out, (foldl_dots calls .new).2]
  have : Dots.new.numResults + (given calls).length + 1 = (given calls).length + 1 := by
    show 0 + _ + 1 = _
    omega
  rw [this]
  unfold nl crashText
  congr 1
  · congr 1
    by_cases h : ((given calls).length + 1) % 80 = 0
    · rw [if_pos h, if_pos (Nat.dvd_of_mod_eq_zero h)]
    · rw [if_neg h, if_neg (fun x => h (Nat.mod_eq_zero_of_dvd x))]
  · cases r.output <;> rfl

/-- **C87**, lines. The reporter of lines writes for each result, in order, a line with the name of the test and what
became of it, followed by what is known of a crash. -/
theorem C87_lines (calls : List Terminal.Call) :
    lines calls = (given calls).flatMap fun r =>
      r.name ++ (": " ++ Terminal.word r.status ++ "\n").toList ++
        (if r.status = .nativeRunnerError then
          (match r.output with
            | some o => o
            | none => "<no output>".toList) ++ ['\n']
        else []) := by
  unfold lines
  rw [foldl_lines, List.nil_append]
  congr 1
  funext r
  unfold lineText resultLine crashText
  rw [statusText_word]
  rw [String.toList_append, String.toList_append]
  simp only [List.append_assoc]
  cases r.output <;> rfl

example : lines termCalls = "test a: FAILED\ntest b: skipped\ntest a: ok\n".toList := by decide

/-- **C87**, progress, not interactive. What is written is each failing result at the time it is given, and at every
tenth tick how many results there were so far and how many of them failed, as paragraphs. -/
theorem C87_progress (calls : List Terminal.Call) : (progress false calls).text = paragraphs (shown [] calls) := by
  unfold Progress.text
  rw [(oinv false calls).out, text_intersperse]
  rfl

example : String.ofList (progress false termCalls).text
    = "--- [abq progress] 1s ---\n0 tests run, 0 passed, 0 failing\n\ntest a: FAILED\n\n"
      ++ "--- [abq progress] 9s ---\n3 tests run, 2 passed, 1 failing\n" := by
  rw [C87_progress]
  set_option maxRecDepth 20000 in decide

/-- **C87**, progress, interactive. What is written is each failing result, as paragraphs; and the bar shows, since the
first call, the number of results so far, of those that did not fail and of those that did. -/
theorem C87_progress_bar (calls : List Terminal.Call) :
    (progress true calls).text
        = paragraphs (((given calls).filter (fun r => Terminal.Failing r.status)).map Item.failed) ∧
    (calls ≠ [] → (progress true calls).bar
        = some ((given calls).length, (given calls).countP (fun r => ¬ Terminal.Failing r.status),
            (given calls).countP (fun r => Terminal.Failing r.status))) := by
  refine ⟨?_, fun h => ?_⟩
  · unfold Progress.text
    rw [(oinv true calls).out, text_intersperse]
    rfl
  · rw [(oinv true calls).bar, if_pos ⟨rfl, h⟩]

example : termCalls ≠ [] ∧ (progress true termCalls).bar = some (3, 2, 1) := by decide

/-- **C87**, progress. No subtraction goes below zero, whatever the calls. -/
theorem C87_progress_never_panics (interactive : Bool) (calls : List Terminal.Call) :
    (progress interactive calls).panicked = false := (oinv interactive calls).fine

/-- **C87**, progress. The numbers shown add up: passed and failing make the number run, and if no test has two results it
is the number of tests. Missing: with retries a test is counted once for each attempt (`C87_full_statement_fails`). -/
theorem C87_numbers_partial (calls : List Terminal.Call) (e : Text) (n p f : Nat)
    (hs : Item.state e n p f ∈ shown [] calls) :
    p + f = n ∧ ∃ earlier later, calls = earlier ++ .tick e :: later ∧ n = (given earlier).length ∧
      (((given calls).map (·.id)).Nodup → ∀ ids : List String, ids.Nodup →
        (∀ id, id ∈ ids ↔ ∃ r ∈ given earlier, r.id = id) → n = ids.length) := by
  have key : ∀ (calls earlier : List Terminal.Call), Item.state e n p f ∈ shown earlier calls →
      ∃ a b, calls = a ++ .tick e :: b ∧ n = (given (earlier ++ a)).length ∧
        p = (given (earlier ++ a)).countP (fun r => ¬ Terminal.Failing r.status) ∧
        f = (given (earlier ++ a)).countP (fun r => Terminal.Failing r.status) := by
    intro calls
    induction calls with
    | nil => intro earlier h; simp [shown] at h
    | cons c rest ih =>
      intro earlier h
      rw [shown, List.mem_append] at h
      rcases h with h | h
      · cases c with
        | push m r =>
          simp only [shownAt] at h
          split at h <;> simp at h
        | tick e' =>
          simp only [shownAt] at h
          split at h
          · simp only [List.mem_singleton, Item.state.injEq] at h
            obtain ⟨rfl, h1, h2, h3⟩ := h
            exact ⟨[], rest, rfl, by simpa using h1, by simpa using h2, by simpa using h3⟩
          · simp at h
      · obtain ⟨a, b, rfl, h1, h2, h3⟩ := ih _ h
        refine ⟨c :: a, b, rfl, ?_, ?_, ?_⟩
        · rw [h1]; simp
        · rw [h2]; simp
        · rw [h3]; simp
  obtain ⟨a, b, rfl, h1, h2, h3⟩ := key calls [] hs
  rw [List.nil_append] at h1 h2 h3
  refine ⟨?_, a, b, rfl, h1, ?_⟩
  · have := passed_eq a
    have := le_given a
    omega
  · intro hn ids hi hm
    rw [given_append, List.map_append] at hn
    have hna := (List.nodup_append.1 hn).1
    rw [h1, ← List.length_map (f := (·.id))]
    refine (List.Perm.length_eq ?_)
    refine (List.perm_ext_iff_of_nodup hna hi).2 fun id => ?_
    rw [hm, List.mem_map]

example : Item.state "9s".toList 3 2 1 ∈ shown [] termCalls := by decide

/-- **C87** does not hold in full. (1) A test that failed, was run again and passed is counted as two tests run of which
one is failing. (2) The documentation of the reporters of dots and lines says that a summary of the failing tests is
printed at the end; but what they write is the same whatever the tests wrote, unless the native runner crashed. -/
theorem C87_full_statement_fails :
    (∃ calls : List Terminal.Call, (given calls).map (·.id) = ["a", "a"] ∧
      (given calls).map (·.status) = [.failure, .success] ∧
      Item.state "9s".toList 2 1 1 ∈ shown [] calls) ∧
    (∀ calls : List Terminal.Call, (∀ r ∈ given calls, r.status ≠ .nativeRunnerError) →
      dots calls = dots (calls.map Call.silent) ∧ lines calls = lines (calls.map Call.silent)) := by
  refine ⟨⟨[.push 1 (termResult "a" .failure "expected 1"), .push 2 (termResult "a" .success ""), .tick "9s".toList],
    by decide, by decide, by decide⟩, fun calls hc => ?_⟩
  have hg : given (calls.map Call.silent) = (given calls).map Terminal.Result.silent := by
    clear hc
    induction calls with
    | nil => rfl
    | cons c calls ih => cases c <;> simp [given, Call.silent, ih]
  constructor
  · rw [dots_eq, dots_eq, hg, List.length_map]
    congr 1
    generalize given calls = rs at hc
    generalize 0 = n
    clear hg
    induction rs generalizing n with
    | nil => rfl
    | cons r rs ih =>
      simp only [List.map_cons, dotText]
      rw [ih (fun r' h => hc r' (List.mem_cons_of_mem _ h))]
      have := hc r (List.mem_cons_self ..)
      simp [crashText, this, Terminal.Result.silent]
  · rw [C87_lines, C87_lines, hg, List.flatMap_map]
    rw [List.flatMap_def, List.flatMap_def]
    congr 1
    refine List.map_congr_left fun r hr => ?_
    have := hc r hr
    simp [this, Terminal.Result.silent]

example : ∃ r ∈ given termCalls, r.status = .failure ∧ r.output = some "expected 1".toList := by decide

end Abq.Props
