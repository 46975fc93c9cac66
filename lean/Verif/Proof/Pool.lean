import Verif.Spec.Pool

/-! Lemmas about the pool's shutdown. -/

namespace Abq.Pool

/-- The manifest output that survives: that of the last runner that ended without an error. -/
def lastManifest : Option (Nat × Output) → Nat → List Joined → Option (Nat × Output)
  | m, _, [] => m
  | _, k, .ok e :: js => lastManifest (e.manifestOutput.map fun o => (k, o)) (k + 1) js
  | m, k, _ :: js => lastManifest m (k + 1) js

theorem combined_eq (o : Output × Output) :
    combined o = ([o.1, o.2].filter (· ≠ [])).flatMap (· ++ [10]) := by
  obtain ⟨a, b⟩ := o
  cases a <;> cases b <;> simp [combined]

theorem loop_eq (js : List Joined) : ∀ (a : Acc) (k : Nat), Joined.panicked ∉ js →
    ∃ a', loop a k js = some a' ∧ a'.errors = a.errors ++ messages js ∧
      a'.highest = (codes js).getLastD a.highest ∧
      a'.processOutputs = a.processOutputs ++ (js.mapIdx fun i j => (k + i, outputOf j)) ∧
      a'.manifestOutput = lastManifest a.manifestOutput k js ∧
      a'.nativeRunnerInfo = (a.nativeRunnerInfo.or (js.findSome? infoOf)) ∧
      a'.finalStdio.length = a.finalStdio.length + js.length := by
  induction js with
  | nil => intro a k _; exact ⟨a, rfl, by simp [messages], rfl, by simp, rfl, by simp, rfl⟩
  | cons j js ih =>
    intro a k hp
    have hp' : Joined.panicked ∉ js := fun h => hp (List.mem_cons_of_mem _ h)
    cases j with
    | panicked => exact absurd List.mem_cons_self hp
    | ok e =>
      obtain ⟨a', h1, h2, h3, h4, h5, h6, h7⟩ := ih
        { a with
          nativeRunnerInfo := a.nativeRunnerInfo.or e.nativeRunnerInfo
          manifestOutput := e.manifestOutput.map fun o => (k, o)
          highest := max e.exitCode e.exitCode
          finalStdio := a.finalStdio ++ [(k, e.finalStdio)]
          processOutputs := a.processOutputs ++ [(k, e.processOutput)] } (k + 1) hp'
      refine ⟨a', by simpa [loop, Acc.add] using h1, by simpa [messages] using h2, ?_, ?_, h5, ?_, ?_⟩
      · rw [h3]; show (codes js).getLastD (max e.exitCode e.exitCode) = (e.exitCode :: codes js).getLastD a.highest
        rw [List.getLastD_cons, Int.max_self]
      · rw [h4]; simp only [List.mapIdx_cons, outputOf, List.append_assoc, List.singleton_append, Nat.add_zero]
        congr 3; funext i j; congr 1; omega
      · rw [h6]; simp only [List.findSome?_cons, infoOf]
        cases a.nativeRunnerInfo <;> cases e.nativeRunnerInfo <;> simp
      · rw [h7]; simp; omega
    | err e =>
      obtain ⟨a', h1, h2, h3, h4, h5, h6, h7⟩ := ih
        { a with
          nativeRunnerInfo := a.nativeRunnerInfo.or e.nativeRunnerInfo
          errors := a.errors ++ [e.message]
          finalStdio := a.finalStdio ++ [(k, e.output)]
          processOutputs := a.processOutputs ++ [(k, combined e.output)] } (k + 1) hp'
      refine ⟨a', by simpa [loop, Acc.add] using h1, by simpa [messages] using h2, ?_, ?_, h5, ?_, ?_⟩
      · rw [h3]; simp [codes]
      · rw [h4]; simp only [List.mapIdx_cons, outputOf, combined_eq, List.append_assoc, List.singleton_append, Nat.add_zero]
        congr 3; funext i j; congr 1; omega
      · rw [h6]; simp only [List.findSome?_cons, infoOf]
        cases a.nativeRunnerInfo <;> cases e.nativeRunnerInfo <;> simp
      · rw [h7]; simp; omega

theorem loop_panics (js : List Joined) (h : Joined.panicked ∈ js) : ∀ a k, loop a k js = none := by
  induction js with
  | nil => cases h
  | cons j js ih =>
    intro a k
    cases j with
    | panicked => rfl
    | ok e => simp only [loop, Acc.add]; exact ih (by simpa using h) _ _
    | err e => simp only [loop, Acc.add]; exact ih (by simpa using h) _ _

theorem getLastD_mem (cs : List Int) (d : Int) (h : cs ≠ []) : cs.getLastD d ∈ cs := by
  cases cs with
  | nil => exact absurd rfl h
  | cons c cs => rw [List.getLastD_cons]; cases cs with
    | nil => simp
    | cons b bs =>
      rw [List.getLastD_eq_getLast?, List.getLast?_eq_some_getLast (by simp)]
      exact List.mem_cons_of_mem _ (List.getLast_mem _)

theorem lastManifest_none (js : List Joined) : ∀ m k, (∀ e, Joined.ok e ∈ js → e.manifestOutput = none) →
    (∃ e, Joined.ok e ∈ js) → lastManifest m k js = none := by
  induction js with
  | nil => intro m k _ ⟨e, h⟩; cases h
  | cons j js ih =>
    intro m k hn he
    have step : ∀ m', m' = none → lastManifest m' (k + 1) js = none := by
      intro m' hm
      by_cases hx : ∃ e, Joined.ok e ∈ js
      · exact ih m' (k + 1) (fun e h => hn e (List.mem_cons_of_mem _ h)) hx
      · subst hm
        clear ih he
        revert k
        induction js with
        | nil => intro k; rfl
        | cons i is ih2 =>
          intro k
          cases i with
          | ok e => exact absurd ⟨e, List.mem_cons_self⟩ hx
          | err e =>
            exact ih2 (fun e h => hn e (by simp at h ⊢; rcases h with h | h <;> simp [h]))
              (fun ⟨e, h⟩ => hx ⟨e, List.mem_cons_of_mem _ h⟩) (k + 1)
          | panicked =>
            exact ih2 (fun e h => hn e (by simp at h ⊢; rcases h with h | h <;> simp [h]))
              (fun ⟨e, h⟩ => hx ⟨e, List.mem_cons_of_mem _ h⟩) (k + 1)
    cases j with
    | ok e =>
      have : e.manifestOutput = none := hn e List.mem_cons_self
      show lastManifest (e.manifestOutput.map fun o => (k, o)) (k + 1) js = none
      rw [this]; exact step _ rfl
    | err e =>
      obtain ⟨e', h'⟩ := he
      exact ih m (k + 1) (fun e h => hn e (List.mem_cons_of_mem _ h)) ⟨e', by simpa using h'⟩
    | panicked =>
      obtain ⟨e', h'⟩ := he
      exact ih m (k + 1) (fun e h => hn e (List.mem_cons_of_mem _ h)) ⟨e', by simpa using h'⟩

theorem lastManifest_errors (js : List Joined) : ∀ m k, (∀ e, Joined.ok e ∉ js) → lastManifest m k js = m := by
  induction js with
  | nil => intros; rfl
  | cons j js ih =>
    intro m k h
    cases j with
    | ok e => exact absurd List.mem_cons_self (h e)
    | err e => exact ih m (k + 1) fun e he => h e (List.mem_cons_of_mem _ he)
    | panicked => exact ih m (k + 1) fun e he => h e (List.mem_cons_of_mem _ he)

end Abq.Pool
