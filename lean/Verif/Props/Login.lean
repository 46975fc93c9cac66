import Verif.Proof.Login

/-!
# The token that was kept is the token that is used (C126)

`logins toml files cs` are the files after a history of calls of `abq login` on a machine, each with its environment, its token
and what became of writing the file. `uses` is what `abq test` and `abq report` go on with.
-/

namespace Abq.Props
open Abq.Login Abq.Spec.Login

/-- **C126.** A token given to the command is used, whatever is kept. -/
theorem C126_given (toml : Toml) (e : Env) (files : Files) (t : String) : uses toml e files (some t) = .token (some t) := rfl

/-- **C126, partial.** `abq login` said that it stored a token, given in either way, in a file. Every later command that looks at
this file and is not given a token uses the one stored, if no later login stored one there and none was cut short while it wrote
the file. -/
theorem C126_kept_partial (toml : Toml) (hf : Faithful toml) (files : Files) (c : Call) (cs : List Call) (p t : String)
    (ht : Told c t) (hs : (login toml files c).2 = .stored p)
    (hl : ∀ pre c' post, cs = pre ++ c' :: post →
      (login toml (logins toml (login toml files c).1 pre) c').2 ≠ .stored p ∧ ¬ (PlaceOf c'.env p ∧ CutShort c')) :
    Kept toml (logins toml (login toml files c).1 cs) p (some t) := by
  have start : (login toml files c).1 p = some (toml.write t) := by
    obtain ⟨hp, hd⟩ := login_stored toml files c p hs
    unfold login
    rw [told c t ht, (configPath_iff _ _).mpr hp]
    simp [store, hd]
  generalize (login toml files c).1 = f at start hl
  have : logins toml f cs p = some (toml.write t) := by
    clear hs ht
    induction cs generalizing f with
    | nil => exact start
    | cons c' cs ih =>
      refine ih (login toml f c').1 ?_ ?_
      · rcases login_at toml f c' p with h | ⟨hp, t', -, ⟨-, -, h⟩ | ⟨n, k, hd, -⟩⟩
        · rw [h]; exact start
        · exact absurd h (hl [] c' cs rfl).1
        · exact absurd ⟨hp, n, k, hd⟩ (hl [] c' cs rfl).2
      · intro pre x post e
        exact hl (c' :: pre) x post (by rw [e]; rfl)
  have := kept_of toml _ p _ this
  rwa [hf t] at this

/-- **C126.** After a login that was cut short, commands that look at its file use its token or none, never another one, until
there is another login for the file. -/
theorem C126_cut_short (toml : Toml) (hc : Cautious toml) (files : Files) (c : Call) (cs : List Call) (p t : String)
    (ht : Told c t) (hp : PlaceOf c.env p) (hd : CutShort c) (hl : ∀ c' ∈ cs, ¬ PlaceOf c'.env p) :
    Kept toml (logins toml files (c :: cs)) p none ∨ Kept toml (logins toml files (c :: cs)) p (some t) := by
  obtain ⟨n, k, hd⟩ := hd
  have start : (login toml files c).1 p = some ((toml.write t).take n) := by
    unfold login
    rw [told c t ht, (configPath_iff _ _).mpr hp]
    simp [store, hd]
  have rest : ∀ (cs : List Call) (f : Files), (∀ c' ∈ cs, ¬ PlaceOf c'.env p) → logins toml f cs p = f p := by
    intro cs
    induction cs with
    | nil => exact fun f _ => rfl
    | cons c' cs ih =>
      intro f hl
      show logins toml (login toml f c').1 cs p = f p
      rw [ih _ fun x hx => hl x (List.mem_cons_of_mem _ hx)]
      rcases login_at toml f c' p with h | ⟨hp, -⟩
      · exact h
      · exact absurd hp (hl c' (List.mem_cons_self ..))
  have hb : logins toml files (c :: cs) p = some ((toml.write t).take n) := by
    show logins toml (login toml files c).1 cs p = _
    rw [rest cs _ hl, start]
  have := kept_of toml _ p _ hb
  rcases hc t n with h | h <;> rw [h] at this
  · exact .inl this
  · exact .inr this

/-- **C126.** Logins leave the files of others alone: a login changes at most the file its environment names, and none unless it
got as far as writing. -/
theorem C126_other_files (toml : Toml) (files : Files) (c : Call) (p : String) (t : Option String)
    (h : ¬ PlaceOf c.env p ∨ c.disk = .noDir ∨ c.disk = .noFile) :
    Kept toml (login toml files c).1 p t ↔ Kept toml files p t := by
  refine kept_iff _ _ _ _ _ ?_
  rcases login_at toml files c p with h' | ⟨hp, t', -, ⟨hd, -⟩ | ⟨n, k, hd, -⟩⟩
  · exact h'
  · rcases h with h | h | h
    · exact absurd hp h
    · rw [hd] at h; cases h
    · rw [hd] at h; cases h
  · rcases h with h | h | h
    · exact absurd hp h
    · rw [hd] at h; cases h
    · rw [hd] at h; cases h

/-- **C126.** With `ABQ_CONFIG_FILE` set to nothing there is no place: a login says so and changes nothing, and commands use no
token that was kept. -/
theorem C126_no_place (toml : Toml) (files : Files) (c : Call) (t : String) (ht : Told c t) (h : c.env.configFile = some "") :
    login toml files c = (files, .noPlace) ∧ uses toml c.env files none = .token none := by
  have hp : configPath c.env = some none := by unfold configPath; rw [h]; rfl
  constructor
  · unfold login; rw [told c t ht, hp]
  · unfold uses; rw [hp]; rfl

/-- **C126.** What `abq login` says. It stored the token in a file exactly if the file is the one its environment names and all of
it was written; and if there is neither `ABQ_CONFIG_FILE` nor a home directory, it panics, and so does every command that is not
given a token. -/
theorem C126_says (toml : Toml) (files : Files) (c : Call) (t : String) (ht : Told c t) :
    (∀ p, (login toml files c).2 = .stored p ↔ PlaceOf c.env p ∧ c.disk = .fine) ∧
    (c.env = ⟨none, none⟩ → login toml files c = (files, .panicked) ∧ uses toml c.env files none = .panics) := by
  refine ⟨fun p => ⟨login_stored toml files c p, ?_⟩, ?_⟩
  · rintro ⟨hp, hd⟩
    unfold login
    rw [told c t ht, (configPath_iff _ _).mpr hp]
    simp [store, hd]
  · intro he
    have hp : configPath c.env = none := by rw [he]; rfl
    constructor
    · unfold login; rw [told c t ht, hp]
    · unfold uses; rw [hp]

/-- **C126.** `abq test` and `abq report` with a token that is kept do exactly what they do if they are given this token, and
without one what they do if nothing is kept; in local mode `abq test` uses none. -/
theorem C126_as_if_given (toml : Toml) (files : Files) (p : String) (t : Option String) (hk : Kept toml files p t) (e : Env)
    (he : PlaceOf e p) (w : Config.World) :
    (∀ a : Config.TestArgs, a.accessToken = none →
      Login.test toml e files w a = some (Config.testPlan { w with storedToken := none }
        { a with accessToken := if a.localMode then none else t })) ∧
    (∀ a : Config.ReportArgs, a.accessToken = none →
      Login.report toml e files w a = some (Config.reportPlan { w with storedToken := none } { a with accessToken := t })) := by
  have hu := hk e he
  constructor
  · rintro ⟨runId, accessToken, queueAddr, token, tlsCert, tlsKey, localMode, num, retries, args⟩ ha
    simp only at ha
    subst ha
    unfold Login.test
    cases localMode with
    | true => rfl
    | false =>
      simp only [Bool.false_eq_true, if_false, hu]
      by_cases hr : tlsCert = some none ∨ tlsKey = some none
      · rw [if_pos hr]
        refine congrArg some ?_
        rcases tlsCert with _ | _ | c
        · rcases hr with hr | rfl
          · cases hr
          · rfl
        · rfl
        · rcases hr with hr | rfl
          · cases hr
          · rfl
      · rw [if_neg hr]
  · rintro ⟨runId, accessToken, queueAddr, token, tlsCert⟩ ha
    simp only at ha
    subst ha
    unfold Login.report
    simp only [hu]
    cases hr : runId.or (Config.inferredRunId w.env) with
    | none =>
      refine congrArg some ?_
      simp only [Config.reportPlan, hr]
    | some r =>
      simp only [reduceCtorEq, if_false]
      by_cases hc : tlsCert = some none
      · rw [if_pos hc, hc]
        refine congrArg some ?_
        simp only [Config.reportPlan, hr]
        rfl
      · rw [if_neg hc]

/-- **C126: the full statement is false.** A later login that was cut short, because the disk was full or because it was killed,
takes the token that was stored before away. -/
theorem C126_full_statement_fails : ¬ KeptStatement := by
  intro h
  have := h quoted quoted_faithful quoted_cautious (fun _ => none)
    ⟨⟨none, some "/home/me"⟩, some "secret", none, .fine⟩ [⟨⟨none, some "/home/me"⟩, some "newer", none, .cut 0 false⟩]
    "/home/me/.abq/config.toml" "secret" (.inl rfl) (by decide) (by
      intro pre c' post e
      match pre, e with
      | [], e => cases e; decide
      | [_], e => cases e
      | _ :: _ :: _, e => cases e)
    ⟨none, some "/home/me"⟩ (.inr ⟨rfl, "/home/me", rfl, by decide⟩)
  revert this
  decide

/-- Two files, a login that was killed before it wrote anything, a login without a place, a token typed with a line feed. -/
def sampleLogins : List Call :=
  [⟨⟨none, some "/home/me"⟩, none, some "  secret\n", .fine⟩, ⟨⟨some "/tmp/c", none⟩, some "other", none, .cut 4 true⟩,
   ⟨⟨some "", some "/home/me"⟩, some "third", none, .fine⟩, ⟨⟨none, some "/home/me"⟩, some "fourth", none, .noFile⟩]

/-- The hypotheses of `C126_kept_partial` and of `C126_cut_short` are met. -/
example : Kept quoted (logins quoted (fun _ => none) sampleLogins) "/home/me/.abq/config.toml" (some "secret") :=
  C126_kept_partial quoted quoted_faithful _ ⟨⟨none, some "/home/me"⟩, none, some "  secret\n", .fine⟩ sampleLogins.tail _ _
    (.inr ⟨rfl, [' ', ' '], ['\n'], by decide, by simp [Space], by simp [Space],
      fun x h => by cases (show some 's' = some x from h); simp [Space],
      fun x h => by cases (show some 't' = some x from h); simp [Space]⟩) (by decide) (by
      intro pre c' post e
      match pre, e with
      | [], e => cases e; exact ⟨by decide, fun h => by
          rcases h.1 with ⟨h, -⟩ | ⟨h, -⟩
          · exact absurd h (by decide)
          · cases h⟩
      | [_], e => cases e; exact ⟨by decide, fun h => by
          rcases h.1 with ⟨h, -⟩ | ⟨h, -⟩
          · exact absurd h (by decide)
          · cases h⟩
      | [_, _], e => cases e; exact ⟨by decide, fun h => by obtain ⟨-, n, k, h⟩ := h; cases h⟩
      | [_, _, _], e => cases e
      | _ :: _ :: _ :: _ :: _, e => cases e)

example : uses quoted ⟨some "/tmp/c", none⟩ (logins quoted (fun _ => none) sampleLogins) none = .token none := by decide

example : (login quoted (fun _ => none) ⟨⟨some "", some "/home/me"⟩, some "third", none, .fine⟩).2 = .noPlace ∧
    (login quoted (fun _ => none) ⟨⟨none, none⟩, some "third", none, .fine⟩).2 = .panicked ∧
    (login quoted (fun _ => none) ⟨⟨none, some "/r"⟩, some "third", none, .cut 9 false⟩).2 = .failed := by decide

end Abq.Props
