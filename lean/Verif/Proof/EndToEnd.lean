import Verif.Spec.EndToEnd
import Verif.Proof.RunnerEnd

/-! # Lemmas for C76 -/

namespace Abq.EndToEnd
open Abq.Retries Abq.Fetch Abq.Fetch.Spec Abq.Pipe Abq.RunnerEnd

/-! ## The fetcher in a runner -/

theorem fetch_run_append (s : Fetch.Sys) (as bs : List Fetch.Act) : Fetch.run s (as ++ bs) = Fetch.run (Fetch.run s as) bs := by
  simp [Fetch.run, List.foldl_append]

theorem account_steps (s : Fetch.Sys) (bs : List (List Results)) :
    bs.foldl (fun s rs => Fetch.step s (.account rs)) s = Fetch.run s (bs.map .account) := by
  simp [Fetch.run, List.foldl_map]

theorem sys_step (p : Pipe) (a : Pipe.Act) : ∃ bs, (Pipe.step p a).sys = Fetch.run p.sys bs := by
  cases a with
  | fetch =>
    simp only [Pipe.step, Pipe.fetch]
    repeat' split
    all_goals first | exact ⟨[.fetch], rfl⟩ | exact ⟨[], rfl⟩
  | produce => exact ⟨[], rfl⟩
  | consume =>
    simp only [Pipe.step, Pipe.consume]
    split <;> exact ⟨[], rfl⟩
  | result rs =>
    simp only [Pipe.step, Pipe.result]
    split <;> exact ⟨[], rfl⟩
  | crash =>
    simp only [Pipe.step, Pipe.crash]
    split <;> exact ⟨[], rfl⟩
  | timeout =>
    simp only [Pipe.step, Pipe.timeout]
    split <;> exact ⟨[], rfl⟩
  | send =>
    simp only [Pipe.step, Pipe.send]
    repeat' split
    all_goals exact ⟨[], rfl⟩
  | take =>
    simp only [Pipe.step, Pipe.take]
    repeat' split
    all_goals first | exact ⟨[], rfl⟩ | exact ⟨_, account_steps _ _⟩

theorem sys_life_step (l : Life) (a : RunnerEnd.Act) : ∃ bs, (l.step a).pipe.sys = Fetch.run l.pipe.sys bs := by
  cases a with
  | pipe a => exact sys_step l.pipe a
  | restartFails => simp only [Life.step]; repeat' split
                    all_goals exact ⟨[], rfl⟩
  | notify => simp only [Life.step]; repeat' split
              all_goals exact ⟨[], rfl⟩

/-- The fetcher of a runner is a fetcher as in C27, with some schedule. -/
theorem sys_life_run (l : Life) (as : List RunnerEnd.Act) : ∃ bs, (l.run as).pipe.sys = Fetch.run l.pipe.sys bs := by
  induction as generalizing l with
  | nil => exact ⟨[], rfl⟩
  | cons a as ih =>
    obtain ⟨b1, h1⟩ := sys_life_step l a
    obtain ⟨b2, h2⟩ := ih (l.step a)
    exact ⟨b1 ++ b2, by rw [run_cons, h2, h1, fetch_run_append]⟩

/-! ## No attempt at a test is given twice -/

theorem given_step_nodup {mx : Nat} {src : List (List Fetch.Resp)} (wf : WellFormed src) {s : Fetch.Sys} {h : Retries.Spec.Hist}
    {f r : List Retries.WorkerTest} (i : Inv mx src s h f r) (hn : (s.given.map key).Nodup) (a : Fetch.Act) :
    ((Fetch.step s a).given.map key).Nodup := by
  cases a with
  | account rs =>
    have : (Fetch.step s (.account rs)).given = s.given := by
      simp only [Fetch.step]
      repeat' split
      all_goals rfl
    rw [this]; exact hn
  | fetch =>
    obtain ⟨h', f', r', i'⟩ := inv_fetch wf i
    have hlog : (Fetch.step s .fetch).log = s.log := by
      simp only [Fetch.step]
      repeat' split
      all_goals rfl
    rw [i'.todo, hlog]
    rw [i.todo] at hn
    rw [List.nodup_append]
    refine ⟨(List.nodup_append.mp hn).1, ?_, ?_⟩
    · exact i'.sim.todoNodup.map (f := fun id => (id, h'.attempt)) (by intro a b hne e; exact hne (Prod.mk.inj e).1)
    · intro a ha b hb hab
      subst hab
      obtain ⟨q, hq, rfl⟩ := List.mem_map.mp ha
      obtain ⟨id, hid, he⟩ := List.mem_map.mp hb
      simp only [rkey, Prod.mk.injEq] at he
      rw [← hlog, ← i'.log] at hq
      exact i'.sim.todoFresh q hq he.2.symm (he.1 ▸ hid)

theorem given_nodup {mx : Nat} (hmx : 1 ≤ mx) {src : List (List Fetch.Resp)} (wf : WellFormed src) (as : List Fetch.Act) :
    ((Fetch.run (Fetch.init src mx) as).given.map key).Nodup := by
  have go : ∀ (as : List Fetch.Act) (s : Fetch.Sys) (h : Retries.Spec.Hist) (f r : List Retries.WorkerTest), Inv mx src s h f r →
      (s.given.map key).Nodup → ((Fetch.run s as).given.map key).Nodup := by
    intro as
    induction as with
    | nil => intro s h f r _ hn; exact hn
    | cons a as ih =>
      intro s h f r i hn
      have i' : ∃ h' f' r', Inv mx src (Fetch.step s a) h' f' r' := by
        cases a with
        | fetch => exact inv_fetch wf i
        | account rs => obtain ⟨h', i'⟩ := inv_account i rs; exact ⟨h', f, r, i'⟩
      obtain ⟨h', f', r', i'⟩ := i'
      exact ih _ _ _ _ i' (given_step_nodup wf i hn a)
  exact go as _ _ _ _ (inv_init mx hmx src wf) (by simp [Fetch.init, Sys.given])

/-! ## The answers of the queue, runner by runner -/

def toRunner (rid : RunId) (e : Entity) : Event TestSpec → List (Abq.WorkerTest TestSpec)
  | .delivered r e' items _ => if r = rid ∧ e' = e then items else []
  | _ => []

theorem supplied_answers (rid : RunId) (e : Entity) (evs : List (Event TestSpec)) :
    (answersTo rid e evs).flatMap Resp.work = (evs.flatMap (toRunner rid e)).map received := by
  unfold answersTo
  induction evs with
  | nil => rfl
  | cons ev evs ih =>
    rw [List.filterMap_cons, List.flatMap_cons, List.map_append, ← ih]
    cases ev with
    | delivered r e' items eow =>
      simp only [answerTo, toRunner]
      split
      · rename_i h
        split at h
        · cases h
        · rename_i hc; rw [if_neg hc]; rfl
      · rename_i x h
        split at h
        · rename_i hc
          rw [if_pos hc]
          cases h
          rfl
        · cases h
    | _ => rfl

theorem supplied_script (rid : RunId) (e : Entity) (evs : List (Event TestSpec)) :
    supplied [script rid e evs] = (evs.flatMap (toRunner rid e)).map received := by
  rw [← supplied_answers]
  simp only [supplied, script, List.flatMap_cons, List.flatMap_nil, List.append_nil, List.flatMap_append]
  split <;> simp [Resp.work]

theorem flatMap_runners (rid : RunId) (es : List Entity) (hn : es.Nodup) (ev : Event TestSpec)
    (hall : ∀ r e items eow, ev = .delivered r e items eow → r = rid → e ∈ es) :
    es.flatMap (fun e => toRunner rid e ev) = Spec.deliveredIn rid ev := by
  cases ev with
  | delivered r e items eow =>
    by_cases hr : r = rid
    · have hmem := hall r e items eow rfl hr
      simp only [toRunner, Spec.deliveredIn, hr, if_true, true_and]
      clear hall
      induction es with
      | nil => cases hmem
      | cons x xs ih =>
        rw [List.flatMap_cons]
        obtain ⟨hx, hxs⟩ := List.nodup_cons.mp hn
        by_cases he : e = x
        · subst he
          rw [if_pos rfl]
          have : xs.flatMap (fun y => if e = y then items else []) = [] := by
            rw [List.flatMap_eq_nil_iff]
            intro y hy
            rw [if_neg]
            intro e'
            exact hx (e' ▸ hy)
          rw [this, List.append_nil]
        · rw [if_neg he, List.nil_append]
          rcases List.mem_cons.mp hmem with h | h
          · exact absurd h he
          · exact ih hxs h
    · simp only [toRunner, Spec.deliveredIn, hr, if_false, false_and]
      rw [List.flatMap_eq_nil_iff]
      intros; rfl
  | _ =>
    simp only [toRunner, Spec.deliveredIn]
    rw [List.flatMap_eq_nil_iff]
    intros; rfl

theorem flatMap_append_perm {α β : Type} (l : List α) (f g : α → List β) :
    (l.flatMap fun x => f x ++ g x).Perm (l.flatMap f ++ l.flatMap g) := by
  induction l with
  | nil => exact .refl _
  | cons x l ih =>
    simp only [List.flatMap_cons]
    have h1 : ((f x ++ g x) ++ l.flatMap fun x => f x ++ g x).Perm ((f x ++ g x) ++ (l.flatMap f ++ l.flatMap g)) :=
      List.Perm.append_left _ ih
    refine h1.trans ?_
    rw [List.append_assoc, List.append_assoc]
    refine List.Perm.append_left _ ?_
    rw [← List.append_assoc, ← List.append_assoc]
    exact List.Perm.append_right _ List.perm_append_comm

/-- Everything delivered, sorted by runner. -/
theorem delivered_by_runner (rid : RunId) (es : List Entity) (hn : es.Nodup) (evs : List (Event TestSpec))
    (hall : ∀ e items eow, Event.delivered rid e items eow ∈ evs → e ∈ es) :
    (es.flatMap fun e => evs.flatMap (toRunner rid e)).Perm (evs.flatMap (Spec.deliveredIn rid)) := by
  induction evs with
  | nil => simp
  | cons ev evs ih =>
    simp only [List.flatMap_cons]
    refine (flatMap_append_perm es _ _).trans ?_
    rw [flatMap_runners rid es hn ev]
    · exact List.Perm.append_left _ (ih fun e items eow h => hall e items eow (List.mem_cons_of_mem _ h))
    · intro r e items eow he hr
      subst he hr
      exact hall e items eow (List.mem_cons_self ..)

end Abq.EndToEnd
