import Verif.Spec.Attach
import Verif.Proof.Replay

/-! # Proofs about attaching -/

namespace Abq.Attach
open Abq.Runs Abq.Spec

theorem wait_unknown (k i : Nat) (rest : List Reply) :
    wait (min (10 * 2 ^ i) 3000) (List.replicate k (.message .runUnknown) ++ rest) =
      ((List.range' i k).map (fun j => min (10 * 2 ^ j) 3000) ++ (wait (min (10 * 2 ^ (i + k)) 3000) rest).1,
        (wait (min (10 * 2 ^ (i + k)) 3000) rest).2) := by
  induction k generalizing i with
  | zero => simp
  | succ k ih =>
    have hd : (if min (10 * 2 ^ i) 3000 * 2 ≥ 3000 then 3000 else min (10 * 2 ^ i) 3000 * 2) = min (10 * 2 ^ (i + 1)) 3000 := by
      have : 2 ^ (i + 1) = 2 ^ i * 2 := Nat.pow_succ ..
      rw [this]
      have := Nat.two_pow_pos i
      split <;> omega
    rw [List.replicate_succ, List.cons_append, wait]
    rw [hd, ih, List.range'_succ]
    have : i + 1 + k = i + (k + 1) := by omega
    rw [this]
    rfl

theorem wait_answer (d : Nat) (a : Reply) (ha : a ≠ .message .runUnknown) (rest : List Reply) :
    wait d (a :: rest) = ([], (wait 10 [a]).2) := by
  cases a with
  | io => rfl
  | message m => cases m <;> first | rfl | exact (ha rfl).elim

theorem pool_tags (w n : Nat) (x y : Addr) (k : Kind) :
    (pool w n x y k).map (·.tag) = (List.range n).map fun i => Tag.runner ⟨w, i + 1⟩ := by
  simp only [pool, List.map_map, List.range_eq_range', Function.comp_def]
  rw [List.range'_eq_map_range]
  simp [List.range_eq_range', List.map_map, Function.comp_def, Nat.add_comm]

theorem mem_pool {w n : Nat} {x y : Addr} {k : Kind} {r : Runner} (h : r ∈ pool w n x y k) :
    ∃ id, 1 ≤ id ∧ id ≤ n ∧ r = ⟨.runner ⟨w, id⟩, k.someRunnerGenerates && id == 1, k.sources, x, y⟩ := by
  simp only [pool, List.mem_map, List.mem_range'_1] at h
  obtain ⟨id, h1, rfl⟩ := h
  exact ⟨id, h1.1, by omega, rfl⟩

theorem generates_pool (w n : Nat) (x y : Addr) (k : Kind) :
    ((pool w n x y k).filter (·.generatesManifest)).map (·.tag) =
      if k.someRunnerGenerates = true ∧ 0 < n then [.runner ⟨w, 1⟩] else [] := by
  cases hk : k.someRunnerGenerates with
  | false =>
    have : (pool w n x y k).filter (·.generatesManifest) = [] := by
      rw [List.filter_eq_nil_iff]
      intro r hr
      obtain ⟨id, -, -, rfl⟩ := mem_pool hr
      simp [hk]
    simp [this]
  | true =>
    cases n with
    | zero => simp [pool]
    | succ n =>
      have h0 : ∀ m : Nat, ∀ s, 2 ≤ s → (((List.range' s m).map fun id => (⟨.runner ⟨w, id⟩, k.someRunnerGenerates && id == 1, k.sources, x, y⟩ : Runner)).filter (·.generatesManifest)) = [] := by
        intro m s hs
        rw [List.filter_eq_nil_iff]
        intro r hr
        simp only [List.mem_map, List.mem_range'_1] at hr
        obtain ⟨id, h1, rfl⟩ := hr
        have : id ≠ 1 := by omega
        simp [this]
      simp only [pool, List.range'_succ, List.map_cons, hk, Bool.true_and, beq_self_eq_true, List.filter_cons, if_true]
      have := h0 n 2 (by omega)
      rw [hk] at this
      simp only [Bool.true_and] at this
      rw [this]
      simp

/-! ## Stored exit codes -/

/-- The run state in a pending task. -/
def docOf {T : Type} : Pending T → Option RunDoc
  | .respond _ _ _ _ (some pl) => some pl.doc
  | .dumpState _ d => some d
  | _ => none

variable {T : Type}

def ExitZero (σ : Runs T) : Prop :=
  (∀ p ∈ σ.pending, ∀ d, docOf p = some d → d.exit = 0) ∧ ∀ q ∈ σ.remote, q.2.exit = 0

theorem exitZero_apply {σ : Runs T} (h : ExitZero σ) (rid : RunId) (x : Eff T)
    (hn : ∀ p ∈ x.next, ∀ d, docOf p = some d → d.exit = 0) (hr : ∀ d, x.remoted = some d → d.exit = 0) :
    ExitZero (σ.apply rid x) := by
  refine ⟨fun p hp => ?_, fun q hq => ?_⟩
  · rcases List.mem_append.1 hp with hp | hp
    · exact h.1 p hp
    · exact hn p hp
  · rcases List.mem_append.1 hq with hq | hq
    · rw [List.mem_map] at hq
      obtain ⟨d, hd, rfl⟩ := hq
      exact hr d (Option.mem_toList.1 hd)
    · exact h.2 q hq

theorem docOf_subIf (rid : RunId) (b : Bool) : ∀ p ∈ (subIf rid b : List (Pending T)), docOf p = none := by
  intro p hp
  unfold subIf at hp
  split at hp
  · simp only [List.mem_singleton] at hp; subst hp; rfl
  · simp at hp

theorem docOf_rearm (rid : RunId) (g : Progress) : ∀ p ∈ (rearm rid g : List (Pending T)), docOf p = none := by
  intro p hp
  cases g <;> simp only [rearm, List.mem_singleton, List.not_mem_nil] at hp
  subst hp; rfl

theorem docOf_req (rid : RunId) (s : Option (RunState T)) (r : Req T) :
    (∀ p ∈ (reqEff rid s r).next, docOf p = none) ∧ (reqEff rid s r).remoted = none := by
  cases s with
  | none => exact ⟨by simp [reqEff], rfl⟩
  | some s =>
    cases r with
    | nextWork e =>
      have : ∀ a : PullAns T, (∀ p ∈ (match a with
          | .online items => { state := some (s.pull e).1, evs := [.pulled rid e items], next := [.pulled rid e items] }
          | .finished => { state := some (s.pull e).1, evs := [.work rid e [] true], next := [.respond rid e [] true none] }
          | .panic => { state := some (s.pull e).1, evs := [.panicked rid] } : Eff T).next, docOf p = none) ∧
          (match a with
          | .online items => { state := some (s.pull e).1, evs := [.pulled rid e items], next := [.pulled rid e items] }
          | .finished => { state := some (s.pull e).1, evs := [.work rid e [] true], next := [.respond rid e [] true none] }
          | .panic => { state := some (s.pull e).1, evs := [.panicked rid] } : Eff T).remoted = none := by
        intro a
        cases a <;> simp [docOf]
      exact this _
    | manifestFailed => exact ⟨docOf_subIf _ _, rfl⟩
    | emptyManifest => exact ⟨docOf_subIf _ _, rfl⟩
    | cancel e reason => exact ⟨docOf_subIf _ _, rfl⟩
    | _ => exact ⟨by simp [reqEff, exec], rfl⟩

theorem docOf_cont (s : Option (RunState T)) (ans : RemoteAns) (ok : Bool) (p : Pending T)
    (hp : ∀ d, docOf p = some d → d.exit = 0) :
    (∀ q ∈ (contEff s ans ok p).next, ∀ d, docOf q = some d → d.exit = 0) ∧
      ∀ d, (contEff s ans ok p).remoted = some d → d.exit = 0 := by
  cases p with
  | joinRemote p => cases ans <;> cases s <;> simp [contEff, loadRemote, createFresh, docOf]
  | joinRead p => cases s <;> simp [contEff]
  | pulled rid e items =>
    simp only [contEff]
    split <;> simp [docOf]
  | markEnd rid e items =>
    cases s with
    | none => simp [contEff]
    | some s =>
      refine ⟨?_, fun d hd => by simp [contEff] at hd⟩
      intro q hq d hd
      rcases List.mem_cons.1 hq with rfl | hq
      · cases s <;> simp [RunState.markEnd, docOf] at hd
        rw [← hd]
      · rw [docOf_subIf _ _ q hq] at hd; cases hd
  | respond rid e items eow plan =>
    cases ok with
    | false => simp [contEff]
    | true =>
      refine ⟨?_, fun d hd => by simp [contEff] at hd⟩
      intro q hq d hd
      cases plan with
      | none => simp [contEff, planTasks] at hq
      | some pl =>
        simp only [contEff, if_true, planTasks, List.mem_cons, List.not_mem_nil, or_false] at hq
        rcases hq with rfl | rfl
        · cases hd
        · exact hp d hd
  | dumpState rid doc =>
    cases ok with
    | false => simp [contEff]
    | true => exact ⟨by simp [contEff], fun d hd => hp d hd⟩
  | sub => simp [contEff]
  | dumpManifest => cases ok <;> simp [contEff, docOf]
  | setPersisted => simp [contEff]
  | timer rid last =>
    cases s with
    | none => simp [contEff]
    | some s =>
      simp only [contEff, timerEff]
      split
      · simp [docOf]
      · refine ⟨fun q hq d hd => ?_, fun d hd => by simp at hd⟩
        rw [docOf_rearm _ _ q hq] at hd; cases hd
  | timeoutWrite rid last =>
    cases s with
    | none => simp [contEff]
    | some s =>
      refine ⟨fun q hq d hd => ?_, fun d hd => by simp [contEff] at hd⟩
      rcases List.mem_append.1 hq with hq | hq
      · rw [docOf_rearm _ _ q hq] at hd; cases hd
      · rw [docOf_subIf _ _ q hq] at hd; cases hd

theorem exitZero_run (acts : List (RunsAct T)) : ExitZero ((init : Runs T).run acts) := by
  induction acts using Replay.snoc_induction with
  | h0 => exact ⟨fun p hp => absurd hp (by simp [run, init]), fun p hp => absurd hp (by simp [run, init])⟩
  | hs acts a ih =>
    have : (init : Runs T).run (acts ++ [a]) = ((init : Runs T).run acts).step a := by simp [run, List.foldl_append]
    rw [this]
    generalize (init : Runs T).run acts = σ at *
    cases a with
    | join p =>
      refine exitZero_apply ih _ _ ?_ ?_
      · intro q hq d hd
        cases hg : σ.get p.rid <;> rw [hg] at hq <;> simp only [joinEff, List.mem_singleton] at hq <;> subst hq <;> cases hd
      · intro d hd
        cases hg : σ.get p.rid <;> rw [hg] at hd <;> cases hd
    | request rid r =>
      simp only [step]
      split
      · exact ih
      · obtain ⟨h1, h2⟩ := docOf_req rid (σ.get rid) r
        refine exitZero_apply ih _ _ (fun q hq d hd => ?_) (fun d hd => ?_)
        · rw [h1 q hq] at hd; cases hd
        · rw [h2] at hd; cases hd
    | resume i ans ok =>
      simp only [step]
      cases hp : σ.pending[i]? with
      | none => exact ih
      | some p =>
        dsimp only
        split
        · exact ih
        · obtain ⟨h1, h2⟩ := docOf_cont (σ.get p.rid) ans ok p (ih.1 p (List.mem_of_getElem? hp))
          exact exitZero_apply (σ := { σ with pending := σ.pending.eraseIdx i })
            ⟨fun q hq => ih.1 q (List.mem_of_mem_eraseIdx hq), ih.2⟩ _ _ h1 h2

/-! ## Tests of a worker -/

theorem flatMap_pick {γ : Type} (n k : Nat) (items : List γ) :
    (List.range n).flatMap (fun i => if i = k then items else []) = if k < n then items else [] := by
  induction n with
  | zero => simp
  | succ n ih =>
    rw [List.range_succ, List.flatMap_append, ih]
    by_cases h : n = k
    · subst h; simp
    · by_cases h2 : k < n
      · simp [h, h2, Nat.lt_succ_of_lt h2]
      · have : ¬ k < n + 1 := by omega
        simp [h, h2, this]

theorem flatMap_append_perm' {γ δ : Type} (l : List γ) (f g : γ → List δ) :
    (l.flatMap fun x => f x ++ g x).Perm (l.flatMap f ++ l.flatMap g) := by
  induction l with
  | nil => simp
  | cons a l ih =>
    simp only [List.flatMap_cons]
    have h1 : (f a ++ g a ++ l.flatMap fun x => f x ++ g x).Perm (f a ++ g a ++ (l.flatMap f ++ l.flatMap g)) := ih.append_left _
    refine h1.trans ?_
    rw [List.append_assoc, List.append_assoc]
    refine List.Perm.append_left _ ?_
    rw [← List.append_assoc, ← List.append_assoc]
    exact (List.perm_append_comm).append_right _

theorem runners_perm (rid : RunId) (w n : Nat) (evs : List (Event T)) :
    ((List.range n).flatMap fun i => handedTo rid (.runner ⟨w, i + 1⟩) evs).Perm (handedToRunners rid w n evs) := by
  induction evs with
  | nil => simp [handedTo, handedToRunners]
  | cons ev evs ih =>
    have e1 : (fun i => handedTo rid (.runner ⟨w, i + 1⟩) (ev :: evs)) =
        fun i => pulledBy rid (.runner ⟨w, i + 1⟩) ev ++ handedTo rid (.runner ⟨w, i + 1⟩) evs := rfl
    have e2 : handedToRunners rid w n (ev :: evs) = pulledByRunners rid w n ev ++ handedToRunners rid w n evs := rfl
    rw [e1, e2]
    refine (flatMap_append_perm' _ _ _).trans ?_
    have e3 : (List.range n).flatMap (fun i => pulledBy rid (.runner ⟨w, i + 1⟩) ev) = pulledByRunners rid w n ev := by
      have hno : (∀ i, pulledBy rid (.runner ⟨w, i + 1⟩) ev = []) →
          (List.range n).flatMap (fun i => pulledBy rid (.runner ⟨w, i + 1⟩) ev) = [] := by
        intro h0
        rw [List.flatMap_eq_nil_iff]
        exact fun i _ => h0 i
      cases ev with
      | pulled r e items =>
        cases ht : e.tag with
        | runner wr =>
          by_cases hr : r = rid
          · by_cases hw : wr.worker = w
            · obtain ⟨wk, rn⟩ := wr
              simp only at hw
              cases rn with
              | zero =>
                rw [hno fun i => by simp [pulledBy, ht]]
                simp [pulledByRunners, ht]
              | succ rn =>
                have : (fun i => pulledBy rid (.runner ⟨w, i + 1⟩) (.pulled r e items)) =
                    fun i => if i = rn then items else [] := by
                  funext i
                  simp only [pulledBy, ht, hr, true_and, Tag.runner.injEq, WorkerRunner.mk.injEq, hw]
                  by_cases hi : i = rn
                  · rw [if_pos hi, if_pos (by omega)]
                  · rw [if_neg hi, if_neg (by omega)]
                rw [this, flatMap_pick]
                simp [pulledByRunners, ht, hr, hw, Nat.lt_iff_add_one_le]
            · rw [hno fun i => by
                obtain ⟨wk, rn⟩ := wr
                simp only at hw
                simp [pulledBy, ht, hw]]
              simp [pulledByRunners, ht, hw]
          · rw [hno fun i => by simp [pulledBy, hr]]
            simp [pulledByRunners, ht, hr]
        | localClient =>
          rw [hno fun i => by simp [pulledBy, ht]]
          simp [pulledByRunners, ht]
        | externalClient =>
          rw [hno fun i => by simp [pulledBy, ht]]
          simp [pulledByRunners, ht]
      | _ => exact hno fun i => rfl
    rw [e3]
    exact ih.append_left _

/-- A worker is given again everything if its runners that were given something are among those it has now, and only then. -/
theorem runners_all (rid : RunId) (w n : Nat) (evs : List (Event T)) :
    (handedToRunners rid w n evs).length ≤ (handedToWorker rid w evs).length ∧
    ((handedToRunners rid w n evs).length = (handedToWorker rid w evs).length ↔
      ∀ e items wr, .pulled rid e items ∈ evs → items ≠ [] → e.tag = .runner wr → wr.worker = w → 1 ≤ wr.runner ∧ wr.runner ≤ n) ∧
    ((handedToRunners rid w n evs).length = (handedToWorker rid w evs).length →
      handedToRunners rid w n evs = handedToWorker rid w evs) := by
  induction evs with
  | nil => exact ⟨Nat.le_refl _, by simp [handedToRunners, handedToWorker], fun _ => rfl⟩
  | cons ev evs ih =>
    obtain ⟨i1, i2, i3⟩ := ih
    have e1 : handedToWorker rid w (ev :: evs) = pulledByWorker rid w ev ++ handedToWorker rid w evs := rfl
    have e2 : handedToRunners rid w n (ev :: evs) = pulledByRunners rid w n ev ++ handedToRunners rid w n evs := rfl
    have key : (pulledByRunners rid w n ev).length ≤ (pulledByWorker rid w ev).length ∧
        ((pulledByRunners rid w n ev).length = (pulledByWorker rid w ev).length ↔
          ∀ e items wr, ev = .pulled rid e items → items ≠ [] → e.tag = .runner wr → wr.worker = w → 1 ≤ wr.runner ∧ wr.runner ≤ n) ∧
        ((pulledByRunners rid w n ev).length = (pulledByWorker rid w ev).length → pulledByRunners rid w n ev = pulledByWorker rid w ev) := by
      cases ev with
      | pulled r e items =>
        cases ht : e.tag with
        | runner wr =>
          by_cases hr : r = rid
          · by_cases hw : wr.worker = w
            · by_cases hn : 1 ≤ wr.runner ∧ wr.runner ≤ n
              · simp only [pulledByRunners, pulledByWorker, ht, hr, hw, hn, and_self, if_true, Nat.le_refl, true_iff, true_and]
                refine ⟨?_, fun _ => trivial⟩
                intro e' items' wr' h1 _ h2 _
                cases h1
                rw [ht] at h2
                cases h2
                exact hn
              · simp only [pulledByRunners, pulledByWorker, ht, hr, hw, hn, and_self, if_true, true_and, if_false]
                refine ⟨by simp, ⟨?_, ?_⟩, ?_⟩
                · intro h0 e' items' wr' h1 h3 _ _
                  cases h1
                  cases items with
                  | nil => exact absurd rfl h3
                  | cons a l => simp at h0
                · intro h0
                  cases items with
                  | nil => rfl
                  | cons a l => exact absurd (h0 e _ wr rfl (by simp) ht hw) hn
                · intro h0
                  cases items with
                  | nil => rfl
                  | cons a l => simp at h0
            · simp only [pulledByRunners, pulledByWorker, ht, hw, false_and, and_false, if_false, Nat.le_refl, true_iff, true_and]
              refine ⟨?_, fun _ => trivial⟩
              intro e' items' wr' h1 _ h2 h3
              cases h1
              rw [ht] at h2
              cases h2
              exact absurd h3 hw
          · simp only [pulledByRunners, pulledByWorker, ht, hr, false_and, if_false, Nat.le_refl, true_iff, true_and]
            refine ⟨?_, fun _ => trivial⟩
            intro e' items' wr' h1
            cases h1
            exact absurd rfl hr
        | _ =>
          simp only [pulledByRunners, pulledByWorker, ht, Nat.le_refl, true_iff, true_and]
          refine ⟨?_, fun _ => trivial⟩
          intro e' items' wr' h1 _ h2
          cases h1
          rw [ht] at h2
          cases h2
      | _ => exact ⟨Nat.le_refl _, ⟨(fun _ _ _ _ h => nomatch h), (fun _ => rfl)⟩, (fun _ => rfl)⟩
    obtain ⟨k1, k2, k3⟩ := key
    rw [e1, e2, List.length_append, List.length_append]
    refine ⟨by omega, ⟨?_, ?_⟩, ?_⟩
    · intro h e items wr hm
      rcases List.mem_cons.1 hm with hm | hm
      · exact k2.1 (by omega) e items wr hm.symm
      · exact i2.1 (by omega) e items wr hm
    · intro h
      have h1 := k2.2 fun e items wr hm => h e items wr (by rw [hm]; exact List.mem_cons_self)
      have h2 := i2.2 fun e items wr hm => h e items wr (List.mem_cons_of_mem _ hm)
      omega
    · intro h
      rw [k3 (by omega), i3 (by omega)]

end Abq.Attach
