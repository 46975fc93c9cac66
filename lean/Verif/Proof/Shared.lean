import Verif.Spec.Shared
import Verif.Proof.EndToEnd
import Verif.Props.Ahead

/-! # What a runner was given and has not begun, counted as first attempts -/

namespace Abq.EndToEnd
open Abq.Retries Abq.Fetch Abq.Fetch.Spec Abq.Pipe Abq.RunnerEnd Abq.MsgBuf Abq.MsgBuf.Spec

/-- No answer of the sources has more than `n` tests. -/
def Small (n : Nat) (sources : List (List Fetch.Resp)) : Prop :=
  ∀ src ∈ sources, ∀ b : Bundle, Fetch.Resp.bundle b ∈ src → b.work.length ≤ n

theorem small_tail {n : Nat} {a : List Fetch.Resp} {s : List (List Fetch.Resp)} (h : Small n (a :: s)) : Small n s :=
  fun src hs => h src (List.mem_cons_of_mem _ hs)

theorem small_rest {n : Nat} {x : Fetch.Resp} {a : List Fetch.Resp} {s : List (List Fetch.Resp)} (h : Small n ((x :: a) :: s)) :
    Small n (a :: s) := by
  intro src hs b hb
  rcases List.mem_cons.mp hs with rfl | hs
  · exact h _ List.mem_cons_self b (List.mem_cons_of_mem _ hb)
  · exact h src (List.mem_cons_of_mem _ hs) b hb

/-- What a fetch from the sources leaves and yields. -/
structure Fetched (n : Nat) (sources : List (List Fetch.Resp)) (r : Fetcher × Outcome) : Prop where
  small : Small n r.1.sources
  size : ∀ b, r.2 = .bundle b → b.work.length ≤ n ∨ supplied sources = supplied r.1.sources

theorem fetched_retries (n : Nat) (t : Tracker) : Fetched n [] (fetchRetries t) := by
  unfold fetchRetries
  split
  · exact ⟨(fun _ hs => nomatch hs), (fun _ _ => .inr rfl)⟩
  · exact ⟨(fun _ hs => nomatch hs), (fun _ _ => .inr rfl)⟩

theorem fetched_source (n : Nat) (rest : List (List Fetch.Resp)) (after : Tracker → Fetcher × Outcome)
    (ha : ∀ t, Fetched n rest (after t)) (rs : List Fetch.Resp) (t : Tracker) (hs : Small n (rs :: rest))
    (he : rs ≠ [] → Ends rs) : Fetched n (rs :: rest) (fetchSource rest after rs t) := by
  induction rs generalizing t with
  | nil => exact ⟨hs, (fun _ h => nomatch h)⟩
  | cons x rs ih =>
    have he := he (by simp)
    cases x with
    | error =>
      simp only [fetchSource]
      exact ⟨small_rest hs, (fun _ h => nomatch h)⟩
    | bundle b =>
      have hb : b.work.length ≤ n := hs _ List.mem_cons_self b List.mem_cons_self
      have hleft : Small n (if b.eow then rest else rs :: rest) := by
        split
        · exact small_tail hs
        · exact small_rest hs
      have hskip : ∀ t', b.work.isEmpty = true → Fetched n ((Fetch.Resp.bundle b :: rs) :: rest)
          (if b.eow then after t' else fetchSource rest after rs t') := by
        intro t' hw
        have hw : b.work = [] := List.isEmpty_iff.mp hw
        cases hq : b.eow with
        | true =>
          have hrs : rs = [] := by simpa [Ends, hq] using he
          rw [if_pos rfl]
          refine ⟨(ha t').small, fun b' h => ?_⟩
          have := (ha t').size b' h
          simpa [supplied, hrs, Fetch.Spec.Resp.work, hw] using this
        | false =>
          have hrs : Ends rs := by simpa [Ends, hq] using he
          rw [if_neg (by simp)]
          have h1 := ih t' (small_rest hs) (fun _ => hrs)
          refine ⟨h1.small, fun b' h => ?_⟩
          have := h1.size b' h
          simpa [supplied, Fetch.Spec.Resp.work, hw] using this
      have hgot : ∀ (t' : Tracker) (e : Bool), Fetched n ((Fetch.Resp.bundle b :: rs) :: rest)
          (⟨if b.eow then rest else rs :: rest, t'⟩, .bundle ⟨b.work, e⟩) := by
        intro t' e
        refine ⟨hleft, fun b' h => .inl ?_⟩
        cases h
        exact hb
      simp only [fetchSource]
      generalize (if b.eow then rest else rs :: rest) = left at hleft hgot ⊢
      by_cases h : (b.work.isEmpty && !left.isEmpty) = true
      · rw [if_pos h]
        simp only [Bool.and_eq_true] at h
        exact hskip t h.1
      · rw [if_neg h]
        split
        · exact ⟨hleft, (fun _ h => nomatch h)⟩
        · exact hgot _ _
        · exact hgot _ _
        · split
          · next h => exact hskip _ h
          · exact hgot _ _

theorem fetched_from (n : Nat) (sources : List (List Fetch.Resp)) (t : Tracker) (hs : Small n sources)
    (he : ∀ src ∈ sources, src ≠ [] → Ends src) : Fetched n sources (fetchFrom sources t) := by
  induction sources generalizing t with
  | nil => exact fetched_retries n t
  | cons rs rest ih =>
    exact fetched_source n rest _ (fun t => ih t (small_tail hs) fun src h => he src (List.mem_cons_of_mem _ h)) rs t hs
      (he rs List.mem_cons_self)

/-- The bundles a runner was given are small, or of later attempts; and those come when all first attempts were begun. -/
structure Kept (n : Nat) (src : List (List Fetch.Resp)) (p : Pipe) : Prop where
  small : Small n p.sys.fetcher.sources
  bundles : ∀ b ∈ p.sys.delivered, b.work.length ≤ n ∨ ∀ w ∈ b.work, 2 ≤ w.runNumber
  later : (∃ w ∈ p.sys.given, w.runNumber ≠ 1) → (supplied src).length ≤ (items p.buf.received).length

theorem inv_firsts {mx : Nat} {src : List (List Fetch.Resp)} (wf : WellFormed src) {s : Fetch.Sys} {h : Retries.Spec.Hist}
    {fs rs : List Retries.WorkerTest} (i : Inv mx src s h fs rs) : ∀ w ∈ fs, w.runNumber = 1 :=
  fun w hw => (wf.first w (i.pre.subset hw)).1

/-- When a test was given for another attempt, all first attempts were reported. -/
theorem inv_later {mx : Nat} {src : List (List Fetch.Resp)} (wf : WellFormed src) {s : Fetch.Sys} {h : Retries.Spec.Hist}
    {fs rs : List Retries.WorkerTest} (i : Inv mx src s h fs rs) (hl : ∃ w ∈ s.given, w.runNumber ≠ 1) :
    (supplied src).length ≤ s.log.length := by
  have hne : rs ≠ [] := by
    rintro rfl
    obtain ⟨w, hw, h1⟩ := hl
    rw [i.given, List.append_nil] at hw
    exact h1 (inv_firsts wf i w hw)
  rw [← i.later hne]
  have htodo := i.todo
  rw [i.given, List.map_append] at htodo
  apply Classical.byContradiction
  intro hlt
  have hlt : s.log.length < fs.length := by omega
  obtain ⟨r, rs', rfl⟩ : ∃ r rs', rs = r :: rs' := by
    cases rs with
    | nil => exact absurd rfl hne
    | cons r rs' => exact ⟨r, rs', rfl⟩
  have hall : ∀ k, s.log.length ≤ k → ∀ x, (fs.map Fetch.key ++ (r :: rs').map Fetch.key)[k]? = some x → x.2 = h.attempt := by
    intro k hk x hx
    rw [htodo, List.getElem?_append_right (by simpa using hk)] at hx
    obtain ⟨id, -, rfl⟩ := List.mem_map.mp (List.mem_of_getElem? hx)
    rfl
  have h1 := hall s.log.length (Nat.le_refl _) (Fetch.key fs[s.log.length]) (by
    rw [List.getElem?_append_left (by simpa using hlt), List.getElem?_map, List.getElem?_eq_getElem hlt]; rfl)
  have h2 := hall fs.length (by omega) (Fetch.key r) (by
    rw [List.getElem?_append_right (by simp)]; simp)
  have h3 := inv_firsts wf i fs[s.log.length] (List.getElem_mem hlt)
  have h4 := i.numbers r List.mem_cons_self
  simp only [Fetch.key] at h1 h2
  omega

theorem delivered_step {mx n : Nat} {src : List (List Fetch.Resp)} (wf : WellFormed src) {s : Fetch.Sys}
    (i : ∃ h f r, Inv mx src s h f r) (hs : Small n s.fetcher.sources)
    (hb : ∀ b ∈ s.delivered, b.work.length ≤ n ∨ ∀ w ∈ b.work, 2 ≤ w.runNumber) (i' : ∃ h f r, Inv mx src (Fetch.step s .fetch) h f r) :
    Small n (Fetch.step s .fetch).fetcher.sources ∧
    ∀ b ∈ (Fetch.step s .fetch).delivered, b.work.length ≤ n ∨ ∀ w ∈ b.work, 2 ≤ w.runNumber := by
  obtain ⟨h, f, r, i⟩ := i
  obtain ⟨h', f', r', i'⟩ := i'
  by_cases hst : (s.stopped || s.panicked) = true
  · have : Fetch.step s .fetch = s := by simp only [Fetch.step, hst, if_true]
    rw [this]; exact ⟨hs, hb⟩
  · have hst' : s.stopped = false ∧ s.panicked = false := by simpa using hst
    obtain ⟨-, -, hends, hnf⟩ := i.live hst'.1
    have hf := fetched_from n s.fetcher.sources s.fetcher.tracker hs (fun src h _ => hends src h)
    cases ho : s.fetcher.fetch with
    | mk fe o =>
      rw [show fetchFrom s.fetcher.sources s.fetcher.tracker = (fe, o) from ho] at hf
      cases o with
      | error =>
        have : Fetch.step s .fetch = { s with fetcher := fe, stopped := true, failed := true } := by
          simp [Fetch.step, hst', ho]
        rw [this]; exact ⟨hf.small, hb⟩
      | panic =>
        have : Fetch.step s .fetch = { s with fetcher := fe, panicked := true } := by
          simp [Fetch.step, hst', ho]
        rw [this]; exact ⟨hf.small, hb⟩
      | waiting =>
        have : Fetch.step s .fetch = { s with fetcher := fe } := by
          simp [Fetch.step, hst', ho]
        rw [this]; exact ⟨hf.small, hb⟩
      | bundle b =>
        have hstep : Fetch.step s .fetch = { s with fetcher := fe, delivered := s.delivered ++ [b], stopped := b.eow } := by
          simp [Fetch.step, hst', ho]
        rw [hstep] at i' ⊢
        refine ⟨hf.small, ?_⟩
        intro b' hb'
        rcases List.mem_append.mp hb' with hb' | hb'
        · exact hb b' hb'
        · simp only [List.mem_singleton] at hb'
          subst hb'
          rcases hf.size b' rfl with h1 | h1
          · exact .inl h1
          · right
            have e1 := i.rest hnf
            have e2 := i'.rest hnf
            rw [h1] at e1
            dsimp only at e2
            have hff : f' = f := by
              have := e1.symm.trans e2
              exact (List.append_cancel_right this).symm
            have g1 := i.given
            have g2 := i'.given
            simp only [Fetch.Sys.given, List.flatMap_append, List.flatMap_cons, List.flatMap_nil, List.append_nil] at g1 g2
            rw [g1, hff, List.append_assoc] at g2
            have g3 := List.append_cancel_left g2
            intro w hw
            exact (i'.numbers w (by rw [← g3]; exact List.mem_append.mpr (.inr hw))).1

theorem account_keeps (s : Fetch.Sys) (rs : List Results) :
    (Fetch.step s (.account rs)).fetcher.sources = s.fetcher.sources ∧ (Fetch.step s (.account rs)).delivered = s.delivered := by
  simp only [Fetch.step]
  repeat' split
  all_goals exact ⟨rfl, rfl⟩

theorem accounts_keep (l : List (List Results)) (s : Fetch.Sys) :
    (l.foldl (fun s rs => Fetch.step s (.account rs)) s).fetcher.sources = s.fetcher.sources ∧
    (l.foldl (fun s rs => Fetch.step s (.account rs)) s).delivered = s.delivered := by
  induction l generalizing s with
  | nil => exact ⟨rfl, rfl⟩
  | cons a l ih =>
    obtain ⟨h1, h2⟩ := account_keeps s a
    obtain ⟨h3, h4⟩ := ih (Fetch.step s (.account a))
    exact ⟨h3.trans h1, h4.trans h2⟩

theorem Kept.mono {n : Nat} {src : List (List Fetch.Resp)} {p q : Pipe} (k : Kept n src p)
    (h1 : q.sys.fetcher.sources = p.sys.fetcher.sources) (h2 : q.sys.delivered = p.sys.delivered)
    (h3 : p.buf.received <+: q.buf.received) : Kept n src q := by
  refine ⟨h1 ▸ k.small, h2 ▸ k.bundles, ?_⟩
  intro hl
  have : p.sys.given = q.sys.given := by simp only [Fetch.Sys.given, h2]
  rw [← this] at hl
  have := k.later hl
  obtain ⟨t, ht⟩ := h3
  rw [← ht, items_append, List.length_append]
  omega

theorem kept_step {mx n : Nat} {src : List (List Fetch.Resp)} (wf : WellFormed src) {p : Pipe} (h : PI mx src p)
    (k : Kept n src p) (a : Pipe.Act) : Kept n src (Pipe.step p a) := by
  have hpi' := pi_step wf h a
  cases a with
  | fetch =>
    by_cases hp : p.buf.prod = .fetching
    · have hsys : (Pipe.step p .fetch).sys = Fetch.step p.sys .fetch := by
        simp only [Pipe.step, Pipe.fetch, hp]
        split <;> rfl
      have hrec : (Pipe.step p .fetch).buf.received = p.buf.received := by
        simp only [Pipe.step, Pipe.fetch, hp]
        split
        · exact (fetch_same p.buf _).2
        · exact (fetch_same p.buf _).2
        · exact (fetch_same p.buf _).2
        · rfl
      obtain ⟨h1, h2⟩ := delivered_step wf h.sys k.small k.bundles (hsys ▸ hpi'.sys)
      refine ⟨hsys ▸ h1, hsys ▸ h2, ?_⟩
      intro hl
      obtain ⟨_, _, _, i'⟩ := hpi'.sys
      have h3 := inv_later wf i' hl
      have hlog : (Pipe.step p .fetch).sys.log = p.sys.log := by
        rw [hsys]
        simp only [Fetch.step]
        split
        · rfl
        · split <;> rfl
      rw [hlog] at h3
      rw [hrec]
      have hfl : flushedOf p.buf.cons = [] := by
        cases h.buf with
        | live cur frames old B l =>
          have := l.asks
          cases hc : p.buf.cons <;> rw [hc] at this <;> simp_all [flushedOf, Cons.asks]
        | flush acc f =>
          rcases f.state with hc | ⟨-, hd, -⟩
          · rw [hc]; rfl
          · rw [hp] at hd; cases hd
        | gone g => rw [g.gone]; rfl
      have hflow := congrArg List.length h.flow
      rw [hfl, ← h.log] at hflow
      simp only [List.length_append, List.length_map, List.length_nil] at hflow
      omega
    · have : Pipe.step p .fetch = p := by
        simp only [Pipe.step, Pipe.fetch]
      rw [this]; exact k
  | produce =>
    refine k.mono rfl rfl ?_
    show p.buf.received <+: p.buf.produce.received
    rw [(produce_same p.buf).2.1]
    exact List.prefix_refl _
  | consume =>
    simp only [Pipe.step, Pipe.consume]
    split
    · exact k.mono rfl rfl (received_grows _)
    · exact k.mono rfl rfl (received_grows _)
    · exact k
  | result rs => simp only [Pipe.step, Pipe.result]; split <;> exact k.mono rfl rfl (List.prefix_refl _)
  | crash =>
    simp only [Pipe.step, Pipe.crash]
    split
    · refine k.mono rfl rfl ?_
      simp only [Buf.startFlush]
      split <;> exact List.prefix_refl _
    · exact k
  | timeout =>
    simp only [Pipe.step, Pipe.timeout]
    split
    · refine k.mono rfl rfl ?_
      simp only [Buf.startFlush]
      split <;> exact List.prefix_refl _
    · exact k
  | send =>
    simp only [Pipe.step, Pipe.send]
    repeat' split
    all_goals exact k.mono rfl rfl (List.prefix_refl _)
  | take =>
    simp only [Pipe.step, Pipe.take]
    split
    · exact k.mono (accounts_keep _ _).1 (accounts_keep _ _).2 (List.prefix_refl _)
    · exact k.mono (accounts_keep _ _).1 (accounts_keep _ _).2 (List.prefix_refl _)
    · split
      · split
        · exact k
        · exact k.mono (accounts_keep _ _).1 (accounts_keep _ _).2 (List.prefix_refl _)
      · exact k

theorem life_kept {mx n : Nat} {src : List (List Fetch.Resp)} (wf : WellFormed src) (as : List RunnerEnd.Act) (l : Life)
    (h : l.failed = false → PI mx src l.pipe ∧ Drawn l.pipe.buf ∧ Kept n src l.pipe) :
    (l.run as).failed = false →
      PI mx src (l.run as).pipe ∧ Drawn (l.run as).pipe.buf ∧ Kept n src (l.run as).pipe := by
  induction as generalizing l with
  | nil => exact h
  | cons a as ih =>
    refine ih (l.step a) ?_
    cases a with
    | pipe a =>
      intro hf
      obtain ⟨h1, h2, h3⟩ := h hf
      exact ⟨pi_step wf h1 a, Abq.Props.pipe_drawn_step h1 h2 a, kept_step wf h1 h3 a⟩
    | restartFails =>
      simp only [Life.step]
      split
      · split
        · intro hf; cases hf
        · exact h
      · exact h
    | notify =>
      simp only [Life.step]
      split
      · split <;> exact h
      · exact h

/-- With an answer that is still to be read. -/
theorem drawn_bound_next {α : Type} {b : Buf α} (d : Drawn b) (n : Nat) (h : ∀ f ∈ b.fetched, f.length ≤ n)
    (hp : b.prod = .fetching) :
    b.fetched.flatten.length + n ≤ (items b.received).length + (2 * n - Nat.max 1 (n / 2)) ∨ n = 0 ∨
    b.fetched.flatten.length = 0 := by
  rw [← flatten_nonempty]
  have h' : ∀ f ∈ b.fetched.filter (fun f => !f.isEmpty), f.length ≤ n ∧ 1 ≤ f.length := by
    intro f hf
    rw [List.mem_filter] at hf
    refine ⟨h f hf.1, ?_⟩
    cases f with
    | nil => simp at hf
    | cons x xs => simp
  have hm2 : ∀ k, 1 ≤ k → k ≤ n → k - Nat.max 1 (k / 2) ≤ n - Nat.max 1 (n / 2) := by
    intro k h1 hk
    have e1 : Nat.max 1 (k / 2) = if 1 ≤ k / 2 then k / 2 else 1 := by rfl
    have e2 : Nat.max 1 (n / 2) = if 1 ≤ n / 2 then n / 2 else 1 := by rfl
    rw [e1, e2]
    split <;> split <;> omega
  rcases Nat.eq_zero_or_pos n with h0 | h0
  · exact .inr (.inl h0)
  · have hm3 : Nat.max 1 (n / 2) ≤ n := Nat.max_le.mpr ⟨h0, by omega⟩
    rcases List.eq_nil_or_concat (b.fetched.filter (fun f => !f.isEmpty)) with hn | ⟨old, A, hn⟩
    · rw [hn]; exact .inr (.inr rfl)
    · left
      have hn : b.fetched.filter (fun f => !f.isEmpty) = old ++ [A] := by simpa using hn
      have hA := h' A (by rw [hn]; simp)
      have hb := d.next (.inl hp) old A hn
      unfold Begun at hb
      have := hm2 A.length hA.2 hA.1
      have hAm : Nat.max 1 (A.length / 2) ≤ A.length := Nat.max_le.mpr ⟨hA.2, by omega⟩
      rw [hn]
      simp only [List.flatten_append, List.flatten_cons, List.flatten_nil, List.append_nil, List.length_append]
      omega

end Abq.EndToEnd
