import Verif.Proof.Pipeline

/-! # A runner comes to rest, and where (C60) -/

namespace Abq.Pipe
open Abq.Retries Abq.MsgBuf Abq.MsgBuf.Spec Abq.Buffered Abq.Fetch Abq.Fetch.Spec

/-! ## Who can go on -/

theorem expected_not_item {fs : List (List WorkerTest)} : ¬ EndsInItem (expected fs) := by
  rintro ⟨x, hx⟩
  have key : ∀ fs : List (List WorkerTest), expected fs = [] ∨ ∃ l, expected fs = l ++ [.flushProcessed] := by
    intro fs
    induction fs with
    | nil => exact .inl rfl
    | cons f fs ih =>
      have hc : expected (f :: fs) = seen f ++ expected fs := by simp [expected]
      rcases ih with h | ⟨l, h⟩
      · rw [hc, h, List.append_nil]
        cases f with
        | nil => exact .inl rfl
        | cons y ys => exact .inr ⟨_, rfl⟩
      · exact .inr ⟨seen f ++ l, by rw [hc, h]; simp⟩
  rcases key fs with h | ⟨l, h⟩ <;> rw [h] at hx <;> simp at hx

theorem fetch_moves {p : Pipe} (hp : p.buf.prod = .fetching) (hw : p.sys.fetcher.fetch.2 ≠ .waiting) :
    p.fetch ≠ p := by
  intro h
  have hb := congrArg (fun p => p.buf.prod) h
  unfold Pipe.fetch at hb
  rw [hp] at hb
  dsimp only at hb
  cases ho : p.sys.fetcher.fetch.2 with
  | waiting => exact hw ho
  | error => rw [ho] at hb; simp [Buf.fetch, hp] at hb
  | panic => rw [ho] at hb; simp [Buf.fetch, hp] at hb
  | bundle b =>
    rw [ho] at hb
    dsimp only at hb
    cases hbw : b.work with
    | nil => cases he : b.eow <;> simp [Buf.fetch, hp, hbw, he, afterBatch] at hb
    | cons x xs => simp [Buf.fetch, hp, hbw] at hb

theorem take_moves {p : Pipe} (h : p.chan ≠ []) : p.take ≠ p := by
  intro e
  have hl := congrArg (fun p => p.chan.length) e
  cases hc : p.chan with
  | nil => exact h hc
  | cons m ms => cases m <;> simp [Pipe.take, hc, Pipe.handle] at hl

theorem consume_moves {p : Pipe} (hr : p.runner = .receiving ∨ ∃ w, p.runner = .flushing w)
    (h : p.buf.consume ≠ p.buf) : p.consume ≠ p := by
  intro e
  have hb := congrArg Pipe.buf e
  rcases hr with hr | ⟨w, hr⟩ <;> rw [Pipe.consume, hr] at hb <;> exact h hb

theorem produce_moves {p : Pipe} (h : p.buf.produce ≠ p.buf) : { p with buf := p.buf.produce } ≠ p :=
  fun e => h (congrArg Pipe.buf e)

theorem stopped_of_done {mx : Nat} {src : List (List Resp)} {p : Pipe} (h : PI mx src p) :
    (p.buf.cons = .gone ∨ ∃ acc, p.buf.cons = .flushed acc) → p.buf.prod = .done := by
  intro hc
  cases h.buf with
  | live cur frames old B l =>
    have := l.asks
    rcases hc with hc | ⟨acc, hc⟩ <;> rw [hc] at this <;> cases this
  | flush acc f =>
    rcases f.state with h' | ⟨-, h', -⟩
    · rcases hc with hc | ⟨acc, hc⟩ <;> rw [hc] at h' <;> cases h'
    · exact h'
  | gone g => exact g.done

/-- Unless all tasks returned, somebody can go on; but when the native runner failed, not necessarily. -/
theorem pi_progress {mx : Nat} {src : List (List Resp)} (wf : WellFormed src) {p : Pipe} (h : PI mx src p)
    (hcap : 0 < p.chanCap) (hbcap : 0 < p.buf.cap) (hnf : p.finished = false) :
    (p.fetch ≠ p ∨ p.buf.produce ≠ p.buf ∨ p.consume ≠ p ∨
      (∀ rs, p.result rs ≠ p) ∨ p.send ≠ p ∨ p.take ≠ p) ∨
    ((∃ w, p.runner = .flushing w) ∧ p.buf.prod = .fetching ∧ p.sys.fetcher.fetch.2 = .waiting ∧
      p.sys.stopped = false) := by
  have hstop : p.buf.prod = .fetching → p.sys.stopped = false := by
    intro hp; have := h.prod; rw [hp] at this; exact this
  have hroom : ∀ m, p.runner = .sending m → p.send ≠ p ∨ p.take ≠ p := by
    intro m hr
    by_cases hlt : p.chan.length < p.chanCap
    · left
      intro e
      have := congrArg Pipe.runner e
      simp [Pipe.send, hr, hlt] at this
    · right
      exact take_moves (by intro e; rw [e] at hlt; simp at hlt; omega)
  cases hr : p.runner with
  | running w =>
    refine .inl (.inr (.inr (.inr (.inl ?_))))
    intro rs e
    have := congrArg Pipe.runner e
    simp [Pipe.result, hr] at this
  | sending m =>
    rcases hroom m hr with h1 | h1
    · exact .inl (.inr (.inr (.inr (.inr (.inl h1)))))
    · exact .inl (.inr (.inr (.inr (.inr (.inr h1)))))
  | failing rs =>
    have hpl := h.place
    rw [hr] at hpl
    cases hrs : rs with
    | nil => exact absurd hrs hpl.1
    | cons r rs' =>
      by_cases hlt : p.chan.length < p.chanCap
      · refine .inl (.inr (.inr (.inr (.inr (.inl ?_)))))
        intro e
        have := congrArg (fun p => p.chan.length) e
        simp [Pipe.send, hr, hrs, hlt] at this
      · refine .inl (.inr (.inr (.inr (.inr (.inr ?_)))))
        exact take_moves (by intro e; rw [e] at hlt; simp at hlt; omega)
  | closed f =>
    have hd : p.buf.prod = .done := by
      refine stopped_of_done h ?_
      have hpl := h.place
      rw [hr] at hpl
      cases f with
      | true => exact .inr hpl
      | false => exact .inl hpl
    have he : p.ended = false := by
      simp only [Pipe.finished, hr, hd, Prod.alive, Bool.not_false, Bool.and_true] at hnf
      exact hnf
    refine .inl (.inr (.inr (.inr (.inr (.inr ?_)))))
    intro e
    cases hc : p.chan with
    | cons m ms => exact take_moves (by simp [hc]) e
    | nil =>
      have := congrArg Pipe.ended e
      simp [Pipe.take, hc, hr, he, Pipe.handle] at this
  | flushing w =>
    obtain ⟨acc, hacc⟩ : ∃ acc, p.buf.cons = .flushing acc := by
      have := h.place; rw [hr] at this; exact this
    by_cases hp : p.buf.prod = .fetching
    · by_cases hw : p.sys.fetcher.fetch.2 = .waiting
      · exact .inr ⟨⟨w, rfl⟩, hp, hw, hstop hp⟩
      · exact .inl (.inl (fetch_moves hp hw))
    · rcases ok_progress h.buf hbcap hp (by rw [hacc]; rfl) with h1 | h1
      · exact .inl (.inr (.inl h1))
      · exact .inl (.inr (.inr (.inl (consume_moves (.inr ⟨w, hr⟩) h1))))
  | receiving =>
    have hpl : p.buf.cons.asks = true := by have := h.place; rw [hr] at this; exact this
    have hrec : p.buf.cons.receives = true := by
      cases hc : p.buf.cons <;> rw [hc] at hpl <;> simp_all [Cons.asks, Cons.receives]
    by_cases hp : p.buf.prod = .fetching
    · by_cases hw : p.sys.fetcher.fetch.2 = .waiting
      · -- everything was given; somebody holds up a result
        left
        cases h.buf with
        | flush acc f => rcases f.state with h' | ⟨h', -⟩ <;> rw [h'] at hpl <;> cases hpl
        | gone g => rw [g.gone] at hpl; cases hpl
        | live cur frames old B l =>
          cases hcs : p.buf.cons with
          | flushing acc => rw [hcs] at hpl; cases hpl
          | flushed acc => rw [hcs] at hpl; cases hpl
          | gone => rw [hcs] at hpl; cases hpl
          | asking x =>
            refine .inr (.inr (.inl (consume_moves (.inl hr) ?_)))
            refine consume_ask x hcs (.inr ?_)
            have := ok_ask h.buf x hcs (by rw [hp]; rfl)
            omega
          | needItem =>
            refine .inr (.inr (.inl (consume_moves (.inl hr) ?_)))
            obtain ⟨-, -, x, rest, hcur⟩ := l.need hcs
            have hpend := l.pend
            rw [hcur] at hpend
            simp only [pending, hp, sendq_fetching, List.append_nil, curMsgs, List.map_cons,
              List.cons_append] at hpend
            exact consume_msg hrec _ _ hpend (by simp [hcs])
          | ready =>
            cases hch : p.buf.chan with
            | cons m ms =>
              exact .inr (.inr (.inl (consume_moves (.inl hr)
                (consume_msg hrec m ms hch (by simp [hcs])))))
            | nil =>
              have hall : p.buf.received = expected p.buf.fetched := by
                have := l.flow
                simpa [pending, hp, hch, hcs, held, toRecv] using this
              have hclean := h.clean hr (by rw [hall]; exact expected_not_item)
              cases hpc : p.chan with
              | cons m ms => exact .inr (.inr (.inr (.inr (.inr (take_moves (by simp [hpc]))))))
              | nil =>
                exfalso
                rw [hpc] at hclean
                have hbuf : p.out.buffer = [] := by simpa [Clean] using hclean
                have hfl := h.flow
                rw [hbuf, hpc, hr, hcs, hall, items_expected, ← given_eq h.link] at hfl
                simp only [chanResults, List.filterMap_nil, List.append_nil, inflight, flushedOf] at hfl
                rw [← h.log] at hfl
                obtain ⟨hh, f, r, i⟩ := h.sys
                have := (inv_waiting wf i (hstop hp) hw).2.2
                have hl := congrArg List.length hfl
                simp only [List.length_map] at hl
                omega
      · exact .inl (.inl (fetch_moves hp hw))
    · rcases ok_progress h.buf hbcap hp hrec with h1 | h1
      · exact .inl (.inr (.inl h1))
      · exact .inl (.inr (.inr (.inl (consume_moves (.inl hr) h1))))

/-! ## Every schedule comes to rest -/

def consW : Cons WorkerTest → Nat
  | .ready => 1
  | .needItem => 1
  | .asking _ => 7
  | .flushing acc => 2 * acc.length
  | .flushed _ => 0
  | .gone => 0

def prodW : MsgBuf.Prod WorkerTest → Nat
  | .waiting => 1
  | .sending q _ => 10 * q.length
  | _ => 0

def bufW (b : Buf WorkerTest) : Nat := prodW b.prod + b.refill + consW b.cons + 8 * b.chan.length

def runnerW : Runner → Nat
  | .receiving => 0
  | .running _ => 4
  | .sending _ => 3
  | .flushing _ => 3
  | .failing rs => 2 * rs.length
  | .closed _ => 0

def endedW : Bool → Nat
  | true => 0
  | false => 1

def weight (p : Pipe) : Nat :=
  bufW p.buf + runnerW p.runner + p.chan.length + endedW p.ended

def sourcesW : List (List Resp) → Nat
  | [] => 0
  | s :: ss => 1 + (supplied (s :: ss)).length

theorem sourcesW_le (s : List (List Resp)) : sourcesW s ≤ 1 + (supplied s).length := by
  cases s <;> simp [sourcesW]

def budgetOf (sources : List (List Resp)) (max current : Nat) : Bool → Nat
  | true => 0
  | false => 1 + sourcesW sources + (max - current)

def budget (p : Pipe) : Nat :=
  budgetOf p.sys.fetcher.sources p.sys.fetcher.tracker.maxRunNumber
    p.sys.fetcher.tracker.currentRunNumber p.sys.stopped

theorem produce_weight (b : Buf WorkerTest) : b.produce = b ∨ bufW b.produce < bufW b := by
  unfold Buf.produce
  cases hp : b.prod with
  | fetching => exact .inl rfl
  | done => exact .inl rfl
  | waiting =>
    dsimp only
    split
    · right; simp only [bufW, prodW, hp]; omega
    · split
      · right; simp only [bufW, prodW, hp]; omega
      · exact .inl rfl
  | sending q c =>
    cases q with
    | nil => exact .inl rfl
    | cons m q =>
      dsimp only
      split
      · right; simp only [bufW, prodW, hp, List.length_cons]; omega
      · split
        · right
          have : prodW (afterSend q c) ≤ 10 * q.length + 1 := by
            cases q with
            | nil => cases c <;> simp [afterSend, afterBatch, prodW]
            | cons a as => simp [afterSend, prodW]
          have h2 : prodW (.sending (m :: q) c) = 10 * (q.length + 1) := rfl
          simp only [bufW, hp, h2, List.length_append, List.length_cons, List.length_nil]
          omega
        · exact .inl rfl

theorem take_weight (b : Buf WorkerTest) (x : WorkerTest) (h : consW b.cons = 1) :
    (bufW (b.take x) ≤ bufW b + 6 ∧ (b.take x).received = b.received) ∨
    (bufW (b.take x) = bufW b ∧ (b.take x).received = b.received ++ [.item x]) := by
  simp only [Buf.take]
  split
  · left
    have h2 : consW (.asking x) = 7 := rfl
    simp only [bufW, h2, h]
    exact ⟨by omega, trivial⟩
  · right
    have h2 : consW (.ready) = 1 := rfl
    simp only [bufW, h2, h]
    exact ⟨trivial, trivial⟩

theorem recv_weight (b : Buf WorkerTest) (h : b.cons.asks = true) :
    b.consume = b ∨ (bufW b.consume < bufW b ∧ b.consume.received = b.received) ∨
    bufW b.consume + 5 ≤ bufW b := by
  cases hc : b.cons with
  | flushing acc => rw [hc] at h; cases h
  | flushed acc => rw [hc] at h; cases h
  | gone => rw [hc] at h; cases h
  | ready =>
    cases hch : b.chan with
    | nil =>
      simp only [Buf.consume, hc, hch]
      split
      · exact .inl rfl
      · right; left; simp only [bufW, hc, consW, hch]; exact ⟨by omega, trivial⟩
    | cons m ms =>
      cases m with
      | batchSize n =>
        right; right
        simp only [Buf.consume, hc, hch, bufW, consW, List.length_cons]; omega
      | forceFlush =>
        right; right
        simp only [Buf.consume, hc, hch, bufW, consW, List.length_cons]; omega
      | item x =>
        have hw : bufW { b with chan := ms } + 8 = bufW b := by
          simp only [bufW, hch, List.length_cons]; omega
        have := take_weight { b with chan := ms } x (by rw [show ({ b with chan := ms } : Buf WorkerTest).cons = b.cons from rfl, hc]; rfl)
        simp only [Buf.consume, hc, hch]
        rw [hc] at this hw
        rcases this with ⟨h1, h2⟩ | ⟨h1, h2⟩
        · exact .inr (.inl ⟨by omega, h2⟩)
        · exact .inr (.inr (by omega))
  | needItem =>
    cases hch : b.chan with
    | nil =>
      simp only [Buf.consume, hc, hch]
      split
      · exact .inl rfl
      · right; left; simp only [bufW, hc, consW, hch]; exact ⟨by omega, trivial⟩
    | cons m ms =>
      cases m with
      | batchSize n =>
        right; right
        simp only [Buf.consume, hc, hch, bufW, consW, List.length_cons]; omega
      | forceFlush =>
        right; right
        simp only [Buf.consume, hc, hch, bufW, consW, List.length_cons]; omega
      | item x =>
        have hw : bufW { b with chan := ms } + 8 = bufW b := by
          simp only [bufW, hch, List.length_cons]; omega
        have := take_weight { b with chan := ms } x (by rw [show ({ b with chan := ms } : Buf WorkerTest).cons = b.cons from rfl, hc]; rfl)
        simp only [Buf.consume, hc, hch]
        rw [hc] at this hw
        rcases this with ⟨h1, h2⟩ | ⟨h1, h2⟩
        · exact .inr (.inl ⟨by omega, h2⟩)
        · exact .inr (.inr (by omega))
  | asking x =>
    simp only [Buf.consume, hc]
    split
    · right; right; simp only [bufW, consW, hc]; omega
    · split
      · right; right; simp only [bufW, consW, hc]; omega
      · exact .inl rfl

theorem flushing_weight (b : Buf WorkerTest) (acc : List WorkerTest) (hc : b.cons = .flushing acc) :
    b.consume = b ∨ ((∃ acc', b.consume.cons = .flushing acc') ∧ bufW b.consume < bufW b) ∨
    (b.consume.cons = .flushed acc ∧ bufW b.consume + 2 * acc.length = bufW b) := by
  cases hch : b.chan with
  | nil =>
    simp only [Buf.consume, hc, hch]
    split
    · exact .inl rfl
    · right; right; simp only [bufW, consW, hc, hch]; exact ⟨trivial, by omega⟩
  | cons m ms =>
    right; left
    cases m with
    | item x =>
      simp only [Buf.consume, hc, hch, bufW, consW, List.length_cons, List.length_append, List.length_nil]
      exact ⟨⟨_, rfl⟩, by omega⟩
    | batchSize n =>
      simp only [Buf.consume, hc, hch, bufW, consW, List.length_cons]
      exact ⟨⟨acc, by simp⟩, by omega⟩
    | forceFlush =>
      simp only [Buf.consume, hc, hch, bufW, consW, List.length_cons]
      exact ⟨⟨acc, by simp⟩, by omega⟩

theorem account_current (t : Tracker) (rs : List Results) (t' : Tracker) (h : t.account rs = some t') :
    t'.currentRunNumber = t.currentRunNumber ∧ t'.maxRunNumber = t.maxRunNumber := by
  induction rs generalizing t with
  | nil => simp only [Tracker.account, Option.some.injEq] at h; rw [← h]; exact ⟨rfl, rfl⟩
  | cons r rs ih =>
    simp only [Tracker.account] at h
    split at h
    · cases h
    · split at h
      · cases h
      · have := ih _ h; exact this

theorem account_budget (s : Sys) (rs : List Results) :
    (Fetch.step s (.account rs)).stopped = s.stopped ∧
    (Fetch.step s (.account rs)).fetcher.sources = s.fetcher.sources ∧
    (Fetch.step s (.account rs)).fetcher.tracker.currentRunNumber = s.fetcher.tracker.currentRunNumber ∧
    (Fetch.step s (.account rs)).fetcher.tracker.maxRunNumber = s.fetcher.tracker.maxRunNumber := by
  simp only [Fetch.step]
  split
  · cases ha : s.fetcher.tracker.account rs with
    | none => exact ⟨rfl, rfl, rfl, rfl⟩
    | some t =>
      obtain ⟨h1, h2⟩ := account_current _ _ _ ha
      exact ⟨rfl, rfl, h1, h2⟩
  · exact ⟨rfl, rfl, rfl, rfl⟩

theorem handle_budget (p : Pipe) (out : Buffer Results) : budget (p.handle out) = budget p := by
  have key : ∀ (bs : List (List Results)) (s : Sys),
      (bs.foldl (fun s rs => Fetch.step s (.account rs)) s).stopped = s.stopped ∧
      (bs.foldl (fun s rs => Fetch.step s (.account rs)) s).fetcher.sources = s.fetcher.sources ∧
      (bs.foldl (fun s rs => Fetch.step s (.account rs)) s).fetcher.tracker.currentRunNumber =
        s.fetcher.tracker.currentRunNumber ∧
      (bs.foldl (fun s rs => Fetch.step s (.account rs)) s).fetcher.tracker.maxRunNumber =
        s.fetcher.tracker.maxRunNumber := by
    intro bs
    induction bs with
    | nil => intro s; exact ⟨rfl, rfl, rfl, rfl⟩
    | cons b bs ih =>
      intro s
      obtain ⟨a1, a2, a3, a4⟩ := ih (Fetch.step s (.account b))
      obtain ⟨b1, b2, b3, b4⟩ := account_budget s b
      exact ⟨a1.trans b1, a2.trans b2, a3.trans b3, a4.trans b4⟩
  obtain ⟨h1, h2, h3, h4⟩ := key (out.sent.drop p.out.sent.length) p.sys
  simp only [budget, Pipe.handle]
  rw [h1, h2, h3, h4]

/-- A fetch with an effect uses up some of the budget. -/
theorem fetch_budget {mx : Nat} {src : List (List Resp)} (wf : WellFormed src) {p : Pipe}
    (h : PI mx src p) (hne : p.fetch ≠ p) : budget p.fetch < budget p := by
  unfold Pipe.fetch at hne ⊢
  cases hp : p.buf.prod with
  | sending q c => simp [hp] at hne
  | waiting => simp [hp] at hne
  | done => simp [hp] at hne
  | fetching =>
    have hstop : p.sys.stopped = false := by have := h.prod; rw [hp] at this; exact this
    obtain ⟨hh, f, r, i⟩ := h.sys
    have hfine := i.fine
    obtain ⟨h', hsim, -, g⟩ := fine_fetch _ hh _ (inv_ready wf i hstop)
    rw [hp] at hne
    dsimp only at hne ⊢
    have hfe : p.sys.fetcher.fetch = fetchFrom p.sys.fetcher.sources p.sys.fetcher.tracker := rfl
    have hcur := i.sim.cur
    have hmax := i.sim.max
    have hle := i.sim.le
    have hcur' := hsim.cur
    have hmax' := hsim.max
    have hle' := hsim.le
    simp only [Fetch.step, hstop, hfine, Bool.or_self, Bool.false_eq_true, if_false] at hne ⊢
    generalize he : p.sys.fetcher.fetch = e at hne hfe ⊢
    rw [← hfe] at g hsim hcur' hmax'
    obtain ⟨f', o⟩ := e
    dsimp only at hne g hcur' hmax' ⊢
    have hb : budget p = 1 + sourcesW p.sys.fetcher.sources + (mx - hh.attempt) := by
      simp only [budget, hstop, budgetOf, hcur, hmax]
    rw [hb]
    cases g with
    | first ws hws hs hhe =>
      have hatt : h'.attempt = hh.attempt := by rw [hhe]
      simp only [budget, budgetOf, hcur', hmax', hatt]
      have : 0 < ws.length := List.length_pos_iff.mpr hws
      have hlen := congrArg List.length hs
      have h2 := sourcesW_le f'.sources
      simp only [List.length_append] at hlen
      cases hsrc : p.sys.fetcher.sources with
      | nil =>
        rw [hsrc] at hs
        simp only [supplied, List.flatMap_nil] at hs
        have := List.append_eq_nil_iff.mp hs.symm
        exact absurd this.1 hws
      | cons a b =>
        rw [hsrc] at hlen
        have h3 : sourcesW (a :: b) = 1 + (supplied (a :: b)).length := rfl
        rw [h3]
        omega
    | retry ws hws hs hl ht hr hhe =>
      have hatt : h'.attempt = hh.attempt + 1 := by rw [hhe]
      simp only [budget, budgetOf, hcur', hmax', hl, sourcesW]
      omega
    | done hs hl hhe hw =>
      simp only [budget, budgetOf]
      omega
    | error hhe =>
      simp only [budget, budgetOf]
      omega
    | wait hs hl hhe ht ha =>
      have hatt : h'.attempt = hh.attempt := by rw [hhe]
      simp only [budget, budgetOf, hcur', hmax', hl, hatt, sourcesW]
      cases hsrc : p.sys.fetcher.sources with
      | cons a b => simp only [sourcesW]; omega
      | nil =>
        exfalso
        apply hne
        have hfe2 : fetchRetries p.sys.fetcher.tracker = (f', .waiting) := by
          rw [hfe, hsrc]; rfl
        have : f' = p.sys.fetcher := by
          simp only [fetchRetries] at hfe2
          split at hfe2
          · simp at hfe2
          · rename_i t he2
            simp only [Prod.mk.injEq, and_true] at hfe2
            rw [← hfe2]
            have ht : t = p.sys.fetcher.tracker := by
              have h3 := congrArg Prod.fst he2
              simp only at h3
              rw [← h3]
              unfold Tracker.assemble at he2 ⊢
              split
              · rfl
              · rename_i hc
                rw [if_neg hc] at he2
                split
                · rfl
                · rfl
                · rename_i hst
                  rw [hst] at he2
                  split
                  · rename_i hpr
                    dsimp only at he2
                    rw [if_pos hpr] at he2
                    split at he2 <;> simp at he2
                  · rfl
            rw [ht]
            cases hfet : p.sys.fetcher with
            | mk a b => rw [hfet] at hsrc; simp only at hsrc; rw [hsrc]
        rw [this]
        cases p with
        | mk sys buf runner chan chanCap out ended =>
          cases sys
          simp_all

theorem step_measure {mx : Nat} {src : List (List Resp)} (wf : WellFormed src) {p : Pipe}
    (h : PI mx src p) (a : Act) (hne : step p a ≠ p) :
    budget (step p a) < budget p ∨ (budget (step p a) = budget p ∧ weight (step p a) < weight p) := by
  cases a with
  | fetch => exact .inl (fetch_budget wf h hne)
  | produce =>
    right
    refine ⟨rfl, ?_⟩
    rcases produce_weight p.buf with h1 | h1
    · simp only [step, h1] at hne; exact absurd rfl hne
    · simp only [step, weight]; omega
  | consume =>
    right
    simp only [step, Pipe.consume] at hne ⊢
    split at hne
    · rename_i hr
      refine ⟨rfl, ?_⟩
      have hpl : p.buf.cons.asks = true := by have := h.place; rw [hr] at this; exact this
      have h0 : runnerW .receiving = 0 := rfl
      simp only [weight, hr, h0]
      have hle : runnerW (afterRecv p.buf p.buf.consume) ≤ 4 := by
        unfold afterRecv
        split
        · simp [runnerW]
        · split <;> simp [runnerW]
      rcases recv_weight p.buf hpl with h1 | ⟨h1, h2⟩ | h1
      · exfalso
        apply hne
        rw [h1]
        have : afterRecv p.buf p.buf = .receiving := by
          unfold afterRecv
          rw [List.drop_length]
          cases hc : p.buf.cons <;> rw [hc] at hpl <;> simp_all [Cons.asks]
        rw [this, ← hr]
      · have : runnerW (afterRecv p.buf p.buf.consume) = 0 := by
          unfold afterRecv
          rw [h2, List.drop_length]
          split <;> rfl
        omega
      · omega
    · rename_i w hr
      refine ⟨rfl, ?_⟩
      obtain ⟨acc, hacc⟩ : ∃ acc, p.buf.cons = .flushing acc := by
        have := h.place; rw [hr] at this; exact this
      simp only [weight, hr, runnerW]
      rcases flushing_weight p.buf acc hacc with h1 | ⟨⟨acc', h1⟩, h2⟩ | ⟨h1, h2⟩
      · exfalso
        apply hne
        rw [h1, hacc, ← hr]
      · rw [h1]; dsimp only; omega
      · rw [h1]
        simp only [failureResults, List.length_map, List.length_cons]
        omega
    · exact absurd rfl hne
  | result rs =>
    right
    simp only [step, Pipe.result] at hne ⊢
    split at hne
    · rename_i w hr
      refine ⟨rfl, ?_⟩
      simp only [weight, hr, runnerW]
      omega
    · exact absurd rfl hne
  | crash =>
    right
    simp only [step, Pipe.crash] at hne ⊢
    split at hne
    · rename_i w hr
      have hpl : p.buf.cons = .ready := by have := h.place; rw [hr] at this; exact this
      refine ⟨rfl, ?_⟩
      simp only [weight, hr, runnerW, Buf.startFlush, hpl, bufW, consW, List.length_nil]
      omega
    · exact absurd rfl hne
  | timeout =>
    right
    simp only [step, Pipe.timeout] at hne ⊢
    split at hne
    · rename_i w hr
      have hpl : p.buf.cons = .ready := by have := h.place; rw [hr] at this; exact this
      refine ⟨rfl, ?_⟩
      simp only [weight, hr, runnerW, Buf.startFlush, hpl, bufW, consW, List.length_nil]
      omega
    · exact absurd rfl hne
  | send =>
    right
    have hne : p.send ≠ p := hne
    change budget p.send = budget p ∧ weight p.send < weight p
    cases hr : p.runner with
    | sending m =>
      by_cases hlt : p.chan.length < p.chanCap
      · have : p.send = { p with chan := p.chan ++ [m], runner := .receiving } := by
          simp [Pipe.send, hr, hlt]
        rw [this]
        refine ⟨rfl, ?_⟩
        simp only [weight, hr, runnerW, List.length_append, List.length_cons, List.length_nil]
        omega
      · exact absurd (by simp [Pipe.send, hr, hlt]) hne
    | failing rs =>
      cases rs with
      | nil => exact absurd (by simp [Pipe.send, hr]) hne
      | cons r rs =>
        by_cases hlt : p.chan.length < p.chanCap
        · have : p.send = { p with chan := p.chan ++ [.results r], runner := afterFailure rs } := by
            simp [Pipe.send, hr, hlt]
          rw [this]
          refine ⟨rfl, ?_⟩
          have h2 : runnerW (afterFailure rs) = 2 * rs.length := by cases rs <;> rfl
          have h3 : runnerW (.failing (r :: rs)) = 2 * (rs.length + 1) := rfl
          simp only [weight, hr, h2, h3, List.length_append, List.length_cons, List.length_nil]
          omega
        · exact absurd (by simp [Pipe.send, hr, hlt]) hne
    | receiving => exact absurd (by simp [Pipe.send, hr]) hne
    | running w => exact absurd (by simp [Pipe.send, hr]) hne
    | flushing w => exact absurd (by simp [Pipe.send, hr]) hne
    | closed f => exact absurd (by simp [Pipe.send, hr]) hne
  | take =>
    right
    simp only [step, Pipe.take] at hne ⊢
    split at hne
    · rename_i r ms hc
      refine ⟨handle_budget _ _, ?_⟩
      simp only [weight, Pipe.handle, hc, List.length_cons]
      omega
    · rename_i ms hc
      refine ⟨handle_budget _ _, ?_⟩
      simp only [weight, Pipe.handle, hc, List.length_cons]
      omega
    · rename_i hc
      split at hne
      · rename_i f hr
        split at hne
        · exact absurd rfl hne
        · rename_i he
          try rw [if_neg he]
          refine ⟨handle_budget _ _, ?_⟩
          simp only [Bool.not_eq_true] at he
          simp only [weight, Pipe.handle, hr, hc, he, endedW]
          simp
      · exact absurd rfl hne

theorem after_add (p : Pipe) (f : Nat → Act) (k n : Nat) :
    after p f (k + n) = after (after p f k) (fun m => f (k + m)) n := by
  induction n with
  | zero => rfl
  | succ n ih => rw [← Nat.add_assoc]; simp only [after]; rw [ih]

theorem pi_after {mx : Nat} {src : List (List Resp)} (wf : WellFormed src) {p : Pipe} (h : PI mx src p)
    (f : Nat → Act) (n : Nat) : PI mx src (after p f n) := by
  induction n with
  | zero => exact h
  | succ n ih => exact pi_step wf ih (f n)

/-- Every schedule comes to rest. -/
theorem pi_rest {mx : Nat} {src : List (List Resp)} (wf : WellFormed src) (x : Nat × Nat) :
    ∀ p, (budget p, weight p) = x → PI mx src p → ∀ f : Nat → Act,
      ∃ N, ∀ n, N ≤ n → after p f n = after p f N := by
  have hwf : WellFounded (Prod.Lex (· < · : Nat → Nat → Prop) (· < · : Nat → Nat → Prop)) :=
    (Prod.lex ⟨_, Nat.lt_wfRel.wf⟩ ⟨_, Nat.lt_wfRel.wf⟩).wf
  induction x using hwf.induction with
  | _ x ih =>
    intro p hx h f
    by_cases hall : ∀ n, after p f n = p
    · exact ⟨0, fun n _ => by rw [hall n]; rfl⟩
    · -- the first step with an effect
      have : ∃ n, after p f n = p ∧ after p f (n + 1) ≠ p := by
        apply Classical.byContradiction
        intro hno
        apply hall
        intro n
        induction n with
        | zero => rfl
        | succ n ihn =>
          apply Classical.byContradiction
          intro hne
          exact hno ⟨n, ihn, hne⟩
      obtain ⟨n, h1, h2⟩ := this
      have hstep : after p f (n + 1) = step p (f n) := by simp only [after, h1]
      rw [hstep] at h2
      have hm := step_measure wf h (f n) h2
      have hlex : Prod.Lex (· < ·) (· < ·) (budget (step p (f n)), weight (step p (f n))) x := by
        rw [← hx]
        rcases hm with hm | ⟨hm1, hm2⟩
        · exact Prod.Lex.left _ _ hm
        · rw [hm1]; exact Prod.Lex.right _ hm2
      obtain ⟨N, hN⟩ := ih _ hlex (step p (f n)) rfl (pi_step wf h (f n)) (fun m => f (n + 1 + m))
      refine ⟨n + 1 + N, ?_⟩
      intro k hk
      obtain ⟨j, rfl⟩ : ∃ j, k = n + 1 + j := ⟨k - (n + 1), by omega⟩
      rw [after_add p f (n + 1) j, after_add p f (n + 1) N, hstep]
      exact hN j (by omega)

theorem caps_step (p : Pipe) (a : Act) : (step p a).chanCap = p.chanCap ∧ (step p a).buf.cap = p.buf.cap := by
  have hf : ∀ r, (p.buf.fetch r).cap = p.buf.cap := fun r => cap_step p.buf (.fetch r)
  have hc : p.buf.consume.cap = p.buf.cap := cap_step p.buf .consume
  have hs : p.buf.startFlush.cap = p.buf.cap := cap_step p.buf .startFlush
  have hp : p.buf.produce.cap = p.buf.cap := cap_step p.buf .produce
  cases a with
  | fetch =>
    simp only [step, Pipe.fetch]
    split
    · split <;> exact ⟨rfl, by first | exact hf _ | rfl⟩
    · exact ⟨rfl, rfl⟩
  | produce => exact ⟨rfl, hp⟩
  | consume =>
    simp only [step, Pipe.consume]
    split
    · exact ⟨rfl, hc⟩
    · exact ⟨rfl, hc⟩
    · exact ⟨rfl, rfl⟩
  | result rs => simp only [step, Pipe.result]; split <;> exact ⟨rfl, rfl⟩
  | crash =>
    simp only [step, Pipe.crash]
    split
    · exact ⟨rfl, hs⟩
    · exact ⟨rfl, rfl⟩
  | timeout =>
    simp only [step, Pipe.timeout]
    split
    · exact ⟨rfl, hs⟩
    · exact ⟨rfl, rfl⟩
  | send =>
    simp only [step, Pipe.send]
    split
    · split <;> exact ⟨rfl, rfl⟩
    · split <;> exact ⟨rfl, rfl⟩
    · exact ⟨rfl, rfl⟩
  | take =>
    simp only [step, Pipe.take]
    split
    · exact ⟨rfl, rfl⟩
    · exact ⟨rfl, rfl⟩
    · split
      · split <;> exact ⟨rfl, rfl⟩
      · exact ⟨rfl, rfl⟩

theorem caps_after (p : Pipe) (f : Nat → Act) (n : Nat) :
    (after p f n).chanCap = p.chanCap ∧ (after p f n).buf.cap = p.buf.cap := by
  induction n with
  | zero => exact ⟨rfl, rfl⟩
  | succ n ih =>
    obtain ⟨h1, h2⟩ := caps_step (after p f n) (f n)
    exact ⟨h1.trans ih.1, h2.trans ih.2⟩

/-- Without a failure of the native runner, no test is flushed. -/
theorem no_flush_step (p : Pipe) (a : Act) (ha : a ≠ .crash ∧ a ≠ .timeout)
    (h : ∀ w, p.runner ≠ .flushing w) : ∀ w, (step p a).runner ≠ .flushing w := by
  intro w
  cases a with
  | crash => exact absurd rfl ha.1
  | timeout => exact absurd rfl ha.2
  | fetch =>
    simp only [step, Pipe.fetch]
    split
    · split <;> exact h w
    · exact h w
  | produce => exact h w
  | consume =>
    simp only [step, Pipe.consume]
    split
    · simp only [afterRecv]
      split
      · simp
      · split <;> simp
    · rename_i v hr; exact absurd hr (h v)
    · exact h w
  | result rs =>
    simp only [step, Pipe.result]
    split
    · simp
    · exact h w
  | send =>
    simp only [step, Pipe.send]
    split
    · split
      · simp
      · exact h w
    · split
      · rename_i r rs _ _
        cases rs <;> simp [afterFailure]
      · exact h w
    · exact h w
  | take =>
    simp only [step, Pipe.take]
    split
    · exact h w
    · exact h w
    · split
      · split
        · exact h w
        · exact h w
      · exact h w

theorem no_flush_after (p : Pipe) (f : Nat → Act) (hf : ∀ n, f n ≠ .crash ∧ f n ≠ .timeout)
    (h : ∀ w, p.runner ≠ .flushing w) (n : Nat) : ∀ w, (after p f n).runner ≠ .flushing w := by
  induction n with
  | zero => exact h
  | succ n ih => exact no_flush_step _ _ (hf n) ih

end Abq.Pipe

namespace Abq.Pipe
open Abq.Retries Abq.MsgBuf Abq.MsgBuf.Spec Abq.Buffered Abq.Fetch Abq.Fetch.Spec

/-! ## After the native runner failed -/

/-- Results handed over or on their way. -/
def allResults (p : Pipe) : List Results := p.out.sent.flatten ++ p.out.buffer ++ chanResults p.chan

/-- After the native runner failed on `w` when it had yielded `X`. -/
def Failed (w : WorkerTest) (X : List Results) (p : Pipe) : Prop :=
  match p.runner with
  | .flushing v => v = w ∧ allResults p = X
  | .failing rs => ∃ rem, allResults p ++ rs = X ++ failureResults w rem
  | .closed true => ∃ rem, allResults p = X ++ failureResults w rem
  | _ => False

theorem failed_same {w : WorkerTest} {X : List Results} {p q : Pipe} (h : Failed w X p)
    (h1 : q.runner = p.runner) (h2 : allResults q = allResults p) : Failed w X q := by
  unfold Failed at h ⊢
  rw [h1, h2]
  exact h

theorem failed_step {w : WorkerTest} {X : List Results} {p : Pipe} (h : Failed w X p) (a : Act) :
    Failed w X (step p a) := by
  cases a with
  | fetch =>
    refine failed_same h ?_ ?_
    all_goals
      simp only [step, Pipe.fetch]
      repeat' (first | split | rfl)
  | produce => exact failed_same h rfl rfl
  | result rs =>
    refine failed_same h ?_ ?_
    all_goals
      simp only [step, Pipe.result]
      split
      · rename_i v hr; simp [Failed, hr] at h
      · rfl
  | crash =>
    refine failed_same h ?_ ?_
    all_goals
      simp only [step, Pipe.crash]
      split
      · rename_i v hr; simp [Failed, hr] at h
      · rfl
  | timeout =>
    refine failed_same h ?_ ?_
    all_goals
      simp only [step, Pipe.timeout]
      split
      · rename_i v hr; simp [Failed, hr] at h
      · rfl
  | consume =>
    simp only [step, Pipe.consume]
    split
    · rename_i hr; simp [Failed, hr] at h
    · rename_i v hr
      have h' : v = w ∧ allResults p = X := by simpa [Failed, hr] using h
      obtain ⟨rfl, hX⟩ := h'
      cases hc : p.buf.consume.cons with
      | flushed rem => exact ⟨rem, by rw [← hX]; rfl⟩
      | ready => exact ⟨rfl, hX⟩
      | needItem => exact ⟨rfl, hX⟩
      | asking x => exact ⟨rfl, hX⟩
      | flushing acc => exact ⟨rfl, hX⟩
      | gone => exact ⟨rfl, hX⟩
    · exact h
  | send =>
    simp only [step, Pipe.send]
    split
    · rename_i m hr; simp [Failed, hr] at h
    · rename_i r rs hr
      split
      · have h' : ∃ rem, allResults p ++ r :: rs = X ++ failureResults w rem := by
          simpa [Failed, hr] using h
        obtain ⟨rem, hrem⟩ := h'
        have hall : allResults { p with chan := p.chan ++ [.results r], runner := afterFailure rs } =
            allResults p ++ [r] := by simp [allResults, chanResults]
        cases rs with
        | nil => exact ⟨rem, by rw [hall, hrem]⟩
        | cons x xs => exact ⟨rem, by rw [hall, ← hrem]; simp⟩
      · exact h
    · exact h
  | take =>
    simp only [step, Pipe.take]
    split
    · rename_i r ms hc
      refine failed_same h rfl ?_
      have := (push_sent p.out r).1
      simp only [allResults, Pipe.handle, this, hc]
      simp [chanResults]
    · rename_i ms hc
      refine failed_same h rfl ?_
      have := (flush_sent p.out).1
      simp only [allResults, Pipe.handle, this, hc]
      simp [chanResults]
    · rename_i hc
      split
      · split
        · exact h
        · refine failed_same h rfl ?_
          have := (flush_sent p.out).1
          simp only [allResults, Pipe.handle, this]
      · exact h

theorem failed_run {w : WorkerTest} {X : List Results} (as : List Act) {p : Pipe} (h : Failed w X p) :
    Failed w X (run p as) := by
  induction as generalizing p with
  | nil => exact h
  | cons a as ih => exact ih (failed_step h a)

theorem finished_all {mx : Nat} {src : List (List Resp)} {p : Pipe} (h : PI mx src p)
    (hf : p.finished = true) : (∃ f, p.runner = .closed f) ∧ p.chan = [] ∧ p.out.buffer = [] := by
  unfold Pipe.finished at hf
  split at hf
  · simp only [Bool.and_eq_true] at hf
    exact h.ended hf.1
  · cases hf

/-- At the end everything given was received or flushed. -/
theorem finished_flow {mx : Nat} {src : List (List Resp)} {p : Pipe} (h : PI mx src p)
    (hf : p.finished = true) : p.out.sent.flatten.map rkey = p.sys.given.map key := by
  obtain ⟨⟨f, hr⟩, hc, hb⟩ := finished_all h hf
  have hfl := h.flow
  rw [hc, hb, hr] at hfl
  simp only [chanResults, List.filterMap_nil, List.append_nil, inflight] at hfl
  rw [hfl, given_eq h.link]
  congr 1
  have hpl := h.place
  rw [hr] at hpl
  cases hbuf : h.buf with
  | live cur frames old B l =>
    have := l.asks
    cases f with
    | true => obtain ⟨acc, ha⟩ := hpl; rw [ha] at this; cases this
    | false => rw [show p.buf.cons = .gone from hpl] at this; cases this
  | flush acc f' =>
    rcases f'.state with h' | ⟨h', hd, hch⟩
    · cases f with
      | true => obtain ⟨acc, ha⟩ := hpl; rw [ha] at h'; cases h'
      | false => rw [show p.buf.cons = .gone from hpl] at h'; cases h'
    · rw [← f'.flow, h']
      simp [flushedOf, pending, hd, hch, itemsM]
  | gone g =>
    rw [g.gone, g.all, items_expected]
    simp [flushedOf]

theorem allResults_eq (p : Pipe) : allResults p = p.reported ++ p.underway := by
  simp only [allResults, Pipe.reported, Pipe.underway, List.append_assoc]
  rfl

/-- What is reported in the end, if the native runner failed on a test or the test timed out. -/
theorem failed_reported {mx : Nat} {src : List (List Resp)} {q : Pipe} {w : WorkerTest} {X : List Results} (hq : PI mx src q)
    (hf : q.finished = true) (hF : Failed w X q) :
    ∃ failures rest, q.reported = X ++ failures ∧ failures.map keyOf = keyOfTest w :: rest ∧
      X.map keyOf ++ keyOfTest w :: rest = q.given.map keyOfTest ∧
      ∀ r ∈ failures, r.runNumber = w.runNumber ∧ ∃ id, r.results = [⟨id, true⟩] := by
  obtain ⟨⟨f, hrq⟩, hc, hb⟩ := finished_all hq hf
  have hallq : allResults q = q.reported := by
    simp only [allResults, Pipe.reported, hb, hc, chanResults, List.filterMap_nil, List.append_nil]
  unfold Failed at hF
  rw [hrq] at hF
  cases f with
  | false => exact hF.elim
  | true =>
    obtain ⟨rem, hrem⟩ := hF
    rw [hallq] at hrem
    have hend := finished_flow hq hf
    have hend : q.reported.map rkey = q.given.map keyOfTest := hend
    refine ⟨failureResults w rem, rem.map (fun v => (v.spec.workId, w.runNumber)), hrem, ?_, ?_, ?_⟩
    · simp [failureResults, keyOf, keyOfTest, Function.comp_def]
    · rw [← hend, hrem, List.map_append (l₂ := failureResults w rem)]
      congr 1
      simp [failureResults, rkey, keyOfTest, Function.comp_def]
    · intro r hr
      simp only [failureResults, List.mem_map] at hr
      obtain ⟨id, -, rfl⟩ := hr
      exact ⟨rfl, 0, rfl⟩

end Abq.Pipe
