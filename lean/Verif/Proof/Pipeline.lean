import Verif.Spec.Pipeline
import Verif.Proof.FetcherSys
import Verif.Proof.MessageBuffer
import Verif.Proof.BufferedResults

/-! # A runner executing all its tests (C45, C60) -/

namespace Abq.Pipe
open Abq.Retries Abq.MsgBuf Abq.MsgBuf.Spec Abq.Buffered Abq.Fetch Abq.Fetch.Spec

def chanResults (ms : List RMsg) : List Results :=
  ms.filterMap (fun m => match m with | .results r => some r | .forceFlush => none)

def inflight : Runner → List (WorkId × Nat)
  | .receiving => []
  | .running w => [key w]
  | .sending (.results r) => [rkey r]
  | .sending .forceFlush => []
  | .flushing w => [key w]
  | .failing rs => rs.map rkey
  | .closed _ => []

def flushedOf : Cons WorkerTest → List WorkerTest
  | .flushed acc => acc
  | _ => []

def Placed : Runner → Cons WorkerTest → Prop
  | .receiving, c => c.asks = true
  | .running _, c => c = .ready
  | .sending _, c => c = .ready
  | .flushing _, c => ∃ acc, c = .flushing acc
  | .failing rs, c => rs ≠ [] ∧ ∃ acc, c = .flushed acc
  | .closed true, c => ∃ acc, c = .flushed acc
  | .closed false, c => c = .gone

def ProdOk : MsgBuf.Prod WorkerTest → Bool → Prop
  | .done, _ => True
  | .sending _ c, s => c = s
  | .fetching, s => s = false
  | .waiting, s => s = false

def AtItem : Runner → Bool
  | .running _ => true
  | .sending (.results _) => true
  | _ => false

def EndsInItem (rs : List (Recv WorkerTest)) : Prop := ∃ x, rs.getLast? = some (.item x)

def Clean (chan : List RMsg) (buffer : List Results) : Prop :=
  match chan.getLast? with
  | some .forceFlush => True
  | some (.results _) => False
  | none => buffer = []

structure PI (mx : Nat) (src : List (List Resp)) (p : Pipe) : Prop where
  sys : ∃ h f r, Inv mx src p.sys h f r
  buf : MsgBuf.Ok p.buf
  link : p.buf.fetched = p.sys.delivered.map (·.work)
  prod : ProdOk p.buf.prod p.sys.stopped
  log : p.sys.log = p.out.sent.flatten
  flow : (p.out.sent.flatten ++ p.out.buffer ++ chanResults p.chan).map rkey ++ inflight p.runner =
    (items p.buf.received ++ flushedOf p.buf.cons).map key
  place : Placed p.runner p.buf.cons
  atItem : AtItem p.runner = true → EndsInItem p.buf.received
  clean : p.runner = .receiving → ¬ EndsInItem p.buf.received → Clean p.chan p.out.buffer
  ended : p.ended = true → (∃ f, p.runner = .closed f) ∧ p.chan = [] ∧ p.out.buffer = []

/-! ## Steps of the buffer -/

theorem consume_prod {α : Type} (b : Buf α) : b.consume.prod = b.prod ∧ b.consume.fetched = b.fetched := by
  have ht : ∀ (c : Buf α) x, (c.take x).prod = c.prod ∧ (c.take x).fetched = c.fetched := by
    intro c x
    simp only [Buf.take]
    split <;> exact ⟨rfl, rfl⟩
  unfold Buf.consume
  repeat' (first | split | exact ⟨rfl, rfl⟩ | exact ht _ _)

theorem consume_recv {α : Type} (b : Buf α) (h : b.cons.asks = true) :
    (b.consume.received = b.received ∧ (b.consume.cons.asks = true ∨ b.consume.cons = .gone)) ∨
    ∃ r, b.consume.received = b.received ++ [r] ∧ b.consume.cons = .ready := by
  cases hc : b.cons with
  | ready =>
    simp only [Buf.consume, hc, Buf.take]
    repeat' split
    all_goals simp_all [Cons.asks]
  | needItem =>
    simp only [Buf.consume, hc, Buf.take]
    repeat' split
    all_goals simp_all [Cons.asks]
  | asking x =>
    simp only [Buf.consume, hc]
    repeat' split
    all_goals simp_all [Cons.asks]
  | flushing acc => rw [hc] at h; cases h
  | flushed acc => rw [hc] at h; cases h
  | gone => rw [hc] at h; cases h

theorem consume_flush {α : Type} (b : Buf α) (acc : List α) (hc : b.cons = .flushing acc) :
    b.consume.received = b.received ∧
    ((∃ acc', b.consume.cons = .flushing acc') ∨ b.consume.cons = .flushed acc) := by
  simp only [Buf.consume, hc]
  repeat' split
  all_goals simp_all

theorem produce_same {α : Type} (b : Buf α) :
    b.produce.cons = b.cons ∧ b.produce.received = b.received ∧ b.produce.fetched = b.fetched := by
  unfold Buf.produce
  repeat' (first | split | exact ⟨rfl, rfl, rfl⟩)

theorem fetch_same {α : Type} (b : Buf α) (r : Option (List α × Bool)) :
    (b.fetch r).cons = b.cons ∧ (b.fetch r).received = b.received := by
  unfold Buf.fetch
  repeat' (first | split | exact ⟨rfl, rfl⟩)

theorem produce_prodOk (b : Buf WorkerTest) (s : Bool) (h : ProdOk b.prod s) : ProdOk b.produce.prod s := by
  unfold Buf.produce
  cases hp : b.prod with
  | fetching => rw [hp] at h; simpa [hp] using h
  | done => simp only [hp]; trivial
  | waiting =>
    rw [hp] at h
    dsimp only
    split
    · exact h
    · split
      · trivial
      · rw [hp]; exact h
  | sending q c =>
    rw [hp] at h
    cases q with
    | nil => dsimp only; rw [hp]; exact h
    | cons m q =>
      dsimp only
      split
      · trivial
      · split
        · have hc : c = s := h
          cases q with
          | nil => cases c <;> simp_all [afterSend, afterBatch, ProdOk]
          | cons a as => exact hc
        · rw [hp]; exact h

/-! ## Accounting -/

theorem account_ok {mx : Nat} {src : List (List Resp)} {s : Sys} (hi : ∃ h f r, Inv mx src s h f r)
    (rs : List Results) (hpre : (s.log ++ rs).map rkey <+: s.given.map key) :
    (∃ h f r, Inv mx src (Fetch.step s (.account rs)) h f r) ∧
    (Fetch.step s (.account rs)).log = s.log ++ rs ∧
    (Fetch.step s (.account rs)).delivered = s.delivered ∧
    (Fetch.step s (.account rs)).stopped = s.stopped := by
  obtain ⟨h, f, r, i⟩ := hi
  obtain ⟨h', i'⟩ := inv_account i rs
  refine ⟨⟨h', f, r, i'⟩, ?_⟩
  have hfine := i'.fine
  have hin : s.inOrder rs = true := by
    simp only [Sys.inOrder, List.isPrefixOf_iff_prefix]
    exact hpre
  simp only [Fetch.step, hin, i.fine, Bool.not_false, Bool.and_self, if_true] at hfine ⊢
  cases hacc : s.fetcher.tracker.account rs with
  | none => rw [hacc] at hfine; cases hfine
  | some t => exact ⟨rfl, rfl, rfl⟩

theorem push_sent (o : Buffer Results) (r : Results) :
    (o.push r).sent.flatten ++ (o.push r).buffer = o.sent.flatten ++ o.buffer ++ [r] ∧
    ((o.push r).sent = o.sent ∨ ∃ rs, (o.push r).sent = o.sent ++ [rs]) := by
  refine ⟨op_content o (.push r), ?_⟩
  simp only [Buffer.push, Buffer.send]
  split
  · exact .inr ⟨_, rfl⟩
  · exact .inl rfl

theorem flush_sent (o : Buffer Results) :
    o.flush.sent.flatten ++ o.flush.buffer = o.sent.flatten ++ o.buffer ∧ o.flush.buffer = [] ∧
    (o.flush.sent = o.sent ∨ ∃ rs, o.flush.sent = o.sent ++ [rs]) := by
  refine ⟨by have := op_content o .flush; simpa [Buffer.op, pushes] using this, ?_, ?_⟩
  · simp only [Buffer.flush, Buffer.send]
    split
    · rename_i h; exact List.isEmpty_iff.mp h
    · rfl
  · simp only [Buffer.flush, Buffer.send]
    split
    · exact .inl rfl
    · exact .inr ⟨_, rfl⟩

theorem given_eq {p : Pipe} (h : p.buf.fetched = p.sys.delivered.map (·.work)) :
    p.sys.given = p.buf.fetched.flatten := by
  rw [h, Sys.given, List.flatMap_def]

/-- What was received or flushed is a beginning of what was given. -/
theorem received_prefix {b : Buf WorkerTest} (o : MsgBuf.Ok b) :
    items b.received ++ flushedOf b.cons <+: b.fetched.flatten := by
  cases o with
  | live cur frames old B l =>
    have h1 : flushedOf b.cons = [] := by
      have := l.asks
      cases hc : b.cons <;> rw [hc] at this <;> simp_all [flushedOf, Cons.asks]
    rw [h1, List.append_nil, ← items_expected, ← l.flow, items_append, items_append, List.append_assoc]
    exact List.prefix_append _ _
  | flush acc f =>
    rcases f.state with h | ⟨h, hp, hch⟩
    · rw [h]
      simp only [flushedOf, List.append_nil]
      rw [← f.flow, List.append_assoc]
      exact List.prefix_append _ _
    · rw [h]
      simp only [flushedOf]
      rw [← f.flow]
      exact List.prefix_append _ _
  | gone g =>
    rw [g.gone, g.all, items_expected]
    simp [flushedOf]

/-- Handing a batch over. -/
theorem handle_ok {mx : Nat} {src : List (List Resp)} {p : Pipe}
    (hsys : ∃ h f r, Inv mx src p.sys h f r) (hbuf : MsgBuf.Ok p.buf)
    (hlink : p.buf.fetched = p.sys.delivered.map (·.work)) (hlog : p.sys.log = p.out.sent.flatten)
    (out : Buffer Results) (hsent : out.sent = p.out.sent ∨ ∃ rs, out.sent = p.out.sent ++ [rs])
    (hpre : (out.sent.flatten).map rkey <+: (items p.buf.received ++ flushedOf p.buf.cons).map key) :
    (∃ h f r, Inv mx src (p.handle out).sys h f r) ∧
    (p.handle out).sys.log = out.sent.flatten ∧
    (p.handle out).sys.delivered = p.sys.delivered ∧
    (p.handle out).sys.stopped = p.sys.stopped := by
  rcases hsent with h | ⟨rs, h⟩
  · simp only [Pipe.handle, h, List.drop_length, List.foldl_nil]
    exact ⟨hsys, by rw [hlog], trivial, trivial⟩
  · simp only [Pipe.handle, h, List.drop_left, List.foldl_cons, List.foldl_nil]
    have := account_ok hsys rs (by
      have h2 := (hpre.trans ((received_prefix hbuf).map key))
      rw [h] at h2
      rw [given_eq hlink, hlog]
      simpa using h2)
    rw [hlog] at this
    simpa using this

/-! ## The invariant -/

theorem pi_init (mx : Nat) (hmx : 1 ≤ mx) (src : List (List Resp)) (wf : WellFormed src) (n : Nat) :
    PI mx src (init src mx n) where
  sys := ⟨_, _, _, inv_init mx hmx src wf⟩
  buf := MsgBuf.ok_new n
  link := rfl
  prod := rfl
  log := rfl
  flow := rfl
  place := rfl
  atItem := by simp [init, AtItem]
  clean := by simp [init, Clean, Buffer.new]
  ended := by simp [init]

theorem pi_produce {mx : Nat} {src : List (List Resp)} {p : Pipe} (h : PI mx src p) :
    PI mx src { p with buf := p.buf.produce } := by
  obtain ⟨h1, h2, h3⟩ := produce_same p.buf
  exact
    { sys := h.sys
      buf := ok_step h.buf .produce (by intro c e; cases e)
      link := h3.trans h.link
      prod := produce_prodOk _ _ h.prod
      log := h.log
      flow := by dsimp only; rw [h1, h2]; exact h.flow
      place := by dsimp only; rw [h1]; exact h.place
      atItem := by dsimp only; rw [h2]; exact h.atItem
      clean := by dsimp only; rw [h2]; exact h.clean
      ended := h.ended }

theorem pi_fetch {mx : Nat} {src : List (List Resp)} (wf : WellFormed src) {p : Pipe}
    (h : PI mx src p) : PI mx src p.fetch := by
  unfold Pipe.fetch
  cases hp : p.buf.prod with
  | sending q c => exact h
  | waiting => exact h
  | done => exact h
  | fetching =>
    obtain ⟨hh, f, r, i⟩ := h.sys
    have hstop : p.sys.stopped = false := by have := h.prod; rw [hp] at this; exact this
    have hfine := i.fine
    obtain ⟨h', f', r', i'⟩ := inv_fetch wf i
    have hlog : (Fetch.step p.sys .fetch).log = p.sys.log := by
      simp only [Fetch.step, hstop, hfine, Bool.or_self, Bool.false_eq_true, if_false]
      split <;> rfl
    have base : ∀ x, PI mx src { p with buf := p.buf.fetch x } →
        True := fun _ _ => trivial
    dsimp only
    cases hout : p.sys.fetcher.fetch.2 with
    | bundle b =>
      have hdel : (Fetch.step p.sys .fetch).delivered = p.sys.delivered ++ [b] ∧
          (Fetch.step p.sys .fetch).stopped = b.eow := by
        simp only [Fetch.step, hstop, hfine, Bool.or_self, Bool.false_eq_true, if_false]
        generalize he : p.sys.fetcher.fetch = e at hout
        obtain ⟨e1, e2⟩ := e
        dsimp only at hout
        subst hout
        exact ⟨rfl, rfl⟩
      have hemp := i'.empties b (by rw [hdel.1]; simp)
      obtain ⟨h1, h2⟩ := fetch_same p.buf (some (b.work, b.eow))
      have hfet : (p.buf.fetch (some (b.work, b.eow))).fetched = p.buf.fetched ++ [b.work] ∧
          ProdOk (p.buf.fetch (some (b.work, b.eow))).prod b.eow := by
        simp only [Buf.fetch, hp]
        cases hw : b.work with
        | nil =>
          have := hemp.mp hw
          rw [this]
          exact ⟨rfl, trivial⟩
        | cons x xs => exact ⟨rfl, rfl⟩
      exact
        { sys := ⟨h', f', r', i'⟩
          buf := ok_step h.buf (.fetch (some (b.work, b.eow))) (by
            intro c e
            simp only [MsgBuf.Act.fetch.injEq, Option.some.injEq, Prod.mk.injEq] at e
            rw [← e.2]
            exact hemp.mp e.1)
          link := by dsimp only; rw [hfet.1, hdel.1, h.link]; simp
          prod := by dsimp only; rw [hdel.2]; exact hfet.2
          log := by dsimp only; rw [hlog]; exact h.log
          flow := by dsimp only; rw [h1, h2]; exact h.flow
          place := by dsimp only; rw [h1]; exact h.place
          atItem := by dsimp only; rw [h2]; exact h.atItem
          clean := by dsimp only; rw [h2]; exact h.clean
          ended := h.ended }
    | error =>
      have hdel : (Fetch.step p.sys .fetch).delivered = p.sys.delivered := by
        simp only [Fetch.step, hstop, hfine, Bool.or_self, Bool.false_eq_true, if_false]
        generalize he : p.sys.fetcher.fetch = e at hout
        obtain ⟨e1, e2⟩ := e
        dsimp only at hout
        subst hout
        rfl
      have hb : p.buf.fetch none = { p.buf with prod := .done } := by simp [Buf.fetch, hp]
      exact
        { sys := ⟨h', f', r', i'⟩
          buf := ok_step h.buf (.fetch none) (by intro c e; cases e)
          link := by dsimp only; rw [hb, hdel]; exact h.link
          prod := by dsimp only; rw [hb]; trivial
          log := by dsimp only; rw [hlog]; exact h.log
          flow := by dsimp only; rw [hb]; exact h.flow
          place := by dsimp only; rw [hb]; exact h.place
          atItem := by dsimp only; rw [hb]; exact h.atItem
          clean := by dsimp only; rw [hb]; exact h.clean
          ended := h.ended }
    | panic =>
      exfalso
      have := i'.fine
      simp only [Fetch.step, hstop, hfine, Bool.or_self, Bool.false_eq_true, if_false] at this
      generalize he : p.sys.fetcher.fetch = e at hout this
      obtain ⟨e1, e2⟩ := e
      dsimp only at hout
      subst hout
      cases this
    | waiting =>
      have hdel : (Fetch.step p.sys .fetch).delivered = p.sys.delivered ∧
          (Fetch.step p.sys .fetch).stopped = p.sys.stopped := by
        simp only [Fetch.step, hstop, hfine, Bool.or_self, Bool.false_eq_true, if_false]
        generalize he : p.sys.fetcher.fetch = e at hout
        obtain ⟨e1, e2⟩ := e
        dsimp only at hout
        subst hout
        exact ⟨rfl, rfl⟩
      exact
        { sys := ⟨h', f', r', i'⟩
          buf := h.buf
          link := by dsimp only; rw [hdel.1]; exact h.link
          prod := by dsimp only; rw [hdel.2]; exact h.prod
          log := by dsimp only; rw [hlog]; exact h.log
          flow := h.flow
          place := h.place
          atItem := h.atItem
          clean := h.clean
          ended := h.ended }

theorem pi_result {mx : Nat} {src : List (List Resp)} {p : Pipe} (h : PI mx src p) (rs : List Result) :
    PI mx src (p.result rs) := by
  unfold Pipe.result
  split
  · rename_i w hr
    have hfl := h.flow
    have hpl := h.place
    have hat := h.atItem
    rw [hr] at hfl hpl hat
    exact
      { sys := h.sys, buf := h.buf, link := h.link, prod := h.prod, log := h.log
        flow := hfl
        place := hpl
        atItem := fun _ => hat rfl
        clean := by simp
        ended := by
          intro he
          obtain ⟨⟨f, hf⟩, -⟩ := h.ended he
          rw [hr] at hf; cases hf }
  · exact h

theorem pi_startFlush {mx : Nat} {src : List (List Resp)} {p : Pipe} (h : PI mx src p) (w : WorkerTest)
    (hi : inflight p.runner = [key w]) (hpl : p.buf.cons = .ready) (hr : ∀ f, p.runner ≠ .closed f) :
    PI mx src { p with runner := .flushing w, buf := p.buf.startFlush } := by
  have hfl := h.flow
  rw [hi, hpl] at hfl
  have hb : p.buf.startFlush = { p.buf with cons := .flushing [] } := by simp [Buf.startFlush, hpl]
  exact
    { sys := h.sys
      buf := ok_step h.buf .startFlush (by intro c e; cases e)
      link := by dsimp only; rw [hb]; exact h.link
      prod := by dsimp only; rw [hb]; exact h.prod
      log := h.log
      flow := by dsimp only; rw [hb]; exact hfl
      place := by dsimp only; rw [hb]; exact ⟨[], rfl⟩
      atItem := by simp [AtItem]
      clean := by simp
      ended := by
        intro he
        obtain ⟨⟨f, hf⟩, -⟩ := h.ended he
        exact absurd hf (hr f) }

theorem pi_crash {mx : Nat} {src : List (List Resp)} {p : Pipe} (h : PI mx src p) :
    PI mx src p.crash := by
  unfold Pipe.crash
  split
  · rename_i w hr
    refine pi_startFlush h w (by rw [hr]; rfl) ?_ (by rw [hr]; intro f e; cases e)
    have := h.place; rw [hr] at this; exact this
  · exact h

theorem pi_timeout {mx : Nat} {src : List (List Resp)} {p : Pipe} (h : PI mx src p) :
    PI mx src p.timeout := by
  unfold Pipe.timeout
  split
  · rename_i r hr
    refine pi_startFlush h _ (by rw [hr]; rfl) ?_ (by rw [hr]; intro f e; cases e)
    have := h.place; rw [hr] at this; exact this
  · exact h

theorem chanResults_append (a b : List RMsg) : chanResults (a ++ b) = chanResults a ++ chanResults b := by
  simp [chanResults]

theorem pi_send {mx : Nat} {src : List (List Resp)} {p : Pipe} (h : PI mx src p) :
    PI mx src p.send := by
  have hnot : ∀ f, p.runner ≠ .closed f → p.ended = false ∨ ∃ g, p.runner = .closed g := by
    intro f _
    cases he : p.ended with
    | false => exact .inl rfl
    | true => exact .inr (h.ended he).1
  unfold Pipe.send
  split
  · rename_i m hr
    split
    · have hfl := h.flow
      have hpl := h.place
      have hat := h.atItem
      rw [hr] at hfl hpl hat
      exact
        { sys := h.sys, buf := h.buf, link := h.link, prod := h.prod, log := h.log
          flow := by
            rw [← hfl]
            cases m <;> simp [chanResults, inflight]
          place := by
            have hpl : p.buf.cons = .ready := hpl
            dsimp only [Placed]; rw [hpl]; rfl
          atItem := by simp [AtItem]
          clean := by
            intro _ hne
            cases m with
            | results r => exact absurd (hat rfl) hne
            | forceFlush => simp [Clean]
          ended := by
            intro he
            obtain ⟨⟨f, hf⟩, -⟩ := h.ended he
            rw [hr] at hf; cases hf }
    · exact h
  · rename_i r rs hr
    split
    · have hfl := h.flow
      have hpl := h.place
      rw [hr] at hfl hpl
      obtain ⟨-, acc, hacc⟩ := hpl
      have hrun : inflight (afterFailure rs) = rs.map rkey := by cases rs <;> rfl
      have hne : ∀ x, afterFailure rs = x → x ≠ .receiving ∧ AtItem x = false := by
        intro x hx; subst hx; cases rs <;> simp [afterFailure, AtItem]
      exact
        { sys := h.sys, buf := h.buf, link := h.link, prod := h.prod, log := h.log
          flow := by
            rw [← hfl]
            dsimp only
            rw [hrun]
            simp [chanResults, inflight]
          place := by
            cases rs with
            | nil => exact ⟨acc, hacc⟩
            | cons a as => exact ⟨by simp, acc, hacc⟩
          atItem := by intro e; rw [(hne _ rfl).2] at e; cases e
          clean := by intro e; exact absurd e (hne _ rfl).1
          ended := by
            intro he
            obtain ⟨⟨f, hf⟩, -⟩ := h.ended he
            rw [hr] at hf; cases hf }
    · exact h
  · exact h

theorem clean_tail {m : RMsg} {ms : List RMsg} {b b' : List Results} (h : Clean (m :: ms) b)
    (hm : m = .forceFlush → b' = []) : Clean ms b' := by
  cases ms with
  | nil =>
    cases m with
    | results r => simp [Clean] at h
    | forceFlush => simpa [Clean] using hm rfl
  | cons a as =>
    have hl : (a :: as).getLast? = some ((a :: as).getLast (by simp)) := List.getLast?_eq_some_getLast _
    simp only [Clean, List.getLast?_cons_cons, hl] at h ⊢
    generalize (a :: as).getLast (by simp) = e at h ⊢
    cases e <;> exact h

theorem pi_take {mx : Nat} {src : List (List Resp)} {p : Pipe} (h : PI mx src p) :
    PI mx src p.take := by
  have hend : p.chan ≠ [] → p.ended = true → False := fun hc he => hc (h.ended he).2.1
  unfold Pipe.take
  split
  · rename_i r ms hch
    obtain ⟨hs, hs'⟩ := push_sent p.out r
    have hfl := h.flow
    rw [hch] at hfl
    have hfl' : ((p.out.push r).sent.flatten ++ (p.out.push r).buffer ++ chanResults ms).map rkey ++
        inflight p.runner = (items p.buf.received ++ flushedOf p.buf.cons).map key := by
      rw [hs, ← hfl]; simp [chanResults]
    obtain ⟨k1, k2, k3, k4⟩ := handle_ok (p := { p with chan := ms }) h.sys h.buf h.link h.log
      (p.out.push r) hs' (by
        dsimp only
        rw [← hfl']
        simp only [List.map_append, List.append_assoc]
        exact List.prefix_append _ _)
    exact
      { sys := k1
        buf := h.buf
        link := by rw [k3]; exact h.link
        prod := by rw [k4]; exact h.prod
        log := k2
        flow := hfl'
        place := h.place
        atItem := h.atItem
        clean := fun a b => clean_tail (by have := h.clean a b; rwa [hch] at this) (by simp)
        ended := fun he => absurd he (by intro e; exact hend (by simp [hch]) e) }
  · rename_i ms hch
    obtain ⟨hs, hb, hs'⟩ := flush_sent p.out
    have hfl := h.flow
    rw [hch] at hfl
    have hfl' : (p.out.flush.sent.flatten ++ p.out.flush.buffer ++ chanResults ms).map rkey ++
        inflight p.runner = (items p.buf.received ++ flushedOf p.buf.cons).map key := by
      rw [hs, ← hfl]; simp [chanResults]
    obtain ⟨k1, k2, k3, k4⟩ := handle_ok (p := { p with chan := ms }) h.sys h.buf h.link h.log
      p.out.flush hs' (by
        dsimp only
        rw [← hfl']
        simp only [List.map_append, List.append_assoc]
        exact List.prefix_append _ _)
    exact
      { sys := k1
        buf := h.buf
        link := by rw [k3]; exact h.link
        prod := by rw [k4]; exact h.prod
        log := k2
        flow := hfl'
        place := h.place
        atItem := h.atItem
        clean := fun a b => clean_tail (by have := h.clean a b; rwa [hch] at this) (fun _ => hb)
        ended := fun he => absurd he (by intro e; exact hend (by simp [hch]) e) }
  · rename_i hch
    split
    · rename_i f hr
      split
      · exact h
      · obtain ⟨hs, hb, hs'⟩ := flush_sent p.out
        have hfl := h.flow
        rw [hch] at hfl
        have hfl' : (p.out.flush.sent.flatten ++ p.out.flush.buffer ++ chanResults []).map rkey ++
            inflight p.runner = (items p.buf.received ++ flushedOf p.buf.cons).map key := by
          rw [hs, ← hfl]
        obtain ⟨k1, k2, k3, k4⟩ := handle_ok (p := { p with ended := true }) h.sys h.buf h.link h.log
          p.out.flush hs' (by
            dsimp only
            rw [← hfl']
            simp only [List.map_append, List.append_assoc]
            exact List.prefix_append _ _)
        exact
          { sys := k1
            buf := h.buf
            link := by rw [k3]; exact h.link
            prod := by rw [k4]; exact h.prod
            log := k2
            flow := by
              have hc : (Pipe.handle { p with ended := true } p.out.flush).chan = [] := hch
              rw [hc]; exact hfl'
            place := h.place
            atItem := h.atItem
            clean := by
              intro hrec
              have : (Pipe.handle { p with ended := true } p.out.flush).runner = p.runner := rfl
              rw [this, hr] at hrec
              cases hrec
            ended := fun _ => ⟨⟨f, hr⟩, hch, hb⟩ }
    · exact h

/-- All tests not yet accounted for are of the same attempt. -/
theorem same_attempt {mx : Nat} {src : List (List Resp)} {s : Sys} (hi : ∃ h f r, Inv mx src s h f r)
    (mid : List (WorkId × Nat)) (acc : List WorkerTest) (w : WorkerTest)
    (hg : s.given.map key = s.log.map rkey ++ (mid ++ [key w]) ++ acc.map key) :
    ∀ v ∈ acc, v.runNumber = w.runNumber := by
  obtain ⟨h, f, r, i⟩ := hi
  have := i.todo
  rw [hg, List.append_assoc] at this
  have := List.append_cancel_left this
  have hall : ∀ k ∈ mid ++ [key w] ++ acc.map key, k.2 = h.attempt := by
    rw [this]
    intro k hk
    obtain ⟨x, -, rfl⟩ := List.mem_map.mp hk
    rfl
  intro v hv
  have h1 := hall (key v) (by simp only [List.mem_append]; exact .inr (List.mem_map_of_mem hv))
  have h2 := hall (key w) (by simp)
  exact h1.trans h2.symm

theorem failure_keys (w : WorkerTest) (acc : List WorkerTest) (h : ∀ v ∈ acc, v.runNumber = w.runNumber) :
    (failureResults w acc).map rkey = key w :: acc.map key := by
  simp only [failureResults, List.map_cons, List.map_map, rkey, key, List.cons.injEq, true_and]
  apply List.map_congr_left
  intro v hv
  change (v.spec.workId, w.runNumber) = (v.spec.workId, v.runNumber)
  rw [h v hv]

theorem pi_consume {mx : Nat} {src : List (List Resp)} {p : Pipe} (h : PI mx src p) :
    PI mx src p.consume := by
  obtain ⟨hp1, hp2⟩ := consume_prod p.buf
  have hok : MsgBuf.Ok p.buf.consume := ok_step h.buf .consume (by intro c e; cases e)
  have hne : ∀ r, p.runner = r → (∀ f, r ≠ .closed f) → p.ended = true → False := by
    intro r hr hcl he
    obtain ⟨⟨f, hf⟩, -⟩ := h.ended he
    exact hcl f (hr ▸ hf)
  unfold Pipe.consume
  split
  · rename_i hr
    have hfl := h.flow
    have hpl : p.buf.cons.asks = true := by have := h.place; rw [hr] at this; exact this
    have hfo : flushedOf p.buf.cons = [] := by
      cases hc : p.buf.cons <;> rw [hc] at hpl <;> simp_all [flushedOf, Cons.asks]
    rw [hr, hfo, List.append_nil] at hfl
    have hcl := h.clean hr
    rcases consume_recv p.buf hpl with ⟨h1, h2 | h2⟩ | ⟨r, h1, h2⟩
    · have hrun : afterRecv p.buf p.buf.consume = .receiving := by
        unfold afterRecv
        rw [h1]
        cases hc : p.buf.consume.cons <;> rw [hc] at h2 <;> simp_all [Cons.asks]
      have hfo' : flushedOf p.buf.consume.cons = [] := by
        cases hc : p.buf.consume.cons <;> rw [hc] at h2 <;> simp_all [flushedOf, Cons.asks]
      rw [hrun]
      exact
        { sys := h.sys, buf := hok
          link := hp2.trans h.link
          prod := by dsimp only; rw [hp1]; exact h.prod
          log := h.log
          flow := by dsimp only; rw [h1, hfo', List.append_nil]; exact hfl
          place := h2
          atItem := by simp [AtItem]
          clean := by dsimp only; rw [h1]; exact fun _ => hcl
          ended := fun he => absurd he (fun e => hne _ hr (by simp) e) }
    · have hrun : afterRecv p.buf p.buf.consume = .closed false := by
        unfold afterRecv
        rw [h2]
      rw [hrun]
      exact
        { sys := h.sys, buf := hok
          link := hp2.trans h.link
          prod := by dsimp only; rw [hp1]; exact h.prod
          log := h.log
          flow := by dsimp only; rw [h1, h2]; simpa [flushedOf, inflight] using hfl
          place := h2
          atItem := by simp [AtItem]
          clean := by simp
          ended := fun he => absurd he (fun e => hne _ hr (by simp) e) }
    · cases r with
      | item w =>
        have hrun : afterRecv p.buf p.buf.consume = .running w := by
          unfold afterRecv
          rw [h2, h1]
          simp
        rw [hrun]
        exact
          { sys := h.sys, buf := hok
            link := hp2.trans h.link
            prod := by dsimp only; rw [hp1]; exact h.prod
            log := h.log
            flow := by
              dsimp only
              rw [h1, h2, items_append]
              simp only [inflight, List.append_nil] at hfl
              rw [hfl]
              simp [flushedOf, inflight, items]
            place := h2
            atItem := fun _ => ⟨w, by dsimp only; rw [h1]; simp⟩
            clean := by simp
            ended := fun he => absurd he (fun e => hne _ hr (by simp) e) }
      | flushProcessed =>
        have hrun : afterRecv p.buf p.buf.consume = .sending .forceFlush := by
          unfold afterRecv
          rw [h2, h1]
          simp
        rw [hrun]
        exact
          { sys := h.sys, buf := hok
            link := hp2.trans h.link
            prod := by dsimp only; rw [hp1]; exact h.prod
            log := h.log
            flow := by
              dsimp only
              rw [h1, h2, items_append]
              simp only [inflight, List.append_nil] at hfl
              rw [hfl]
              simp [flushedOf, inflight, items]
            place := h2
            atItem := by simp [AtItem]
            clean := by simp
            ended := fun he => absurd he (fun e => hne _ hr (by simp) e) }
  · rename_i w hr
    obtain ⟨acc, hacc⟩ : ∃ acc, p.buf.cons = .flushing acc := by
      have := h.place; rw [hr] at this; exact this
    have hfl := h.flow
    rw [hr, hacc] at hfl
    simp only [flushedOf, List.append_nil, inflight] at hfl
    obtain ⟨h1, h2⟩ := consume_flush p.buf acc hacc
    rcases h2 with ⟨acc', h2⟩ | h2
    · rw [h2]
      exact
        { sys := h.sys, buf := hok
          link := hp2.trans h.link
          prod := by dsimp only; rw [hp1]; exact h.prod
          log := h.log
          flow := by dsimp only; rw [h1, h2]; simpa [flushedOf, inflight] using hfl
          place := ⟨acc', h2⟩
          atItem := by simp [AtItem]
          clean := by simp
          ended := fun he => absurd he (fun e => hne _ hr (by simp) e) }
    · rw [h2]
      have hg : p.sys.given = items p.buf.received ++ acc := by
        rw [given_eq h.link, ← hp2]
        cases hok with
        | live cur frames old B l => have := l.asks; rw [h2] at this; cases this
        | gone g => have := g.gone; rw [h2] at this; cases this
        | flush acc' f =>
          rcases f.state with h' | ⟨h', hd, hc⟩
          · rw [h2] at h'; cases h'
          · rw [h2] at h'; cases h'
            have := f.flow
            rw [← this, h1]
            simp [pending, hd, hc, itemsM]
      have hsame : ∀ v ∈ acc, v.runNumber = w.runNumber := by
        refine same_attempt h.sys ((p.out.buffer ++ chanResults p.chan).map rkey) acc w ?_
        rw [hg, List.map_append, ← hfl, h.log]
        simp
      exact
        { sys := h.sys, buf := hok
          link := hp2.trans h.link
          prod := by dsimp only; rw [hp1]; exact h.prod
          log := h.log
          flow := by
            dsimp only
            rw [h1, h2]
            simp only [flushedOf, inflight, List.map_append]
            rw [failure_keys w acc hsame, ← hfl]
            simp
          place := ⟨by simp [failureResults], acc, h2⟩
          atItem := by simp [AtItem]
          clean := by simp
          ended := fun he => absurd he (fun e => hne _ hr (by simp) e) }
  · exact h

theorem pi_step {mx : Nat} {src : List (List Resp)} (wf : WellFormed src) {p : Pipe}
    (h : PI mx src p) (a : Act) : PI mx src (step p a) := by
  cases a with
  | fetch => exact pi_fetch wf h
  | produce => exact pi_produce h
  | consume => exact pi_consume h
  | result rs => exact pi_result h rs
  | crash => exact pi_crash h
  | timeout => exact pi_timeout h
  | send => exact pi_send h
  | take => exact pi_take h

theorem pi_run {mx : Nat} {src : List (List Resp)} (wf : WellFormed src) (as : List Act) {p : Pipe}
    (h : PI mx src p) : PI mx src (run p as) := by
  induction as generalizing p with
  | nil => exact h
  | cons a as ih => exact ih (pi_step wf h a)

theorem pi_of_run {mx : Nat} (hmx : 1 ≤ mx) {src : List (List Resp)} (wf : WellFormed src) (n : Nat)
    (as : List Act) : PI mx src (run (init src mx n) as) :=
  pi_run wf as (pi_init mx hmx src wf n)

end Abq.Pipe
