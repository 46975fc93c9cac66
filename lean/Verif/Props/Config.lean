import Verif.Proof.Config

/-!
# Which queue is used (C50), the run id (C51), the address given by the user (C66), and health checks (C67)
-/

namespace Abq.Props
open Abq.Config Abq.Hosted Abq.Spec

/-- **C51.** The run id inferred from the environment, exactly. -/
theorem C51_inferred_run_id (e : Env) (r : String) : inferredRunId e = some r ↔ CiRunId e r := infer_iff e r

/-- **C51.** Nothing is inferred outside CI, or if `ABQ_RUN_ID` is set. -/
theorem C51_nothing_inferred (e : Env) (h : e.ci = none ∨ e.ci = some "false" ∨ e.abqRunId ≠ none) :
    inferredRunId e = none := by
  cases hi : inferredRunId e with
  | none => rfl
  | some r =>
    obtain ⟨h1, ⟨c, h2, h3⟩, -⟩ := (infer_iff e r).mp hi
    rcases h with h | h | h
    · rw [h2] at h; cases h
    · rw [h2] at h; exact absurd (Option.some.inj h) h3
    · exact absurd h1 h

/-- In a CI with both a CircleCI and a GitHub id, the former is taken. -/
example : CiRunId ⟨none, some "true", none, some "circle", some "github", none⟩ "circle" :=
  ⟨rfl, ⟨"true", rfl, by decide⟩, [none], _, rfl, by simp⟩

/-- **C50.** What `abq test` decides is what is documented, for every combination of options, environment, stored token
and answer of the API: it goes on with a plan exactly if the plan is the documented one, and else refuses. -/
theorem C50_test (w : World) (a : TestArgs) (p : TestPlan) : testPlan w a = .ok p ↔ TestDocumented w a p := by
  obtain ⟨pr, pc, pn, pm, pcmd, pargs, pmode, ptel, pt⟩ := p
  -- the run id
  have hrun : ∀ r, (a.runId.or (inferredRunId w.env)).getD w.fresh = r ↔ RunOf w a.runId r := by
    intro r
    cases hx : a.runId.or (inferredRunId w.env) with
    | none =>
      have := (given_none w a.runId).mp hx
      simp [RunOf, this, eq_comm]
    | some x =>
      have hg := (given_iff w a.runId x).mp hx
      constructor
      · intro h; simp at h; subst h; exact .inl hg
      · rintro (h | ⟨h, -⟩)
        · have := (given_iff w a.runId r).mpr h
          rw [hx] at this; exact Option.some.inj this
        · exact absurd hg (h x)
  have hgiven : ((a.runId.or (inferredRunId w.env)).isSome && !a.localMode) = true ↔ HasRunId w a := by
    unfold HasRunId
    rw [Bool.and_eq_true, Option.isSome_iff_exists]
    simp only [given_iff, Bool.not_eq_true']
  generalize hgb : ((a.runId.or (inferredRunId w.env)).isSome && !a.localMode) = given at hgiven
  -- the model, as a conjunction
  have hmodel : testPlan w a = .ok ⟨pr, pc, pn, pm, pcmd, pargs, pmode, ptel, pt⟩ ↔
      (a.runId.or (inferredRunId w.env)).getD w.fresh = pr ∧
      ∃ cert key q, readOpt a.tlsCert = .ok cert ∧ readOpt a.tlsKey = .ok key ∧
        hostedOf w (if a.localMode then none else accessTokenOf w a.accessToken) pr = .ok q ∧
        (validateLocation (resolve a.token a.queueAddr cert key (q.map .ofHosted) given).location given = .ok () ∧
        findOrCreate w.tls (resolve a.token a.queueAddr cert key (q.map .ofHosted) given).location
          (resolve a.token a.queueAddr cert key (q.map .ofHosted) given).token
          (resolve a.token a.queueAddr cert key (q.map .ofHosted) given).cert = .ok pc) ∧
        a.args = pcmd :: pargs ∧
        numRunnersOf w.cores a.num = pn ∧ 1 + a.retries = pm ∧
        modeOf (resolve a.token a.queueAddr cert key (q.map .ofHosted) given).kind = pmode ∧
        (resolve a.token a.queueAddr cert key (q.map .ofHosted) given).location.isRemote = ptel ∧
        (if a.localMode then none else accessTokenOf w a.accessToken) = pt := by
    unfold testPlan
    dsimp only
    rw [hgb]
    generalize (a.runId.or (inferredRunId w.env)).getD w.fresh = r
    generalize (if a.localMode then none else accessTokenOf w a.accessToken) = t
    cases h1 : readOpt a.tlsCert with
    | error e => simp [bind, Except.bind]
    | ok cert =>
    cases h2 : readOpt a.tlsKey with
    | error e => simp [bind, Except.bind]
    | ok key =>
    cases h3 : apiConfigOf w t r with
    | error e =>
      simp only [bind, Except.bind, reduceCtorEq, false_iff]
      rintro ⟨rfl, c, k, q, -, -, hq, -⟩
      have := (apiConfigOf_ok w t r _).mpr ⟨q, hq, rfl⟩
      rw [h3] at this; cases this
    | ok api =>
    obtain ⟨q, hq, rfl⟩ := (apiConfigOf_ok w t r api).mp h3
    have hconj : ∀ (P : Option (List Nat) → Option (List Nat) → Option QueueConfig → Prop),
        (r = pr ∧ ∃ c k q', (Except.ok cert : Except Err _) = .ok c ∧ (Except.ok key : Except Err _) = .ok k ∧
          hostedOf w t pr = .ok q' ∧ P c k q') ↔ r = pr ∧ P cert key q := by
      intro P
      constructor
      · rintro ⟨rfl, c, k, q', hc, hk, hq', h⟩
        cases hc; cases hk; cases hq.symm.trans hq'
        exact ⟨rfl, h⟩
      · rintro ⟨rfl, h⟩; exact ⟨rfl, cert, key, q, rfl, rfl, hq, h⟩
    rw [hconj]
    simp only [bind, Except.bind]
    cases h4 : validateLocation (resolve a.token a.queueAddr cert key (q.map .ofHosted) given).location given with
    | error e => simp
    | ok u =>
    simp only []
    cases h5 : a.args with
    | nil => simp [validateArgs]
    | cons c l =>
    simp only [validateArgs]
    cases h6 : findOrCreate w.tls (resolve a.token a.queueAddr cert key (q.map .ofHosted) given).location
          (resolve a.token a.queueAddr cert key (q.map .ofHosted) given).token
          (resolve a.token a.queueAddr cert key (q.map .ofHosted) given).cert with
    | error e => simp
    | ok conn =>
    simp only [pure, Except.pure, Except.ok.injEq, TestPlan.mk.injEq, List.cons.injEq, true_and]
    grind
  rw [hmodel, hrun]
  unfold TestDocumented
  simp only [readOpt_iff, connect_iff]
  apply and_congr_right
  intro _
  constructor
  · rintro ⟨cert, key, q, hc, hk, hq, hconn, hargs, hn, hm, hmode, htel, ht⟩
    refine ⟨⟨cert, key, sourceOf q given, hc, hk, ?_, ?_, ?_⟩, hargs, ?_, ?_, ?_, hm.symm⟩
    · have := (chosen_iff w a.accessToken a.localMode given pr (sourceOf q given)).mpr (.inl ⟨q, hq, rfl⟩)
      simpa only [hgiven] using this
    · simpa only [hgiven] using hconn
    · rw [← hmode]; exact mode_iff q a.queueAddr a.token cert key given
    · intro t
      rw [← token_iff, ← ht]
      cases a.localMode <;> simp
    · rw [← htel]
      exact remote_iff w.tls _ _ _ _ ((connect_iff w.tls q a.queueAddr a.token cert key given pc).mpr hconn).2
    · rw [← hn]; unfold numRunnersOf; cases a.num <;> rfl
  · rintro ⟨⟨cert, key, source, hc, hk, hch, hconn, hmode⟩, hargs, ht, htel, hn, hm⟩
    have hch' := (chosen_iff w a.accessToken a.localMode given pr source).mp (by simpa only [hgiven] using hch)
    have hq : ∃ q, hostedOf w (if a.localMode then none else accessTokenOf w a.accessToken) pr = .ok q ∧
        source = sourceOf q given := by
      rcases hch' with h | ⟨h1, rfl⟩
      · exact h
      · rw [h1]; exact ⟨none, rfl, rfl⟩
    obtain ⟨q, hq, rfl⟩ := hq
    have hconn' : Connects w.tls a.queueAddr a.token cert key (given = true) (sourceOf q given) pc := by
      simpa only [hgiven] using hconn
    refine ⟨cert, key, q, hc, hk, hq, hconn', hargs, ?_, hm.symm, ?_, ?_, ?_⟩
    · rw [hn]; unfold numRunnersOf; cases a.num <;> rfl
    · have h1 := mode_iff q a.queueAddr a.token cert key given
      rw [← hmode] at h1
      generalize modeOf (resolve a.token a.queueAddr cert key (Option.map ApiConfig.ofHosted q) given).kind = m at h1
      cases m <;> cases pmode <;> simp_all
    · have h1 := remote_iff w.tls _ _ _ _ ((connect_iff w.tls q a.queueAddr a.token cert key given pc).mpr hconn').2
      rw [Bool.eq_iff_iff, h1, htel]
    · apply Option.ext
      intro t
      rw [ht t, ← token_iff]
      cases a.localMode <;> simp

/-- **C50.** What `abq report` decides is what is documented. -/
theorem C50_report (w : World) (a : ReportArgs) (r : String) (c : Connection) :
    reportPlan w a = .ok (r, c) ↔ ReportDocumented w a r c := by
  unfold reportPlan ReportDocumented
  rw [← given_iff]
  cases hr : a.runId.or (inferredRunId w.env) with
  | none => simp
  | some x =>
  simp only [Option.some.injEq]
  cases h1 : readOpt a.tlsCert with
  | error e =>
    simp only [bind, Except.bind, reduceCtorEq, false_iff]
    rintro ⟨-, cert, _, hc, -⟩
    rw [← readOpt_iff, h1] at hc; cases hc
  | ok cert =>
  have hcert : ∀ c', FileIs a.tlsCert c' ↔ c' = cert := by
    intro c'; rw [← readOpt_iff, h1, Except.ok.injEq, eq_comm]
  have hchosen : ∀ source, Chosen w a.accessToken False True r source ↔
      ∃ q, hostedOf w (accessTokenOf w a.accessToken) r = .ok q ∧ source = sourceOf q true := by
    intro source
    have := chosen_iff w a.accessToken false true r source
    simpa using this
  have hconnect : ∀ q, (validateLocation (resolve a.token a.queueAddr cert none (q.map .ofHosted) true).location true = .ok () ∧
      findOrCreate w.tls (resolve a.token a.queueAddr cert none (q.map .ofHosted) true).location
        (resolve a.token a.queueAddr cert none (q.map .ofHosted) true).token
        (resolve a.token a.queueAddr cert none (q.map .ofHosted) true).cert = .ok c) ↔
      Connects w.tls a.queueAddr a.token cert none True (sourceOf q true) c := by
    intro q
    have := connect_iff w.tls q a.queueAddr a.token cert none true c
    simpa using this
  simp only [hcert, hchosen, bind, Except.bind]
  constructor
  · intro h
    cases h3 : apiConfigOf w (accessTokenOf w a.accessToken) x with
    | error e => rw [h3] at h; cases h
    | ok api =>
      obtain ⟨q, hq, rfl⟩ := (apiConfigOf_ok w _ x api).mp h3
      rw [h3] at h
      simp only at h
      cases h4 : validateLocation (resolve a.token a.queueAddr cert none (q.map .ofHosted) true).location true with
      | error e => rw [h4] at h; cases h
      | ok u =>
        rw [h4] at h
        simp only at h
        split at h
        · cases h
        · rename_i conn h6
          simp only [pure, Except.pure, Except.ok.injEq, Prod.mk.injEq] at h
          obtain ⟨rfl, rfl⟩ := h
          exact ⟨rfl, cert, _, rfl, ⟨q, hq, rfl⟩, (hconnect q).mp ⟨h4, h6⟩⟩
  · rintro ⟨rfl, _, _, rfl, ⟨q, hq, rfl⟩, hc⟩
    rw [(apiConfigOf_ok w _ x _).mpr ⟨q, hq, rfl⟩]
    obtain ⟨h4, h6⟩ := (hconnect q).mpr hc
    simp only [h4, h6]
    rfl

/-- **C50.** `abq report` never starts a queue of its own. -/
theorem C50_report_remote (w : World) (a : ReportArgs) (r : String) (c : Connection) (h : reportPlan w a = .ok (r, c)) :
    ∃ x, c.queue = .remote x := by
  obtain ⟨-, cert, source, -, -, hc⟩ := (C50_report w a r c).mp h
  cases source with
  | api ans =>
    cases ans with
    | success ad _ t ce k => exact ⟨ad, by rw [hc.1]⟩
    | unsupported k u => exact hc.elim
  | commandLine =>
    obtain ⟨-, -, -, h⟩ := hc
    split at h
    · exact ⟨_, h⟩
    · exact absurd trivial h.1

/-- **C50.** With a personal token, a run on the hosted queue is read-only; a run is never read-only otherwise. -/
theorem C50_readonly (w : World) (a : TestArgs) (p : TestPlan) (h : testPlan w a = .ok p) :
    p.mode = .readonly ↔ a.localMode = false ∧ HasRunId w a ∧
      ∃ t ans, TokenInUse w a.accessToken t ∧ w.api t p.runId = .ok ans ∧ kindIn ans = .personal := by
  obtain ⟨-, ⟨cert, key, source, -, -, hch, -, hmode⟩, -⟩ := (C50_test w a p).mp h
  rw [hmode]
  cases source with
  | api ans =>
    obtain ⟨hl, ⟨t, ht, ha⟩, hk⟩ := hch
    simp only [ReadonlyFor]
    constructor
    · intro hp
      rw [hp] at hk
      exact ⟨by simpa using hl, by simpa using hk, t, ans, ht, ha, hp⟩
    · rintro ⟨-, -, t', ans', ht', ha', hp⟩
      rw [← token_iff] at ht ht'
      cases ht.symm.trans ht'
      cases ha.symm.trans ha'
      exact hp
  | commandLine =>
    simp only [ReadonlyFor, false_iff]
    rintro ⟨hl, hg, t, ans, ht, ha, hp⟩
    rcases hch with h | h | ⟨_, _, _, _, _, h⟩
    · rw [hl] at h; cases h
    · exact h t ht
    · exact h hg

/-! Concrete cases. -/

def sampleWorld : World where
  env := ⟨none, none, none, none, none, none⟩
  storedToken := none
  api := fun t r => if t = "org" then .ok (.success "hosted:1" r [1] none .organization)
    else if t = "me" then .ok (.success "hosted:2" r [2] none .personal)
    else .ok (.unsupported .personal "no")
  fresh := "fresh"
  cores := 8
  tls := ⟨fun _ => true, fun _ _ => true⟩

def sampleArgs : TestArgs := ⟨none, none, none, none, none, none, false, .cpuCores, 2, ["jest", "-t"]⟩

/-- No options: a queue in the same process. -/
example : (testPlan sampleWorld sampleArgs).toOption =
    some ⟨"fresh", ⟨.inProcess none none, none, none⟩, 7, 3, "jest", ["-t"], .writeNormal, false, none⟩ := by decide

/-- A personal token with a run id: the hosted queue, read-only. -/
example : (testPlan sampleWorld { sampleArgs with accessToken := some "me", runId := some "r" }).toOption =
    some ⟨"r", ⟨.remote "hosted:2", some [2], none⟩, 7, 3, "jest", ["-t"], .readonly, true, some "me"⟩ := by decide

/-- A personal token without: a queue in the same process. -/
example : (testPlan sampleWorld { sampleArgs with accessToken := some "me" }).toOption.map (·.connection.queue) =
    some (.inProcess none none) := by decide

/-- A run id without a queue is refused. -/
example : (testPlan sampleWorld { sampleArgs with runId := some "r" }).toOption = none := by decide

/-- `abq report` of a run on a queue of the user. -/
example : (reportPlan sampleWorld ⟨some "r", none, some "mine:1", none, none⟩).toOption =
    some ("r", ⟨.remote "mine:1", none, none⟩) := by decide

/-- **C66** (without a token for the API). A queue address given by the user is the one used, if there is no access token,
or it is a personal one and no run id is given. -/
theorem C66_address_used_partial (w : World) (a : TestArgs) (p : TestPlan) (h : testPlan w a = .ok p) (x : String)
    (hx : a.queueAddr = some x)
    (hno : (∀ t, ¬ TokenInUse w a.accessToken t) ∨
      (¬ HasRunId w a ∧ ∀ t ans, TokenInUse w a.accessToken t → w.api t p.runId = .ok ans → kindIn ans = .personal)) :
    p.connection.queue = .remote x ∧ p.connection.token = a.token ∧ FileIs a.tlsCert p.connection.cert := by
  obtain ⟨-, ⟨cert, key, source, hcert, -, hch, hc, -⟩, -⟩ := (C50_test w a p).mp h
  cases source with
  | api ans =>
    obtain ⟨-, ⟨t, ht, ha⟩, hk⟩ := hch
    rcases hno with h | ⟨h1, h2⟩
    · exact absurd ht (h t)
    · rcases hk with hk | hk
      · rw [h2 t ans ht ha] at hk; cases hk
      · exact absurd hk h1
  | commandLine =>
    obtain ⟨-, h1, h2, h3⟩ := hc
    rw [hx] at h3
    exact ⟨h3, h1, h2 ▸ hcert⟩

/-- **C66**, whatever is stored and given. The address given by the user is used, with the token and certificate given,
unless an access token is in use (and not `--local`) that is an organization's or comes with a run id; then it is not
looked at, and the queue, token and certificate are those in the answer of the API. -/
theorem C66_exact (w : World) (a : TestArgs) (p : TestPlan) (h : testPlan w a = .ok p) (x : String)
    (hx : a.queueAddr = some x) :
    let hosted := a.localMode = false ∧
      ∃ t ans, TokenInUse w a.accessToken t ∧ w.api t p.runId = .ok ans ∧ (kindIn ans = .organization ∨ HasRunId w a)
    (hosted → ∃ t addr run tok cert kind, TokenInUse w a.accessToken t ∧
      w.api t p.runId = .ok (.success addr run tok cert kind) ∧ p.connection = ⟨.remote addr, some tok, cert⟩) ∧
    (¬ hosted → p.connection.queue = .remote x ∧ p.connection.token = a.token ∧ FileIs a.tlsCert p.connection.cert) := by
  obtain ⟨-, ⟨cert, key, source, hcert, -, hch, hc, -⟩, -⟩ := (C50_test w a p).mp h
  have huniq : ∀ t t', TokenInUse w a.accessToken t → TokenInUse w a.accessToken t' → t = t' := by
    rintro t t' (h | ⟨h, h1⟩) (h' | ⟨h', h1'⟩)
    · exact Option.some.inj (h.symm.trans h')
    · rw [h] at h'; cases h'
    · rw [h] at h'; cases h'
    · exact Option.some.inj (h1.symm.trans h1')
  cases source with
  | api ans =>
    obtain ⟨hl, ⟨t, ht, ha⟩, hk⟩ := hch
    have hl : a.localMode = false := by simpa using hl
    refine ⟨fun _ => ?_, fun hn => (hn ⟨hl, t, ans, ht, ha, hk⟩).elim⟩
    cases ans with
    | unsupported k u => exact hc.elim
    | success addr run tok cert kind => exact ⟨t, addr, run, tok, cert, kind, ht, ha, hc.1⟩
  | commandLine =>
    obtain ⟨-, h1, h2, h3⟩ := hc
    rw [hx] at h3
    refine ⟨fun hh => ?_, fun _ => ⟨h3, h1, h2 ▸ hcert⟩⟩
    obtain ⟨hl, t, ans, ht, ha, hk⟩ := hh
    exfalso
    rcases hch with hm | hm | ⟨t', ans', ht', ha', hk', hg⟩
    · rw [hl] at hm; cases hm
    · exact hm t ht
    · cases huniq t t' ht ht'
      rw [ha] at ha'; cases ha'
      rcases hk with hk | hk
      · rw [hk] at hk'; cases hk'
      · exact hg hk

/-- `clap` accepts the options (`args.rs:235-252`): not both an access token and a queue address, no key with either, not
both `--local` and a queue address, and no key without a certificate. -/
def Accepted (a : TestArgs) : Prop :=
  (a.accessToken = none ∨ a.queueAddr = none) ∧ ((a.accessToken = none ∧ a.queueAddr = none) ∨ a.tlsKey = none) ∧
  (a.localMode = false ∨ a.queueAddr = none) ∧ (a.tlsKey = none ∨ a.tlsCert ≠ none)

/-- **C66 fails** as stated: after `abq login` with an organization's token, `abq test --queue-addr` connects to the hosted
queue, and sends it the hosted queue's token. -/
theorem C66_full_statement_fails :
    ¬ ∀ (w : World) (a : TestArgs) (p : TestPlan) (x : String), Accepted a → testPlan w a = .ok p →
      a.queueAddr = some x → p.connection.queue = .remote x := by
  intro h
  let w := { sampleWorld with storedToken := some "org" }
  let a := { sampleArgs with queueAddr := some "mine:1" }
  have h1 : testPlan w a =
      .ok ⟨"fresh", ⟨.remote "hosted:1", some [1], none⟩, 7, 3, "jest", ["-t"], .writeNormal, true, some "org"⟩ := rfl
  have := h w a _ "mine:1" ⟨.inl rfl, .inr rfl, .inl rfl, .inl rfl⟩ h1 rfl
  exact absurd this (by decide)

example : (testPlan sampleWorld { sampleArgs with queueAddr := some "mine:1", runId := some "r", token := some [7] }).toOption.map
    (·.connection) = some ⟨.remote "mine:1", some [7], none⟩ := by decide

/-- **C67.** `abq health` succeeds exactly if there is something to check and every service answers that it is healthy; and
it prints one line for each service, in order. -/
theorem C67_health (qs ss ns : List Answer) :
    (health qs ss ns = .tooFew ↔ qs = [] ∧ ss = [] ∧ ns = []) ∧
    (∀ code lines, health qs ss ns = .exit code lines →
      (code = 0 ∨ code = 1) ∧ (code = 0 ↔ ∀ x ∈ qs ++ ss ++ ns, ∃ v, x = some (true, v)) ∧
      lines = (qs ++ ss ++ ns).map fun x => match x with | some (b, _) => b | none => false) := by
  have hl : ∀ (l : List Answer) (b : Bool) (ls : List Bool),
      ((healthLoop b ls l).1 = true ↔ b = true ∧ ∀ x ∈ l, ∃ v, x = some (true, v)) ∧
      (healthLoop b ls l).2 = ls ++ l.map fun x => match x with | some (b, _) => b | none => false := by
    intro l
    induction l with
    | nil => intro b ls; simp [healthLoop]
    | cons x l ih =>
      intro b ls
      match x with
      | none => simp [healthLoop, ih]
      | some (false, v) => simp [healthLoop, ih]
      | some (true, v) => simp [healthLoop, ih]
  unfold health
  cases hall : qs ++ ss ++ ns with
  | nil =>
    have h1 : qs = [] ∧ ss = [] ∧ ns = [] := by simpa [and_assoc] using hall
    simp [h1]
  | cons x l =>
    refine ⟨?_, ?_⟩
    · simp only [reduceCtorEq, false_iff]
      rintro ⟨rfl, rfl, rfl⟩; simp at hall
    · intro code lines h
      simp only [HealthOut.exit.injEq] at h
      obtain ⟨rfl, rfl⟩ := h
      obtain ⟨h1, h2⟩ := hl (x :: l) true []
      refine ⟨?_, ?_, by rw [h2]; simp⟩
      · split <;> simp
      · split
        · rename_i h; simp only [true_iff]; exact (h1.mp h).2
        · rename_i h
          simp only [Nat.one_ne_zero, false_iff]
          intro hh; exact h (h1.mpr ⟨rfl, hh⟩)

example : health [some (true, "1.0")] [none] [some (true, "1.0")] = .exit 1 [true, false, true] := by decide
example : health [some (true, "1.0")] [] [some (true, "1.0")] = .exit 0 [true, true] := by decide

end Abq.Props
