import Verif.Spec.Startup
import Verif.Props.Attach

/-! # C112, C113: starting a queue, and finding its servers -/

namespace Abq.Props
open Abq.Startup Abq.Spec.Startup
open Abq.Attach (Addr)

theorem bindPort_some {used : List Nat} {c p q : Nat} (h : bindPort used c p = some q) :
    q ∉ used ∧ q ≠ 0 ∧ (p ≠ 0 → q = p) := by
  unfold bindPort at h
  split at h
  · rename_i hp
    split at h
    · cases h
    · rename_i hc
      cases h
      exact ⟨fun hm => hc (.inr hm), fun h0 => hc (.inl h0), fun hn => absurd hp hn⟩
  · rename_i hp
    split at h
    · cases h
    · rename_i hc
      cases h
      exact ⟨hc, hp, fun _ => rfl⟩

/-- **C112.** A queue listens at the ports it was told to, at any others where it was not told, and advertises the public IP
address, or the one it is bound to; no two of its servers share a port, with each other or with another queue on the machine. -/
theorem C112_starts (used : List Nat) (ch : Choices) (a : StartArgs) (l : Live) (h : startQueue used ch a = some l) :
    (ports l).Nodup ∧ (∀ p ∈ ports l, p ∉ used ∧ p ≠ 0) ∧
    (a.port ≠ 0 → l.server = a.port) ∧ (a.negotiatorPort ≠ 0 → l.negotiator = a.negotiatorPort) ∧
    (a.workPort ≠ 0 → l.work = a.workPort) ∧
    l.bind = a.bind ∧ l.publicIp = (match a.publicIp with | some ip => ip | none => a.bind) := by
  unfold startQueue at h
  cases h1 : bindPort used ch.server a.port with
  | none => rw [h1] at h; cases h
  | some s =>
    cases h2 : bindPort (s :: used) ch.negotiator a.negotiatorPort with
    | none => rw [h1] at h; simp only [h2] at h; cases h
    | some n =>
      cases h3 : bindPort (n :: s :: used) ch.work a.workPort with
      | none => rw [h1] at h; simp only [h2, h3] at h; cases h
      | some w =>
        rw [h1] at h
        simp only [h2, h3, Option.some.injEq] at h
        subst h
        obtain ⟨a1, a2, a3⟩ := bindPort_some h1
        obtain ⟨b1, b2, b3⟩ := bindPort_some h2
        obtain ⟨c1, c2, c3⟩ := bindPort_some h3
        simp only [List.mem_cons, not_or] at b1 c1
        refine ⟨?_, ?_, a3, b3, c3, rfl, ?_⟩
        · simp only [ports, List.nodup_cons, List.mem_cons, List.not_mem_nil, or_false, not_or, not_false_eq_true,
            List.nodup_nil, and_true]
          exact ⟨⟨fun h => b1.1 h.symm, fun h => c1.2.1 h.symm⟩, fun h => c1.1 h.symm⟩
        · intro p hp
          simp only [ports, List.mem_cons, List.not_mem_nil, or_false] at hp
          rcases hp with rfl | rfl | rfl
          · exact ⟨a1, a2⟩
          · exact ⟨b1.2, b2⟩
          · exact ⟨c1.2.2, c2⟩
        · simp only [StartArgs.advertised]
          cases a.publicIp <;> rfl

theorem portsOn_append (q : List Deployed) (d : Deployed) (m : String) :
    portsOn (q ++ [d]) m = portsOn q m ++ (if d.machine = m then ports d.live else []) := by
  simp only [portsOn, List.filter_append, List.flatMap_append, List.filter_cons, List.filter_nil]
  split <;> rename_i h <;> simp only [decide_eq_true_eq] at h
  · rw [if_pos h]; simp [ports]
  · rw [if_neg h]; rfl

theorem portsOn_sublist {q q' : List Deployed} (h : q'.Sublist q) (m : String) : (portsOn q' m).Sublist (portsOn q m) := by
  unfold portsOn
  have : ∀ {a b : List Deployed}, a.Sublist b →
      (a.flatMap fun d => [d.live.server, d.live.negotiator, d.live.work]).Sublist
        (b.flatMap fun d => [d.live.server, d.live.negotiator, d.live.work]) := by
    intro a b hab
    induction hab with
    | slnil => exact List.Sublist.refl _
    | cons x _ ih => rw [List.flatMap_cons]; exact ih.trans (List.sublist_append_right _ _)
    | cons_cons x _ ih => rw [List.flatMap_cons, List.flatMap_cons]; exact List.Sublist.append (List.Sublist.refl _) ih
  exact this (h.filter _)

/-- **C112.** Whatever queues were started and ended, no two servers on one machine listen at the same port. -/
theorem C112_ports (hs : List Happens) (m : String) : (portsOn (history hs) m).Nodup := by
  suffices ∀ q : List Deployed, (∀ m, (portsOn q m).Nodup) → ∀ m, (portsOn (hs.foldl happen q) m).Nodup from
    this [] (fun _ => List.nodup_nil) m
  induction hs with
  | nil => exact fun q h => h
  | cons x hs ih =>
    intro q hq
    refine ih (happen q x) ?_
    intro m
    cases x with
    | ends i => exact List.Nodup.sublist (portsOn_sublist (List.eraseIdx_sublist q i) m) (hq m)
    | start m' a ch v =>
      simp only [happen]
      cases hl : startQueue (portsOn q m') ch a with
      | none => exact hq m
      | some l =>
        simp only []
        rw [portsOn_append]
        obtain ⟨h1, h2, -⟩ := C112_starts _ _ _ _ hl
        by_cases hm : m' = m
        · subst hm
          rw [if_pos rfl]
          refine List.nodup_append.2 ⟨hq m', h1, ?_⟩
          rintro x hx y hy rfl
          exact (h2 x hy).1 hx
        · rw [if_neg hm, List.append_nil]
          exact hq m

theorem service_mem {l : Live} {p : Nat} {s : Service} (h : l.service p = some s) : p ∈ ports l := by
  unfold Live.service at h
  simp only [ports, List.mem_cons, List.not_mem_nil, or_false]
  split at h
  · exact .inl ‹_›
  · split at h
    · exact .inr (.inl ‹_›)
    · split at h
      · exact .inr (.inr ‹_›)
      · cases h

theorem service_none {l : Live} {p : Nat} (h : p ∉ ports l) : l.service p = none := by
  simp only [ports, List.mem_cons, List.not_mem_nil, or_false, not_or] at h
  rw [Live.service, if_neg h.1, if_neg h.2.1, if_neg h.2.2]

theorem portsOn_cons (x : Deployed) (q : List Deployed) (m : String) :
    portsOn (x :: q) m = (if x.machine = m then ports x.live else []) ++ portsOn q m := by
  simp only [portsOn, List.filter_cons]
  split <;> rename_i h <;> simp only [decide_eq_true_eq] at h
  · rw [if_pos h]; rfl
  · rw [if_neg h]; rfl

theorem mem_portsOn {q : List Deployed} {d : Deployed} (hd : d ∈ q) {p : Nat} (hp : p ∈ ports d.live) :
    p ∈ portsOn q d.machine :=
  List.mem_flatMap.2 ⟨d, List.mem_filter.2 ⟨hd, by simp⟩, hp⟩

theorem reach_eq {route : Route} {q : List Deployed} {src : String} {d : Deployed} {s : Service} {a : Addr}
    (hn : (portsOn q d.machine).Nodup) (hd : d ∈ q) (hr : route src a.host = some d.machine)
    (ha : accepts d.live.bind a.host = true) (hs : d.live.service a.port = some s) :
    reach route q src a = some (d, s) := by
  unfold reach
  rw [hr]
  simp only []
  induction q with
  | nil => cases hd
  | cons x q ih =>
    rw [List.findSome?_cons]
    rw [portsOn_cons] at hn
    rcases List.mem_cons.1 hd with rfl | hd
    · simp [ha, hs]
    · have hno : x.machine = d.machine → a.port ∉ ports x.live := by
        intro hm hp
        rw [if_pos hm] at hn
        exact (List.nodup_append.1 hn).2.2 _ hp _ (mem_portsOn hd (service_mem hs)) rfl
      have h0 : (if x.machine = d.machine ∧ accepts x.live.bind a.host = true then
          (x.live.service a.port).map (fun s => (x, s)) else none) = none := by
        split
        · rename_i h; rw [service_none (hno h.1)]; rfl
        · rfl
      rw [h0]
      exact ih (List.nodup_append.1 hn).2.1 hd

theorem reach_mem {route : Route} {q : List Deployed} {src : String} {d : Deployed} {s : Service} {a : Addr}
    (h : reach route q src a = some (d, s)) : d ∈ q := by
  unfold reach at h
  split at h
  · cases h
  · rename_i m _
    obtain ⟨x, hx, hf⟩ := List.exists_of_findSome?_eq_some h
    split at hf
    · cases hsx : x.live.service a.port with
      | none => rw [hsx] at hf; cases hf
      | some t => rw [hsx] at hf; cases hf; exact hx
    · cases hf

theorem ports_distinct {hs : List Happens} {d : Deployed} (hd : d ∈ history hs) : (ports d.live).Nodup := by
  have h1 : (ports d.live).Sublist (portsOn (history hs) d.machine) := by
    obtain ⟨a, b, hab⟩ := List.append_of_mem hd
    rw [hab]
    simp only [portsOn, List.filter_append, List.filter_cons, decide_true, if_true, List.flatMap_append, List.flatMap_cons]
    exact (List.sublist_append_left (ports d.live) _).trans (List.sublist_append_right _ _)
  exact List.Nodup.sublist h1 (C112_ports hs d.machine)

theorem service_ports {l : Live} (h : (ports l).Nodup) :
    l.service l.server = some .server ∧ l.service l.negotiator = some .negotiator ∧ l.service l.work = some .work := by
  simp only [ports, List.nodup_cons, List.mem_cons, List.not_mem_nil, or_false, not_or] at h
  obtain ⟨⟨h1, h2⟩, h3, -⟩ := h
  refine ⟨by simp [Live.service], ?_, ?_⟩
  · simp [Live.service, Ne.symm h1]
  · simp [Live.service, Ne.symm h2, Ne.symm h3]

/-- **C112.** A worker deals only with a queue of its own version: if it asks to attach to a run, the queue it reached at the
given address is of its version; if it reached one of another version, it ends with an error naming both, and has sent nothing
but the question. -/
theorem C112_version (route : Route) (queues : List Deployed) (src version : String) (w n : Nat) (addr : Addr)
    (answers : List Assigned) :
    (∀ neg, .wantsToAttach neg ∈ (testRemote route queues src version w n addr answers).2 →
      ∃ d, reach route queues src addr = some (d, .server) ∧ d.version = version ∧ neg = ⟨d.live.publicIp, d.live.negotiator⟩) ∧
    (∀ d, reach route queues src addr = some (d, .server) → d.version ≠ version →
      testRemote route queues src version w n addr answers = (.failed (.incompatible version d.version), [.negotiatorInfo addr])) ∧
    (∀ e, (testRemote route queues src version w n addr answers).1 = .failed e → e = .couldNotConnect →
      ∀ d, reach route queues src addr ≠ some (d, .server)) := by
  refine ⟨?_, ?_, ?_⟩
  · intro neg h
    unfold testRemote at h
    cases hr : reach route queues src addr with
    | none => rw [hr] at h; simp [askQueue] at h
    | some x =>
      obtain ⟨d, s⟩ := x
      rw [hr] at h
      cases s with
      | server =>
        by_cases hv : d.version = version
        · refine ⟨d, rfl, hv, ?_⟩
          simp only [askQueue, Live.negotiatorInfo, hv, ne_eq, not_true, if_false, Attach.publicize] at h
          split at h <;> simpa using h
        · simp [askQueue, Live.negotiatorInfo, hv] at h
      | negotiator => simp [askQueue] at h
      | work => simp [askQueue] at h
  · intro d hr hv
    simp [testRemote, hr, askQueue, Live.negotiatorInfo, hv]
  · intro e h he d hr
    subst he
    unfold testRemote at h
    rw [hr] at h
    by_cases hv : d.version = version
    · simp only [askQueue, Live.negotiatorInfo, hv, ne_eq, not_true, if_false] at h
      split at h <;> cases h
    · simp [askQueue, Live.negotiatorInfo, hv] at h

/-- **C112.** What a worker says of a queue of another version: one text around the two versions, its own first; and a text that
is not what it says when it reaches no queue. -/
theorem C112_error_names_both :
    (∃ a b c : String, ∀ mine theirs, (AskErr.incompatible mine theirs).text = a ++ mine ++ b ++ theirs ++ c) ∧
    ∀ mine theirs, (AskErr.incompatible mine theirs).text ≠ AskErr.couldNotConnect.text := by
  refine ⟨⟨"this abq (", ") is incompatible with the remote queue version (", ").\n" ++
    "If you are using `setup-abq`, please ensure that `abq` is invoked with the same run-id as `setup-abq`.\n", fun l r => ?_⟩,
    fun l r h => ?_⟩
  · simp only [AskErr.text, String.append_assoc]
  · have h1 := congrArg String.toList h
    simp only [AskErr.text, String.toList_append] at h1
    exact absurd (congrArg List.head? h1) (by simp)

example : (AskErr.incompatible "1.1" "1.0").text ≠ (AskErr.incompatible "1.0" "1.1").text := by
  intro h
  have h1 := congrArg (fun t => t.toList.drop 12) h
  simp only [AskErr.text, String.toList_append] at h1
  exact absurd (congrArg List.head? h1) (by simp)

/-- **C112**, if the IP address the queue advertises leads to it. A worker that reaches a queue of its version at the given
address asks that queue's negotiator to attach, does what it is told, and its runners get their tests from that queue and send
their results to it. -/
theorem C112_led_partial (route : Route) (hs : List Happens) (src : String) (w n : Nat) (addr : Addr) (d : Deployed)
    (hr : reach route (history hs) src addr = some (d, .server)) (ha : AdvertisesWell route src d)
    (a : Assigned) (hu : a ≠ .runUnknown) :
    reach route (history hs) src ⟨d.live.publicIp, d.live.negotiator⟩ = some (d, .negotiator) ∧
    ∃ s, testRemote route (history hs) src d.version w n addr [a] =
        (.started s, [.negotiatorInfo addr, .wantsToAttach ⟨d.live.publicIp, d.live.negotiator⟩]) ∧
      Attach.Follows ⟨d.live.publicIp, ⟨d.live.bind, d.live.work⟩, ⟨d.live.bind, d.live.server⟩⟩ w n a s ∧
      AttachedTo route (history hs) src d s := by
  have hm := reach_mem hr
  have hacc : accepts d.live.bind d.live.publicIp = true := by
    simp only [accepts, Bool.or_eq_true, beq_iff_eq]
    exact ha.2
  obtain ⟨s1, s2, s3⟩ := service_ports (ports_distinct hm)
  have hneg : reach route (history hs) src ⟨d.live.publicIp, d.live.negotiator⟩ = some (d, .negotiator) :=
    reach_eq (C112_ports hs d.machine) hm ha.1 hacc s2
  have hwork : reach route (history hs) src ⟨d.live.publicIp, d.live.work⟩ = some (d, .work) :=
    reach_eq (C112_ports hs d.machine) hm ha.1 hacc s3
  have hres : reach route (history hs) src ⟨d.live.publicIp, d.live.server⟩ = some (d, .server) :=
    reach_eq (C112_ports hs d.machine) hm ha.1 hacc s1
  refine ⟨hneg, ?_⟩
  obtain ⟨dec, h1, h2⟩ := C85_follows d.live.attachQueue w n a hu
  have hask : askQueue d.version (some (d, .server)) = .ok ⟨d.live.publicIp, d.live.negotiator⟩ := by
    simp [askQueue, Live.negotiatorInfo, Attach.publicize]
  refine ⟨Attach.start w n dec, ?_, h2, ?_⟩
  · simp only [testRemote, hr, hask, hneg, replies, List.map_cons, List.map_nil, h1]
  · unfold Attach.Follows at h2
    cases a with
    | fresh g df =>
      obtain ⟨rs, hst, -, hrs⟩ := h2
      rw [hst]
      intro r hrm
      rw [(hrs r hrm).1.1, (hrs r hrm).1.2]
      exact ⟨hwork, hres⟩
    | retry df =>
      obtain ⟨rs, hst, -, hrs⟩ := h2
      rw [hst]
      intro r hrm
      rw [(hrs r hrm).1.1, (hrs r hrm).1.2]
      exact ⟨hwork, hres⟩
    | alreadyDone x => rw [show Attach.start w n dec = _ from h2]; trivial
    | cancelled r => rw [show Attach.start w n dec = _ from h2]; trivial
    | fatal => rw [show Attach.start w n dec = _ from h2]; trivial
    | runUnknown => exact absurd rfl hu

/-! ## Two machines -/

/-- Two machines that know each other by their addresses; 0.0.0.0 is the machine itself. -/
def twoMachines : Route := fun src ip =>
  if ip = "0.0.0.0" then some src
  else if ip = "10.0.0.1" then some "queue"
  else if ip = "10.0.0.2" then some "worker"
  else none

/-- A queue started without any argument. -/
def byDefault : Happens := .start "queue" {} ⟨4000, 4001, 4002⟩ "1.0"

/-- The same with its IP address. -/
def advertised : Happens := .start "queue" { publicIp := some "10.0.0.1" } ⟨4000, 4001, 4002⟩ "1.0"

/-- A queue on the worker's machine, that happens to have the same ports. -/
def another : Happens := .start "worker" {} ⟨4000, 4001, 4002⟩ "1.0"

/-- The queue these start on a machine. -/
def defaultOn (machine : String) : Deployed := ⟨machine, ⟨"0.0.0.0", "0.0.0.0", 4000, 4001, 4002⟩, "1.0"⟩

/-- **C112 fails** for a queue started without `--public-ip`: it advertises 0.0.0.0, which leads from another machine to that
machine itself. A worker that reaches the queue at its address then fails. -/
theorem C112_full_statement_fails :
    reach twoMachines (history [byDefault]) "worker" ⟨"10.0.0.1", 4000⟩ = some (defaultOn "queue", .server) ∧
    testRemote twoMachines (history [byDefault]) "worker" "1.0" 0 1 ⟨"10.0.0.1", 4000⟩ [.fresh true false] =
      (.started .panicked, [.negotiatorInfo ⟨"10.0.0.1", 4000⟩, .wantsToAttach ⟨"0.0.0.0", 4001⟩]) := by
  exact ⟨by decide, by decide⟩

/-- **C112 fails** in the same way with a queue on the worker's own machine: the worker takes part in a run of a queue it was not
told of, whose negotiator, tests and results its runners reach. -/
theorem C112_full_statement_fails_wrong_queue :
    reach twoMachines (history [byDefault, another]) "worker" ⟨"10.0.0.1", 4000⟩ = some (defaultOn "queue", .server) ∧
    testRemote twoMachines (history [byDefault, another]) "worker" "1.0" 0 1 ⟨"10.0.0.1", 4000⟩ [.fresh true false] =
      (.started (.pool false [⟨.runner ⟨0, 1⟩, true, [.queue], ⟨"0.0.0.0", 4002⟩, ⟨"0.0.0.0", 4000⟩⟩]),
        [.negotiatorInfo ⟨"10.0.0.1", 4000⟩, .wantsToAttach ⟨"0.0.0.0", 4001⟩]) ∧
    reach twoMachines (history [byDefault, another]) "worker" ⟨"0.0.0.0", 4001⟩ = some (defaultOn "worker", .negotiator) ∧
    reach twoMachines (history [byDefault, another]) "worker" ⟨"0.0.0.0", 4002⟩ = some (defaultOn "worker", .work) := by
  exact ⟨by decide, by decide, by decide, by decide⟩

/-- With its address given the worker attaches to it. -/
example : (testRemote twoMachines (history [advertised, another]) "worker" "1.0" 0 1 ⟨"10.0.0.1", 4000⟩ [.fresh true false]).1 =
    .started (.pool false [⟨.runner ⟨0, 1⟩, true, [.queue], ⟨"10.0.0.1", 4002⟩, ⟨"10.0.0.1", 4000⟩⟩]) := by decide

/-- The hypotheses of `C112_led_partial` are met by that queue, with another on the worker's machine. -/
example : AdvertisesWell twoMachines "worker" ⟨"queue", ⟨"0.0.0.0", "10.0.0.1", 4000, 4001, 4002⟩, "1.0"⟩ ∧
    reach twoMachines (history [another, advertised]) "worker" ⟨"10.0.0.1", 4000⟩ =
      some (⟨"queue", ⟨"0.0.0.0", "10.0.0.1", 4000, 4001, 4002⟩, "1.0"⟩, .server) :=
  ⟨⟨by decide, .inl rfl⟩, by decide⟩

/-- A worker on the queue's machine needs no address. -/
example : (testRemote twoMachines (history [byDefault]) "queue" "1.0" 0 1 ⟨"0.0.0.0", 4000⟩ [.fresh true false]).1 =
    .started (.pool false [⟨.runner ⟨0, 1⟩, true, [.queue], ⟨"0.0.0.0", 4002⟩, ⟨"0.0.0.0", 4000⟩⟩]) := by decide

/-- Another version is not dealt with. -/
example : testRemote twoMachines (history [advertised]) "worker" "1.1" 0 1 ⟨"10.0.0.1", 4000⟩ [.fresh true false] =
    (.failed (.incompatible "1.1" "1.0"), [.negotiatorInfo ⟨"10.0.0.1", 4000⟩]) := by decide

/-- Two servers told to listen at the same port: the queue does not start. -/
example : startQueue [] ⟨1, 2, 3⟩ { port := 80, workPort := 80 } = none := by decide

/-! ## C113 -/

/-- **C113** (`abq start`). The directories for manifests and results are those given, and where none is given new ones, which
exist while the queue runs, so that files can be stored. -/
theorem C113_started_queue (dirs : List String) (m r : String) (md rd : Option String)
    (hm : ∀ p, md = some p → p ∈ dirs) (hr : ∀ p, rd = some p → p ∈ dirs) :
    canStore (startFiles dirs m r md rd) (startFiles dirs m r md rd).manifests = true ∧
    canStore (startFiles dirs m r md rd) (startFiles dirs m r md rd).results = true ∧
    (∀ p, md = some p → (startFiles dirs m r md rd).manifests = p) ∧
    (∀ p, rd = some p → (startFiles dirs m r md rd).results = p) := by
  cases md <;> cases rd <;> simp [startFiles, newDir, canStore, Dir.path] at hm hr ⊢ <;> simp [hm, hr]

/-- **C113 fails** for the queue `abq test` starts when there is no other: its temporary directories are removed as soon as it is
started, so that nothing can be stored in them. -/
theorem C113_full_statement_fails (dirs : List String) (m r : String) :
    canStore (ephemeralFiles dirs m r) (ephemeralFiles dirs m r).manifests = false ∧
    canStore (ephemeralFiles dirs m r) (ephemeralFiles dirs m r).results = false := by
  simp [ephemeralFiles, canStore, dropDir]

example : startFiles ["/data"] "/tmp/a" "/tmp/b" (some "/data") none = ⟨"/data", "/tmp/b", ["/tmp/b", "/data"]⟩ := by decide
example : ephemeralFiles ["/data"] "/tmp/a" "/tmp/b" = ⟨"/tmp/a", "/tmp/b", ["/data"]⟩ := by decide

end Abq.Props
