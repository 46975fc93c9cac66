import Verif.Model.RunnerEnv
import Verif.Model.WorkerSignals
import Std.Data.String.ToNat

/-!
# C108: each native runner is told who it is, and what for
-/

namespace Abq.Props
open Abq.RunnerEnv

/-- The runner of number `i + 1`. -/
def nthRunner (tag num : Nat) (generate : Bool) (p : Params) (i : Nat) : Runner :=
  { worker := tag, runner := asU32 (i + 1), asked := generate && i == 0, singleton := num == 1,
    params := { p with extraEnv := p.extraEnv.insert "ABQ_RUNNER" (toString (i + 1)) } }

theorem pool_eq (tag num : Nat) (generate : Bool) (p : Params) (hp : p.extraEnv "ABQ_RUNNER" = none) :
    pool tag num generate p = some ((List.range num).map (nthRunner tag num generate p)) := by
  have : ∀ l : List Nat, (l.map (· + 1)).mapM (fun id => (p.setRunner id).map fun params =>
      ({ worker := tag, runner := asU32 id, asked := generate && id == 1, singleton := num == 1, params } : Runner)) =
      some (l.map (nthRunner tag num generate p)) := by
    intro l
    induction l with
    | nil => rfl
    | cons i l ih =>
      rw [List.map_cons, List.mapM_cons, ih]
      simp [Params.setRunner, hp, nthRunner]
  have h := this (List.range num)
  unfold pool
  rw [show List.range' 1 num = (List.range num).map (· + 1) from ?_]
  · exact h
  · rw [List.range_eq_range', show (fun x : Nat => x + 1) = (1 + ·) from funext fun x => Nat.add_comm x 1, List.map_add_range']

theorem validate_some {cmdline : List String} {p : Params} (h : validate cmdline = some p) :
    cmdline = p.cmd :: p.args ∧ p.extraEnv = fun x => if x = "FORCE_COLOR" then some "1" else none := by
  cases cmdline with
  | nil => cases h
  | cons c a => cases h; exact ⟨rfl, rfl⟩

/-- **C108**: only a command line that is empty is refused. For any other there is a pool, with as many runners as were asked for,
numbered from 1; the first generates the manifest, if one is to be generated, and no other. -/
theorem C108_pool (cmdline : List String) (tag num : Nat) (generate : Bool) :
    (cmdline = [] ∧ validate cmdline = none) ∨
    ∃ p rs, validate cmdline = some p ∧ pool tag num generate p = some rs ∧ rs.length = num ∧
      ∀ i (h : i < rs.length), rs[i].worker = tag ∧ rs[i].runner = (i + 1) % 2 ^ 32 ∧
        (rs[i].asked = true ↔ generate = true ∧ i = 0) ∧ (rs[i].singleton = true ↔ num = 1) := by
  cases cmdline with
  | nil => exact .inl ⟨rfl, rfl⟩
  | cons c a =>
    refine .inr ⟨_, _, rfl, pool_eq _ _ _ _ rfl, by simp, ?_⟩
    intro i h
    simp [nthRunner, asU32]

theorem nodup_mod (m : Nat) (hm : 0 < m) (num : Nat) : ((List.range num).map fun i => (i + 1) % m).Nodup ↔ num ≤ m := by
  constructor
  · intro hn
    refine Nat.not_lt.mp fun hlt => ?_
    have hn' := List.pairwise_map.mp hn
    rw [List.pairwise_iff_getElem] at hn'
    have h0 : 0 < num := Nat.lt_of_le_of_lt (Nat.zero_le _) hlt
    have := hn' 0 m (by rw [List.length_range]; exact h0) (by rw [List.length_range]; exact hlt) hm
    rw [List.getElem_range, List.getElem_range] at this
    exact this (by rw [Nat.add_comm m 1, Nat.add_mod_right])
  · intro hle
    refine List.pairwise_map.mpr ?_
    rw [List.pairwise_iff_getElem]
    intro i j hi hj hij
    simp only [List.length_range] at hi hj
    simp only [List.getElem_range]
    rw [Nat.mod_eq_of_lt (show i + 1 < m by omega)]
    by_cases h : j + 1 < m
    · rw [Nat.mod_eq_of_lt h]; omega
    · rw [show j + 1 = m by omega, Nat.mod_self]; omega

/-- **C108**: the runners of a worker have different numbers exactly if there are at most 2^32 of them. -/
theorem C108_distinct (cmdline : List String) (tag num : Nat) (generate : Bool) (p : Params) (rs : List Runner)
    (hp : validate cmdline = some p) (h : pool tag num generate p = some rs) :
    (rs.map (·.runner)).Nodup ↔ num ≤ 2 ^ 32 := by
  rw [pool_eq _ _ _ _ (by rw [(validate_some hp).2]; rfl)] at h
  cases h
  rw [List.map_map]
  exact nodup_mod _ (by omega) num

/-- **C108**: every native runner, whatever it is started for, is the command that was given, and finds in its environment its own
number, that of its worker, the address to connect to, and `FORCE_COLOR`; but for these and `ABQ_GENERATE_MANIFEST` it has the
environment of the worker. -/
theorem C108_told (cmdline : List String) (tag num : Nat) (generate : Bool) (p : Params) (rs : List Runner)
    (hp : validate cmdline = some p) (h : pool tag num generate p = some rs) (i : Nat) (hi : i < rs.length)
    (inherited : Env) (addr : String) (g : Bool) :
    let c := rs[i].spawn inherited addr g
    cmdline = c.program :: c.args ∧ c.env "ABQ_RUNNER" = some (toString (i + 1)) ∧ c.env "ABQ_WORKER" = some (toString tag) ∧
    c.env "ABQ_SOCKET" = some addr ∧ c.env "FORCE_COLOR" = some "1" ∧
    ∀ x, x ∉ ["ABQ_RUNNER", "ABQ_WORKER", "ABQ_SOCKET", "FORCE_COLOR", "ABQ_GENERATE_MANIFEST"] → c.env x = inherited x := by
  obtain ⟨h1, h2⟩ := validate_some hp
  rw [pool_eq _ _ _ _ (by rw [h2]; rfl)] at h
  cases h
  simp only [List.getElem_map, List.getElem_range, nthRunner, Runner.spawn, Env.over, Env.insert, h2]
  refine ⟨h1, by simp, by simp, by cases g <;> simp [Env.insert], by simp, ?_⟩
  intro x hx
  simp only [List.mem_cons, List.not_mem_nil, or_false, not_or] at hx
  obtain ⟨a, b, c, d, e⟩ := hx
  cases g <;> simp [a, b, c, d, e, Env.insert]

/-- **C108**: two native runners of one worker find different numbers, and those of different workers different workers. -/
theorem C108_unique (cmdline cmdline' : List String) (tag num tag' num' : Nat) (generate generate' : Bool) (p p' : Params)
    (rs rs' : List Runner) (hp : validate cmdline = some p) (h : pool tag num generate p = some rs)
    (hp' : validate cmdline' = some p') (h' : pool tag' num' generate' p' = some rs')
    (i j : Nat) (hi : i < rs.length) (hj : j < rs'.length) (inherited inherited' : Env) (addr addr' : String) (g g' : Bool)
    (he : (rs[i].spawn inherited addr g).env "ABQ_RUNNER" = (rs'[j].spawn inherited' addr' g').env "ABQ_RUNNER")
    (hw : (rs[i].spawn inherited addr g).env "ABQ_WORKER" = (rs'[j].spawn inherited' addr' g').env "ABQ_WORKER") :
    i = j ∧ tag = tag' := by
  obtain ⟨_, h1, h2, _⟩ := C108_told cmdline tag num generate p rs hp h i hi inherited addr g
  obtain ⟨_, h1', h2', _⟩ := C108_told cmdline' tag' num' generate' p' rs' hp' h' j hj inherited' addr' g'
  rw [h1, h1'] at he
  rw [h2, h2'] at hw
  have a := Nat.repr_injective (Option.some.inj he)
  have b := Nat.repr_injective (Option.some.inj hw)
  omega

theorem asks_spawn (r : Runner) (inherited : Env) (addr : String) (g : Bool) (hx : r.params.extraEnv "ABQ_GENERATE_MANIFEST" = none) :
    (r.spawn inherited addr g).asksManifest = (g || inherited "ABQ_GENERATE_MANIFEST" == some "1") := by
  cases g <;> simp [Process.asksManifest, Runner.spawn, Env.over, Env.insert, hx]

theorem extra_none {cmdline : List String} {tag num : Nat} {generate : Bool} {p : Params} {rs : List Runner}
    (hp : validate cmdline = some p) (h : pool tag num generate p = some rs) :
    ∀ r ∈ rs, r.params.extraEnv "ABQ_GENERATE_MANIFEST" = none := by
  obtain ⟨h1, h2⟩ := validate_some hp
  rw [pool_eq _ _ _ _ (by rw [h2]; rfl)] at h
  cases h
  intro r hr
  obtain ⟨i, _, rfl⟩ := List.mem_map.mp hr
  simp [nthRunner, Env.insert, h2]

/-- **C108** (partial): if the worker itself was not started with `ABQ_GENERATE_MANIFEST`, then of all processes that its runners
start, with whatever retries, exactly one is asked for the manifest if the worker has to generate it, the first of the first
runner; and none otherwise. Missing: that the worker may have been started with it; see `C108_full_statement_fails`. -/
theorem C108_manifest_once_partial (cmdline : List String) (tag num : Nat) (generate : Bool) (p : Params) (rs : List Runner)
    (hp : validate cmdline = some p) (h : pool tag num generate p = some rs) (inherited : Env)
    (hin : inherited "ABQ_GENERATE_MANIFEST" ≠ some "1") (addr : Nat → Nat → String) (retries : List Nat)
    (hlen : retries.length = rs.length) (hnum : 0 < num) :
    (started inherited addr (rs.zip retries)).filter (·.asksManifest) =
      if generate then ((started inherited addr (rs.zip retries)).take 1) else [] := by
  have hx := extra_none hp h
  have ask : ∀ r ∈ rs, ∀ a g, (r.spawn inherited a g).asksManifest = g := by
    intro r hr a g
    rw [asks_spawn r inherited a g (hx r hr)]
    cases g <;> simp [hin]
  rw [pool_eq _ _ _ _ (by rw [(validate_some hp).2]; rfl)] at h
  have e := Option.some.inj h
  clear h hx
  have none_of : ∀ (l : List (Runner × Nat)), (∀ x ∈ l, x.1 ∈ rs ∧ x.1.asked = false) →
      (started inherited addr l).filter (·.asksManifest) = [] := by
    intro l hl
    rw [List.filter_eq_nil_iff]
    intro c hc
    simp only [started, List.mem_flatMap] at hc
    obtain ⟨⟨r, k⟩, hrk, hc⟩ := hc
    obtain ⟨i, hi, rfl⟩ := List.mem_mapIdx.mp hc
    rw [ask r (hl _ hrk).1]
    have : (r.purposes k)[i].generates = false := by
      have hm : (r.purposes k)[i] ∈ r.purposes k := List.getElem_mem hi
      revert hm
      generalize (r.purposes k)[i] = u
      intro hm
      have hf : r.asked = false := (hl _ hrk).2
      simp only [Runner.purposes, hf] at hm
      simp only [Bool.false_eq_true, if_false, List.mem_append, List.mem_singleton, List.mem_replicate] at hm
      rcases hm with rfl | ⟨_, rfl⟩ <;> rfl
    simp [this]
  cases num with
  | zero => omega
  | succ n =>
    rw [List.range_succ_eq_map, List.map_cons, List.map_map] at e
    have hrest : ∀ r ∈ (List.range n).map (nthRunner tag (n + 1) generate p ∘ Nat.succ), r.asked = false := by
      intro r hr
      obtain ⟨i, _, rfl⟩ := List.mem_map.mp hr
      simp [nthRunner]
    cases hret : retries with
    | nil => rw [hret, ← e] at hlen; simp at hlen
    | cons k ks =>
      have h0 : nthRunner tag (n + 1) generate p 0 ∈ rs := by rw [← e]; exact List.mem_cons_self ..
      have htail : ∀ x ∈ ((List.range n).map (nthRunner tag (n + 1) generate p ∘ Nat.succ)).zip ks, x.1 ∈ rs ∧ x.1.asked = false := by
        intro x hxm
        have := List.of_mem_zip (show (x.1, x.2) ∈ _ from hxm)
        exact ⟨by rw [← e]; exact List.mem_cons_of_mem _ this.1, hrest _ this.1⟩
      rw [show rs.zip (k :: ks) = (nthRunner tag (n + 1) generate p 0, k) ::
        ((List.range n).map (nthRunner tag (n + 1) generate p ∘ Nat.succ)).zip ks by rw [← e]; rfl]
      cases generate with
      | false =>
        simp only [Bool.false_eq_true, if_false]
        exact none_of _ (by
          intro x hxm
          rcases List.mem_cons.mp hxm with rfl | hxm
          · exact ⟨h0, rfl⟩
          · exact htail x hxm)
      | true =>
        have split : started inherited addr ((nthRunner tag (n + 1) true p 0, k) ::
            ((List.range n).map (nthRunner tag (n + 1) true p ∘ Nat.succ)).zip ks) =
            (nthRunner tag (n + 1) true p 0).spawn inherited (addr (asU32 1) 0) true ::
            (((List.cons Purpose.tests (List.replicate k .retry)).mapIdx fun i u =>
              (nthRunner tag (n + 1) true p 0).spawn inherited (addr (asU32 1) (i + 1)) u.generates) ++
              started inherited addr (((List.range n).map (nthRunner tag (n + 1) true p ∘ Nat.succ)).zip ks)) := by
          simp only [started, List.flatMap_cons]
          rw [show (nthRunner tag (n + 1) true p 0).purposes k = .manifest :: .tests :: List.replicate k .retry from rfl,
            List.mapIdx_cons]
          rfl
        rw [split]
        simp only [if_true, List.take_succ_cons, List.take_zero]
        rw [List.filter_cons, if_pos (ask _ h0 _ true), List.filter_append, none_of _ htail, List.append_nil]
        congr 1
        rw [List.filter_eq_nil_iff]
        intro c hc
        obtain ⟨i, hi, rfl⟩ := List.mem_mapIdx.mp hc
        rw [ask _ h0]
        have : ((List.cons Purpose.tests (List.replicate k .retry))[i]).generates = false := by
          have hm := List.getElem_mem hi
          revert hm
          generalize (List.cons Purpose.tests (List.replicate k .retry))[i] = u
          intro hm
          simp only [List.mem_cons, List.mem_replicate] at hm
          rcases hm with rfl | ⟨_, rfl⟩ <;> rfl
        simp [this]

/-- **C108**: the full statement fails: if the worker was itself started with `ABQ_GENERATE_MANIFEST=1`, as it is when a native
runner that generates its manifest runs `abq test`, then every process of its runners is asked for the manifest, also those that
are to run tests. -/
theorem C108_full_statement_fails (cmdline : List String) (tag num : Nat) (generate : Bool) (p : Params) (rs : List Runner)
    (hp : validate cmdline = some p) (h : pool tag num generate p = some rs) (inherited : Env)
    (hin : inherited "ABQ_GENERATE_MANIFEST" = some "1") (addr : Nat → Nat → String) (retries : List Nat) :
    ∀ c ∈ started inherited addr (rs.zip retries), c.asksManifest = true := by
  intro c hc
  simp only [started, List.mem_flatMap] at hc
  obtain ⟨⟨r, k⟩, hrk, hc⟩ := hc
  obtain ⟨i, hi, rfl⟩ := List.mem_mapIdx.mp hc
  rw [asks_spawn _ _ _ _ (extra_none hp h r (List.of_mem_zip hrk).1), hin]
  simp

/-- **C108**: these are the runners that C107 starts with. -/
theorem C108_signalled_pool (cmdline : List String) (tag num : Nat) (generate : Bool) (p : Params) (rs : List Runner)
    (hp : validate cmdline = some p) (h : pool tag num generate p = some rs) :
    (WorkerSignals.pool num generate).map (·.asked) = rs.map (·.asked) := by
  rw [pool_eq _ _ _ _ (by rw [(validate_some hp).2]; rfl)] at h
  cases h
  simp [WorkerSignals.pool, nthRunner]

/-- Two runners of worker 3, with a worker that has two variables. -/
def envRunners : Option (List Runner) := (validate ["jest", "--ci"]).bind (pool 3 2 true)
def ownEnv : Env := fun x => if x = "PATH" then some "/bin" else if x = "ABQ_WORKER" then some "9" else none

example : ∃ rs, envRunners = some rs ∧ rs.length = 2 ∧
    (started ownEnv (fun r i => s!"127.0.0.1:{r}{i}") (rs.zip [1, 0])).map
      (fun c => (c.args, c.env "ABQ_RUNNER", c.env "ABQ_WORKER", c.env "ABQ_GENERATE_MANIFEST", c.env "PATH", c.env "HOME")) =
      [(["--ci"], some "1", some "3", some "1", some "/bin", none), (["--ci"], some "1", some "3", none, some "/bin", none),
       (["--ci"], some "1", some "3", none, some "/bin", none), (["--ci"], some "2", some "3", none, some "/bin", none)] :=
  ⟨_, rfl, rfl, rfl⟩

end Abq.Props
