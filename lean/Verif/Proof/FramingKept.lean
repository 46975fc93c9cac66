import Verif.Proof.Framing

/-! # Abandoning `next` between the size and the body of a compressed message -/

namespace Abq.Wire
variable {T : Type}

theorem run_cons (c : Codec T) (s : Conn T) (a : Act) (as : List Act) : s.run c (a :: as) = (s.step c a).run c as := rfl

theorem run_append (c : Codec T) (s : Conn T) (as bs : List Act) : s.run c (as ++ bs) = (s.run c as).run c bs := by
  unfold Conn.run; rw [List.foldl_append]

theorem idle_reads (c : Codec T) (sb : List Byte) (out : List (T × Nat)) (ks : List Nat) :
    (⟨⟨sb, none, [], 0⟩, [], out, none⟩ : Conn T).run c (ks.map .read) = ⟨⟨sb, none, [], 0⟩, [], out, none⟩ := by
  induction ks with
  | nil => rfl
  | cons k ks ih =>
    rw [List.map_cons, run_cons]
    have : (⟨⟨sb, none, [], 0⟩, [], out, none⟩ : Conn T).step c (.read k) = ⟨⟨sb, none, [], 0⟩, [], out, none⟩ := by
      simp [Conn.step, Reader.want]
    rw [this]; exact ih

theorem overwrite_zeros (q bs : List Byte) (k : Nat) (h : bs.length ≤ k) :
    overwrite (q ++ List.replicate k 0) q.length bs = (q ++ bs) ++ List.replicate (k - bs.length) 0 := by
  unfold overwrite
  rw [List.take_left, ← List.drop_drop, List.drop_left, List.drop_replicate]

/-- Reads of a compressed body into a buffer that is too long. -/
theorem kept_reads (c : Codec T) (m : T) (n extra : Nat) (sb : List Byte) (out : List (T × Nat))
    (ks : List Nat) : ∀ (q stream : List Byte), (∀ k ∈ ks, k ≠ 0) → q.length < n → q.length + stream.length = n →
      decodeBody c true ((q ++ stream) ++ List.replicate extra 0) = some m → stream.length ≤ ks.length →
      (⟨⟨sb, some (n, true), q ++ List.replicate (n + extra - q.length) 0, q.length⟩, stream, out, none⟩ : Conn T).run c (ks.map .read) =
        ⟨⟨sb, none, [], 0⟩, [], out ++ [(m, n)], none⟩ := by
  induction ks with
  | nil => intro q stream _ h1 h2 _ h4; simp only [List.length_nil] at h4; omega
  | cons k ks ih =>
    intro q stream hk h1 h2 h3 h4
    have hk0 := hk k List.mem_cons_self
    rw [List.map_cons, run_cons]
    generalize hs : (⟨⟨sb, some (n, true), q ++ List.replicate (n + extra - q.length) 0, q.length⟩, stream, out, none⟩ : Conn T) = s
    have hw : s.reader.want = n + extra - q.length := by
      subst hs; simp only [Reader.want, List.length_append, List.length_replicate]; omega
    have hlen : (stream.take (min k s.reader.want)).length = min k stream.length := by
      rw [List.length_take, hw]; omega
    have hgot : s.step c (.read k) =
        { s with stream := stream.drop (min k s.reader.want) }.record (s.reader.got c (stream.take (min k s.reader.want))) := by
      have e : s.stream = stream := by subst hs; rfl
      have e' : s.err = none := by subst hs; rfl
      simp only [Conn.step, e', Option.isSome_none, Bool.false_eq_true, if_false, e]
      rw [if_neg (by rw [hw]; omega), if_neg (by rw [hlen]; omega)]
    rw [hgot]
    generalize hb : stream.take (min k s.reader.want) = bs at hlen ⊢
    have hrest : stream = bs ++ stream.drop (min k s.reader.want) := by rw [← hb, List.take_append_drop]
    generalize hr : stream.drop (min k s.reader.want) = rest at hrest ⊢
    have hlr : stream.length = bs.length + rest.length := by rw [hrest, List.length_append]
    subst hs
    unfold Reader.got
    simp only
    rw [overwrite_zeros q bs _ (by omega)]
    split
    · rename_i he
      have : rest = [] := List.length_eq_zero_iff.mp (by omega)
      subst this
      rw [List.append_nil] at hrest
      have e : n + extra - q.length - bs.length = extra := by omega
      rw [e, ← hrest, h3]
      simp only [Conn.record]
      exact idle_reads c sb _ ks
    · rename_i he
      have ht : Reader.top ⟨sb, some (n, true), (q ++ bs) ++ List.replicate (n + extra - q.length - bs.length) 0, q.length + bs.length⟩ =
          ⟨sb, some (n, true), (q ++ bs) ++ List.replicate (n + extra - (q ++ bs).length) 0, (q ++ bs).length⟩ := by
        have e : n + extra - q.length - bs.length = n + extra - (q ++ bs).length := by rw [List.length_append]; omega
        rw [e, List.length_append]
        simp only [Reader.top]
        rw [if_neg (by omega)]
      simp only [Conn.record]
      rw [ht]
      refine ih (q ++ bs) rest (fun x hx => hk x (List.mem_cons_of_mem _ hx)) (by rw [List.length_append]; omega)
        (by rw [List.length_append]; omega) (by rw [List.append_assoc q, ← hrest]; exact h3) ?_
      simp at h4; omega

theorem cancels (c : Codec T) (n : Nat) (z : Bool) (sb stream : List Byte) (out : List (T × Nat)) (j : Nat) : ∀ extra : Nat,
    (⟨⟨sb, some (n, z), List.replicate extra 0, 0⟩, stream, out, none⟩ : Conn T).run c (List.replicate j .cancel) =
      ⟨⟨sb, some (n, z), List.replicate (extra + n * j) 0, 0⟩, stream, out, none⟩ := by
  induction j with
  | zero => intro extra; rfl
  | succ j ih =>
    intro extra
    rw [List.replicate_succ, run_cons]
    have : (⟨⟨sb, some (n, z), List.replicate extra 0, 0⟩, stream, out, none⟩ : Conn T).step c .cancel =
        ⟨⟨sb, some (n, z), List.replicate (extra + n) 0, 0⟩, stream, out, none⟩ := by
      simp [Conn.step, Reader.top, List.replicate_append_replicate]
    rw [this, ih]
    have : extra + n + n * j = extra + n * (j + 1) := by rw [Nat.mul_succ]; omega
    rw [this]

theorem kept (c : Codec T) (hc : c.Lawful) (hz : c.IgnoresZeros) (ms : List T) (m : T) (hf : ∀ x ∈ ms ++ [m], Fits c true x)
    (hbig : 1000000 < (c.toVec m).length) (as : List Act) (hcalm : Calm c (Conn.new (frames c true (ms ++ [m]))) as)
    (hout : ((Conn.new (frames c true (ms ++ [m]))).run c as).out.length = ms.length)
    (hat : AtBody ((Conn.new (frames c true (ms ++ [m]))).run c as).reader) (j : Nat) (ks : List Nat) (hk : ∀ k ∈ ks, k ≠ 0)
    (hl : (body c true m).length ≤ ks.length) :
    let s := (Conn.new (frames c true (ms ++ [m]))).run c (as ++ List.replicate j .cancel ++ ks.map .read)
    s.err = none ∧ s.out = (ms ++ [m]).map fun x => (x, (body c true x).length) := by
  intro s
  obtain ⟨done, rest, p, h⟩ := good_run c hc true (ms ++ [m]) hf as _ [] _ [] (good_new c true _) hcalm
  have hs : s = (((Conn.new (frames c true (ms ++ [m]))).run c as).run c (List.replicate j .cancel)).run c (ks.map .read) := by
    show Conn.run c _ _ = _
    rw [run_append, run_append]
  generalize (Conn.new (frames c true (ms ++ [m]))).run c as = u at *
  have hdone : done.length = ms.length := by rw [← hout, h.out, List.length_map]
  obtain ⟨e1, e2⟩ := List.append_inj h.split.symm hdone
  subst e1 e2
  obtain ⟨ur, us, uo, ue⟩ := u
  have he := h.err; have ho := h.out; have hst := h.stream; have hr := h.reader
  simp only at he ho hst hr hat
  subst he ho
  generalize hp : p = p' at hr
  generalize hrr : ur = r' at hr
  cases hr with
  | header p sb hsb hp ht => subst hrr; exact absurd hat.1 (by simp)
  | body m' rest' q sb hr hsb hq =>
    cases hr
    subst hrr
    have hq0 : q = [] := List.length_eq_zero_iff.mp hat.2
    subst hq0
    have hfr : frames c true [m] = hdr c true m ++ body c true m := by
      rw [frames_cons]; simp [frames]
    rw [hp, List.append_nil, hfr] at hst
    have hst := List.append_cancel_left hst
    subst hst
    have hmb : messageBytes c true largeMessageSize m = (c.gzip (c.toVec m), true) := by
      simp [messageBytes, largeMessageSize, hbig]
    have hcomp : comp c true m = true := by rw [comp, hmb]
    have hbody : body c true m = c.gzip (c.toVec m) := by rw [body_eq, hmb]
    rw [hcomp] at hs
    have hs1 := cancels c (body c true m).length true sb (body c true m)
      (done.map fun x => (x, (body c true x).length)) j (body c true m).length
    have hs2 := kept_reads c m (body c true m).length ((body c true m).length * j) sb
      (done.map fun x => (x, (body c true x).length)) ks [] (body c true m) hk
      (body_ne c hc true m) (by simp) (by
        rw [List.nil_append, hbody]
        simp only [decodeBody, if_true]
        rw [hz]
        exact hc.json m) hl
    simp only [List.nil_append, List.length_nil, Nat.sub_zero] at hs hs2
    rw [hs1, hs2] at hs
    rw [hs]
    exact ⟨rfl, by simp⟩

/-- More was read than the message has. -/
def Past (n : Nat) (s : Conn T) : Prop := s.err = none → (∃ z, s.reader.msgSize = some (n, z)) ∧ n < s.reader.read

theorem past_got (c : Codec T) {n : Nat} {r : Reader} (z : Bool) (h1 : r.msgSize = some (n, z)) (h2 : n < r.read) (bs : List Byte) :
    (r.got c bs).2 = .more ∧ (∃ z, (r.got c bs).1.msgSize = some (n, z)) ∧ n < (r.got c bs).1.read := by
  unfold Reader.got
  simp only [h1]
  rw [if_neg (by omega)]
  refine ⟨rfl, ?_⟩
  simp only [Reader.top]
  rw [if_neg (by omega)]
  exact ⟨⟨z, rfl⟩, by simp only; omega⟩

theorem past_step (c : Codec T) {n : Nat} {s : Conn T} (h : Past n s) (a : Act) : Past n (s.step c a) ∧ (s.step c a).out = s.out := by
  cases he : s.err with
  | some e => cases a <;> simp [Conn.step, he] <;> exact h
  | none =>
    obtain ⟨⟨z, h1⟩, h2⟩ := h he
    have key : ∀ (s' : Conn T) bs, s'.out = s.out →
        Past n (s'.record (s.reader.got c bs)) ∧ (s'.record (s.reader.got c bs)).out = s.out := by
      intro s' bs ho
      obtain ⟨g1, g2, g3⟩ := past_got c z h1 h2 bs
      unfold Conn.record
      rw [g1]
      exact ⟨fun _ => ⟨g2, g3⟩, ho⟩
    cases a with
    | read k =>
      simp only [Conn.step, he, Option.isSome_none, Bool.false_eq_true, if_false]
      split
      · exact key s [] rfl
      · split
        · exact ⟨h, rfl⟩
        · exact key _ _ rfl
    | eof =>
      simp only [Conn.step, he, Option.isSome_none, Bool.false_or]
      split
      · exact ⟨h, rfl⟩
      · exact key s [] rfl
    | ioError =>
      simp only [Conn.step, he, Option.isSome_none, Bool.false_eq_true, if_false]
      exact ⟨fun e => (by simp at e), trivial⟩
    | expire =>
      simp only [Conn.step, he, Option.isSome_none, Bool.false_eq_true, if_false, h1]
      exact ⟨fun e => (by simp at e), trivial⟩
    | cancel =>
      simp only [Conn.step, he, Option.isSome_none, Bool.false_eq_true, if_false]
      refine ⟨fun _ => ?_, trivial⟩
      simp only [Reader.top, h1]
      rw [if_neg (by omega)]
      exact ⟨⟨z, h1⟩, h2⟩

theorem past_run (c : Codec T) {n : Nat} (as : List Act) : ∀ s : Conn T, Past n s → (s.run c as).out = s.out := by
  induction as with
  | nil => exact fun s _ => rfl
  | cons a as ih =>
    intro s h
    obtain ⟨h1, h2⟩ := past_step c h a
    exact (ih _ h1).trans h2

end Abq.Wire
