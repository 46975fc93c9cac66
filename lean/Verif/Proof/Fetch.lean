import Verif.Spec.Fetch
import Verif.Proof.Framing
/-! # Lemmas on fetching results -/

namespace Abq.Fetch
open Wire (Byte)

theorem splitLines_line (acc e rest : List Byte) (h : 10 ∉ e) :
    splitLines acc (e ++ 10 :: rest) = chomp (acc ++ e) :: splitLines [] rest := by
  induction e generalizing acc with
  | nil => simp [splitLines]
  | cons b e ih =>
    have hb : b ≠ 10 := fun hb => h (hb ▸ List.mem_cons_self)
    have he : 10 ∉ e := fun he => h (List.mem_cons_of_mem _ he)
    rw [List.cons_append]
    show (if b = 10 then _ else splitLines (acc ++ [b]) (e ++ 10 :: rest)) = _
    rw [if_neg hb, ih _ he, List.append_assoc, List.singleton_append]

theorem splitLines_part (acc e : List Byte) (h : 10 ∉ e) :
    splitLines acc e = if (acc ++ e).isEmpty then [] else [acc ++ e] := by
  induction e generalizing acc with
  | nil => simp [splitLines]
  | cons b e ih =>
    have hb : b ≠ 10 := fun hb => h (hb ▸ List.mem_cons_self)
    have he : 10 ∉ e := fun he => h (List.mem_cons_of_mem _ he)
    show (if b = 10 then _ else splitLines (acc ++ [b]) e) = _
    rw [if_neg hb, ih _ he, List.append_assoc, List.singleton_append]

theorem chomp_none (e : List Byte) (h : 13 ∉ e) : chomp e = e := by
  unfold chomp
  rw [if_neg]
  intro h'
  exact h (List.mem_of_getLast? h')

variable {L : Type} (c : Codec L)

theorem fileOf_cons (l : L) (ls : List L) : fileOf c (l :: ls) = c.encode l ++ 10 :: fileOf c ls := by
  simp [fileOf]

theorem splitLines_file (ls : List L) (hl : ∀ l ∈ ls, c.Lawful l) : splitLines [] (fileOf c ls) = ls.map c.encode := by
  induction ls with
  | nil => rfl
  | cons l ls ih =>
    have h := hl l List.mem_cons_self
    rw [fileOf_cons, splitLines_line _ _ _ h.oneLine.1, List.nil_append, chomp_none _ h.oneLine.2,
      ih fun l hm => hl l (List.mem_cons_of_mem _ hm)]
    rfl

theorem splitLines_prefix (ls : List L) (hl : ∀ l ∈ ls, c.Lawful l) (got : List Byte) (hp : got <+: fileOf c ls)
    (hj : (splitLines [] got).all c.isJson = true) :
    ∃ n, splitLines [] got = (ls.take n).map c.encode := by
  induction ls generalizing got with
  | nil =>
    have : got = [] := List.prefix_nil.1 hp
    subst this
    exact ⟨0, rfl⟩
  | cons l ls ih =>
    have h := hl l List.mem_cons_self
    rw [fileOf_cons] at hp
    have hcase : got <+: c.encode l ∨ ∃ got', got = c.encode l ++ 10 :: got' ∧ got' <+: fileOf c ls := by
      obtain ⟨t, ht⟩ := hp
      rcases List.append_eq_append_iff.1 ht with ⟨a, ha, _⟩ | ⟨a, ha, ha'⟩
      · exact .inl ⟨a, ha.symm⟩
      · cases a with
        | nil => exact .inl ⟨[], by rw [ha]; simp⟩
        | cons b a =>
          rw [List.cons_append] at ha'
          injection ha' with hb ha'
          exact .inr ⟨a, by rw [ha, hb], t, ha'.symm⟩
    rcases hcase with hq | ⟨got', rfl, hq⟩
    · obtain ⟨k, rfl⟩ : ∃ k, got = (c.encode l).take k := ⟨_, (List.prefix_iff_eq_take.1 hq)⟩
      have hn : 10 ∉ (c.encode l).take k := fun hm => h.oneLine.1 (List.mem_of_mem_take hm)
      rw [splitLines_part _ _ hn, List.nil_append] at hj ⊢
      by_cases he : ((c.encode l).take k).isEmpty = true
      · rw [if_pos he]; exact ⟨0, rfl⟩
      · rw [if_neg he] at hj ⊢
        by_cases hk : k < (c.encode l).length
        · rw [List.all_cons, h.nothingLess k hk] at hj
          simp at hj
        · refine ⟨1, ?_⟩
          rw [List.take_of_length_le (by omega)]
          rfl
    · rw [splitLines_line _ _ _ h.oneLine.1, List.nil_append, chomp_none _ h.oneLine.2] at hj ⊢
      rw [List.all_cons, Bool.and_eq_true] at hj
      obtain ⟨n, hn⟩ := ih (fun l hm => hl l (List.mem_cons_of_mem _ hm)) got' hq hj.2
      exact ⟨n + 1, by rw [hn]; rfl⟩

theorem decodeLines_encoded (ls : List L) (hl : ∀ l ∈ ls, c.Lawful l) : decodeLines c (ls.map c.encode) = some ls := by
  induction ls with
  | nil => rfl
  | cons l ls ih =>
    rw [List.map_cons, decodeLines, (hl l List.mem_cons_self).readBack]
    dsimp only
    rw [ih fun l hm => hl l (List.mem_cons_of_mem _ hm)]

theorem readResults_part (ls : List L) (hl : ∀ l ∈ ls, c.Lawful l) (bytes : List Byte) (broken : Bool)
    (hp : bytes <+: Wire.streamBytes (fileOf c ls).length (fileOf c ls)) (got : List L)
    (h : readResults c ⟨bytes, broken⟩ = .ok got) : got <+: ls := by
  unfold readResults at h
  dsimp only at h
  unfold Wire.readStream at h
  by_cases h4 : bytes.length < 4
  · rw [if_pos h4] at h; simp at h
  · rw [if_neg h4] at h
    dsimp only at h
    have hfile : bytes.drop 4 <+: fileOf c ls := by
      obtain ⟨t, ht⟩ := hp
      refine ⟨t, ?_⟩
      have := congrArg (List.drop 4) ht
      rw [List.drop_append_of_le_length (by omega)] at this
      rw [this]
      rfl
    have hpart : (bytes.drop 4).take (Wire.fromBeBytes (bytes.take 4)) <+: fileOf c ls :=
      (List.take_prefix _ _).trans hfile
    revert h hpart
    generalize (bytes.drop 4).take (Wire.fromBeBytes (bytes.take 4)) = stream
    intro h hpart
    split at h
    · simp at h
    · unfold readResultsLines at h
      by_cases hj : (splitLines [] stream).all c.isJson = true
      · rw [if_pos hj] at h
        dsimp only at h
        obtain ⟨n, hn⟩ := splitLines_prefix c ls hl stream hpart hj
        rw [hn, decodeLines_encoded c _ fun l hm => hl l (List.mem_of_mem_take hm)] at h
        injection h with h
        exact h ▸ List.take_prefix _ _
      · rw [if_neg hj] at h; simp at h

theorem readResults_whole (ls : List L) (hl : ∀ l ∈ ls, c.Lawful l) (hs : (fileOf c ls).length < 2 ^ 32) (broken : Bool) :
    readResults c ⟨Wire.streamBytes (fileOf c ls).length (fileOf c ls), broken⟩ = .ok ls := by
  have hlen : Wire.asI32 (fileOf c ls).length = (fileOf c ls).length := by unfold Wire.asI32; omega
  have ht : (Wire.streamBytes (fileOf c ls).length (fileOf c ls)).take 4 = Wire.toBeBytes (fileOf c ls).length := by
    unfold Wire.streamBytes
    rw [hlen]
    exact List.take_left' rfl
  have hd : (Wire.streamBytes (fileOf c ls).length (fileOf c ls)).drop 4 = fileOf c ls := by
    unfold Wire.streamBytes
    exact List.drop_left' rfl
  have hll : (Wire.streamBytes (fileOf c ls).length (fileOf c ls)).length = 4 + (fileOf c ls).length := by
    unfold Wire.streamBytes
    rw [List.length_append]
    rfl
  unfold readResults
  dsimp only
  unfold Wire.readStream
  rw [ht, hd, hll, Wire.fromBe_toBe _ hs, if_neg (by omega)]
  dsimp only
  rw [if_neg (by omega), List.take_length]
  unfold readResultsLines
  rw [splitLines_file c ls hl, if_pos]
  · dsimp only
    rw [decodeLines_encoded c ls hl]
  · rw [List.all_eq_true]
    intro t ht
    obtain ⟨l, hm, rfl⟩ := List.mem_map.1 ht
    exact (hl l hm).isJson

theorem splitLines_file_append (ls : List L) (hl : ∀ l ∈ ls, c.Lawful l) (e : List Byte) :
    splitLines [] (fileOf c ls ++ e) = ls.map c.encode ++ splitLines [] e := by
  induction ls with
  | nil => rfl
  | cons l ls ih =>
    have h := hl l List.mem_cons_self
    rw [fileOf_cons, List.append_assoc, List.cons_append, splitLines_line _ _ _ h.oneLine.1, List.nil_append,
      chomp_none _ h.oneLine.2, ih fun l hm => hl l (List.mem_cons_of_mem _ hm)]
    rfl

/-- A file cut anywhere: between two lines, or within a line. -/
theorem take_file (ls : List L) (m : Nat) (hm : m ≤ (fileOf c ls).length) :
    (∃ k, k ≤ ls.length ∧ m = (fileOf c (ls.take k)).length ∧ (fileOf c ls).take m = fileOf c (ls.take k)) ∨
    ∃ k l j, ls[k]? = some l ∧ 0 < j ∧ j ≤ (c.encode l).length ∧ m = (fileOf c (ls.take k)).length + j ∧
      (fileOf c ls).take m = fileOf c (ls.take k) ++ (c.encode l).take j := by
  induction ls generalizing m with
  | nil =>
    have : m = 0 := by simpa [fileOf] using hm
    subst this
    exact .inl ⟨0, Nat.le_refl _, rfl, rfl⟩
  | cons l ls ih =>
    by_cases h0 : m = 0
    · subst h0
      exact .inl ⟨0, Nat.zero_le _, rfl, rfl⟩
    · by_cases hle : m ≤ (c.encode l).length
      · refine .inr ⟨0, l, m, rfl, Nat.pos_of_ne_zero h0, hle, (Nat.zero_add _).symm, ?_⟩
        rw [fileOf_cons, List.take_append_of_le_length hle]
        rfl
      · obtain ⟨m', rfl⟩ : ∃ m', m = (c.encode l).length + 1 + m' := ⟨m - ((c.encode l).length + 1), by omega⟩
        have hcut : (fileOf c (l :: ls)).take ((c.encode l).length + 1 + m') = c.encode l ++ 10 :: (fileOf c ls).take m' := by
          rw [fileOf_cons, Nat.add_assoc, List.take_length_add_append, Nat.add_comm 1 m', List.take_succ_cons]
        have hlen : ∀ ls' : List L, (fileOf c (l :: ls')).length = (c.encode l).length + 1 + (fileOf c ls').length := by
          intro ls'
          rw [fileOf_cons, List.length_append, List.length_cons]
          omega
        rw [hlen] at hm
        rcases ih m' (by omega) with ⟨k, hk, hm', ht⟩ | ⟨k, l', j, hk, h1, h2, hm', ht⟩
        · refine .inl ⟨k + 1, Nat.succ_le_succ hk, ?_, ?_⟩
          · rw [List.take_succ_cons, hlen, hm']
          · rw [hcut, ht, List.take_succ_cons, fileOf_cons]
        · refine .inr ⟨k + 1, l', j, hk, h1, h2, ?_, ?_⟩
          · rw [List.take_succ_cons, hlen, hm']; omega
          · rw [hcut, ht, List.take_succ_cons, fileOf_cons, List.append_assoc, List.cons_append]

/-- What is read from a connection that ends after the size and this much of the file. -/
theorem readResults_cut (ls : List L) (hs : (fileOf c ls).length < 2 ^ 32) (m : Nat) (hm : m ≤ (fileOf c ls).length) :
    readResults c ⟨(Wire.streamBytes (fileOf c ls).length (fileOf c ls)).take (4 + m), false⟩ =
      if (splitLines [] ((fileOf c ls).take m)).all c.isJson then
        (match decodeLines c (splitLines [] ((fileOf c ls).take m)) with
        | none => .error .malformed
        | some ls => .ok ls)
      else .error .malformed := by
  have hlen : Wire.asI32 (fileOf c ls).length = (fileOf c ls).length := by unfold Wire.asI32; omega
  have hb : (Wire.streamBytes (fileOf c ls).length (fileOf c ls)).take (4 + m) =
      Wire.toBeBytes (fileOf c ls).length ++ (fileOf c ls).take m := by
    unfold Wire.streamBytes
    rw [hlen]
    exact List.take_length_add_append (l₁ := Wire.toBeBytes (fileOf c ls).length) m
  have ht : (Wire.toBeBytes (fileOf c ls).length ++ (fileOf c ls).take m).take 4 = Wire.toBeBytes (fileOf c ls).length :=
    List.take_left' rfl
  have hd : (Wire.toBeBytes (fileOf c ls).length ++ (fileOf c ls).take m).drop 4 = (fileOf c ls).take m :=
    List.drop_left' rfl
  have hll : 4 ≤ (Wire.toBeBytes (fileOf c ls).length ++ (fileOf c ls).take m).length := by
    rw [List.length_append]
    exact Nat.le_add_right 4 _
  unfold readResults
  dsimp only
  unfold Wire.readStream
  rw [hb, ht, hd, Wire.fromBe_toBe _ hs, if_neg (by omega)]
  dsimp only
  rw [if_neg (by simp), List.take_of_length_le (i := (fileOf c ls).length) (by rw [List.length_take]; omega)]
  unfold readResultsLines
  by_cases hj : (splitLines [] ((fileOf c ls).take m)).all c.isJson = true
  · rw [if_pos hj, if_pos hj]
    rfl
  · rw [if_neg hj, if_neg hj]

theorem all_isJson (ls : List L) (hl : ∀ l ∈ ls, c.Lawful l) : (ls.map c.encode).all c.isJson = true := by
  rw [List.all_eq_true]
  intro t ht
  obtain ⟨l, hm, rfl⟩ := List.mem_map.1 ht
  exact (hl l hm).isJson

end Abq.Fetch
