import Verif.Spec.Terminal
/-! # Lemmas on the terminal reporters -/

namespace Abq.Terminal
open Summary (Status)

theorem isFailLike_iff (s : Status) : s.isFailLike = true ↔ Failing s := by
  cases s <;> simp [Status.isFailLike, Failing]

theorem given_append (a b : List Call) : given (a ++ b) = given a ++ given b := by
  induction a with
  | nil => rfl
  | cons c a ih => cases c <;> simp [given, ih]

theorem ticksIn_append (a b : List Call) : ticksIn (a ++ b) = ticksIn a + ticksIn b := by
  induction a with
  | nil => simp [ticksIn]
  | cons c a ih => cases c <;> simp [ticksIn, ih]; omega

theorem shown_append (e a b : List Call) : shown e (a ++ b) = shown e a ++ shown (e ++ a) b := by
  induction a generalizing e with
  | nil => simp [shown]
  | cons c a ih => simp [shown, ih, List.append_assoc]

theorem letter_dot (s : Status) : Letter s (dot s) := by cases s <;> constructor

theorem letter_unique {s : Status} {c : Char} (h : Letter s c) : c = dot s := by cases h <;> rfl

/-! ## Dots -/

theorem keep_out (d : Dots) (r : Result) (o : Option Text) :
    (d.keep r o).out = d.out ∧ (d.keep r o).numResults = d.numResults := by
  cases o <;> exact ⟨rfl, rfl⟩

theorem Dots.push_num (d : Dots) (n : Nat) (r : Result) : (d.push n r).numResults = d.numResults + 1 := by
  unfold Dots.push
  dsimp only
  rw [(keep_out _ _ _).2]
  split
  · dsimp only; rw [(keep_out _ _ _).2]; split <;> rfl
  · split
    · dsimp only; rw [(keep_out _ _ _).2]; split <;> rfl
    · rw [(keep_out _ _ _).2]; split <;> rfl

/-- The text a crash adds after its letter. -/
def crashText (r : Result) : Text :=
  if r.status = .nativeRunnerError then r.output.getD "<no output>".toList ++ ['\n'] else []

def nl (n : Nat) : Text := if n % 80 = 0 then ['\n'] else []

theorem Dots.push_out (d : Dots) (n : Nat) (r : Result) :
    (d.push n r).out = d.out ++ [dot r.status] ++ nl (d.numResults + 1) ++ crashText r := by
  unfold Dots.push crashText nl
  dsimp only
  rw [(keep_out _ _ _).1]
  by_cases h : r.status = .nativeRunnerError
  · rw [if_pos h, if_pos h]
    dsimp only
    rw [(keep_out _ _ _).1]
    unfold lineLimit
    split <;> simp
  · rw [if_neg h, if_neg h]
    by_cases h' : r.status.isFailLike = true
    · rw [if_pos h']
      dsimp only
      rw [(keep_out _ _ _).1]
      unfold lineLimit
      split <;> simp
    · rw [if_neg h']
      rw [(keep_out _ _ _).1]
      unfold lineLimit
      split <;> simp

/-- What is written for results when `n` came before. -/
def dotText (n : Nat) : List Result → Text
  | [] => []
  | r :: rest => [dot r.status] ++ nl (n + 1) ++ crashText r ++ dotText (n + 1) rest

theorem dotText_append (n : Nat) (a b : List Result) :
    dotText n (a ++ b) = dotText n a ++ dotText (n + a.length) b := by
  induction a generalizing n with
  | nil => simp [dotText]
  | cons r a ih =>
    have : n + 1 + a.length = n + (a.length + 1) := by omega
    simp [dotText, ih, this]

theorem foldl_dots (calls : List Call) (d : Dots) :
    (calls.foldl Dots.call d).out = d.out ++ dotText d.numResults (given calls) ∧
    (calls.foldl Dots.call d).numResults = d.numResults + (given calls).length := by
  induction calls generalizing d with
  | nil => simp [given, dotText]
  | cons c calls ih =>
    cases c with
    | push n r =>
      have := ih (d.push n r)
      rw [Dots.push_num, Dots.push_out] at this
      refine ⟨?_, ?_⟩
      · show (calls.foldl Dots.call (d.push n r)).out = _
        rw [this.1]; simp [given, dotText]
      · show (calls.foldl Dots.call (d.push n r)).numResults = _
        rw [this.2]; simp [given]; omega
    | tick e => exact ih d

theorem dots_eq (calls : List Call) :
    dots calls = dotText 0 (given calls) ++ if (given calls).length % 80 = 0 then [] else ['\n'] := by
  have h := foldl_dots calls .new
  unfold dots Dots.afterAll
  have h2 : (calls.foldl Dots.call .new).numResults = (given calls).length := by rw [h.2]; simp [Dots.new]
  have h1 : (calls.foldl Dots.call .new).out = dotText 0 (given calls) := by rw [h.1]; simp [Dots.new]
  rw [h2]
  unfold lineLimit
  split
  · rename_i hn
    show (calls.foldl Dots.call .new).out ++ _ = _
    rw [h1]
  · rename_i hn
    have hn := Decidable.not_not.mp hn
    rw [if_pos hn, h1, List.append_nil]

theorem dotText_short (rs : List Result) (hc : ∀ r ∈ rs, r.status ≠ .nativeRunnerError) (n : Nat)
    (hn : n % 80 + rs.length < 80) : dotText n rs = rs.map (fun r => dot r.status) := by
  induction rs generalizing n with
  | nil => rfl
  | cons r rs ih =>
    have hl : (r :: rs).length = rs.length + 1 := rfl
    have h1 : (n + 1) % 80 ≠ 0 := by omega
    have h2 : (n + 1) % 80 = n % 80 + 1 := by omega
    unfold dotText
    rw [ih (fun r' h => hc r' (List.mem_cons_of_mem _ h)) (n + 1) (by omega)]
    simp [nl, h1, crashText, hc r (List.mem_cons_self ..)]

theorem dotText_row (rs : List Result) (hc : ∀ r ∈ rs, r.status ≠ .nativeRunnerError) (n : Nat) (hl : rs ≠ [])
    (hn : n % 80 + rs.length = 80) : dotText n rs = rs.map (fun r => dot r.status) ++ ['\n'] := by
  induction rs generalizing n with
  | nil => simp at hl
  | cons r rs ih =>
    have hl : (r :: rs).length = rs.length + 1 := rfl
    have hc' : ∀ r ∈ rs, r.status ≠ .nativeRunnerError := fun r' h => hc r' (List.mem_cons_of_mem _ h)
    have hr := hc r (List.mem_cons_self ..)
    unfold dotText
    by_cases he : rs = []
    · subst he
      have h1 : (n + 1) % 80 = 0 := by simp at hn; omega
      simp [nl, h1, crashText, hr, dotText]
    · have hp : 0 < rs.length := List.length_pos_iff.2 he
      have h1 : (n + 1) % 80 ≠ 0 := by omega
      rw [ih hc' (n + 1) he (by omega)]
      simp [nl, h1, crashText, hr]

theorem rows_dots (k : Nat) : ∀ (rs : List Result), rs.length ≤ k → (∀ r ∈ rs, r.status ≠ .nativeRunnerError) →
    ∀ n, n % 80 = 0 → ∃ rows, Rows rows ∧ rows.flatten = rs.map (fun r => dot r.status) ∧
      dotText n rs ++ (if rs.length % 80 = 0 then [] else ['\n']) = rows.flatMap (· ++ ['\n']) := by
  induction k with
  | zero =>
    intro rs hl hc n hn
    have : rs = [] := List.length_eq_zero_iff.1 (by omega)
    subst this
    exact ⟨[], .none, rfl, rfl⟩
  | succ k ih =>
    intro rs hl hc n hn
    by_cases he : rs = []
    · subst he; exact ⟨[], .none, rfl, rfl⟩
    have hp : 0 < rs.length := List.length_pos_iff.2 he
    by_cases h : rs.length < 80
    · refine ⟨[rs.map (fun r => dot r.status)], .last _ (by simpa using he) (by simp; omega), by simp, ?_⟩
      have : rs.length % 80 ≠ 0 := by omega
      rw [dotText_short rs hc n (by omega), if_neg this]
      simp
    · have ht : (rs.take 80).length = 80 := by rw [List.length_take]; omega
      have hd : (rs.drop 80).length = rs.length - 80 := List.length_drop
      obtain ⟨rows, hr, hf, hx⟩ := ih (rs.drop 80) (by omega)
        (fun r h => hc r (List.mem_of_mem_drop h)) (n + 80) (by omega)
      refine ⟨(rs.take 80).map (fun r => dot r.status) :: rows, .full _ _ (by simp; omega) hr, ?_, ?_⟩
      · rw [List.flatten_cons, hf, ← List.map_append, List.take_append_drop]
      · have hm : (rs.drop 80).length % 80 = rs.length % 80 := by omega
        rw [hm] at hx
        have hne : rs.take 80 ≠ [] := by
          intro h; rw [h] at ht; simp at ht
        have := dotText_append n (rs.take 80) (rs.drop 80)
        rw [List.take_append_drop, ht] at this
        rw [this, dotText_row _ (fun r h => hc r (List.mem_of_mem_take h)) n hne (by omega), List.append_assoc, hx,
          List.flatMap_cons]

/-! ## Lines -/

def lineText (r : Result) : Text := resultLine r ++ crashText r

theorem foldl_lines (calls : List Call) (l : Lines) :
    (calls.foldl Lines.call l).out = l.out ++ (given calls).flatMap lineText := by
  induction calls generalizing l with
  | nil => simp [given]
  | cons c calls ih =>
    cases c with
    | push n r =>
      have hp : (l.push n r).out = l.out ++ lineText r := by
        unfold Lines.push lineText crashText
        dsimp only
        split
        · simp
        · split <;> simp
      show (calls.foldl Lines.call (l.push n r)).out = _
      rw [ih, hp]; simp [given]
    | tick e => exact ih l

theorem statusText_word (s : Status) : statusText s = (word s).toList := by cases s <;> rfl

/-! ## Progress -/

theorem intersperse_snoc {α : Type} (a x : α) (l : List α) :
    (l ++ [x]).intersperse a = if l = [] then [x] else l.intersperse a ++ [a, x] := by
  induction l with
  | nil => rfl
  | cons y l ih =>
    cases l with
    | nil => rfl
    | cons z l =>
      have : (z :: l ++ [x]).intersperse a = (z :: l).intersperse a ++ [a, x] := by rw [ih]; simp
      simp only [reduceCtorEq, if_false]
      show y :: a :: (z :: l ++ [x]).intersperse a = _
      rw [this]; rfl

/-- The piece of an item. -/
def Item.piece : Item → Piece
  | .failed r => .result r
  | .state e n p f => .progress e n p f

theorem piece_text (x : Item) : x.piece.text = x.text := by
  cases x with
  | failed r =>
    show resultLine r = _
    unfold resultLine Item.text
    dsimp only
    rw [statusText_word, String.toList_append, String.toList_append, List.append_assoc, List.append_assoc]
    congr 1
  | state e n p f =>
    unfold Item.piece Piece.text Item.text
    dsimp only
    simp only [String.toList_append, List.append_assoc]

theorem text_intersperse (l : List Item) :
    ((l.map Item.piece).intersperse .blank).flatMap Piece.text = paragraphs l := by
  unfold paragraphs
  induction l with
  | nil => rfl
  | cons x l ih =>
    cases l with
    | nil => simp [piece_text]
    | cons y l =>
      simp only [List.map_cons, List.intersperse_cons₂, List.flatMap_cons, List.flatten_cons] at ih ⊢
      rw [ih, piece_text]; rfl

/-- The reporter agrees with the history. -/
structure PInv (interactive : Bool) (h : List Call) (p : Progress) : Prop where
  mode : p.interactive = interactive
  ticks : p.ticks = ticksIn h
  results : p.numResults = (given h).length
  failing : p.numFailing = (given h).countP (fun r => Failing r.status)
  fine : p.panicked = false

theorem passed_eq (h : List Call) :
    (given h).length - (given h).countP (fun r => Failing r.status) = (given h).countP (fun r => ¬ Failing r.status) := by
  have := List.length_eq_countP_add_countP (fun r : Result => decide (Failing r.status)) (l := given h)
  simp only [decide_not, decide_eq_true_eq] at *
  have e : (given h).countP (fun a => !decide (Failing a.status)) = (given h).countP (fun a => decide ¬ Failing a.status) := by
    congr 1; funext a; simp
  omega

/-- The items in the buffer. -/
def itemsOf (interactive : Bool) (h : List Call) : List Item :=
  if interactive then ((given h).filter (fun r => Failing r.status)).map .failed else shown [] h

structure OInv (interactive : Bool) (h : List Call) (p : Progress) : Prop extends PInv interactive h p where
  out : p.out = ((itemsOf interactive h).map Item.piece).intersperse .blank
  wrote : p.wroteFirst = true ↔ itemsOf interactive h ≠ []
  bar : p.bar = if interactive ∧ h ≠ [] then
    some ((given h).length, (given h).countP (fun r => ¬ Failing r.status), (given h).countP (fun r => Failing r.status))
    else none

theorem itemsOf_push (i : Bool) (h : List Call) (n : Nat) (r : Result) :
    itemsOf i (h ++ [.push n r]) = itemsOf i h ++ if Failing r.status then [.failed r] else [] := by
  unfold itemsOf
  cases i with
  | true =>
    simp only [if_true, given_append, given]
    by_cases hf : Failing r.status <;> simp [hf]
  | false =>
    simp [shown_append, shown, shownAt]

theorem itemsOf_tick (i : Bool) (h : List Call) (e : Text) :
    itemsOf i (h ++ [.tick e]) = itemsOf i h ++
      if i = false ∧ ticksIn h % 10 = 0 then
        [.state e (given h).length ((given h).countP (fun r => ¬ Failing r.status))
          ((given h).countP (fun r => Failing r.status))]
      else [] := by
  unfold itemsOf
  cases i with
  | true => simp [given_append, given]
  | false => simp [shown_append, shown, shownAt]

theorem le_given (h : List Call) : (given h).countP (fun r => Failing r.status) ≤ (given h).length := List.countP_le_length

/-- `wrote` and the buffer after one more item. -/
theorem out_snoc (l : List Item) (x : Item) :
    ((l ++ [x]).map Item.piece).intersperse Piece.blank
      = (l.map Item.piece).intersperse .blank ++ (if l ≠ [] then [.blank] else []) ++ [x.piece] := by
  rw [List.map_append, List.map_singleton, intersperse_snoc]
  by_cases h : l = []
  · subst h; simp
  · have : l.map Item.piece ≠ [] := by simpa using h
    rw [if_neg this, if_pos h]; simp

/-- The part of `push` before the tick. -/
def Progress.count (p : Progress) (r : Result) : Progress :=
  let p := { p with numResults := p.numResults + 1 }
  let p := { p with numFailing := p.numFailing + if r.status.isFailLike then 1 else 0 }
  if r.status.isFailLike then
    let p := if p.wroteFirst then { p with out := p.out ++ [.blank] } else p
    { p with out := p.out ++ [.result r], wroteFirst := true }
  else p

theorem push_eq (p : Progress) (r : Result) : p.push r = (p.count r).tick none := rfl

theorem oinv_step (i : Bool) (h : List Call) (p : Progress) (inv : OInv i h p) (c : Call) :
    OInv i (h ++ [c]) (p.call c) := by
  have hg := le_given h
  cases c with
  | push n r =>
    show OInv i _ ((p.count r).tick none)
    have hg' : given (h ++ [Call.push n r]) = given h ++ [r] := by simp [given_append, given]
    have ht' : ticksIn (h ++ [Call.push n r]) = ticksIn h := by simp [ticksIn_append, ticksIn]
    have hc : (p.count r).interactive = i ∧ (p.count r).ticks = ticksIn h ∧
        (p.count r).numResults = (given h ++ [r]).length ∧
        (p.count r).numFailing = (given h ++ [r]).countP (fun r => Failing r.status) ∧ (p.count r).panicked = false ∧
        (p.count r).out = ((itemsOf i (h ++ [.push n r])).map Item.piece).intersperse .blank ∧
        ((p.count r).wroteFirst = true ↔ itemsOf i (h ++ [.push n r]) ≠ []) ∧ (p.count r).bar = p.bar := by
      rw [itemsOf_push]
      unfold Progress.count
      by_cases hf : Failing r.status
      · have hb := (isFailLike_iff r.status).2 hf
        simp only [hb, hf, if_true, out_snoc]
        by_cases hw : itemsOf i h = []
        · have hw' : p.wroteFirst = false := by
            cases hp : p.wroteFirst
            · rfl
            · exact absurd hw (inv.wrote.1 hp)
          simp [hw, hw', inv.mode, inv.ticks, inv.results, inv.failing, inv.fine, inv.out, hf, List.countP_append]
          rfl
        · have hw' := inv.wrote.2 hw
          simp [hw, hw', inv.mode, inv.ticks, inv.results, inv.failing, inv.fine, inv.out, hf, List.countP_append]
          rfl
      · have hb : r.status.isFailLike = false := by
          cases hx : r.status.isFailLike
          · rfl
          · exact absurd ((isFailLike_iff _).1 hx) hf
        simp only [hb, hf, if_false, Bool.false_eq_true, List.append_nil]
        simp [inv.mode, inv.ticks, inv.results, inv.failing, inv.fine, inv.out, hf, inv.wrote]
    obtain ⟨c1, c2, c3, c4, c5, c6, c7, c8⟩ := hc
    generalize p.count r = q at *
    have hle : ¬ q.numResults < q.numFailing := by
      rw [c3, c4]
      exact Nat.not_lt.2 List.countP_le_length
    have hpass := passed_eq (h ++ [Call.push n r])
    rw [hg'] at hpass
    unfold Progress.tick
    dsimp only [Option.isSome]
    rw [c1]
    cases i with
    | true =>
      simp only [if_true, Progress.tickInteractive, Bool.false_eq_true, if_false, Nat.add_zero, if_neg hle]
      refine { mode := rfl, ticks := ?_, results := ?_, failing := ?_, fine := c5, out := c6, wrote := c7, bar := ?_ }
      · rw [ht']; exact c2
      · rw [hg']; exact c3
      · rw [hg']; exact c4
      · rw [hg', ← hpass, if_pos ⟨rfl, by simp⟩, ← c3, ← c4]
    | false =>
      simp only [Bool.false_eq_true, if_false, Nat.add_zero]
      refine { mode := rfl, ticks := ?_, results := ?_, failing := ?_, fine := c5, out := c6, wrote := c7, bar := ?_ }
      · rw [ht']; exact c2
      · rw [hg']; exact c3
      · rw [hg']; exact c4
      · show q.bar = _
        rw [c8, inv.bar]; simp
  | tick e =>
    show OInv i _ (p.tick (some e))
    have hg' : given (h ++ [Call.tick e]) = given h := by simp [given_append, given]
    have ht' : ticksIn (h ++ [Call.tick e]) = ticksIn h + 1 := by simp [ticksIn_append, ticksIn]
    have hle : ¬ p.numResults < p.numFailing := by
      rw [inv.results, inv.failing]; omega
    have hpass := passed_eq h
    unfold Progress.tick
    dsimp only [Option.isSome]
    rw [inv.mode]
    cases i with
    | true =>
      simp only [if_true, Progress.tickInteractive, if_neg hle]
      refine { mode := rfl, ticks := ?_, results := ?_, failing := ?_, fine := inv.fine, out := ?_, wrote := ?_,
               bar := ?_ }
      · rw [ht', ← inv.ticks]
      · rw [hg']; exact inv.results
      · rw [hg']; exact inv.failing
      · rw [itemsOf_tick]; simpa using inv.out
      · rw [itemsOf_tick]; simpa using inv.wrote
      · rw [hg', ← hpass, if_pos ⟨rfl, by simp⟩, ← inv.results, ← inv.failing]
    | false =>
      simp only [Bool.false_eq_true, if_false, if_true]
      unfold Progress.tickNonInteractive
      rw [if_neg (by simp)]
      have hm : (p.ticks + 1 - 1) % 10 = ticksIn h % 10 := by rw [inv.ticks]; omega
      have hbar : p.bar = none := by rw [inv.bar]; simp
      by_cases h10 : ticksIn h % 10 = 0
      · rw [if_neg (by dsimp only; rw [hm]; exact fun x => x h10)]
        have hout := out_snoc (itemsOf false h) (.state e (given h).length
          ((given h).countP (fun r => ¬ Failing r.status)) ((given h).countP (fun r => Failing r.status)))
        by_cases hw : itemsOf false h = []
        · have hw' : p.wroteFirst = false := by
            cases hp : p.wroteFirst
            · rfl
            · exact absurd hw (inv.wrote.1 hp)
          simp only [hw', Bool.false_eq_true, if_false, if_neg hle]
          refine { mode := rfl, ticks := ?_, results := ?_, failing := ?_, fine := inv.fine, out := ?_, wrote := ?_,
                   bar := ?_ }
          · rw [ht', ← inv.ticks]
          · rw [hg']; exact inv.results
          · rw [hg']; exact inv.failing
          · rw [itemsOf_tick, if_pos ⟨rfl, h10⟩, hout]
            dsimp only
            rw [inv.out, if_neg (fun x => x hw), inv.results, inv.failing, hpass]
            simp [Item.piece]
          · rw [itemsOf_tick, if_pos ⟨rfl, h10⟩]; simp
          · rw [hg']; simp [hbar]
        · have hw' := inv.wrote.2 hw
          simp only [hw', if_true, if_neg hle]
          refine { mode := rfl, ticks := ?_, results := ?_, failing := ?_, fine := inv.fine, out := ?_, wrote := ?_,
                   bar := ?_ }
          · rw [ht', ← inv.ticks]
          · rw [hg']; exact inv.results
          · rw [hg']; exact inv.failing
          · rw [itemsOf_tick, if_pos ⟨rfl, h10⟩, hout]
            dsimp only
            rw [inv.out, if_pos hw, inv.results, inv.failing, hpass]
            simp [Item.piece]
          · rw [itemsOf_tick, if_pos ⟨rfl, h10⟩]; simp
          · rw [hg']; simp [hbar]
      · rw [if_pos (by dsimp only; rw [hm]; exact h10)]
        refine { mode := rfl, ticks := ?_, results := ?_, failing := ?_, fine := inv.fine, out := ?_, wrote := ?_,
                 bar := ?_ }
        · rw [ht', ← inv.ticks]
        · rw [hg']; exact inv.results
        · rw [hg']; exact inv.failing
        · rw [itemsOf_tick, if_neg (fun x => h10 x.2), List.append_nil]; exact inv.out
        · rw [itemsOf_tick, if_neg (fun x => h10 x.2), List.append_nil]; exact inv.wrote
        · rw [hg']; simp [hbar]

theorem oinv_foldl (i : Bool) (calls h : List Call) (p : Progress) (inv : OInv i h p) :
    OInv i (h ++ calls) (calls.foldl Progress.call p) := by
  induction calls generalizing h p with
  | nil => simpa using inv
  | cons c calls ih =>
    have := ih (h ++ [c]) (p.call c) (oinv_step i h p inv c)
    rwa [List.append_assoc] at this

theorem oinv (i : Bool) (calls : List Call) : OInv i calls (progress i calls) := by
  refine oinv_foldl i calls [] _ ?_
  refine { mode := rfl, ticks := rfl, results := rfl, failing := rfl, fine := rfl, out := ?_, wrote := ?_, bar := ?_ }
  · cases i <;> rfl
  · cases i <;> simp [itemsOf, given, shown, Progress.new]
  · simp [Progress.new]

end Abq.Terminal
