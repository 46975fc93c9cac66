import Verif.Spec.Login

namespace Abq.Login
open Abq.Spec.Login

theorem isSpace_iff (c : Char) : isSpace c = true ↔ Space c := by
  unfold isSpace Space
  simp only [Bool.or_eq_true, Bool.and_eq_true, decide_eq_true_eq, List.mem_cons, List.not_mem_nil, or_false]
  omega

theorem configPath_iff (e : Env) (p : String) : configPath e = some (some p) ↔ PlaceOf e p := by
  unfold configPath PlaceOf
  cases hc : e.configFile with
  | some q =>
    by_cases hq : q = ""
    · subst hq
      constructor
      · intro h; simp at h
      · rintro (⟨h, h'⟩ | ⟨h, -⟩)
        · exact absurd (Option.some.inj h).symm h'
        · cases h
    · have : q.isEmpty = false := by simpa using hq
      constructor
      · intro h
        simp [this] at h
        subst h; exact .inl ⟨rfl, hq⟩
      · rintro (⟨h, -⟩ | ⟨h, -⟩)
        · cases h; simp [this]
        · cases h
  | none =>
    cases hh : e.home with
    | none => simp
    | some h => simp [eq_comm]

theorem dropWhile_all {α : Type} (f : α → Bool) (l r : List α) (h : ∀ x ∈ l, f x = true) :
    (l ++ r).dropWhile f = r.dropWhile f := by
  induction l with
  | nil => rfl
  | cons a l ih =>
    simp only [List.cons_append, List.dropWhile_cons, h a (List.mem_cons_self ..), if_true]
    exact ih fun x hx => h x (List.mem_cons_of_mem _ hx)

theorem dropWhile_head {α : Type} (f : α → Bool) (l : List α) (h : ∀ x, l.head? = some x → f x = false) :
    l.dropWhile f = l := by
  cases l with
  | nil => rfl
  | cons a l => simp [h a rfl]

theorem trim_mid (l r : List Char) (t : String) (hl : ∀ x ∈ l, Space x) (hr : ∀ x ∈ r, Space x)
    (h1 : ∀ x, t.toList.head? = some x → ¬ Space x) (h2 : ∀ x, t.toList.getLast? = some x → ¬ Space x) :
    trim (String.ofList (l ++ t.toList ++ r)) = t := by
  have no : ∀ c, ¬ Space c → isSpace c = false := fun c h => by
    cases hs : isSpace c with
    | false => rfl
    | true => exact absurd ((isSpace_iff c).mp hs) h
  unfold trim
  rw [String.toList_ofList, List.append_assoc, dropWhile_all _ _ _ (fun x hx => (isSpace_iff x).mpr (hl x hx))]
  have e : String.ofList t.toList = t := String.ofList_toList
  cases ht : t.toList with
  | nil =>
    rw [List.nil_append, show r.dropWhile isSpace = [] from ?_]
    · rw [ht] at e; exact e
    · have := dropWhile_all isSpace r [] (fun x hx => (isSpace_iff x).mpr (hr x hx))
      simpa using this
  | cons a as =>
    rw [← ht]
    rw [dropWhile_head isSpace (t.toList ++ r)]
    · rw [List.reverse_append, dropWhile_all _ _ _ (fun x hx => (isSpace_iff x).mpr (hr x (List.mem_reverse.mp hx))),
        dropWhile_head, List.reverse_reverse, e]
      intro x hx
      rw [List.head?_reverse] at hx
      exact no x (h2 x hx)
    · intro x hx
      rw [ht] at hx
      exact no x (h1 x (by rw [ht]; exact hx))

theorem told (c : Call) (t : String) (h : Told c t) : c.token = some t := by
  unfold Call.token
  rcases h with h | ⟨h, l, r, ht, hl, hr, h1, h2⟩
  · rw [h]
  · rw [h, ht]
    exact congrArg some (trim_mid l r t hl hr h1 h2)

/-- What a login does to a file. -/
theorem login_at (toml : Toml) (files : Files) (c : Call) (p : String) :
    (login toml files c).1 p = files p ∨
    (PlaceOf c.env p ∧ ∃ t, c.token = some t ∧
      ((c.disk = .fine ∧ (login toml files c).1 p = some (toml.write t) ∧ (login toml files c).2 = .stored p) ∨
       ∃ n k, c.disk = .cut n k ∧ (login toml files c).1 p = some ((toml.write t).take n) ∧
          (login toml files c).2 = if k then .killed else .failed)) := by
  unfold login
  cases ht : c.token with
  | none => exact .inl rfl
  | some t =>
    cases hp : configPath c.env with
    | none => exact .inl rfl
    | some o =>
      cases o with
      | none => exact .inl rfl
      | some q =>
        by_cases hq : p = q
        · subst hq
          cases hd : c.disk with
          | noDir => exact .inl rfl
          | noFile => exact .inl rfl
          | fine =>
            exact .inr ⟨(configPath_iff _ _).mp hp, t, rfl, .inl ⟨rfl, by simp [store], rfl⟩⟩
          | cut n k =>
            exact .inr ⟨(configPath_iff _ _).mp hp, t, rfl, .inr ⟨n, k, rfl, by simp [store], rfl⟩⟩
        · left
          cases hd : c.disk <;> simp [store, hq]

theorem login_stored (toml : Toml) (files : Files) (c : Call) (p : String) (h : (login toml files c).2 = .stored p) :
    PlaceOf c.env p ∧ c.disk = .fine := by
  unfold login at h
  cases ht : c.token with
  | none => rw [ht] at h; cases h
  | some t =>
    rw [ht] at h
    cases hp : configPath c.env with
    | none => rw [hp] at h; cases h
    | some o =>
      rw [hp] at h
      cases o with
      | none => cases h
      | some q =>
        cases hd : c.disk with
        | noDir => simp [store, hd] at h
        | noFile => simp [store, hd] at h
        | fine =>
          simp [store, hd] at h
          subst h
          exact ⟨(configPath_iff _ _).mp hp, rfl⟩
        | cut n k => cases k <;> simp [store, hd] at h

theorem kept_of (toml : Toml) (files : Files) (p : String) (b : List Nat) (h : files p = some b) :
    Kept toml files p (toml.read b) := by
  intro e he
  unfold uses
  rw [(configPath_iff e p).mpr he]
  simp only [readConfig, h]

theorem kept_iff (toml : Toml) (files files' : Files) (p : String) (t : Option String) (h : files p = files' p) :
    Kept toml files p t ↔ Kept toml files' p t := by
  have : ∀ e, PlaceOf e p → uses toml e files none = uses toml e files' none := by
    intro e he
    unfold uses
    rw [(configPath_iff e p).mpr he]
    simp only [readConfig, h]
  exact ⟨fun hk e he => (this e he) ▸ hk e he, fun hk e he => (this e he).symm ▸ hk e he⟩

theorem strip_take (h x : List Nat) (n : Nat) :
    strip h ((h ++ x).take n) = if n < h.length then none else some (x.take (n - h.length)) := by
  induction h generalizing n with
  | nil => simp [strip]
  | cons a h ih =>
    cases n with
    | zero => simp [strip]
    | succ n => simp [strip, ih]

theorem unquote_take (t acc : List Nat) (n : Nat) :
    unquote acc ((escape t ++ [34, 10]).take n) = if n < (escape t).length + 1 then none else some (acc ++ t) := by
  induction t generalizing acc n with
  | nil =>
    match n with
    | 0 => simp [escape, unquote]
    | 1 => simp [escape, unquote]
    | n + 2 => simp [escape, unquote]
  | cons c t ih =>
    by_cases hc : c = 34 ∨ c = 92
    · match n with
      | 0 => simp [unquote]
      | 1 => simp [escape, hc, unquote]
      | n + 2 =>
        simp only [escape, if_pos hc, List.cons_append, List.take_succ_cons, unquote]
        rw [if_neg (by decide), if_pos trivial, ih]
        simp only [List.length_cons, List.append_assoc, List.singleton_append]
        by_cases hn : n < (escape t).length + 1
        · rw [if_pos hn, if_pos (by omega)]
        · rw [if_neg hn, if_neg (by omega)]
    · obtain ⟨h1, h2⟩ := not_or.mp hc
      match n with
      | 0 => simp [unquote]
      | n + 1 =>
        have ih' := ih (acc ++ [c]) n
        simp only [escape, if_neg hc, List.cons_append, List.take_succ_cons, List.length_cons]
        cases hx : (escape t ++ [34, 10]).take n with
        | nil =>
          rw [hx] at ih'
          simp only [unquote, if_neg h1] at ih' ⊢
          by_cases hn : n < (escape t).length + 1
          · rw [if_pos (by omega)]
          · rw [if_neg hn] at ih'; cases ih'
        | cons d ds =>
          rw [hx] at ih'
          simp only [unquote, if_neg h1, if_neg h2]
          rw [ih']
          simp only [List.append_assoc, List.singleton_append]
          by_cases hn : n < (escape t).length + 1
          · rw [if_pos hn, if_pos (by omega)]
          · rw [if_neg hn, if_neg (by omega)]

theorem back (t : String) : String.ofList ((t.toList.map Char.toNat).map Char.ofNat) = t := by
  rw [List.map_map, show Char.ofNat ∘ Char.toNat = id from funext fun c => Char.ofNat_toNat c, List.map_id]
  exact String.ofList_toList

theorem quoted_take (t : String) (n : Nat) :
    quoted.read ((quoted.write t).take n) = none ∨ quoted.read ((quoted.write t).take n) = some t := by
  simp only [quoted, strip_take]
  by_cases h : n < header.length
  · rw [if_pos h]; exact .inl rfl
  · rw [if_neg h]
    simp only [unquote_take]
    by_cases h' : n - header.length < (escape (t.toList.map Char.toNat)).length + 1
    · rw [if_pos h']; exact .inl rfl
    · rw [if_neg h', List.nil_append]; exact .inr (congrArg some (back t))

theorem quoted_cautious : Cautious quoted := quoted_take

theorem quoted_faithful : Faithful quoted := by
  intro t
  have h : quoted.write t = (quoted.write t).take (quoted.write t).length := by rw [List.take_length]
  rw [h]
  simp only [quoted, strip_take]
  rw [if_neg (by simp only [List.length_append]; omega)]
  simp only [unquote_take]
  rw [if_neg (by simp only [List.length_append, List.length_cons, List.length_nil]; omega), List.nil_append]
  exact congrArg some (back t)

end Abq.Login
