import Verif.Spec.ManifestView

namespace Abq

theorem swapAt_spec {T : Type} {l : List T} {e i : Nat} (hi : i < l.length) (he : e ≤ i) :
    ∃ l', swapAt l e i = some l' ∧ l'.length = l.length ∧
      l'.take (e + 1) = l.take e ++ [l[i]] ∧ l'.drop (i + 1) = l.drop (i + 1) := by
  have hel : e < l.length := by omega
  refine ⟨(l.set e l[i]).set i l[e], ?_, by simp, ?_, ?_⟩
  · simp [swapAt, List.getElem?_eq_getElem hi, List.getElem?_eq_getElem hel]
  · apply List.ext_getElem
    · simp; omega
    · intro k h1 h2
      simp only [List.length_take, List.length_set] at h1
      simp only [List.getElem_take, List.getElem_set, List.getElem_append, List.length_take]
      by_cases hk : k = e
      · subst hk
        by_cases hki : i = k
        · subst hki; simp
        · simp [hki]
          intro h; omega
      · have hki : ¬ i = k := by omega
        have hke : ¬ e = k := by omega
        have hkl : k < min e l.length := by omega
        simp [hki, hke, hkl]
  · apply List.ext_getElem
    · simp
    · intro k h1 h2
      simp only [List.getElem_drop, List.getElem_set]
      have h3 : ¬ i = i + 1 + k := by omega
      have h4 : ¬ e = i + 1 + k := by omega
      simp [h3, h4]

theorem ownedBy_cons {T : Type} (tag : Tag) (x : T) (xs : List T) (t : Tag) (ts : List Tag) :
    ownedBy tag (x :: xs) (t :: ts) =
      if t = tag then x :: ownedBy tag xs ts else ownedBy tag xs ts := by
  by_cases h : t = tag <;> simp [ownedBy, h]

theorem partLoop_spec {T : Type} (tag : Tag) (items : List T) (tags : List Tag) (i e : Nat)
    (he : e ≤ i) (hlen : items.length = i + tags.length) :
    ∃ items' e', partLoop tag items tags i e = some (items', e') ∧
      items'.take e' = items.take e ++ ownedBy tag (items.drop i) tags := by
  induction tags generalizing items i e with
  | nil => exact ⟨items, e, rfl, by simp [ownedBy]⟩
  | cons t tags ih =>
    simp only [List.length_cons] at hlen
    have hi : i < items.length := by omega
    have hd : items.drop i = items[i] :: items.drop (i + 1) := by
      rw [List.drop_eq_getElem_cons hi]
    simp only [partLoop]
    split
    · rename_i ht
      obtain ⟨l', h1, h2, h3, h4⟩ := swapAt_spec hi he
      rw [h1]
      obtain ⟨items', e', h5, h6⟩ := ih l' (i + 1) (e + 1) (by omega) (by omega)
      refine ⟨items', e', h5, ?_⟩
      rw [h6, h3, h4, hd, ownedBy_cons, if_pos ht, List.append_assoc]
      rfl
    · rename_i ht
      obtain ⟨items', e', h5, h6⟩ := ih items (i + 1) e (by omega) (by omega)
      refine ⟨items', e', h5, ?_⟩
      rw [h6, hd, ownedBy_cons, if_neg ht]

theorem getPartition_spec {T : Type} (v : ManifestView T) (tag : Tag)
    (h : v.items.length = v.assigned.length) :
    v.getPartitionForEntity tag = some (ownedBy tag v.items v.assigned) := by
  obtain ⟨items', e', h1, h2⟩ := partLoop_spec tag v.items v.assigned 0 0 (by omega) (by omega)
  unfold ManifestView.getPartitionForEntity
  rw [h1]
  simp only [List.take_zero, List.nil_append, List.drop_zero] at h2
  rw [← h2]

end Abq
