import Verif.Model.Attrs
namespace HS

section
variable {α : Type}

theorem aget_append (l r : List (Str × α)) (k : Str) : aget (l ++ r) k = (aget l k).or (aget r k) := by
  induction l with
  | nil => simp [aget]
  | cons p l ih =>
    obtain ⟨k', v⟩ := p
    simp only [List.cons_append, aget]
    split <;> simp_all

theorem aget_filter (l : List (Str × α)) (q : Str → Bool) (k : Str) :
    aget (l.filter fun p => q p.1) k = if q k then aget l k else none := by
  induction l with
  | nil => simp [aget]
  | cons p l ih =>
    obtain ⟨k', v⟩ := p
    by_cases hk : k' = k
    · subst hk
      by_cases hq : q k' <;> simp_all [aget]
    · by_cases hq : q k' <;> simp_all [aget, List.filter_cons]

theorem aget_adel (l : List (Str × α)) (k k' : Str) : aget (adel l k) k' = if k' = k then none else aget l k' := by
  have h := aget_filter l (fun x => !(x == k)) k'
  simp only [adel]
  rw [h]
  by_cases hk : k' = k <;> simp [hk]

theorem aget_aput (l : List (Str × α)) (k : Str) (v : α) (k' : Str) :
    aget (aput l k v) k' = if k' = k then some v else aget l k' := by
  rw [aput, aget_append, aget_adel]
  by_cases hk : k' = k
  · subst hk; simp [aget]
  · have : ¬ k = k' := fun h => hk h.symm
    simp [aget, hk, this]

theorem aget_isSome_iff (l : List (Str × α)) (k : Str) : (aget l k).isSome ↔ k ∈ akeys l := by
  induction l with
  | nil => simp [aget, akeys]
  | cons p l ih =>
    obtain ⟨k', v⟩ := p
    simp only [aget, akeys, List.map_cons, List.mem_cons]
    by_cases h : k' = k
    · simp [h]
    · rw [if_neg h, ih]
      have : ¬ k = k' := fun h' => h h'.symm
      simp [akeys, this]

theorem aget_none_iff (l : List (Str × α)) (k : Str) : aget l k = none ↔ k ∉ akeys l := by
  have := aget_isSome_iff l k
  cases h : aget l k with
  | none => rw [h] at this; simpa using this
  | some v => rw [h] at this; simp at this; simpa using this

theorem aget_mem (l : List (Str × α)) (k : Str) (v : α) (h : aget l k = some v) : (k, v) ∈ l := by
  induction l with
  | nil => cases h
  | cons p l ih =>
    obtain ⟨k', v'⟩ := p
    simp only [aget] at h
    split at h
    · cases h; rename_i hk; subst hk; simp
    · simp [ih h]

theorem mem_akeys_adel (l : List (Str × α)) (k k' : Str) : k' ∈ akeys (adel l k) ↔ k' ∈ akeys l ∧ k' ≠ k := by
  rw [← aget_isSome_iff, aget_adel, ← aget_isSome_iff]
  by_cases h : k' = k <;> simp [h]

theorem mem_akeys_aput (l : List (Str × α)) (k k' : Str) (v : α) : k' ∈ akeys (aput l k v) ↔ k' = k ∨ k' ∈ akeys l := by
  rw [← aget_isSome_iff, aget_aput, ← aget_isSome_iff]
  by_cases h : k' = k <;> simp [h]

/-- `aput` on an absent key appends. -/
theorem aput_of_absent (l : List (Str × α)) (k : Str) (v : α) (h : k ∉ akeys l) : aput l k v = l ++ [(k, v)] := by
  rw [aput, adel, List.filter_eq_self.mpr]
  intro p hp
  have : p.1 ≠ k := fun he => h (he ▸ List.mem_map.mpr ⟨p, hp, rfl⟩)
  simpa using this

end

theorem setAttrsLoop_ok (ex : List (Str × AVal)) (new : List (Str × AIn)) (cur cur' : List (Str × AVal))
    (hnd : (akeys new).Nodup) (h : setAttrsLoop ex new cur = (.ok (), cur')) :
    ∀ k, match aget new k with
      | some i => ∃ v, setAttrOne k (aget ex k) i = .ok v ∧ aget cur' k = some v
      | none => aget cur' k = aget cur k := by
  induction new generalizing cur with
  | nil => cases h; intro k; rfl
  | cons p r ih =>
    obtain ⟨k0, i0⟩ := p
    rw [setAttrsLoop] at h
    simp only [akeys, List.map_cons, List.nodup_cons] at hnd
    split at h
    · rename_i v hv
      intro k
      have := ih (aput cur k0 v) hnd.2 h k
      simp only [aget]
      by_cases hk : k0 = k
      · subst hk
        have hn : aget r k0 = none := (aget_none_iff r k0).mpr hnd.1
        rw [hn] at this
        simp only [if_true]
        exact ⟨v, hv, by rw [this, aget_aput]; simp⟩
      · rw [if_neg hk]
        cases hr : aget r k with
        | none =>
          rw [hr] at this
          simp only at this ⊢
          rw [this, aget_aput, if_neg (fun h => hk h.symm)]
        | some i => rw [hr] at this; simpa using this
    · cases h

end HS
