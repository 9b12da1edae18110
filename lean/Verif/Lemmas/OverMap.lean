import Verif.Lemmas.OverPut
/-
Mappings written over mappings.
-/
namespace HS
open Spec

theorem fields_of {v : Val} {ts : List Str} {vs keys vals : List Val} {struct : Bool} (h : HasFields v ts vs) (hd : DictOf v keys vals struct) :
    All2 KeyText keys ts ∧ vals = vs ∧ vs.length = keys.length := by
  cases h with
  | dict k a b _ h1 h2 => cases hd; exact ⟨h1, rfl, h2⟩
  | record k b h1 =>
    rw [recordFields_eq] at h1 ⊢
    cases hd
    exact ⟨allKeyText_str _, rfl, by simpa using h1⟩

/-- Which attributes a mapping has. -/
theorem dictAttrs_cases {o : COpts} {info : Option (List (Str × Nat))} {struct : Bool} {ts k : Str} {i : AIn} (h : aget (dictAttrs o info struct ts) k = some i) :
    (k = p!"Python.dict.StoredAs" ∧ i = .string (if info.isSome then p!"individually" else p!"keys_values")) ∨
    ((k = p!"Python.dict.keys_values_names" ∨ k = p!"Python.Fields") ∧ ∃ l, i = .stringArray l) ∨
    (k = p!"Python.dict.key_str_types" ∧ ∃ l, info = some l ∧ i = .string (l.map (·.2))) ∨ k = p!"MATLAB_fields" ∨
    (k = p!"MATLAB_class" ∧ i = .string p!"struct") ∨ (k = p!"Python.Type" ∧ i = .string ts) := by
  have hm := aget_mem _ _ _ h
  unfold dictAttrs at hm
  simp only [List.mem_append, or_assoc] at hm
  rcases hm with hm | hm | hm | hm
  · split at hm
    · cases info with
      | none =>
        simp only [List.mem_cons, List.not_mem_nil, or_false, Prod.mk.injEq] at hm
        rcases hm with hm | hm
        · exact Or.inl hm
        · exact Or.inr (Or.inl ⟨Or.inl hm.1, _, hm.2⟩)
      | some l =>
        simp only [List.mem_cons, List.not_mem_nil, or_false, Prod.mk.injEq] at hm
        rcases hm with hm | hm | hm
        · exact Or.inl hm
        · exact Or.inr (Or.inl ⟨Or.inr hm.1, _, hm.2⟩)
        · exact Or.inr (Or.inr (Or.inl ⟨hm.1, l, rfl, hm.2⟩))
    · cases hm
  · cases info with
    | none => cases hm
    | some l =>
      dsimp only at hm
      split at hm
      · simp only [List.mem_cons, List.not_mem_nil, or_false, Prod.mk.injEq] at hm
        exact Or.inr (Or.inr (Or.inr (Or.inl hm.1)))
      · cases hm
  · split at hm
    · simp only [List.mem_cons, List.not_mem_nil, or_false, Prod.mk.injEq] at hm
      exact Or.inr (Or.inr (Or.inr (Or.inr (Or.inl hm))))
    · cases hm
  · split at hm
    · simp only [List.mem_cons, List.not_mem_nil, or_false, Prod.mk.injEq] at hm
      exact Or.inr (Or.inr (Or.inr (Or.inr (Or.inr hm))))
    · cases hm

theorem dictAttrs_h5path (o : COpts) (info : Option (List (Str × Nat))) (struct : Bool) (ts : Str) : aget (dictAttrs o info struct ts) p!"H5PATH" = none := by
  cases h : aget (dictAttrs o info struct ts) p!"H5PATH" with
  | none => rfl
  | some i => rcases dictAttrs_cases h with ⟨h, _⟩ | ⟨h | h, _⟩ | ⟨h, _⟩ | h | ⟨h, _⟩ | ⟨h, _⟩ <;> exact absurd h (by decide)

theorem dictAttrs_fits {o : COpts} {a b : Option (List (Str × Nat))} {s t : Bool} {ts us : Str} (h1 : a.isSome = b.isSome) (h2 : ts.length = us.length)
    {k : Str} {i j : AIn} (hne : k ≠ p!"Python.dict.key_str_types") (hi : aget (dictAttrs o a s ts) k = some i) (hj : aget (dictAttrs o b t us) k = some j) : AFits k i j := by
  rcases dictAttrs_cases hi with ⟨rfl, rfl⟩ | ⟨rfl | rfl, l, rfl⟩ | ⟨rfl, l, hl, rfl⟩ | rfl | ⟨rfl, rfl⟩ | ⟨rfl, rfl⟩ <;>
    rcases dictAttrs_cases hj with ⟨hk, hj⟩ | ⟨hk | hk, l', hj⟩ | ⟨hk, l', hl', hj⟩ | hk | ⟨hk, hj⟩ | ⟨hk, hj⟩ <;>
    first
    | exact absurd hk (by decide)
    | (subst hj; exact aFits_strings)
    | exact aFits_fields
    | (subst hj; exact aFits_string rfl)
    | (subst hj; exact aFits_string (by rw [h1]))
    | exact absurd rfl hne
    | (subst hj; exact aFits_string h2)

theorem keyInfo_str {k : Val} {i : Str × Nat} (h : keyInfo k = some i) : i.2 = 116 ↔ ∃ s, k = .str s := by
  cases k with
  | str s =>
    unfold keyInfo at h
    obtain ⟨e, _, rfl⟩ := Option.map_eq_some_iff.mp h
    exact ⟨fun _ => ⟨s, rfl⟩, fun _ => rfl⟩
  | bytes b =>
    unfold keyInfo at h
    obtain ⟨e, _, rfl⟩ := Option.map_eq_some_iff.mp h
    exact ⟨fun h => absurd h (show (98 : Nat) ≠ 116 by decide), fun ⟨s, hs⟩ => by cases hs⟩
  | np c a =>
    refine ⟨fun hi => ?_, fun ⟨s, hs⟩ => by cases hs⟩
    cases c <;> try (cases h; done)
    unfold keyInfo at h
    cases hd : a.dt <;> simp only [hd] at h <;> try (cases h; done)
    all_goals
      obtain ⟨e, _, rfl⟩ := Option.map_eq_some_iff.mp h
      simp at hi
  | _ => cases h

theorem keyInfos_str {keys : List Val} {l : List (Str × Nat)} (h : keyInfos keys = some l) : (∀ i ∈ l, i.2 = 116) ↔ ∀ k ∈ keys, ∃ s, k = .str s := by
  induction keys generalizing l with
  | nil => cases h; simp
  | cons k r ih =>
    rw [keyInfos] at h
    cases hk : keyInfo k with
    | none => rw [hk] at h; cases h
    | some i =>
      cases hr : keyInfos r with
      | none => rw [hk, hr] at h; cases h
      | some m =>
        rw [hk, hr] at h
        cases h
        simp only [List.mem_cons, forall_eq_or_imp]
        rw [ih hr, keyInfo_str hk]

theorem strKeys_info {v : Val} {keys vals : List Val} {struct : Bool} (hd : DictOf v keys vals struct) {l : List (Str × Nat)} (h : keyInfos keys = some l) :
    StrKeys v ↔ ∀ i ∈ l, i.2 = 116 := by
  rw [keyInfos_str h]
  cases hd with
  | dict => exact Iff.rfl
  | record k =>
    refine ⟨fun _ k hk => ?_, fun _ => by exact trivial⟩
    obtain ⟨s, _, rfl⟩ := List.mem_map.mp hk
    exact ⟨s, rfl⟩

theorem over_mapping {o : COpts} {v w : Val} (h : Overwrites o v w) {k1 l1 k2 l2 : List Val} {s1 s2 : Bool} (hv : DictOf v k1 l1 s1) (hw : DictOf w k2 l2 s2) :
    (∀ k i j, k ≠ p!"Python.dict.key_str_types" → aget (dictAttrs o (keyInfos k1) s1 (tsOf v)) k = some i → aget (dictAttrs o (keyInfos k2) s2 (tsOf w)) k = some j → AFits k i j) ∧
    (∀ l2, keyInfos k2 = some l2 → (∀ i ∈ l2, i.2 = 116) ∨ ∀ l1, keyInfos k1 = some l1 → l1.length = l2.length ∧ ¬ ∀ i ∈ l1, i.2 = 116) ∧
    ((keyInfos k2).isNone = true ∨ o.deleteUnused = true ∨ ∀ k ∈ (dictItems o k1 l1).map (·.1), k ∈ (dictItems o k2 l2).map (·.1)) ∧
    ∀ k a b, (k, a) ∈ dictItems o k1 l1 → (k, b) ∈ dictItems o k2 l2 → Overwrites o a b := by
  cases h with
  | numbers _ _ h => cases h <;> cases hv
  | sorts ha hb hne =>
    have hm : ∀ {u : Val} {k l : List Val} {s : Bool} {c : ValSort}, DictOf u k l s → SortOf u c → c = .mapping := by
      intro u k l s c hd hs
      cases hs with
      | number h => cases h <;> cases hd
      | dict => rfl
      | record => rfl
      | _ => cases hd
    exact absurd ((hm hv ha).trans (hm hw hb).symm) hne
  | toMapping h => cases hv <;> exact h.elim
  | ofMapping _ h => cases hw <;> exact h.elim
  | ofStruct _ _ _ _ _ h => subst h; cases hv
  | toStruct _ _ _ _ _ h => subst h; cases hw
  | fields hs f1 f2 hkeys hsub hcom =>
    obtain ⟨t1, rfl, n1⟩ := fields_of f1 hv
    obtain ⟨t2, rfl, n2⟩ := fields_of f2 hw
    obtain ⟨i1, a1, a2, _, a4, _⟩ := keyInfos_text t1
    obtain ⟨i2, b1, b2, _, b4, _⟩ := keyInfos_text t2
    have hts : tsOf v = tsOf w := by cases hs <;> rfl
    have hitem : ∀ {keys vals : List Val} {ts : List Str} {i : List (Str × Nat)}, keyInfos keys = some i → i.length = keys.length → vals.length = keys.length → All2 KeyText keys ts →
        All2 (fun k t => escapePath t = .ok k) (i.map (·.1)) ts → ∀ k a, (k, a) ∈ dictItems o keys vals → ∃ t, escapePath t = .ok k ∧ (t, a) ∈ ts.zip vals := by
      intro keys vals ts i h1 h2 h3 h4 h5 k a hm
      unfold dictItems at hm
      rw [h1] at hm
      dsimp only at hm
      obtain ⟨t, c1, c2⟩ := (zip_names h5 vals k a).mp hm
      exact ⟨t, c2, c1⟩
    refine ⟨?_, ?_, ?_, ?_⟩
    · rw [a1, b1]
      intro k i j hne hi hj
      exact dictAttrs_fits (a := some i1) (b := some i2) rfl (by rw [hts]) hne hi hj
    · intro m2 hm2
      rcases hkeys with hk | ⟨hk, hlen⟩
      · exact Or.inl ((strKeys_info hw hm2).mp hk)
      · right
        intro m1 hm1
        refine ⟨?_, fun hc => hk ((strKeys_info hv hm1).mpr hc)⟩
        rw [a1] at hm1
        rw [b1] at hm2
        cases hm1; cases hm2
        rw [a2, b2, all2_length t1, all2_length t2, hlen]
    · right
      rcases hsub with h | h
      · exact Or.inl h
      · right
        intro k hk
        obtain ⟨⟨k', a⟩, hm, rfl⟩ := List.mem_map.mp hk
        obtain ⟨t, c1, c2⟩ := hitem a1 a2 n1 t1 a4 k' a hm
        have ht := h t (List.of_mem_zip c2).1
        obtain ⟨kk, d1, d2⟩ := all2_right b4 t ht
        have : kk = k' := by rw [c1] at d2; cases d2; rfl
        subst this
        show kk ∈ (dictItems o k2 l2).map (·.1)
        unfold dictItems
        rw [b1]
        dsimp only
        rw [map_fst_zip _ _ (by rw [List.length_map, b2, n2])]
        exact d1
    · intro k a b ha hb
      obtain ⟨t, c1, c2⟩ := hitem a1 a2 n1 t1 a4 k a ha
      obtain ⟨u, d1, d2⟩ := hitem b1 b2 n2 t2 b4 k b hb
      have : t = u := C03_escape_injective t u (c1.trans d1.symm)
      subst this
      exact hcom t a b c2 d2
  | items k a b c d h1 h2 =>
    cases hv; cases hw
    rw [keyInfos_notText h1, keyInfos_notText h2]
    refine ⟨fun k i j hne hi hj => dictAttrs_fits rfl rfl hne hi hj, (fun l h => by cases h), Or.inl rfl, ?_⟩
    intro kk x y hx hy
    unfold dictItems at hx hy
    rw [keyInfos_notText h1] at hx
    rw [keyInfos_notText h2] at hy
    simp only [List.mem_cons, List.not_mem_nil, or_false, Prod.mk.injEq] at hx hy
    rcases hx with ⟨_, rfl⟩ | ⟨_, rfl⟩ <;> rcases hy with ⟨_, rfl⟩ | ⟨_, rfl⟩ <;> exact .seqs _ _ _
  | _ => cases hv

end HS
