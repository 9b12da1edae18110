import Verif.Spec.Members
import Verif.Lemmas.Merge
import Verif.Lemmas.RtAll
import Verif.Lemmas.Away
import Verif.Lemmas.RtStruct
/-
What reading a Group as a dict gives.
-/
namespace HS
open Spec

theorem readItem_ok {rd : Rd} {excl : Option Nat} {links : List (Str × Nat)} {conv : Nat → Str → Res Val} {i : Nat} {k : Str} {p : Val × Val} :
    readItem rd excl links conv i k = .ok (some p) ↔ ∃ uk q, unescapePath k = .ok uk ∧ aget links k = some q ∧ excl ≠ some q ∧ rd q = .ok p.2 ∧ conv i uk = .ok p.1 := by
  unfold readItem
  constructor
  · intro h
    obtain ⟨uk, h1, h⟩ := res_bind_ok.mp h
    cases hq : aget links k with
    | none => rw [hq] at h; cases h
    | some q =>
      rw [hq] at h
      dsimp only at h
      split at h
      · cases h
      · rename_i he
        obtain ⟨v, h2, h⟩ := res_bind_ok.mp h
        obtain ⟨c, h3, h⟩ := res_bind_ok.mp h
        cases h
        exact ⟨uk, q, h1, rfl, he, h2, h3⟩
  · rintro ⟨uk, q, h1, h2, h3, h4, h5⟩
    rw [h1]
    dsimp only [bind, Except.bind]
    rw [h2]
    dsimp only
    rw [if_neg h3, h4]
    dsimp only
    rw [h5]

theorem readItems_from {rd : Rd} {excl : Option Nat} {links : List (Str × Nat)} {conv : Nat → Str → Res Val} {names : List Str} (i : Nat) {p : Val × Val}
    (h : p ∈ readItems rd excl links conv i names) : ∃ (j : Nat) (k : Str), k ∈ names ∧ readItem rd excl links conv j k = .ok (some p) := by
  induction names generalizing i with
  | nil => cases h
  | cons k names ih =>
    rw [readItems] at h
    cases hr : readItem rd excl links conv i k with
    | error e =>
      rw [hr] at h
      obtain ⟨j, k', h1, h2⟩ := ih _ h
      exact ⟨j, k', by simp [h1], h2⟩
    | ok o =>
      rw [hr] at h
      cases o with
      | none =>
        obtain ⟨j, k', h1, h2⟩ := ih _ h
        exact ⟨j, k', by simp [h1], h2⟩
      | some p' =>
        rcases List.mem_cons.mp h with rfl | h
        · exact ⟨i, k, by simp, hr⟩
        · obtain ⟨j, k', h1, h2⟩ := ih _ h
          exact ⟨j, k', by simp [h1], h2⟩

theorem readItems_all {rd : Rd} {excl : Option Nat} {links : List (Str × Nat)} {conv : Nat → Str → Res Val} {names : List Str} (i : Nat) {k : Str} (hk : k ∈ names)
    {v : Val} (h : ∀ j, ∃ c, readItem rd excl links conv j k = .ok (some (c, v))) :
    ∃ (j : Nat) (c : Val), readItem rd excl links conv j k = .ok (some (c, v)) ∧ (c, v) ∈ readItems rd excl links conv i names := by
  induction names generalizing i with
  | nil => cases hk
  | cons k' names ih =>
    rcases List.mem_cons.mp hk with rfl | hk
    · obtain ⟨c, hc⟩ := h i
      refine ⟨i, c, hc, ?_⟩
      rw [readItems, hc]
      simp
    · obtain ⟨j, c, h1, h2⟩ := ih (i + 1) hk
      refine ⟨j, c, h1, ?_⟩
      rw [readItems]
      split
      · exact List.mem_cons_of_mem _ h2
      · exact h2

theorem foldl_add_mem (l f : List Str) (k : Str) : k ∈ l.foldl (fun f s => if f.contains s then f else f ++ [s]) f ↔ k ∈ f ∨ k ∈ l := by
  induction l generalizing f with
  | nil => simp
  | cons a l ih =>
    rw [List.foldl_cons, ih, List.mem_cons]
    split
    · rename_i h
      have ha : a ∈ f := by simpa using h
      constructor
      · rintro (h | h)
        · exact Or.inl h
        · exact Or.inr (Or.inr h)
      · rintro (h | rfl | h)
        · exact Or.inl h
        · exact Or.inl ha
        · exact Or.inr h
    · rw [List.mem_append, List.mem_singleton, or_assoc]

theorem dictFields_mem (pf mf : Option (List Str)) {links : List (Str × Nat)} {k : Str} {q : Nat} (h : aget links k = some q) : k ∈ dictFields pf mf links := by
  unfold dictFields
  rw [foldl_add_mem]
  right
  rw [(sortStr_perm _).mem_iff]
  exact (aget_isSome_iff links k).mp (by rw [h]; rfl)

/-- Reading by an address is reading the object there. -/
theorem fileRead_gives {x : Ctx} {n : Nat} {F : FileS} {p : PathArg} {ns : List Str} {q : Nat} {v : Val} (ha : Addr p ns) (hq : LPath F.st.heap ns q)
    (h : fileRead x n p F = .ok v) : Gives x n F.st.heap q v := by
  obtain ⟨⟨g, t⟩, hc, _, h⟩ := fileRead_ok.mp h
  have hp := check_addr hc
  have := addr_unique ha ⟨g, t, hp, rfl⟩
  subst this
  unfold readOne at h
  dsimp only at h
  split at h
  · cases hr : resolve F.st.heap 0 (commonComps g) with
    | none => rw [hr] at h; cases h
    | some g' =>
      rw [hr] at h
      dsimp only at h
      have hl := lpath_resolve (commonComps_plain g) hr
      split at h
      · split at h
        · cases hl2 : hlook F.st.heap g' t with
          | none => rw [hl2] at h; cases h
          | some r =>
            rw [hl2] at h
            rcases processPath_names hp with ⟨h4, h5, h6⟩ | ⟨h4, h5, _⟩
            · rw [h6, List.append_nil] at hq
              unfold hlook at hl2
              rw [h4, if_pos rfl] at hl2
              cases hl2
              rw [lpath_fun hq hl]
              exact h
            · rw [h4] at hq
              rw [hlook_plain _ _ _ h5] at hl2
              rw [lpath_fun hq (.snoc hl hl2)]
              exact h
        · cases h
      · cases h
  · cases h

theorem mem_link {h : Heap} {ns : List Str} {q : Nat} {attrs : List (Str × AVal)} {links : List (Str × Nat)} (hq : LPath h ns q)
    (hob : h[q]? = some ⟨attrs, .group links⟩) {name : Str} {r : Nat} : LPath h (ns ++ [name]) r ↔ aget links name = some r := by
  have hl : linksOf h q = links := by rw [linksOf_obj, hob]; rfl
  constructor
  · intro hr
    obtain ⟨a, h1, h2⟩ := lpath_snoc hr
    rw [lpath_fun h1 hq, LinkAt, hl] at h2
    exact h2
  · intro hr
    exact .snoc hq (by rw [LinkAt, hl]; exact hr)

theorem textKey_id {k : Val} {t : Str} (h : TextKey k t) : keyId k = some (false, t) := by cases h <;> rfl

theorem bytesKey_id {k : Val} {b : Bytes} (h : BytesKey k b) : keyId k = some (true, b) := by
  cases h with
  | bytes => rfl
  | npBytes => unfold npBytes mkBytesArr keyId; simp

theorem equalKeys_same {a b : Val} (h : EqualKeys a b) : sameKey a b = true := by
  unfold sameKey
  rcases h with ⟨t, h1, h2⟩ | ⟨t, h1, h2⟩
  · rw [textKey_id h1, textKey_id h2]; simp
  · rw [bytesKey_id h1, bytesKey_id h2]; simp

theorem keyOf_id {k : Val} {t : Str} (h : KeyOf k t) : keyId k = some (false, t) ∨ ∃ b, utf8Enc t = .ok b ∧ keyId k = some (true, b) := by
  rcases h with h | ⟨b, h1, h2⟩
  · exact Or.inl (textKey_id h)
  · exact Or.inr ⟨b, h1, bytesKey_id h2⟩

/-- Equal keys stand for the same text. -/
theorem sameKey_keyOf {a b : Val} {s t : Str} (ha : KeyOf a s) (hb : KeyOf b t) (h : sameKey a b = true) : s = t := by
  have he : keyId a = keyId b := by
    unfold sameKey at h
    simpa using (Bool.and_eq_true_iff.mp h).2
  rcases keyOf_id ha with h1 | ⟨x, h1, h2⟩ <;> rcases keyOf_id hb with h3 | ⟨y, h3, h4⟩
  · rw [h1, h3] at he; cases he; rfl
  · rw [h1, h4] at he; cases he
  · rw [h2, h3] at he; cases he
  · rw [h2, h4] at he; cases he
    have e := (utf8Dec_enc _ _ h1).symm.trans (utf8Dec_enc _ _ h3)
    cases e; rfl

theorem keyConvert_of {c : Nat} {t : Str} {k : Val} (h : keyConvert c t = .ok k) : KeyOf k t := by
  unfold keyConvert at h
  split at h
  · cases h; exact Or.inl (.str t)
  split at h
  · obtain ⟨b, h1, h2⟩ := res_bind_ok.mp h
    cases h2; exact Or.inr ⟨b, h1, .bytes b⟩
  split at h
  · obtain ⟨b, h1, h2⟩ := res_bind_ok.mp h
    cases h2; exact Or.inr ⟨b, h1, .npBytes b⟩
  split at h
  · cases h; exact Or.inl (.npStr t)
  · cases h

theorem keyConvert_some {c : Nat} (hc : c ∈ p!"tbSU") {t : Str} {b : Bytes} (h : utf8Enc t = .ok b) : ∃ k, keyConvert c t = .ok k := by
  have : c = 116 ∨ c = 98 ∨ c = 83 ∨ c = 85 := by simpa using hc
  unfold keyConvert
  rw [h]
  rcases this with rfl | rfl | rfl | rfl <;> exact ⟨_, rfl⟩

theorem zip_maps {α β : Type} (l : List (α × β)) : (l.map (·.1)).length = (l.map (·.2)).length ∧ ∀ (i : Nat) (k : α) (v : β),
    (l.map (·.1))[i]? = some k → (l.map (·.2))[i]? = some v → (k, v) ∈ l := by
  refine ⟨by simp, fun i k v h1 h2 => ?_⟩
  rw [List.getElem?_map] at h1 h2
  cases h : l[i]? with
  | none => rw [h] at h1; cases h1
  | some p =>
    rw [h] at h1 h2
    cases h1; cases h2
    exact List.mem_of_getElem? h

theorem stringAttr_iff {attrs : List (Str × AVal)} {name s : Str} : attrToString (aget attrs name) = .ok (some s) ↔ StringAttr attrs name s := by
  unfold StringAttr
  cases h : aget attrs name with
  | none => simp [attrToString]
  | some v =>
    cases v with
    | bytes b =>
      constructor
      · intro h
        obtain ⟨u, h1, h2⟩ := res_bind_ok.mp h
        cases h2
        exact Or.inr ⟨b, utf8Enc_dec _ _ h1, rfl⟩
      · rintro (h | ⟨c, h1, h2⟩)
        · cases h
        · cases h2
          show (utf8Dec b >>= fun r => Except.ok (some r)) = _
          rw [utf8Dec_enc _ _ h1]
          rfl
    | _ => simp [attrToString]

/-- The keys and values of a dict made of the members of a Group; `P` says which names can be converted. -/
theorem items_members {x : Ctx} {n : Nat} {h : Heap} {ns : List Str} {q : Nat} {attrs : List (Str × AVal)} {links : List (Str × Nat)} (hq : LPath h ns q)
    (hob : h[q]? = some ⟨attrs, .group links⟩) (conv : Nat → Str → Res Val) (pf mf : Option (List Str)) (hc : ∀ i t k, conv i t = .ok k → KeyOf k t)
    (P : Str → Prop) (hs : ∀ (i : Nat) (t : Str), P t → ∃ k, conv i t = .ok k) {m : List (Val × Val)}
    (hm : m = mergeItems (readItems (readData x.o (viewOf h) (exclOf x.o h) n) (exclOf x.o h) links conv 0 (dictFields pf mf links))) :
    (m.map (·.1)).Pairwise (fun a b => ¬ EqualKeys a b) ∧ (∀ k ∈ m.map (·.1), ∃ i t, conv i t = .ok k) ∧
    (∀ (i : Nat) (k v : Val), (m.map (·.1))[i]? = some k → (m.map (·.2))[i]? = some v → ∃ t, KeyOf k t ∧ Member x n h ns t v) ∧
    (∀ t v, Member x n h ns t v → P t → ∃ k ∈ m.map (·.1), KeyOf k t) := by
  generalize hl : readItems (readData x.o (viewOf h) (exclOf x.o h) n) (exclOf x.o h) links conv 0 (dictFields pf mf links) = l at hm
  subst hm
  have hm := merged_items l
  have hmem : ∀ k v, (k, v) ∈ l → ∃ j t, conv j t = .ok k ∧ Member x n h ns t v := by
    intro k v hkv
    rw [← hl] at hkv
    obtain ⟨j, name, _, h1⟩ := readItems_from 0 hkv
    obtain ⟨uk, r, e1, e2, e3, e4, e5⟩ := readItem_ok.mp h1
    exact ⟨j, uk, e5, name, r, (mem_link hq hob).mpr e2, e3, e1, e4⟩
  refine ⟨?_, ?_, ?_, ?_⟩
  · rw [List.pairwise_map]
    refine hm.dist.imp ?_
    intro a b hab he
    rw [equalKeys_same he] at hab
    cases hab
  · intro k hk
    obtain ⟨p, hp, rfl⟩ := List.mem_map.mp hk
    obtain ⟨⟨w, g1⟩, _⟩ := hm.from' p hp
    obtain ⟨j, t, g2, _⟩ := hmem _ _ g1
    exact ⟨j, t, g2⟩
  · intro i k v h1 h2
    obtain ⟨⟨w, g1⟩, k', g2, g3⟩ := hm.from' _ ((zip_maps _).2 i k v h1 h2)
    obtain ⟨_, t, t1, t2⟩ := hmem _ _ g2
    obtain ⟨_, s, s1, _⟩ := hmem _ _ g1
    have t1 := hc _ _ _ t1
    have s1 := hc _ _ _ s1
    refine ⟨t, ?_, t2⟩
    rcases g3 with rfl | g3
    · exact t1
    · rw [← sameKey_keyOf s1 t1 g3]; exact s1
  · rintro t v ⟨name, r, h1, h2, h3, h4⟩ hb
    have e2 := (mem_link hq hob).mp h1
    obtain ⟨j, c, g1, g2⟩ := readItems_all (rd := readData x.o (viewOf h) (exclOf x.o h) n) (excl := exclOf x.o h) (conv := conv) (v := v) 0 (dictFields_mem pf mf e2) (fun j => by
      obtain ⟨c, hcc⟩ := hs j t hb
      exact ⟨c, readItem_ok.mpr ⟨t, r, h3, e2, h2, h4, hcc⟩⟩)
    rw [hl] at g2
    obtain ⟨uk, _, e1, _, _, _, e5⟩ := readItem_ok.mp g1
    rw [h3] at e1
    cases e1
    have hk := hc _ _ _ e5
    obtain ⟨⟨k', v'⟩, g3, g4⟩ := hm.all _ g2
    refine ⟨k', List.mem_map.mpr ⟨_, g3, rfl⟩, ?_⟩
    rcases g4 with g4 | g4
    · dsimp only at g4; rw [g4]; exact hk
    · obtain ⟨⟨w, g5⟩, _⟩ := hm.from' _ g3
      obtain ⟨_, s, s1, _⟩ := hmem _ _ g5
      rw [← sameKey_keyOf (hc _ _ _ s1) hk g4]; exact hc _ _ _ s1

/-- Reading a Group that is marked as a dict gives a dict made of its members. -/
theorem readData_dict {x : Ctx} {n : Nat} {h : Heap} {q : Nat} {attrs : List (Str × AVal)} {links : List (Str × Nat)} (hob : h[q]? = some ⟨attrs, .group links⟩)
    {k : DictKind} (ht : StringAttr attrs p!"Python.Type" k.typeString) (hst : ¬ StringAttr attrs p!"Python.dict.StoredAs" p!"keys_values") {v : Val}
    (hr : Gives x (n + 1) h q v) : ∃ (pf mf : Option (List Str)) (kst : Option Str) (m : List (Val × Val)), attrToString (aget attrs p!"Python.dict.key_str_types") = .ok kst ∧
      m = mergeItems (readItems (readData x.o (viewOf h) (exclOf x.o h) n) (exclOf x.o h) links (fun (i : Nat) (uk : Str) =>
        match pf, kst with
        | some pf, some t => if i < t.length ∧ pf.length = t.length then keyConvert (t.getD i 0) uk else .ok (.str uk)
        | _, _ => .ok (.str uk)) 0 (dictFields pf mf links)) ∧ v = .dict k (m.map (·.1)) (m.map (·.2)) := by
  have hv : viewOf h q = some (Obj.view ⟨attrs, .group links⟩) := by unfold viewOf; rw [hob]; rfl
  have va : ∀ a : Str, a ≠ p!"H5PATH" → aget (Obj.view ⟨attrs, .group links⟩).attrs a = aget attrs a := fun a ha => aget_view ⟨attrs, .group links⟩ a ha
  have hmc : ∃ mc, attrToString (aget (Obj.view ⟨attrs, .group links⟩).attrs p!"MATLAB_class") = .ok mc := by
    unfold Gives at hr
    rw [readData] at hr
    dsimp only at hr
    rw [hv] at hr
    obtain ⟨_, _, hr⟩ := res_bind_ok.mp hr
    obtain ⟨mc, hmc, _⟩ := res_bind_ok.mp hr
    exact ⟨mc, hmc⟩
  unfold Gives at hr
  rw [readData_ts hv (by rw [va _ (by decide)]; exact stringAttr_iff.mpr ht) hmc] at hr
  rw [show readTyped (looksMulti (viewOf h)) (readData x.o (viewOf h) (exclOf x.o h) n) x.o (exclOf x.o h) (Obj.view ⟨attrs, .group links⟩) k.typeString =
    (readDictItems (readData x.o (viewOf h) (exclOf x.o h) n) x.o (exclOf x.o h) (Obj.view ⟨attrs, .group links⟩) >>=
      fun it => .ok (.dict k (it.map (·.1)) (it.map (·.2)))) by cases k <;> rfl] at hr
  obtain ⟨m, hr', hm⟩ := res_bind_ok.mp hr
  cases hm
  clear hr
  have hr := hr'
  unfold readDictItems at hr
  dsimp only [Obj.view] at hr
  have vb : ∀ a : Str, a ≠ p!"H5PATH" → aget (adel attrs p!"H5PATH") a = aget attrs a := va
  rw [vb _ (by decide), vb _ (by decide), vb _ (by decide), vb _ (by decide), vb _ (by decide)] at hr
  obtain ⟨pf, _, hr⟩ := res_bind_ok.mp hr
  obtain ⟨stored, h2, hr⟩ := res_bind_ok.mp hr
  obtain ⟨_, _, hr⟩ := res_bind_ok.mp hr
  obtain ⟨kst, h4, hr⟩ := res_bind_ok.mp hr
  obtain ⟨ek, _, hr⟩ := res_bind_ok.mp hr
  obtain ⟨ev, _, hr⟩ := res_bind_ok.mp hr
  rw [if_neg (by rintro rfl; exact hst (stringAttr_iff.mp h2))] at hr
  dsimp only at hr
  obtain ⟨mf, _, hr⟩ := res_bind_ok.mp hr
  cases hr
  exact ⟨pf, mf, kst, _, h4, rfl, rfl⟩

theorem fieldSet_keys (l : List (Str × Val)) (k : Str) (v : Val) (k' : Str) : k' ∈ akeys (fieldSet l k v) ↔ k' = k ∨ k' ∈ akeys l := by
  rw [← aget_isSome_iff, ← aget_isSome_iff, aget_fieldSet]
  split <;> simp_all

theorem fieldSet_nodup {l : List (Str × Val)} (k : Str) (v : Val) (h : (akeys l).Nodup) : (akeys (fieldSet l k v)).Nodup := by
  unfold fieldSet
  split
  · have : akeys (l.map fun p => if p.1 = k then (k, v) else p) = akeys l := by
      unfold akeys
      rw [List.map_map]
      refine List.map_congr_left ?_
      intro p _
      dsimp only [Function.comp]
      split
      · rename_i e; exact e.symm
      · rfl
    rw [this]
    exact h
  · rename_i hk
    unfold akeys at *
    rw [List.map_append, List.nodup_append]
    refine ⟨h, by simp, ?_⟩
    intro a ha b hb e
    simp only [List.map_cons, List.map_nil, List.mem_singleton] at hb
    subst hb
    subst e
    exact hk (by simpa using ha)

theorem fieldSet_mem {l : List (Str × Val)} {k : Str} {v : Val} {p : Str × Val} (h : p ∈ fieldSet l k v) : p ∈ l ∨ p = (k, v) := by
  unfold fieldSet at h
  split at h
  · obtain ⟨r, hr, rfl⟩ := List.mem_map.mp h
    split
    · exact Or.inr rfl
    · exact Or.inl hr
  · simpa using h

/-- What reading the members of a Group gives. -/
theorem readFields_from {rd : Rd} {excl : Option Nat} {l : List (Str × Nat)} {acc sd : List (Str × Val)} (h : readFields rd excl l acc = .ok sd)
    (hn : (akeys acc).Nodup) : (akeys sd).Nodup ∧ (∀ p ∈ sd, p ∈ acc ∨ ∃ k q, (k, q) ∈ l ∧ excl ≠ some q ∧ unescapePath k = .ok p.1 ∧ rd q = .ok p.2) ∧
      (∀ k ∈ akeys acc, k ∈ akeys sd) ∧ ∀ k q t v, (k, q) ∈ l → excl ≠ some q → unescapePath k = .ok t → rd q = .ok v → t ∈ akeys sd := by
  induction l generalizing acc with
  | nil => cases h; exact ⟨hn, fun p hp => Or.inl hp, fun k hk => hk, by simp⟩
  | cons kq l ih =>
    obtain ⟨k, q⟩ := kq
    rw [readFields] at h
    obtain ⟨uk, hu, h⟩ := res_bind_ok.mp h
    by_cases he : excl = some q
    · rw [if_pos he] at h
      obtain ⟨h1, h2, h3, h4⟩ := ih h hn
      refine ⟨h1, fun p hp => ?_, h3, ?_⟩
      · rcases h2 p hp with hp | ⟨k', q', a, b⟩
        · exact Or.inl hp
        · exact Or.inr ⟨k', q', by simp [a], b⟩
      · intro k' q' t v hm hx hk hv
        rcases List.mem_cons.mp hm with e | hm
        · cases e; exact absurd he hx
        · exact h4 k' q' t v hm hx hk hv
    · rw [if_neg he] at h
      cases hr : rd q with
      | error e =>
        rw [hr] at h
        obtain ⟨h1, h2, h3, h4⟩ := ih h hn
        refine ⟨h1, fun p hp => ?_, h3, ?_⟩
        · rcases h2 p hp with hp | ⟨k', q', a, b⟩
          · exact Or.inl hp
          · exact Or.inr ⟨k', q', by simp [a], b⟩
        · intro k' q' t v hm hx hk hv
          rcases List.mem_cons.mp hm with e | hm
          · cases e; rw [hr] at hv; cases hv
          · exact h4 k' q' t v hm hx hk hv
      | ok w =>
        rw [hr] at h
        obtain ⟨h1, h2, h3, h4⟩ := ih h (fieldSet_nodup uk w hn)
        refine ⟨h1, fun p hp => ?_, fun k' hk' => h3 _ ((fieldSet_keys ..).mpr (Or.inr hk')), ?_⟩
        · rcases h2 p hp with hp | ⟨k', q', a, b⟩
          · rcases fieldSet_mem hp with hp | rfl
            · exact Or.inl hp
            · exact Or.inr ⟨k, q, by simp, he, hu, hr⟩
          · exact Or.inr ⟨k', q', by simp [a], b⟩
        · intro k' q' t v hm hx hk hv
          rcases List.mem_cons.mp hm with e | hm
          · cases e
            rw [hu] at hk
            cases hk
            exact h3 _ ((fieldSet_keys ..).mpr (Or.inl rfl))
          · exact h4 k' q' t v hm hx hk hv

theorem fields_members {x : Ctx} {n : Nat} {h : Heap} {ns : List Str} {q : Nat} {attrs : List (Str × AVal)} {links : List (Str × Nat)} (hq : LPath h ns q)
    (hob : h[q]? = some ⟨attrs, .group links⟩) {sd : List (Str × Val)}
    (hr : readFields (readData x.o (viewOf h) (exclOf x.o h) n) (exclOf x.o h) (sortedLinks links) [] = .ok sd) :
    Members x n h ns (akeys sd) (sd.map (·.2)) := by
  obtain ⟨h1, h2, _, h4⟩ := readFields_from hr (by simp [akeys])
  refine ⟨(zip_maps sd).1, h1, ?_, ?_⟩
  · intro i t v e1 e2
    rcases h2 _ ((zip_maps sd).2 i t v e1 e2) with hm | ⟨k, r, a, b, c, d⟩
    · cases hm
    · exact ⟨k, r, (mem_link hq hob).mpr (mem_sortedLinks a), b, c, d⟩
  · rintro t v ⟨name, r, a, b, c, d⟩
    exact h4 name r t v (sortedLinks_mem ((mem_link hq hob).mp a)) b c d

/-- Reading a Group without a type is reading its members. -/
theorem readData_untyped {x : Ctx} {n : Nat} {h : Heap} {q : Nat} {attrs : List (Str × AVal)} {links : List (Str × Nat)} (hob : h[q]? = some ⟨attrs, .group links⟩)
    (ht : ∀ s, ¬ StringAttr attrs p!"Python.Type" s) {v : Val} (hr : Gives x (n + 1) h q v) :
    readNp (looksMulti (viewOf h)) (readData x.o (viewOf h) (exclOf x.o h) n) x.o (exclOf x.o h) (Obj.view ⟨attrs, .group links⟩) = .ok v := by
  have hv : viewOf h q = some (Obj.view ⟨attrs, .group links⟩) := by unfold viewOf; rw [hob]; rfl
  unfold Gives at hr
  rw [readData] at hr
  dsimp only at hr
  rw [hv] at hr
  obtain ⟨ts, h1, hr⟩ := res_bind_ok.mp hr
  obtain ⟨_, _, hr⟩ := res_bind_ok.mp hr
  cases ts with
  | some s =>
    rw [aget_view ⟨attrs, .group links⟩ _ (by decide)] at h1
    exact absurd (stringAttr_iff.mp h1) (ht s)
  | none => exact hr

end HS
