import Verif.Lemmas.RtAll
import Verif.Lemmas.MatStruct
import Verif.Lemmas.BuildStruct
import Verif.Spec.User
/-
Reading a Group written for a dict without the marshaller of the dict.
-/
namespace HS
open Spec

theorem sized_of_good {o : COpts} {v : Val} (h : Good o v) : Sized v := by
  intro c a hv
  subst hv
  cases h with
  | np _ _ h1 _ _ =>
    refine ⟨h1.arr.size, ?_⟩
    rintro n (hd | hd) e he
    · have := h1.arr.fits e he
      rw [hd] at this
      cases e <;> first | exact ⟨_, rfl⟩ | exact this.elim
    · have := h1.arr.fits e he
      rw [hd] at this
      cases e <;> first | exact ⟨_, rfl⟩ | exact this.elim

theorem akeys_fieldSet (l : List (Str × Val)) (k : Str) (v : Val) : akeys (fieldSet l k v) = if k ∈ akeys l then akeys l else akeys l ++ [k] := by
  unfold fieldSet
  by_cases h : k ∈ akeys l
  · rw [if_pos (by simpa using h), if_pos h]
    unfold akeys
    rw [List.map_map]
    refine List.map_congr_left fun p _ => ?_
    show (if p.1 = k then (k, v) else p).1 = p.1
    split
    · rename_i e; exact e.symm
    · rfl
  · rw [if_neg (by simpa using h), if_neg h]
    unfold akeys
    rw [List.map_append]
    rfl

theorem readFields_nodup {rd : Rd} {excl : Option Nat} {L : List (Str × Nat)} {acc sd : List (Str × Val)} (ha : (akeys acc).Nodup)
    (h : readFields rd excl L acc = .ok sd) : (akeys sd).Nodup := by
  induction L generalizing acc with
  | nil => cases h; exact ha
  | cons p L ih =>
    obtain ⟨k, q⟩ := p
    rw [readFields] at h
    cases hu : unescapePath k with
    | error e => rw [hu] at h; cases h
    | ok nm =>
      rw [hu] at h
      change (if excl = some q then _ else _) = _ at h
      split at h
      · exact ih ha h
      · split at h
        · refine ih ?_ h
          rw [akeys_fieldSet]
          split
          · exact ha
          · rename_i hn
            exact List.nodup_append.mpr ⟨ha, by simp, fun a h1 b h2 e => hn (by rw [List.mem_singleton.mp h2] at e; exact e ▸ h1)⟩
        · exact ih ha h

theorem zip_keys_nodup {names : List Str} {ws : List Val} (hnd : names.Nodup) : (akeys (names.zip ws)).Nodup := by
  induction names generalizing ws with
  | nil => exact List.nodup_nil
  | cons a names ih =>
    cases ws with
    | nil => exact List.nodup_nil
    | cons b ws =>
      rw [List.nodup_cons] at hnd
      show (a :: akeys (names.zip ws)).Nodup
      refine List.nodup_cons.mpr ⟨?_, ih hnd.2⟩
      intro h
      obtain ⟨p, h1, h2⟩ := List.mem_map.mp h
      exact hnd.1 (h2 ▸ (List.of_mem_zip h1).1)

theorem nodup_of_keys {l : List (Str × Val)} (h : (akeys l).Nodup) : l.Nodup := List.Pairwise.of_map _ (fun _ _ hne he => hne (by rw [he])) h

/-- A Group with fields, read as numpy data. -/
theorem readNp_fields {ro : COpts} {st : Bool} {ts : Str} {attrs : List (Str × AVal)} {links : List (Str × Nat)} {vals : List Val}
    {texts names : List Str} (hn : All2 (fun k t => unescapePath k = .ok t) names texts) (hnd : texts.Nodup)
    {pf attr : Option (List Str)} (a1 : attrToString (aget attrs p!"Python.Type") = .ok (some ts))
    (a2 : attrToString (aget attrs p!"MATLAB_class") = .ok (if st then some p!"struct" else none))
    (a3 : attrToStrings (aget attrs p!"Python.Fields") = .ok pf) (a7 : aget attrs p!"Python.numpy.UnderlyingType" = none) (a8 : aget attrs p!"Python.numpy.Container" = none)
    (a9 : aget attrs p!"MATLAB_empty" = none) (hg : groupNames pf (aget attrs p!"MATLAB_fields") = .ok attr) (hattr : attr = some texts ∨ (attr = none ∧ sortStr texts = texts))
    (hlk : ∀ k q, aget links k = some q → k ∈ names)
    {mu : Nat → Bool} {rd : Rd} {excl : Option Nat} {oids : List Nat}
    (hq : All2 (fun k q => aget links k = some q ∧ excl ≠ some q ∧ mu q = false) names oids) (hr : All2 (fun q v => rd q = .ok v) oids vals)
    (hz : ∀ v ∈ vals, Sized v) (hok : (st && ro.structsAsDicts) = true ∨ (texts ≠ [] ∧ [] ∉ texts)) :
    ∃ w, readNp mu rd ro excl (Obj.view ⟨attrs, .group links⟩) = .ok w ∧ BareDict (st && ro.structsAsDicts) texts vals w := by
  have v : ∀ k, k ≠ p!"H5PATH" → aget (adel attrs p!"H5PATH") k = aget attrs k := fun k hk => aget_view ⟨attrs, .group links⟩ k hk
  have hrow : ∀ (k : Nat) nm, texts[k]? = some nm → ∃ e q w, names[k]? = some e ∧ unescapePath e = .ok nm ∧ aget links e = some q ∧ excl ≠ some q ∧ mu q = false ∧
      rd q = .ok w ∧ vals[k]? = some w := by
    intro k nm hk
    obtain ⟨e, h1, h2⟩ := all2_index (all2_flip hn) k nm hk
    obtain ⟨q, h3, h4, h5, h6⟩ := all2_index hq k e h1
    obtain ⟨w, h7, h8⟩ := all2_index hr k q h3
    exact ⟨e, q, w, h1, h2, h4, h5, h6, h8, h7⟩
  have hlen1 : names.length = texts.length := all2_length hn
  have hlen : vals.length = texts.length := (all2_length hr).symm.trans ((all2_length hq).symm.trans hlen1)
  have hmem : ∀ k q, (k, q) ∈ sortedLinks links → ∃ (i : Nat) (nm : Str) (w : Val), texts[i]? = some nm ∧ unescapePath k = .ok nm ∧ excl ≠ some q ∧ rd q = .ok w ∧ vals[i]? = some w := by
    intro k q hkq
    have hg := mem_sortedLinks hkq
    obtain ⟨i, hi, hik⟩ := List.mem_iff_getElem.mp (hlk k q hg)
    have hi' : i < texts.length := by omega
    obtain ⟨e, q', w, r1, r2, r3, r4, _, r6, r7⟩ := hrow i texts[i] (List.getElem?_eq_getElem hi')
    rw [List.getElem?_eq_getElem hi] at r1
    have hke : k = e := hik.symm.trans (Option.some.inj r1)
    subst hke
    rw [hg] at r3
    cases r3
    exact ⟨i, texts[i], w, List.getElem?_eq_getElem hi', r2, r4, r6, r7⟩
  obtain ⟨sd, s1, s2, _, s4⟩ := readFields_spec (rd := rd) (excl := excl) (F := aget (texts.zip vals)) (L := sortedLinks links) (acc := [])
    (fun k q hkq => by
      obtain ⟨i, nm, w, b1, b2, b3, b5, b6⟩ := hmem k q hkq
      exact ⟨b3, nm, w, b2, b5, aget_zip hnd b1 b6⟩) (fun k v h => by cases h)
  have hsn : (akeys sd).Nodup := readFields_nodup (acc := []) List.nodup_nil s1
  have hsd : ∀ (i : Nat) nm w, texts[i]? = some nm → vals[i]? = some w → aget sd nm = some w := by
    intro i nm w b1 b2
    obtain ⟨e, q, w', r1, r2, r3, r4, r5, r6, r7⟩ := hrow i nm b1
    have := s4 e q nm (sortedLinks_mem r3) r2
    cases hg : aget sd nm with
    | none => exact absurd hg this
    | some w2 =>
      have := s2 nm w2 hg
      rw [aget_zip hnd b1 b2] at this
      exact this.symm
  unfold readNp
  dsimp only [Obj.view]
  rw [v _ (by decide), v _ (by decide), v _ (by decide), v _ (by decide), v _ (by decide), v _ (by decide), a1, a2, a3, a7, a8]
  dsimp only [attrToString, bind, Except.bind]
  rw [s1]
  dsimp only
  cases hd : st && ro.structsAsDicts with
  | true =>
    have hd' : st = true ∧ ro.structsAsDicts = true := by simpa using hd
    rw [if_pos ⟨by rw [hd'.1]; rfl, hd'.2⟩]
    refine ⟨_, rfl, .items sd rfl ?_⟩
    refine (List.perm_ext_iff_of_nodup (nodup_of_keys hsn) (nodup_of_keys (zip_keys_nodup hnd))).mpr ?_
    rintro ⟨k, w⟩
    constructor
    · intro hm
      exact aget_mem _ _ _ (s2 k w ((aget_iff_mem hsn).mpr hm))
    · intro hm
      obtain ⟨i, hi⟩ := List.getElem?_of_mem hm
      rw [List.getElem?_zip_eq_some] at hi
      exact aget_mem _ _ _ (hsd i k w hi.1 hi.2)
  | false =>
    obtain ⟨hne, h0⟩ := hok.resolve_left (by rw [hd]; decide)
    rw [if_neg (by
      rintro ⟨h1, h2⟩
      rw [h2, Bool.and_true] at hd
      rw [hd] at h1
      cases h1)]
    have hmulti : isMulti mu excl (sortedLinks links) = false := by
      unfold isMulti
      rw [List.all_eq_false]
      cases hnm : texts with
      | nil => exact absurd hnm hne
      | cons nm r =>
        obtain ⟨e, q, w, r1, r2, r3, r4, r5, r6, r7⟩ := hrow 0 nm (by rw [hnm]; rfl)
        refine ⟨(e, q), sortedLinks_mem r3, ?_⟩
        dsimp only
        rw [r5, Bool.or_false]
        simpa using r4
    have hrest : (akeys sd).filter (fun k => !texts.contains k) = [] := by
      apply List.filter_eq_nil_iff.mpr
      intro k hk'
      have : aget sd k ≠ none := fun h => (aget_none_iff sd k).mp h hk'
      cases hs : aget sd k with
      | none => exact absurd hs this
      | some w =>
        have := aget_mem _ _ _ (s2 k w hs)
        simpa using (List.of_mem_zip this).1
    have hb := buildStruct_gen (multi := false) (sd := sd) (attr := attr) (names := texts) (sh0 := [1]) (els := vals.map fun v => [v]) (fun h => by
        rcases hattr with ha | ⟨_, ha⟩
        · rw [ha] at h; cases h
        · rw [← ha, sortStr_eq_iff]
          refine (List.perm_ext_iff_of_nodup hsn hnd).mpr fun k => ⟨fun hk => ?_, fun hk => ?_⟩
          · have := List.filter_eq_nil_iff.mp hrest k hk
            simpa using this
          · obtain ⟨i, hi⟩ := List.getElem?_of_mem hk
            have hil : i < vals.length := by rw [hlen]; exact (List.getElem?_eq_some_iff.mp hi).1
            exact List.mem_map.mpr ⟨_, aget_mem _ _ _ (hsd i k _ hi (List.getElem?_eq_getElem hil)), rfl⟩)
      (fun f hf => by
        rcases hattr with ha | ⟨ha, _⟩
        · rw [ha] at hf
          cases hf
          rw [hrest]
          simp [sortStr]
        · rw [ha] at hf; cases hf) hne h0 hnd (by
        have key : ∀ (names : List Str) (ws : List Val), ws.length = names.length → (∀ (i : Nat) nm w, names[i]? = some nm → ws[i]? = some w → aget sd nm = some w) →
            All2 (fun nm e => fieldAt false sd nm = .ok ([1], e)) names (ws.map fun v => [v]) := by
          intro names
          induction names with
          | nil =>
            intro ws hl _
            cases ws with
            | nil => exact .nil
            | cons _ _ => cases hl
          | cons nm names ih =>
            intro ws hl hh
            cases ws with
            | nil => cases hl
            | cons w ws =>
              refine .cons ?_ (ih ws (by simpa using hl) fun i nm' w' hi hw => hh (i + 1) nm' w' (by simpa using hi) (by simpa using hw))
              unfold fieldAt
              rw [hh 0 nm w rfl rfl]
              rfl
        exact key texts vals hlen hsd)
    rw [hg, hmulti]
    dsimp only
    rw [hb]
    dsimp only
    have hdec : decodes none (if st then some p!"struct" else none) = false := by
      cases st <;> rfl
    rw [hdec]
    simp only [Bool.false_eq_true, if_false]
    refine ⟨.npStruct .ndarray [1] texts (vals.map fun v => fieldType [v]) (vals.map fun v => packEl (fieldType [v]) v), ?_, .fields _ _ rfl (by simp [hlen]) (by simp [hlen]) ?_⟩
    · unfold finish
      dsimp only
      have hfl : ((vals.map fun v => [v]).map fun e => e.map (packEl (fieldType e))).flatten = vals.map fun v => packEl (fieldType [v]) v := by
        clear hb hsd hrow hz hlen hr hmem s2 s1 s4
        induction vals with
        | nil => rfl
        | cons v r ih =>
          rw [List.map_cons, List.map_cons, List.flatten_cons, ih]
          rfl
      cases st with
      | false =>
        show Except.ok (Val.npStruct .ndarray [1] texts _ _) = _
        rw [hfl, List.map_map]
        rfl
      | true =>
        have he : aget (adel attrs p!"H5PATH") p!"MATLAB_empty" = none := by rw [v _ (by decide)]; exact a9
        show (match (if attrIsOne (aget (adel attrs p!"H5PATH") p!"MATLAB_empty") then aget (adel attrs p!"H5PATH") p!"MATLAB_fields" else none) with
          | none => matlabFinish p!"struct" .object (attrIsOne (aget (adel attrs p!"H5PATH") p!"MATLAB_empty")) _
          | some mf => _) = _
        rw [he]
        show matlabFinish p!"struct" .object false _ = _
        rw [matlabFinish_struct]
        have hT : (((vals.map fun v => [v]).map fun e => e.map (packEl (fieldType e))).map (transposeData [1])) = (vals.map fun v => [v]).map fun e => e.map (packEl (fieldType e)) := by
          rw [List.map_map, List.map_map, List.map_map]
          exact List.map_congr_left fun v _ => rfl
        rw [hT, hfl, List.map_map]
        rfl
    · intro j w t w' h1 h2 h3
      rw [List.getElem?_map, h1] at h2 h3
      cases h2
      cases h3
      exact ⟨fieldType_of [w], packEl_handed (fieldType_of [w]) (by simp) (hz w (List.mem_of_getElem? h1))⟩

/-- A Group with the items of a dict, read as numpy data. -/
theorem readNp_dict {o ro : COpts} (hm : o.pyMeta = true) {struct : Bool} {ts : Str} {attrs : List (Str × AVal)} {links : List (Str × Nat)} {vals : List Val}
    {texts : List Str} {l : List (Str × Nat)} (hn : All2 (fun k t => unescapePath k = .ok t) (l.map (·.1)) texts) (hnd : texts.Nodup)
    (h : setAttributesAll [] (dictAttrs o (some l) struct ts) true = (.ok (), attrs)) (hlk : ∀ k q, aget links k = some q → k ∈ l.map (·.1))
    {mu : Nat → Bool} {rd : Rd} {excl : Option Nat} {oids : List Nat}
    (hq : All2 (fun k q => aget links k = some q ∧ excl ≠ some q ∧ mu q = false) (l.map (·.1)) oids) (hr : All2 (fun q v => rd q = .ok v) oids vals)
    (hz : ∀ v ∈ vals, Sized v) (hok : (o.matlab && struct && ro.structsAsDicts) = true ∨ (texts ≠ [] ∧ [] ∉ texts)) :
    ∃ w, readNp mu rd ro excl (Obj.view ⟨attrs, .group links⟩) = .ok w ∧ BareDict (o.matlab && struct && ro.structsAsDicts) texts vals w := by
  have hdn := dictAttrs_nodup o (some l) struct ts
  obtain ⟨g1, g2, g3, _, _, _, _⟩ := dictAttrs_some o hm l struct ts
  have g7 : aget (dictAttrs o (some l) struct ts) p!"Python.numpy.UnderlyingType" = none ∧ aget (dictAttrs o (some l) struct ts) p!"Python.numpy.Container" = none ∧
      aget (dictAttrs o (some l) struct ts) p!"MATLAB_empty" = none := by
    unfold dictAttrs
    rw [hm]
    dsimp only
    cases o.matlab <;> cases struct <;> cases (l.all fun i => i.1.all (· < 128)) <;> exact ⟨rfl, rfl, rfl⟩
  obtain ⟨g7, g8, g9⟩ := g7
  have a2 : attrToString (aget attrs p!"MATLAB_class") = .ok (if o.matlab && struct then some p!"struct" else none) := by
    cases hb : o.matlab && struct with
    | true => rw [hb] at g2; exact fresh_string hdn h g2
    | false => rw [hb] at g2; rw [fresh_none hdn h g2]; rfl
  refine readNp_fields (pf := some (l.map (·.1))) (attr := some texts) hn hnd (fresh_string hdn h g1) a2 (by rw [fresh_strings hdn h g3]; rfl) (fresh_none hdn h g7) (fresh_none hdn h g8)
    (fresh_none hdn h g9) ?_ (Or.inl rfl) hlk hq hr hz hok
  show ((l.map (·.1)).mapM unescapePath >>= fun r => Except.ok (some r)) = _
  rw [mapM_ok_forall2.mpr hn]
  rfl

/-- The same if the keys and the values are stored. -/
theorem readNp_kv {o ro : COpts} (hm : o.pyMeta = true) {struct : Bool} {ts : Str} {attrs : List (Str × AVal)} {links : List (Str × Nat)} {vals : List Val}
    {names : List Str} (hn : ∀ k ∈ names, PlainName k) (hnd : names.Nodup) (hs : sortStr names = names) (hne : names ≠ [])
    (h : setAttributesAll [] (dictAttrs o none struct ts) true = (.ok (), attrs)) (hlk : ∀ k q, aget links k = some q → k ∈ names)
    {mu : Nat → Bool} {rd : Rd} {excl : Option Nat} {oids : List Nat}
    (hq : All2 (fun k q => aget links k = some q ∧ excl ≠ some q ∧ mu q = false) names oids) (hr : All2 (fun q v => rd q = .ok v) oids vals)
    (hz : ∀ v ∈ vals, Sized v) :
    ∃ w, readNp mu rd ro excl (Obj.view ⟨attrs, .group links⟩) = .ok w ∧ BareDict (o.matlab && struct && ro.structsAsDicts) names vals w := by
  have hdn := dictAttrs_nodup o none struct ts
  obtain ⟨g1, g2, g3, _, _, _⟩ := dictAttrs_none o hm struct ts
  have g7 : aget (dictAttrs o none struct ts) p!"Python.numpy.UnderlyingType" = none ∧ aget (dictAttrs o none struct ts) p!"Python.numpy.Container" = none ∧
      aget (dictAttrs o none struct ts) p!"MATLAB_empty" = none ∧ aget (dictAttrs o none struct ts) p!"MATLAB_fields" = none := by
    unfold dictAttrs
    rw [hm]
    dsimp only
    cases o.matlab <;> cases struct <;> exact ⟨rfl, rfl, rfl, rfl⟩
  obtain ⟨g7, g8, g9, g10⟩ := g7
  have a2 : attrToString (aget attrs p!"MATLAB_class") = .ok (if o.matlab && struct then some p!"struct" else none) := by
    cases hb : o.matlab && struct with
    | true => rw [hb] at g2; exact fresh_string hdn h g2
    | false => rw [hb] at g2; rw [fresh_none hdn h g2]; rfl
  have hun : All2 (fun k t => unescapePath k = .ok t) names names := by
    clear hq hlk hs hne hnd
    induction names with
    | nil => exact .nil
    | cons k r ih =>
      refine .cons ?_ (ih fun k h => hn k (by simp [h]))
      obtain ⟨e, h1, h2⟩ := C01_unescape_escape k
      rw [escapePath_plain (hn k (by simp))] at h1
      cases h1
      exact h2
  exact readNp_fields (pf := none) (attr := none) hun hnd (fresh_string hdn h g1) a2 (by rw [fresh_none hdn h g3]; rfl) (fresh_none hdn h g7) (fresh_none hdn h g8)
    (fresh_none hdn h g9) (by rw [fresh_none hdn h g10]; rfl) (Or.inr ⟨rfl, hs⟩) hlk hq hr hz (Or.inr ⟨hne, fun h => (hn [] h).1 rfl⟩)

theorem typed_single {V : View} {s' : St} {q : Nat} (h : TypedAt s' q) (hV : V q = viewOf s'.heap q) : looksMulti V q = false := by
  obtain ⟨ob, h1, h2⟩ := h
  refine holdsValue_multi ⟨ob, hV.trans h1, ?_⟩
  cases hb : ob.body with
  | group l => exact Or.inl ⟨l, rfl⟩
  | dset a f => exact Or.inr ⟨a, f, rfl, Or.inr ⟨p!"Python.Type", by decide, h2⟩⟩

theorem sortStr_two {a b : Str} (h : strLt a b = true) : sortStr [a, b] = [a, b] := by
  have h1 : (sortStr [a, b]).Perm [a, b] := sortStr_perm _
  have h2 := sortStr_sorted [a, b]
  match hl : sortStr [a, b] with
  | [] => rw [hl] at h1; have := h1.length_eq; cases this
  | [_] => rw [hl] at h1; have := h1.length_eq; cases this
  | _ :: _ :: _ :: _ => rw [hl] at h1; have := h1.length_eq; simp at this
  | [c, d] =>
    rw [hl] at h1 h2
    have h3 : strLt d c = false := (List.pairwise_cons.mp h2).1 d (by simp)
    have hc : c = a ∨ c = b := by simpa using h1.mem_iff.mp (show c ∈ [c, d] by simp)
    rcases hc with rfl | rfl
    · have := (List.perm_cons c).mp h1
      rw [List.singleton_perm_singleton.mp this]
    · have := (List.perm_cons c).mp (h1.trans (List.Perm.swap c a []))
      rw [List.singleton_perm_singleton.mp this] at h3
      rw [h] at h3; cases h3

/-- A dict-like written to an unused place: reading gives its items, reading it as numpy data what `BareDict` says. -/
theorem dictBoth_rt {x : Ctx} (ho : RtOpts x.o) {n B : Nat} {wr : Wr} (hwr : WrOk x wr) (hrt : WrRT x n wr) {s s' : St} {ob : Option Nat} {g : Nat}
    {gname name : Str} (hp : Pre x s g name) (hf : Fresh s g name) (hR : RandOk x s.rpos B) (hB : s'.rpos ≤ B) (keys vals : List Val) (struct : Bool) (ts : Str)
    (hlen : vals.length = keys.length) (hgv : ∀ v ∈ vals, Good x.o v)
    (hk : (∃ texts, All2 KeyText keys texts ∧ texts.Nodup) ∨ ((∃ k ∈ keys, NotTextKey k) ∧ KvNames x.o ∧ ∀ k ∈ keys, Good x.o k))
    (h : writeDict x wr g gname name keys vals struct ts s = (.ok ob, s')) :
    ∃ oid ob', ob = some oid ∧ NewObj x s s' oid ∧ (resolve s.heap 0 (refsComps x.o) ≠ some g → LinkAt s'.heap g name oid) ∧ viewOf s'.heap oid = some ob' ∧
      attrToString (aget ob'.attrs p!"Python.Type") = .ok (some ts) ∧ (∃ mc, attrToString (aget ob'.attrs p!"MATLAB_class") = .ok mc) ∧
      ∀ (ro : COpts) (V : View) (excl : Option Nat) (m : Nat), ReadableWith x.o ro (.dict .dict keys vals) → (∀ p, NewObj x s s' p → V p = viewOf s'.heap p) → (∀ q, excl = some q → ¬ NewObj x s s' q) → n ≤ m →
        readDictItems (readData ro V excl m) ro excl ob' = .ok (keys.zip vals) ∧
        ∀ texts ws, BareItems x.o keys vals texts ws → (x.o.matlab && struct && ro.structsAsDicts) = true ∨ (texts ≠ [] ∧ [] ∉ texts) →
          ∃ w, readNp (looksMulti V) (readData ro V excl m) ro excl ob' = .ok w ∧ BareDict (x.o.matlab && struct && ro.structsAsDicts) texts ws w := by
  rcases hk with ⟨texts, ht1, ht2⟩ | ⟨hnt, hkv, hgk⟩
  · obtain ⟨l, hl1, hl2, hl3, hl4, hl5⟩ := keyInfos_text ht1
    have hll : (l.map (·.1)).length = vals.length := by simp [hl2, hlen]
    have hdi : dictItems x.o keys vals = (l.map (·.1)).zip vals := by unfold dictItems; rw [hl1]
    have hnm : (dictItems x.o keys vals).map (·.1) = l.map (·.1) := by rw [hdi, map_fst_zip _ _ hll]
    obtain ⟨oid, links, attrs, oids, rfl, c1, c2, c3, c4, c5, c6⟩ := writeDict_fresh ho.keys_ne ho.vals_ne hwr hrt hp hf hR hB keys vals struct ts
      (by rw [hnm]; exact escaped_nodup hl4 ht2) (by
        intro i hi
        rw [hdi] at hi
        exact hgv _ (List.of_mem_zip hi).2) h
    rw [hl1] at c4
    rw [hnm] at c5
    rw [hdi] at c6
    obtain ⟨t1, t2⟩ := dict_ts ho.pyMeta c4 (.group links)
    refine ⟨oid, _, rfl, c1, c2, by rw [viewOf, c3]; rfl, t1, t2, ?_⟩
    intro ro V excl m hro v1 v2 v3
    have c7 : All2 (fun (i : Str × Val) q => (aget links i.1 = some q ∧ excl ≠ some q ∧ looksMulti V q = false) ∧ readData ro V excl m q = .ok i.2) ((l.map (·.1)).zip vals) oids :=
      all2_mono (fun i q hh => ⟨⟨hh.2.2.1, fun e => v2 q e hh.2.1, typed_single hh.2.2.2.2 (v1 q hh.2.1)⟩,
        hh.2.2.2.1 ro V excl m (readable_val hro (List.of_mem_zip hh.1).2) v1 v2 v3⟩) (all2_mem c6)
    obtain ⟨d1, d2⟩ := all2_unzip (R := fun k q => aget links k = some q ∧ excl ≠ some q ∧ looksMulti V q = false) (S := fun v q => readData ro V excl m q = .ok v) hll c7
    refine ⟨readDictItems_text ho hl2 hl3 hl5 c4 (fun k q hq => Or.inl (c5 k q hq)) (all2_mono (fun _ _ hh => ⟨hh.1, hh.2.1⟩) d1) d2 ht1 ht2, ?_⟩
    intro texts' ws hbi hok
    cases hbi with
    | texts _ ht3 ht4 =>
      obtain ⟨l', hl1', _, hl3', _, _⟩ := keyInfos_text ht3
      rw [hl1] at hl1'
      cases hl1'
      exact readNp_dict ho.pyMeta hl3' ht4 c4 c5 d1 d2 (fun v hv => sized_of_good (hgv v hv)) hok
    | keysFirst hnt _ _ => rw [keyInfos_notText hnt] at hl1; cases hl1
    | valuesFirst hnt _ _ => rw [keyInfos_notText hnt] at hl1; cases hl1
  · have hl1 := keyInfos_notText hnt
    have hdi : dictItems x.o keys vals = [(x.o.keysName, .seq .tuple keys), (x.o.valuesName, .seq .tuple vals)] := by unfold dictItems; rw [hl1]
    have gk : Good x.o (.seq .tuple keys) := .seq _ _ (fun h => by cases h) hgk
    have gv : Good x.o (.seq .tuple vals) := .seq _ _ (fun h => by cases h) hgv
    obtain ⟨oid, links, attrs, oids, rfl, c1, c2, c3, c4, c5, c6⟩ := writeDict_fresh ho.keys_ne ho.vals_ne hwr hrt hp hf hR hB keys vals struct ts
      (by rw [hdi]; simp [hkv.ne]) (by
        intro i hi
        rw [hdi] at hi
        simp only [List.mem_cons, List.not_mem_nil, or_false] at hi
        rcases hi with rfl | rfl
        · exact gk
        · exact gv) h
    rw [hl1] at c4
    rw [hdi] at c5 c6
    obtain ⟨t1, t2⟩ := dict_ts ho.pyMeta c4 (.group links)
    refine ⟨oid, _, rfl, c1, c2, by rw [viewOf, c3]; rfl, t1, t2, ?_⟩
    intro ro V excl m hro v1 v2 v3
    cases c6 with
    | @cons _ q1 _ _ a1 a2 =>
      cases a2 with
      | @cons _ q2 _ _ b1 b2 =>
        have r1 := a1.2.2.1 ro V excl m (readable_list hro.order fun e he => readable_key hro he) v1 v2 v3
        have r2 := b1.2.2.1 ro V excl m (readable_list hro.order fun e he => readable_val hro he) v1 v2 v3
        have k1 : aget links x.o.keysName = some q1 ∧ excl ≠ some q1 ∧ looksMulti V q1 = false :=
          ⟨a1.2.1, fun e => v2 q1 e a1.1, typed_single a1.2.2.2 (v1 q1 a1.1)⟩
        have k2 : aget links x.o.valuesName = some q2 ∧ excl ≠ some q2 ∧ looksMulti V q2 = false :=
          ⟨b1.2.1, fun e => v2 q2 e b1.1, typed_single b1.2.2.2 (v1 q2 b1.1)⟩
        refine ⟨readDictItems_kv ho hkv c4 a1.2.1 b1.2.1 excl r1 r2, ?_⟩
        intro texts' ws hbi _
        cases hbi with
        | texts _ ht3 _ =>
          obtain ⟨l', hl1', _⟩ := keyInfos_text ht3
          rw [hl1] at hl1'; cases hl1'
        | keysFirst _ _ hlt =>
          refine readNp_kv ho.pyMeta (oids := [q1, q2]) (fun k hk => ?_) (by simp [hkv.ne]) (sortStr_two hlt) (by simp) c4 c5 (.cons k1 (.cons k2 .nil)) (.cons r1 (.cons r2 .nil)) (fun v hv => ?_)
          · simp only [List.mem_cons, List.not_mem_nil, or_false] at hk
            rcases hk with rfl | rfl
            · exact hkv.keys
            · exact hkv.vals
          · simp only [List.mem_cons, List.not_mem_nil, or_false] at hv
            rcases hv with rfl | rfl
            · exact sized_of_good gk
            · exact sized_of_good gv
        | valuesFirst _ _ hlt =>
          refine readNp_kv ho.pyMeta (oids := [q2, q1]) (fun k hk => ?_) (by simp [hkv.ne.symm]) (sortStr_two hlt) (by simp) c4
            (fun k q hq => List.mem_cons.mpr ((List.mem_cons.mp (c5 k q hq)).elim (fun e => Or.inr (by rw [e]; simp)) (fun e => Or.inl (List.mem_singleton.mp e))))
            (.cons k2 (.cons k1 .nil)) (.cons r2 (.cons r1 .nil)) (fun v hv => ?_)
          · simp only [List.mem_cons, List.not_mem_nil, or_false] at hk
            rcases hk with rfl | rfl
            · exact hkv.vals
            · exact hkv.keys
          · simp only [List.mem_cons, List.not_mem_nil, or_false] at hv
            rcases hv with rfl | rfl
            · exact sized_of_good gv
            · exact sized_of_good gk

end HS
