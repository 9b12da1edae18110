import Verif.Lemmas.Spread
import Verif.Lemmas.PlainTable
import Verif.Lemmas.MatAll
import Verif.Spec.PlainRead
/-
Reading what has been stored with neither Python metadata nor MATLAB's attributes.
-/
namespace HS
open Spec

/-- The options: neither of the two. -/
structure PlainO (o : COpts) : Prop where
  noPy : o.pyMeta = false
  noMat : o.matlab = false

theorem plain_attrs {o : COpts} (hO : PlainO o) {b : Body} {path : Option Str} {P : Part} {attrs : List (Str × AVal)} (ha : AttrsAre o b path P attrs) (k : Str) :
    aget attrs k = none := by
  cases h : aget attrs k with
  | none => rfl
  | some a =>
    have hp := hO.noPy
    have hm := hO.noMat
    rcases (ha k a).mp h with ⟨w, _, hd⟩ | ⟨h1, _⟩
    · exfalso
      cases hd
      all_goals simp_all
    · rw [hm] at h1; cases h1

/-- Datasets without attributes. -/
theorem read_plainDset {y : COpts} {V : View} {excl : Option Nat} {n q : Nat} {attrs : List (Str × AVal)} {b : Arr} {f : Filters} (hV : V q = some ⟨attrs, .dset b f⟩)
    (ha : ∀ k, aget attrs k = none) :
    readData y V excl (n + 1) q = readDset (readData y V excl n) b >>= fun d => .ok (d.toVal .ndarray) := by
  simp only [readData, hV, ha]
  change readNp (looksMulti V) (readData y V excl n) y excl _ = _
  unfold readNp
  simp only [ha]
  rfl

theorem read_plainArr {y : COpts} {V : View} {excl : Option Nat} {n q : Nat} {attrs : List (Str × AVal)} {b : Arr} {f : Filters} (hV : V q = some ⟨attrs, .dset b f⟩)
    (ha : ∀ k, aget attrs k = none) (h1 : b.dt ≠ .ref) (h2 : ∀ o s n t, b.dt ≠ .comp o s n t) : readData y V excl (n + 1) q = .ok (.np .ndarray b) := by
  rw [read_plainDset hV ha, readDset_plain h1 h2]
  rfl

/-- Groups without attributes. -/
theorem read_plainGroup {y : COpts} {V : View} {excl : Option Nat} {n q : Nat} {attrs : List (Str × AVal)} {links : List (Str × Nat)} (hV : V q = some ⟨attrs, .group links⟩)
    (ha : ∀ k, aget attrs k = none) :
    readData y V excl (n + 1) q = readFields (readData y V excl n) excl (sortedLinks links) [] >>= fun sd =>
      buildStruct (isMulti (looksMulti V) excl (sortedLinks links)) sd none >>= fun d => .ok (d.toVal .ndarray) := by
  simp only [readData, hV, ha]
  change readNp (looksMulti V) (readData y V excl n) y excl _ = _
  unfold readNp
  simp only [ha]
  simp only [bind, Except.bind, attrToString, attrToStrings]
  cases readFields (readData y V excl n) excl (sortedLinks links) [] with
  | error e => rfl
  | ok sd =>
    dsimp only
    rw [if_neg (by rintro ⟨h, _⟩; cases h)]
    have hg : groupNames none none = .ok none := rfl
    rw [hg]
    dsimp only
    cases buildStruct (isMulti (looksMulti V) excl (sortedLinks links)) sd none with
    | error e => rfl
    | ok d =>
      dsimp only
      rw [if_neg (by decide)]
      unfold finish
      simp only [ha]

theorem holds_elems {o : COpts} {a b : Arr} (hb : HoldsArray o a b) : ∀ e ∈ b.data, e ∈ a.data := by
  intro e he
  obtain ⟨k, hk, hke⟩ := List.mem_iff_getElem.mp he
  have hk' : k < (indicesN b.shape).length := by rw [length_indicesN, ← hb.count]; exact hk
  have hg : (indicesN b.shape)[k]? = some ((indicesN b.shape)[k]) := List.getElem?_eq_getElem hk'
  generalize (indicesN b.shape)[k] = i at hg
  have hv : ValidIx b.shape i := (mem_indicesN _ i).mp (List.mem_of_getElem? hg)
  have hR := ravelN_of_getElem _ k i hg
  cases hr : o.reverse with
  | false =>
    have hs : b.shape = RowShape o a.shape := by rw [hb.shape, hr]; rfl
    have := hb.elems i (hs ▸ valid_indexOf hv)
    rw [hr, if_neg (by decide), hR, List.getElem?_eq_getElem hk, hke] at this
    exact List.mem_of_getElem? this.symm
  | true =>
    have hs : b.shape = (RowShape o a.shape).reverse := by rw [hb.shape, if_pos hr]
    have hv' : IndexOf (RowShape o a.shape) i.reverse := by
      have := validIx_reverse hv
      rw [hs, List.reverse_reverse] at this
      exact valid_indexOf this
    have := hb.elems i.reverse hv'
    rw [if_pos hr, List.reverse_reverse, hR, List.getElem?_eq_getElem hk, hke] at this
    exact List.mem_of_getElem? this.symm

/-- dtypes of numbers and text. -/
theorem leaf_dt {o : COpts} {v : Val} {a : Arr} (h : LeafData o v a) : NumericDT a.dt ∨ ∃ n, a.dt = .bytes n := by
  rcases h with h | ⟨h, _⟩
  · exact .inl (numericOf_dt h)
  · cases h with
    | utf16 => exact .inl (by show NumericDT .u16; simp [NumericDT])
    | utf32 => exact .inl (by show NumericDT .u32; simp [NumericDT])
    | empty => left; dsimp only; split <;> simp [NumericDT]
    | bytes16 => exact .inl (by show NumericDT .u16; simp [NumericDT])
    | empty16 => exact .inl (by simp [NumericDT])
    | bytes => exact .inr ⟨_, rfl⟩
    | width0 => exact .inr ⟨_, rfl⟩

theorem leaf_bytes {o : COpts} {v : Val} {a : Arr} (h : LeafData o v a) {n : Nat} (hd : a.dt = .bytes n) : ∀ e ∈ a.data, ∃ u, e = .units u := by
  intro e he
  rcases h with h | ⟨h, _⟩
  · exact absurd (numericOf_dt h) (by rw [hd]; simp [NumericDT])
  · cases h with
    | utf16 => cases hd
    | utf32 => cases hd
    | empty => exact absurd hd (by dsimp only; split <;> nofun)
    | bytes16 => cases hd
    | empty16 => cases hd
    | bytes h => obtain ⟨s, _, rfl⟩ := List.mem_map.mp he; exact ⟨_, rfl⟩
    | width0 h => obtain ⟨s, _, rfl⟩ := List.mem_map.mp he; exact ⟨_, rfl⟩

theorem stored_dt {o : COpts} {d d' : DT} (h : Spec.StoredDT o d d') (hd : NumericDT d ∨ ∃ n, d = .bytes n) :
    d' ≠ .ref ∧ (∀ o s n t, d' ≠ .comp o s n t) ∧ (∀ n, d' ≠ .str n) ∧ ∀ n, d' = .bytes n → d = .bytes n := by
  cases h with
  | bool => split <;> exact ⟨nofun, nofun, nofun, nofun⟩
  | c64 r i => split <;> exact ⟨nofun, nofun, nofun, nofun⟩
  | c128 r i => split <;> exact ⟨nofun, nofun, nofun, nofun⟩
  | same _ h =>
    rcases hd with hd | ⟨n, rfl⟩
    · simp only [NumericDT, List.mem_cons, List.not_mem_nil, or_false] at hd
      rcases hd with rfl | rfl | rfl | rfl | rfl | rfl | rfl | rfl | rfl | rfl | rfl | rfl | rfl | rfl <;> exact ⟨nofun, nofun, nofun, nofun⟩
    · exact ⟨nofun, nofun, nofun, fun _ h => h⟩

theorem asPlain_sized {o : COpts} {P : Part} {w : Val} (h : AsPlain o P w) : Sized w := by
  intro c a' hw
  cases h with
  | data h1 h2 h3 =>
    cases hw
    obtain ⟨_, _, e3, e4⟩ := stored_dt h3.dt (leaf_dt h1)
    refine ⟨h3.count, ?_⟩
    rintro n (hn | hn) e he
    · exact leaf_bytes h1 (e4 n hn) e (holds_elems h3 e he)
    · exact absurd hn (e3 n)
  | noData h1 h2 h3 h4 =>
    unfold HoldsShape at h4
    subst h4
    cases hw
    exact ⟨by simp [prodN], fun n hn => by rcases hn with hn | hn <;> cases hn⟩
  | shape => cases hw; exact ⟨by simp [prodN], fun n hn => by rcases hn with hn | hn <;> cases hn⟩
  | cells => cases hw
  | table => cases hw
  | group => cases hw

theorem asPlain_cells {o : COpts} {P : Part} {S : List Nat} {es : List Val} (h : AsPlain o P (.npObj .ndarray S es)) : ∀ w ∈ es, Sized w := by
  generalize hx : Val.npObj .ndarray S es = x at h
  cases h with
  | data => cases hx
  | noData => cases hx
  | shape => cases hx
  | table => cases hx
  | group => cases hx
  | cells _ _ _ h1 h2 =>
    cases hx
    intro w hw
    obtain ⟨i, hi, e⟩ := List.mem_iff_getElem.mp hw
    exact asPlain_sized (h2 i _ w (List.getElem?_eq_getElem (h1 ▸ hi)) (by rw [List.getElem?_eq_getElem hi, e]))

/-- Parts that can be read back. -/
def PlainPart (o : COpts) : Part → Prop
  | .value v => PlainGood o v
  | .column sh e => ¬ (o.storeShape = true ∧ 0 ∈ sh) ∧ e.length = prodN sh ∧ ∀ w ∈ e, PlainGood o w

theorem leaf_numpy {o : COpts} {v : Val} {a : Arr} (h : LeafData o v a) : ∃ c dt sh, AsNumpy v c dt sh := by
  rcases h with h | ⟨h, _⟩
  · obtain ⟨c, h, _⟩ := numericOf_numpy h; exact ⟨_, _, _, h⟩
  · obtain ⟨_, c, dt, sh, h, _⟩ := textData_class h; exact ⟨_, _, _, h⟩

theorem leaf_notElems {o : COpts} {v : Val} {a : Arr} (h : LeafData o v a) {sh : List Nat} {e : List Val} : ¬ Elements (.value v) sh e := by
  intro he
  obtain ⟨_, _, _, h⟩ := leaf_numpy h
  cases he <;> cases h

theorem plain_elements {o : COpts} {P : Part} {sh : List Nat} {e : List Val} (he : Elements P sh e) (hg : PlainPart o P) : e.length = prodN sh ∧ ∀ w ∈ e, PlainGood o w := by
  cases he with
  | column => exact hg.2
  | npObj c sh e =>
    generalize hv : Val.npObj c sh e = v at hg
    cases (show PlainGood o v from hg) with
    | npObj _ _ _ _ h1 h2 => cases hv; exact ⟨h1, h2⟩
    | seq => cases hv
    | npStruct => cases hv
    | emptyStruct => cases hv
    | table => cases hv
    | dict => cases hv
    | data h => subst hv; exact absurd (Elements.npObj c sh e) (leaf_notElems h)
    | fields h => subst hv; cases h
  | seq k e =>
    generalize hv : Val.seq k e = v at hg
    cases (show PlainGood o v from hg) with
    | seq _ _ h2 => cases hv; exact ⟨by simp [prodN], h2⟩
    | npObj => cases hv
    | npStruct => cases hv
    | emptyStruct => cases hv
    | table => cases hv
    | dict => cases hv
    | data h => subst hv; exact absurd (Elements.seq k e) (leaf_notElems h)
    | fields h => subst hv; cases h

theorem fieldsOf_notElems {o : COpts} {v : Val} {names : List Str} {parts : List Part} (hf : FieldsOf o v names parts) {sh : List Nat} {e : List Val} : ¬ Elements (.value v) sh e := by
  intro he
  cases hf with
  | fields h => cases he <;> cases h
  | keysValues => cases he
  | one => cases he
  | many => cases he

theorem elements_same {P : Part} {sh sh' : List Nat} {e e' : List Val} (h : Elements P sh e) (h' : Elements P sh' e') : sh = sh' := by
  cases h <;> cases h' <;> rfl

/-- Parts of one shape. -/
theorem together_same {o : COpts} {shown : List Str} {parts : List Part} {S : List Nat}
    (h : ∀ P ∈ parts, ∃ sh e, Elements P sh e ∧ ¬ (o.storeShape = true ∧ 0 ∈ sh) ∧ StoredShape o sh = S) : Together o shown parts := by
  refine .inr ⟨fun P hP => ?_, ?_⟩
  · obtain ⟨sh, e, h1, h2, _⟩ := h P hP
    exact ⟨sh, e, h1, h2⟩
  · rintro S' ⟨i, t, P', sh', e', _, _, g1, g2, rfl⟩ P hP sh e h1
    have key : ∀ P ∈ parts, ∀ sh e, Elements P sh e → StoredShape o sh = S := by
      intro P hP sh e h1
      obtain ⟨sh2, e2, h2, _, h3⟩ := h P hP
      rw [elements_same h1 h2, h3]
    refine .inl ?_
    rw [key P hP sh e h1, key P' (List.mem_of_getElem? g1) sh' e' g2]

theorem goodTable_notGroup {o : COpts} {c : Cont} {sh : List Nat} {n : List Str} {ty : List FT} {e : List Val} (h : GoodTable o c sh n ty e) : ¬ GroupFor o (.npStruct c sh n ty e) := by
  intro hG
  have h1 := structAsGroup_of hG.1
  rw [(goodTable_type h).1] at h1
  cases h1

/-- Values that are stored as Groups. -/
theorem plain_group {o : COpts} {v : Val} {names : List Str} {parts : List Part} (hg : PlainGood o v) (hf : FieldsOf o v names parts) (hG : GroupFor o v) :
    (∀ P ∈ parts, PlainPart o P) ∧ ∃ shown, Shown names shown ∧ FieldTexts shown ∧ Together o shown parts := by
  cases hf with
  | fields h1 h2 =>
    cases hg with
    | fields h1' h3 h4 h5 =>
      obtain ⟨rfl, rfl⟩ := hasFields_same h1 h1'
      refine ⟨?_, _, shown_of_escaped h2, h3, h4⟩
      intro P hP
      obtain ⟨w, hw, rfl⟩ := List.mem_map.mp hP
      exact h5 w hw
    | dict _ _ _ _ _ hn => exact (notText_hasFields rfl hn h1).elim
    | data h => obtain ⟨_, _, _, h⟩ := leaf_numpy h; cases h1 <;> cases h
    | npObj => cases h1
    | seq => cases h1
    | npStruct => cases h1
    | emptyStruct => cases h1
    | table => cases h1
  | keysValues k keys vals hn =>
    generalize hv : Val.dict k keys vals = v at hg
    cases hg with
    | dict _ _ _ kn vn h1 h2 h3 h4 h5 h6 =>
      cases hv
      have h0 : keys.length ≠ 0 := by
        intro h
        obtain ⟨k, hk, _⟩ := hn
        rw [List.length_eq_zero_iff.mp h] at hk
        cases hk
      refine ⟨?_, _, h3, h4, together_same (S := StoredShape o [keys.length]) ?_⟩
      · intro P hP
        simp only [List.mem_cons, List.not_mem_nil, or_false] at hP
        rcases hP with rfl | rfl
        · exact .seq _ _ h5
        · exact .seq _ _ h6
      · intro P hP
        simp only [List.mem_cons, List.not_mem_nil, or_false] at hP
        rcases hP with rfl | rfl
        · exact ⟨_, _, .seq _ _, by simp; intro _; omega, rfl⟩
        · exact ⟨_, _, .seq _ _, by simp; intro _; omega, by rw [h2]⟩
    | fields h => exact (notText_hasFields hv.symm hn h).elim
    | data h => subst hv; obtain ⟨_, _, _, h⟩ := leaf_numpy h; cases h
    | npObj => cases hv
    | seq => cases hv
    | npStruct => cases hv
    | emptyStruct => cases hv
    | table => cases hv
  | one c sh n ty e _ h1 h2 =>
    generalize hv : Val.npStruct c sh n ty e = v at hg
    cases hg with
    | npStruct _ _ _ _ _ g1 g2 g3 g4 g5 g6 =>
      cases hv
      refine ⟨?_, _, shown_of_escaped h2, g1, g5 h1⟩
      intro P hP
      obtain ⟨w, hw, rfl⟩ := List.mem_map.mp hP
      exact g6 w hw
    | emptyStruct _ _ _ _ h3 h4 => cases hv; exact absurd ⟨h3, h4⟩ hG.2
    | table _ _ _ _ _ g => cases hv; exact absurd hG (goodTable_notGroup g)
    | dict => cases hv
    | fields h => subst hv; cases h
    | data h => subst hv; obtain ⟨_, _, _, h⟩ := leaf_numpy h; cases h
    | npObj => cases hv
    | seq => cases hv
  | many c sh n ty e _ cols h1 h2 h3 h4 =>
    generalize hv : Val.npStruct c sh n ty e = v at hg
    cases hg with
    | npStruct _ _ _ _ _ g1 g2 g3 g4 g5 g6 =>
      cases hv
      have h0 : ¬ (o.storeShape = true ∧ 0 ∈ RowShape o sh) := fun h => hG.2 ⟨h.1, rowShape_zero.mp h.2⟩
      refine ⟨?_, _, shown_of_escaped h2, g1, together_same (S := StoredShape o (RowShape o sh)) ?_⟩
      · intro P hP
        obtain ⟨col, hw, rfl⟩ := List.mem_map.mp hP
        refine ⟨h0, by rw [prodN_rowShape]; exact h3 col hw, ?_⟩
        intro w hw'
        exact g6 w (h4 ▸ List.mem_flatten.mpr ⟨col, hw, hw'⟩)
      · intro P hP
        obtain ⟨col, hw, rfl⟩ := List.mem_map.mp hP
        exact ⟨_, _, .column _ _, h0, rfl⟩
    | emptyStruct _ _ _ _ g3 g4 => cases hv; exact absurd ⟨g3, g4⟩ hG.2
    | table _ _ _ _ _ g => cases hv; exact absurd hG (goodTable_notGroup g)
    | dict => cases hv
    | fields h => subst hv; cases h
    | data h => subst hv; obtain ⟨_, _, _, h⟩ := leaf_numpy h; cases h
    | npObj => cases hv
    | seq => cases hv

/-- Reading a Group, what its members are read as being known. -/
theorem plain_struct {y : COpts} {V : View} {excl : Option Nat} {n q : Nat} {attrs : List (Str × AVal)} {links : List (Str × Nat)} {keys : List Str} {vs : List Val}
    {multi : Bool} {S : List Nat} {arrs : List (List Nat × List Val)} (hV : V q = some ⟨attrs, .group links⟩) (ha : ∀ k, aget attrs k = none) (hnd : (links.map (·.1)).Nodup)
    (hp : ProperNames links) (hx : ∀ m ∈ links, excl ≠ some m.2) (hk : FieldNames links [] keys) (hm : isMulti (looksMulti V) excl (sortedLinks links) = multi)
    (hvs : All2 (fun nm v => ∃ q, Field links nm q ∧ readData y V excl n q = .ok v) keys vs) (hels : All2 (fun v a => fieldArray multi v = .ok a) vs arrs)
    (hS : arrs.getLast?.map (·.1) = some S) (hb : ∀ a ∈ arrs, broadcasts S (fieldType a.2) a.1 = false) :
    readData y V excl (n + 1) q = if arrs.any (fun a => beyond S a.1) then .error .indexError
      else .ok (.npStruct .ndarray S keys (arrs.map fun a => fieldType a.2) (arrs.map fun a => spread S (fieldType a.2) a.1 a.2).flatten) := by
  obtain ⟨sd, g1, g2, g3⟩ := struct_fields hnd hp (readData y V excl n) excl
  have hget : ∀ nm v, (∃ q, Field links nm q ∧ readData y V excl n q = .ok v) → aget sd nm = some v := by
    rintro nm v ⟨q, ⟨e, h1, h1'⟩, h2⟩
    exact (aget_iff_mem g2).mpr ((g3 nm v).mpr ⟨q, ⟨e, h1, h1'⟩, hx (e, q) h1, h2⟩)
  have hks : ∀ nm, nm ∈ akeys sd ↔ ∃ q, Field links nm q := by
    intro nm
    constructor
    · intro h
      obtain ⟨⟨k, v⟩, h1, h2⟩ := List.mem_map.mp h
      dsimp only at h2
      subst h2
      obtain ⟨q, h3, _⟩ := (g3 k v).mp h1
      exact ⟨q, h3⟩
    · intro h
      obtain ⟨v, hv, h'⟩ := all2_left hvs nm ((hk.all nm).mpr h)
      exact List.mem_map.mpr ⟨(nm, v), aget_mem _ _ _ (hget nm v h'), rfl⟩
  have hs : MatStruct ⟨[(p!"MATLAB_class", .bytes p!"struct")], .group links⟩ links [] :=
    ⟨rfl, hnd, rfl, rfl, rfl, rfl, rfl, rfl, (by rintro (⟨_, h⟩ | h) <;> cases h), .inl ⟨rfl, rfl⟩⟩
  have hb' := buildStruct_any (multi := multi) (S := S) (attr := none) (arrs := arrs) (struct_names hk g2 hks hs).1 (fun f hf => by cases hf) hk.some hk.named hk.nodup (by
    clear hk hks hs hb hS
    induction hvs generalizing arrs with
    | nil => cases hels; exact .nil
    | cons h _ ih =>
      cases hels with
      | cons h1 h2 =>
        refine .cons ?_ (ih h2)
        unfold fieldAt
        rw [hget _ _ h]
        exact h1) hS hb
  rw [read_plainGroup hV ha, g1]
  show (buildStruct _ sd none >>= _) = _
  rw [hm, hb']
  by_cases hbe : (arrs.any fun a => beyond S a.1) = true
  · rw [if_pos hbe, if_pos hbe]
    rfl
  · rw [if_neg hbe, if_neg hbe]
    rfl

/-- What the object is for reading the Group it is in. -/
def MultiAt (o : COpts) (V : View) (q : Nat) (P : Part) : Prop := (Listed o P → looksMulti V q = true) ∧ (¬ Listed o P → looksMulti V q = false)

theorem multi_dset {V : View} {q : Nat} {attrs : List (Str × AVal)} {b : Arr} {f : Filters} (hV : V q = some ⟨attrs, .dset b f⟩) (ha : ∀ k, aget attrs k = none) :
    looksMulti V q = (b.dt == .ref) := by
  unfold looksMulti
  rw [hV]
  show (b.dt == .ref && fieldMarks.all _) = _
  have : (fieldMarks.all fun k => (aget attrs k).isNone) = true := by
    rw [List.all_eq_true]
    intro k _
    rw [ha k]; rfl
  rw [this, Bool.and_true]

theorem multi_group {V : View} {q : Nat} {attrs : List (Str × AVal)} {links : List (Str × Nat)} (hV : V q = some ⟨attrs, .group links⟩) : looksMulti V q = false := by
  unfold looksMulti
  rw [hV]

/-- Lists and the like, and columns. -/
theorem plain_cells {o y : COpts} {V : View} {excl : Option Nat} {q : Nat} {attrs : List (Str × AVal)} {f : Filters} {P : Part} {sh : List Nat} {e el : List Val} {ids : List Nat}
    (hV : V q = some ⟨attrs, .dset ⟨.ref, StoredShape o sh, ids.map .ref⟩ f⟩) (ha : ∀ k, aget attrs k = none) (he : Elements P sh e) (h0 : ¬ (o.storeShape = true ∧ 0 ∈ sh))
    (hi : InOrder o sh e el) (hlen : ids.length = el.length)
    (ih : ∀ (i r : Nat) (w : Val), ids[i]? = some r → el[i]? = some w → ∃ w' N, AsPlain o (.value w) w' ∧ ∀ n, N ≤ n → readData y V excl n r = .ok w') :
    ∃ w N, AsPlain o P w ∧ ∀ n, N ≤ n → readData y V excl n q = .ok w := by
  obtain ⟨vs, N, g1, g2, g3⟩ := read_collect (rd := fun n r => readData y V excl n r) ids (fun i w' => ∀ w, el[i]? = some w → AsPlain o (.value w) w') (by
    intro i r hr
    obtain ⟨hi', _⟩ := List.getElem?_eq_some_iff.mp hr
    have hw : el[i]? = some (el[i]'(hlen ▸ hi')) := List.getElem?_eq_getElem _
    obtain ⟨w', N, e1, e2⟩ := ih i r _ hr hw
    refine ⟨w', N, ?_, e2⟩
    intro w hw'
    rw [hw] at hw'
    cases hw'
    exact e1)
  have hcol : RefColumn V q (StoredShape o sh) ids := by
    refine ⟨attrs, f, hV, ?_, fun k _ => ha k⟩
    rw [hlen, hi.count, StoredShape]
    split
    · rw [prodN_reverse, prodN_rowShape]
    · rw [prodN_rowShape]
  refine ⟨_, N + 1, .cells he h0 hi (es := vs) (by rw [g2, hlen]) (fun i w w' h1 h2 => g3 i w' h2 w h1), ?_⟩
  intro n hn
  obtain ⟨n, rfl⟩ : ∃ m, n = m + 1 := ⟨n - 1, by omega⟩
  exact (read_refColumn hcol (g1 n (by omega))).1

theorem asPlain_listed {o : COpts} {P : Part} {w : Val} (h : AsPlain o P w) {sh : List Nat} {e : List Val} (he : Elements P sh e) (h0 : ¬ (o.storeShape = true ∧ 0 ∈ sh)) :
    ∃ es, w = .npObj .ndarray (StoredShape o sh) es ∧ es.length = prodN (StoredShape o sh) := by
  cases h with
  | data h => exact absurd he (leaf_notElems h)
  | noData h => exact absurd he (leaf_notElems h)
  | shape hs h1 h2 =>
    rcases hs with ⟨e', he'⟩ | ⟨c, n, ty, e', rfl⟩
    · rw [elements_same he' he] at h2; exact absurd ⟨h1, h2⟩ h0
    · cases he
  | table => cases he
  | cells he' _ hi hl =>
    rw [elements_same he' he] at hi ⊢
    refine ⟨_, rfl, ?_⟩
    rw [hl, hi.count, StoredShape]
    split
    · rw [prodN_reverse, prodN_rowShape]
    · rw [prodN_rowShape]
  | group hf => exact absurd he (fieldsOf_notElems hf)

theorem all2_of {α β : Type} {R : α → β → Prop} {l : List α} {m : List β} (hl : l.length = m.length) (h : ∀ (i : Nat) (a : α) (b : β), l[i]? = some a → m[i]? = some b → R a b) :
    All2 R l m := by
  induction l generalizing m with
  | nil => cases m with
    | nil => exact .nil
    | cons => cases hl
  | cons a l ih => cases m with
    | nil => cases hl
    | cons b m => exact .cons (h 0 a b rfl rfl) (ih (by simpa using hl) fun i a b h1 h2 => h (i + 1) a b (by simpa using h1) (by simpa using h2))

/-- The elements in the Dataset are those of the array, in whatever order. -/
theorem inOrder_elem {o : COpts} {sh : List Nat} {e el : List Val} (hi : InOrder o sh e el) : ∀ w ∈ el, w ∈ e := by
  cases hr : o.reverse with
  | true => exact inOrder_mem hr hi
  | false =>
    have hs : StoredShape o sh = RowShape o sh := by rw [StoredShape, hr]; rfl
    intro w hw
    obtain ⟨k, hk, hke⟩ := List.mem_iff_getElem.mp hw
    have hk' : k < (indicesN (RowShape o sh)).length := by rw [length_indicesN, prodN_rowShape, ← hi.count]; exact hk
    have hg : (indicesN (RowShape o sh))[k]? = some ((indicesN (RowShape o sh))[k]) := List.getElem?_eq_getElem hk'
    generalize (indicesN (RowShape o sh))[k] = i at hg
    have hv : ValidIx (RowShape o sh) i := (mem_indicesN _ i).mp (List.mem_of_getElem? hg)
    have h1 := hi.elems i (valid_indexOf hv)
    rw [hs, hr, if_neg (by decide), ravelN_of_getElem _ k i hg, List.getElem?_eq_getElem hk, hke] at h1
    exact List.mem_of_getElem? h1.symm

/-- The object arrays the Datasets of references are read as. -/
theorem plain_arrs {o : COpts} {shown keys : List Str} {parts : List Part} {vals : List Val}
    (hA : All2 (fun t w => (∃ P ∈ parts, AsPlain o P w) ∧ ∀ (i : Nat) (P : Part), shown[i]? = some t → parts[i]? = some P → AsPlain o P w) keys vals)
    (hLall : ∀ P ∈ parts, Listed o P) (hpl : parts.length = shown.length) (hk2 : ∀ t, t ∈ keys ↔ t ∈ shown) (hsort : keys.Pairwise (fun a b => strLt a b = true)) (hv0 : 0 < vals.length) :
    ∃ (arrs : List (List Nat × List Val)) (la : List Nat × List Val), All2 (fun w (a : List Nat × List Val) => w = .npObj .ndarray a.1 a.2 ∧ a.2.length = prodN a.1) vals arrs ∧
      vals.length = arrs.length ∧ (∀ (j : Nat) (a : List Nat × List Val), arrs[j]? = some a → ∃ (i : Nat) (t : Str) (P : Part) (sh : List Nat) (e : List Val), keys[j]? = some t ∧
        shown[i]? = some t ∧ parts[i]? = some P ∧ Elements P sh e ∧ a.1 = StoredShape o sh) ∧ arrs.getLast? = some la ∧ LastShape o shown parts la.1 := by
  obtain ⟨arrs, harrs⟩ := all2_exists (l := vals) (R := fun w (a : List Nat × List Val) => w = .npObj .ndarray a.1 a.2 ∧ a.2.length = prodN a.1) (by
    intro w hw
    obtain ⟨_, _, ⟨P, hP, h⟩, _⟩ := all2_right hA w hw
    obtain ⟨sh, e, h1, h2⟩ := hLall P hP
    obtain ⟨es, h4⟩ := asPlain_listed h h1 h2
    exact ⟨(_, es), h4⟩)
  have hla := all2_length harrs
  have hshape : ∀ (j : Nat) (a : List Nat × List Val), arrs[j]? = some a → ∃ (i : Nat) (t : Str) (P : Part) (sh : List Nat) (e : List Val), keys[j]? = some t ∧ shown[i]? = some t ∧
      parts[i]? = some P ∧ Elements P sh e ∧ a.1 = StoredShape o sh := by
    intro j a ha
    have hj : j < arrs.length := (List.getElem?_eq_some_iff.mp ha).1
    have hj' : j < vals.length := by omega
    have hj2 : j < keys.length := by rw [all2_length hA]; exact hj'
    obtain ⟨e1, _⟩ := all2_at harrs (List.getElem?_eq_getElem hj') ha
    obtain ⟨i, hi, e⟩ := List.mem_iff_getElem.mp ((hk2 keys[j]).mp (List.getElem_mem hj2))
    have e2 : shown[i]? = some keys[j] := by rw [List.getElem?_eq_getElem hi, e]
    have e3 := List.getElem?_eq_getElem (l := parts) (i := i) (by rw [hpl]; exact hi)
    obtain ⟨sh, el, h1, h2⟩ := hLall _ (List.mem_of_getElem? e3)
    obtain ⟨es, h4, _⟩ := asPlain_listed ((all2_at hA (List.getElem?_eq_getElem hj2) (List.getElem?_eq_getElem hj')).2 i _ e2 e3) h1 h2
    rw [e1] at h4
    injection h4 with _ h4
    exact ⟨i, _, _, sh, el, List.getElem?_eq_getElem hj2, e2, e3, h1, h4⟩
  have hlast : ∃ a, arrs.getLast? = some a := by
    cases hl : arrs.getLast? with
    | none => rw [List.getLast?_eq_none_iff.mp hl] at hla; rw [List.length_nil] at hla; omega
    | some a => exact ⟨a, rfl⟩
  obtain ⟨la, hla'⟩ := hlast
  have hlj : arrs[arrs.length - 1]? = some la := by rw [← hla', List.getLast?_eq_getElem?]
  have hLS : LastShape o shown parts la.1 := by
    obtain ⟨i, t, P, sh, e, h1, h2, h3, h4, h5⟩ := hshape _ _ hlj
    refine ⟨i, t, P, sh, e, h2, ?_, h3, h4, h5⟩
    intro u hu
    obtain ⟨k, hk, hke⟩ := List.mem_iff_getElem.mp ((hk2 u).mpr hu)
    have hkl : keys.length = arrs.length := by rw [all2_length hA, hla]
    obtain ⟨hl1, hl2⟩ := List.getElem?_eq_some_iff.mp h1
    by_cases hkk : k = arrs.length - 1
    · subst hkk
      exact .inl (hke.symm.trans hl2)
    · refine .inr ?_
      have := List.pairwise_iff_getElem.mp hsort k (arrs.length - 1) hk hl1 (by omega)
      rwa [hke, hl2] at this
  exact ⟨arrs, la, harrs, hla, hshape, hla', hLS⟩

/-- Groups. -/
theorem plain_groupRead {o y : COpts} {V : View} {excl : Option Nat} {q : Nat} {attrs : List (Str × AVal)} {links : List (Str × Nat)} {ob : Obj}
    {v : Val} {names shown : List Str} {parts : List Part} (hV : V q = some ⟨attrs, .group links⟩) (ha : ∀ k, aget attrs k = none)
    (hp : Prep ob links [] names shown parts) (hf : FieldsOf o v names parts) (hG : GroupFor o v) (hs : Shown names shown) (hn : FieldTexts shown) (ht : Together o shown parts)
    (hx : ∀ k r, aget links k = some r → excl ≠ some r)
    (ih : ∀ (i : Nat) (k : Str) (P : Part) (r : Nat), names[i]? = some k → parts[i]? = some P → aget links k = some r →
      MultiAt o V r P ∧ ∃ w N, AsPlain o P w ∧ ∀ n, N ≤ n → readData y V excl n r = .ok w) :
    ∃ w N, AsPlain o (.value v) w ∧ ∀ n, N ≤ n → readData y V excl n q = .ok w := by
  have hnd := hp.mat.names
  have hxm : ∀ m ∈ links, excl ≠ some m.2 := fun m hm => hx m.1 m.2 ((aget_iff_mem hnd).mpr hm)
  obtain ⟨keys, hk1, hk2⟩ := prep_names hp hn.2
  obtain ⟨vals, hvals⟩ := all2_exists (l := keys)
    (R := fun t w => ((∃ P ∈ parts, AsPlain o P w) ∧ ∀ (i : Nat) (P : Part), shown[i]? = some t → parts[i]? = some P → AsPlain o P w) ∧
      ∃ N, ∀ n, N ≤ n → ∃ r, Field links t r ∧ readData y V excl n r = .ok w) (by
    intro t ht
    obtain ⟨i, hi, e⟩ := List.mem_iff_getElem.mp ((hk2 t).mp ht)
    have e1 : shown[i]? = some t := by rw [List.getElem?_eq_getElem hi, e]
    obtain ⟨k, r, P, b1, b2, b3, b4⟩ := hp.back i t e1
    obtain ⟨_, w, N, h1, h2⟩ := ih i k P r b1 b2 b3
    refine ⟨w, ⟨⟨P, List.mem_of_getElem? b2, h1⟩, ?_⟩, N, fun n hn => ⟨r, ⟨k, b4, hp.sat i k t b1 e1⟩, h2 n hn⟩⟩
    intro j P' g1 g2
    rw [nodup_at hp.nodup g1 e1, b2] at g2
    cases g2
    exact h1)
  obtain ⟨hA, N, hB⟩ := all2_bound hvals
  have hv0 : 0 < vals.length := by
    rw [← all2_length hA]
    have := hk1.some
    cases keys with
    | nil => exact absurd rfl this
    | cons => simp
  have hsort : keys.Pairwise (fun a b => strLt a b = true) := by
    obtain ⟨rest, h1, h2⟩ := hk1.sorted
    rw [h1]
    exact h2
  have fin : ∀ {multi : Bool} {S : List Nat} {shapes : List (List Nat)} {els : List (List Val)}, isMulti (looksMulti V) excl (sortedLinks links) = multi →
      Rows o parts S vals shapes els → shapes.length = els.length → shapes.getLast? = some S → (∀ s ∈ shapes, Fits S s) →
      All2 (fun v a => fieldArray multi v = .ok a) vals (shapes.zip els) → (∀ es ∈ els, ∀ w ∈ es, Sized w) →
      (∀ (j : Nat) (s : List Nat) (es : List Val), shapes[j]? = some s → els[j]? = some es → es.length = prodN s) →
      ∃ w N, AsPlain o (.value v) w ∧ ∀ n, N ≤ n → readData y V excl n q = .ok w := by
    intro multi S shapes els hm hR hl hS hF hE hz hc
    have hz1 : ∀ a ∈ shapes.zip els, a.1 ∈ shapes ∧ a.2 ∈ els := fun a ha => ⟨(List.of_mem_zip ha).1, (List.of_mem_zip ha).2⟩
    refine ⟨_, N + 1, .group hf hG hp.len.symm hs hk1.some hk1.named hsort hk2 (all2_length hA).symm ?_ hR (types := els.map fieldType)
      (us := (shapes.zip els).map fun a => spread S (fieldType a.2) a.1 a.2) ?_ ?_ ?_, ?_⟩
    · intro i j t P w e1 e2 e3 e4
      exact (all2_at hA e3 e4).2 i P e1 e2
    · refine all2_of (by simp) fun i es t h1 h2 => ?_
      rw [List.getElem?_map, h1] at h2
      cases h2
      exact fieldType_of es
    · rw [List.length_map, List.length_zip, hl, Nat.min_self]
    · intro j s es col ft e0 e1 e2 e3
      rw [List.getElem?_map, e1] at e2
      have e4 : (shapes.zip els)[j]? = some (s, es) := by rw [List.getElem?_zip_eq_some]; exact ⟨e0, e1⟩
      rw [List.getElem?_map, e4] at e3
      cases e2; cases e3
      exact spread_filled (hc j s es e0 e1) (hF s (List.mem_of_getElem? e0)) (fieldType_of es) (hz es (List.mem_of_getElem? e1))
    · intro n hn'
      obtain ⟨n, rfl⟩ : ∃ m, n = m + 1 := ⟨n - 1, by omega⟩
      have hS' : (shapes.zip els).getLast?.map (·.1) = some S := by
        rw [← List.getLast?_map, List.map_fst_zip (by omega), hS]
      rw [plain_struct hV ha hnd hp.proper hxm hk1 hm (hB n (by omega)) hE hS' (fun a h => fits_broadcasts (hF a.1 (hz1 a h).1) _), if_neg]
      · have : (shapes.zip els).map (fun a => fieldType a.2) = els.map fieldType := by
          rw [← List.map_snd_zip (l₁ := shapes) (l₂ := els) (by omega), List.map_map, List.map_snd_zip (by omega)]
          rfl
        rw [this]
      · intro h
        obtain ⟨a, ha, h⟩ := List.any_eq_true.mp h
        rw [fits_beyond (hF a.1 (hz1 a ha).1)] at h
        cases h
  rcases ht with ⟨P, hP, hL⟩ | ⟨hLall, hS⟩
  · refine fin (multi := false) (S := [1]) (shapes := vals.map fun _ => [1]) (els := vals.map fun v => [v]) ?_ (.one vals ⟨P, hP, hL⟩) (by simp) ?_ ?_
      (all2_of (by simp) fun i a b h1 h2 => ?_) ?_ ?_
    · obtain ⟨i, hi, e⟩ := List.mem_iff_getElem.mp hP
      have e1 : parts[i]? = some P := by rw [List.getElem?_eq_getElem hi, e]
      have e2 : shown[i]? = some (shown[i]'(by rw [← hp.slen, hp.len]; exact hi)) := List.getElem?_eq_getElem _
      obtain ⟨k, r, P', b1, b2, b3, b4⟩ := hp.back i _ e2
      rw [e1] at b2
      cases b2
      unfold isMulti
      refine List.all_eq_false.mpr ⟨(k, r), sortedLinks_mem b3, ?_⟩
      dsimp only
      rw [(ih i k P r b1 e1 b3).1.2 hL, Bool.or_false]
      simpa using hx k r b3
    · rw [List.getLast?_map]
      cases hl : vals.getLast? with
      | none => rw [List.getLast?_eq_none_iff.mp hl] at hv0; exact absurd hv0 (by simp)
      | some e => rfl
    · intro s hs
      obtain ⟨_, _, rfl⟩ := List.mem_map.mp hs
      exact .inl rfl
    · rw [List.getElem?_zip_eq_some, List.getElem?_map, List.getElem?_map, h1] at h2
      obtain ⟨h2, h3⟩ := h2
      cases b
      cases h2; cases h3
      rfl
    · intro es hes w hw
      obtain ⟨u, hu, rfl⟩ := List.mem_map.mp hes
      rw [List.mem_singleton.mp hw]
      obtain ⟨_, _, ⟨P, _, h⟩, _⟩ := all2_right hA u hu
      exact asPlain_sized h
    · intro j s es h1 h2
      rw [List.getElem?_map] at h1 h2
      cases hv : vals[j]? with
      | none => rw [hv] at h1; cases h1
      | some u => rw [hv] at h1 h2; cases h1; cases h2; rfl
  · obtain ⟨arrs, la, harrs, hla, hshape, hla', hLS⟩ := plain_arrs hA hLall (hp.len.symm.trans hp.slen) hk2 hsort hv0
    have hzip : (arrs.map (·.1)).zip (arrs.map (·.2)) = arrs := by
      clear hla hshape hla' harrs
      induction arrs with
      | nil => rfl
      | cons a l ih => simp only [List.map_cons, List.zip_cons_cons]; rw [ih]
    have hvals : vals = List.zipWith (.npObj .ndarray) (arrs.map (·.1)) (arrs.map (·.2)) := by
      clear hla hshape hla' hzip hLS fin hvals hA hB hv0
      induction harrs with
      | nil => rfl
      | cons h _ ih => simp only [List.map_cons, List.zipWith_cons_cons]; rw [← ih, ← h.1]
    have hFits : ∀ s ∈ arrs.map (·.1), Fits la.1 s := by
      intro s hs'
      obtain ⟨a, ha, rfl⟩ := List.mem_map.mp hs'
      obtain ⟨j, hj, e⟩ := List.mem_iff_getElem.mp ha
      obtain ⟨i, t, P, sh, el, _, _, h3, h4, h5⟩ := hshape j a (by rw [List.getElem?_eq_getElem hj, e])
      rw [h5]
      exact hS _ hLS P (List.mem_of_getElem? h3) sh el h4
    refine fin (multi := true) (S := la.1) (shapes := arrs.map (·.1)) (els := arrs.map (·.2)) ?_ ?_ (by simp) (by rw [List.getLast?_map, hla']; rfl) hFits ?_ ?_ ?_
    · unfold isMulti
      refine List.all_eq_true.mpr ?_
      rintro ⟨k, r⟩ hm
      obtain ⟨i, P, t, e1, e2, e3, e4⟩ := hp.idx (k, r) ((aget_iff_mem hnd).mp (mem_sortedLinks hm))
      dsimp only
      rw [(ih i k P r e1 e2 (mem_sortedLinks hm)).1.1 (hLall P (List.mem_of_getElem? e2)), Bool.or_true]
    · rw [hvals]
      exact .several _ _ _ hLall (by simp) (by rw [List.getLast?_map, hla']; rfl) hFits
    · rw [hzip]
      refine all2_of hla fun i w a h1 h2 => ?_
      obtain ⟨e1, _⟩ := all2_at harrs h1 h2
      rw [e1]
      rfl
    · intro es hes
      obtain ⟨a, ha, rfl⟩ := List.mem_map.mp hes
      obtain ⟨w, hw, e1, _⟩ := all2_right harrs a ha
      obtain ⟨_, _, ⟨P, _, h⟩, _⟩ := all2_right hA w hw
      rw [e1] at h
      exact asPlain_cells h
    · intro j s es h1 h2
      rw [List.getElem?_map] at h1 h2
      cases ha : arrs[j]? with
      | none => rw [ha] at h1; cases h1
      | some a =>
        rw [ha] at h1 h2
        cases h1; cases h2
        obtain ⟨w, _, _, e2⟩ := all2_right harrs a (List.mem_of_getElem? ha)
        exact e2

/-- Groups whose last field is shorter than another one. -/
theorem plain_groupBeyond {o y : COpts} {V : View} {excl : Option Nat} {q : Nat} {attrs : List (Str × AVal)} {links : List (Str × Nat)} {ob : Obj}
    {names shown : List Str} {parts : List Part} (hV : V q = some ⟨attrs, .group links⟩) (ha : ∀ k, aget attrs k = none)
    (hp : Prep ob links [] names shown parts) (hn : FieldTexts shown) (hx : ∀ k r, aget links k = some r → excl ≠ some r)
    (hLall : ∀ P ∈ parts, Listed o P) (hdim : ∀ S, LastShape o shown parts S → ∀ P ∈ parts, ∀ sh e, Elements P sh e → (StoredShape o sh).length = S.length)
    (hlong : ∀ S, LastShape o shown parts S → 0 ∉ S ∧ ∃ P ∈ parts, ∃ sh e, Elements P sh e ∧ 0 ∉ StoredShape o sh ∧ ∃ k : Nat, S.getD k 0 < (StoredShape o sh).getD k 0)
    (ih : ∀ (i : Nat) (k : Str) (P : Part) (r : Nat), names[i]? = some k → parts[i]? = some P → aget links k = some r →
      MultiAt o V r P ∧ ∃ w N, AsPlain o P w ∧ ∀ n, N ≤ n → readData y V excl n r = .ok w) :
    ∃ N, ∀ n, N ≤ n → readData y V excl n q = .error .indexError := by
  have hnd := hp.mat.names
  have hxm : ∀ m ∈ links, excl ≠ some m.2 := fun m hm => hx m.1 m.2 ((aget_iff_mem hnd).mpr hm)
  obtain ⟨keys, hk1, hk2⟩ := prep_names hp hn.2
  obtain ⟨vals, hvals⟩ := all2_exists (l := keys)
    (R := fun t w => ((∃ P ∈ parts, AsPlain o P w) ∧ ∀ (i : Nat) (P : Part), shown[i]? = some t → parts[i]? = some P → AsPlain o P w) ∧
      ∃ N, ∀ n, N ≤ n → ∃ r, Field links t r ∧ readData y V excl n r = .ok w) (by
    intro t ht
    obtain ⟨i, hi, e⟩ := List.mem_iff_getElem.mp ((hk2 t).mp ht)
    have e1 : shown[i]? = some t := by rw [List.getElem?_eq_getElem hi, e]
    obtain ⟨k, r, P, b1, b2, b3, b4⟩ := hp.back i t e1
    obtain ⟨_, w, N, h1, h2⟩ := ih i k P r b1 b2 b3
    refine ⟨w, ⟨⟨P, List.mem_of_getElem? b2, h1⟩, ?_⟩, N, fun n hn => ⟨r, ⟨k, b4, hp.sat i k t b1 e1⟩, h2 n hn⟩⟩
    intro j P' g1 g2
    rw [nodup_at hp.nodup g1 e1, b2] at g2
    cases g2
    exact h1)
  obtain ⟨hA, N, hB⟩ := all2_bound hvals
  have hv0 : 0 < vals.length := by
    rw [← all2_length hA]
    have := hk1.some
    cases keys with
    | nil => exact absurd rfl this
    | cons => simp
  have hsort : keys.Pairwise (fun a b => strLt a b = true) := by
    obtain ⟨rest, h1, h2⟩ := hk1.sorted
    rw [h1]
    exact h2
  obtain ⟨arrs, la, harrs, hla, hshape, hla', hLS⟩ := plain_arrs hA hLall (hp.len.symm.trans hp.slen) hk2 hsort hv0
  obtain ⟨h0, P, hP, sh, e, hE, h0', k, hk⟩ := hlong _ hLS
  have hd : ∀ a ∈ arrs, a.1.length = la.1.length := by
    intro a ha
    obtain ⟨j, hj, e⟩ := List.mem_iff_getElem.mp ha
    obtain ⟨i, t, P, sh, el, _, _, h3, h4, h5⟩ := hshape j a (by rw [List.getElem?_eq_getElem hj, e])
    rw [h5]
    exact hdim _ hLS P (List.mem_of_getElem? h3) sh el h4
  -- the array that is longer
  have hlonga : ∃ a ∈ arrs, a.1 = StoredShape o sh := by
    obtain ⟨i, hi, e1⟩ := List.mem_iff_getElem.mp hP
    have hi' : i < shown.length := by rw [← hp.slen, hp.len]; exact hi
    obtain ⟨j, hj, e2⟩ := List.mem_iff_getElem.mp ((hk2 shown[i]).mpr (List.getElem_mem hi'))
    have hja : j < arrs.length := by rw [← hla, ← all2_length hA]; exact hj
    refine ⟨arrs[j], List.getElem_mem hja, ?_⟩
    obtain ⟨i', t, P', sh', el, g1, g2, g3, g4, g5⟩ := hshape j _ (List.getElem?_eq_getElem hja)
    rw [List.getElem?_eq_getElem hj, e2] at g1
    cases g1
    have : i' = i := nodup_at hn.1 g2 (List.getElem?_eq_getElem hi')
    subst this
    rw [List.getElem?_eq_getElem hi, e1] at g3
    cases g3
    rw [g5, elements_same g4 hE]
  refine ⟨N + 1, ?_⟩
  intro n hn'
  obtain ⟨n, rfl⟩ : ∃ m, n = m + 1 := ⟨n - 1, by omega⟩
  have hmulti : isMulti (looksMulti V) excl (sortedLinks links) = true := by
    unfold isMulti
    refine List.all_eq_true.mpr ?_
    rintro ⟨k, r⟩ hm
    obtain ⟨i, P, t, e1, e2, e3, e4⟩ := hp.idx (k, r) ((aget_iff_mem hnd).mp (mem_sortedLinks hm))
    dsimp only
    rw [(ih i k P r e1 e2 (mem_sortedLinks hm)).1.1 (hLall P (List.mem_of_getElem? e2)), Bool.or_true]
  have hE' : All2 (fun v a => fieldArray true v = .ok a) vals arrs := by
    refine all2_of hla fun i w a h1 h2 => ?_
    obtain ⟨e1, _⟩ := all2_at harrs h1 h2
    rw [e1]
    rfl
  rw [plain_struct hV ha hnd hp.proper hxm hk1 hmulti (hB n (by omega)) hE' (S := la.1) (by rw [hla']; rfl) (fun a h => by
    unfold broadcasts
    rw [hd a h]
    simp), if_pos]
  obtain ⟨a, haa, hae⟩ := hlonga
  refine List.any_eq_true.mpr ⟨a, haa, ?_⟩
  have hl := hd a haa
  rw [hae] at hl
  rw [hae]
  have hover : ((StoredShape o sh).zip la.1).any (fun p => decide (p.2 < p.1)) = true := by
    cases h : ((StoredShape o sh).zip la.1).any (fun p => decide (p.2 < p.1)) with
    | true => rfl
    | false =>
      have := (zip_over hl).mp h k
      omega
  have c1 : la.1.contains 0 = false := by
    cases h : la.1.contains 0 with
    | false => rfl
    | true => exact absurd (contains_zero.mp h) h0
  have c2 : (StoredShape o sh).contains 0 = false := by
    cases h : (StoredShape o sh).contains 0 with
    | false => rfl
    | true => exact absurd (contains_zero.mp h) h0'
  have c3 : (StoredShape o sh != la.1) = true := by
    rw [bne_iff_ne]
    intro h
    rw [h] at hk
    omega
  unfold beyond
  rw [c1, c2, c3, hover]
  simp

theorem plain_kept {o : COpts} (hO : PlainO o) (v : Val) : ¬ Discarded o v := by
  rintro ⟨h, _⟩
  rw [hO.noMat] at h
  cases h

theorem readDset_table {rd : Rd} {a : Arr} {pairs : Bool} {sz : Nat} {n : List Str} {ty : List FT} {els : List (List Val)} (hdt : a.dt = .comp pairs sz n ty)
    (t1 : complexPair n ty = false) (t2 : FT.hasPairL ty = false) (hcol : unflatCols (prodN a.shape) ty a.data = els) : readDset rd a = .ok (.tab a.shape n ty els) := by
  unfold readDset
  rw [if_neg (by rw [hdt]; nofun), hdt]
  show readTable a.shape n ty a.data = _
  unfold readTable
  rw [t1, t2, hcol]
  rfl

/-- Everything. -/
theorem laid_plain {o y : COpts} (hO : PlainO o) {h : Heap} (ht : Tree h) (hk : DistinctNames h) (hp : PlainNames (hdf5Names o.refsPath))
    (hr : y.refsPath = o.refsPath) {ns : List Str} {path : Option Str} {q : Nat} {P : Part} (hl : Laid o h ns path q P) (hoff : ¬ ns <+: hdf5Names o.refsPath) (hg : PlainPart o P) :
    MultiAt o (viewOf h) q P ∧ ∃ w N, AsPlain o P w ∧ ∀ n, N ≤ n → readData y (viewOf h) (exclOf y h) n q = .ok w := by
  have once : ∀ {P : Part} {q : Nat} {w : Val}, AsPlain o P w → (∀ n, readData y (viewOf h) (exclOf y h) (n + 1) q = .ok w) →
      ∃ w N, AsPlain o P w ∧ ∀ n, N ≤ n → readData y (viewOf h) (exclOf y h) n q = .ok w := by
    intro P q w h1 h2
    refine ⟨w, 1, h1, ?_⟩
    intro n hn
    obtain ⟨n, rfl⟩ : ∃ m, n = m + 1 := ⟨n - 1, by omega⟩
    exact h2 n
  induction hl with
  | @data ns path q v attrs a f c dt sh _ hq ha hn hd =>
    have ha' := plain_attrs hO (attrs_view ha)
    have hV := view_at hq
    have hleaf : ∃ b, LeafData o v b := by
      cases (show PlainGood o v from hg) with
      | data h => exact ⟨_, h⟩
      | npObj => cases hn
      | seq => cases hn
      | fields h => cases h <;> cases hn
      | dict => cases hn
      | npStruct => cases hn
      | emptyStruct => cases hn
      | table => cases hn
    obtain ⟨b, hb⟩ := hleaf
    have hnl : ¬ Listed o (.value v) := fun ⟨_, _, h, _⟩ => leaf_notElems hb h
    have key : a.dt ≠ .ref ∧ ∃ w N, AsPlain o (.value v) w ∧ ∀ n, N ≤ n → readData y (viewOf h) (exclOf y h) n q = .ok w := by
      by_cases h0 : o.storeShape = true ∧ NoElements v
      · have := (hd _ hb).1 h0
        have e : a.dt = .u64 := by unfold HoldsShape at this; rw [this]
        refine ⟨by rw [e]; nofun, once (.noData hb h0.1 h0.2 this) fun n => ?_⟩
        exact read_plainArr hV ha' (by rw [e]; nofun) (by rw [e]; nofun)
      · have := (hd _ hb).2 h0
        obtain ⟨e1, e2, _⟩ := stored_dt this.dt (leaf_dt hb)
        exact ⟨e1, once (.data hb h0 this) fun n => read_plainArr hV ha' e1 e2⟩
    refine ⟨⟨fun h => absurd h hnl, fun _ => ?_⟩, key.2⟩
    rw [multi_dset hV ha']
    simpa using key.1
  | @table ns path q attrs a f c sh n ty e _ hq ha h1 h2 h3 h4 h5 =>
    generalize hv : Val.npStruct c sh n ty e = v at hg
    cases (show PlainGood o v from hg) with
    | npStruct _ _ _ _ _ _ _ _ g => cases hv; exact absurd g h2
    | emptyStruct _ _ _ _ g1 g2 => cases hv; exact absurd ⟨g1, g2⟩ h1
    | dict => cases hv
    | fields h => subst hv; cases h
    | data h => subst hv; obtain ⟨_, _, _, h⟩ := leaf_numpy h; cases h
    | npObj => cases hv
    | seq => cases hv
    | table _ _ _ _ _ g =>
      cases hv
      have ha' := plain_attrs hO (attrs_view ha)
      have hV := view_at hq
      obtain ⟨pairs, sz, hdt⟩ := h3
      obtain ⟨cols, els, c1, c2, c3, c4⟩ := h5 g.fields
      obtain ⟨_, t1, t2⟩ := goodTable_type g
      have hps : prodN a.shape = prodN sh := by
        rw [h4, StoredShape]
        split
        · rw [prodN_reverse, prodN_rowShape]
        · rw [prodN_rowShape]
      have hcl : cols.length = ty.length := by
        have := congrArg List.length c2
        rw [flatten_const_length _ _ c1, g.filled, g.typed.symm] at this
        exact Nat.eq_of_mul_eq_mul_right g.size this
      have hch := chunksN_flatten (prodN sh) _ c1
      rw [hcl, ← splitCols_chunks, c2] at hch
      have hcol : unflatCols (prodN sh) ty a.data = els := by
        refine table_columns c4 (by rw [← all2_length c3, hcl]) (fun col hcol => ?_) fun k t col hk hcol v hm => ?_
        · obtain ⟨_, _, h⟩ := all2_right c3 col hcol
          exact h.count
        · have hkl : k < ty.length := (List.getElem?_eq_some_iff.mp hk).1
          have e1 : cols[k]? = some ((e.drop (k * prodN sh)).take (prodN sh)) := by
            rw [← hch]
            exact splitCols_get _ _ _ _ hkl
          exact g.fields k t hk v (inOrder_elem (all2_at c3 e1 hcol) v hm)
      refine ⟨⟨(fun h => by obtain ⟨_, _, he, _⟩ := h; cases he), fun _ => ?_⟩, once (.table g c1 c2 c3) fun n => ?_⟩
      · rw [multi_dset hV ha', hdt]
        rfl
      · rw [read_plainDset hV ha']
        rw [readDset_table hdt t1 t2 (hps ▸ hcol), ← h4]
        rfl
  | @shape ns path q P _ a _ sh _ hq ha hs h1 h0 hd =>
    have ha' := plain_attrs hO (attrs_view ha)
    have hV := view_at hq
    have e : a.dt = .u64 := by rw [hd]
    have hnl : ¬ Listed o P := by
      rintro ⟨sh', e', he, h⟩
      rcases hs with ⟨e, he'⟩ | ⟨c, n, ty, e, rfl⟩
      · rw [elements_same he' he] at h0; exact h ⟨h1, h0⟩
      · cases he
    refine ⟨⟨fun h => absurd h hnl, fun _ => ?_⟩, once (.shape hs h1 h0) fun n => ?_⟩
    · rw [multi_dset hV ha']; rw [e]; rfl
    · rw [← hd]
      exact read_plainArr hV ha' (by rw [e]; nofun) (by rw [e]; nofun)
  | @refs ns path q P attrs f sh e el ids nms _ hq ha he h0 hi hlen hnlen hdis _ ih =>
    have ha' := plain_attrs hO (attrs_view ha)
    have hV := view_at hq
    obtain ⟨hcount, hgood⟩ := plain_elements he hg
    refine ⟨⟨fun _ => ?_, fun h => absurd ⟨_, _, he, h0⟩ h⟩, plain_cells hV ha' he h0 hi hlen ?_⟩
    · rw [multi_dset hV ha']; rfl
    · intro i r w h1 h2
      have hgw := hgood w (inOrder_elem hi w (List.mem_of_getElem? h2))
      obtain ⟨hi', _⟩ := List.getElem?_eq_some_iff.mp h2
      have hn : nms[i]? = some (nms[i]'(hnlen ▸ hi')) := List.getElem?_eq_getElem _
      refine (ih i w r _ h2 h1 hn (plain_kept hO w) ?_ hgw).2
      intro hpre
      have := hpre.length_le
      simp at this
      omega
  | @group ns path q v attrs links names parts hpath hq ha hG hf hlen hlinks hlaid ih =>
    have ha' := plain_attrs hO (attrs_view ha)
    have hV := view_at hq
    obtain ⟨hparts, shown, hs, hsn, hT⟩ := plain_group hg hf hG
    have hkept : ∀ P, ¬ LeftOut o P := by
      rintro P ⟨v, rfl, hd⟩
      exact plain_kept hO v hd
    have hlk : linksOf h q = links := by unfold linksOf; rw [hq]
    have hoff' : ∀ k, ¬ ns ++ [k] <+: hdf5Names o.refsPath := fun k hpre => hoff ((List.prefix_append ns [k]).trans hpre)
    have hnd : (links.map (·.1)).Nodup := by
      have := hk q
      rwa [hlk] at this
    have hm : MatStruct ⟨[(p!"MATLAB_class", .bytes p!"struct")], .group links⟩ links [] :=
      ⟨rfl, hnd, rfl, rfl, rfl, rfl, rfl, rfl, (by rintro (⟨_, h⟩ | h) <;> cases h), .inl ⟨rfl, rfl⟩⟩
    refine ⟨⟨?_, fun _ => multi_group hV⟩, plain_groupRead hV ha' (prep_of hm (.inl ⟨rfl, rfl⟩) hlen hs hsn.1 ?_) hf hG hs hsn hT ?_ ?_⟩
    · rintro ⟨_, _, he, _⟩
      exact absurd he (fieldsOf_notElems hf)
    · intro k
      rw [hlinks k]
      constructor
      · rintro ⟨i, P, h1, h2, _⟩; exact ⟨i, P, h1, h2⟩
      · rintro ⟨i, P, h1, h2⟩; exact ⟨i, P, h1, h2, hkept P⟩
    · intro k r hkr hex
      unfold exclOf at hex
      rw [hr] at hex
      have h1 := lpath_resolve (l := hdf5Names o.refsPath) hp hex
      have h2 : LPath h (ns ++ [k]) r := .snoc hpath (by unfold LinkAt; rw [hlk]; exact hkr)
      exact hoff' k (LPath.unique ht h2 h1 ▸ List.prefix_refl _)
    · intro i k P r h1 h2 h3
      exact ih i k P r h1 h2 h3 (hoff' k) (hparts P (List.mem_of_getElem? h2))

/-- Groups of values with fields, the last of which is shorter than another one. -/
theorem laid_beyond {o y : COpts} (hO : PlainO o) {h : Heap} (ht : Tree h) (hk : DistinctNames h) (hp : PlainNames (hdf5Names o.refsPath))
    (hr : y.refsPath = o.refsPath) {ns : List Str} {path : Option Str} {q : Nat} {v : Val} (hl : Laid o h ns path q (.value v)) (hoff : ¬ ns <+: hdf5Names o.refsPath)
    {texts : List Str} {vals : List Val} (hF : HasFields v texts vals) (hT : FieldTexts texts) (hg : ∀ w ∈ vals, PlainGood o w)
    (hLall : ∀ P ∈ vals.map Part.value, Listed o P)
    (hdim : ∀ S, LastShape o texts (vals.map .value) S → ∀ P ∈ vals.map Part.value, ∀ sh e, Elements P sh e → (StoredShape o sh).length = S.length)
    (hlong : ∀ S, LastShape o texts (vals.map .value) S → 0 ∉ S ∧ ∃ P ∈ vals.map Part.value, ∃ sh e, Elements P sh e ∧ 0 ∉ StoredShape o sh ∧
      ∃ k : Nat, S.getD k 0 < (StoredShape o sh).getD k 0) :
    ∃ N, ∀ n, N ≤ n → readData y (viewOf h) (exclOf y h) n q = .error .indexError := by
  generalize hQ : Part.value v = Q at hl
  cases hl with
  | data _ _ _ h => cases hQ; cases hF <;> cases h
  | table => cases hQ; cases hF
  | shape _ _ _ h =>
    subst hQ
    rcases h with ⟨e, h⟩ | ⟨c, n, ty, e, h⟩
    · cases hF <;> cases h
    · cases h; cases hF
  | refs _ _ _ h => subst hQ; cases hF <;> cases h
  | @group ns path q v attrs links names parts hpath hq ha hG hf hlen hlinks hlaid =>
    cases hQ
    have ha' := plain_attrs hO (attrs_view ha)
    have hV := view_at hq
    have hfo' : parts = vals.map .value ∧ All2 (fun t k => escapePath t = .ok k) texts names := by
      cases hf with
      | fields h1 h2 =>
        obtain ⟨rfl, rfl⟩ := hasFields_same h1 hF
        exact ⟨rfl, h2⟩
      | keysValues k ks vs h1 => exact (notText_hasFields rfl h1 hF).elim
      | one => cases hF
      | many => cases hF
    obtain ⟨rfl, he⟩ := hfo'
    have hkept : ∀ P, ¬ LeftOut o P := by
      rintro P ⟨v, rfl, hd⟩
      exact plain_kept hO v hd
    have hlk : linksOf h q = links := by unfold linksOf; rw [hq]
    have hoff' : ∀ k, ¬ ns ++ [k] <+: hdf5Names o.refsPath := fun k hpre => hoff ((List.prefix_append ns [k]).trans hpre)
    have hnd : (links.map (·.1)).Nodup := by
      have := hk q
      rwa [hlk] at this
    have hm : MatStruct ⟨[(p!"MATLAB_class", .bytes p!"struct")], .group links⟩ links [] :=
      ⟨rfl, hnd, rfl, rfl, rfl, rfl, rfl, rfl, (by rintro (⟨_, h⟩ | h) <;> cases h), .inl ⟨rfl, rfl⟩⟩
    refine plain_groupBeyond hV ha' (prep_of hm (.inl ⟨rfl, rfl⟩) hlen (shown_of_escaped he) hT.1 ?_) hT ?_ hLall hdim hlong ?_
    · intro k
      rw [hlinks k]
      constructor
      · rintro ⟨i, P, h1, h2, _⟩; exact ⟨i, P, h1, h2⟩
      · rintro ⟨i, P, h1, h2⟩; exact ⟨i, P, h1, h2, hkept P⟩
    · intro k r hkr hex
      unfold exclOf at hex
      rw [hr] at hex
      have h1 := lpath_resolve (l := hdf5Names o.refsPath) hp hex
      have h2 : LPath h (ns ++ [k]) r := .snoc hpath (by unfold LinkAt; rw [hlk]; exact hkr)
      exact hoff' k (LPath.unique ht h2 h1 ▸ List.prefix_refl _)
    · intro i k P r h1 h2 h3
      obtain ⟨w, hw, rfl⟩ := List.mem_map.mp (List.mem_of_getElem? h2)
      exact laid_plain hO ht hk hp hr (hlaid i k _ r h1 h2 h3) (hoff' k) (hg w hw)

theorem lastShape_same {o : COpts} {shown : List Str} {parts : List Part} {S S' : List Nat} (hn : shown.Nodup) (h : LastShape o shown parts S) (h' : LastShape o shown parts S') :
    S = S' := by
  obtain ⟨i, t, P, sh, e, a1, a2, a3, a4, rfl⟩ := h
  obtain ⟨i', t', P', sh', e', b1, b2, b3, b4, rfl⟩ := h'
  have : t = t' := by
    rcases a2 t' (List.mem_of_getElem? b1) with h | h
    · exact h.symm
    · rcases b2 t (List.mem_of_getElem? a1) with h' | h'
      · exact h'
      · rw [strLt_asymm _ _ h] at h'; cases h'
  subst this
  have : i = i' := nodup_at hn a1 b1
  subst this
  rw [a3] at b3
  cases b3
  rw [elements_same a4 b4]

end HS
