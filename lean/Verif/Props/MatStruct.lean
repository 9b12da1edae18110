import Verif.Props.Matlab
import Verif.Props.RoundTrip
import Verif.Lemmas.MatStruct
/-
C55: reading the structs of MATLAB.
-/
namespace HS
open Spec

/-- C55. With `structs_as_dicts` a struct is a dict: it has an entry for exactly the fields that can be read, with the values they have. -/
theorem C55_as_dict (o : COpts) (V : View) (excl : Option Nat) (n p : Nat) (ob : Obj) (members : List (Str × Nat)) (order : List Str)
    (hV : V p = some ob) (hs : MatStruct ob members order) (hp : ProperNames members) (ho : o.structsAsDicts = true) :
    ∃ items : List (Str × Val), readData o V excl (n + 1) p = .ok (.dict .dict (items.map fun i => .str i.1) (items.map (·.2))) ∧ (items.map (·.1)).Nodup ∧
      ∀ nm v, (nm, v) ∈ items ↔ ∃ q, Field members nm q ∧ excl ≠ some q ∧ readData o V excl n q = .ok v := by
  obtain ⟨sd, g1, g2, g3⟩ := struct_fields hs.names hp (readData o V excl n) excl
  refine ⟨sd, ?_, g2, g3⟩
  rw [read_matStruct hV hs, g1]
  show (if o.structsAsDicts = true then _ else _) = _
  rw [if_pos ho]

/-- C55. Otherwise a struct with one element, that is with a field that is stored directly, becomes a structured array of one element: the fields are those of the
file, in the order given by the file, then sorted; they have the values read from the members and the dtypes of these (objects that are not numpy data are in object
fields). -/
theorem C55_one (o : COpts) (V : View) (excl : Option Nat) (n p : Nat) (ob : Obj) (members : List (Str × Nat)) (order names : List Str) (vs : List Val)
    (hV : V p = some ob) (hs : MatStruct ob members order) (hp : ProperNames members) (ho : o.structsAsDicts = false) (hx : ∀ m ∈ members, excl ≠ some m.2)
    (hn : FieldNames members order names) (hone : ∃ m ∈ members, HoldsValue V m.2)
    (hvs : All2 (fun nm v => ∃ q, Field members nm q ∧ readData o V excl n q = .ok v) names vs) (hz : ∀ v ∈ vs, Sized v) :
    ∃ types ws, readData o V excl (n + 1) p = .ok (.npStruct .ndarray [1] names types ws) ∧ All2 (fun v t => FieldTypeOf [v] t) vs types ∧
      types.length = names.length ∧ ws.length = names.length ∧ ∀ (k : Nat) v t w, vs[k]? = some v → types[k]? = some t → ws[k]? = some w → Handed t v w := by
  obtain ⟨sd, g1, g2, g3⟩ := struct_fields hs.names hp (readData o V excl n) excl
  have hnox : ∀ nm q, Field members nm q → excl ≠ some q := fun nm q ⟨e, h1, _⟩ => hx (e, q) h1
  have hget : ∀ nm v, (∃ q, Field members nm q ∧ readData o V excl n q = .ok v) → aget sd nm = some v := by
    rintro nm v ⟨q, h1, h2⟩
    exact (aget_iff_mem g2).mpr ((g3 nm v).mpr ⟨q, h1, hnox nm q h1, h2⟩)
  have hk : ∀ nm, nm ∈ akeys sd ↔ ∃ q, Field members nm q := by
    intro nm
    constructor
    · intro h
      obtain ⟨⟨k, v⟩, h1, h2⟩ := List.mem_map.mp h
      dsimp only at h2
      subst h2
      obtain ⟨q, h3, _⟩ := (g3 k v).mp h1
      exact ⟨q, h3⟩
    · intro h
      obtain ⟨v, hv, h'⟩ := all2_left hvs nm ((hn.all nm).mpr h)
      exact List.mem_map.mpr ⟨(nm, v), aget_mem _ _ _ (hget nm v h'), rfl⟩
  have hmulti : isMulti (looksMulti V) excl (sortedLinks members) = false := by
    obtain ⟨⟨e, q⟩, h1, h2⟩ := hone
    unfold isMulti
    refine List.all_eq_false.mpr ⟨(e, q), sortedLinks_mem ((aget_iff_mem hs.names).mpr h1), ?_⟩
    dsimp only
    rw [holdsValue_multi h2, Bool.or_false]
    simpa using hx (e, q) h1
  have hlen : vs.length = names.length := (all2_length hvs).symm
  obtain ⟨n1, n2⟩ := struct_names hn g2 hk hs
  have hb := buildStruct_gen (multi := false) (sh0 := [1]) (els := vs.map fun v => [v]) n1 n2 hn.some hn.named hn.nodup (by
    clear n1 n2 hk hz hlen hn
    induction hvs with
    | nil => exact .nil
    | cons h _ ih =>
      refine .cons ?_ ih
      unfold fieldAt
      rw [hget _ _ h]
      rfl)
  refine ⟨vs.map fun v => fieldType [v], vs.map fun v => packEl (fieldType [v]) v, ?_, ?_, by simp [hlen], by simp [hlen], ?_⟩
  · rw [read_matStruct hV hs, g1]
    show (if o.structsAsDicts = true then _ else _) = _
    rw [if_neg (by rw [ho]; decide), hmulti, hb]
    show matlabFinish p!"struct" .object false _ = _
    rw [matlabFinish_struct, List.map_map, List.map_map, List.map_map]
    have : (vs.map ((transposeData [1] ∘ fun e => e.map (packEl (fieldType e))) ∘ fun v => [v])).flatten = vs.map fun v => packEl (fieldType [v]) v := by
      clear hb hvs hz hlen
      induction vs with
      | nil => rfl
      | cons v r ih =>
        rw [List.map_cons, List.flatten_cons, ih]
        rfl
    rw [this]
    rfl
  · clear hb hvs hz hlen
    induction vs with
    | nil => exact .nil
    | cons v r ih => exact .cons (fieldType_of [v]) ih
  · intro k v t w h1 h2 h3
    rw [List.getElem?_map, h1] at h2 h3
    cases h2
    cases h3
    exact packEl_handed (fieldType_of [v]) (by simp) (hz v (List.mem_of_getElem? h1))

/-- C55. A struct with several elements (or none), all fields of which are Datasets of references to the values, becomes a structured array of these with the
dimensions reversed; a field has the dtype and shape its values have in common, or it is an object field. -/
theorem C55_several (o : COpts) (V : View) (excl : Option Nat) (n p : Nat) (ob : Obj) (members : List (Str × Nat)) (order names : List Str) (sh : List Nat)
    (columns : List (List Val)) (hV : V p = some ob) (hs : MatStruct ob members order) (hp : ProperNames members) (ho : o.structsAsDicts = false)
    (hx : ∀ m ∈ members, excl ≠ some m.2) (hn : FieldNames members order names)
    (hvs : All2 (fun nm vs => ∃ q oids, Field members nm q ∧ RefColumn V q sh oids ∧ All2 (fun i v => readData o V excl n i = .ok v) oids vs) names columns)
    (hz : ∀ vs ∈ columns, ∀ v ∈ vs, Sized v) :
    ∃ (types : List FT) (cols : List (List Val)), readData o V excl (n + 2) p = .ok (.npStruct .ndarray sh.reverse names types cols.flatten) ∧ All2 FieldTypeOf columns types ∧
      cols.length = names.length ∧ ∀ (k : Nat) vs t col, columns[k]? = some vs → types[k]? = some t → cols[k]? = some col →
        ∃ ws, All2 (Handed t) vs ws ∧ ReversedElems sh ws col := by
  obtain ⟨sd, g1, g2, g3⟩ := struct_fields hs.names hp (readData o V excl (n + 1)) excl
  have hnox : ∀ nm q, Field members nm q → excl ≠ some q := fun nm q ⟨e, h1, _⟩ => hx (e, q) h1
  have hget : ∀ nm vs, (∃ q oids, Field members nm q ∧ RefColumn V q sh oids ∧ All2 (fun i v => readData o V excl n i = .ok v) oids vs) →
      aget sd nm = some (.npObj .ndarray sh vs) := by
    rintro nm vs ⟨q, oids, h1, h2, h3⟩
    exact (aget_iff_mem g2).mpr ((g3 nm _).mpr ⟨q, h1, hnox nm q h1, (read_refColumn h2 h3).1⟩)
  have hk : ∀ nm, nm ∈ akeys sd ↔ ∃ q, Field members nm q := by
    intro nm
    constructor
    · intro h
      obtain ⟨⟨k, v⟩, h1, h2⟩ := List.mem_map.mp h
      dsimp only at h2
      subst h2
      obtain ⟨q, h3, _⟩ := (g3 k v).mp h1
      exact ⟨q, h3⟩
    · intro h
      obtain ⟨v, hv, h'⟩ := all2_left hvs nm ((hn.all nm).mpr h)
      exact List.mem_map.mpr ⟨(nm, _), aget_mem _ _ _ (hget nm v h'), rfl⟩
  have hmulti : isMulti (looksMulti V) excl (sortedLinks members) = true := by
    unfold isMulti
    refine List.all_eq_true.mpr ?_
    rintro ⟨e, q⟩ hm
    have h1 : (e, q) ∈ members := (aget_iff_mem hs.names).mp (mem_sortedLinks hm)
    obtain ⟨nm, h2⟩ := hp.unescape _ h1
    obtain ⟨vs, _, q', oids, ⟨e', f1, f2⟩, f3, f4⟩ := all2_left hvs nm ((hn.all nm).mpr ⟨q, e, h1, h2⟩)
    have he : e' = e := hp.distinct _ f1 _ h1 (f2.trans h2.symm)
    subst he
    have hq : q' = q := by
      have a1 := (aget_iff_mem hs.names).mpr f1
      rw [(aget_iff_mem hs.names).mpr h1] at a1
      exact (Option.some.inj a1).symm
    subst hq
    dsimp only
    rw [(read_refColumn f3 f4).2, Bool.or_true]
  have hlen : columns.length = names.length := (all2_length hvs).symm
  have hsz : ∀ vs ∈ columns, vs.length = prodN sh := by
    intro vs hv
    obtain ⟨nm, _, q, oids, _, ⟨_, _, _, f2, _⟩, f3⟩ := all2_right hvs vs hv
    rw [← f2]
    exact (all2_length f3).symm
  obtain ⟨n1, n2⟩ := struct_names hn g2 hk hs
  have hb := buildStruct_gen (multi := true) (sh0 := sh) (els := columns) n1 n2 hn.some hn.named hn.nodup (by
    clear n1 n2 hk hz hlen hn hsz hmulti
    induction hvs with
    | nil => exact .nil
    | cons h _ ih =>
      refine .cons ?_ ih
      unfold fieldAt
      rw [hget _ _ h]
      rfl)
  refine ⟨columns.map fieldType, columns.map fun vs => transposeData sh (vs.map (packEl (fieldType vs))), ?_, ?_, by simp [hlen], ?_⟩
  · rw [read_matStruct hV hs, g1]
    show (if o.structsAsDicts = true then _ else _) = _
    rw [if_neg (by rw [ho]; decide), hmulti, hb]
    show matlabFinish p!"struct" .object false _ = _
    rw [matlabFinish_struct, List.map_map]
    rfl
  · clear hb hvs hz hlen hsz
    induction columns with
    | nil => exact .nil
    | cons v r ih => exact .cons (fieldType_of v) ih
  · intro k vs t col h1 h2 h3
    rw [List.getElem?_map, h1] at h2 h3
    cases h2
    cases h3
    have hm := List.mem_of_getElem? h1
    refine ⟨vs.map (packEl (fieldType vs)), ?_, reversedElems_T (by rw [List.length_map]; exact hsz vs hm)⟩
    have key : ∀ l : List Val, (∀ v ∈ l, v ∈ vs) → All2 (Handed (fieldType vs)) l (l.map (packEl (fieldType vs))) := by
      intro l
      induction l with
      | nil => intro _; exact .nil
      | cons v l ih =>
        intro hl
        exact .cons (packEl_handed (fieldType_of vs) (hl v (by simp)) (hz vs hm v (hl v (by simp)))) (ih fun v hv => hl v (by simp [hv]))
    exact key vs fun _ h => h

/-- C55. A struct without elements becomes a structured array without elements, of the stored shape (not reversed), with object fields of the names stored. -/
theorem C55_empty (o : COpts) (V : View) (excl : Option Nat) (n p : Nat) (ob : Obj) (dims : List Nat) (order : List Str) (hV : V p = some ob)
    (hs : EmptyStruct ob dims order) (hn : order ≠ []) (hn0 : [] ∉ order) (hnd : order.Nodup) :
    readData o V excl (n + 1) p = .ok (.npStruct .ndarray dims order (order.map fun _ => .base .object []) []) := by
  obtain ⟨a, f, b1, b2, b3, b4⟩ := hs.body
  obtain ⟨bs, c1, c2, c3⟩ := hs.order
  have hz : prodN dims = 0 := by
    have h0 := hs.zero
    clear b3 b4 hs
    induction dims with
    | nil => simp at h0
    | cons d r ih =>
      rcases List.mem_cons.mp h0 with h | h
      · simp [prodN, ← h]
      · simp [prodN, ih h]
  have hmap : a.data.map El.toNat = dims := by
    rw [b4, List.map_map]
    conv => rhs; rw [← List.map_id dims]
    apply List.map_congr_left; intro x _; simp [El.toNat]
  have hmem : a.dt ∈ [DT.u8, .u16, .u32, .u64, .i8, .i16, .i32, .i64, .bool] := by
    simp only [List.mem_cons, List.not_mem_nil, or_false] at b2 ⊢
    rcases b2 with h | h | h | h | h | h | h | h <;> simp [h]
  have hnr : a.dt ≠ .ref := by
    intro h; rw [h] at b2; revert b2; decide
  have hc : attrToString (aget ob.attrs p!"MATLAB_class") = .ok (some p!"struct") := by
    rw [hs.cls]
    rfl
  have hb : bs.mapM utf8Dec = .ok bs := by
    apply mapM_ok_forall2.mpr
    clear c1 c3
    induction bs with
    | nil => exact .nil
    | cons b bs ih => exact .cons (utf8Dec_ascii b (c2 b (by simp))) (ih fun b hb => c2 b (by simp [hb]))
  have hu : bs.mapM unescapePath = .ok order := mapM_ok_forall2.mpr c3
  simp only [readData, hV, hs.noType]
  rw [hc]
  change readNp (looksMulti V) (readData o V excl n) o excl ob = _
  unfold readNp
  simp only [hs.noType, hs.noUnder, hs.noCont, hs.noPyFields, b1]
  rw [hc]
  simp only [bind, Except.bind, attrToString, attrToStrings]
  rw [readDset_plain hnr (int_not_comp b2)]
  dsimp only
  unfold finish
  have hmf : matlabFields (some (.fields bs)) = .ok (some bs) := by
    show (bs.mapM utf8Dec >>= fun l => Except.ok (some l)) = _
    rw [hb]
    rfl
  have hz' : structZeros order dims = .ok (.tab dims order (order.map fun _ => .base .object []) (order.map fun _ => [])) := by
    unfold structZeros checkNames
    rw [if_neg (fun h => h.elim hn hn0), if_pos hnd, hz]
    rfl
  simp only [saysEmpty_iff.mp hs.empty, if_true, c1]
  show (matlabFields (some (.fields bs)) >>= fun r => _) = _
  rw [hmf]
  show matlabEmptyStruct p!"struct" bs (.arr false a) = _
  unfold matlabEmptyStruct
  rw [if_neg (by decide)]
  dsimp only
  rw [if_pos ⟨hmem, by rw [b3]; rfl⟩, hu, hmap]
  show (structZeros order dims >>= fun z => Except.ok (z.toVal .ndarray)) = _
  rw [hz']
  show Except.ok (Val.npStruct .ndarray dims order _ (order.map fun _ => []).flatten) = _
  have : (order.map fun _ => ([] : List Val)).flatten = [] := by
    clear hn hn0 hnd hz' hu c3 hs
    induction order with
    | nil => rfl
    | cons _ _ ih => exact ih
  rw [this]

example : EmptyStruct ⟨[(p!"MATLAB_class", .bytes p!"struct"), (p!"MATLAB_empty", .int .u8 1), (p!"MATLAB_fields", .fields [p!"b", p!"a"])],
    .dset ⟨.u64, [2], [.num 1, .num 0]⟩ ⟨none, some none, false, false, false⟩⟩ [1, 0] [p!"b", p!"a"] where
  body := ⟨_, _, rfl, by decide, rfl, rfl⟩
  zero := by decide
  cls := rfl
  noType := rfl
  noUnder := rfl
  noCont := rfl
  noPyFields := rfl
  noShape := rfl
  empty := Or.inl ⟨_, rfl⟩
  order := ⟨_, rfl, by decide, .cons rfl (.cons rfl .nil)⟩

/-- Example: a struct of MATLAB with the attribute for the order of the fields. -/
def exStructOb (members : List (Str × Nat)) (fields : List Str) : Obj :=
  ⟨[(p!"MATLAB_class", .bytes p!"struct"), (p!"MATLAB_fields", .fields fields)], .group members⟩

theorem ex_matStruct (members : List (Str × Nat)) (fields order : List Str) (h1 : (members.map (·.1)).Nodup) (h2 : ∀ b ∈ fields, ∀ c ∈ b, c < 128)
    (h3 : fields.mapM unescapePath = .ok order) : MatStruct (exStructOb members fields) members order where
  body := rfl
  names := h1
  cls := rfl
  noType := rfl
  noUnder := rfl
  noCont := rfl
  noPyFields := rfl
  noShape := rfl
  notEmpty := by rintro (⟨dt, h⟩ | h) <;> revert h <;> simp [exStructOb, aget]
  order := Or.inr ⟨fields, rfl, h2, mapM_ok_forall2.mp h3⟩

/-- Example: a struct with the fields `b` (a double), `a` (an int16 vector) and `c` (not in the list of fields), a Group. -/
def exOneView : View := fun p =>
  match p with
  | 0 => some (exStructOb [(p!"a", 1), (p!"b", 2), (p!"c", 3)] [p!"b", p!"a"])
  | 1 => some (exMat p!"int16" [] ⟨.i16, [2, 1], [.num 1, .num 2]⟩)
  | 2 => some (exMat p!"double" [] ⟨.f64, [1, 1], [.num 0]⟩)
  | 3 => some (exStructOb [(p!"x", 2)] [])
  | _ => none

theorem ex_proper : ProperNames [(p!"a", 1), (p!"b", 2), (p!"c", 3)] where
  unescape := by
    intro m hm
    simp only [List.mem_cons, List.not_mem_nil, or_false] at hm
    rcases hm with h | h | h <;> rw [h] <;> exact ⟨_, rfl⟩
  distinct := by decide +kernel

theorem ex_field {members : List (Str × Nat)} {nm : Str} (e : Str) (q : Nat) (h1 : (e, q) ∈ members) (h2 : unescapePath e = .ok nm) : Field members nm q := ⟨e, h1, h2⟩

-- With the option: the theorem applies to the example.
example : ∃ items : List (Str × Val), readData { exOpts with structsAsDicts := true } exOneView none 5 0 =
    .ok (.dict .dict (items.map fun i => .str i.1) (items.map (·.2))) ∧ (items.map (·.1)).Nodup ∧
      ∀ nm v, (nm, v) ∈ items ↔ ∃ q, Field [(p!"a", 1), (p!"b", 2), (p!"c", 3)] nm q ∧ none ≠ some q ∧
        readData { exOpts with structsAsDicts := true } exOneView none 4 q = .ok v :=
  C55_as_dict _ exOneView none 4 0 _ _ [p!"b", p!"a"] rfl (ex_matStruct _ _ _ (by decide) (by decide) rfl) ex_proper rfl

-- Without it: the three fields in their order.
example : ∃ types ws, readData exOpts exOneView none 5 0 = .ok (.npStruct .ndarray [1] [p!"b", p!"a", p!"c"] types ws) := by
  have f1 : Field [(p!"a", 1), (p!"b", 2), (p!"c", 3)] p!"a" 1 := ex_field p!"a" 1 (by decide) rfl
  have f2 : Field [(p!"a", 1), (p!"b", 2), (p!"c", 3)] p!"b" 2 := ex_field p!"b" 2 (by decide) rfl
  have f3 : Field [(p!"a", 1), (p!"b", 2), (p!"c", 3)] p!"c" 3 := ex_field p!"c" 3 (by decide) rfl
  have r1 : readData exOpts exOneView none 4 1 = .ok (.np .ndarray ⟨.i16, [1, 2], [.num 1, .num 2]⟩) := eq_of_isVal (by decide +kernel)
  have r2 : readData exOpts exOneView none 4 2 = .ok (.np .ndarray ⟨.f64, [1, 1], [.num 0]⟩) := eq_of_isVal (by decide +kernel)
  have r3 : readData exOpts exOneView none 4 3 = .ok (.npStruct .ndarray [1] [p!"x"] [.base .f64 [1, 1]] [.np .ndarray ⟨.f64, [1, 1], [.num 0]⟩]) :=
    eq_of_isVal (by decide +kernel)
  have hN : FieldNames [(p!"a", 1), (p!"b", 2), (p!"c", 3)] [p!"b", p!"a"] [p!"b", p!"a", p!"c"] := by
    refine ⟨fun nm => ?_, ⟨[p!"c"], rfl, by decide⟩, by decide, by decide, by decide⟩
    constructor
    · intro h
      simp only [List.mem_cons, List.not_mem_nil, or_false] at h
      rcases h with h | h | h <;> rw [h]
      · exact ⟨_, f2⟩
      · exact ⟨_, f1⟩
      · exact ⟨_, f3⟩
    · rintro ⟨q, e, h1, h2⟩
      simp only [List.mem_cons, List.not_mem_nil, or_false, Prod.mk.injEq] at h1
      rcases h1 with ⟨h, _⟩ | ⟨h, _⟩ | ⟨h, _⟩ <;> rw [h] at h2
      · have : nm = p!"a" := (Except.ok.inj ((show unescapePath p!"a" = .ok p!"a" from rfl).symm.trans h2)).symm
        rw [this]; decide
      · have : nm = p!"b" := (Except.ok.inj ((show unescapePath p!"b" = .ok p!"b" from rfl).symm.trans h2)).symm
        rw [this]; decide
      · have : nm = p!"c" := (Except.ok.inj ((show unescapePath p!"c" = .ok p!"c" from rfl).symm.trans h2)).symm
        rw [this]; decide
  have hZ : ∀ v ∈ [Val.np .ndarray ⟨.f64, [1, 1], [.num 0]⟩, .np .ndarray ⟨.i16, [1, 2], [.num 1, .num 2]⟩,
      .npStruct .ndarray [1] [p!"x"] [.base .f64 [1, 1]] [.np .ndarray ⟨.f64, [1, 1], [.num 0]⟩]], Sized v := by
    intro v hv c a e
    simp only [List.mem_cons, List.not_mem_nil, or_false] at hv
    rcases hv with h | h | h <;> rw [h] at e
    · cases e; exact ⟨rfl, fun n h => h.elim nofun nofun⟩
    · cases e; exact ⟨rfl, fun n h => h.elim nofun nofun⟩
    · cases e
  obtain ⟨types, ws, h, _⟩ := C55_one exOpts exOneView none 4 0 _ [(p!"a", 1), (p!"b", 2), (p!"c", 3)] [p!"b", p!"a"] [p!"b", p!"a", p!"c"] _ rfl
    (ex_matStruct _ _ _ (by decide) (by decide) rfl) ex_proper rfl (by decide) hN
    ⟨(p!"c", 3), by decide, _, rfl, Or.inl ⟨_, rfl⟩⟩ (.cons ⟨2, f2, r2⟩ (.cons ⟨1, f1, r1⟩ (.cons ⟨3, f3, r3⟩ .nil))) hZ
  exact ⟨types, ws, h⟩

/-- Example: a 1×2 struct with one field `x` that has the values 0 and 1. -/
def exSeveralView : View := fun p =>
  match p with
  | 0 => some (exStructOb [(p!"x", 1)] [p!"x"])
  | 1 => some ⟨[], .dset ⟨.ref, [2, 1], [2, 3].map El.ref⟩ ⟨none, some none, false, false, false⟩⟩
  | 2 => some (exMat p!"double" [] ⟨.f64, [1, 1], [.num 0]⟩)
  | 3 => some (exMat p!"double" [] ⟨.f64, [1, 1], [.num 4607182418800017408]⟩)
  | _ => none

example : ∃ (types : List FT) (cols : List (List Val)), readData exOpts exSeveralView none 5 0 = .ok (.npStruct .ndarray [1, 2] [p!"x"] types cols.flatten) := by
  have f1 : Field [(p!"x", 1)] p!"x" 1 := ex_field p!"x" 1 (by decide) rfl
  have r1 : readData exOpts exSeveralView none 3 2 = .ok (.np .ndarray ⟨.f64, [1, 1], [.num 0]⟩) := eq_of_isVal (by decide +kernel)
  have r2 : readData exOpts exSeveralView none 3 3 = .ok (.np .ndarray ⟨.f64, [1, 1], [.num 4607182418800017408]⟩) := eq_of_isVal (by decide +kernel)
  have hu : unescapePath p!"x" = .ok p!"x" := rfl
  have hP : ProperNames [(p!"x", 1)] := by
    refine ⟨fun m hm => ?_, fun m hm m' hm' _ => ?_⟩
    · rw [List.mem_singleton.mp hm]
      exact ⟨_, hu⟩
    · rw [List.mem_singleton.mp hm, List.mem_singleton.mp hm']
  have hN : FieldNames [(p!"x", 1)] [p!"x"] [p!"x"] := by
    refine ⟨fun nm => ?_, ⟨[], rfl, .nil⟩, by decide, by decide, by decide⟩
    constructor
    · intro h
      rw [List.mem_singleton.mp h]
      exact ⟨1, f1⟩
    · rintro ⟨q, e, h1, h2⟩
      have h3 := List.mem_singleton.mp h1
      injection h3 with h3 _
      rw [h3, hu] at h2
      rw [← Except.ok.inj h2]
      simp
  have hZ : ∀ vs ∈ [[Val.np .ndarray ⟨.f64, [1, 1], [.num 0]⟩, .np .ndarray ⟨.f64, [1, 1], [.num 4607182418800017408]⟩]], ∀ v ∈ vs, Sized v := by
    intro vs hvs v hv c a e
    rw [List.mem_singleton.mp hvs] at hv
    simp only [List.mem_cons, List.not_mem_nil, or_false] at hv
    rcases hv with h | h <;> rw [h] at e <;> cases e <;> exact ⟨rfl, fun n h => h.elim nofun nofun⟩
  obtain ⟨types, cols, h, _⟩ := C55_several exOpts exSeveralView none 3 0 _ [(p!"x", 1)] [p!"x"] [p!"x"] [2, 1] _ rfl
    (ex_matStruct _ _ _ (by decide) (by decide) rfl) hP rfl (by decide) hN
    (.cons ⟨1, [2, 3], f1, ⟨_, _, rfl, rfl, by decide⟩, .cons r1 (.cons r2 .nil)⟩ .nil) hZ
  exact ⟨types, cols, h⟩

end HS
