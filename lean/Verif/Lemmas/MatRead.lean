import Verif.Spec.MatRead
import Verif.Lemmas.LayoutAll
import Verif.Props.MatStruct
import Verif.Props.MatFile
/-
Reading what has been stored without Python metadata: attributes, and values without parts.
-/
namespace HS
open Spec

/-- The options: as for MATLAB, without Python metadata, dimensions reversed. -/
structure MatR (o : COpts) : Prop extends MatO o where
  noPy : o.pyMeta = false
  reverse : o.reverse = true

theorem attrs_absent {o : COpts} {b : Body} {path : Option Str} {v : Val} {attrs : List (Str × AVal)} (ha : AttrsAre o b path (.value v) attrs) {k : Str}
    (hk : k ≠ p!"H5PATH") (hn : ∀ a, ¬ DocAttr o b v k a) : aget attrs k = none := by
  cases h : aget attrs k with
  | none => rfl
  | some a =>
    rcases (ha k a).mp h with ⟨w, e, hd⟩ | ⟨_, e, _⟩
    · cases e; exact absurd hd (hn a)
    · exact absurd e hk

theorem attrs_column {o : COpts} {b : Body} {path : Option Str} {sh : List Nat} {e : List Val} {attrs : List (Str × AVal)} (ha : AttrsAre o b path (.column sh e) attrs) {k : Str}
    (hk : k ≠ p!"H5PATH") : aget attrs k = none := by
  cases h : aget attrs k with
  | none => rfl
  | some a =>
    rcases (ha k a).mp h with ⟨w, e, hd⟩ | ⟨_, e, _⟩
    · cases e
    · exact absurd e hk

/-- No attributes of Python's. -/
theorem attrs_py {o : COpts} (hp : o.pyMeta = false) {b : Body} {path : Option Str} {v : Val} {attrs : List (Str × AVal)} (ha : AttrsAre o b path (.value v) attrs) :
    aget attrs p!"Python.Type" = none ∧ aget attrs p!"Python.numpy.UnderlyingType" = none ∧ aget attrs p!"Python.numpy.Container" = none ∧
    aget attrs p!"Python.Fields" = none ∧ aget attrs p!"Python.Shape" = none := by
  have key : ∀ k, k ≠ p!"H5PATH" → k ≠ p!"MATLAB_class" → k ≠ p!"MATLAB_empty" → k ≠ p!"MATLAB_int_decode" → k ≠ p!"MATLAB_fields" → aget attrs k = none := by
    intro k h0 h1 h2 h3 h4
    refine attrs_absent ha h0 ?_
    intro a hd
    cases hd
    all_goals first
      | exact absurd rfl h1
      | exact absurd rfl h2
      | exact absurd rfl h3
      | exact absurd rfl h4
      | (rename_i hh _; rw [hp] at hh; cases hh)
      | (rename_i hh _ _; rw [hp] at hh; cases hh)
      | (rename_i hh; rw [hp] at hh; cases hh)
  exact ⟨key _ (by decide) (by decide) (by decide) (by decide) (by decide), key _ (by decide) (by decide) (by decide) (by decide) (by decide),
    key _ (by decide) (by decide) (by decide) (by decide) (by decide), key _ (by decide) (by decide) (by decide) (by decide) (by decide),
    key _ (by decide) (by decide) (by decide) (by decide) (by decide)⟩

theorem classOf_ascii {v : Val} {cl : Str} (h : ClassOf v cl) : ∀ c ∈ cl, c < 128 := by
  cases h with
  | dtypeObj => decide
  | table h =>
    cases h with
    | np _ a _ h => generalize a.dt = dt at h; cases h <;> decide
    | _ => decide

theorem attrs_class {o : COpts} (hm : o.matlab = true) {b : Body} {path : Option Str} {v : Val} {attrs : List (Str × AVal)} (ha : AttrsAre o b path (.value v) attrs) {cl : Str}
    (hc : ClassOf v cl) : aget attrs p!"MATLAB_class" = some (.bytes cl) := (ha _ _).mpr (.inl ⟨v, rfl, .cls hm hc⟩)

theorem attrs_empty {o : COpts} (hm : o.matlab = true) {b : Body} {path : Option Str} {v : Val} {attrs : List (Str × AVal)} (ha : AttrsAre o b path (.value v) attrs) :
    SaysEmpty ⟨attrs, b⟩ ↔ NoElements v := by
  constructor
  · intro h
    have : ∃ a, aget attrs p!"MATLAB_empty" = some a := by
      rcases h with ⟨dt, h⟩ | h
      · exact ⟨_, h⟩
      · exact ⟨_, h⟩
    obtain ⟨a, h1⟩ := this
    rcases (ha _ _).mp h1 with ⟨w, e, hd⟩ | ⟨_, e, _⟩
    · cases e
      generalize hk : p!"MATLAB_empty" = k at hd
      cases hd with
      | matEmpty _ h => exact h
      | _ => exact absurd hk (by decide)
    · exact absurd e (by decide)
  · intro h
    exact .inl ⟨_, (ha _ _).mpr (.inl ⟨v, rfl, .matEmpty hm h⟩)⟩

theorem attrs_fields {o : COpts} {b : Body} {path : Option Str} {v : Val} {attrs : List (Str × AVal)} (ha : AttrsAre o b path (.value v) attrs) :
    (aget attrs p!"MATLAB_fields" = none ∧ (o.matlab = true → ∀ names, StoredNames b v names → ¬ ∀ k ∈ names, ∀ c ∈ k, c < 128)) ∨
    ∃ names, aget attrs p!"MATLAB_fields" = some (.fields names) ∧ StoredNames b v names ∧ ∀ k ∈ names, ∀ c ∈ k, c < 128 := by
  cases h : aget attrs p!"MATLAB_fields" with
  | none =>
    refine .inl ⟨rfl, ?_⟩
    intro hm names hs hn
    rw [(ha _ _).mpr (.inl ⟨v, rfl, .matFields hm hs hn⟩)] at h
    cases h
  | some a =>
    rcases (ha _ _).mp h with ⟨w, e, hd⟩ | ⟨_, e, _⟩
    · cases e
      generalize hk : p!"MATLAB_fields" = k at hd
      cases hd with
      | matFields _ h1 h2 => exact .inr ⟨_, rfl, h1, h2⟩
      | _ => exact absurd hk (by decide)
    · exact absurd e (by decide)

/-- Values without fields: MATLAB's attributes only. -/
theorem matlabOnly_of {o : COpts} (hR : MatR o) {b : Body} {path : Option Str} {v : Val} {attrs : List (Str × AVal)} (ha : AttrsAre o b path (.value v) attrs) {cl : Str}
    (hc : ClassOf v cl) (hf : ∀ names, ¬ StoredNames b v names) : MatlabOnly ⟨attrs, b⟩ cl := by
  obtain ⟨h1, h2, h3, h4, h5⟩ := attrs_py hR.noPy ha
  refine ⟨⟨attrs_class hR.matlab ha hc, classOf_ascii hc⟩, h1, h2, h3, h4, h5, ?_⟩
  rcases attrs_fields ha with ⟨h, _⟩ | ⟨names, _, h, _⟩
  · exact h
  · exact absurd h (hf names)

theorem prodN_rowShape (o : COpts) (s : List Nat) : prodN (RowShape o s) = prodN s := by rw [rowShape_eq, prodN_shape2]

theorem rowShape_zero {o : COpts} {s : List Nat} : 0 ∈ RowShape o s ↔ 0 ∈ s := by rw [← prodN_zero, prodN_rowShape, prodN_zero]

/-- The data of a Dataset with reversed dimensions, reversed back. -/
theorem holds_reversed {o : COpts} (hr : o.reverse = true) {a b : Arr} (hb : HoldsArray o a b) (hc : a.data.length = prodN a.shape) :
    b.shape.reverse = RowShape o a.shape ∧ ReversedElems b.shape b.data a.data := by
  have hs : b.shape = (RowShape o a.shape).reverse := by rw [hb.shape, if_pos hr]
  have hs' : b.shape.reverse = RowShape o a.shape := by rw [hs, List.reverse_reverse]
  refine ⟨hs', hb.count, ?_, ?_⟩
  · rw [hs', hc, prodN_rowShape]
  · intro i hi
    have hi' : IndexOf (RowShape o a.shape) i.reverse := by
      rw [← hs']
      exact valid_indexOf (validIx_reverse (indexOf_valid hi))
    have := hb.elems i.reverse hi'
    rw [if_pos hr, List.reverse_reverse] at this
    rw [hs', this]

theorem holds_mem {o : COpts} (hr : o.reverse = true) {a b : Arr} (hb : HoldsArray o a b) (hc : a.data.length = prodN a.shape) : ∀ e ∈ b.data, e ∈ a.data := by
  obtain ⟨h1, h2⟩ := holds_reversed hr hb hc
  intro e he
  obtain ⟨k, hk, hke⟩ := List.mem_iff_getElem.mp he
  have hk' : k < (indicesN b.shape).length := by rw [length_indicesN, ← h2.1]; exact hk
  have hg : (indicesN b.shape)[k]? = some ((indicesN b.shape)[k]) := List.getElem?_eq_getElem hk'
  generalize (indicesN b.shape)[k] = i at hg
  have hv : ValidIx b.shape i := (mem_indicesN _ i).mp (List.mem_of_getElem? hg)
  have h3 := h2.2.2 i (valid_indexOf hv)
  rw [ravelN_of_getElem _ k i hg, List.getElem?_eq_getElem hk, hke] at h3
  exact List.mem_of_getElem? h3

theorem classOf_np {c : Cont} {a : Arr} {cl : Str} (h : ClassOf (.np c a) cl) : DtClass a.dt cl := by
  cases h with
  | table h => cases h with | np _ _ _ h => exact h

/-- The class of numbers is that of the dtype. -/
theorem numeric_class {v : Val} {a : Arr} {cl : Str} (h : NumericOf v a) (hc : ClassOf v cl) : DtClass a.dt cl := by
  cases h with
  | np c _ _ _ => exact classOf_np hc
  | int i h1 h2 =>
    cases hc with
    | table h => cases h with
      | int _ _ _ => exact .i64
      | bigInt _ h => omega
  | none => cases hc with | table h => cases h; exact .f64
  | ellipsis => cases hc with | table h => cases h; exact .f64
  | notImplemented => cases hc with | table h => cases h; exact .f64
  | bool => cases hc with | table h => cases h; exact .bool
  | float => cases hc with | table h => cases h; exact .f64
  | complex => cases hc with | table h => cases h; exact .c128

/-- Values without parts. -/
theorem asNumpy_fields {v : Val} {c : Cont} {dt : DT} {sh : List Nat} (h : AsNumpy v c dt sh) (b : Body) (names : List Str) : ¬ StoredNames b v names := by
  intro hs
  cases hs with
  | fields hf _ => cases hf <;> cases h
  | group => cases h
  | empty => cases h

theorem numericOf_numpy {v : Val} {a : Arr} (h : NumericOf v a) : ∃ c, AsNumpy v c a.dt a.shape ∧ leafOf v = some (c, a) := by
  cases h with
  | none => exact ⟨_, .none, rfl⟩
  | ellipsis => exact ⟨_, .ellipsis, rfl⟩
  | notImplemented => exact ⟨_, .notImplemented, rfl⟩
  | bool b => exact ⟨_, .bool b, rfl⟩
  | int i h1 h2 => exact ⟨_, .int i h1 h2, by rw [leafOf, if_pos ⟨h1, by omega⟩]⟩
  | float f => exact ⟨_, .float f, rfl⟩
  | complex x y => exact ⟨_, .complex x y, rfl⟩
  | np c _ _ _ => exact ⟨_, .np c a, rfl⟩

theorem numericOf_dt {v : Val} {a : Arr} (h : NumericOf v a) : NumericDT a.dt := by
  cases h with
  | np _ _ h => exact h
  | _ => simp [NumericDT]

theorem numericOf_count {v : Val} {a : Arr} (h : NumericOf v a) : a.data.length = prodN a.shape := by
  cases h with
  | np _ _ _ h => exact h
  | _ => rfl

theorem numeric_empty {v : Val} {a : Arr} (h : NumericOf v a) : NoElements v ↔ 0 ∈ a.shape := by
  obtain ⟨c, _, hl⟩ := numericOf_numpy h
  rw [leaf_empty hl]
  have hdt := numericOf_dt h
  unfold Arr.isEmpty
  constructor
  · intro h
    generalize a.dt = dt at h hdt
    simp only [NumericDT, List.mem_cons, List.not_mem_nil, or_false] at hdt
    rcases hdt with rfl | rfl | rfl | rfl | rfl | rfl | rfl | rfl | rfl | rfl | rfl | rfl | rfl | rfl <;> (revert h; simp [DT.isString, Arr.size, prodN_zero])
  · intro h
    simp [Arr.size, prodN_zero.mpr h]

theorem textOf_numpy {v : Val} {n : Nat} {sh : List Nat} {ss : List Str} (h : TextOf v n sh ss) : ∃ c, AsNumpy v c (.str n) sh := by
  cases h with
  | str s => exact ⟨_, .str s⟩
  | np c _ _ _ _ _ _ => exact ⟨c, .np c _⟩

theorem bytesOf_numpy {v : Val} {n : Nat} {sh : List Nat} {bs : List Bytes} (h : BytesOf v n sh bs) : ∃ c, AsNumpy v c (.bytes n) sh := by
  cases h with
  | bytes b => exact ⟨_, .bytes b⟩
  | bytearray b => exact ⟨_, .bytearray b⟩
  | bigInt i d h1 h2 => exact ⟨_, .bigInt i d h1 h2⟩
  | bigNegInt i d h1 h2 => exact ⟨_, .bigNegInt i d h1 h2⟩
  | dtypeObj s b h => exact ⟨_, .dtypeObj s b h⟩
  | np c _ _ _ _ _ _ => exact ⟨c, .np c _⟩

theorem asNumpy_same {v : Val} {c c' : Cont} {dt dt' : DT} {sh sh' : List Nat} (h : AsNumpy v c dt sh) (h' : AsNumpy v c' dt' sh') : c = c' ∧ dt = dt' ∧ sh = sh' := by
  obtain ⟨a, h1, h2, h3⟩ := asNumpy_leaf h
  obtain ⟨a', h1', h2', h3'⟩ := asNumpy_leaf h'
  rw [h1] at h1'
  cases h1'
  exact ⟨rfl, h2 ▸ h2', h3 ▸ h3'⟩

/-- Text that has elements. -/
theorem noElements_numpy {v : Val} {c : Cont} {dt : DT} {sh : List Nat} (h : AsNumpy v c dt sh) : NoElements v ↔ 0 ∈ sh ∨ dt = .bytes 0 ∨ dt = .str 0 := by
  constructor
  · intro hn
    cases hn with
    | shape hs h0 =>
      cases hs with
      | plain h' => exact .inl ((asNumpy_same h h').2.2 ▸ h0)
      | npObj => cases h
      | seq => cases h
      | npStruct => cases h
    | text h' h0 => exact .inr ((asNumpy_same h h').2.1 ▸ h0)
  · rintro (h0 | h0)
    · exact .shape (.plain h) h0
    · exact .text h h0

theorem charClass_numpy {v : Val} {c : Cont} {dt : DT} {sh : List Nat} (h : AsNumpy v c dt sh) (hd : (∃ n, dt = .bytes n) ∨ ∃ n, dt = .str n) : ClassOf v p!"char" := by
  cases h with
  | dtypeObj s => exact .dtypeObj s
  | str s => exact .table (.str s)
  | bytes s => exact .table (.bytes s)
  | bytearray s => exact .table (.bytearray s)
  | bigInt i d h1 h2 => exact .table (.bigInt i (.inr h1))
  | bigNegInt i d h1 h2 => exact .table (.bigInt i (.inl h1))
  | np c a =>
    refine .table (.np c a _ ?_)
    rcases hd with ⟨n, hd⟩ | ⟨n, hd⟩ <;> rw [hd] <;> constructor
  | _ => rcases hd with ⟨n, hd⟩ | ⟨n, hd⟩ <;> cases hd

theorem textData_class {o : COpts} {v : Val} {a : Arr} (h : TextData o v a) : ClassOf v p!"char" ∧ ∃ c dt sh, AsNumpy v c dt sh ∧ ((∃ n, dt = .bytes n) ∨ ∃ n, dt = .str n) := by
  have key : ∀ {c : Cont} {dt : DT} {sh : List Nat}, AsNumpy v c dt sh → ((∃ n, dt = .bytes n) ∨ ∃ n, dt = .str n) →
      ClassOf v p!"char" ∧ ∃ c dt sh, AsNumpy v c dt sh ∧ ((∃ n, dt = .bytes n) ∨ ∃ n, dt = .str n) := fun h1 h2 => ⟨charClass_numpy h1 h2, _, _, _, h1, h2⟩
  cases h with
  | utf16 h | utf32 h | empty h =>
    obtain ⟨c, hc⟩ := textOf_numpy h
    exact key hc (.inr ⟨_, rfl⟩)
  | bytes16 h | bytes h | empty16 h | width0 h =>
    obtain ⟨c, hc⟩ := bytesOf_numpy h
    exact key hc (.inl ⟨_, rfl⟩)

/-- Text without elements is stored as the shape (1, 0). -/
theorem textData_empty {o : COpts} (hR : MatR o) {v : Val} {a : Arr} (h : TextData o v a) (hn : NoElements v) : a.shape = [0] := by
  have hb := hR.bytes16
  cases h with
  | utf16 h h1 h2 =>
    obtain ⟨c, hc⟩ := textOf_numpy h
    rcases (noElements_numpy hc).mp hn with h0 | h0 | h0
    · exact absurd h0 h2
    · cases h0
    · cases h0; exact absurd rfl h1
  | utf32 h h1 h2 =>
    obtain ⟨c, hc⟩ := textOf_numpy h
    rcases (noElements_numpy hc).mp hn with h0 | h0 | h0
    · exact absurd h0 h2
    · cases h0
    · cases h0; exact absurd rfl h1
  | empty => rfl
  | bytes16 h h1 h2 =>
    obtain ⟨c, hc⟩ := bytesOf_numpy h
    rcases (noElements_numpy hc).mp hn with h0 | h0 | h0
    · exact absurd h0 h2
    · cases h0; exact absurd rfl h1
    · cases h0
  | bytes h h1 h2 =>
    obtain ⟨c, hc⟩ := bytesOf_numpy h
    rcases (noElements_numpy hc).mp hn with h0 | h0 | h0
    · rcases h2 with h2 | h2
      · exact absurd h0 h2
      · rw [hb] at h2; cases h2
    · cases h0; exact absurd rfl h1
    · cases h0
  | empty16 => rfl
  | width0 _ h2 => rw [hb] at h2; cases h2

end HS
