import Verif.Spec.MatRead
/-
What values stored with neither Python metadata nor MATLAB's attributes read back as: nothing in the file says more than the Datasets and Groups themselves.
-/
namespace HS.Spec

/-- Numbers and text, as far as what is documented for text is done. -/
def LeafData (o : COpts) (v : Val) (a : Arr) : Prop := NumericOf v a ∨ (TextData o v a ∧ AsDocumented o v)

/-- The part is stored as a Dataset of references. -/
def Listed (o : COpts) (P : Part) : Prop := ∃ sh e, Elements P sh e ∧ ¬ (o.storeShape = true ∧ 0 ∈ sh)

/-- Where an object array of shape `s` has elements, one of shape `S` has, if both have elements at all. -/
def Fits (S s : List Nat) : Prop := s = S ∨ 0 ∈ S ∨ 0 ∈ s ∨ (s.length = S.length ∧ ∀ k, s.getD k 0 ≤ S.getD k 0)

/-- `S` is the shape of the Dataset of references for the part with the last one of the names. -/
def LastShape (o : COpts) (shown : List Str) (parts : List Part) (S : List Nat) : Prop :=
  ∃ (i : Nat) (t : Str) (P : Part) (sh : List Nat) (e : List Val), shown[i]? = some t ∧ (∀ u ∈ shown, u = t ∨ strLt u t = true) ∧ parts[i]? = some P ∧ Elements P sh e ∧
    S = StoredShape o sh

/-- Parts that make a structured array: not all of them are Datasets of references (then it has one element), or they all are and fit the last one (which it has the
shape of). -/
def Together (o : COpts) (shown : List Str) (parts : List Part) : Prop :=
  (∃ P ∈ parts, ¬ Listed o P) ∨ ((∀ P ∈ parts, Listed o P) ∧ ∀ S, LastShape o shown parts S → ∀ P ∈ parts, ∀ sh e, Elements P sh e → Fits S (StoredShape o sh))

/-- numpy takes these names for the fields of a dtype. -/
def FieldTexts (texts : List Str) : Prop := texts.Nodup ∧ texts ≠ [] ∧ [] ∉ texts

/-- Values that can be read back at every depth: numbers, text, lists and the like and object arrays, dicts and records with fields (whose values, if all of them are
stored as Datasets of references, are not longer than the last one), and structured arrays: stored as Groups, as compound Datasets (`GoodTable`), or without elements. -/
inductive PlainGood (o : COpts) : Val → Prop
  | data {v : Val} {a : Arr} : LeafData o v a → PlainGood o v
  | npObj (c : Cont) (sh : List Nat) (e : List Val) : c ≠ .scalar → e.length = prodN sh → (∀ w ∈ e, PlainGood o w) → PlainGood o (.npObj c sh e)
  | seq (k : SeqKind) (e : List Val) : (∀ w ∈ e, PlainGood o w) → PlainGood o (.seq k e)
  | fields {v : Val} {texts : List Str} {vals : List Val} : HasFields v texts vals → FieldTexts texts → Together o texts (vals.map .value) → (∀ w ∈ vals, PlainGood o w) → PlainGood o v
  | dict (k : DictKind) (keys vals : List Val) (kn vn : Str) : (∃ k ∈ keys, NotTextKey k) → keys.length = vals.length → Shown [o.keysName, o.valuesName] [kn, vn] →
      FieldTexts [kn, vn] → (∀ w ∈ keys, PlainGood o w) → (∀ w ∈ vals, PlainGood o w) → PlainGood o (.dict k keys vals)
  | npStruct (c : Cont) (sh : List Nat) (n : List Str) (ty : List FT) (e : List Val) : FieldTexts n → e.length = n.length * prodN sh → AllNamed (.struct n ty []) →
      GroupFor o (.npStruct c sh n ty e) → (prodN sh = 1 → Together o n (e.map .value)) → (∀ w ∈ e, PlainGood o w) → PlainGood o (.npStruct c sh n ty e)
  | emptyStruct (c : Cont) (sh : List Nat) (n : List Str) (ty : List FT) : o.storeShape = true → 0 ∈ sh → n.Nodup → AllNamed (.struct n ty []) →
      PlainGood o (.npStruct c sh n ty [])
  | table (c : Cont) (sh : List Nat) (n : List Str) (ty : List FT) (e : List Val) : GoodTable o c sh n ty e → Regular o (.npStruct c sh n ty e) → PlainGood o (.npStruct c sh n ty e)

/-- Shape of the structured array, and shapes and elements of the fields' object arrays, `vals` being what the parts are read as: one element, or those of the Datasets of
references; the last one of them has the shape. -/
inductive Rows (o : COpts) (parts : List Part) : List Nat → List Val → List (List Nat) → List (List Val) → Prop
  | one (vals : List Val) : (∃ P ∈ parts, ¬ Listed o P) → Rows o parts [1] vals (vals.map fun _ => [1]) (vals.map fun v => [v])
  | several (S : List Nat) (shapes : List (List Nat)) (els : List (List Val)) : (∀ P ∈ parts, Listed o P) → shapes.length = els.length → shapes.getLast? = some S →
      (∀ s ∈ shapes, Fits S s) → Rows o parts S (List.zipWith (.npObj .ndarray) shapes els) shapes els

/-- A zero of the dtype. -/
inductive ZeroEl : DT → El → Prop
  | num (d : DT) : NumericDT d → d ≠ .c64 → d ≠ .c128 → ZeroEl d (.num 0)
  | c64 : ZeroEl .c64 (.cplx 0 0)
  | c128 : ZeroEl .c128 (.cplx 0 0)
  | crec (r i : Str) (b : Bool) : ZeroEl (.crec r i b) (.cplx 0 0)
  | bytes (n : Nat) : ZeroEl (.bytes n) (.units (List.replicate n 0))
  | str (n : Nat) : ZeroEl (.str n) (.units (List.replicate n 0))

/-- What numpy hands out for an element nothing was assigned to: zeros, empty strings, the int 0 where objects are. -/
inductive ZeroOf : FT → Val → Prop
  | object : ZeroOf (.base .object []) (.int 0)
  | objects (sp : List Nat) : sp ≠ [] → ZeroOf (.base .object sp) (.npObj .ndarray sp (List.replicate (prodN sp) (.int 0)))
  | scalar (d : DT) (e : El) : (∀ n, d ≠ .bytes n ∧ d ≠ .str n) → ZeroEl d e → ZeroOf (.base d []) (.np .scalar ⟨d, [], [e]⟩)
  | bytes (n : Nat) : ZeroOf (.base (.bytes n) []) (.np .scalar (npBytes []))
  | str (n : Nat) : ZeroOf (.base (.str n) []) (.np .scalar (npStr []))
  | array (d : DT) (sp : List Nat) (e : El) : sp ≠ [] → ZeroEl d e → ZeroOf (.base d sp) (.np .ndarray ⟨d, sp, List.replicate (prodN sp) e⟩)
  | struct (names : List Str) (types : List FT) (sp : List Nat) (zs : List Val) : zs.length = types.length →
      (∀ (i : Nat) (t : FT) (z : Val), types[i]? = some t → zs[i]? = some z → ZeroOf t z) →
      ZeroOf (.struct names types sp) (.npStruct (if sp = [] then .scalar else .ndarray) sp names types (zs.flatMap fun z => List.replicate (prodN sp) z))

/-- The elements `col` of a field of an array of shape `S` that gets the elements `es` of an object array of shape `s`: those, where they are, and zeros elsewhere. -/
structure FilledWith (S s : List Nat) (ft : FT) (es col : List Val) : Prop where
  count : col.length = prodN S
  given : ∀ i, IndexOf S i → IndexOf s i → ∃ v w, es[ravelN s i]? = some v ∧ col[ravelN S i]? = some w ∧ Handed ft v w
  zeros : ∀ i z, IndexOf S i → ¬ IndexOf s i → ZeroOf ft z → col[ravelN S i]? = some z

/-- What the part is read as.  Numbers and text are the array in the Dataset.  Without elements, if only the shape is stored, it is the shape.  Lists and the like, object
arrays and columns are object arrays of what the elements are read as, as they are in the Dataset.  Structured arrays in compound Datasets are what they were, each field as it is
in the Dataset.  Dicts, records and structured arrays in Groups are structured arrays: the
fields are sorted by their names; there is one element with what the values are read as, unless all values are stored as Datasets of references: then there are as many elements as
the last one of these has, and what the others have less are zeros.  A field has the dtype and the shape all its given values have, or is of objects. -/
inductive AsPlain (o : COpts) : Part → Val → Prop
  | data {v : Val} {a b : Arr} : LeafData o v a → ¬ (o.storeShape = true ∧ NoElements v) → HoldsArray o a b → AsPlain o (.value v) (.np .ndarray b)
  | noData {v : Val} {a b : Arr} : LeafData o v a → o.storeShape = true → NoElements v → HoldsShape o a b → AsPlain o (.value v) (.np .ndarray b)
  | shape {P : Part} {sh : List Nat} : ((∃ e, Elements P sh e) ∨ ∃ c n ty e, P = .value (.npStruct c sh n ty e)) → o.storeShape = true → 0 ∈ sh →
      AsPlain o P (.np .ndarray ⟨.u64, [(RowShape o sh).length], (RowShape o sh).map fun d => .num (Int.ofNat d)⟩)
  | cells {P : Part} {sh : List Nat} {e el es : List Val} : Elements P sh e → ¬ (o.storeShape = true ∧ 0 ∈ sh) → InOrder o sh e el → es.length = el.length →
      (∀ (i : Nat) (w w' : Val), el[i]? = some w → es[i]? = some w' → AsPlain o (.value w) w') → AsPlain o P (.npObj .ndarray (StoredShape o sh) es)
  | table {c : Cont} {sh : List Nat} {n : List Str} {ty : List FT} {e : List Val} {cols els : List (List Val)} : GoodTable o c sh n ty e → (∀ col ∈ cols, col.length = prodN sh) →
      cols.flatten = e → All2 (InOrder o sh) cols els → AsPlain o (.value (.npStruct c sh n ty e)) (.npStruct .ndarray (StoredShape o sh) n ty els.flatten)
  | group {v : Val} {names shown keys : List Str} {parts : List Part} {vals : List Val} {S : List Nat} {shapes : List (List Nat)} {els us : List (List Val)} {types : List FT} :
      FieldsOf o v names parts → GroupFor o v → parts.length = names.length → Shown names shown → keys ≠ [] → [] ∉ keys → keys.Pairwise (fun a b => strLt a b = true) →
      (∀ t, t ∈ keys ↔ t ∈ shown) → vals.length = keys.length →
      (∀ (i j : Nat) (t : Str) (P : Part) (w : Val), shown[i]? = some t → parts[i]? = some P → keys[j]? = some t → vals[j]? = some w → AsPlain o P w) →
      Rows o parts S vals shapes els → All2 FieldTypeOf els types → us.length = els.length →
      (∀ (j : Nat) (s : List Nat) (es col : List Val) (ft : FT), shapes[j]? = some s → els[j]? = some es → types[j]? = some ft → us[j]? = some col →
        FilledWith S s ft es col) →
      AsPlain o (.value v) (.npStruct .ndarray S keys types us.flatten)

end HS.Spec
