import Verif.Spec.Layout
import Verif.Spec.MatStruct
/-
What values stored with `matlab_compatible` but without Python metadata read back as.
-/
namespace HS.Spec

/-- As many elements as the shape says, all of the dtype. -/
structure TypedData (a : Arr) : Prop where
  count : a.data.length = prodN a.shape
  fits : ∀ e ∈ a.data, FitsDT a.dt e

/-- The same elements, with at least two dimensions if asked for. -/
def AsRow (o : COpts) (a : Arr) : Arr := { a with shape := RowShape o a.shape }

/-- The characters of the value are stored as a matrix, with the texts `ss` as its rows (of length `w`); the dimensions but for the last one are `rest`. -/
structure CharRows (o : COpts) (v : Val) (rest : List Nat) (w : Nat) (ss : List Str) : Prop where
  rows : ∃ a, TextData o v a ∧ TextRows (AsRow o a) rest w ss
  storable : ∀ s ∈ ss, Storable s
  documented : AsDocumented o v

/-- The names in the Group of a value without Python metadata, unescaped. -/
def Shown (names shown : List Str) : Prop := All2 (fun k t => unescapePath k = .ok t) names shown

/-- numpy takes these names for fields, or they are only used as keys of a dict. -/
def Named (d : Bool) (texts : List Str) : Prop := d = true ∨ (texts ≠ [] ∧ [] ∉ texts)

/-- Values that MATLAB has a class for, at every depth, to be read with `structs_as_dicts` as `d` says.  Numbers, text that is stored as rows of characters or, if it cannot be, as bytes, and arrays without elements;
object arrays, lists and the like; dicts (not Counters), with string keys or other keys, and records; structured arrays, if without elements then with field
names, all of them ASCII.  If structs are not read as dicts, dicts and the like have fields, and these have names. -/
inductive MatGood (o : COpts) (d : Bool) : Val → Prop
  | number {v : Val} {a : Arr} {cl : Str} : NumericOf v a → TypedData a → ClassOf v cl → 0 ∉ a.shape → MatGood o d v
  | empty {v : Val} {a : Arr} {cl : Str} : NumericOf v a ∨ (TextData o v a ∧ AsDocumented o v) → ClassOf v cl → NoElements v → MatGood o d v
  | chars {v : Val} {rest : List Nat} {w : Nat} {ss : List Str} : CharRows o v rest w ss → ¬ NoElements v → MatGood o d v
  | bytes {v : Val} {a : Arr} {n : Nat} : TextData o v a → a.dt = .bytes n → ¬ NoElements v → MatGood o d v
  | npObj (c : Cont) (sh : List Nat) (e : List Val) : c ≠ .scalar → e.length = prodN sh → (∀ w ∈ e, MatGood o d w) → MatGood o d (.npObj c sh e)
  | seq (k : SeqKind) (e : List Val) : (∀ w ∈ e, MatGood o d w) → MatGood o d (.seq k e)
  | fields {v : Val} {texts : List Str} {vals : List Val} {cl : Str} : HasFields v texts vals → ClassOf v cl → texts.Nodup → Named d texts → (∀ w ∈ vals, MatGood o d w) → MatGood o d v
  | dict (k : DictKind) (keys vals : List Val) (kn vn : Str) : k ≠ .counter → (∃ k ∈ keys, NotTextKey k) → Shown [o.keysName, o.valuesName] [kn, vn] → kn ≠ vn → Named d [kn, vn] →
      (∀ w ∈ keys, MatGood o d w) → (∀ w ∈ vals, MatGood o d w) → MatGood o d (.dict k keys vals)
  | npStruct (c : Cont) (sh : List Nat) (n : List Str) (ty : List FT) (e : List Val) : 0 ∉ sh → n.Nodup → Named d n → e.length = n.length * prodN sh → AllNamed (.struct n ty []) →
      (∀ w ∈ e, MatGood o d w) → MatGood o d (.npStruct c sh n ty e)
  | emptyStruct (c : Cont) (sh : List Nat) (n : List Str) (ty : List FT) : 0 ∈ sh → n.Nodup → Named false n → AllNamed (.struct n ty []) →
      (∀ t ∈ n, ∀ k, escapePath t = .ok k → ∀ c ∈ k, c < 128) → MatGood o d (.npStruct c sh n ty [])

/-- What the part is read as, with `structs_as_dicts` as `d` says.  Numbers are arrays of at least two dimensions of the same dtype with the same elements.  Arrays without elements are of
the dtype of their class.  Text is an array of str, the rows of the matrix of characters, or an array of bytes.  Object arrays and the like are object
arrays with at least two dimensions of what the elements are read as.

Structs as dicts: dicts, records and structured arrays are dicts from the field names to what the fields are read as, in some order; the columns
of a structured array with several elements are object arrays (in the order of the dimensions they have in the file).  Otherwise dicts, records and structured arrays of one element are
structured arrays of shape (1,), and other structured arrays are structured arrays of the same shape with at least two dimensions.  They have the same fields, in some order, with
what the values are read as; a field has the dtype and the shape all these values have, or is of objects.

Structured arrays without elements keep the names of the fields. -/
inductive AsMatlab (o : COpts) (d : Bool) : Part → Val → Prop
  | number {v : Val} {a : Arr} {cl : Str} : NumericOf v a → 0 ∉ a.shape → ClassOf v cl → TypedData a → AsMatlab o d (.value v) (.np .ndarray (AsRow o a))
  | empty {v : Val} {a : Arr} {cl : Str} {dt : DT} : NumericOf v a ∨ TextData o v a → NoElements v → ClassOf v cl → KnownClass cl dt →
      AsMatlab o d (.value v) (.np .ndarray ⟨dt, RowShape o a.shape, []⟩)
  | chars {v : Val} {rest : List Nat} {w m : Nat} {ss : List Str} {r : Arr} : CharRows o v rest w ss → ¬ NoElements v → IsStrArray r m ss → r.shape = rest ++ [1] →
      0 < m → m = 1 ∨ (∃ s ∈ ss, s.length = m) → AsMatlab o d (.value v) (.np .ndarray r)
  | bytes {v : Val} {a : Arr} {n : Nat} : TextData o v a → a.dt = .bytes n → ¬ NoElements v → AsMatlab o d (.value v) (.np .ndarray (AsRow o a))
  | cells {v : Val} {sh : List Nat} {e es : List Val} : Elements (.value v) sh e → e.length = prodN sh → es.length = e.length →
      (∀ (i : Nat) (w w' : Val), e[i]? = some w → es[i]? = some w' → AsMatlab o d (.value w) w') → AsMatlab o d (.value v) (.npObj .ndarray (RowShape o sh) es)
  | column {sh : List Nat} {e el es : List Val} : InOrder o sh e el → es.length = el.length →
      (∀ (i : Nat) (w w' : Val), el[i]? = some w → es[i]? = some w' → AsMatlab o d (.value w) w') → AsMatlab o d (.column sh e) (.npObj .ndarray (StoredShape o sh) es)
  | dict {v : Val} {names shown keys : List Str} {parts : List Part} {vals : List Val} : d = true → FieldsOf o v names parts → parts.length = names.length → Shown names shown → keys.Nodup →
      (∀ t, t ∈ keys ↔ t ∈ shown) → vals.length = keys.length →
      (∀ (i j : Nat) (t : Str) (P : Part) (w : Val), shown[i]? = some t → parts[i]? = some P → keys[j]? = some t → vals[j]? = some w → AsMatlab o d P w) →
      AsMatlab o d (.value v) (.dict .dict (keys.map .str) vals)
  | one {v : Val} {names shown keys : List Str} {fields vals us : List Val} {types : List FT} : d = false → FieldsOf o v names (fields.map .value) → fields.length = names.length →
      Shown names shown → keys ≠ [] → [] ∉ keys → keys.Nodup → (∀ t, t ∈ keys ↔ t ∈ shown) → vals.length = keys.length → types.length = keys.length → us.length = keys.length →
      (∀ (i j : Nat) (t : Str) (w w' : Val), shown[i]? = some t → fields[i]? = some w → keys[j]? = some t → vals[j]? = some w' → AsMatlab o d (.value w) w') →
      (∀ (j : Nat) (w' : Val) (ft : FT), vals[j]? = some w' → types[j]? = some ft → FieldTypeOf [w'] ft) →
      (∀ (j : Nat) (w' u : Val) (ft : FT), vals[j]? = some w' → types[j]? = some ft → us[j]? = some u → Handed ft w' u) →
      AsMatlab o d (.value v) (.npStruct .ndarray [1] keys types us)
  | several {v : Val} {sh : List Nat} {names shown keys : List Str} {cols ess us : List (List Val)} {types : List FT} : d = false →
      FieldsOf o v names (cols.map (.column (RowShape o sh))) → cols.length = names.length → (∀ col ∈ cols, col.length = prodN sh) → 0 ∉ sh →
      Shown names shown → keys ≠ [] → [] ∉ keys → keys.Nodup → (∀ t, t ∈ keys ↔ t ∈ shown) →
      ess.length = keys.length → types.length = keys.length → us.length = keys.length → (∀ es ∈ ess, es.length = prodN sh) → (∀ u ∈ us, u.length = prodN sh) →
      (∀ (i j k : Nat) (t : Str) (col es : List Val) (w w' : Val), shown[i]? = some t → cols[i]? = some col → keys[j]? = some t → ess[j]? = some es →
        col[k]? = some w → es[k]? = some w' → AsMatlab o d (.value w) w') →
      (∀ (j : Nat) (es : List Val) (ft : FT), ess[j]? = some es → types[j]? = some ft → FieldTypeOf es ft) →
      (∀ (j k : Nat) (es col : List Val) (ft : FT) (w' u : Val), ess[j]? = some es → types[j]? = some ft → us[j]? = some col → es[k]? = some w' → col[k]? = some u → Handed ft w' u) →
      AsMatlab o d (.value v) (.npStruct .ndarray (RowShape o sh) keys types us.flatten)
  | emptyStruct (c : Cont) (sh : List Nat) (n : List Str) (ty : List FT) (e : List Val) : 0 ∈ sh →
      AsMatlab o d (.value (.npStruct c sh n ty e)) (.npStruct .ndarray (RowShape o sh) n (n.map fun _ => .base .object []) [])

/-- The value is, or contains, a structured array without elements. -/
inductive HasEmptyStruct : Val → Prop
  | here (c : Cont) (sh : List Nat) (n : List Str) (ty : List FT) (e : List Val) : 0 ∈ sh → HasEmptyStruct (.npStruct c sh n ty e)
  | field (c : Cont) (sh : List Nat) (n : List Str) (ty : List FT) (e : List Val) (w : Val) : w ∈ e → HasEmptyStruct w → HasEmptyStruct (.npStruct c sh n ty e)
  | npObj (c : Cont) (sh : List Nat) (e : List Val) (w : Val) : w ∈ e → HasEmptyStruct w → HasEmptyStruct (.npObj c sh e)
  | dict (k : DictKind) (keys vals : List Val) (w : Val) : w ∈ vals → HasEmptyStruct w → HasEmptyStruct (.dict k keys vals)

end HS.Spec
