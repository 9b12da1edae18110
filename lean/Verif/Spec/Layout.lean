import Verif.Spec.AttrTable
import Verif.Spec.Text
import Verif.Spec.ValidRefs
/-
The whole layout of a value in the file (`/repo/doc/source/storage_format.rst`): which objects it is stored as, at every depth, where they are, what is in them and
what refers to them.
-/
namespace HS.Spec

/-- What an object in the file is for: a value, or the column of all values of a field of a structured array (with the shape of that array). -/
inductive Part
  | value (v : Val)
  | column (shape : List Nat) (elems : List Val)

/-- The name of the Group with these names on the way to it. -/
def groupName (ns : List Str) : Str := if ns = [] then p!"/" else ns.flatMap fun c => p!"/" ++ c

/-- The attributes of an object: those documented for the value (none for a column), and H5PATH, the name of the Group it is in, if it is part of something else. -/
def AttrsAre (o : COpts) (b : Body) (path : Option Str) (P : Part) (attrs : List (Str × AVal)) : Prop :=
  ∀ k a, aget attrs k = some a ↔ (∃ v, P = .value v ∧ DocAttr o b v k a) ∨ (o.matlab = true ∧ k = p!"H5PATH" ∧ ∃ n, path = some n ∧ a = .bytes n)

/-- Shape and elements of object arrays, lists and the like, and columns. -/
inductive Elements : Part → List Nat → List Val → Prop
  | npObj (c : Cont) (sh : List Nat) (e : List Val) : Elements (.value (.npObj c sh e)) sh e
  | seq (k : SeqKind) (e : List Val) : Elements (.value (.seq k e)) [e.length] e
  | column (sh : List Nat) (e : List Val) : Elements (.column sh e) sh e

/-- The shape of the Dataset: reversed with `reverse_dimension_order`. -/
def StoredShape (o : COpts) (sh : List Nat) : List Nat := if o.reverse then (RowShape o sh).reverse else RowShape o sh

/-- `el` are the elements `e` in the order of the Dataset. -/
structure InOrder (o : COpts) (sh : List Nat) (e el : List Val) : Prop where
  count : el.length = prodN sh
  elems : ∀ i, IndexOf (RowShape o sh) i → el[ravelN (StoredShape o sh) (if o.reverse then i.reverse else i)]? = e[ravelN (RowShape o sh) i]?

/-- The names in the Group of a value and what they are for: keys and values of a dict with string keys, or of a record; the keys and the values of another dict; the
values of the only element, or else the columns, of a structured array. -/
inductive FieldsOf (o : COpts) : Val → List Str → List Part → Prop
  | fields {v : Val} {texts names : List Str} {vals : List Val} : HasFields v texts vals → All2 (fun t k => escapePath t = .ok k) texts names → FieldsOf o v names (vals.map .value)
  | keysValues (k : DictKind) (keys vals : List Val) : (∃ k ∈ keys, NotTextKey k) →
      FieldsOf o (.dict k keys vals) [o.keysName, o.valuesName] [.value (.seq .tuple keys), .value (.seq .tuple vals)]
  | one (c : Cont) (sh : List Nat) (n : List Str) (ty : List FT) (e : List Val) (names : List Str) : prodN sh = 1 → All2 (fun t k => escapePath t = .ok k) n names →
      FieldsOf o (.npStruct c sh n ty e) names (e.map .value)
  | many (c : Cont) (sh : List Nat) (n : List Str) (ty : List FT) (e : List Val) (names : List Str) (cols : List (List Val)) : prodN sh ≠ 1 →
      All2 (fun t k => escapePath t = .ok k) n names → (∀ col ∈ cols, col.length = prodN sh) → cols.flatten = e →
      FieldsOf o (.npStruct c sh n ty e) names (cols.map (.column (RowShape o sh)))

/-- Structured arrays are stored as Groups if asked for, or if they cannot be stored otherwise (but not if only the shape is stored). -/
def GroupFor (o : COpts) : Val → Prop
  | .npStruct _ sh n ty _ => (o.structAsStruct = true ∨ NeedsGroup n ty) ∧ ¬ (o.storeShape = true ∧ 0 ∈ sh)
  | _ => True

/-- The part is not stored. -/
def LeftOut (o : COpts) (P : Part) : Prop := ∃ v, P = .value v ∧ Discarded o v

/-- The numeric data of values without parts. -/
inductive NumericOf : Val → Arr → Prop
  | none : NumericOf .none ⟨.f64, [0], []⟩
  | ellipsis : NumericOf .ellipsis ⟨.f64, [0], []⟩
  | notImplemented : NumericOf .notImplemented ⟨.f64, [0], []⟩
  | bool (b : Bool) : NumericOf (.bool b) ⟨.bool, [], [.num (if b then 1 else 0)]⟩
  | int (i : Int) : -9223372036854775808 ≤ i → i < 9223372036854775808 → NumericOf (.int i) ⟨.i64, [], [.num i]⟩
  | float (f : Int) : NumericOf (.float f) ⟨.f64, [], [.num f]⟩
  | complex (a b : Int) : NumericOf (.complex a b) ⟨.c128, [], [.cplx a b]⟩
  | np (c : Cont) (a : Arr) : NumericDT a.dt → a.data.length = prodN a.shape → NumericOf (.np c a) a

/-- The data of a Dataset for a value without parts: numeric data, or text in the documented encoding (as far as that is done, see `AsDocumented`), or the shape if there are
no elements and that is asked for. -/
def DataFor (o : COpts) (v : Val) (b : Arr) : Prop := ∀ a, NumericOf v a ∨ (TextData o v a ∧ AsDocumented o v) →
  (o.storeShape = true ∧ NoElements v → HoldsShape o a b) ∧ (¬ (o.storeShape = true ∧ NoElements v) → HoldsArray o a b)

/-- An element as it is in a field of the dtype: bytes are as wide as the field, filled up with zeros. -/
inductive InWidth : DT → El → El → Prop
  | bytes (n : Nat) (u : List Nat) : InWidth (.bytes n) (.units u) (.units (u ++ List.replicate (n - u.length) 0))
  | other (dt : DT) (e : El) : (∀ n, dt ≠ .bytes n) → InWidth dt e e

mutual
/-- What is stored for a value of a field: its elements, for structured data these of its columns. -/
inductive FieldData : FT → Val → List El → Prop
  | base {dt : DT} {sp : List Nat} {c : Cont} {a : Arr} {els : List El} : All2 (InWidth dt) a.data els → FieldData (.base dt sp) (.np c a) els
  | struct {n : List Str} {t : List FT} {sp : List Nat} {c : Cont} {cols : List (List Val)} {els : List El} : (∀ col ∈ cols, col.length = prodN sp) → ColumnsData t cols els →
      FieldData (.struct n t sp) (.npStruct c sp n t cols.flatten) els
/-- What is stored for the values of one field, one after another. -/
inductive ColumnData : FT → List Val → List El → Prop
  | nil (t : FT) : ColumnData t [] []
  | cons {t : FT} {v : Val} {r : List Val} {a b : List El} : FieldData t v a → ColumnData t r b → ColumnData t (v :: r) (a ++ b)
/-- What is stored for several fields, one after another. -/
inductive ColumnsData : List FT → List (List Val) → List El → Prop
  | nil : ColumnsData [] [] []
  | cons {t : FT} {r : List FT} {col : List Val} {cols : List (List Val)} {a b : List El} : ColumnData t col a → ColumnsData r cols b → ColumnsData (t :: r) (col :: cols) (a ++ b)
end

/-- `data` is what is stored in a compound Dataset, field by field, for the structured data with these types and values (field by field): the elements are in the order
of the Dataset. -/
def TableData (o : COpts) (sh : List Nat) (ty : List FT) (e : List Val) (data : List El) : Prop :=
  ∃ cols stored : List (List Val), (∀ c ∈ cols, c.length = prodN sh) ∧ cols.flatten = e ∧ All2 (InOrder o sh) cols stored ∧ ColumnsData ty stored data

/-- The values of each field are of its type. -/
def OfTypes (sh : List Nat) (ty : List FT) (e : List Val) : Prop :=
  ∀ (k : Nat) t, ty[k]? = some t → ∀ v ∈ (e.drop (k * prodN sh)).take (prodN sh), FieldVal t v

/-- The object `q`, with these names on the way to it, is how the part is stored; `path` is the name of the Group it is in if it is part of something else.
Values without parts are Datasets.  Structured arrays are Groups, or Datasets of a compound dtype.  Dicts and records are Groups.  The Group has exactly the fields
that are not left out, each of them stored as it should be.  Object arrays, lists and the like, and columns are Datasets of references: each element is stored in the
references Group, as it should be, and the references lead there; for an element that is left out the reference leads to what is named 'a' there, the canonical empty.
With no elements the shape is stored if that is asked for. -/
inductive Laid (o : COpts) (h : Heap) : List Str → Option Str → Nat → Part → Prop
  | data {ns : List Str} {path : Option Str} {q : Nat} {v : Val} {attrs : List (Str × AVal)} {a : Arr} {f : Filters} {c : Cont} {dt : DT} {sh : List Nat} :
      LPath h ns q → h[q]? = some ⟨attrs, .dset a f⟩ → AttrsAre o (.dset a f) path (.value v) attrs →
      AsNumpy v c dt sh → DataFor o v a → Laid o h ns path q (.value v)
  | table {ns : List Str} {path : Option Str} {q : Nat} {attrs : List (Str × AVal)} {a : Arr} {f : Filters} {c : Cont} {sh : List Nat} {n : List Str} {ty : List FT} {e : List Val} :
      LPath h ns q → h[q]? = some ⟨attrs, .dset a f⟩ → AttrsAre o (.dset a f) path (.value (.npStruct c sh n ty e)) attrs →
      ¬ (o.storeShape = true ∧ 0 ∈ sh) → ¬ GroupFor o (.npStruct c sh n ty e) → (∃ pairs sz, a.dt = .comp pairs sz n ty) → a.shape = StoredShape o sh →
      (OfTypes sh ty e → TableData o sh ty e a.data) →
      Laid o h ns path q (.value (.npStruct c sh n ty e))
  | shape {ns : List Str} {path : Option Str} {q : Nat} {P : Part} {attrs : List (Str × AVal)} {a : Arr} {f : Filters} {sh : List Nat} :
      LPath h ns q → h[q]? = some ⟨attrs, .dset a f⟩ → AttrsAre o (.dset a f) path P attrs →
      ((∃ e, Elements P sh e) ∨ ∃ c n ty e, P = .value (.npStruct c sh n ty e)) → o.storeShape = true → 0 ∈ sh →
      a = ⟨.u64, [(RowShape o sh).length], (RowShape o sh).map fun d => .num (Int.ofNat d)⟩ → Laid o h ns path q P
  | refs {ns : List Str} {path : Option Str} {q : Nat} {P : Part} {attrs : List (Str × AVal)} {f : Filters} {sh : List Nat} {e el : List Val} {ids : List Nat} {nms : List Str} :
      LPath h ns q → h[q]? = some ⟨attrs, .dset ⟨.ref, StoredShape o sh, ids.map .ref⟩ f⟩ →
      AttrsAre o (.dset ⟨.ref, StoredShape o sh, ids.map .ref⟩ f) path P attrs → Elements P sh e → ¬ (o.storeShape = true ∧ 0 ∈ sh) → InOrder o sh e el →
      ids.length = el.length → nms.length = el.length →
      (∀ (i : Nat) (w : Val) (r : Nat), el[i]? = some w → ids[i]? = some r → Discarded o w → LPath h (hdf5Names o.refsPath ++ [p!"a"]) r) →
      (∀ (i : Nat) (w : Val) (r : Nat) (nm : Str), el[i]? = some w → ids[i]? = some r → nms[i]? = some nm → ¬ Discarded o w →
        Laid o h (hdf5Names o.refsPath ++ [nm]) (some (groupName (hdf5Names o.refsPath))) r (.value w)) →
      Laid o h ns path q P
  | group {ns : List Str} {path : Option Str} {q : Nat} {v : Val} {attrs : List (Str × AVal)} {links : List (Str × Nat)} {names : List Str} {parts : List Part} :
      LPath h ns q → h[q]? = some ⟨attrs, .group links⟩ → AttrsAre o (.group links) path (.value v) attrs → GroupFor o v → FieldsOf o v names parts →
      names.length = parts.length →
      (∀ k, (∃ r, aget links k = some r) ↔ ∃ (i : Nat) (P : Part), names[i]? = some k ∧ parts[i]? = some P ∧ ¬ LeftOut o P) →
      (∀ (i : Nat) (k : Str) (P : Part) (r : Nat), names[i]? = some k → parts[i]? = some P → aget links k = some r →
        Laid o h (ns ++ [k]) (some (groupName ns)) r P) →
      Laid o h ns path q (.value v)

/-- Values the layout is about: as for the attributes, and arrays have as many elements as the shape says, dicts and structured arrays do not have two fields of the
same name, and structured types have a name for each field. -/
inductive Regular (o : COpts) : Val → Prop
  | plain {v : Val} {c : Cont} {dt : DT} {sh : List Nat} {t : Str} : AsNumpy v c dt sh → DtName dt t → Regular o v
  | discarded (c : Cont) (a : Arr) : Discarded o (.np c a) → Regular o (.np c a)
  | npObj (c : Cont) (sh : List Nat) (e : List Val) : c ≠ .scalar → e.length = prodN sh → (∀ w ∈ e, Regular o w) → Regular o (.npObj c sh e)
  | seq (k : SeqKind) (e : List Val) : (∀ w ∈ e, Regular o w) → Regular o (.seq k e)
  | fields {v : Val} {texts : List Str} {vals : List Val} : HasFields v texts vals → texts.Nodup → (∀ w ∈ vals, Regular o w) → Regular o v
  | dict (k : DictKind) (keys vals : List Val) : (∃ k ∈ keys, NotTextKey k) → o.keysName ≠ o.valuesName → (∀ w ∈ keys, Regular o w) → (∀ w ∈ vals, Regular o w) →
      Regular o (.dict k keys vals)
  | npStruct (c : Cont) (sh : List Nat) (n : List Str) (ty : List FT) (e : List Val) : n.Nodup → e.length = n.length * prodN sh → AllNamed (.struct n ty []) →
      (∀ w ∈ e, Regular o w) → Regular o (.npStruct c sh n ty e)

end HS.Spec
