import Verif.Spec.File
/-
What a Group read as a dict has in it.
-/
namespace HS.Spec

/-- What `read_data` gives for the object `q` of a file with these contents; `n` is the recursion limit. -/
abbrev Gives (x : Ctx) (n : Nat) (h : Heap) (q : Nat) (v : Val) : Prop := readData x.o (viewOf h) (exclOf x.o h) n q = .ok v

/-- The object `q` is the Group of the references. -/
def IsRefsGroup (x : Ctx) (h : Heap) (q : Nat) : Prop := exclOf x.o h = some q

/-- In the Group at `ns` there is a member that is not the Group of the references, whose name stands for the text `t`, and which can be read, giving `v`. -/
def Member (x : Ctx) (n : Nat) (h : Heap) (ns : List Str) (t : Str) (v : Val) : Prop :=
  ∃ name q, LPath h (ns ++ [name]) q ∧ ¬ IsRefsGroup x h q ∧ unescapePath name = .ok t ∧ Gives x n h q v

/-- These texts and values are those of the members of the Group at `ns` that can be read: no text is there twice, each value is that of a member with its text, and
each member that can be read is there. -/
structure Members (x : Ctx) (n : Nat) (h : Heap) (ns : List Str) (texts : List Str) (vals : List Val) : Prop where
  len : texts.length = vals.length
  nodup : texts.Nodup
  each : ∀ (i : Nat) (t : Str) (v : Val), texts[i]? = some t → vals[i]? = some v → Member x n h ns t v
  all : ∀ t v, Member x n h ns t v → t ∈ texts

/-- The attribute is a string: of variable length, or bytes in UTF-8. -/
def StringAttr (attrs : List (Str × AVal)) (name s : Str) : Prop := aget attrs name = some (.pyStr s) ∨ ∃ b, utf8Enc s = .ok b ∧ aget attrs name = some (.bytes b)

/-- The key is `str` or `numpy.str_` with this text. -/
inductive TextKey : Val → Str → Prop
  | str (t : Str) : TextKey (.str t) t
  | npStr (t : Str) : TextKey (.np .scalar (npStr t)) t

/-- The key is `bytes` or `numpy.bytes_` with these bytes. -/
inductive BytesKey : Val → Bytes → Prop
  | bytes (b : Bytes) : BytesKey (.bytes b) b
  | npBytes (b : Bytes) : BytesKey (.np .scalar (npBytes b)) b

/-- A key of a string type that stands for the text `t`: this text, or its UTF-8 encoding. -/
def KeyOf (k : Val) (t : Str) : Prop := TextKey k t ∨ ∃ b, utf8Enc t = .ok b ∧ BytesKey k b

/-- Keys that are equal for Python. -/
def EqualKeys (a b : Val) : Prop := (∃ t, TextKey a t ∧ TextKey b t) ∨ ∃ c, BytesKey a c ∧ BytesKey b c

/-- The same with the keys of a dict: no two of them are equal, each value is that of a member whose text the key stands for, and there is a key for each member that can be
read and whose name can be encoded (some keys are to be bytes). -/
structure KeyedMembers (x : Ctx) (n : Nat) (h : Heap) (ns : List Str) (keys vals : List Val) : Prop where
  len : keys.length = vals.length
  distinct : keys.Pairwise fun a b => ¬ EqualKeys a b
  each : ∀ (i : Nat) (k v : Val), keys[i]? = some k → vals[i]? = some v → ∃ t, KeyOf k t ∧ Member x n h ns t v
  all : ∀ t v, Member x n h ns t v → (∃ b, utf8Enc t = .ok b) → ∃ k ∈ keys, KeyOf k t

end HS.Spec
