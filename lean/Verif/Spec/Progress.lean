import Verif.Spec.File
/-
When writing is expected to succeed.
-/
namespace HS.Spec

/-- Only ASCII characters. -/
def Ascii (s : Str) : Prop := ∀ c ∈ s, c < 128

/-- The value is stored as a Group (so that the path of that Group becomes part of the metadata of what is in it). -/
def Grouped : Val → Prop
  | .dict _ _ _ | .record _ _ | .npStruct _ _ _ _ _ => True
  | _ => False

/-- The text is possible as name of an entry of a dict or field with this value: it is not empty, it has no surrogates, and MATLAB compatible Groups need ASCII
names (finding F23). -/
structure NameFor (o : COpts) (name : Str) (v : Val) : Prop where
  ne : name ≠ []
  text : Scalars name
  ascii : o.matlab = true → Grouped v → Ascii name

/-- Datasets can be written over (finding F27: with other compression algorithms than gzip they cannot). -/
def CanOverwrite (o : COpts) : Prop := o.compress = true → o.algorithm = p!"gzip"

/-- The names of the parts of complex numbers are different and not empty. -/
structure PartNames (o : COpts) : Prop where
  re : o.complexNames.1 ≠ []
  im : o.complexNames.2 ≠ []
  ne : o.complexNames.1 ≠ o.complexNames.2

/-- Types of fields that HDF5 has: not str, nor bytes of width 0, objects or references; the names have no surrogates and, like the shapes of subarrays, no zeros. -/
inductive H5Type : FT → Prop
  | base (dt : DT) (sp : List Nat) : (∀ n, dt ≠ .str n) → dt ≠ .bytes 0 → dt ≠ .object → dt ≠ .ref → (∀ r i d, dt ≠ .crec r i d) → (∀ o s n t, dt ≠ .comp o s n t) → 0 ∉ sp →
      H5Type (.base dt sp)
  | struct (names : List Str) (types : List FT) (sp : List Nat) : names ≠ [] → (∀ n ∈ names, Scalars n ∧ ¬ NulName n) → 0 ∉ sp → (∀ t ∈ types, H5Type t) →
      H5Type (.struct names types sp)

/-- Values that can be written with the options, nested to any depth.  This is about being written without an exception, not about surviving a round trip (see `Good`):
types that MATLAB does not have must not be forbidden, names must be possible, zero-dimensional arrays of str cannot be converted to UTF-16 (finding F15). -/
inductive Writable (o : COpts) : Val → Prop
  | none : Writable o .none
  | ellipsis : Writable o .ellipsis
  | notImplemented : Writable o .notImplemented
  | bool (b : Bool) : Writable o (.bool b)
  | int (v : Int) : Writable o (.int v)
  | float (b : Int) : Writable o (.float b)
  | complex (a b : Int) : PartNames o → Writable o (.complex a b)
  | str (s : Str) : Writable o (.str s)
  | bytes (b : Bytes) : Writable o (.bytes b)
  | bytearray (b : Bytes) : Writable o (.bytearray b)
  | np (c : Cont) (a : Arr) : PlainArr a → (o.matlab = true → o.action = .error → a.dt ≠ .f16) → (a.dt = .c64 ∨ a.dt = .c128 → PartNames o) →
      (o.str16 = true → c ≠ .scalar → (∃ n, a.dt = .str n) → a.shape ≠ []) → Writable o (.np c a)
  | npObj (c : Cont) (shape : List Nat) (elems : List Val) : elems.length = prodN shape → (∀ e ∈ elems, Writable o e) → Writable o (.npObj c shape elems)
  | seq (k : SeqKind) (elems : List Val) : (∀ e ∈ elems, Writable o e) → Writable o (.seq k elems)
  | dictText (k : DictKind) (keys vals : List Val) (texts : List Str) : All2 KeyText keys texts →
      (∀ tv ∈ texts.zip vals, NameFor o tv.1 tv.2) → (∀ t ∈ texts, Scalars t) → (∀ v ∈ vals, Writable o v) → Writable o (.dict k keys vals)
  | dictAny (k : DictKind) (keys vals : List Val) : (∃ k ∈ keys, NotTextKey k) → KvNames o → Scalars o.keysName → Scalars o.valuesName →
      (∀ k ∈ keys, Writable o k) → (∀ v ∈ vals, Writable o v) → Writable o (.dict k keys vals)
  | record (k : RecKind) (vals : List Val) : (∀ v ∈ vals, Writable o v) → Writable o (.record k vals)
  | npStruct (c : Cont) (shape : List Nat) (names : List Str) (types : List FT) (elems : List Val) : (o.matlab = true → o.structAsStruct = false → o.action ≠ .error) →
      (o.structAsStruct = true ∨ NeedsGroup names types) → elems.length = names.length * prodN shape → (∀ nm ∈ names, nm ≠ [] ∧ Scalars nm) →
      (o.matlab = true → prodN shape = 1 → ∀ (k : Nat) nm e, names[k]? = some nm → elems[k]? = some e → Grouped e → Ascii nm) →
      (∀ e ∈ elems, Writable o e) → Writable o (.npStruct c shape names types elems)
  | npTable (c : Cont) (shape : List Nat) (names : List Str) (types : List FT) (elems : List Val) : (o.matlab = true → o.action ≠ .error) → o.structAsStruct = false →
      H5Type (.struct names types []) → Writable o (.npStruct c shape names types elems)
  | dtypeObj (s : Str) : Scalars s → Writable o (.dtypeObj s)

/-- Every object that is there on the way to the place is a Group. -/
def WayFree (h : Heap) (ns : List Str) : Prop := ∀ l q, l <+: ns → l ≠ ns → LPath h l q → isGroup h q = true

/-- The attributes `MATLAB_class` in the file are text. -/
def TextClasses (h : Heap) : Prop := ∀ ob ∈ h, ∀ b, aget ob.attrs p!"MATLAB_class" = some (.bytes b) → ∃ s, utf8Dec b = .ok s

/-- The last `x.hang` names drawn at random for a new object in the references Group were all in use there (so that the program goes on drawing names instead of
finding one). -/
def Unlucky (x : Ctx) (s : St) : Prop :=
  x.hang ≤ s.rpos ∧ ∀ i, s.rpos - x.hang ≤ i → i < s.rpos → Exists s.heap (hdf5Names x.o.refsPath ++ [randName x i])

/-- The references Group was made by this `File` object, or there is none yet and this `File` has not dealt with it. -/
def OwnRefs (x : Ctx) (F : FileS) : Prop := F.st.created = true ∨ (F.st.refs = none ∧ ¬ Exists F.st.heap (hdf5Names x.o.refsPath))

/-- `f.write(v, p)` is expected to succeed: `F` is a file open for writing in any state it can be in, `p` is an acceptable path (whether or not there
is something at it already), its names can be stored, whatever there is on the way there and on the way to the references Group is a Group, and the value can be written. -/
structure CanWrite (x : Ctx) (F : FileS) (p : PathArg) (ns : List Str) (v : Val) : Prop where
  refs : RefsPathOk x.o
  reach : Reach x F
  isOpen : F.isOpen = true
  rw : F.ro = false
  addr : Addr p ns
  notRoot : ns ≠ []
  off : ns.head? ≠ (hdf5Names x.o.refsPath).head?
  text : ∀ k ∈ ns, Scalars k
  ascii : x.o.matlab = true → Grouped v → ∀ k ∈ ns, Ascii k
  over : CanOverwrite x.o
  way : WayFree F.st.heap ns
  refsWay : WayFree F.st.heap (hdf5Names x.o.refsPath)
  refsText : ∀ k ∈ hdf5Names x.o.refsPath, Scalars k ∧ (x.o.matlab = true → Ascii k)
  classes : TextClasses F.st.heap
  names : NamesOk x.o

end HS.Spec
