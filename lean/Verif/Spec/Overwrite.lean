import Verif.Spec.Dict
import Verif.Spec.Local
/-
Writing to a place that is in use: which values can be written over which others so that nothing of the old one is left.
-/
namespace HS.Spec

/-- A Python number: bool, float, complex, or an int of at most 64 bits. -/
inductive PyNumber : Val → Prop
  | bool (b : Bool) : PyNumber (.bool b)
  | int (v : Int) : -9223372036854775808 ≤ v → v ≤ 9223372036854775807 → PyNumber (.int v)
  | float (b : Int) : PyNumber (.float b)
  | complex (a b : Int) : PyNumber (.complex a b)

/-- What sort of thing a value is. -/
inductive ValSort
  | number | text | objects | mapping
  deriving DecidableEq

/-- Values that are not empty, by sort: numbers of Python and numpy (but for numpy data of the dtypes uint16 and uint32, which text is stored as), text, things that have
others as elements, and mappings (empty ones as well). -/
inductive SortOf : Val → ValSort → Prop
  | number {v : Val} : PyNumber v → SortOf v .number
  | array (c : Cont) (a : Arr) : NumericDT a.dt → a.dt ≠ .u16 → a.dt ≠ .u32 → prodN a.shape ≠ 0 → SortOf (.np c a) .number
  | str (s : Str) : s ≠ [] → SortOf (.str s) .text
  | bytes (b : Bytes) : b ≠ [] → SortOf (.bytes b) .text
  | bytearray (b : Bytes) : b ≠ [] → SortOf (.bytearray b) .text
  | seq (k : SeqKind) (e : List Val) : e ≠ [] → SortOf (.seq k e) .objects
  | npObj (c : Cont) (s : List Nat) (e : List Val) : prodN s ≠ 0 → SortOf (.npObj c s e) .objects
  | dict (k : DictKind) (a b : List Val) : SortOf (.dict k a b) .mapping
  | record (k : RecKind) (l : List Val) : SortOf (.record k l) .mapping

/-- Mappings. -/
def IsMapping : Val → Prop
  | .dict _ _ _ | .record _ _ => True
  | _ => False

/-- Values that are neither mappings nor structured arrays. -/
def IsSimple : Val → Prop
  | .dict _ _ _ | .record _ _ | .npStruct _ _ _ _ _ => False
  | _ => True

/-- Mappings of the same type. -/
inductive SameMapping : Val → Val → Prop
  | dict (k : DictKind) (a b c d : List Val) : SameMapping (.dict k a b) (.dict k c d)
  | record (k : RecKind) (a b : List Val) : SameMapping (.record k a) (.record k b)

/-- All keys are str. -/
def StrKeys : Val → Prop
  | .dict _ keys _ => ∀ k ∈ keys, ∃ s, k = .str s
  | .record _ _ => True
  | _ => False

/-- `w` can be written over `v`.  The type is the same, and what the stored attributes depend on in size is the same (the width of byte strings does not matter, but
whether they are empty does; the number of dimensions of arrays; the number of keys of dicts if some are not str); or the two are so different that the old object is
replaced by a new one.  For dicts the old keys have to be among the new ones unless unused members are deleted, and the values of common keys likewise. -/
inductive Overwrites (o : COpts) : Val → Val → Prop
  | none : Overwrites o .none .none
  | ellipsis : Overwrites o .ellipsis .ellipsis
  | notImplemented : Overwrites o .notImplemented .notImplemented
  | numbers (v w : Val) : PyNumber v → PyNumber w → Overwrites o v w
  | ints (a b : Int) : Overwrites o (.int a) (.int b)
  | strs (s t : Str) : Overwrites o (.str s) (.str t)
  | bytes (a b : Bytes) : (a = [] ↔ b = []) → Overwrites o (.bytes a) (.bytes b)
  | bytearrays (a b : Bytes) : (a = [] ↔ b = []) → Overwrites o (.bytearray a) (.bytearray b)
  | arrays (c : Cont) (a b : Arr) : a.dt = b.dt → a.shape.length = b.shape.length → Overwrites o (.np c a) (.np c b)
  | dtypes (c d : Cont) (a b : Arr) : NumericDT a.dt → NumericDT b.dt → prodN a.shape ≠ 0 → prodN b.shape ≠ 0 → a.dt ≠ b.dt → ¬ (a.dt = .bool ∧ b.dt = .u8) →
      ¬ (a.dt = .u8 ∧ b.dt = .bool) → Overwrites o (.np c a) (.np d b)
  | shapes (c d : Cont) (a b : Arr) : NumericDT a.dt → NumericDT b.dt → prodN a.shape ≠ 0 → prodN b.shape ≠ 0 → RowShape o a.shape ≠ RowShape o b.shape →
      Overwrites o (.np c a) (.np d b)
  | objects (c : Cont) (s t : List Nat) (e f : List Val) : s.length = t.length → Overwrites o (.npObj c s e) (.npObj c t f)
  | seqs (k : SeqKind) (e f : List Val) : Overwrites o (.seq k e) (.seq k f)
  | sorts {v w : Val} {a b : ValSort} : SortOf v a → SortOf w b → a ≠ b → Overwrites o v w
  | toMapping {v w : Val} : IsSimple v → IsMapping w → Overwrites o v w
  | ofMapping {v w : Val} : IsMapping v → IsSimple w → Overwrites o v w
  | ofStruct {v w : Val} (c : Cont) (s : List Nat) (n : List Str) (t : List FT) (e : List Val) : v = .npStruct c s n t e → prodN s ≠ 0 → IsSimple w →
      Overwrites o v w
  | toStruct {v w : Val} (c : Cont) (s : List Nat) (n : List Str) (t : List FT) (e : List Val) : w = .npStruct c s n t e → prodN s ≠ 0 → IsSimple v →
      Overwrites o v w
  | fields {v w : Val} {ts us : List Str} {vs ws : List Val} : SameMapping v w → HasFields v ts vs → HasFields w us ws → (StrKeys w ∨ (¬ StrKeys v ∧ ts.length = us.length)) →
      (o.deleteUnused = true ∨ ∀ t ∈ ts, t ∈ us) → (∀ t a b, (t, a) ∈ ts.zip vs → (t, b) ∈ us.zip ws → Overwrites o a b) → Overwrites o v w
  | items (k : DictKind) (a b c d : List Val) : (∃ e ∈ a, NotTextKey e) → (∃ e ∈ c, NotTextKey e) → Overwrites o (.dict k a b) (.dict k c d)

/-- `v` is what was last written to the place `ns`, over what can be written over or where nothing was; in between anything has been done elsewhere. -/
inductive LastWritten (x : Ctx) (N : Nat) (ns : List Str) : FileS → Val → Prop
  | new {F F' : FileS} {n : Nat} {p : PathArg} {v : Val} : WroteNew x n F p ns v F' → Good x.o v → n ≤ N → LastWritten x N ns F' v
  | over {F F' : FileS} {n : Nat} {p : PathArg} {v w : Val} : LastWritten x N ns F v → Wrote x n F p ns w F' → Overwrites x.o v w → Good x.o w → n ≤ N →
      DistinctDraws x F.st.rpos F'.st.rpos → LastWritten x N ns F' w
  | other {F : FileS} {v : Val} (n : Nat) (op : Op) : LastWritten x N ns F v → Elsewhere x.o op ns → LastWritten x N ns (fileOp x n op F).2 v

end HS.Spec
