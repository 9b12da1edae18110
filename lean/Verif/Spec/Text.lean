import Verif.Spec.AttrTable
/-
How text is stored (`/repo/doc/source/storage_format.rst:130-143`): as np.uint16 in UTF-16, as np.uint32 in UTF-32, or as np.bytes_.
-/
namespace HS.Spec

/-- All characters are encoded in UTF-16 by one unit each. -/
def Single (s : Str) : Prop := ∀ c ∈ s, c < 0x10000 ∧ (c < 0xD800 ∨ 0xDFFF < c)

/-- The strings of values that are str or arrays of str of width `n` (shorter ones padded with NUL), in C order, and the shape. -/
inductive TextOf : Val → Nat → List Nat → List Str → Prop
  | str (s : Str) : TextOf (.str s) s.length [] [s]
  | np (c : Cont) (n : Nat) (sh : List Nat) (ss : List Str) : (∀ s ∈ ss, s.length = n) → ss.length = prodN sh → (c = .scalar → sh = []) →
      TextOf (.np c ⟨.str n, sh, ss.map .units⟩) n sh ss

/-- The byte strings of bytes, bytearrays, and arrays of bytes of width `n`; of ints that do not fit in 64 bits the decimal digits, of `np.dtype` objects
their text. -/
inductive BytesOf : Val → Nat → List Nat → List Bytes → Prop
  | bytes (b : Bytes) : BytesOf (.bytes b) b.length [] [b]
  | bytearray (b : Bytes) : BytesOf (.bytearray b) b.length [] [b]
  | bigInt (i : Int) (d : Str) : i ≥ 9223372036854775808 → IsDecimal d i.natAbs → BytesOf (.int i) d.length [] [d]
  | bigNegInt (i : Int) (d : Str) : i < -9223372036854775808 → IsDecimal d i.natAbs → BytesOf (.int i) (d.length + 1) [] [p!"-" ++ d]
  | dtypeObj (s : Str) (b : Bytes) : utf8Enc s = .ok b → BytesOf (.dtypeObj s) b.length [] [b]
  | np (c : Cont) (n : Nat) (sh : List Nat) (bs : List Bytes) : (∀ b ∈ bs, b.length = n) → bs.length = prodN sh → (c = .scalar → sh = []) →
      BytesOf (.np c ⟨.bytes n, sh, bs.map .units⟩) n sh bs

/-- The shape of the array of the units of strings of width `n`: they are put side by side in the last dimension. -/
def SpreadShape (n : Nat) (sh : List Nat) : List Nat := if sh = [] then [n] else sh.dropLast ++ [sh.getLastD 0 * n]

/-- The array of the units of the strings. -/
def UnitsArr (dt : DT) (n : Nat) (sh : List Nat) (ss : List (List Nat)) : Arr := ⟨dt, SpreadShape n sh, ss.flatten.map fun u => .num (Int.ofNat u)⟩

/-- str are to be stored in UTF-16: the option is on, and no character needs a doublet or cannot be encoded. -/
def ToUtf16 (o : COpts) (ss : List Str) : Prop := o.str16 = true ∧ ∀ s ∈ ss, Single s

/-- bytes are to be stored in UTF-16: the option is on, and they are ASCII. -/
def BytesToUtf16 (o : COpts) (bs : List Bytes) : Prop := o.bytes16 = true ∧ ∀ b ∈ bs, ∀ c ∈ b, c < 128

/-- There is a string that is as long as the dtype is wide (so that it does not end in NUL); if there is one that cannot be stored in UTF-16, then such a one. -/
def Fills (ss : List Str) : Prop :=
  ((∀ s ∈ ss, Single s) → ∃ s ∈ ss, s.getLast? ≠ some 0) ∧ (¬ (∀ s ∈ ss, Single s) → ∃ s ∈ ss, ¬ Single s ∧ s.getLast? ≠ some 0)

/-- The data stored for text (before the dimensions are put in order). -/
inductive TextData (o : COpts) (v : Val) : Arr → Prop
  | utf16 {n : Nat} {sh : List Nat} {ss : List Str} : TextOf v n sh ss → n ≠ 0 → 0 ∉ sh → ToUtf16 o ss → TextData o v (UnitsArr .u16 n sh ss)
  | utf32 {n : Nat} {sh : List Nat} {ss : List Str} : TextOf v n sh ss → n ≠ 0 → 0 ∉ sh → ¬ ToUtf16 o ss → TextData o v (UnitsArr .u32 n sh ss)
  | empty {n : Nat} {sh : List Nat} {ss : List Str} : TextOf v n sh ss → n = 0 ∨ 0 ∈ sh → TextData o v ⟨if o.str16 then .u16 else .u32, [0], []⟩
  | bytes16 {n : Nat} {sh : List Nat} {bs : List Bytes} : BytesOf v n sh bs → n ≠ 0 → 0 ∉ sh → BytesToUtf16 o bs → TextData o v (UnitsArr .u16 n sh bs)
  | bytes {n : Nat} {sh : List Nat} {bs : List Bytes} : BytesOf v n sh bs → n ≠ 0 → (0 ∉ sh ∨ o.bytes16 = false) → ¬ BytesToUtf16 o bs → TextData o v ⟨.bytes n, sh, bs.map .units⟩
  | empty16 {n : Nat} {sh : List Nat} {bs : List Bytes} : BytesOf v n sh bs → n = 0 ∨ 0 ∈ sh → o.bytes16 = true → TextData o v ⟨.u16, [0], []⟩
  | width0 {sh : List Nat} {bs : List Bytes} : BytesOf v 0 sh bs → o.bytes16 = false → TextData o v ⟨.bytes 1, sh, bs.map fun _ => .units [0]⟩

/-- Text for which what is documented is done: with the option for UTF-16 on, an array of str has a string that fills its width, and without elements the last
dimension has length 0 (finding F53). -/
def AsDocumented (o : COpts) (v : Val) : Prop := ∀ n sh ss, TextOf v n sh ss → o.str16 = true →
  (n ≠ 0 → 0 ∉ sh → Fills ss) ∧ (n ≠ 0 → 0 ∈ sh → o.storeShape = true ∨ sh.getLast? = some 0)

end HS.Spec
