import Verif.Spec.Local
import Verif.Spec.MatStruct
import Verif.Model.User
/-
Specification of storing objects of a user's own types with a marshaller of the user's.
-/
namespace HS.Spec
variable {α : Type}

/-- The marshaller writes the object and gives its type the type string `ts`: it is in the collection, has its modules, declares the object's class (as such or by its
name) together with `ts`, and no other one declares that class. -/
structure WritesAs (S : Setup α) (pl : Plugin α) (a : α) (ts : Str) : Prop where
  mem : pl ∈ S.plugins
  ready : S.ready pl = true
  lengths : pl.tables.types.length = pl.tables.typeStrings.length
  types : (pl.tables.types.map TypeRef.key).Nodup
  typed : ∃ (i : Nat) (t : TypeRef), pl.tables.types[i]? = some t ∧ pl.tables.typeStrings[i]? = some ts ∧ (t = S.cls a ∨ t = .str (S.cls a).key)
  alone : ∀ p ∈ S.plugins, (∃ t ∈ p.tables.types, t.key = (S.cls a).key) → p = pl

/-- The marshaller is the one for the type string: it is in the collection and declares it, no other one does, and no builtin one that has priority. -/
structure Claims (T : Setup α) (pl : Plugin α) (ts : Str) : Prop where
  mem : pl ∈ T.plugins
  known : ts ∈ pl.tables.typeStrings
  alone : ∀ p ∈ T.plugins, ts ∈ p.tables.typeStrings → p = pl
  foreign : T.first = true ∨ ∀ b ∈ builtins, ts ∉ b.typeStrings

/-- No marshaller declares the type string, neither a builtin one nor another one. -/
structure Unclaimed (T : Setup α) (ts : Str) : Prop where
  plugins : ∀ p ∈ T.plugins, ts ∉ p.tables.typeStrings
  builtin : ∀ b ∈ builtins, ts ∉ b.typeStrings

/-- What can be handed to the parent: data the parent can write and that survives a round trip under the options; not record arrays (finding F60). -/
inductive Payload (o : COpts) : Parent → Val → Prop
  | array (c : Cont) (a : Arr) : c ≠ .recarray → Good o (.np c a) → Payload o .numpy (.np c a)
  | objects (c : Cont) (shape : List Nat) (elems : List Val) : Good o (.npObj c shape elems) → Payload o .numpy (.npObj c shape elems)
  | table (c : Cont) (shape : List Nat) (names : List Str) (types : List FT) (elems : List Val) : c ≠ .recarray → Good o (.npStruct c shape names types elems) →
      Payload o .numpy (.npStruct c shape names types elems)
  | list (k : SeqKind) (elems : List Val) : (∀ e ∈ elems, Good o e) → Payload o .list (.seq k elems)
  | dict (plain : Bool) (k : DictKind) (keys vals : List Val) : Good o (.dict k keys vals) → Payload o (.dict plain) (.dict k keys vals)

/-- What the parent returns for what was handed to it: the same, except that it is always a `list` or a `dict`. -/
def handedBack : Parent → Val → Val
  | .list, .seq _ e => .seq .list e
  | .dict _, .dict _ k w => .dict .dict k w
  | _, v => v

/-- What a numpy array looks like, or an array of the elements of a list. -/
inductive Bare : Parent → Val → Val → Prop
  | numpy (v : Val) : Bare .numpy v v
  | list (k : SeqKind) (elems : List Val) : Bare .list (.seq k elems) (.npObj .ndarray [elems.length] elems)

/-- The fields a dict handed over is stored as, with their values: if all keys are texts the keys with the values, otherwise two fields with the tuples of the keys and of the
values, here sorted by name. -/
inductive BareItems (o : COpts) (keys vals : List Val) : List Str → List Val → Prop
  | texts (texts : List Str) : All2 KeyText keys texts → texts.Nodup → BareItems o keys vals texts vals
  | keysFirst : (∃ k ∈ keys, NotTextKey k) → KvNames o → strLt o.keysName o.valuesName = true →
      BareItems o keys vals [o.keysName, o.valuesName] [.seq .tuple keys, .seq .tuple vals]
  | valuesFirst : (∃ k ∈ keys, NotTextKey k) → KvNames o → strLt o.valuesName o.keysName = true →
      BareItems o keys vals [o.valuesName, o.keysName] [.seq .tuple vals, .seq .tuple keys]

/-- What an object handed over as a dict looks like without its marshaller, if it is stored as these fields with these values: if the Group counts as a struct of MATLAB and the
reader makes dicts of these, a dict of the fields with `str` keys (in some order); otherwise a structured array of one element with the fields in this order, having the dtypes of
the values if these are numpy data. -/
inductive BareDict (asDict : Bool) (texts : List Str) (vals : List Val) : Val → Prop
  | items (l : List (Str × Val)) : asDict = true → l.Perm (texts.zip vals) → BareDict asDict texts vals (.dict .dict (l.map fun i => .str i.1) (l.map (·.2)))
  | fields (types : List FT) (ws : List Val) : asDict = false → types.length = texts.length → ws.length = texts.length →
      (∀ (j : Nat) v t w, vals[j]? = some v → types[j]? = some t → ws[j]? = some w → FieldTypeOf [v] t ∧ Handed t v w) →
      BareDict asDict texts vals (.npStruct .ndarray [1] texts types ws)

/-- States a `File` can be in (as `Reach`), objects of the user's types being written as well (with marshallers that may change). -/
inductive ReachUser (α : Type) (x : Ctx) : FileS → Prop
  | opened (h : Heap) (w : Bool) : Tree h → ReachUser α x (FileS.new h w)
  | wrote {F : FileS} (n : Nat) (mdict : List (PathArg × Val)) : ReachUser α x F → (∀ pv ∈ mdict, ¬ Addr pv.1 []) → ReachUser α x (fileWrites x n mdict F).2
  | user {F : FileS} (S : Setup α) (n : Nat) (p : PathArg) (a : α) : ReachUser α x F → ¬ Addr p [] → ReachUser α x (userWrite S x n p a F).2
  | deleted {F : FileS} (p : PathArg) : ReachUser α x F → (∀ ns, Addr p ns → ns.head? ≠ (hdf5Names x.o.refsPath).head?) → ReachUser α x (fileDel p F).2
  | closed {F : FileS} : ReachUser α x F → ReachUser α x (fileClose F).2
  | flushed {F : FileS} : ReachUser α x F → ReachUser α x (fileFlush F).2

/-- `f.write(a, p)` of an object succeeded (see `WroteNew`). -/
structure WroteUser (S : Setup α) (x : Ctx) (n : Nat) (F : FileS) (p : PathArg) (ns : List Str) (a : α) (F' : FileS) : Prop where
  refs : RefsPathOk x.o
  reach : ReachUser α x F
  rw : F.ro = false
  addr : Addr p ns
  notRoot : ns ≠ []
  free : ¬ Exists F.st.heap ns
  draws : DistinctDraws x F.st.rpos F'.st.rpos
  ok : userWrite S x n p a F = (.ok (), F')

/-- `f.write(v, p)` of a builtin value succeeded in a file in which objects of the user's types may be (see `WroteNew`). -/
structure WroteAmong (α : Type) (x : Ctx) (n : Nat) (F : FileS) (p : PathArg) (ns : List Str) (v : Val) (F' : FileS) : Prop where
  refs : RefsPathOk x.o
  reach : ReachUser α x F
  rw : F.ro = false
  addr : Addr p ns
  notRoot : ns ≠ []
  free : ¬ Exists F.st.heap ns
  draws : DistinctDraws x F.st.rpos F'.st.rpos
  ok : fileWrite x n p v F = (.ok (), F')

/-- Reading the place with the marshallers `T` has the outcome `r` (see `ReadsBack`); `v` is the data as it was handed to the parent. -/
def ReadsUser (T : Setup α) (x : Ctx) (n : Nat) (h : Heap) (ns : List Str) (v : Val) (r : Res (UVal α)) : Prop :=
  ∀ (y : Ctx) (G : FileS) (p : PathArg) (m : Nat), y.o.refsPath = x.o.refsPath → ReadableWith x.o y.o v → G.isOpen = true → G.st.heap = h → Addr p ns → n ≤ m →
    userRead T y m p G = r

/-- Reading the place with the marshallers `T` has an outcome that is right for the options of the reader (see `ReadsUser`). -/
def ReadsUserAs (T : Setup α) (x : Ctx) (n : Nat) (h : Heap) (ns : List Str) (v : Val) (R : COpts → Res (UVal α) → Prop) : Prop :=
  ∀ (y : Ctx) (G : FileS) (p : PathArg) (m : Nat), y.o.refsPath = x.o.refsPath → ReadableWith x.o y.o v → G.isOpen = true → G.st.heap = h → Addr p ns → n ≤ m →
    R y.o (userRead T y m p G)

/-- The call leaves the place alone (see `Elsewhere`). -/
def ElsewhereUser (o : COpts) (op : UserOp α) (ms : List Str) : Prop :=
  match op with
  | .builtin op => Elsewhere o op ms
  | .write p _ => ∀ ns, Addr p ns → Apart ns ms

end HS.Spec
