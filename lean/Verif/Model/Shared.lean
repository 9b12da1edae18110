import Verif.Model.Collection
import Verif.Model.Mat
/-
Which objects are shared: `Options`, `MarshallerCollection`, the default collection and the options of open `File`s as objects with identity
(`/repo/src/hdf5storage/__init__.py:280-316`, `1645-1666`, `2725-2783`).

Simplification: what an open `File` does with its content is `File.lean`; here it only has its options.
-/
namespace HS

/-- An `Options` object: the values of its fields and which collection `_marshaller_collection` is (`__init__.py:224-286`). -/
structure OptObj where
  vals : Options
  coll : Nat

/-- All objects of a process: the collections, the Options (both by identity), the Options the user has references to, those of each `File` (`File._options`), the
default collection (`__init__.py:2778-2783`) and `sys.modules`. -/
structure Proc where
  colls : List Coll
  opts : List OptObj
  user : List Nat
  files : List Nat
  dflt : Nat
  world : World

/-- Arguments of `MarshallerCollection` (`__init__.py:1081-1087`), the environment it is called in and the installed plugins. -/
structure CollArgs where
  env : Env
  builtin : List Marshaller
  eps : List EntryPoint
  load : Bool
  lazy : Bool
  priority : List Str
  user : MArg

/-- Arguments of `File` concerning options (`__init__.py:1629-1663`): an Options object of the user or keywords (among them `marshaller_collection`). -/
inductive OptArg
  | given (u : Nat) (kw : List (Opt × PyVal))
  | keywords (kw : List (Opt × PyVal)) (mc : Option Nat)

/-- What a program does. References the user does not have make nothing happen. -/
inductive PAct
  /-- `MarshallerCollection(...)` -/
  | newColl (a : CollArgs)
  /-- `make_new_default_marshaller_collection(...)` -/
  | newDefault (a : CollArgs)
  /-- a method call of a collection -/
  | coll (c : Nat) (o : Env × COp)
  /-- `Options(**kw)`, `mc` being the collection given as `marshaller_collection` if it is one -/
  | newOpts (kw : List (Opt × PyVal)) (mc : Option Nat)
  /-- `options.n = v` -/
  | setOpt (u : Nat) (n : Opt) (v : PyVal)
  /-- `options.marshaller_collection = c`, `none` for anything that is no collection -/
  | setColl (u : Nat) (c : Option Nat)
  /-- `File(...)`; `opens` is whether the file can be opened -/
  | openFile (a : OptArg) (opens : Bool)

/-- `MarshallerCollection(...)` as a new object (`__init__.py:1081-1166`). -/
def Proc.makeColl (a : CollArgs) (s : Proc) : Proc × Res Nat :=
  match newCollection a.env a.builtin a.eps s.world a.load a.lazy a.priority a.user with
  | (c, .ok _) => ({ s with colls := s.colls ++ [c.coll], world := c.world }, .ok s.colls.length)
  | (c, .error e) => ({ s with world := c.world }, .error e)

/-- `Options(...)` as a new object (`__init__.py:250-286`). -/
def Proc.makeOpts (kw : List (Opt × PyVal)) (mc : Option Nat) (s : Proc) : Proc × Res Nat :=
  match kwOptions kw with
  | .error e => (s, .error e)
  | .ok o => ({ s with opts := s.opts ++ [⟨o, mc.getD s.dflt⟩] }, .ok s.opts.length)

/-- `make_new_default_marshaller_collection` (`__init__.py:2750-2775`). -/
def Proc.newDefault (a : CollArgs) (s : Proc) : Proc × Res Unit :=
  match s.makeColl a with
  | (t, .ok c) => ({ t with dflt := c }, .ok ())
  | (t, .error e) => (t, .error e)

/-- The options of a new `File` (`__init__.py:1652-1666`): made from the keywords, or a shallow copy (`copy.copy`) of the given ones. -/
def Proc.fileOpts (a : OptArg) (s : Proc) : Proc × Res Nat :=
  match a with
  | .keywords kw mc => s.makeOpts kw mc
  | .given u kw =>
    match s.user[u]? with
    | none => (s, .error .typeError)
    | some i =>
      match s.opts[i]? with
      | none => (s, .error .typeError)
      | some o => if kw.length ≠ 0 then (s, .error .valueError) else ({ s with opts := s.opts ++ [o] }, .ok s.opts.length)

/-- One step. -/
def Proc.step (s : Proc) : PAct → Proc × Res Unit
  | .newColl a => let r := s.makeColl a; (r.1, r.2.map fun _ => ())
  | .newDefault a => s.newDefault a
  | .coll c o =>
    match s.colls[c]? with
    | none => (s, .error .other)
    | some k =>
      let r := cstep ⟨k, s.world⟩ o
      ({ s with colls := s.colls.set c r.1.coll, world := r.1.world }, match r.2 with | .raised e => .error e | _ => .ok ())
  | .newOpts kw mc =>
    match s.makeOpts kw mc with
    | (t, .ok i) => ({ t with user := t.user ++ [i] }, .ok ())
    | (t, .error e) => (t, .error e)
  | .setOpt u n v =>
    match s.user[u]? with
    | none => (s, .error .other)
    | some i =>
      match s.opts[i]? with
      | none => (s, .error .other)
      | some o => ({ s with opts := s.opts.set i { o with vals := assign o.vals (n, v) } }, (setOpt n v o.vals).map fun _ => ())
  | .setColl u c =>
    match s.user[u]? with
    | none => (s, .error .other)
    | some i =>
      match s.opts[i]? with
      | none => (s, .error .other)
      | some o => ({ s with opts := s.opts.set i { o with coll := c.getD o.coll } }, .ok ())
  | .openFile a opens =>
    match s.fileOpts a with
    | (t, .error e) => (t, .error e)
    | (t, .ok i) => if opens then ({ t with files := t.files ++ [i] }, .ok ()) else (t, .error .osError)

/-- A history. -/
def Proc.run (s : Proc) (l : List PAct) : Proc := l.foldl (fun s a => (s.step a).1) s

/-- After `import hdf5storage` (`__init__.py:2778-2783`): one collection, the default one. -/
def Proc.start (c : Coll) (w : World) : Proc := ⟨[c], [], [], [], 0, w⟩

end HS
