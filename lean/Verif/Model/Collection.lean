import Verif.Model.PosixPath
/-
Model of `MarshallerCollection` (`/repo/src/hdf5storage/__init__.py:1081-1516`) and `plugins.py` as a state machine over a
module environment.
-/
namespace HS

/-- An element of `TypeMarshaller.types`, or the argument of `get_marshaller_for_type`: a `str` or a class. -/
inductive TypeRef
  | str (s : Str)
  /-- `tp.__module__`, `tp.__name__` -/
  | cls (mod name : Str)
  deriving DecidableEq, Repr

/-- `__init__.py:1267-1270`, `1418-1419`. -/
def TypeRef.key : TypeRef → Str
  | .str s => s
  | .cls m n => m ++ [dot] ++ n

/-- What the collection looks at in a `TypeMarshaller` (`Marshallers.py:115-175`). `id` is the object's identity, which is what
`in` and `list.remove` compare (no `__eq__` is defined). -/
structure Marshaller where
  id : Nat
  types : List TypeRef
  typeStrings : List Str
  matlabClasses : List Str
  requiredParents : List Str
  requiredModules : List Str
  deriving DecidableEq, Repr

/-- Outcome of `importlib.import_module(name)`. -/
inductive ImpOut | ok | importError | otherError
  deriving DecidableEq, Repr

/-- The module environment during one call: which modules `pkgutil.find_loader` finds, what importing one does and which other
modules get into `sys.modules` by it. Arbitrary, and may differ from call to call. -/
structure Env where
  find : Str → Bool
  imp : Str → ImpOut × List Str

/-- The process wide state: `sys.modules`. -/
abbrev World := List Str

/-- `__init__.py:1283-1305`. -/
def importModules (env : Env) : List Str → World → World × Res Bool
  | [], w => (w, .ok true)
  | n :: r, w =>
    if n ∈ w then importModules env r w
    else
      let extra := (env.imp n).2
      match (env.imp n).1 with
      | .ok => importModules env r (n :: (extra ++ w))
      | .importError => (extra ++ w, .ok false)
      | .otherError => (extra ++ w, .error .other)

/-- `__init__.py:1217-1224`: the first required parent that is neither loaded nor findable. -/
def firstAbsent (env : Env) (w : World) : List Str → Option Str
  | [] => none
  | n :: r => if !(w.contains n) && !env.find n then some n else firstAbsent env w r

/-- `MarshallerCollection` (`__init__.py:1101-1163`). -/
structure Coll where
  lazy : Bool
  priority : List Str
  builtin : List Marshaller
  plugin : List Marshaller
  user : List Marshaller
  marshallers : List Marshaller
  has : List Bool
  imported : List Bool
  types : List (Str × Nat)
  typeStrings : List (Str × Nat)
  matlabClasses : List (Str × Nat)
  deriving DecidableEq, Repr

/-- `key in d` / `d[key]` of the three dictionaries. -/
def dictGet (d : List (Str × Nat)) (k : Str) : Option Nat := (d.find? (·.1 == k)).map (·.2)

/-- The loop body's `if k not in d: d[k] = i` over the keys of one marshaller (`__init__.py:1266-1281`). -/
def dictAdd (i : Nat) : List Str → List (Str × Nat) → List (Str × Nat)
  | [], d => d
  | k :: r, d => dictAdd i r (if (dictGet d k).isSome then d else d ++ [(k, i)])

/-- `__init__.py:1264-1281` for one of the dictionaries, `i` being the index of the next marshaller. -/
def buildDict (keys : Marshaller → List Str) : Nat → List Marshaller → List (Str × Nat) → List (Str × Nat)
  | _, [], d => d
  | i, m :: r, d => buildDict keys (i + 1) r (dictAdd i (keys m) d)

/-- Result of the module check loop: the two flag lists, the world, and a foreign exception if one ended it. -/
structure Scan where
  has : List Bool
  imported : List Bool
  world : World
  exc : Option Exc
  deriving DecidableEq, Repr

/-- `__init__.py:1215-1246`; entries not reached keep the initial `False`. -/
def scan (env : Env) (lazy : Bool) : List Marshaller → World → Scan
  | [], w => ⟨[], [], w, none⟩
  | m :: r, w =>
    match firstAbsent env w m.requiredParents with
    | some _ =>
      let s := scan env lazy r w
      { s with has := false :: s.has, imported := false :: s.imported }
    | none =>
      if m.requiredModules.all (w.contains ·) then
        let s := scan env lazy r w
        { s with has := true :: s.has, imported := true :: s.imported }
      else if lazy then
        let s := scan env lazy r w
        { s with has := true :: s.has, imported := false :: s.imported }
      else
        match importModules env m.requiredModules w with
        | (w', .ok b) =>
          let s := scan env lazy r w'
          { s with has := b :: s.has, imported := b :: s.imported }
        | (w', .error e) =>
          ⟨true :: r.map (fun _ => false), false :: r.map (fun _ => false), w', some e⟩

/-- `__init__.py:1197-1207`: the concatenation by priority; `none` for an illegal element (`ValueError`). -/
def combine (b p u : List Marshaller) : List Str → Option (List Marshaller)
  | [] => some []
  | v :: r =>
    match combine b p u r with
    | none => none
    | some t =>
      if v = p!"builtin" then some (b ++ t)
      else if v = p!"plugin" then some (p ++ t)
      else if v = p!"user" then some (u ++ t)
      else none

/-- The state of the machine. -/
structure CState where
  coll : Coll
  world : World
  deriving DecidableEq, Repr

/-- `_update_marshallers` (`__init__.py:1184-1281`). -/
def updateMarshallers (env : Env) (s : CState) : CState × Res Unit :=
  match combine s.coll.builtin s.coll.plugin s.coll.user s.coll.priority with
  | none => (s, .error .valueError)
  | some ms =>
    let sc := scan env s.coll.lazy ms s.world
    let c := { s.coll with marshallers := ms, has := sc.has, imported := sc.imported }
    match sc.exc with
    | some e => (⟨c, sc.world⟩, .error e)
    | none =>
      (⟨{ c with types := buildDict (fun m => m.types.map TypeRef.key) 0 ms []
                 typeStrings := buildDict Marshaller.typeStrings 0 ms []
                 matlabClasses := buildDict Marshaller.matlabClasses 0 ms [] }, sc.world⟩, .ok ())

/-- An object given where a marshaller is expected. -/
inductive Item
  | m (m : Marshaller) | other
  deriving DecidableEq, Repr

/-- The `marshallers` argument: an iterable or a single object (`__init__.py:1340-1341`). -/
inductive MArg
  | many (l : List Item) | single (i : Item)
  deriving DecidableEq, Repr

/-- `__init__.py:1340-1341`, `1370-1371`. -/
def MArg.items : MArg → List Item
  | .many l => l
  | .single i => [i]

/-- `__init__.py:1342-1349`: the user list after the loop, and whether `TypeError` was raised. -/
def addLoop : List Item → List Marshaller → List Marshaller × Res Unit
  | [], u => (u, .ok ())
  | .other :: _, u => (u, .error .typeError)
  | .m x :: r, u => addLoop r (if x ∈ u then u else u ++ [x])

/-- `add_marshaller` (`__init__.py:1307-1350`). -/
def addMarshaller (env : Env) (a : MArg) (s : CState) : CState × Res Unit :=
  let r := addLoop a.items s.coll.user
  let s' := { s with coll := { s.coll with user := r.1 } }
  match r.2 with
  | .error e => (s', .error e)
  | .ok _ => updateMarshallers env s'

/-- `__init__.py:1372-1374`: `list.remove` removes the first occurrence. -/
def removeLoop : List Item → List Marshaller → List Marshaller
  | [], u => u
  | .other :: r, u => removeLoop r u
  | .m x :: r, u => removeLoop r (if x ∈ u then u.erase x else u)

/-- `remove_marshaller` (`__init__.py:1352-1375`). -/
def removeMarshaller (env : Env) (a : MArg) (s : CState) : CState × Res Unit :=
  updateMarshallers env { s with coll := { s.coll with user := removeLoop a.items s.coll.user } }

/-- `clear_marshallers` (`__init__.py:1377-1386`). -/
def clearMarshallers (env : Env) (s : CState) : CState × Res Unit :=
  updateMarshallers env { s with coll := { s.coll with user := [] } }

/-- The common tail of the three lookups (`__init__.py:1424-1432`, `1465-1473`, `1507-1515`). -/
def lookupIndex (env : Env) (s : CState) (i : Nat) : CState × Res (Option Marshaller × Bool) :=
  match s.coll.marshallers[i]?, s.coll.imported[i]?, s.coll.has[i]? with
  | some m, some im, some hs =>
    if im then (s, .ok (some m, true))
    else if !hs then (s, .ok (some m, false))
    else
      match importModules env m.requiredModules s.world with
      | (w, .ok b) =>
        (⟨{ s.coll with has := s.coll.has.set i b, imported := s.coll.imported.set i b }, w⟩, .ok (some m, b))
      | (w, .error e) => ({ s with world := w }, .error e)
  | _, _, _ => (s, .error .indexError)

/-- Lookup in one dictionary. -/
def lookupIn (d : List (Str × Nat)) (k : Str) (env : Env) (s : CState) : CState × Res (Option Marshaller × Bool) :=
  match dictGet d k with
  | some i => lookupIndex env s i
  | none => (s, .ok (none, false))

/-- The argument of the three lookup methods. -/
inductive Key
  | type (t : TypeRef) | typeString (s : Str) | matlabClass (s : Str)
  deriving DecidableEq, Repr

/-- `get_marshaller_for_type`, `..._type_string`, `..._matlab_class` (`__init__.py:1388-1516`). -/
def lookup (env : Env) (k : Key) (s : CState) : CState × Res (Option Marshaller × Bool) :=
  match k with
  | .type t => lookupIn s.coll.types t.key env s
  | .typeString t => lookupIn s.coll.typeStrings t env s
  | .matlabClass c => lookupIn s.coll.matlabClasses c env s

/-- Insertion of a `str` into a sorted list. -/
def insertStr (a : Str) : List Str → List Str
  | [] => [a]
  | b :: r => if strLt b a then b :: insertStr a r else a :: b :: r

/-- `sorted(list of str)` (any sorting algorithm gives the same list). -/
def sortStr : List Str → List Str
  | [] => []
  | a :: r => insertStr a (sortStr r)

/-- What loading an entry point and calling the result with the version gives (`__init__.py:1134-1145`): an exception, a
non-callable, or the returned objects. -/
inductive PluginOut
  | raises | notCallable | returns (l : List Item)
  deriving DecidableEq, Repr

/-- `pkg_resources.EntryPoint` as far as looked at: `name` (the API version), `module_name`, behaviour. -/
structure EntryPoint where
  name : Str
  moduleName : Str
  out : PluginOut
  deriving DecidableEq, Repr

/-- `plugins.py:34-52`. -/
def supportedVersions : List Str := [p!"1.0"]

/-- `d[k] = v` of an insertion ordered dict. -/
def dictSet {α β : Type} [DecidableEq α] (k : α) (v : β) : List (α × β) → List (α × β)
  | [] => [(k, v)]
  | (k', v') :: r => if k' = k then (k, v) :: r else (k', v') :: dictSet k v r

/-- `plugins.py:84-90`, the inner dict of one version. -/
def pluginsOf (ver : Str) (all : List EntryPoint) : List (Str × EntryPoint) :=
  (all.filter (·.name == ver)).foldl (fun d p => dictSet p.moduleName p d) []

/-- `__init__.py:1140-1144`: the marshallers among the returned objects. -/
def marshallersIn : List Item → List Marshaller
  | [] => []
  | .m x :: r => x :: marshallersIn r
  | .other :: r => marshallersIn r

/-- `__init__.py:1129-1145`. -/
def loadPlugins (load : Bool) (all : List EntryPoint) : List Marshaller :=
  if load then
    supportedVersions.flatMap fun ver =>
      (pluginsOf ver all).flatMap fun p =>
        match p.2.out with
        | .returns l => marshallersIn l
        | _ => []
  else []

/-- `MarshallerCollection(load_plugins, lazy_loading, priority, marshallers)` (`__init__.py:1081-1166`) with arguments of the declared types.
`builtin` is the list made by inspection of the `Marshallers` module. -/
def newCollection (env : Env) (builtin : List Marshaller) (eps : List EntryPoint) (w : World) (load lazy : Bool)
    (priority : List Str) (user : MArg) : CState × Res Unit :=
  let c : Coll := ⟨lazy, priority, builtin, loadPlugins load eps, [], [], [], [], [], [], []⟩
  if priority.length ≠ 3 then (⟨c, w⟩, .error .valueError)
  else if sortStr priority ≠ sortStr [p!"builtin", p!"plugin", p!"user"] then (⟨c, w⟩, .error .valueError)
  else addMarshaller env user ⟨c, w⟩

/-- The public calls on a collection; `load` is somebody else importing modules. -/
inductive COp
  | add (a : MArg) | remove (a : MArg) | clear | get (k : Key) | load (names : List Str)
  deriving DecidableEq, Repr

/-- What a call returned. -/
inductive COut
  | done | raised (e : Exc) | got (m : Option Marshaller) (hasModules : Bool)
  deriving DecidableEq, Repr

/-- Outcome of a call without result. -/
def COut.ofUnit : Res Unit → COut
  | .ok _ => .done
  | .error e => .raised e

/-- Outcome of a lookup. -/
def COut.ofGet : Res (Option Marshaller × Bool) → COut
  | .ok p => .got p.1 p.2
  | .error e => .raised e

/-- One call in its environment. -/
def cstep (s : CState) (o : Env × COp) : CState × COut :=
  match o.2 with
  | .add a => let r := addMarshaller o.1 a s; (r.1, .ofUnit r.2)
  | .remove a => let r := removeMarshaller o.1 a s; (r.1, .ofUnit r.2)
  | .clear => let r := clearMarshallers o.1 s; (r.1, .ofUnit r.2)
  | .get k => let r := lookup o.1 k s; (r.1, .ofGet r.2)
  | .load l => ({ s with world := l ++ s.world }, .done)

/-- A history of calls with their outcomes. -/
def crun : CState → List (Env × COp) → CState × List COut
  | s, [] => (s, [])
  | s, o :: r => let t := cstep s o; let u := crun t.1 r; (u.1, t.2 :: u.2)

end HS
