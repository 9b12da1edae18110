import Verif.Model.PosixPath
/-
Model of the `Options` class (`/repo/src/hdf5storage/__init__.py:195-1005`): every field holds an arbitrary Python
value, assignments go through the setters.
-/
namespace HS

/-- Python values as far as the setters look at them. -/
inductive PyVal
  | none
  | bool (b : Bool)
  | int (i : Int)
  | float
  | str (s : Str)
  | bytes (b : Bytes)
  | tuple (l : List PyVal)
  | list (l : List PyVal)
  /-- any other object, hashable or not, never equal to a `str` -/
  | obj (hashable : Bool)
  deriving Repr

mutual
/-- Structural equality of values, used only to make `example`s decidable. -/
def PyVal.beq : PyVal → PyVal → Bool
  | .none, .none => true
  | .bool a, .bool b => a == b
  | .int a, .int b => a == b
  | .float, .float => true
  | .str a, .str b => a == b
  | .bytes a, .bytes b => a == b
  | .tuple a, .tuple b => PyVal.beqL a b
  | .list a, .list b => PyVal.beqL a b
  | .obj a, .obj b => a == b
  | _, _ => false
/-- Elementwise. -/
def PyVal.beqL : List PyVal → List PyVal → Bool
  | [], [] => true
  | a :: r, b :: s => PyVal.beq a b && PyVal.beqL r s
  | _, _ => false
end

mutual
/-- Does `hash(value)` succeed? (`value in {...}` raises `TypeError` otherwise.) -/
def PyVal.hashable : PyVal → Bool
  | .list _ => false
  | .tuple l => PyVal.hashableAll l
  | .obj h => h
  | _ => true
/-- All hashable. -/
def PyVal.hashableAll : List PyVal → Bool
  | [] => true
  | v :: r => v.hashable && PyVal.hashableAll r
end

/-- The options (`__init__.py:195-223`). `marshaller_collection` is left out: it has no influence on the others. -/
inductive Opt
  | storePythonMetadata | matlabCompatible | actionForMatlabIncompatible | deleteUnusedVariables
  | structuredNumpyNdarrayAsStruct | makeAtleast2d | convertNumpyBytesToUtf16 | convertNumpyStrToUtf16
  | convertBoolsToUint8 | reverseDimensionOrder | structsAsDicts | storeShapeForEmpty | complexNames
  | groupForReferences | onedAs | dictLikeKeysName | dictLikeValuesName | compress | compressSizeThreshold
  | compressionAlgorithm | gzipCompressionLevel | shuffleFilter | compressedFletcher32Filter
  | uncompressedFletcher32Filter
  deriving DecidableEq, Repr

/-- An `Options` object: the value of every private field. -/
abbrev Options := Opt → PyVal

/-- Assignment of a private field. -/
def Options.put (o : Options) (n : Opt) (v : PyVal) : Options := fun m => if m = n then v else o m

/-- `__init__.py:226-249` and the default arguments `197-220` (the same values). -/
def Options.default : Options
  | .storePythonMetadata => .bool true
  | .matlabCompatible => .bool true
  | .actionForMatlabIncompatible => .str p!"error"
  | .deleteUnusedVariables => .bool false
  | .structuredNumpyNdarrayAsStruct => .bool false
  | .makeAtleast2d => .bool false
  | .convertNumpyBytesToUtf16 => .bool false
  | .convertNumpyStrToUtf16 => .bool false
  | .convertBoolsToUint8 => .bool false
  | .reverseDimensionOrder => .bool false
  | .structsAsDicts => .bool false
  | .storeShapeForEmpty => .bool false
  | .complexNames => .tuple [.str p!"r", .str p!"i"]
  | .groupForReferences => .str p!"/#refs#"
  | .onedAs => .str p!"row"
  | .dictLikeKeysName => .str p!"keys"
  | .dictLikeValuesName => .str p!"values"
  | .compress => .bool true
  | .compressSizeThreshold => .int 16384
  | .compressionAlgorithm => .str p!"gzip"
  | .gzipCompressionLevel => .int 7
  | .shuffleFilter => .bool true
  | .compressedFletcher32Filter => .bool true
  | .uncompressedFletcher32Filter => .bool false

/-- `isinstance(value, bool)`. -/
def PyVal.isBool : PyVal → Bool
  | .bool _ => true
  | _ => false

/-- `isinstance(value, str)`. -/
def PyVal.isStr : PyVal → Bool
  | .str _ => true
  | _ => false

/-- The `int` a value is, `bool` being a subclass of `int`. -/
def PyVal.asInt : PyVal → Option Int
  | .int i => some i
  | .bool b => some (if b then 1 else 0)
  | _ => Option.none

/-- Python truth value (`not self._x` for the bool options). -/
def PyVal.truthy : PyVal → Bool
  | .none => false
  | .bool b => b
  | .int i => i != 0
  | .str s => s != []
  | .bytes s => s != []
  | .tuple l => !l.isEmpty
  | .list l => !l.isEmpty
  | _ => true

/-- `value in {s1, s2, ...}` for a set of `str`. -/
def PyVal.inStrs (v : PyVal) (l : List Str) : Res Bool :=
  if v.hashable then
    .ok (match v with
      | .str s => l.contains s
      | _ => false)
  else .error .typeError

/-- A bool option outside the MATLAB table (e.g. `__init__.py:331-336`, `635-638`, `829-833`, `945-949`). -/
def setPlainBool (n : Opt) (v : PyVal) (o : Options) : Options :=
  if v.isBool then o.put n v else o

/-- A bool option of the MATLAB table (e.g. `__init__.py:436-443`): set, then drop `matlab_compatible` if it is now false. -/
def setTableBool (n : Opt) (v : PyVal) (o : Options) : Options :=
  let o := if v.isBool then o.put n v else o
  if !(o n).truthy then o.put .matlabCompatible (.bool false) else o

/-- `__init__.py:372-389`. -/
def setMatlabCompatible (v : PyVal) (o : Options) : Options :=
  match v with
  | .bool b =>
    let o := o.put .matlabCompatible (.bool b)
    if b then
      ((((((((((o.put .deleteUnusedVariables (.bool true)).put .structuredNumpyNdarrayAsStruct (.bool true)).put
        .makeAtleast2d (.bool true)).put .convertNumpyBytesToUtf16 (.bool true)).put
        .convertNumpyStrToUtf16 (.bool true)).put .convertBoolsToUint8 (.bool true)).put
        .reverseDimensionOrder (.bool true)).put .storeShapeForEmpty (.bool true)).put
        .complexNames (.tuple [.str p!"real", .str p!"imag"])).put
        .groupForReferences (.str p!"/#refs#")).put .compressionAlgorithm (.str p!"gzip")
    else o
  | _ => o

/-- `__init__.py:411-419`, `752-756`: enumerations without effect on MATLAB compatibility. -/
def setEnum (n : Opt) (allowed : List Str) (v : PyVal) (o : Options) : Res Options := do
  if ← v.inStrs allowed then .ok (o.put n v) else .ok o

/-- Is the value the tuple `('real', 'imag')`? -/
def isRealImag : PyVal → Bool
  | .tuple [.str a, .str b] => a == p!"real" && b == p!"imag"
  | _ => false

/-- `__init__.py:686-699`. -/
def setComplexNames (v : PyVal) (o : Options) : Options :=
  let o := match v with
    | .tuple [.str a, .str b] => o.put .complexNames (.tuple [.str a, .str b])
    | _ => o
  if !isRealImag (o .complexNames) then o.put .matlabCompatible (.bool false) else o

/-- Is the value this `str`? -/
def isStrEq (v : PyVal) (s : Str) : Bool :=
  match v with
  | .str t => t == s
  | _ => false

/-- `__init__.py:723-733`. -/
def setGroupForReferences (v : PyVal) (o : Options) : Options :=
  let o := match v with
    | .str s =>
      let pth := normpath s
      if 1 < pth.length && isAbs pth then o.put .groupForReferences (.str s) else o
    | _ => o
  if !isStrEq (o .groupForReferences) p!"/#refs#" then o.put .matlabCompatible (.bool false) else o

/-- `__init__.py:778-782`, `804-808`. -/
def setStr (n : Opt) (v : PyVal) (o : Options) : Options :=
  if v.isStr then o.put n v else o

/-- `__init__.py:851-855` (`hi = none`) and `921-925` (`hi = 9`). -/
def setInt (n : Opt) (hi : Option Int) (v : PyVal) (o : Options) : Options :=
  match v.asInt with
  | some i => if 0 ≤ i && (match hi with | some h => i ≤ h | Option.none => true) then o.put n v else o
  | Option.none => o

/-- `__init__.py:892-900`. -/
def setCompressionAlgorithm (v : PyVal) (o : Options) : Res Options := do
  let o := if ← v.inStrs [p!"gzip", p!"lzf", p!"szip"] then o.put .compressionAlgorithm v else o
  .ok (if !isStrEq (o .compressionAlgorithm) p!"gzip" then o.put .matlabCompatible (.bool false) else o)

/-- All property setters, `__init__.py:331-1005`. -/
def setOpt : Opt → PyVal → Options → Res Options
  | .storePythonMetadata, v, o => .ok (setPlainBool .storePythonMetadata v o)
  | .matlabCompatible, v, o => .ok (setMatlabCompatible v o)
  | .actionForMatlabIncompatible, v, o =>
    setEnum .actionForMatlabIncompatible [p!"ignore", p!"discard", p!"error"] v o
  | .deleteUnusedVariables, v, o => .ok (setTableBool .deleteUnusedVariables v o)
  | .structuredNumpyNdarrayAsStruct, v, o => .ok (setTableBool .structuredNumpyNdarrayAsStruct v o)
  | .makeAtleast2d, v, o => .ok (setTableBool .makeAtleast2d v o)
  | .convertNumpyBytesToUtf16, v, o => .ok (setTableBool .convertNumpyBytesToUtf16 v o)
  | .convertNumpyStrToUtf16, v, o => .ok (setTableBool .convertNumpyStrToUtf16 v o)
  | .convertBoolsToUint8, v, o => .ok (setTableBool .convertBoolsToUint8 v o)
  | .reverseDimensionOrder, v, o => .ok (setTableBool .reverseDimensionOrder v o)
  | .structsAsDicts, v, o => .ok (setPlainBool .structsAsDicts v o)
  | .storeShapeForEmpty, v, o => .ok (setTableBool .storeShapeForEmpty v o)
  | .complexNames, v, o => .ok (setComplexNames v o)
  | .groupForReferences, v, o => .ok (setGroupForReferences v o)
  | .onedAs, v, o => setEnum .onedAs [p!"row", p!"column"] v o
  | .dictLikeKeysName, v, o => .ok (setStr .dictLikeKeysName v o)
  | .dictLikeValuesName, v, o => .ok (setStr .dictLikeValuesName v o)
  | .compress, v, o => .ok (setPlainBool .compress v o)
  | .compressSizeThreshold, v, o => .ok (setInt .compressSizeThreshold Option.none v o)
  | .compressionAlgorithm, v, o => setCompressionAlgorithm v o
  | .gzipCompressionLevel, v, o => .ok (setInt .gzipCompressionLevel (some 9) v o)
  | .shuffleFilter, v, o => .ok (setPlainBool .shuffleFilter v o)
  | .compressedFletcher32Filter, v, o => .ok (setPlainBool .compressedFletcher32Filter v o)
  | .uncompressedFletcher32Filter, v, o => .ok (setPlainBool .uncompressedFletcher32Filter v o)

/-- The order in which the constructor calls the setters (`__init__.py:255-278`). -/
def ctorOrder : List Opt :=
  [.storePythonMetadata, .actionForMatlabIncompatible, .deleteUnusedVariables, .structuredNumpyNdarrayAsStruct,
   .makeAtleast2d, .convertNumpyBytesToUtf16, .convertNumpyStrToUtf16, .convertBoolsToUint8,
   .reverseDimensionOrder, .structsAsDicts, .storeShapeForEmpty, .complexNames, .groupForReferences, .onedAs,
   .dictLikeKeysName, .dictLikeValuesName, .compress, .compressSizeThreshold, .compressionAlgorithm,
   .gzipCompressionLevel, .shuffleFilter, .compressedFletcher32Filter, .uncompressedFletcher32Filter,
   .matlabCompatible]

/-- `Options(**args)` (`__init__.py:195-286`); `args` holds the defaults where nothing was given. -/
def newOptions (args : Opt → PyVal) : Res Options :=
  ctorOrder.foldlM (fun o n => setOpt n (args n) o) Options.default

/-- A statement `options.n = v`; when the setter raises, the object keeps its state. -/
def assign (o : Options) (nv : Opt × PyVal) : Options :=
  match setOpt nv.1 nv.2 o with
  | .ok o' => o'
  | .error _ => o

end HS
