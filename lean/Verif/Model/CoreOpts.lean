import Verif.Model.Options
/-
The option values the reading and writing code looks at, with their Python types resolved.
-/
namespace HS

/-- Values of `action_for_matlab_incompatible` (`__init__.py:479-507`). -/
inductive MatAction | ignore | discard | error
  deriving DecidableEq, Repr

/-- The options as the marshallers use them (`f.options.…`). -/
structure COpts where
  pyMeta : Bool              -- store_python_metadata
  matlab : Bool            -- matlab_compatible
  action : MatAction
  deleteUnused : Bool
  structAsStruct : Bool    -- structured_numpy_ndarray_as_struct
  atleast2d : Bool         -- make_atleast_2d
  bytes16 : Bool           -- convert_numpy_bytes_to_utf16
  str16 : Bool             -- convert_numpy_str_to_utf16
  boolsU8 : Bool           -- convert_bools_to_uint8
  reverse : Bool           -- reverse_dimension_order
  structsAsDicts : Bool
  storeShape : Bool        -- store_shape_for_empty
  complexNames : Str × Str
  refsPath : Str           -- group_for_references
  onedColumn : Bool        -- oned_as == 'column'
  keysName : Str
  valuesName : Str
  compress : Bool
  threshold : Nat
  algorithm : Str
  gzipLevel : Nat
  shuffle : Bool
  fletcherC : Bool         -- compressed_fletcher32_filter
  fletcherU : Bool         -- uncompressed_fletcher32_filter
  deriving DecidableEq, Repr

/-- Truth value of a bool option. -/
def boolOf (o : Options) (n : Opt) : Bool := (o n).truthy
/-- Text of a str option. -/
def strOf (o : Options) (n : Opt) : Str := match o n with | .str s => s | _ => []
/-- Value of an int option (`True` counts as 1). -/
def natOf (o : Options) (n : Opt) : Nat := match (o n).asInt with | some i => i.toNat | none => 0

/-- Projection of an `Options` object (`__init__.py:195-1005`) to the values the code uses. -/
def COpts.of (o : Options) : COpts where
  pyMeta := boolOf o .storePythonMetadata
  matlab := boolOf o .matlabCompatible
  action := if strOf o .actionForMatlabIncompatible = p!"error" then .error
    else if strOf o .actionForMatlabIncompatible = p!"discard" then .discard else .ignore
  deleteUnused := boolOf o .deleteUnusedVariables
  structAsStruct := boolOf o .structuredNumpyNdarrayAsStruct
  atleast2d := boolOf o .makeAtleast2d
  bytes16 := boolOf o .convertNumpyBytesToUtf16
  str16 := boolOf o .convertNumpyStrToUtf16
  boolsU8 := boolOf o .convertBoolsToUint8
  reverse := boolOf o .reverseDimensionOrder
  structsAsDicts := boolOf o .structsAsDicts
  storeShape := boolOf o .storeShapeForEmpty
  complexNames := match o .complexNames with
    | .tuple [.str a, .str b] => (a, b)
    | _ => ([], [])
  refsPath := strOf o .groupForReferences
  onedColumn := strOf o .onedAs = p!"column"
  keysName := strOf o .dictLikeKeysName
  valuesName := strOf o .dictLikeValuesName
  compress := boolOf o .compress
  threshold := natOf o .compressSizeThreshold
  algorithm := strOf o .compressionAlgorithm
  gzipLevel := natOf o .gzipCompressionLevel
  shuffle := boolOf o .shuffleFilter
  fletcherC := boolOf o .compressedFletcher32Filter
  fletcherU := boolOf o .uncompressedFletcher32Filter

end HS
