import Verif.Model.Options
import Verif.Spec.Path
/-
Specification of the documented option table, types and ranges (`__init__.py:89-190`).
-/
namespace HS.Spec
open Opt

/-- The documented MATLAB table (`__init__.py:89-104`). -/
def matlabTable : List (Opt × PyVal) :=
  [(deleteUnusedVariables, .bool true), (structuredNumpyNdarrayAsStruct, .bool true), (makeAtleast2d, .bool true),
   (convertNumpyBytesToUtf16, .bool true), (convertNumpyStrToUtf16, .bool true), (convertBoolsToUint8, .bool true),
   (reverseDimensionOrder, .bool true), (storeShapeForEmpty, .bool true),
   (complexNames, .tuple [.str p!"real", .str p!"imag"]), (groupForReferences, .str p!"/#refs#"),
   (compressionAlgorithm, .str p!"gzip")]

/-- The documented type and range of each option. -/
def validOpt (n : Opt) (v : PyVal) : Prop :=
  match n with
  | actionForMatlabIncompatible => v = .str p!"ignore" ∨ v = .str p!"discard" ∨ v = .str p!"error"
  | complexNames => ∃ a b, v = .tuple [.str a, .str b]
  | groupForReferences => ∃ s, v = .str s ∧ s.head? = some 47 ∧ 1 < (normpath s).length
  | onedAs => v = .str p!"row" ∨ v = .str p!"column"
  | dictLikeKeysName | dictLikeValuesName => ∃ s, v = .str s
  | compressSizeThreshold => (∃ i : Int, v = .int i ∧ 0 ≤ i) ∨ (∃ b, v = .bool b)
  | compressionAlgorithm => v = .str p!"gzip" ∨ v = .str p!"lzf" ∨ v = .str p!"szip"
  | gzipCompressionLevel => (∃ i : Int, v = .int i ∧ 0 ≤ i ∧ i ≤ 9) ∨ (∃ b, v = .bool b)
  | _ => ∃ b, v = .bool b

end HS.Spec
