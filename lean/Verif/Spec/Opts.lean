import Verif.Model.Complex
import Verif.Model.CoreOpts
import Verif.Model.PathEsc
/-
Independent notions about options: which ones are expected to allow a round trip.
-/
namespace HS.Spec

/-- Independent definition of admissible names: equal, up to ASCII case, to one of the documented ones. -/
def RealName (s : Str) : Prop := lowerAscii s = p!"r" ∨ lowerAscii s = p!"re" ∨ lowerAscii s = p!"real"
/-- Likewise for the imaginary part. -/
def ImagName (s : Str) : Prop :=
  lowerAscii s = p!"i" ∨ lowerAscii s = p!"im" ∨ lowerAscii s = p!"imag" ∨ lowerAscii s = p!"imaginary"

/-- A name that HDF5 takes as one component and that needs no escaping: not empty, no leading period, no '/', NUL or backslash. -/
def PlainName (s : Str) : Prop := s ≠ [] ∧ s.head? ≠ some dot ∧ ∀ c ∈ s, c ≠ slash ∧ c ≠ 0 ∧ c ≠ bs

/-- The names for keys and values of dicts are not '.'. -/
structure NamesOk (o : COpts) : Prop where
  keys : o.keysName ≠ [dot]
  vals : o.valuesName ≠ [dot]

/-- Options under which values are expected to survive a round trip: Python metadata is stored, and dimensions are reversed if MATLAB compatibility is on (`Options`
enforces that, see `C08_matlab_pins`).  `NamesOk` excludes a degenerate name for the keys or values of dicts. -/
structure RtOpts (o : COpts) : Prop where
  pyMeta : o.pyMeta = true
  rev : o.matlab = true → o.reverse = true
  names : NamesOk o

/-- The option `complex_names` has names that reading recognises (finding F12). -/
structure CplxNames (o : COpts) : Prop where
  re : RealName o.complexNames.1
  im : ImagName o.complexNames.2

/-- The options for the names of keys and values are different and need no escaping (findings F14, F28). -/
structure KvNames (o : COpts) : Prop where
  keys : PlainName o.keysName
  vals : PlainName o.valuesName
  ne : o.keysName ≠ o.valuesName

end HS.Spec
