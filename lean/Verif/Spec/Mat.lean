import Verif.Model.Mat
import Verif.Spec.File
/-
Independent notions about `savemat`, `loadmat` and the other functions of the module.
-/
namespace HS.Spec

/-- `t` is the name of the file for the argument `s`: `s` itself if nothing is to be appended or it ends with `.mat`, and otherwise `s` followed by `.mat`. -/
def MatName (appendmat : Bool) (s t : Str) : Prop :=
  (appendmat = false ∧ t = s) ∨ (appendmat = true ∧ (∃ b, s = b ++ p!".mat") ∧ t = s) ∨ (appendmat = true ∧ (¬ ∃ b, s = b ++ p!".mat") ∧ t = s ++ p!".mat")

/-- The dict `r` is the dict `m` with the entries `new` added: it has the value `v` for a key if it is a new value of it, or there is none and `v` is the value in `m`. -/
def Updated (m : List (PathArg × Val)) (new : PathArg → Val → Prop) (r : List (PathArg × Val)) : Prop :=
  ∀ k v, pget r k = some v ↔ new k v ∨ ((∀ w, ¬ new k w) ∧ pget m k = some v)

/-- Of the names `ks`, read with `rd`, the last one with the unescaped name `k` gives `v`. -/
def LastOf (rd : Str → Res Val) (ks : List Str) (k : PathArg) (v : Val) : Prop :=
  ∃ (i : Nat) (e s : Str), ks[i]? = some e ∧ unescapePath e = .ok s ∧ k = .str s ∧ rd e = .ok v ∧
    ∀ (j : Nat) (e' : Str), i < j → ks[j]? = some e' → unescapePath e' ≠ .ok s

/-- The options a function of the module uses, given its arguments: the object `options`, if there is one (then other arguments for options are refused), and
otherwise the ones made from the given arguments `kw`, with the documented defaults for those not given; `read` and `reads` have the default `False` for
`matlab_compatible`. -/
def OptionsFor (reading : Bool) (options : Option Options) (kw : List (Opt × PyVal)) (o : Options) : Prop :=
  (options = some o ∧ kw = []) ∨
  (options = none ∧ ∃ args, newOptions args = .ok o ∧ ∀ n,
    (∀ v, kwGet kw n = some v → args n = v) ∧
    (kwGet kw n = none → args n = if reading ∧ n = .matlabCompatible then .bool false else Options.default n))

/-- A name for a variable: a plain name without backslashes (which introduce escapes) that sorts after `#refs#` (finding F7), as all names do that start with a letter. -/
structure VarName (k : Str) : Prop where
  ne : k ≠ []
  slash : 47 ∉ k
  bslash : 92 ∉ k
  dots : k ≠ p!"." ∧ k ≠ p!".."
  after : strLt p!"#refs#" k = true

/-- There is nothing yet in the file: it does not exist or it is to be truncated. -/
def StartsEmpty (c : Option DFile) (truncExisting : Bool) : Prop := c = none ∨ truncExisting = true

/-- The names for references drawn at random by a call of `writes` with the options `o` on the file `c` did not repeat. -/
def DrawsOk (x : Ctx) (n : Nat) (mdict : List (PathArg × Val)) (o : Options) (c : Option DFile) (truncExisting truncInvalid : Bool) : Prop :=
  ∀ ub h, openDisk c true truncExisting truncInvalid (COpts.of o).matlab = .ok (ub, h) → DistinctDraws x 0 (fileWrites (x.with o) n mdict (FileS.new h true)).2.st.rpos

end HS.Spec
