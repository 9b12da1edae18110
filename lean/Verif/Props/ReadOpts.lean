import Verif.Props.Local
import Verif.Lemmas.ReadOpts
/-
C52: reading does not need the options used for writing.
-/
namespace HS
open Spec

theorem ex_goodNp {o : COpts} (shape : List Nat) (l : List Int) (hl : l.length = prodN shape)
    (hd : NotDropped o .i64) (hc : CplxOk o ⟨.i64, shape, l.map El.num⟩) : Good o (.np .ndarray ⟨.i64, shape, l.map El.num⟩) :=
  .np .ndarray _ ⟨⟨by simpa using hl, fun e he => by
    obtain ⟨i, _, rfl⟩ := List.mem_map.mp he
    exact trivial, nofun, nofun, nofun, nofun⟩, nofun, nofun, nofun, fun _ => ⟨nofun, nofun⟩, nofun⟩ hd hc

/-- C52. For every file whatsoever, what `read` and `reads` do (values and exceptions) depends on the options `reverse_dimension_order`, `structs_as_dicts`,
`dict_like_keys_name`, `dict_like_values_name` and `group_for_references` only. -/
theorem C52_only_these_options {x y : Ctx} (h1 : y.o.reverse = x.o.reverse) (h2 : y.o.structsAsDicts = x.o.structsAsDicts) (h3 : y.o.keysName = x.o.keysName)
    (h4 : y.o.valuesName = x.o.valuesName) (h5 : y.o.refsPath = x.o.refsPath) (F : FileS) (n : Nat) :
    (∀ p, fileRead y n p F = fileRead x n p F) ∧ ∀ ps, fileReads y n ps F = fileReads x n ps F := by
  have key : ∀ ps, fileReads y n ps F = fileReads x n ps F := by
    intro ps
    have ho : ∀ gt, readOne y n F.st.heap gt = readOne x n F.st.heap gt := by
      intro gt
      unfold readOne exclOf
      rw [readData_opts h1 h2 h3 h4, h5]
    unfold fileReads
    rw [h5]
    simp only [readMany_opts ho]
  refine ⟨fun p => ?_, key⟩
  unfold fileRead
  rw [key]

-- Options that differ in everything else.
example : ∃ y : Ctx, y.o.reverse = exX.o.reverse ∧ y.o.structsAsDicts = exX.o.structsAsDicts ∧ y.o.keysName = exX.o.keysName ∧ y.o.valuesName = exX.o.valuesName ∧
    y.o.refsPath = exX.o.refsPath ∧ y.o ≠ exX.o :=
  ⟨⟨{ exOpts with pyMeta := false, matlab := false, atleast2d := false, bytes16 := false, str16 := false, boolsU8 := false, complexNames := (p!"r", p!"i"), compress := false },
    fun _ => 0, 0⟩, rfl, rfl, rfl, rfl, rfl, by decide⟩

/-- C52 (partial). What was written MATLAB compatible with the Python metadata, and without letting incompatible numpy types through, reads back with every
options whatsoever that have the references Group at the same place; in particular with the options of the function `read`, which differ from those of the function
`write`.  (If the option `structs_as_dicts` is set there must be no structured arrays, which it turns into dicts.)  Missing: what is written otherwise needs the same order of the dimensions (`C52_same_order_partial`, `C52_counterexample`). -/
theorem C52_matlab_any_options_partial {x : Ctx} (ho : RtOpts x.o) {n : Nat} {F F' : FileS} {p : PathArg} {ns : List Str} {v : Val} (hw : WroteNew x n F p ns v F')
    (hv : Good x.o v) (hm : x.o.matlab = true) (ha : x.o.action ≠ .ignore) {y : Ctx} (hy : y.o.refsPath = x.o.refsPath) (hs : y.o.structsAsDicts = true → ¬ HasStruct v) {G : FileS} (hG : G.isOpen = true)
    (hh : G.st.heap = F'.st.heap) {q : PathArg} (hq : Addr q ns) {m : Nat} (hnm : n ≤ m) : fileRead y m q G = .ok v :=
  file_rt ho hw hv y G q m hy ⟨Or.inr ⟨hm, ha⟩, fun _ => hs⟩ hG hh hq hnm

-- A two-dimensional array written with the default options; reading with everything off.
example : ∃ (F' : FileS) (y : Ctx), WroteNew exX 10 exF (.str p!"/x/y") [p!"x", p!"y"] (.np .ndarray ⟨.i64, [2, 3], [.num 1, .num 2, .num 3, .num 4, .num 5, .num 6]⟩) F' ∧
    Good exX.o (.np .ndarray ⟨.i64, [2, 3], [.num 1, .num 2, .num 3, .num 4, .num 5, .num 6]⟩) ∧ exX.o.matlab = true ∧ exX.o.action ≠ .ignore ∧
    y.o.refsPath = exX.o.refsPath ∧ y.o.reverse = false ∧ y.o.matlab = false := by
  refine ⟨_, ⟨{ exOpts with matlab := false, reverse := false }, fun _ => 0, 0⟩, ex_wrote _ (by decide +kernel) (by decide +kernel), ?_, rfl, by decide, rfl, rfl, rfl⟩
  exact ex_goodNp [2, 3] [1, 2, 3, 4, 5, 6] rfl (fun _ h => by cases h) (fun h => h.elim nofun nofun)

/-- C52 (partial). Written with any options with the Python metadata, data reads back with options with the same order of the dimensions and the references Group at
the same place (structured arrays in a MATLAB compatible file: without `structs_as_dicts`).  Missing: other orders (`C52_counterexample`). -/
theorem C52_same_order_partial {x : Ctx} (ho : RtOpts x.o) {n : Nat} {F F' : FileS} {p : PathArg} {ns : List Str} {v : Val} (hw : WroteNew x n F p ns v F')
    (hv : Good x.o v) {y : Ctx} (hy : y.o.refsPath = x.o.refsPath) (hr : y.o.reverse = x.o.reverse)
    (hs : x.o.matlab = true → y.o.structsAsDicts = true → ¬ HasStruct v) {G : FileS} (hG : G.isOpen = true)
    (hh : G.st.heap = F'.st.heap) {q : PathArg} (hq : Addr q ns) {m : Nat} (hnm : n ≤ m) : fileRead y m q G = .ok v :=
  file_rt ho hw hv y G q m hy ⟨Or.inl hr, hs⟩ hG hh hq hnm

/-- The options of the function `read`: `Options(matlab_compatible=False)`. -/
def exReadOpts : COpts where
  pyMeta := true
  matlab := false
  action := .error
  deleteUnused := false
  structAsStruct := false
  atleast2d := false
  bytes16 := false
  str16 := false
  boolsU8 := false
  reverse := false
  structsAsDicts := false
  storeShape := false
  complexNames := (p!"r", p!"i")
  refsPath := p!"/#refs#"
  onedColumn := false
  keysName := p!"keys"
  valuesName := p!"values"
  compress := true
  threshold := 16384
  algorithm := p!"gzip"
  gzipLevel := 7
  shuffle := true
  fletcherC := true
  fletcherU := false

example : ∃ o, newOptions (fun n => if n = .matlabCompatible then .bool false else Options.default n) = .ok o ∧ COpts.of o = exReadOpts := ⟨_, rfl, by decide +kernel⟩

/-- Context with these options. -/
def exRead : Ctx := ⟨exReadOpts, exX.rng, 5⟩
/-- The default options with `action_for_matlab_incompatible='ignore'`. -/
def exIgnore : Ctx := ⟨{ exOpts with action := .ignore }, exX.rng, 5⟩

/-- Findings F36 and F37: an array written with `matlab_compatible=False` and read with the default options of `File` reads back scrambled without an exception, and
so does a float16 array written MATLAB compatible with `action_for_matlab_incompatible='ignore'` and read by the function `read`. -/
theorem C52_counterexample :
    (∃ F', fileWrite exRead 10 (.str p!"/x") (.np .ndarray ⟨.i64, [2, 3], [.num 1, .num 2, .num 3, .num 4, .num 5, .num 6]⟩) exF = (.ok (), F') ∧
      fileRead exRead 10 (.str p!"/x") F' = .ok (.np .ndarray ⟨.i64, [2, 3], [.num 1, .num 2, .num 3, .num 4, .num 5, .num 6]⟩) ∧
      fileRead exX 10 (.str p!"/x") F' = .ok (.np .ndarray ⟨.i64, [2, 3], [.num 1, .num 4, .num 2, .num 5, .num 3, .num 6]⟩)) ∧
    ∃ F', fileWrite exIgnore 10 (.str p!"/x") (.np .ndarray ⟨.f16, [2, 3], [.num 1, .num 2, .num 3, .num 4, .num 5, .num 6]⟩) exF = (.ok (), F') ∧
      fileRead exIgnore 10 (.str p!"/x") F' = .ok (.np .ndarray ⟨.f16, [2, 3], [.num 1, .num 2, .num 3, .num 4, .num 5, .num 6]⟩) ∧
      fileRead exRead 10 (.str p!"/x") F' = .ok (.np .ndarray ⟨.f16, [2, 3], [.num 1, .num 4, .num 2, .num 5, .num 3, .num 6]⟩) := by
  refine ⟨⟨_, pair_of_fst (by decide +kernel), eq_of_isVal (by decide +kernel), eq_of_isVal (by decide +kernel)⟩,
    ⟨_, pair_of_fst (by decide +kernel), eq_of_isVal (by decide +kernel), eq_of_isVal (by decide +kernel)⟩⟩

end HS
