import Verif.Props.Storage
import Verif.Lemmas.AttrsNew
/-
C54: structured numpy data.
-/
namespace HS
open Spec

/-- C54 (partial). A structured numpy array, matrix, recarray or scalar with one or more elements, whose fields (given by the values `x[name]`, which are values expected
to survive, nested to any depth) are stored in a Group, reads back with the same container, shape, field names in their order, field dtypes and values.  Missing: empty
ones, strings shorter than their field, object fields of numpy data of one dtype and shape, and fields that are discarded (see the counterexamples); those stored as
one Dataset are the subject of the next theorem. -/
theorem C54_structured_partial {x : Ctx} (ho : RtOpts x.o) {n : Nat} {F F' : FileS} {p : PathArg} {ns : List Str} (c : Cont) (shape : List Nat) (names : List Str)
    (types : List FT) (elems : List Val) (hs : GoodStruct x.o c shape names types elems) (he : ∀ e ∈ elems, Good x.o e)
    (hw : WroteNew x n F p ns (.npStruct c shape names types elems) F') : ReadsBack x n F'.st.heap ns (.npStruct c shape names types elems) :=
  file_rt ho hw (.npStruct c shape names types elems hs he)

/-- A numpy int64 scalar, for examples. -/
def exI64 (v : Nat) : Val := .np .scalar ⟨.i64, [], [.num v]⟩

theorem ex_goodI64 (o : COpts) (v : Nat) : Good o (exI64 v) :=
  .np _ _ ⟨⟨rfl, fun e he => (by rw [List.mem_singleton.mp he]; exact trivial), nofun, nofun, nofun, nofun⟩,
    fun _ => ⟨rfl, fun u hu => by cases List.mem_singleton.mp hu⟩, nofun, nofun, fun h => absurd rfl h, nofun⟩ (fun _ _ => nofun) (fun h => h.elim nofun nofun)

/-- An array of two elements with an int64 field `a` and an object field `b/c` that holds an int and a structured scalar with a text in it. -/
def exStruct : Val :=
  .npStruct .ndarray [2] [p!"b/c", p!"a"] [.base .object [], .base .i64 []]
    [.int 3, .npStruct .scalar [] [p!"t"] [.base .object []] [.str p!"hey"], exI64 1, exI64 2]

theorem ex_goodStruct : GoodStruct exX.o .ndarray [2] [p!"b/c", p!"a"] [.base .object [], .base .i64 []]
    [.int 3, .npStruct .scalar [] [p!"t"] [.base .object []] [.str p!"hey"], exI64 1, exI64 2] where
  cont := Or.inl rfl
  size := by decide
  named := by decide
  typed := rfl
  filled := rfl
  fields := by
    intro k t h
    match k, h with
    | 0, h =>
      cases h
      refine Or.inl ⟨rfl, ?_⟩
      rintro ⟨u, hu⟩
      cases hu (.int 3) (by exact List.mem_cons_self)
    | 1, h =>
      cases h
      refine Or.inr ⟨by decide, fun v hv => ?_⟩
      have hv' : v ∈ [exI64 1, exI64 2] := hv
      simp only [List.mem_cons, List.not_mem_nil, or_false] at hv'
      rcases hv' with h | h <;> rw [h]
      · exact ⟨.np _ _, rfl⟩
      · exact ⟨.np _ _, rfl⟩
    | k + 2, h => cases h
  group := Or.inl rfl
  kept := fun _ _ => rfl
  read := fun _ => rfl

theorem ex_goodStruct1 : GoodStruct exX.o .scalar [] [p!"t"] [.base .object []] [.str p!"hey"] where
  cont := Or.inr (Or.inr (Or.inr ⟨rfl, rfl⟩))
  size := by decide
  named := by decide
  typed := rfl
  filled := rfl
  fields := by
    intro k t h
    match k, h with
    | 0, h =>
      cases h
      refine Or.inl ⟨rfl, ?_⟩
      rintro ⟨u, hu⟩
      cases hu (.str p!"hey") (by exact List.mem_cons_self)
    | k + 1, h => cases h
  group := Or.inl rfl
  kept := fun _ _ => rfl
  read := fun _ => rfl

-- The array can be written, and it is one of those the theorem is about.
theorem ex_structGood : ExWrites exStruct ∧ Good exX.o exStruct := by
  refine ⟨ex_writes _ (by decide +kernel) (by decide +kernel), .npStruct _ _ _ _ _ ex_goodStruct ?_⟩
  intro e he
  simp only [List.mem_cons, List.not_mem_nil, or_false] at he
  rcases he with h | h | h | h <;> rw [h]
  · exact .int 3
  · refine .npStruct _ _ _ _ _ ex_goodStruct1 ?_
    intro e he
    rw [List.mem_singleton.mp he]
    exact .str _ ⟨⟨by decide, by intro c h; cases h; decide⟩, by decide⟩
  · exact ex_goodI64 _ _
  · exact ex_goodI64 _ _

/-- The value `v` was written to an empty file and `w` is read instead. -/
def ReadsAs (x : Ctx) (v w : Val) : Prop :=
  (fileWrite x 10 (.str p!"/x/y") v exF).1 = .ok () ∧ fileRead x 10 (.str p!"/x/y") (fileWrite x 10 (.str p!"/x/y") v exF).2 = .ok w

/-- A numpy `str` scalar, for examples. -/
def exStr (s : Str) : Val := .np .scalar ⟨.str s.length, [], [.units s]⟩

/-- F41: a field of strings of different lengths reads back as an object field. -/
theorem C54_counterexample_strings : ReadsAs exX (.npStruct .ndarray [2] [p!"a"] [.base (.str 2) []] [exStr p!"a", exStr p!"bc"])
    (.npStruct .ndarray [2] [p!"a"] [.base .object []] [exStr p!"a", exStr p!"bc"]) := ⟨by decide +kernel, eq_of_isVal (by decide +kernel)⟩

/-- F42: an object field of numpy scalars of one dtype reads back as a field of that dtype. -/
theorem C54_counterexample_object : ReadsAs exX (.npStruct .ndarray [2] [p!"a"] [.base .object []] [exI64 1, exI64 2])
    (.npStruct .ndarray [2] [p!"a"] [.base .i64 []] [exI64 1, exI64 2]) := ⟨by decide +kernel, eq_of_isVal (by decide +kernel)⟩

/-- F43: a structured array without elements reads back with object fields. -/
theorem C54_counterexample_empty : ReadsAs exX (.npStruct .ndarray [0] [p!"a"] [.base .i64 []] [])
    (.npStruct .ndarray [0] [p!"a"] [.base .object []] []) := ⟨by decide +kernel, eq_of_isVal (by decide +kernel)⟩

/-- F44: with the action `discard` a float16 field of a single element is left out, and what was written then cannot be read. -/
theorem C54_counterexample_discard :
    let v : Val := .npStruct .scalar [] [p!"a", p!"b"] [.base .f16 [], .base .i64 []] [.np .scalar ⟨.f16, [], [.num 0]⟩, exI64 1]
    (fileWrite exXdiscard 10 (.str p!"/x/y") v exF).1 = .ok () ∧
      fileRead exXdiscard 10 (.str p!"/x/y") (fileWrite exXdiscard 10 (.str p!"/x/y") v exF).2 = .error .keyError :=
  ⟨by decide +kernel, eq_of_isExc (by decide +kernel)⟩

/-- C54 (partial). A structured numpy array, matrix, recarray or scalar with one or more elements that is stored as one Dataset with a compound type (its fields hold
numbers, bytes, subarrays of these and structured values of such fields, nested to any depth) reads back with the same container, shape, field names in their order, field
dtypes and values.  Missing: empty ones, and those with fields 'r' and 'i' of one floating point type (`C54_counterexample_complex`); those with fields of str are not
written (`C54_counterexample_str`). -/
theorem C54_compound_partial {x : Ctx} (ho : RtOpts x.o) {n : Nat} {F F' : FileS} {p : PathArg} {ns : List Str} (c : Cont) (shape : List Nat) (names : List Str)
    (types : List FT) (elems : List Val) (hs : GoodTable x.o c shape names types elems) (hw : WroteNew x n F p ns (.npStruct c shape names types elems) F') :
    ReadsBack x n F'.st.heap ns (.npStruct c shape names types elems) :=
  file_rt ho hw (.npTable c shape names types elems hs)

/-- C54, what is stored. Structured numpy data with one or more elements is stored in a Group if the option `structured_numpy_ndarray_as_struct` is set or HDF5 has no
type for it (at any depth there are objects, names with a NUL or subarrays without elements), and otherwise as a Dataset with a compound type of the same names and types
of the fields and with the shape of the data (reversed with `reverse_dimension_order`). -/
theorem C54_group_or_dataset {x : Ctx} (hN : NamesOk x.o) {n : Nat} {F F' : FileS} {p : PathArg} {ns : List Str} (c : Cont) (shape : List Nat) (names : List Str)
    (types : List FT) (elems : List Val) (ht : AllNamed (.struct names types [])) (h0 : 0 < prodN shape)
    (hw : Wrote x n F p ns (.npStruct c shape names types elems) F') (hfree : ¬ Exists F.st.heap ns) (hd : ¬ Discarded x.o (.npStruct c shape names types elems)) :
    ∃ (q : Nat) (ob : Obj), LPath F'.st.heap ns q ∧ F'.st.heap[q]? = some ob ∧ ((∃ l, ob.body = .group l) ↔ x.o.structAsStruct = true ∨ NeedsGroup names types) ∧
      ((∃ l, ob.body = .group l) ∨ ∃ b f other size, ob.body = .dset b f ∧ b.dt = .comp other size names types ∧
        b.shape = if x.o.reverse then (RowShape x.o shape).reverse else RowShape x.o shape) := by
  obtain ⟨q, at', b, new, h1, h2, h3, _⟩ := wrote_new hN hw hfree hd
  have hz : (x.o.storeShape && prodN shape == 0) = false := by
    have : (prodN shape == 0) = false := by simp; omega
    rw [this, Bool.and_false]
  generalize hv : Val.npStruct c shape names types elems = v at h3
  cases h3 with
  | leaf v c' a d f hl =>
    subst hv
    rw [leafOf] at hl <;> first | cases hl | nofun
  | structEmpty c' sh nm ty el esc f _ he => cases hv; rw [hz] at he; cases he
  | struct c' sh nm ty el esc l _ _ hg =>
    cases hv
    exact ⟨q, _, h1, h2, ⟨fun _ => structAsGroup_needs ht hg, fun _ => ⟨l, rfl⟩⟩, Or.inl ⟨l, rfl⟩⟩
  | table c' sh nm ty el esc f _ _ hg _ =>
    cases hv
    refine ⟨q, _, h1, h2, ⟨(fun ⟨l, hl⟩ => by cases hl), fun h => ?_⟩, Or.inr ⟨_, f, _, _, rfl, rfl, ?_⟩⟩
    · rw [structAsGroup_of h] at hg; cases hg
    · show (if x.o.reverse then (shape2d x.o shape).reverse else shape2d x.o shape) = _
      rw [rowShape_eq]; rfl
  | _ => cases hv

/-- The example context with options that store structured arrays as compound Datasets, in two dimensions and in MATLAB's order. -/
def exXtab : Ctx := ⟨{ exOpts with matlab := false, structAsStruct := false }, exX.rng, 5⟩

/-- An array of two elements with fields of bytes, of subarrays of float32 and of a structured dtype. -/
def exTable : Val :=
  .npStruct .ndarray [2] [p!"n/a", p!"b", p!"s"] [.base (.bytes 3) [], .base .f32 [2], .struct [p!"u", p!"v"] [.base .bool [], .base .c64 []] []]
    [.np .scalar (npBytes [65, 66, 67]), .np .scalar (npBytes [0, 65]), .np .ndarray ⟨.f32, [2], [.num 1, .num 2]⟩, .np .ndarray ⟨.f32, [2], [.num 3, .num 4]⟩,
     .npStruct .scalar [] [p!"u", p!"v"] [.base .bool [], .base .c64 []] [.np .scalar ⟨.bool, [], [.num 1]⟩, .np .scalar ⟨.c64, [], [.cplx 5 6]⟩],
     .npStruct .scalar [] [p!"u", p!"v"] [.base .bool [], .base .c64 []] [.np .scalar ⟨.bool, [], [.num 0]⟩, .np .scalar ⟨.c64, [], [.cplx 7 8]⟩]]

theorem not_nulName {n : Str} (h : nameHasNull n = false) : ¬ NulName n := fun hn => by rw [(nulName_iff n).mpr hn] at h; cases h

theorem ex_fieldStruct (b : Int) (hb : b = 0 ∨ b = 1) (r i : Int) : FieldVal (.struct [p!"u", p!"v"] [.base .bool [], .base .c64 []] [])
    (.npStruct .scalar [] [p!"u", p!"v"] [.base .bool [], .base .c64 []] [.np .scalar ⟨.bool, [], [.num b]⟩, .np .scalar ⟨.c64, [], [.cplx r i]⟩]) := by
  refine .struct _ _ _ _ _ rfl ?_ (by simp) (fun h => by cases h.1) rfl rfl ?_
  · simp only [List.mem_cons, List.not_mem_nil, or_false]
    rintro n (rfl | rfl) <;> exact not_nulName (by decide)
  · intro k t hk v hv
    match k, hk with
    | 0, hk =>
      cases hk
      have hv' : v ∈ [Val.np .scalar ⟨.bool, [], [.num b]⟩] := hv
      rw [List.mem_singleton.mp hv']
      exact .number .bool (.num b) nofun nofun hb
    | 1, hk =>
      cases hk
      have hv' : v ∈ [Val.np .scalar ⟨.c64, [], [.cplx r i]⟩] := hv
      rw [List.mem_singleton.mp hv']
      exact .number .c64 (.cplx r i) nofun nofun trivial
    | k + 2, hk => cases hk

/-- The example is one of those the theorem is about. -/
theorem ex_table : ∃ c shape names types elems, exTable = .npStruct c shape names types elems ∧ GoodTable exXtab.o c shape names types elems := by
  refine ⟨_, _, _, _, _, rfl, Or.inl rfl, by decide, ⟨by decide, by decide, by decide, ?_⟩, rfl, rfl, ?_, (fun h => by cases h.1), rfl, (fun h => by cases h), (fun h => by cases h)⟩
  · simp only [List.mem_cons, List.not_mem_nil, or_false]
    rintro n (rfl | rfl | rfl) <;> exact not_nulName (by decide)
  · intro k t hk v hv
    match k, hk with
    | 0, hk =>
      cases hk
      have hv' : v ∈ [Val.np .scalar (npBytes [65, 66, 67]), .np .scalar (npBytes [0, 65])] := hv
      simp only [List.mem_cons, List.not_mem_nil, or_false] at hv'
      rcases hv' with rfl | rfl
      · exact .bytes 3 _ (by decide) (by simp [GoodBytes])
      · exact .bytes 3 _ (by decide) (by simp [GoodBytes])
    | 1, hk =>
      cases hk
      have hv' : v ∈ [Val.np .ndarray ⟨.f32, [2], [.num 1, .num 2]⟩, .np .ndarray ⟨.f32, [2], [.num 3, .num 4]⟩] := hv
      simp only [List.mem_cons, List.not_mem_nil, or_false] at hv'
      rcases hv' with rfl | rfl
      · exact .array .f32 [2] _ nofun (by simp) (by simp) rfl (by simp [FitsDT])
      · exact .array .f32 [2] _ nofun (by simp) (by simp) rfl (by simp [FitsDT])
    | 2, hk =>
      cases hk
      have hv' : v ∈ [Val.npStruct .scalar [] [p!"u", p!"v"] [.base .bool [], .base .c64 []] [.np .scalar ⟨.bool, [], [.num 1]⟩, .np .scalar ⟨.c64, [], [.cplx 5 6]⟩],
        .npStruct .scalar [] [p!"u", p!"v"] [.base .bool [], .base .c64 []] [.np .scalar ⟨.bool, [], [.num 0]⟩, .np .scalar ⟨.c64, [], [.cplx 7 8]⟩]] := hv
      simp only [List.mem_cons, List.not_mem_nil, or_false] at hv'
      rcases hv' with rfl | rfl
      · exact ex_fieldStruct 1 (Or.inr rfl) 5 6
      · exact ex_fieldStruct 0 (Or.inl rfl) 7 8
    | k + 3, hk => cases hk

theorem ex_tab_wrote (v : Val) (h : (fileWrite exXtab 10 (.str p!"/x/y") v exF).1 = .ok ()) (hr : (fileWrite exXtab 10 (.str p!"/x/y") v exF).2.st.rpos = 0) :
    WroteNew exXtab 10 exF (.str p!"/x/y") [p!"x", p!"y"] v (fileWrite exXtab 10 (.str p!"/x/y") v exF).2 where
  refs := ⟨rfl, by decide⟩
  reach := .opened _ _ ⟨fun _ _ _ h => (linkAt_single h).elim, rfl, fun _ _ h => linkAt_single h, fun _ _ _ _ _ h => (linkAt_single h).elim⟩
  rw := rfl
  addr := ⟨p!"/x", p!"y", by decide, by decide⟩
  notRoot := by simp
  free := ex_free _ (by simp)
  draws := by intro i j _ _ h3; rw [hr] at h3; omega
  ok := by rw [← h]

example : RtOpts exXtab.o ∧ ∃ F', WroteNew exXtab 10 exF (.str p!"/x/y") [p!"x", p!"y"] exTable F' :=
  ⟨⟨rfl, fun _ => rfl, ⟨by decide, by decide⟩⟩, _, ex_tab_wrote _ (by decide +kernel) (by decide +kernel)⟩

-- The hypotheses of `C54_group_or_dataset` for this array.
example : ¬ Discarded exXtab.o exTable ∧
    AllNamed (.struct [p!"n/a", p!"b", p!"s"] [.base (.bytes 3) [], .base .f32 [2], .struct [p!"u", p!"v"] [.base .bool [], .base .c64 []] []] []) := by
  refine ⟨(fun h => by obtain ⟨h, _⟩ := h; cases h), ?_⟩
  intro n ts sp h
  cases h with
  | self => rfl
  | field _ _ _ k nm t _ h1 h2 h3 =>
    match k, h2 with
    | 0, h2 => cases h2; cases h3
    | 1, h2 => cases h2; cases h3
    | 2, h2 =>
      cases h2
      cases h3 with
      | self => rfl
      | field _ _ _ k nm t _ h1 h2 h3 =>
        match k, h2 with
        | 0, h2 => cases h2; cases h3
        | 1, h2 => cases h2; cases h3
        | k + 2, h2 => cases h2
    | k + 3, h2 => cases h2

example : NeedsGroup [p!"a"] [.struct [p!"b"] [.base .f64 [2, 0]] []] :=
  ⟨.base .f64 [2, 0], .field _ _ _ 0 p!"a" _ _ rfl rfl (.field _ _ _ 0 p!"b" _ _ rfl rfl (.self _)), Or.inr (Or.inr (by simp [subShape]))⟩

/-- F48: a structured array with fields 'r' and 'i' of one floating point type that is stored as one Dataset reads back as complex numbers. -/
theorem C54_counterexample_complex : ReadsAs exXtab
    (.npStruct .ndarray [1] [p!"r", p!"i"] [.base .f64 [], .base .f64 []] [.np .scalar ⟨.f64, [], [.num 1]⟩, .np .scalar ⟨.f64, [], [.num 2]⟩])
    (.np .ndarray ⟨.c128, [1], [.cplx 1 2]⟩) := ⟨by decide +kernel, eq_of_isVal (by decide +kernel)⟩

/-- F49: writing a structured array with a field of str as one Dataset raises TypeError, and what was at that place before is gone. -/
theorem C54_counterexample_str :
    let F := (fileWrite exXtab 10 (.str p!"/x") (.int 5) exF).2
    let v : Val := .npStruct .ndarray [1] [p!"a"] [.base (.str 2) []] [exStr p!"ab"]
    fileRead exXtab 10 (.str p!"/x") F = .ok (.int 5) ∧ raised (fileWrite exXtab 10 (.str p!"/x") v F).1 = some .typeError ∧
      fileRead exXtab 10 (.str p!"/x") (fileWrite exXtab 10 (.str p!"/x") v F).2 = .error .keyError :=
  ⟨eq_of_isVal (by decide +kernel), by decide +kernel, eq_of_isExc (by decide +kernel)⟩

end HS
