import Verif.Lemmas.Stored
import Verif.Props.RoundTrip
/-
C24–C28: how arrays are stored.
-/
namespace HS
open Spec

/-- C26. After any history of method calls on a `File` with the options `o`, every Dataset in the file has exactly the filters the options ask for its size,
and is chunked exactly if it has a filter.  Except for: Datasets that were there before and were not written to, the canonical empty of the references Group, which
never has filters; and a Dataset overwritten in place (same dtype, shape and filters) stays chunked if it was. -/
theorem C26_filters (x : Ctx) (n : Nat) (ops : List Op) (h : Heap) (w : Bool) (q : Nat) (at' : List (Str × AVal)) (b : Arr) (f : Filters)
    (hq : (fileOps x n ops (FileS.new h w)).2.st.heap[q]? = some ⟨at', .dset b f⟩) :
    (∃ at0, h[q]? = some ⟨at0, .dset b f⟩) ∨ CanonicalEmpty b f ∨
    ∃ sz, DataSize b sz ∧ AsAsked x.o b.shape sz f ∧ (ChunkedAsNeeded f ∨ ∃ at0 b0, h[q]? = some ⟨at0, .dset b0 f⟩) := by
  refine (pres_ops (dsetsOk_elem x.o h) ops (F := FileS.new h w) ⟨Nat.le_refl _, ?_⟩).2 q at' b f hq
  intro q at' b f hq
  exact Or.inl ⟨at', hq⟩

/-- C26. In particular scalars get no filter. -/
theorem C26_scalar (x : Ctx) (sz : Nat) (f : Filters) (h : AsAsked x.o [] sz f) (hc : ChunkedAsNeeded f) :
    f.compression = none ∧ f.shuffle = false ∧ f.fletcher32 = false ∧ f.chunks = false := by
  obtain ⟨h1, _, h2, h3⟩ := h.plain (fun ⟨_, h, _⟩ => h rfl)
  have h4 : f.fletcher32 = false := by
    cases hf : f.fletcher32 with
    | false => rfl
    | true => exact absurd rfl (h3.mp hf).1
  refine ⟨h1, h2, h4, ?_⟩
  cases hf : f.chunks with
  | false => rfl
  | true =>
    rcases hc.mp hf with h | h
    · rw [h1] at h; cases h
    · rw [h4] at h; cases h

/-- The example options with a compression threshold of 8 bytes. -/
def exX8 : Ctx := ⟨{ exOpts with threshold := 8 }, exX.rng, 5⟩
-- An array of two float64 is compressed with shuffle and checksum, one uint8 is not.
example : (fileOps exX8 10 [.write (.str p!"/x") (.np .ndarray ⟨.f64, [2], [.num 1, .num 2]⟩), .write (.str p!"/y") (.np .ndarray ⟨.u8, [1], [.num 1]⟩)] exF).2.st.heap.map (fun o =>
    match o.body with | .dset b f => some (b.shape, f) | _ => none) =
    [none, some ([2, 1], ⟨some p!"gzip", some (some 7), true, true, true⟩), some ([1, 1], ⟨none, some none, false, false, false⟩)] := by decide +kernel

/-- What a write of a value without parts leaves at its place. -/
theorem wrote_leafOf {x : Ctx} (hN : NamesOk x.o) {n : Nat} {F F' : FileS} {p : PathArg} {ns : List Str} {v : Val} {c : Cont} {a : Arr} (hlf : leafOf v = some (c, a)) (hw : Wrote x n F p ns v F')
    (hk : ¬ (x.o.matlab = true ∧ a.dt.matlabClass = none ∧ x.o.action = .discard)) :
    ∃ d f, prepare x.o c a = .ok d ∧ DsetAt F'.st.heap ns (h5Store d) f ∧ AsAsked x.o (h5Store d).shape d.nbytes f ∧
      (¬ Exists F.st.heap ns → ChunkedAsNeeded f) := by
  obtain ⟨gs, t, s1, g, ob, hr⟩ := wrote_run hN hw
  cases n with
  | zero => have := hr.run; cases this
  | succ n =>
    have h : writeNp x g t c a (tsOf v) s1 = (.ok ob, F'.st) := by
      have h := hr.run
      rw [writeData] at h
      cases v with
      | npObj => rw [leafOf] at hlf <;> first | cases hlf | nofun
      | seq => rw [leafOf] at hlf <;> first | cases hlf | nofun
      | dict => rw [leafOf] at hlf <;> first | cases hlf | nofun
      | record => rw [leafOf] at hlf <;> first | cases hlf | nofun
      | npStruct => rw [leafOf] at hlf <;> first | cases hlf | nofun
      | _ => dsimp only at h; rw [hlf] at h; exact h
    rcases writeNp_done hr.dot h with ⟨_, _, h1, h2, h3⟩ | ⟨d, q, at0, f', at', d1, d2, d3, d4, d5, d6, d7⟩
    · exact absurd ⟨h1, h2, h3⟩ hk
    · refine ⟨d, f', d1, ⟨q, at', ?_, d5⟩, ?_, ?_⟩
      · rw [hr.names]; exact .snoc hr.path d3
      · rw [h5Store_shape]
        cases d4 with
        | made _ => exact filtersFor_asked x.o d
        | inPlace _ _ hs _ _ => exact sameFilters_asked hs
      · intro hne
        cases d4 with
        | made _ => exact filtersFor_chunked x.o d
        | inPlace hl _ _ _ _ =>
          exfalso
          obtain ⟨_, _, h3, _⟩ := hr.reqG.ok g rfl
          rcases h3 with h3 | h3
          · rw [h3] at hl
            have := hr.path1
            rw [h3] at this
            exact hne ⟨q, by rw [hr.names]; exact .snoc this hl⟩
          · rw [LinkAt, h3] at hl; cases hl

/-- What a write of numpy data leaves at its place. -/
theorem wrote_leaf {x : Ctx} (hN : NamesOk x.o) {n : Nat} {F F' : FileS} {p : PathArg} {ns : List Str} {c : Cont} {a : Arr} (hw : Wrote x n F p ns (.np c a) F')
    (hk : ¬ (x.o.matlab = true ∧ a.dt.matlabClass = none ∧ x.o.action = .discard)) :
    ∃ d f, prepare x.o c a = .ok d ∧ DsetAt F'.st.heap ns (h5Store d) f ∧ AsAsked x.o (h5Store d).shape d.nbytes f ∧
      (¬ Exists F.st.heap ns → ChunkedAsNeeded f) := wrote_leafOf hN rfl hw hk

theorem dropped_iff {x : Ctx} {dt : DT} (hn : NumericDT dt) (hd : NotDropped x.o dt) : ¬ (x.o.matlab = true ∧ dt.matlabClass = none ∧ x.o.action = .discard) := by
  rintro ⟨h1, h2, h3⟩
  refine hd h1 h3 ?_
  simp only [NumericDT, List.mem_cons, List.not_mem_nil, or_false] at hn
  rcases hn with rfl | rfl | rfl | rfl | rfl | rfl | rfl | rfl | rfl | rfl | rfl | rfl | rfl | rfl <;> first | rfl | cases h2

/-- C27. Whatever was at the place before, after a successful write of numeric, bool or complex data there is a Dataset with exactly the new dtype, shape and data
(or the shape of an empty array), and with the filters the options ask for. -/
theorem C27_dataset {x : Ctx} (hN : NamesOk x.o) {n : Nat} {F F' : FileS} {p : PathArg} {ns : List Str} {c : Cont} {a : Arr} (hn : NumericDT a.dt)
    (hl : a.data.length = prodN a.shape) (hd : NotDropped x.o a.dt) (hw : Wrote x n F p ns (.np c a) F') :
    ∃ b f sz, DsetAt F'.st.heap ns b f ∧ (x.o.storeShape = true ∧ prodN a.shape = 0 → HoldsShape x.o a b) ∧
      (¬ (x.o.storeShape = true ∧ prodN a.shape = 0) → HoldsArray x.o a b) ∧ DataSize b sz ∧ AsAsked x.o b.shape sz f := by
  obtain ⟨d, f, h1, h2, h3, _⟩ := wrote_leaf hN hw (dropped_iff hn hd)
  refine ⟨_, f, _, h2, ?_, ?_, h5Store_size d, h3⟩
  · intro he
    obtain ⟨e1, e2⟩ := prepare_shape hn he.1 he.2 h1
    rw [e2]; exact e1
  · intro he
    exact prepare_array hn hl he h1

/-- The example file after writing a float64 array and overwriting it with an int32 array. -/
def exTwice : FileS := (fileWrite exX 10 (.str p!"/x/y") (.np .ndarray ⟨.i32, [2], [.num 5, .num 6]⟩)
    (fileWrite exX 10 (.str p!"/x/y") (.np .ndarray ⟨.f64, [2], [.num 1, .num 2]⟩) exF).2).2

theorem ex_twice : Wrote exX 10 (fileWrite exX 10 (.str p!"/x/y") (.np .ndarray ⟨.f64, [2], [.num 1, .num 2]⟩) exF).2 (.str p!"/x/y") [p!"x", p!"y"]
    (.np .ndarray ⟨.i32, [2], [.num 5, .num 6]⟩) exTwice where
  refs := ⟨rfl, by decide⟩
  reach := .wrote 10 [(.str p!"/x/y", _)] ex_reach (by
    intro pv hpv
    rw [List.mem_singleton] at hpv
    subst hpv
    intro h
    exact absurd (addr_unique h ⟨p!"/x", p!"y", by decide, rfl⟩) (by decide))
  rw := rfl
  addr := ⟨p!"/x", p!"y", by decide, by decide⟩
  notRoot := by simp
  ok := by
    have : (fileWrite exX 10 (.str p!"/x/y") (.np .ndarray ⟨.i32, [2], [.num 5, .num 6]⟩)
      (fileWrite exX 10 (.str p!"/x/y") (.np .ndarray ⟨.f64, [2], [.num 1, .num 2]⟩) exF).2).1 = .ok () := by decide +kernel
    rw [← this]; rfl

-- The Dataset is replaced: the old one is not linked any more.
example : ∃ F' c a, Wrote exX 10 (fileWrite exX 10 (.str p!"/x/y") (.np .ndarray ⟨.f64, [2], [.num 1, .num 2]⟩) exF).2 (.str p!"/x/y") [p!"x", p!"y"] (.np c a) F' ∧
    NumericDT a.dt ∧ a.data.length = prodN a.shape ∧ NotDropped exX.o a.dt :=
  ⟨_, _, _, ex_twice, by simp [NumericDT], rfl, by intro _ _ h; cases h⟩

/-- F3: overwriting a list by a tuple of the same length: the Dataset is overwritten in place, the attribute saying that it is a list is not, and a list is read. -/
theorem C27_counterexample : ∃ F1 F2, fileWrite exX 10 (.str p!"/x") (.seq .list [.int 1]) exF = (.ok (), F1) ∧
    fileWrite exX 10 (.str p!"/x") (.seq .tuple [.int 2]) F1 = (.ok (), F2) ∧ fileRead exX 10 (.str p!"/x") F2 = .ok (.seq .list [.int 2]) := by
  refine ⟨(fileWrite exX 10 (.str p!"/x") (.seq .list [.int 1]) exF).2, (fileWrite exX 10 (.str p!"/x") (.seq .tuple [.int 2])
    (fileWrite exX 10 (.str p!"/x") (.seq .list [.int 1]) exF).2).2, ?_, ?_, eq_of_isVal (by decide +kernel)⟩
  · have : (fileWrite exX 10 (.str p!"/x") (.seq .list [.int 1]) exF).1 = .ok () := by decide +kernel
    rw [← this]
  · have : (fileWrite exX 10 (.str p!"/x") (.seq .tuple [.int 2]) (fileWrite exX 10 (.str p!"/x") (.seq .list [.int 1]) exF).2).1 = .ok () := by decide +kernel
    rw [← this]

/-- The example options with lzf compression of everything. -/
def exXlzf : Ctx := ⟨{ exOpts with threshold := 0, algorithm := p!"lzf" }, exX.rng, 5⟩

/-- F27: with lzf (or szip) compression overwriting a compressed Dataset by data of the same dtype and shape raises, and the old data stay. -/
theorem C27_counterexample_lzf : ∃ F1, fileWrite exXlzf 10 (.str p!"/x") (.np .ndarray ⟨.f64, [2], [.num 1, .num 2]⟩) exF = (.ok (), F1) ∧
    fileWrite exXlzf 10 (.str p!"/x") (.np .ndarray ⟨.f64, [2], [.num 3, .num 4]⟩) F1 = (.error .valueError, F1) := by
  refine ⟨(fileWrite exXlzf 10 (.str p!"/x") (.np .ndarray ⟨.f64, [2], [.num 1, .num 2]⟩) exF).2, ?_, by decide +kernel⟩
  have : (fileWrite exXlzf 10 (.str p!"/x") (.np .ndarray ⟨.f64, [2], [.num 1, .num 2]⟩) exF).1 = .ok () := by decide +kernel
  rw [← this]

/-- C24 (partial): with `make_atleast_2d` one-dimensional numeric data are stored as a row, i.e. as Dataset of shape 1xn, or nx1 after the reversal of the
dimensions, elements in order.  This is the documented behaviour for `oned_as='row'`; missing: for `oned_as='column'` the same is stored (`C24_counterexample`). -/
theorem C24_row_partial {x : Ctx} (hN : NamesOk x.o) {n : Nat} {F F' : FileS} {p : PathArg} {ns : List Str} {c : Cont} {dt : DT} {m : Nat} {data : List El}
    (h2 : x.o.atleast2d = true) (hn : NumericDT dt) (hl : data.length = m) (hm : m ≠ 0) (hd : NotDropped x.o dt) (hw : Wrote x n F p ns (.np c ⟨dt, [m], data⟩) F') :
    ∃ b f, DsetAt F'.st.heap ns b f ∧ b.shape = (if x.o.reverse then [m, 1] else [1, m]) ∧ b.data = data := by
  obtain ⟨b, f, sz, h3, _, h4, _⟩ := C27_dataset hN (a := ⟨dt, [m], data⟩) hn (by simp [prodN, hl]) hd hw
  have h4 := h4 (by simp [prodN, hm])
  have hr : RowShape x.o [m] = [1, m] := by unfold RowShape; rw [h2]; rfl
  have hs : b.shape = (if x.o.reverse then [m, 1] else [1, m]) := by
    have := h4.shape
    rw [hr] at this
    rw [this]; cases x.o.reverse <;> rfl
  refine ⟨b, f, h3, hs, ?_⟩
  have hbl : b.data.length = m := by
    rw [h4.count, hs]
    cases x.o.reverse <;> simp [prodN]
  apply List.ext_getElem?
  intro k
  by_cases hk : k < m
  · have := h4.elems [0, k] (by
      show IndexOf (RowShape x.o [m]) [0, k]
      rw [hr]
      refine ⟨rfl, ?_⟩
      intro j hj
      match j, hj with
      | 0, _ => simp
      | 1, _ => simpa using hk)
    rw [hs] at this
    simp only [hr] at this
    cases hrev : x.o.reverse <;> rw [hrev] at this <;> simp [ravelN, prodN] at this <;> exact this
  · rw [List.getElem?_eq_none (by omega), List.getElem?_eq_none (by omega)]

example : ∃ F', Wrote exX 10 (fileWrite exX 10 (.str p!"/x/y") (.np .ndarray ⟨.f64, [2], [.num 1, .num 2]⟩) exF).2 (.str p!"/x/y") [p!"x", p!"y"]
    (.np .ndarray ⟨.i32, [2], [.num 5, .num 6]⟩) F' ∧ exX.o.atleast2d = true := ⟨_, ex_twice, rfl⟩

/-- The example options with `oned_as='column'` and no reversal of dimensions. -/
def exXcol : Ctx := ⟨{ exOpts with onedColumn := true, reverse := false, matlab := false }, exX.rng, 5⟩

/-- F2: with `oned_as='column'` an array of three elements is stored as a row all the same. -/
theorem C24_counterexample : exXcol.o.onedColumn = true ∧ exXcol.o.atleast2d = true ∧
    (fileWrite exXcol 10 (.str p!"/x") (.np .ndarray ⟨.u8, [3], [.num 1, .num 2, .num 3]⟩) exF).1 = .ok () ∧
    DsetAt (fileWrite exXcol 10 (.str p!"/x") (.np .ndarray ⟨.u8, [3], [.num 1, .num 2, .num 3]⟩) exF).2.st.heap [p!"x"]
      ⟨.u8, [1, 3], [.num 1, .num 2, .num 3]⟩ ⟨none, some none, false, false, false⟩ := by
  refine ⟨rfl, rfl, by decide +kernel, 1, ((fileWrite exXcol 10 (.str p!"/x") (.np .ndarray ⟨.u8, [3], [.num 1, .num 2, .num 3]⟩) exF).2.st.heap[1]?.map (·.attrs)).getD [],
    .snoc (l := []) .root (k := p!"x") (by unfold LinkAt; decide +kernel), by decide +kernel⟩

/-- C25, storage. With `store_shape_for_empty` the Dataset of an empty numeric array holds its shape in the array's own order, whether or not dimensions are
reversed; without it the Dataset is empty and has the (possibly reversed) shape. -/
theorem C25_stored {x : Ctx} (hN : NamesOk x.o) {n : Nat} {F F' : FileS} {p : PathArg} {ns : List Str} {c : Cont} {a : Arr} (hn : NumericDT a.dt)
    (hl : a.data = []) (he : prodN a.shape = 0) (hd : NotDropped x.o a.dt) (hw : Wrote x n F p ns (.np c a) F') :
    ∃ b f, DsetAt F'.st.heap ns b f ∧
      if x.o.storeShape then b.data = (RowShape x.o a.shape).map (fun d => .num (Int.ofNat d)) ∧ b.shape = [(RowShape x.o a.shape).length] ∧ b.dt = .u64
      else b.data = [] ∧ b.shape = (if x.o.reverse then (RowShape x.o a.shape).reverse else RowShape x.o a.shape) := by
  obtain ⟨b, f, sz, h3, h4, h5, _⟩ := C27_dataset hN hn (by rw [hl, he]; rfl) hd hw
  refine ⟨b, f, h3, ?_⟩
  by_cases hs : x.o.storeShape = true
  · rw [if_pos hs]
    have := h4 ⟨hs, he⟩
    unfold HoldsShape at this
    rw [this]
    exact ⟨rfl, rfl, rfl⟩
  · rw [if_neg hs]
    have h6 := h5 (fun h => hs h.1)
    refine ⟨?_, h6.shape⟩
    have := h6.count
    rw [h6.shape] at this
    apply List.eq_nil_of_length_eq_zero
    rw [this, rowShape_eq]
    cases x.o.reverse <;> simp [prodN_reverse, prodN_shape2, he]

/-- The Group with these names exists. -/
def Spec.GroupAt (h : Heap) (l : List Str) : Prop := l.all nameOk = true ∧ ∃ g, LPath h l g ∧ isGroup h g = true

/-- Writing numpy data into a Group that exists. -/
theorem fileWrite_np {x : Ctx} (hr : RefsPathOk x.o) (n : Nat) {F : FileS} {p : PathArg} {l : List Str} {t : Str} (hg : GoodPath x.o p) (ha : Addr p (l ++ [t]))
    (hgr : GroupAt F.st.heap l) (ho : F.isOpen = true) (hw : F.writable = true) (c : Cont) (a : Arr) {r : Res (Option Nat)}
    (h : ∀ g, writeNp x g t c a (npTypeString c a.dt) F.st = (r, F.st)) : fileWrite x (n + 1) p (.np c a) F = (r.map fun _ => (), F) := by
  obtain ⟨gt, h1⟩ := good_check hr hg
  obtain ⟨gs, t'⟩ := gt
  obtain ⟨c1, c2, c3⟩ := checkPath_off hr h1
  have hd : t' ≠ [dot] := by
    intro hd
    have := addr_unique ha (c3 hd)
    simp at this
  obtain ⟨c4, c5⟩ := c2 hd
  have := addr_unique ha ⟨gs, t', c1, c5.symm⟩
  obtain ⟨e1, e2⟩ := List.append_inj' this rfl
  simp only [List.cons.injEq, and_true] at e2
  subst e1 e2
  obtain ⟨n1, g, g1, g2⟩ := hgr
  have hreq : requireGroup (commonComps gs) F.st = (.ok g, F.st) := by
    unfold requireGroup
    rw [if_pos n1, resolve_lpath (commonComps_plain gs) g1]
    dsimp only
    rw [if_pos g2]
  have hone : writeOne x (n + 1) (gs, t) (.np c a) F.st = (r, F.st) := by
    unfold writeOne
    dsimp only
    rw [run_bind_ok hreq]
    exact h g
  have hc : checkItems x.o.refsPath [(p, .np c a)] = .ok [((gs, t), .np c a)] := by
    simp only [checkItems, h1, bind, Except.bind]
  have hmany : writeMany x (n + 1) [((gs, t), .np c a)] F.st = (r.map fun _ => (), F.st) := by
    unfold writeMany
    cases r with
    | error e => exact run_bind_err hone
    | ok q => rw [run_bind_ok hone]; rfl
  unfold fileWrite fileWrites
  rw [hc, hw, ho]
  dsimp only
  rw [if_neg (by simp), if_neg (by simp)]
  unfold runFile
  rw [hmany]
  dsimp only
  split
  · simp
  · rfl

/-- C28, 'error': float16 data cannot be stored compatibly with MATLAB; the write raises and nothing changes if the containing Group exists. -/
theorem C28_error_partial {x : Ctx} (hr : RefsPathOk x.o) (hm : x.o.matlab = true) (hact : x.o.action = .error) (n : Nat) {F : FileS} {p : PathArg} {l : List Str} {t : Str}
    (hg : GoodPath x.o p) (ha : Addr p (l ++ [t])) (hgr : GroupAt F.st.heap l) (ho : F.isOpen = true) (hw : F.writable = true) (c : Cont) (a : Arr) (hf : a.dt = .f16) :
    fileWrite x (n + 1) p (.np c a) F = (.error .typeNotMatlabCompatible, F) := by
  refine fileWrite_np hr n hg ha hgr ho hw c a (r := .error .typeNotMatlabCompatible) ?_
  intro g
  unfold writeNp
  rw [if_pos ⟨hm, by rw [hf]; rfl, hact⟩]
  rfl

/-- C28, 'discard': the write succeeds and nothing changes if the containing Group exists. -/
theorem C28_discard_partial {x : Ctx} (hr : RefsPathOk x.o) (hm : x.o.matlab = true) (hact : x.o.action = .discard) (n : Nat) {F : FileS} {p : PathArg} {l : List Str} {t : Str}
    (hg : GoodPath x.o p) (ha : Addr p (l ++ [t])) (hgr : GroupAt F.st.heap l) (ho : F.isOpen = true) (hw : F.writable = true) (c : Cont) (a : Arr) (hf : a.dt = .f16) :
    fileWrite x (n + 1) p (.np c a) F = (.ok (), F) := by
  refine fileWrite_np hr n hg ha hgr ho hw c a (r := .ok none) ?_
  intro g
  unfold writeNp
  rw [if_neg (by rintro ⟨_, _, h⟩; rw [hact] at h; cases h), if_pos ⟨hm, by rw [hf]; rfl, hact⟩]
  rfl

/-- C28, 'ignore': the data are written like any others, and read back. -/
theorem C28_ignore {x : Ctx} (ho : RtOpts x.o) (hact : x.o.action = .ignore) {n : Nat} {F F' : FileS} {p : PathArg} {ns : List Str} (a : Arr) (ha : PlainArr a)
    (hf : a.dt = .f16) (hw : WroteNew x n F p ns (.np .ndarray a) F') :
    ReadsBack x n F'.st.heap ns (.np .ndarray a) ∧ ∃ b f, DsetAt F'.st.heap ns b f ∧ ((x.o.storeShape = true ∧ prodN a.shape = 0) ∨ b.dt = .f16) := by
  have hnd : NotDropped x.o a.dt := by intro _ h; rw [hact] at h; cases h
  refine ⟨C23_numeric_partial ho _ a ha (by intro n; rw [hf]; exact ⟨(by intro h; cases h), (by intro h; cases h)⟩) (by intro h; cases h) (by intro h; cases h) (by intro h; cases h) hnd (by rintro (h | h) <;> rw [hf] at h <;> cases h) hw, ?_⟩
  obtain ⟨b, f, _, h1, _, h2, _⟩ := C27_dataset (a := a) ho.names (by rw [hf]; simp [NumericDT]) ha.size hnd ⟨hw.refs, hw.reach, hw.rw, hw.addr, hw.notRoot, hw.ok⟩
  refine ⟨b, f, h1, ?_⟩
  by_cases he : x.o.storeShape = true ∧ prodN a.shape = 0
  · exact Or.inl he
  · right
    have := (h2 he).dt
    rw [hf] at this
    generalize hb : b.dt = d at this
    generalize hz : DT.f16 = z at this
    cases this with
    | same _ _ => rfl
    | _ => cases hz

/-- The example options with the other actions. -/
def exXdiscard : Ctx := ⟨{ exOpts with action := .discard }, exX.rng, 5⟩
/-- See `exXdiscard`. -/
def exXignore : Ctx := ⟨{ exOpts with action := .ignore }, exX.rng, 5⟩

example : GoodPath exX.o (.str p!"/y") ∧ Addr (.str p!"/y") ([] ++ [p!"y"]) ∧ GroupAt exF.st.heap [] := by
  have : Addr (.str p!"/y") ([] ++ [p!"y"]) := ⟨p!"/", p!"y", by decide, by decide⟩
  exact ⟨⟨_, this, by intro k hk; cases hk; decide⟩, this, rfl, 0, .root, rfl⟩
example : fileWrite exXignore 10 (.str p!"/x/y") (.np .ndarray ⟨.f16, [2], [.num 15360, .num 0]⟩) exF =
    (.ok (), (fileWrite exXignore 10 (.str p!"/x/y") (.np .ndarray ⟨.f16, [2], [.num 15360, .num 0]⟩) exF).2) := by
  have : (fileWrite exXignore 10 (.str p!"/x/y") (.np .ndarray ⟨.f16, [2], [.num 15360, .num 0]⟩) exF).1 = .ok () := by decide +kernel
  rw [← this]

/-- F34: C28 fails if the containing Group does not exist: it is made before the exception is raised, and also if the data are discarded.  And if the data are in a
list, the references Group and the elements before stay. -/
theorem C28_counterexample :
    (fileWrite exX 10 (.str p!"/x/y") (.np .ndarray ⟨.f16, [1], [.num 0]⟩) exF).1 = .error .typeNotMatlabCompatible ∧
    fileContains (.str p!"/x") (fileWrite exX 10 (.str p!"/x/y") (.np .ndarray ⟨.f16, [1], [.num 0]⟩) exF).2 = .ok true ∧
    (fileWrite exXdiscard 10 (.str p!"/x/y") (.np .ndarray ⟨.f16, [1], [.num 0]⟩) exF).1 = .ok () ∧
    fileContains (.str p!"/x") (fileWrite exXdiscard 10 (.str p!"/x/y") (.np .ndarray ⟨.f16, [1], [.num 0]⟩) exF).2 = .ok true ∧
    (fileWrite exX 10 (.str p!"/x") (.seq .list [.int 1, .np .scalar ⟨.f16, [], [.num 0]⟩]) exF).1 = .error .typeNotMatlabCompatible ∧
    (fileWrite exX 10 (.str p!"/x") (.seq .list [.int 1, .np .scalar ⟨.f16, [], [.num 0]⟩]) exF).2 ≠ exF := by decide +kernel

end HS