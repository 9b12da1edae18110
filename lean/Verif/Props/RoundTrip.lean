import Verif.Lemmas.FileWrite
import Verif.Lemmas.ValEq
/-
C18, C23, C25, C29–C34: what is written to an unused place of a file reads back.
-/
namespace HS
open Spec

/-- The default options, for examples. -/
def exOpts : COpts where
  pyMeta := true
  matlab := true
  action := .error
  deleteUnused := true
  structAsStruct := true
  atleast2d := true
  bytes16 := true
  str16 := true
  boolsU8 := true
  reverse := true
  structsAsDicts := false
  storeShape := true
  complexNames := (p!"real", p!"imag")
  refsPath := p!"/#refs#"
  onedColumn := false
  keysName := p!"keys"
  valuesName := p!"values"
  compress := true
  threshold := 16384
  algorithm := p!"gzip"
  gzipLevel := 7
  shuffle := true
  fletcherC := true
  fletcherU := false

-- These are the options a default `Options()` object gives.
example : ∃ o, newOptions Options.default = .ok o ∧ COpts.of o = exOpts := ⟨_, rfl, by decide +kernel⟩

/-- A context for examples. -/
def exX : Ctx := ⟨exOpts, fun i => i * 11400714819323198485, 5⟩
/-- An empty file, for examples. -/
def exF : FileS := FileS.new [⟨[], .group []⟩] true

theorem ex_rtOpts : RtOpts exX.o where
  pyMeta := rfl
  rev := fun _ => rfl
  names := ⟨by decide, by decide⟩

theorem ex_cplx : CplxNames exX.o := ⟨Or.inr (Or.inr (by decide)), Or.inr (Or.inr (Or.inl (by decide)))⟩

theorem ex_kv : KvNames exX.o := ⟨⟨by decide, by decide, by decide⟩, ⟨by decide, by decide, by decide⟩, by decide⟩

theorem linkAt_single {p : Nat} {k : Str} {q : Nat} : ¬ LinkAt [⟨[], .group []⟩] p k q := by
  intro h
  have := linkAt_lt h
  simp at this
  subst this
  cases h

theorem ex_reach : Reach exX exF :=
  .opened _ _ ⟨fun _ _ _ h => (linkAt_single h).elim, rfl, fun _ _ h => linkAt_single h, fun _ _ _ _ _ h => (linkAt_single h).elim⟩

theorem ex_free (ns : List Str) (h : ns ≠ []) : ¬ Exists exF.st.heap ns := by
  rintro ⟨q, hq⟩
  cases hq with
  | root => exact h rfl
  | snoc _ hl => exact linkAt_single hl

/-- Examples of successful writes. -/
theorem ex_wrote (v : Val) (h : (fileWrite exX 10 (.str p!"/x/y") v exF).1 = .ok ()) (hr : (fileWrite exX 10 (.str p!"/x/y") v exF).2.st.rpos = 0) :
    WroteNew exX 10 exF (.str p!"/x/y") [p!"x", p!"y"] v (fileWrite exX 10 (.str p!"/x/y") v exF).2 where
  refs := ⟨rfl, by decide⟩
  reach := ex_reach
  rw := rfl
  addr := ⟨p!"/x", p!"y", by decide, by decide⟩
  notRoot := by simp
  free := ex_free _ (by simp)
  draws := by intro i j _ _ h3; rw [hr] at h3; omega
  ok := by rw [← h]

/-- The value can be written in the example. -/
def ExWrites (v : Val) : Prop := ∃ F', WroteNew exX 10 exF (.str p!"/x/y") [p!"x", p!"y"] v F'

theorem ex_writes (v : Val) (h : (fileWrite exX 10 (.str p!"/x/y") v exF).1 = .ok ()) (hr : (fileWrite exX 10 (.str p!"/x/y") v exF).2.st.rpos = 0) : ExWrites v :=
  ⟨_, ex_wrote v h hr⟩

/-- C23 (partial). Numeric, bool and complex data in an array, matrix, recarray or scalar, under every option setting with Python metadata.  Missing: complex data
with names of the parts that reading does not recognise (finding F12, see `C23_counterexample`), and float16 data if incompatible types are discarded, which are
not written at all. -/
theorem C23_numeric_partial {x : Ctx} (ho : RtOpts x.o) {n : Nat} {F F' : FileS} {p : PathArg} {ns : List Str} (c : Cont) (a : Arr)
    (ha : PlainArr a) (hnum : ∀ n, a.dt ≠ .bytes n ∧ a.dt ≠ .str n) (hc : c ≠ .chararray) (hs : c = .scalar → a.shape = []) (hm : c = .matrix → a.shape.length = 2)
    (hd : NotDropped x.o a.dt) (hcn : CplxOk x.o a) (hw : WroteNew x n F p ns (.np c a) F') : ReadsBack x n F'.st.heap ns (.np c a) := by
  refine file_rt ho hw (.np c a ⟨ha, ?_, hm, fun h => absurd h hc, fun _ => ⟨(hnum 0).1, (hnum 0).2⟩, ?_⟩ hd hcn)
  · intro h
    refine ⟨hs h, ?_⟩
    intro u hu
    have := ha.fits _ hu
    have hb := hnum u.length
    cases hdt : a.dt <;> rw [hdt] at this hb <;> simp [FitsDT] at this
    · subst this; exact absurd rfl hb.1
    · subst this; exact absurd rfl hb.2
  · intro n hn
    exact absurd hn (hnum n).2

-- A 2x2 complex array and a boolean scalar.
example : ExWrites (.np .ndarray ⟨.c128, [2, 1], [.cplx 1 2, .cplx 3 4]⟩) ∧ ExWrites (.np .scalar ⟨.bool, [], [.num 1]⟩) :=
  ⟨ex_writes _ (by decide +kernel) (by decide +kernel), ex_writes _ (by decide +kernel) (by decide +kernel)⟩

/-- The example context with `complex_names=('i', 'r')`. -/
def exXir : Ctx := ⟨{ exOpts with complexNames := (p!"i", p!"r") }, exX.rng, 5⟩

/-- F12: with `complex_names=('i', 'r')` a complex number reads back with its parts exchanged. -/
theorem C23_counterexample : ∃ F', WroteNew exXir 10 exF (.str p!"/x/y") [p!"x", p!"y"] (.np .scalar ⟨.c128, [], [.cplx 1 2]⟩) F' ∧
    fileRead exXir 10 (.str p!"/x/y") F' = .ok (.np .scalar ⟨.c128, [], [.cplx 2 1]⟩) :=
  ⟨(fileWrite exXir 10 (.str p!"/x/y") (.np .scalar ⟨.c128, [], [.cplx 1 2]⟩) exF).2,
    { refs := ⟨rfl, by decide⟩, reach := .opened _ _ ⟨fun _ _ _ h => (linkAt_single h).elim, rfl, fun _ _ h => linkAt_single h, fun _ _ _ _ _ h => (linkAt_single h).elim⟩
      rw := rfl, addr := ⟨p!"/x", p!"y", by decide, by decide⟩, notRoot := by simp, free := ex_free _ (by simp)
      draws := by
        intro i j h1 h2 h3
        have : (fileWrite exXir 10 (.str p!"/x/y") (.np .scalar ⟨.c128, [], [.cplx 1 2]⟩) exF).2.st.rpos = 0 := by decide +kernel
        rw [this] at h3; omega
      ok := by
        have : (fileWrite exXir 10 (.str p!"/x/y") (.np .scalar ⟨.c128, [], [.cplx 1 2]⟩) exF).1 = .ok () := by decide +kernel
        rw [← this] },
    eq_of_isVal (by decide +kernel)⟩

/-- C25. Arrays without elements, of any numeric, bytes or str dtype, keep shape and dtype whatever `store_shape_for_empty` is. -/
theorem C25_empty {x : Ctx} (ho : RtOpts x.o) {n : Nat} {F F' : FileS} {p : PathArg} {ns : List Str} (dt : DT) (shape : List Nat) (hz : 0 ∈ shape)
    (hdt : dt ≠ .object ∧ dt ≠ .ref ∧ (∀ r i d, dt ≠ .crec r i d) ∧ ∀ o s n t, dt ≠ .comp o s n t) (hw0 : dt ≠ .bytes 0 ∧ dt ≠ .str 0)
    (hd : NotDropped x.o dt) (hw : WroteNew x n F p ns (.np .ndarray ⟨dt, shape, []⟩) F') : ReadsBack x n F'.st.heap ns (.np .ndarray ⟨dt, shape, []⟩) := by
  have hp : prodN shape = 0 := by
    clear hw
    induction shape with
    | nil => cases hz
    | cons d l ih =>
      rcases List.mem_cons.mp hz with h | h
      · subst h; simp [prodN]
      · simp [prodN, ih h]
  refine file_rt ho hw (.np _ _ ⟨⟨?_, ?_, hdt⟩, ?_, ?_, ?_, fun _ => hw0, ?_⟩ hd (fun _ h => absurd rfl h))
  · simp [hp]
  · intro e he; cases he
  · intro h; cases h
  · intro h; cases h
  · intro h; cases h
  · intro m _ h
    simp only at h
    omega

example : ExWrites (.np .ndarray ⟨.str 3, [2, 0, 5], []⟩) := ex_writes _ (by decide +kernel) (by decide +kernel)

/-- C29. Python ints of any size. -/
theorem C29_int {x : Ctx} (ho : RtOpts x.o) {n : Nat} {F F' : FileS} {p : PathArg} {ns : List Str} (v : Int) (hw : WroteNew x n F p ns (.int v) F') :
    ReadsBack x n F'.st.heap ns (.int v) := file_rt ho hw (.int v)

example : ExWrites (.int (-123456789012345678901234567890)) :=
  ex_writes _ (by decide +kernel) (by decide +kernel)

/-- C30 (partial). str, bytes and bytearray.  Missing: texts with a trailing NUL, with a final UTF-16/32 unit that is a multiple of 256, with lone surrogates or
with U+FEFF in front, and byte strings with trailing NULs (findings F5, F6, F25); see `C30_counterexample`. -/
theorem C30_strings_partial {x : Ctx} (ho : RtOpts x.o) {n : Nat} {F F' : FileS} {p : PathArg} {ns : List Str} (v : Val)
    (hv : (∃ s, v = .str s ∧ GoodText s) ∨ ∃ b, GoodBytes b ∧ (v = .bytes b ∨ v = .bytearray b)) (hw : WroteNew x n F p ns v F') :
    ReadsBack x n F'.st.heap ns v := by
  refine file_rt ho hw ?_
  rcases hv with ⟨s, rfl, h⟩ | ⟨b, h, rfl | rfl⟩
  · exact .str s h
  · exact .bytes b h
  · exact .bytearray b h

example : ExWrites (.str p!"a/b") ∧ ExWrites (.bytes [0, 255]) ∧ GoodText p!"a/b" ∧ GoodBytes [0, 255] :=
  ⟨ex_writes _ (by decide +kernel) (by decide +kernel), ex_writes _ (by decide +kernel) (by decide +kernel),
    ⟨⟨by decide, by intro c h; cases h; decide⟩, by decide⟩, by simp [GoodBytes]⟩

/-- The object written in the example. -/
def exWritten (v : Val) : FileS := (fileWrite exX 10 (.str p!"/x/y") v exF).2

/-- F5, F6 and trailing NULs: a text ending in U+4E00 cannot be read (`UnicodeDecodeError`), a text with U+FEFF in front loses it, and so do bytes with their
trailing NULs. -/
theorem C30_counterexample :
    (WroteNew exX 10 exF (.str p!"/x/y") [p!"x", p!"y"] (.str [0x4E00]) (exWritten (.str [0x4E00])) ∧
      fileRead exX 10 (.str p!"/x/y") (exWritten (.str [0x4E00])) = .error .unicodeError) ∧
    (WroteNew exX 10 exF (.str p!"/x/y") [p!"x", p!"y"] (.str [0xFEFF, 97]) (exWritten (.str [0xFEFF, 97])) ∧
      fileRead exX 10 (.str p!"/x/y") (exWritten (.str [0xFEFF, 97])) = .ok (.str [97])) ∧
    (WroteNew exX 10 exF (.str p!"/x/y") [p!"x", p!"y"] (.bytes [97, 0]) (exWritten (.bytes [97, 0])) ∧
      fileRead exX 10 (.str p!"/x/y") (exWritten (.bytes [97, 0])) = .ok (.bytes [97])) := by
  refine ⟨⟨ex_wrote _ (by decide +kernel) (by decide +kernel), ?_⟩, ⟨ex_wrote _ (by decide +kernel) (by decide +kernel), ?_⟩,
    ⟨ex_wrote _ (by decide +kernel) (by decide +kernel), ?_⟩⟩
  · exact eq_of_isExc (by decide +kernel)
  · exact eq_of_isVal (by decide +kernel)
  · exact eq_of_isVal (by decide +kernel)

/-- C31 (partial). dict, OrderedDict and Counter: the same items in the same order with keys of the same types.  Either all keys are texts (str, UTF-8 bytes or
numpy strings) that are different as texts, or some key is not a text.  Missing: keys that are equal as texts but different as keys, `C31_counterexample`
(finding F4). -/
theorem C31_dict_partial {x : Ctx} (ho : RtOpts x.o) {n : Nat} {F F' : FileS} {p : PathArg} {ns : List Str} (k : DictKind) (keys vals : List Val)
    (hl : vals.length = keys.length) (hv : ∀ v ∈ vals, Good x.o v)
    (hk : (∃ texts, All2 KeyText keys texts ∧ texts.Nodup) ∨ ((∃ k ∈ keys, NotTextKey k) ∧ KvNames x.o ∧ ∀ k ∈ keys, Good x.o k))
    (hw : WroteNew x n F p ns (.dict k keys vals) F') : ReadsBack x n F'.st.heap ns (.dict k keys vals) := by
  refine file_rt ho hw ?_
  rcases hk with ⟨texts, h1, h2⟩ | ⟨h1, h0, h2⟩
  · exact .dictText k keys vals texts h1 h2 hl hv
  · exact .dictAny k keys vals h1 h0 hl h2 hv

/-- A dict with text keys of different types and values of different kinds. -/
def exDict : Val := .dict .orderedDict [.str p!"z/.", .bytes p!"b"] [.int 1, .seq .tuple [.none, .str p!"q"]]
/-- A dict with a key that is a tuple. -/
def exDictAny : Val := .dict .dict [.str p!"a", .seq .tuple [.int 3, .int 4]] [.float 0, exDict]

theorem ex_goodText (s : Str) (h : s.all (fun c => c < 128 && c != 0) = true) : GoodText s := by
  have hc : ∀ c ∈ s, c < 128 ∧ c ≠ 0 := by
    intro c hc
    have := List.all_eq_true.mp h c hc
    simpa using this
  refine ⟨⟨fun c h => ?_, fun c h => ?_⟩, fun h => ?_⟩
  · have := (hc c h).1; omega
  · have := hc c (List.mem_of_getLast? h)
    omega
  · have := (hc _ (List.mem_of_head? h)).1
    omega

theorem ex_good_dict : Good exX.o exDict := by
  refine .dictText _ _ _ [p!"z/.", p!"b"] (.cons (.str _) (.cons (.bytes _ _ rfl) .nil)) (by decide) rfl ?_
  intro v hv
  simp only [List.mem_cons, List.not_mem_nil, or_false] at hv
  rcases hv with rfl | rfl
  · exact .int _
  · refine .seq _ _ (by intro h; cases h) ?_
    intro e he
    simp only [List.mem_cons, List.not_mem_nil, or_false] at he
    rcases he with rfl | rfl
    · exact .none
    · exact .str _ (ex_goodText _ (by decide))

theorem ex_good_dictAny : Good exX.o exDictAny := by
  refine .dictAny _ _ _ ⟨.seq .tuple [.int 3, .int 4], by simp, trivial⟩ ex_kv rfl ?_ ?_
  · intro v hv
    simp only [List.mem_cons, List.not_mem_nil, or_false] at hv
    rcases hv with rfl | rfl
    · exact .str _ (ex_goodText _ (by decide))
    · refine .seq _ _ (by intro h; cases h) ?_
      intro e he
      simp only [List.mem_cons, List.not_mem_nil, or_false] at he
      rcases he with rfl | rfl
      · exact .int _
      · exact .int _
  · intro v hv
    simp only [List.mem_cons, List.not_mem_nil, or_false] at hv
    rcases hv with rfl | rfl
    · exact .float _
    · exact ex_good_dict

example : ExWrites exDict ∧ ExWrites exDictAny :=
  ⟨ex_writes _ (by decide +kernel) (by decide +kernel), ex_writes _ (by decide +kernel) (by decide +kernel)⟩

/-- F4: the keys 'a' and b'a' are stored under the same name; the first value is lost. -/
theorem C31_counterexample : ∃ v F', v = .dict .dict [.str p!"a", .bytes p!"a"] [.int 1, .int 2] ∧
    WroteNew exX 10 exF (.str p!"/x/y") [p!"x", p!"y"] v F' ∧
    fileRead exX 10 (.str p!"/x/y") F' = .ok (.dict .dict [.str p!"a", .bytes p!"a"] [.int 2, .int 2]) :=
  ⟨_, _, rfl, ex_wrote _ (by decide +kernel) (by decide +kernel), eq_of_isVal (by decide +kernel)⟩

/-- C32. Values nested to any depth: list, tuple, set, frozenset, deque, ChainMap, object arrays, dicts and the other objects, of values that survive themselves
(`Good` is defined by recursion over all of them).  The type, length and order of all of them is kept, since the value read is the same. -/
theorem C32_any_depth {x : Ctx} (ho : RtOpts x.o) {n : Nat} {F F' : FileS} {p : PathArg} {ns : List Str} (v : Val) (hv : Good x.o v)
    (hw : WroteNew x n F p ns v F') : ReadsBack x n F'.st.heap ns v := file_rt ho hw hv

/-- C32 for the sequences. -/
theorem C32_sequences {x : Ctx} (ho : RtOpts x.o) {n : Nat} {F F' : FileS} {p : PathArg} {ns : List Str} (k : SeqKind) (elems : List Val)
    (hk : k = .chainMap → elems ≠ []) (he : ∀ e ∈ elems, Good x.o e) (hw : WroteNew x n F p ns (.seq k elems) F') :
    ReadsBack x n F'.st.heap ns (.seq k elems) := file_rt ho hw (.seq k elems hk he)

/-- A value with several levels. -/
def exDeep : Val := .seq .list [.seq .frozenset [.seq .deque [], .bytes p!"x"], exDictAny,
  .npObj .ndarray [2, 1] [.seq .chainMap [exDict], .record .slice [.int 1, .none, .ellipsis]]]

theorem ex_good_deep : Good exX.o exDeep := by
  refine .seq _ _ (by intro h; cases h) ?_
  intro v hv
  simp only [List.mem_cons, List.not_mem_nil, or_false] at hv
  rcases hv with rfl | rfl | rfl
  · refine .seq _ _ (by intro h; cases h) ?_
    intro v hv
    simp only [List.mem_cons, List.not_mem_nil, or_false] at hv
    rcases hv with rfl | rfl
    · exact .seq _ _ (by intro h; cases h) (fun _ h => by cases h)
    · exact .bytes _ (by simp [GoodBytes])
  · exact ex_good_dictAny
  · refine .npObj _ _ _ (Or.inl rfl) rfl ?_
    intro v hv
    simp only [List.mem_cons, List.not_mem_nil, or_false] at hv
    rcases hv with rfl | rfl
    · refine .seq _ _ (fun _ => by simp) ?_
      intro v hv
      simp only [List.mem_cons, List.not_mem_nil, or_false] at hv
      subst hv; exact ex_good_dict
    · refine .record _ _ rfl ?_
      intro v hv
      simp only [List.mem_cons, List.not_mem_nil, or_false] at hv
      rcases hv with rfl | rfl | rfl
      · exact .int _
      · exact .none
      · exact .ellipsis

example : ExWrites exDeep := ex_writes _ (by decide +kernel) (by decide +kernel)

/-- C33. slice, range, timedelta, timezone, date, time, datetime and Fraction with parts that survive themselves (the parts are ints, strs, None, timezones and
timedeltas), and Counter. -/
theorem C33_records {x : Ctx} (ho : RtOpts x.o) {n : Nat} {F F' : FileS} {p : PathArg} {ns : List Str} (k : RecKind) (parts : List Val)
    (hl : parts.length = (recordFields k).length) (hp : ∀ v ∈ parts, Good x.o v) (hw : WroteNew x n F p ns (.record k parts) F') :
    ReadsBack x n F'.st.heap ns (.record k parts) := file_rt ho hw (.record k parts hl hp)

/-- C33 for Counter, which is a dict of ints. -/
theorem C33_counter {x : Ctx} (ho : RtOpts x.o) {n : Nat} {F F' : FileS} {p : PathArg} {ns : List Str} (keys : List Val) (counts : List Int)
    (hl : counts.length = keys.length) (hk : (∃ texts, All2 KeyText keys texts ∧ texts.Nodup) ∨ ((∃ k ∈ keys, NotTextKey k) ∧ KvNames x.o ∧ ∀ k ∈ keys, Good x.o k))
    (hw : WroteNew x n F p ns (.dict .counter keys (counts.map .int)) F') : ReadsBack x n F'.st.heap ns (.dict .counter keys (counts.map .int)) := by
  refine C31_dict_partial ho .counter keys _ (by simpa using hl) ?_ hk hw
  intro v hv
  obtain ⟨i, _, rfl⟩ := List.mem_map.mp hv
  exact .int i

example : ExWrites (.record .datetime [.int 2020, .int 1, .int 2, .int 3, .int 4, .int 5, .int 6, .record .timezone2 [.record .timedelta [.int 0, .int 3600, .int 0], .str p!"X"]]) ∧
    ExWrites (.dict .counter [.str p!"a", .int 5] ([3, -1].map .int)) :=
  ⟨ex_writes _ (by decide +kernel) (by decide +kernel), ex_writes _ (by decide +kernel) (by decide +kernel)⟩

/-- C34. None, Ellipsis and NotImplemented. -/
theorem C34_singletons {x : Ctx} (ho : RtOpts x.o) {n : Nat} {F F' : FileS} {p : PathArg} {ns : List Str} (v : Val)
    (hv : v = .none ∨ v = .ellipsis ∨ v = .notImplemented) (hw : WroteNew x n F p ns v F') : ReadsBack x n F'.st.heap ns v := by
  refine file_rt ho hw ?_
  rcases hv with rfl | rfl | rfl
  · exact .none
  · exact .ellipsis
  · exact .notImplemented

example : ExWrites .none ∧ ExWrites .ellipsis ∧ ExWrites .notImplemented :=
  ⟨ex_writes _ (by decide +kernel) (by decide +kernel), ex_writes _ (by decide +kernel) (by decide +kernel),
    ex_writes _ (by decide +kernel) (by decide +kernel)⟩

end HS
