import Verif.Lemmas.OverFile
import Verif.Props.Storage
import Verif.Props.Struct
/-
C57: what is written over something else reads back.
-/
namespace HS
open Spec

/-- C57 (partial). A value reads back although it was written to a place that was in use, after any sequence of such writes with other operations elsewhere in
between, for every option setting with Python metadata, if each value can be written over the one before (`Overwrites`).  Missing: values of another type whose
Dataset or Group is not replaced, whose stale attributes then remain (finding F3, see `C57_counterexample` and the others); and, without deletion of unused members,
dicts with fewer keys, whose old members remain. -/
theorem C57_overwritten_partial {x : Ctx} (ho : RtOpts x.o) {N : Nat} {ns : List Str} {F : FileS} {v : Val} (h : LastWritten x N ns F v) : ReadsBack x N F.st.heap ns v := by
  obtain ⟨h1, _, h3, h4, _, q, S, h5, _, h7, h8⟩ := lastWritten_out ho h
  exact StoredAt.readsBack ⟨h4, q, S, h5, h7, h8⟩ h1 h3

/-- C57 (partial). The simplest case: written once to an unused place, and once more. -/
theorem C57_twice_partial {x : Ctx} (ho : RtOpts x.o) {n : Nat} {ns : List Str} {F F1 F2 : FileS} {p q : PathArg} {v w : Val} (h1 : WroteNew x n F p ns v F1)
    (h2 : Wrote x n F1 q ns w F2) (hv : Good x.o v) (hw : Good x.o w) (hov : Overwrites x.o v w) (hd : DistinctDraws x F1.st.rpos F2.st.rpos) :
    ReadsBack x n F2.st.heap ns w :=
  C57_overwritten_partial ho (.over (.new h1 hv (Nat.le_refl _)) h2 hov hw (Nat.le_refl _) hd)

/-- Files for examples: `v` is written to /x/y, and `w` over it. -/
def exOver1 (x : Ctx) (v : Val) : Res Unit × FileS := fileWrite x 10 (.str p!"/x/y") v exF
def exOver2 (x : Ctx) (v w : Val) : Res Unit × FileS := fileWrite x 10 (.str p!"/x/y") w (exOver1 x v).2
/-- Both writes succeed and nothing random is drawn. -/
def exOverOk (x : Ctx) (v w : Val) : Prop :=
  (exOver1 x v).1 = .ok () ∧ (exOver2 x v w).1 = .ok () ∧ (exOver1 x v).2.ro = false ∧ (exOver1 x v).2.st.rpos = 0 ∧ (exOver2 x v w).2.st.rpos = 0

instance (x : Ctx) (v w : Val) : Decidable (exOverOk x v w) := by unfold exOverOk; exact inferInstance

theorem ex_over {v w : Val} (h : exOverOk exX v w) (hv : Good exX.o v) (hw : Good exX.o w) (hov : Overwrites exX.o v w) :
    LastWritten exX 10 [p!"x", p!"y"] (exOver2 exX v w).2 w := by
  obtain ⟨h1, h2, h3, h4, h5⟩ := h
  have w1 := ex_wrote v h1 h4
  refine .over (.new w1 hv (Nat.le_refl _)) (p := .str p!"/x/y") ⟨w1.refs, wrote_reach ⟨w1.refs, w1.reach, w1.rw, w1.addr, w1.notRoot, w1.ok⟩, h3, w1.addr, w1.notRoot, ?_⟩ hov hw
    (Nat.le_refl _) (by intro i j _ _ h; rw [h5] at h; omega)
  rw [← h2]; rfl

-- A number over another of a different type.
example : LastWritten exX 10 [p!"x", p!"y"] (exOver2 exX (.bool true) (.float 5)).2 (.float 5) :=
  ex_over (by decide +kernel) (.bool _) (.float _) (.numbers _ _ (.bool _) (.float _))

-- Lists of different lengths.
example : LastWritten exX 10 [p!"x", p!"y"] (exOver2 exX (.seq .list [.int 1, .none]) (.seq .list [.bool false])).2 (.seq .list [.bool false]) := by
  refine ex_over (by decide +kernel) (.seq _ _ (by simp) ?_) (.seq _ _ (by simp) ?_) (.seqs _ _ _)
  · intro e he
    simp only [List.mem_cons, List.not_mem_nil, or_false] at he
    rcases he with rfl | rfl
    · exact .int _
    · exact .none
  · intro e he
    rw [List.mem_singleton] at he
    subst he
    exact .bool _

/-- The dict `{'a': 1, 'b': 2}`. -/
def exAB : Val := .dict .dict [.str p!"a", .str p!"b"] [.int 1, .int 2]
/-- The dict `{'b': {}}`. -/
def exBD : Val := .dict .dict [.str p!"b"] [.dict .dict [] []]

theorem ex_goodAB : Good exX.o exAB := by
  refine .dictText _ _ _ [p!"a", p!"b"] (.cons (.str _) (.cons (.str _) .nil)) (by decide) rfl ?_
  intro e he
  simp only [List.mem_cons, List.not_mem_nil, or_false] at he
  rcases he with rfl | rfl <;> exact .int _

theorem ex_goodBD : Good exX.o exBD := by
  refine .dictText _ _ _ [p!"b"] (.cons (.str _) .nil) (by decide) rfl ?_
  intro e he
  rw [List.mem_singleton] at he
  subst he
  exact .dictText _ _ _ [] .nil (by decide) rfl (fun _ h => by cases h)

theorem ex_overAB : Overwrites exX.o exAB exBD := by
  refine .fields (ts := [p!"a", p!"b"]) (us := [p!"b"]) (.dict ..) (.dict _ _ _ _ (.cons (.str _) (.cons (.str _) .nil)) rfl) (.dict _ _ _ _ (.cons (.str _) .nil) rfl)
    (Or.inl ?_) (Or.inl rfl) ?_
  · intro k hk
    rw [List.mem_singleton] at hk
    exact ⟨_, hk⟩
  · intro t a b ha hb
    simp only [List.zip_cons_cons, List.zip_nil_right, List.mem_singleton, Prod.mk.injEq] at hb
    obtain ⟨rfl, rfl⟩ := hb
    simp only [List.zip_cons_cons, List.zip_nil_right, List.mem_cons, List.not_mem_nil, or_false, Prod.mk.injEq] at ha
    rcases ha with ⟨h, _⟩ | ⟨_, rfl⟩
    · exact absurd h (by decide)
    · exact .toMapping (by exact trivial) (by exact trivial)

-- A dict over another with other keys, one of them in common; then a flush and a write elsewhere.
example : LastWritten exX 10 [p!"x", p!"y"] (fileOps exX 10 [.flush, .write (.str p!"/z") (.int 3)] (exOver2 exX exAB exBD).2).2 exBD := by
  refine .other 10 (.write (.str p!"/z") (.int 3)) (.other 10 .flush (ex_over (by decide +kernel) ex_goodAB ex_goodBD ex_overAB) (by exact trivial)) ?_
  intro ns hns
  rw [addr_unique hns (b := [p!"z"]) ⟨p!"/", p!"z", by decide, by decide⟩]
  exact ⟨by decide, by decide⟩

-- A structured array over a number.
example : LastWritten exX 10 [p!"x", p!"y"] (exOver2 exX (.int 1) exStruct).2 exStruct :=
  ex_over (by decide +kernel) (.int _) ex_structGood.2 (.toStruct _ _ _ _ _ rfl (by decide) (by exact trivial))

/-- Written to /x/y one after the other, both times with success, what is read then is not the second value. -/
def ReadsStale (o : COpts) (v w u : Val) : Prop :=
  (exOver1 ⟨o, exX.rng, 5⟩ v).1 = .ok () ∧ (exOver2 ⟨o, exX.rng, 5⟩ v w).1 = .ok () ∧ fileRead ⟨o, exX.rng, 5⟩ 10 (.str p!"/x/y") (exOver2 ⟨o, exX.rng, 5⟩ v w).2 = .ok u ∧ u ≠ w

/-- F3: a tuple over a list reads back as list; `{1: 2}` over `{'a': 1}` as `{'keys': (1,), 'values': (2,)}`; bytes over a str as str; a bool over a numpy uint8 as
uint8; `{b'c': 3}` over `{'a': 1, 'b': 2}` as `{'c': 3}`. -/
theorem C57_counterexample :
    ReadsStale exOpts (.seq .list [.int 1]) (.seq .tuple [.int 1]) (.seq .list [.int 1]) ∧
    ReadsStale exOpts (.dict .dict [.str p!"a"] [.int 1]) (.dict .dict [.int 1] [.int 2]) (.dict .dict [.str p!"keys", .str p!"values"] [.seq .tuple [.int 1], .seq .tuple [.int 2]]) ∧
    ReadsStale exOpts (.str p!"abc") (.bytes p!"abc") (.str p!"abc") ∧
    ReadsStale exOpts (.np .scalar ⟨.u8, [], [.num 1]⟩) (.bool true) (.np .scalar ⟨.u8, [], [.num 1]⟩) ∧
    ReadsStale exOpts exAB (.dict .dict [.bytes p!"c"] [.int 3]) (.dict .dict [.str p!"c"] [.int 3]) := by
  refine ⟨?_, ?_, ?_, ?_, ?_⟩ <;> exact ⟨by decide +kernel, by decide +kernel, eq_of_isVal (by decide +kernel), by intro h; cases h⟩

/-- Without deletion of unused members a dict with fewer keys reads back with the old ones. -/
theorem C57_counterexample_unused : ReadsStale { exOpts with deleteUnused := false, matlab := false } exAB (.dict .dict [.str p!"a"] [.int 3])
    (.dict .dict [.str p!"a", .str p!"b"] [.int 3, .int 2]) :=
  ⟨by decide +kernel, by decide +kernel, eq_of_isVal (by decide +kernel), by intro h; cases h⟩

end HS
