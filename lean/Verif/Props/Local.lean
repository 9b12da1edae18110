import Verif.Props.RoundTrip
import Verif.Lemmas.Away
/-
C35: writes are local.
-/
namespace HS
open Spec

theorem good_off {o : COpts} (hr : RefsPathOk o) {p : PathArg} {ms : List Str} (ha : Addr p ms) (hne : ms ≠ []) (hh : ms.head? ≠ (hdf5Names o.refsPath).head?) : OffRefs o ms :=
  ⟨addr_plain ha, hne, hr.notRoot, hh⟩

theorem open_of_later {x : Ctx} {n : Nat} {ops : List Op} {F : FileS} (h : (fileOps x n ops F).2.isOpen = true) : F.isOpen = true := by
  cases hF : F.isOpen with
  | true => rfl
  | false =>
    have : ∀ (ops : List Op) (G : FileS), G.isOpen = false → (fileOps x n ops G).2 = G := by
      intro ops
      induction ops with
      | nil => intro G _; rfl
      | cons op ops ih =>
        intro G hG
        rw [fileOps, closed_same hG op]
        exact ih G hG
    rw [this ops F hF, hF] at h
    cases h

theorem pair_of_fst {α β : Type} {p : α × β} {a : α} (h : p.1 = a) : p = (a, p.2) := by rw [← h]

/-- C35. Whatever is called on a `File` in any state it can be in, successfully or not, as long as nothing is written to or deleted at, above or below the place
`ms`: there is something at `ms` afterwards if and only if there was before, and reading it gives exactly the same, a value or an exception.  What is stored at
`ms` must not refer to other places of the file than the references Group (otherwise see `C35_counterexample`). -/
theorem C35_local {x : Ctx} (hr : RefsPathOk x.o) (hn : NamesOk x.o) {n : Nat} {F : FileS} (hF : Reach x F) {ops : List Op} {q : PathArg} {ms : List Str} (hq : Addr q ms)
    (hne : ms ≠ []) (hh : ms.head? ≠ (hdf5Names x.o.refsPath).head?) (hel : ∀ op ∈ ops, Elsewhere x.o op ms) :
    (Exists (fileOps x n ops F).2.st.heap ms ↔ Exists F.st.heap ms) ∧
    (SelfContained x.o F.st.heap ms → Exists F.st.heap ms → (fileOps x n ops F).2.isOpen = true → ∀ m, fileRead x m q (fileOps x n ops F).2 = fileRead x m q F) := by
  have hms := good_off hr hq hne hh
  obtain ⟨aw, _⟩ := fileOps_away (n := n) hr hn hF hms hel
  refine ⟨⟨fun ⟨p, hp⟩ => ⟨p, (aw.path p).mp hp⟩, fun ⟨p, hp⟩ => ⟨p, (aw.path p).mpr hp⟩⟩, ?_⟩
  rintro hs ⟨p, hp⟩ ho m
  rcases snoc_cases ms with rfl | ⟨l, t, rfl⟩
  · exact absurd rfl hne
  obtain ⟨gs, c1, rfl⟩ := addr_check hr hms hq
  have hd : t ≠ [dot] := hms.plain t (by simp)
  rw [fileRead_eq, fileRead_eq, c1]
  dsimp only
  rw [ho, open_of_later ho, readOne_at hd hp, readOne_at hd ((aw.path p).mpr hp), away_reads aw hms hs hp]

/-- What is stored at a place without references in it is self-contained. -/
theorem C35_no_references {o : COpts} {h : Heap} (ht : Tree h) {ms : List Str}
    (hno : ∀ l p a f at' q, LPath h (ms ++ l) p → h[p]? = some ⟨at', .dset a f⟩ → El.ref q ∉ a.data) : SelfContained o h ms := by
  intro q p hq hp
  have key : ∃ l, LPath h (ms ++ l) p := by
    induction hp with
    | refl => exact ⟨[], by simpa using hq⟩
    | @step p r ob _ ho hh ih =>
      obtain ⟨l, hl⟩ := ih
      obtain ⟨at', b⟩ := ob
      cases b with
      | dset a f => exact absurd hh.2 (hno l p a f at' r hl ho)
      | group g =>
        obtain ⟨k, hk⟩ := hh
        refine ⟨l ++ [k], ?_⟩
        rw [← List.append_assoc]
        refine .snoc hl ?_
        unfold LinkAt linksOf
        rw [ho]; exact hk
  obtain ⟨l, hl⟩ := key
  refine ⟨lpath_lt ht hl, fun l' hl' => Or.inl ?_⟩
  rw [hl'.unique ht hl]
  exact List.prefix_append _ _

/-- No references in the object, for examples. -/
def exNoRefs (o : Obj) : Bool := match o.body with
  | .group _ => true
  | .dset a _ => a.data.all fun e => match e with
    | .ref _ => false
    | _ => true

theorem ex_selfContained {o : COpts} {h : Heap} (ht : Tree h) (hn : h.all exNoRefs = true) (ms : List Str) : SelfContained o h ms := by
  refine C35_no_references ht ?_
  intro l p a f at' q _ hp hq
  have h1 := List.all_eq_true.mp hn _ (List.mem_of_getElem? hp)
  have h2 := List.all_eq_true.mp h1 _ hq
  cases h2

theorem ex_xy : Reach exX (exWritten (.int 7)) := .wrote 10 [(.str p!"/x/y", .int 7)] ex_reach (by
  intro pv hpv ha
  simp only [List.mem_singleton] at hpv
  subst hpv
  have := addr_unique ha ⟨p!"/x", p!"y", by decide, rfl⟩
  revert this; decide)

theorem ex_xy_exists : Exists (exWritten (.int 7)).st.heap [p!"x", p!"y"] :=
  ⟨2, lpath_resolve (by intro c hc; simp only [List.mem_cons, List.not_mem_nil, or_false] at hc; rcases hc with rfl | rfl <;> decide) (by decide +kernel)⟩

theorem ex_elsewhere (g t : Str) (p : PathArg) (ms : List Str) (h : processPath p = .ok (g, t)) (hd : ¬ (hdf5Names g ++ hdf5Names t) <+: ms ∧ ¬ ms <+: (hdf5Names g ++ hdf5Names t)) :
    ∀ ns, Addr p ns → Apart ns ms := by
  intro ns ha
  rw [addr_unique ha ⟨g, t, h, rfl⟩]
  exact hd

-- Another value is written next to it, a list elsewhere, something is deleted, and something fails: it reads the same.
example : let ops := [Op.write (.str p!"/x/z") (.str p!"s"), .write (.str p!"w") (.seq .list [.int 1, .none]), .del (.str p!"w"), .write (.str p!"/u/v") .other,
      .del (.str p!"nothing")]
    Reach exX (exWritten (.int 7)) ∧ (∀ op ∈ ops, Elsewhere exX.o op [p!"x", p!"y"]) ∧ SelfContained exX.o (exWritten (.int 7)).st.heap [p!"x", p!"y"] ∧
    Exists (exWritten (.int 7)).st.heap [p!"x", p!"y"] ∧ (fileOps exX 10 ops (exWritten (.int 7))).2.isOpen = true ∧
    (fileOps exX 10 ops (exWritten (.int 7))).1.map raised = [none, none, none, some .notImplemented, some .keyError] ∧
    (fileOps exX 10 ops (exWritten (.int 7))).2.st.heap ≠ (exWritten (.int 7)).st.heap := by
  refine ⟨ex_xy, ?_, ex_selfContained (reach_keep ⟨rfl, by decide⟩ (Spec.RtOpts.names ex_rtOpts) ex_xy).2 (by decide +kernel) _, ex_xy_exists, by decide +kernel, by decide +kernel,
    by decide +kernel⟩
  intro op hop
  simp only [List.mem_cons, List.not_mem_nil, or_false] at hop
  rcases hop with rfl | rfl | rfl | rfl | rfl
  · exact ex_elsewhere p!"/x" p!"z" _ _ (by decide) (by decide)
  · exact ex_elsewhere p!"/" p!"w" _ _ (by decide) (by decide)
  · refine fun ns ha => ⟨ex_elsewhere p!"/" p!"w" _ _ (by decide) (by decide) ns ha, ?_⟩
    rw [addr_unique ha ⟨p!"/", p!"w", by decide, rfl⟩]; decide
  · exact ex_elsewhere p!"/u" p!"v" _ _ (by decide) (by decide)
  · refine fun ns ha => ⟨ex_elsewhere p!"/" p!"nothing" _ _ (by decide) (by decide) ns ha, ?_⟩
    rw [addr_unique ha ⟨p!"/", p!"nothing", by decide, rfl⟩]; decide

/-- C35. A value that was written to an unused place reads back as long as nothing is written to or deleted at, above or below its place, whatever else is called. -/
theorem C35_written_stays {x : Ctx} (hR : RtOpts x.o) {n : Nat} {F F' : FileS} {p : PathArg} {ns : List Str} {v : Val} (hw : WroteNew x n F p ns v F') (hv : Good x.o v)
    {k : Nat} {ops : List Op} (hel : ∀ op ∈ ops, Elsewhere x.o op ns) : ReadsBack x n (fileOps x k ops F').2.st.heap ns v := by
  have hN := Spec.RtOpts.names hR
  obtain ⟨gs, t, s1, g, ob, w⟩ := wrote_run hN ⟨hw.refs, hw.reach, hw.rw, hw.addr, hw.notRoot, hw.ok⟩
  have hF' : Reach x F' := by
    have := Reach.wrote n [(p, v)] hw.reach (by
      intro pv hpv ha
      simp only [List.mem_singleton] at hpv
      subst hpv
      exact hw.notRoot (addr_unique hw.addr ha))
    have h2 : (fileWrites x n [(p, v)] F).2 = F' := congrArg Prod.snd hw.ok
    rwa [h2] at this
  have hst : StoredAt x n F'.st.heap ns v := by
    have hrun : writeOne x n (gs, t) v F.st = (.ok ob, F'.st) := by
      unfold writeOne
      exact (run_bind_ok w.req).trans w.run
    have := writeOne_stored hR w.inv0 w.tree0 (w.names ▸ w.off) (w.names ▸ hw.free) hw.draws hv hrun
    rwa [← w.names] at this
  exact (hst.away (fileOps_away (n := k) hw.refs hN hF' w.off hel).1).readsBack hw.refs w.off

-- The same example: the value is still there.
example : ∃ (F' : FileS) (ops : List Op), WroteNew exX 10 exF (.str p!"/x/y") [p!"x", p!"y"] (.seq .list [.int 7, .str p!"s"]) F' ∧ Good exX.o (.seq .list [.int 7, .str p!"s"]) ∧
    (∀ op ∈ ops, Elsewhere exX.o op [p!"x", p!"y"]) ∧ ops.length = 2 := by
  refine ⟨_, [.write (.str p!"/x/z") (.seq .list [.int 1]), .writes [(.str p!"/v", .int 3)]], ex_wrote _ (by decide +kernel) (by decide +kernel),
    .seq .list _ (fun h => nomatch h) (fun v hv => ?_), ?_, rfl⟩
  · simp only [List.mem_cons, List.not_mem_nil, or_false] at hv
    rcases hv with rfl | rfl
    · exact .int 7
    · exact .str _ ⟨⟨by decide, by intro c h; cases h; decide⟩, by decide⟩
  · intro op hop
    simp only [List.mem_cons, List.not_mem_nil, or_false] at hop
    rcases hop with rfl | rfl
    · exact ex_elsewhere p!"/x" p!"z" _ _ (by decide) (by decide)
    · intro pv hpv
      simp only [List.mem_singleton] at hpv
      subst hpv
      exact ex_elsewhere p!"/" p!"v" _ _ (by decide) (by decide)

/-- C35, C33. Several values written with one call of `writes` to unused places none of which is above or below another one: every one reads back. -/
theorem C35_several {x : Ctx} (hR : RtOpts x.o) (hp : RefsPathOk x.o) {n : Nat} {F F' : FileS} (hF : Reach x F) (hrw : F.ro = false) {items : List (PathArg × List Str × Val)}
    (ha : ∀ i ∈ items, Addr i.1 i.2.1 ∧ i.2.1 ≠ [] ∧ ¬ Exists F.st.heap i.2.1 ∧ Good x.o i.2.2) (hap : items.Pairwise fun a b => Apart a.2.1 b.2.1)
    (hd : DistinctDraws x F.st.rpos F'.st.rpos) (h : fileWrites x n (items.map fun i => (i.1, i.2.2)) F = (.ok (), F')) :
    ∀ i ∈ items, ReadsBack x n F'.st.heap i.2.1 i.2.2 := by
  obtain ⟨hi, ht⟩ := reach_keep hp (Spec.RtOpts.names hR) hF
  unfold fileWrites at h
  split at h
  · cases h
  cases hc : checkItems x.o.refsPath (items.map fun i => (i.1, i.2.2)) with
  | error e => rw [hc] at h; cases h
  | ok tw =>
    rw [hc] at h
    dsimp only at h
    split at h
    · cases h
    rw [runFile_rw _ hrw] at h
    have h1 : (writeMany x n tw F.st).1 = .ok () := congrArg Prod.fst h
    have h2 : F'.st = (writeMany x n tw F.st).2 := congrArg (fun r => r.2.st) h.symm
    have hm : writeMany x n tw F.st = (.ok (), F'.st) := by rw [h2, ← h1]
    -- the processed items correspond to the items
    have hz : All2 (fun i e => OffRefs x.o i.2.1 ∧ i.2.1 = commonComps e.1.1 ++ [e.1.2] ∧ i.2.2 = e.2) items tw := by
      have := checkItems_mem hc
      clear hm h h2 h1 hd hc hap
      induction items generalizing tw with
      | nil => cases this; exact .nil
      | cons i items ih =>
        cases this with
        | cons a b =>
          obtain ⟨a1, a2⟩ := a
          obtain ⟨c1, c2, c3⟩ := checkPath_off hp a1
          obtain ⟨d1, d2, _⟩ := ha i (by simp)
          obtain ⟨o1, o2⟩ := c2 fun hd => d2 (addr_unique d1 (c3 hd))
          have := addr_unique d1 ⟨_, _, c1, o2.symm⟩
          exact .cons ⟨this ▸ o1, this, a2⟩ (ih (fun i hi => ha i (by simp [hi])) _ b)
    have hst := writeMany_stored hR hi ht (l := tw) (s' := F'.st) (by
      intro e he
      obtain ⟨i, hi, o1, o2, o3⟩ := all2_right hz e he
      obtain ⟨_, _, d3, d4⟩ := ha i hi
      exact ⟨o2 ▸ o1, o2 ▸ d3, o3 ▸ d4⟩) (by
      clear hm h h2 h1 hd hc ha
      induction hz with
      | nil => exact .nil
      | cons a b ih =>
        obtain ⟨p1, p2⟩ := List.pairwise_cons.mp hap
        refine List.pairwise_cons.mpr ⟨?_, ih p2⟩
        intro e he
        obtain ⟨i, hi, _, o2, _⟩ := all2_right b e he
        have := p1 i hi
        rw [a.2.1, o2] at this
        exact this) hd hm
    intro i hi
    obtain ⟨e, he, o1, o2, o3⟩ := all2_left hz i hi
    have := (hst e he).readsBack hp (o2 ▸ o1)
    rw [o2, o3]
    exact this

-- Two values, one in a new Group.
example : ∃ (items : List (PathArg × List Str × Val)) (F' : FileS), items.length = 2 ∧ (∀ i ∈ items, Addr i.1 i.2.1 ∧ i.2.1 ≠ [] ∧ ¬ Exists exF.st.heap i.2.1 ∧ Good exX.o i.2.2) ∧
    (items.Pairwise fun a b => Apart a.2.1 b.2.1) ∧ DistinctDraws exX exF.st.rpos F'.st.rpos ∧ fileWrites exX 10 (items.map fun i => (i.1, i.2.2)) exF = (.ok (), F') := by
  refine ⟨[(.str p!"/a", [p!"a"], .seq .list [.int 7, .int 8]), (.str p!"/b/c", [p!"b", p!"c"], .int 3)],
    (fileWrites exX 10 [(.str p!"/a", .seq .list [.int 7, .int 8]), (.str p!"/b/c", .int 3)] exF).2, rfl, ?_, by simp [Apart], ?_, ?_⟩
  · intro i hi
    simp only [List.mem_cons, List.not_mem_nil, or_false] at hi
    rcases hi with rfl | rfl
    · refine ⟨⟨p!"/", p!"a", by decide, by decide⟩, by simp, ex_free _ (by simp), .seq .list _ (fun h => nomatch h) (fun v hv => ?_)⟩
      simp only [List.mem_cons, List.not_mem_nil, or_false] at hv
      rcases hv with rfl | rfl
      · exact .int 7
      · exact .int 8
    · exact ⟨⟨p!"/b", p!"c", by decide, by decide⟩, by simp, ex_free _ (by simp), .int 3⟩
  · have : (fileWrites exX 10 [(.str p!"/a", .seq .list [.int 7, .int 8]), (.str p!"/b/c", .int 3)] exF).2.st.rpos = 0 := by decide +kernel
    intro i j _ _ h3
    rw [this] at h3; omega
  · have : (fileWrites exX 10 [(.str p!"/a", .seq .list [.int 7, .int 8]), (.str p!"/b/c", .int 3)] exF).1 = .ok () := by decide +kernel
    exact pair_of_fst this

/-- A file with an array of references to another place, as other programs may make them. -/
def exLinked : FileS := FileS.new [⟨[], .group [(p!"a", 1), (p!"b", 2)]⟩, ⟨[], .dset ⟨.ref, [1], [.ref 2]⟩ ⟨none, none, false, false, false⟩⟩,
  ⟨[], .dset ⟨.i64, [1, 1], [.num 5]⟩ ⟨none, some none, false, false, false⟩⟩] true

def exLinkedW : FileS := (fileWrite exX 10 (.str p!"/b") (.np .ndarray ⟨.i64, [1, 1], [.num 6]⟩) exLinked).2

/-- Without this condition it is not so: an array of references to `/b` at `/a`, and what is read at `/a` changes with a write to `/b`. -/
theorem C35_counterexample : fileRead exX 10 (.str p!"/a") exLinked = .ok (.npObj .ndarray [1] [.np .ndarray ⟨.i64, [1, 1], [.num 5]⟩]) ∧
    fileRead exX 10 (.str p!"/a") exLinkedW = .ok (.npObj .ndarray [1] [.np .ndarray ⟨.i64, [1, 1], [.num 6]⟩]) :=
  ⟨eq_of_isVal (by decide +kernel), eq_of_isVal (by decide +kernel)⟩

end HS
