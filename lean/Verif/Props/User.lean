import Verif.Lemmas.UserMore
import Verif.Props.Local
import Verif.Props.Struct
/-
C71, C72: objects of a user's own types, written and read by a marshaller of the user's.
-/
namespace HS
open Spec
variable {α : Type}

theorem wroteUser_reach {S : Setup α} {x : Ctx} {n : Nat} {F F' : FileS} {p : PathArg} {ns : List Str} {a : α} (hw : WroteUser S x n F p ns a F') : ReachUser α x F' := by
  have := ReachUser.user S n p a hw.reach fun h => hw.notRoot (addr_unique hw.addr h)
  rwa [hw.ok] at this

/-- C71. An object written by a marshaller of the user's reads back as the object the marshaller makes of what it handed to its parent, as long as nothing is written to or
deleted at, above or below its place: in the same session or later, with any marshallers among which the same one is the one for its type string (`T`), whatever else
is in the file.  So it is the same object if the marshaller's own conversions are inverse to each other. -/
theorem C71_round_trip {x : Ctx} (hR : RtOpts x.o) {S : Setup α} {n : Nat} {F F' : FileS} {p : PathArg} {ns : List Str} {a : α} (hw : WroteUser S x n F p ns a F')
    {pl : Plugin α} {ts : Str} (hS : WritesAs S pl a ts) (hv : Payload x.o pl.parent (pl.down a)) {T : Setup α} (hT : Claims T pl ts) (hy : T.ready pl = true)
    {U : Setup α} {k : Nat} {ops : List (UserOp α)} (hel : ∀ op ∈ ops, ElsewhereUser x.o op ns) :
    ReadsUser T x n (userOps U x k ops F').st.heap ns (pl.down a) ((pl.up ts (handedBack pl.parent (pl.down a))).map UVal.user) := by
  obtain ⟨j, rfl, ho, hu⟩ := wroteUser_stored hR hw hS hv
  have aw := (userOps_away (S := U) (n := k) hw.refs (Spec.RtOpts.names hR) (wroteUser_reach hw) ho hel).1
  refine (hu.away aw).reads hw.refs ho ?_
  rintro o V excl m q ob' h1 h2 ⟨mc, h3⟩ h4 _
  unfold userReadData
  dsimp only
  rw [h1]
  dsimp only
  rw [h2]
  show (match (some ts).bind T.reader, some ts with | some pl, some ts => _ | _, _ => _ : Res (UVal α)) = _
  rw [Option.bind_some, claims_reader hT]
  dsimp only
  rw [h3]
  show (if T.ready pl = true then _ else _ : Res (UVal α)) = _
  rw [if_pos hy, h4]
  show ((pl.up ts (handedBack pl.parent (pl.down a))) >>= fun b => Except.ok (UVal.user b)) = _
  cases pl.up ts (handedBack pl.parent (pl.down a)) <;> rfl

/-- C71, with conversions that are inverse to each other. -/
theorem C71_same {x : Ctx} (hR : RtOpts x.o) {S : Setup α} {n : Nat} {F F' : FileS} {p : PathArg} {ns : List Str} {a : α} (hw : WroteUser S x n F p ns a F')
    {pl : Plugin α} {ts : Str} (hS : WritesAs S pl a ts) (hv : Payload x.o pl.parent (pl.down a)) (hup : pl.up ts (handedBack pl.parent (pl.down a)) = .ok a) {T : Setup α}
    (hT : Claims T pl ts) (hy : T.ready pl = true) {U : Setup α} {k : Nat} {ops : List (UserOp α)} (hel : ∀ op ∈ ops, ElsewhereUser x.o op ns) :
    ReadsUser T x n (userOps U x k ops F').st.heap ns (pl.down a) (.ok (.user a)) := by
  have := C71_round_trip hR hw hS hv hT hy (U := U) (k := k) hel
  rwa [hup] at this

/-- C71. Values of the builtin types, written before or after objects of the user's types, read back the same with the user's marshallers present, provided none of them
claims the documented type string of the value or the builtin ones have priority. -/
theorem C71_others {x : Ctx} (hR : RtOpts x.o) {n : Nat} {F F' : FileS} {p : PathArg} {ns : List Str} {v : Val} (hw : WroteAmong α x n F p ns v F') (hv : Good x.o v) {t : Str}
    (hty : PyType v t) {T : Setup α} (hT : T.first = false ∨ ∀ p ∈ T.plugins, t ∉ p.tables.typeStrings) {U : Setup α} {k : Nat} {ops : List (UserOp α)}
    (hel : ∀ op ∈ ops, ElsewhereUser x.o op ns) : ReadsUser T x n (userOps U x k ops F').st.heap ns v (.ok (.builtin v)) := by
  have hN := Spec.RtOpts.names hR
  obtain ⟨hi, ht⟩ := reachUser_keep hw.refs hN hw.reach
  obtain ⟨gs, t', s1, g, ob, w⟩ := wrote_run_at hN hw.refs hi ht hw.rw hw.addr hw.notRoot hw.ok
  have hF' : ReachUser α x F' := by
    have := ReachUser.wrote n [(p, v)] hw.reach (by
      intro pv hpv ha
      simp only [List.mem_singleton] at hpv
      subst hpv
      exact hw.notRoot (addr_unique hw.addr ha))
    have h2 : (fileWrites x n [(p, v)] F).2 = F' := congrArg Prod.snd hw.ok
    rwa [h2] at this
  have hst : StoredAt x n F'.st.heap ns v := by
    have hrun : writeOne x n (gs, t') v F.st = (.ok ob, F'.st) := by
      unfold writeOne
      exact (run_bind_ok w.req).trans w.run
    have := writeOne_stored hR w.inv0 w.tree0 (w.names ▸ w.off) (w.names ▸ hw.free) hw.draws hv hrun
    rwa [← w.names] at this
  have hts : TypeAt F'.st.heap ns t := by
    obtain ⟨q, at', b, new, h1, h2, h3, h4⟩ := run_new hN w hw.free (good_kept hv)
    refine ⟨q, (Obj.view ⟨at', b⟩), h1, by unfold viewOf; rw [h2]; rfl, ?_⟩
    rw [pyType_eq hty]
    have := fresh_string (newAttrs_nodup h3) h4 ((aget_iff_mem (newAttrs_nodup h3)).mpr (newAttrs_type hR.pyMeta h3))
    rwa [aget_view _ _ (by decide)]
  obtain ⟨_, ht'⟩ := reachUser_keep hw.refs hN hF'
  have aw := (userOps_away (S := U) (n := k) hw.refs hN hF' w.off hel).1
  have hts' := hts.away aw fun q hq => ⟨lpath_lt ht' hq, fun l hl => by rw [LPath.unique ht' hl hq]; exact .inl (List.prefix_refl _)⟩
  have hrb := (hst.away aw).readsBack hw.refs w.off
  have hrd : T.reader t = none := by
    unfold Setup.reader
    split
    · rfl
    rename_i hn
    rcases hT with hT | hT
    · refine absurd ⟨hT, ?_⟩ hn
      obtain ⟨b, _, hb⟩ := C53_one_builtin hty
      have := (hb b).mpr rfl
      exact List.any_eq_true.mpr ⟨b.marshaller, mem_builtins.mpr ⟨b, rfl⟩, this⟩
    · exact List.find?_eq_none.mpr fun p hp hc => hT p hp (List.contains_iff_mem.mp hc)
  intro y G p' m hy hyr hG hh ha hm
  have hry : RefsPathOk y.o := ⟨by rw [hy]; exact hw.refs.abs, by rw [hy]; exact hw.refs.notRoot⟩
  exact userRead_builtin hrd ha hw.notRoot hry (good_off hry ha hw.notRoot (by rw [hy]; exact w.off.head)) (hh ▸ hts') (hrb y G p' m hy hyr hG hh ha hm)

/-- C72. Without the marshaller, and if no other one claims its type string, an object written as an array is read as that array, and one written as a list as an array of its
elements. -/
theorem C72_without {x : Ctx} (hR : RtOpts x.o) {S : Setup α} {n : Nat} {F F' : FileS} {p : PathArg} {ns : List Str} {a : α} (hw : WroteUser S x n F p ns a F')
    {pl : Plugin α} {ts : Str} (hS : WritesAs S pl a ts) (hv : Payload x.o pl.parent (pl.down a)) {T : Setup α} (hT : Unclaimed T ts) {w : Val} (hb : Bare pl.parent (pl.down a) w)
    {U : Setup α} {k : Nat} {ops : List (UserOp α)} (hel : ∀ op ∈ ops, ElsewhereUser x.o op ns) :
    ReadsUser T x n (userOps U x k ops F').st.heap ns (pl.down a) (.ok (.builtin w)) := by
  obtain ⟨j, rfl, ho, hu⟩ := wroteUser_stored hR hw hS hv
  have aw := (userOps_away (S := U) (n := k) hw.refs (Spec.RtOpts.names hR) (wroteUser_reach hw) ho hel).1
  refine (hu.away aw).reads hw.refs ho ?_
  intro o V excl m q ob' h1 h2 h3 _ h5
  unfold userReadData
  dsimp only
  rw [h1]
  dsimp only
  rw [h2]
  show (match (some ts).bind T.reader, some ts with | some pl, some ts => _ | _, _ => _ : Res (UVal α)) = _
  rw [Option.bind_some, unclaimed_reader hT]
  show (readData o V excl (m + 1) q >>= fun v => Except.ok (UVal.builtin v) : Res (UVal α)) = _
  rw [readData_ts h1 h2 h3, readTyped_unknown hT.builtin, h5 w hb]
  rfl

/-- C72. Without the marshaller an object written as a dict is read as `BareDict` says, the fields being the items if the keys are texts and otherwise the tuples of the keys and of
the values: as a dict of the fields if it counts as a struct of MATLAB and the reader makes dicts of structs, and otherwise as a structured array with these fields (numpy has to
take their names: there are some, and none is empty). -/
theorem C72_without_dict {x : Ctx} (hR : RtOpts x.o) {S : Setup α} {n : Nat} {F F' : FileS} {p : PathArg} {ns : List Str} {a : α} (hw : WroteUser S x n F p ns a F')
    {pl : Plugin α} {ts : Str} (hS : WritesAs S pl a ts) (hv : Payload x.o pl.parent (pl.down a)) {T : Setup α} (hT : Unclaimed T ts)
    {plain : Bool} (hP : pl.parent = .dict plain) {k : DictKind} {keys vals : List Val} (hd : pl.down a = .dict k keys vals) {texts : List Str} {us : List Val}
    (hi : BareItems x.o keys vals texts us) {U : Setup α} {j : Nat} {ops : List (UserOp α)} (hel : ∀ op ∈ ops, ElsewhereUser x.o op ns) :
    ReadsUserAs T x n (userOps U x j ops F').st.heap ns (pl.down a) fun o r =>
      (x.o.matlab && plain && o.structsAsDicts) = true ∨ (texts ≠ [] ∧ [] ∉ texts) →
        ∃ w, r = .ok (.builtin w) ∧ BareDict (x.o.matlab && plain && o.structsAsDicts) texts us w := by
  obtain ⟨i, rfl, ho, hu⟩ := wroteUser_stored hR hw hS hv
  have aw := (userOps_away (S := U) (n := j) hw.refs (Spec.RtOpts.names hR) (wroteUser_reach hw) ho hel).1
  refine (hu.away aw).readsAs hw.refs ho ?_
  intro o V excl m q ob' h1 h2 h3 _ _ h6 hok
  obtain ⟨w, g1, g2⟩ := h6 plain k keys vals texts us hP hd hi hok
  refine ⟨w, ?_, g2⟩
  unfold userReadData
  dsimp only
  rw [h1]
  dsimp only
  rw [h2]
  show (match (some ts).bind T.reader, some ts with | some pl, some ts => _ | _, _ => _ : Res (UVal α)) = _
  rw [Option.bind_some, unclaimed_reader hT]
  show (readData o V excl (m + 1) q >>= fun v => Except.ok (UVal.builtin v) : Res (UVal α)) = _
  rw [readData_ts h1 h2 h3, readTyped_unknown hT.builtin, g1]
  rfl

/-- C72. If the marshaller is there but not its modules, its `read_approximate` reads the object, and if it has none `NotImplementedError` is raised. -/
theorem C72_approximate {x : Ctx} (hR : RtOpts x.o) {S : Setup α} {n : Nat} {F F' : FileS} {p : PathArg} {ns : List Str} {a : α} (hw : WroteUser S x n F p ns a F')
    {pl : Plugin α} {ts : Str} (hS : WritesAs S pl a ts) (hv : Payload x.o pl.parent (pl.down a)) {T : Setup α} (hT : Claims T pl ts) (hy : T.ready pl = false)
    {U : Setup α} {k : Nat} {ops : List (UserOp α)} (hel : ∀ op ∈ ops, ElsewhereUser x.o op ns) :
    (∀ f, pl.approximate = some f → ReadsUser T x n (userOps U x k ops F').st.heap ns (pl.down a) ((f (handedBack pl.parent (pl.down a))).map UVal.builtin)) ∧
    (pl.approximate = none → ReadsUser T x n (userOps U x k ops F').st.heap ns (pl.down a) (.error .notImplemented)) := by
  obtain ⟨j, rfl, ho, hu⟩ := wroteUser_stored hR hw hS hv
  have aw := (userOps_away (S := U) (n := k) hw.refs (Spec.RtOpts.names hR) (wroteUser_reach hw) ho hel).1
  constructor
  · intro f hf
    refine (hu.away aw).reads hw.refs ho ?_
    rintro o V excl m q ob' h1 h2 ⟨mc, h3⟩ h4 _
    unfold userReadData
    dsimp only
    rw [h1]
    dsimp only
    rw [h2]
    show (match (some ts).bind T.reader, some ts with | some pl, some ts => _ | _, _ => _ : Res (UVal α)) = _
    rw [Option.bind_some, claims_reader hT]
    dsimp only
    rw [h3]
    show (if T.ready pl = true then _ else _ : Res (UVal α)) = _
    rw [if_neg (by simp [hy]), hf]
    dsimp only
    rw [h4]
    show (f (handedBack pl.parent (pl.down a)) >>= fun b => Except.ok (UVal.builtin b)) = _
    cases f (handedBack pl.parent (pl.down a)) <;> rfl
  · intro hf
    refine (hu.away aw).reads hw.refs ho ?_
    rintro o V excl m q ob' h1 h2 ⟨mc, h3⟩ h4 _
    unfold userReadData
    dsimp only
    rw [h1]
    dsimp only
    rw [h2]
    show (match (some ts).bind T.reader, some ts with | some pl, some ts => _ | _, _ => _ : Res (UVal α)) = _
    rw [Option.bind_some, claims_reader hT]
    dsimp only
    rw [h3]
    show (if T.ready pl = true then _ else _ : Res (UVal α)) = _
    rw [if_neg (by simp [hy]), hf]

/-! ### The example of the package -/

/-- The marshaller of the example plugin (`/repo/examples/example_hdf5storage_marshaller_plugin/src/example_hdf5storage_marshaller_plugin/__init__.py:50-69`) for `SubList`, a
subclass of `list` that is given by its elements. -/
def exSubList : Plugin (List Val) where
  tables := ⟨100, [.str p!"example_hdf5storage_marshaller_plugin.SubList"], [p!"hdf5storage_marshallers_plugins_example.SubList"], [], [], []⟩
  parent := .list
  down l := .seq .list l
  up _ v := match v with | .seq _ l => .ok l | _ => .error .typeError
  approximate := none

/-- It is the only marshaller that is not builtin. -/
def exSub (ready : Bool) : Setup (List Val) := ⟨[exSubList], fun _ => ready, fun _ => .cls p!"example_hdf5storage_marshaller_plugin" p!"SubList", true⟩
/-- It is not there. -/
def exNoSub : Setup (List Val) := ⟨[], fun _ => true, fun _ => .cls p!"example_hdf5storage_marshaller_plugin" p!"SubList", true⟩

def exElems : List Val := [.int 7, .seq .tuple [.str p!"s"]]

theorem ex_sub_writes (l : List Val) : WritesAs (exSub true) exSubList l p!"hdf5storage_marshallers_plugins_example.SubList" where
  mem := by simp [exSub]
  ready := rfl
  lengths := rfl
  types := by decide
  typed := ⟨0, _, rfl, rfl, Or.inr rfl⟩
  alone := by intro p hp _; simpa [exSub] using hp

theorem ex_sub_claims (r : Bool) : Claims (exSub r) exSubList p!"hdf5storage_marshallers_plugins_example.SubList" where
  mem := by simp [exSub]
  known := by simp [exSubList]
  alone := by intro p hp _; simpa [exSub] using hp
  foreign := Or.inl rfl

theorem ex_sub_unclaimed : Unclaimed exNoSub p!"hdf5storage_marshallers_plugins_example.SubList" where
  plugins := by intro p hp; cases hp
  builtin := by decide +kernel

theorem ex_reachUser (α : Type) : ReachUser α exX exF :=
  .opened _ _ ⟨fun _ _ _ h => (linkAt_single h).elim, rfl, fun _ _ h => linkAt_single h, fun _ _ _ _ _ h => (linkAt_single h).elim⟩

theorem ex_userWrote {α : Type} (S : Setup α) (a : α) (h : (userWrite S exX 10 (.str p!"/x/y") a exF).1 = .ok ())
    (hr : (userWrite S exX 10 (.str p!"/x/y") a exF).2.st.rpos = 0) :
    WroteUser S exX 10 exF (.str p!"/x/y") [p!"x", p!"y"] a (userWrite S exX 10 (.str p!"/x/y") a exF).2 where
  refs := ⟨rfl, by decide⟩
  reach := ex_reachUser α
  rw := rfl
  addr := ⟨p!"/x", p!"y", by decide, by decide⟩
  notRoot := by simp
  free := ex_free _ (by simp)
  draws := by intro i j _ _ h3; rw [hr] at h3; omega
  ok := by rw [← h]

theorem ex_elems_good : ∀ e ∈ exElems, Good exX.o e := by
  intro e he
  simp only [exElems, List.mem_cons, List.not_mem_nil, or_false] at he
  rcases he with rfl | rfl
  · exact .int 7
  · refine .seq .tuple _ (fun h => nomatch h) fun v hv => ?_
    simp only [List.mem_cons, List.not_mem_nil, or_false] at hv
    subst hv
    exact .str _ ⟨⟨by decide, by intro c h; cases h; decide⟩, by decide⟩

/-- Afterwards another object and a builtin value are written and something is deleted elsewhere. -/
def exUserOps : List (UserOp (List Val)) :=
  [.write (.str p!"/x/z") [.int 1], .builtin (.write (.str p!"/w") (.seq .list [.int 1])), .builtin (.del (.str p!"/w")), .builtin .close]

theorem ex_userOps : ∀ op ∈ exUserOps, ElsewhereUser exX.o op [p!"x", p!"y"] := by
  intro op hop
  simp only [exUserOps, List.mem_cons, List.not_mem_nil, or_false] at hop
  rcases hop with rfl | rfl | rfl | rfl
  · intro ns ha
    rw [addr_unique ha ⟨p!"/x", p!"z", by decide, rfl⟩]
    exact ⟨by decide, by decide⟩
  · exact ex_elsewhere p!"/" p!"w" _ _ (by decide) (by decide)
  · refine fun ns ha => ⟨ex_elsewhere p!"/" p!"w" _ _ (by decide) (by decide) ns ha, ?_⟩
    rw [addr_unique ha ⟨p!"/", p!"w", by decide, rfl⟩]; decide
  · trivial

-- The hypotheses are met: a `SubList` of an int and a tuple.
example : ∃ F', WroteUser (exSub true) exX 10 exF (.str p!"/x/y") [p!"x", p!"y"] exElems F' ∧
    WritesAs (exSub true) exSubList exElems p!"hdf5storage_marshallers_plugins_example.SubList" ∧ Payload exX.o exSubList.parent (exSubList.down exElems) ∧
    exSubList.up p!"hdf5storage_marshallers_plugins_example.SubList" (handedBack exSubList.parent (exSubList.down exElems)) = .ok exElems ∧
    Claims (exSub true) exSubList p!"hdf5storage_marshallers_plugins_example.SubList" ∧ Claims (exSub false) exSubList p!"hdf5storage_marshallers_plugins_example.SubList" ∧
    Unclaimed exNoSub p!"hdf5storage_marshallers_plugins_example.SubList" ∧ Bare exSubList.parent (exSubList.down exElems) (.npObj .ndarray [2] exElems) ∧
    (∀ op ∈ exUserOps, ElsewhereUser exX.o op [p!"x", p!"y"]) ∧ RtOpts exX.o :=
  ⟨_, ex_userWrote _ _ (by decide +kernel) (by decide +kernel), ex_sub_writes _, .list .list exElems ex_elems_good, rfl, ex_sub_claims _, ex_sub_claims _, ex_sub_unclaimed, .list _ _,
    ex_userOps, ex_rtOpts⟩

-- And what this says: the object, an array of its elements, an exception.
example : ∃ F', WroteUser (exSub true) exX 10 exF (.str p!"/x/y") [p!"x", p!"y"] exElems F' ∧
    ReadsUser (exSub true) exX 10 (userOps (exSub true) exX 10 exUserOps F').st.heap [p!"x", p!"y"] (.seq .list exElems) (.ok (.user exElems)) ∧
    ReadsUser exNoSub exX 10 (userOps (exSub true) exX 10 exUserOps F').st.heap [p!"x", p!"y"] (.seq .list exElems) (.ok (.builtin (.npObj .ndarray [2] exElems))) ∧
    ReadsUser (exSub false) exX 10 (userOps (exSub true) exX 10 exUserOps F').st.heap [p!"x", p!"y"] (.seq .list exElems) (.error .notImplemented) := by
  have hw := ex_userWrote (exSub true) exElems (by decide +kernel) (by decide +kernel)
  have hv : Payload exX.o exSubList.parent (exSubList.down exElems) := .list .list exElems ex_elems_good
  exact ⟨_, hw, C71_same ex_rtOpts hw (ex_sub_writes _) hv rfl (ex_sub_claims true) rfl ex_userOps, C72_without ex_rtOpts hw (ex_sub_writes _) hv ex_sub_unclaimed (.list _ _) ex_userOps,
    (C72_approximate ex_rtOpts hw (ex_sub_writes _) hv (ex_sub_claims false) rfl ex_userOps).2 rfl⟩

-- A builtin value written beside the object, with the plugin having priority.
example : ∃ F F', WroteAmong (List Val) exX 10 F (.str p!"/v") [p!"v"] (.seq .list [.int 3]) F' ∧ Good exX.o (.seq .list [.int 3]) ∧ PyType (.seq .list [.int 3]) p!"list" ∧
    ((exSub true).first = false ∨ ∀ p ∈ (exSub true).plugins, p!"list" ∉ p.tables.typeStrings) ∧ Exists F.st.heap [p!"x", p!"y"] := by
  have hw := ex_userWrote (exSub true) exElems (by decide +kernel) (by decide +kernel)
  have h0 : (decide ((fileWrite exX 10 (.str p!"/v") (.seq .list [.int 3]) (userWrite (exSub true) exX 10 (.str p!"/x/y") exElems exF).2).2.st.rpos = 0)) = true := by decide +kernel
  have h0 := of_decide_eq_true h0
  have hx : resolve (userWrite (exSub true) exX 10 (.str p!"/x/y") exElems exF).2.st.heap 0 [p!"x", p!"y"] ≠ none := by decide +kernel
  refine ⟨_, _, ⟨⟨rfl, by decide⟩, wroteUser_reach hw, by decide +kernel, ⟨p!"/", p!"v", by decide, by decide⟩, by simp, ?_, ?_, pair_of_fst (by decide +kernel)⟩,
    .seq .list _ (fun h => nomatch h) (fun v hv => ?_), .list _, Or.inr ?_, ?_⟩
  · rintro ⟨q, hq⟩
    have := resolve_lpath (l := [p!"v"]) (commonComps_plain p!"v") hq
    revert this
    have hn : resolve (userWrite (exSub true) exX 10 (.str p!"/x/y") exElems exF).2.st.heap 0 [p!"v"] = none := by decide +kernel
    rw [hn]
    nofun
  · intro i j _ _ h3; rw [h0] at h3; omega
  · simp only [List.mem_cons, List.not_mem_nil, or_false] at hv
    subst hv
    exact .int 3
  · decide
  · cases hq : resolve (userWrite (exSub true) exX 10 (.str p!"/x/y") exElems exF).2.st.heap 0 [p!"x", p!"y"] with
    | none => exact absurd hq hx
    | some q => exact ⟨q, lpath_resolve (commonComps_plain p!"x/y") hq⟩

/-! ### A marshaller whose objects are dicts -/

/-- A marshaller whose objects are given by their attributes, which it hands over as a `dict`. -/
def exAttrs : Plugin (List (Str × Int)) where
  tables := ⟨102, [.cls p!"mine" p!"Point"], [p!"mine.Point"], [], [], []⟩
  parent := .dict true
  down l := .dict .dict (l.map fun i => .str i.1) (l.map fun i => .int i.2)
  up _ v := match v with | .dict _ k w => .ok ((k.zip w).filterMap fun i => match i with | (.str s, .int n) => some (s, n) | _ => none) | _ => .error .typeError
  approximate := none

def exAttrsIn : Setup (List (Str × Int)) := ⟨[exAttrs], fun _ => true, fun _ => .cls p!"mine" p!"Point", true⟩
def exAttrsOut : Setup (List (Str × Int)) := ⟨[], fun _ => true, fun _ => .cls p!"mine" p!"Point", true⟩
def exPoint : List (Str × Int) := [(p!"y", 2), (p!"x", 1)]

theorem ex_point_writes : WritesAs exAttrsIn exAttrs exPoint p!"mine.Point" :=
  ⟨by simp [exAttrsIn], rfl, rfl, by decide, ⟨0, _, rfl, rfl, Or.inl rfl⟩, fun p hp _ => by simpa [exAttrsIn] using hp⟩

theorem ex_point_payload : Payload exX.o exAttrs.parent (exAttrs.down exPoint) := by
  refine .dict true .dict _ _ (.dictText .dict _ _ [p!"y", p!"x"] (.cons (.str _) (.cons (.str _) .nil)) (by decide) rfl ?_)
  intro v hv
  simp only [exPoint, List.map_cons, List.map_nil, List.mem_cons, List.not_mem_nil, or_false] at hv
  rcases hv with rfl | rfl <;> exact .int _

theorem ex_point_readable (ro : COpts) (h : ro.reverse = exX.o.reverse) : ReadableWith exX.o ro (exAttrs.down exPoint) := by
  refine ⟨Or.inl h, fun _ _ hs => ?_⟩
  cases hs with
  | key _ _ _ e he h =>
    simp only [exPoint, List.map_cons, List.map_nil, List.mem_cons, List.not_mem_nil, or_false] at he
    rcases he with rfl | rfl <;> cases h
  | val _ _ _ e he h =>
    simp only [exPoint, List.map_cons, List.map_nil, List.mem_cons, List.not_mem_nil, or_false] at he
    rcases he with rfl | rfl <;> cases h

-- The hypotheses are met, and what is read without the marshaller.
example : ∃ F', WroteUser exAttrsIn exX 10 exF (.str p!"/x/y") [p!"x", p!"y"] exPoint F' ∧ WritesAs exAttrsIn exAttrs exPoint p!"mine.Point" ∧
    Payload exX.o exAttrs.parent (exAttrs.down exPoint) ∧ Unclaimed exAttrsOut p!"mine.Point" ∧ exX.o.matlab = true ∧
    (∃ types ws, userRead exAttrsOut exX 10 (.str p!"/x/y") F' = .ok (.builtin (.npStruct .ndarray [1] [p!"y", p!"x"] types ws))) ∧
    ∃ l : List (Str × Val), l.Perm [(p!"y", Val.int 2), (p!"x", .int 1)] ∧ userRead exAttrsOut ⟨{ exX.o with structsAsDicts := true }, exX.rng, exX.hang⟩ 10 (.str p!"/x/y") F' =
      .ok (.builtin (.dict .dict (l.map fun i => .str i.1) (l.map (·.2)))) := by
  have hw := ex_userWrote exAttrsIn exPoint (by decide +kernel) (by decide +kernel)
  have hT : Unclaimed exAttrsOut p!"mine.Point" := ⟨(by intro p hp; cases hp), by decide +kernel⟩
  have main := C72_without_dict (U := exAttrsIn) (j := 10) (ops := []) ex_rtOpts hw ex_point_writes ex_point_payload hT (plain := true) rfl (k := .dict) rfl
    (.texts [p!"y", p!"x"] (.cons (.str _) (.cons (.str _) .nil)) (by decide)) (by intro op hop; cases hop)
  have ha : Addr (.str p!"/x/y") [p!"x", p!"y"] := ⟨p!"/x", p!"y", by decide, by decide⟩
  refine ⟨_, hw, ex_point_writes, ex_point_payload, hT, rfl, ?_, ?_⟩
  · obtain ⟨w, h1, h2⟩ := main exX _ (.str p!"/x/y") 10 rfl (ex_point_readable _ rfl) (by decide +kernel) rfl ha (by decide) (Or.inr (by decide))
    cases h2 with
    | items l h => cases h
    | fields types ws _ _ _ _ => exact ⟨types, ws, h1⟩
  · obtain ⟨w, h1, h2⟩ := main ⟨{ exX.o with structsAsDicts := true }, exX.rng, exX.hang⟩ _ (.str p!"/x/y") 10 rfl (ex_point_readable _ rfl) (by decide +kernel) rfl ha (by decide) (Or.inr (by decide))
    cases h2 with
    | items l h h' => exact ⟨l, h', h1⟩
    | fields types ws h => cases h

/-- A marshaller whose objects are tables of squares: a `dict` whose keys are not texts. -/
def exSquares : Plugin (List Int) where
  tables := ⟨103, [.cls p!"mine" p!"Squares"], [p!"mine.Squares"], [], [], []⟩
  parent := .dict true
  down l := .dict .dict (l.map Val.int) (l.map fun i => .int (i * i))
  up _ v := match v with | .dict _ k _ => .ok (k.filterMap fun i => match i with | .int n => some n | _ => none) | _ => .error .typeError
  approximate := none

def exSquaresIn : Setup (List Int) := ⟨[exSquares], fun _ => true, fun _ => .cls p!"mine" p!"Squares", true⟩
def exSquaresOut : Setup (List Int) := ⟨[], fun _ => true, fun _ => .cls p!"mine" p!"Squares", true⟩

-- With keys that are not texts: the fields are the keys and the values.
example : ∃ F', WroteUser exSquaresIn exX 10 exF (.str p!"/x/y") [p!"x", p!"y"] [2, 3] F' ∧
    ∃ types ws, userRead exSquaresOut exX 10 (.str p!"/x/y") F' = .ok (.builtin (.npStruct .ndarray [1] [p!"keys", p!"values"] types ws)) := by
  have hw := ex_userWrote exSquaresIn [2, 3] (by decide +kernel) (by decide +kernel)
  have hT : Unclaimed exSquaresOut p!"mine.Squares" := ⟨(by intro p hp; cases hp), by decide +kernel⟩
  have hS : WritesAs exSquaresIn exSquares [2, 3] p!"mine.Squares" :=
    ⟨by simp [exSquaresIn], rfl, rfl, by decide, ⟨0, _, rfl, rfl, Or.inl rfl⟩, fun p hp _ => by simpa [exSquaresIn] using hp⟩
  have hkv : KvNames exX.o := ⟨by unfold PlainName; decide, by unfold PlainName; decide, by decide⟩
  have hnt : ∃ k ∈ [Val.int 2, .int 3], NotTextKey k := ⟨.int 2, by simp, trivial⟩
  have hg : Good exX.o (.dict .dict [.int 2, .int 3] [.int 4, .int 9]) := by
    refine .dictAny .dict [.int 2, .int 3] [.int 4, .int 9] hnt hkv rfl ?_ ?_
    · intro k hk
      simp only [List.mem_cons, List.not_mem_nil, or_false] at hk
      rcases hk with rfl | rfl <;> exact .int _
    · intro v hv
      simp only [List.mem_cons, List.not_mem_nil, or_false] at hv
      rcases hv with rfl | rfl <;> exact .int _
  have main := C72_without_dict (U := exSquaresIn) (j := 10) (ops := []) ex_rtOpts hw hS (.dict true .dict _ _ hg) hT (plain := true) rfl (k := .dict) (keys := [.int 2, .int 3]) (vals := [.int 4, .int 9]) rfl
    (.keysFirst hnt hkv (by decide)) (by intro op hop; cases hop)
  have ha : Addr (.str p!"/x/y") [p!"x", p!"y"] := ⟨p!"/x", p!"y", by decide, by decide⟩
  refine ⟨_, hw, ?_⟩
  obtain ⟨w, h1, h2⟩ := main exX _ (.str p!"/x/y") 10 rfl (readable_same hg) (by decide +kernel) rfl ha (by decide) (Or.inr (by decide))
  cases h2 with
  | items l h => cases h
  | fields types ws _ _ _ _ => exact ⟨types, ws, h1⟩

/-! ### Record arrays -/

/-- A marshaller whose objects are numpy data. -/
def exRecPlugin : Plugin Val where
  tables := ⟨101, [.cls p!"mine" p!"Table"], [p!"mine.Table"], [], [], []⟩
  parent := .numpy
  down v := v
  up _ v := .ok v
  approximate := none

def exRecSetup : Setup Val := ⟨[exRecPlugin], fun _ => true, fun _ => .cls p!"mine" p!"Table", true⟩
def exRecArr (c : Cont) : Val := .npStruct c [2] [p!"a"] [.base .i64 []] [exI64 1, exI64 2]

/-- What `C71_round_trip` does not say: a marshaller that hands a record array to the numpy marshaller gets an ordinary structured array back, although the record array itself
would read back: reading makes a record array only of data whose type string is 'numpy.recarray' (finding F60). -/
theorem C71_recarray : ∃ F', WroteUser exRecSetup exX 10 exF (.str p!"/x/y") [p!"x", p!"y"] (exRecArr .recarray) F' ∧
    WritesAs exRecSetup exRecPlugin (exRecArr .recarray) p!"mine.Table" ∧ Claims exRecSetup exRecPlugin p!"mine.Table" ∧
    userRead exRecSetup exX 10 (.str p!"/x/y") F' = .ok (.user (exRecArr .ndarray)) ∧
    ∃ G, WroteNew exX 10 exF (.str p!"/x/y") [p!"x", p!"y"] (exRecArr .recarray) G ∧ fileRead exX 10 (.str p!"/x/y") G = .ok (exRecArr .recarray) := by
  refine ⟨_, ex_userWrote _ _ (by decide +kernel) (by decide +kernel), ⟨by simp [exRecSetup], rfl, rfl, by decide, ⟨0, _, rfl, rfl, Or.inl rfl⟩, fun p hp _ => by simpa [exRecSetup] using hp⟩,
    ⟨by simp [exRecSetup], by simp [exRecPlugin], fun p hp _ => by simpa [exRecSetup] using hp, Or.inl rfl⟩, ?_, _, ex_wrote _ (by decide +kernel) (by decide +kernel),
    eq_of_isVal (by decide +kernel)⟩
  have key : (match userRead exRecSetup exX 10 (.str p!"/x/y") (userWrite exRecSetup exX 10 (.str p!"/x/y") (exRecArr .recarray) exF).2 with
    | .ok (.user v) => isVal (.ok v) (exRecArr .ndarray) | _ => false) = true := by decide +kernel
  generalize userRead exRecSetup exX 10 (.str p!"/x/y") (userWrite exRecSetup exX 10 (.str p!"/x/y") (exRecArr .recarray) exF).2 = r at key
  cases r with
  | error e => cases key
  | ok u =>
    cases u with
    | builtin v => cases key
    | user v =>
      have := eq_of_isVal (r := .ok v) key
      cases this
      rfl

end HS
