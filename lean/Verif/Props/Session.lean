import Verif.Lemmas.Session
/-
C73: the `with` statement, the functions of the module, and programs that use files one after the other.
-/
namespace HS
open Spec

/-- C73. `with File(...) as f:`.  If the file cannot be opened, that exception is raised and the disk is as before.  Otherwise the block is executed, which makes a certain
sequence of calls on a newly opened file; the statement ends like the block, so an exception is passed on; the `File` is closed afterwards, and from then on refuses to be used;
and of the disk exactly the file opened, if it is for writing, has changed: to what these calls one after the other made of it, also if there was an exception. -/
theorem C73_with {α : Type} (x : Ctx) (n : Nat) (w : Bool) (b : Block α) (a : FileArgs) (d : Disk) :
    (∀ e, openWith w a d = .error e → withFile x n w b a d = (.error e, none, d)) ∧
    ∀ f o ub F, openWith w a d = .ok (f, o, ub, F) → ∃ ops r G, (∀ ops' r', Calls (x.with o) n b F ops' r' ↔ ops' = ops ∧ r' = r) ∧
      (withFile x n w b a d).1 = r ∧ (withFile x n w b a d).2.1 = some G ∧ fileClosed G = true ∧
      (RefsPathOk (COpts.of o) → ∀ op, OnData op → ∃ e, (fileOp (x.with o) n op G).1 = .error e) ∧
      (∀ g, (withFile x n w b a d).2.2 g =
        if g = f ∧ w = true then some (.h5 ub (fileOps (x.with o) n ops F).2.st.heap) else d g) := by
  constructor
  · intro e he
    unfold withFile
    rw [he]
  · intro f o ub F h
    obtain ⟨ops, hc⟩ := block_calls (x.with o) n b F
    have hrun := calls_run hc
    refine ⟨ops, (b.run (x.with o) n F).1, (fileClose (b.run (x.with o) n F).2).2, ?_, ?_, ?_, rfl, ?_, ?_⟩
    · intro ops' r'
      constructor
      · intro h'
        exact calls_unique hc h'
      · rintro ⟨rfl, rfl⟩; exact hc
    · unfold withFile; rw [h]
    · unfold withFile; rw [h]
    · intro hr op hop
      have := ((C39_closed (x := x.with o) hr n (b.run (x.with o) n F).2).2.2 [op]).2 0 op rfl
      obtain ⟨e, he⟩ := this.1 hop
      refine ⟨e, ?_⟩
      rw [fileOps] at he
      exact Option.some.inj he
    · intro g
      have e1 : (withFile x n w b a d).2.2 = if w then d.put f (.h5 ub (fileClose (b.run (x.with o) n F).2).2.st.heap) else d := by
        unfold withFile; rw [h]
      rw [e1, hrun]
      unfold Disk.put
      cases w with
      | false => simp
      | true => by_cases hg : g = f <;> simp [hg] <;> rfl

/-- C73. A file opened read-only stays as it is, like the whole disk, whatever the block does. -/
theorem C73_readonly {α : Type} (x : Ctx) (n : Nat) (b : Block α) (a : FileArgs) (d : Disk) : (withFile x n false b a d).2.2 = d := by
  unfold withFile
  cases openWith false a d <;> rfl

/-- C73. The functions `write` and `writes` are `with File(writable=True, ...) as f: f.write(...)`, with the same effect on the disk. -/
theorem C73_functions_write (x : Ctx) (n : Nat) (a : FileArgs) (d : Disk) :
    (∀ m, modWrites x n m a d = ((withFile x n true (writesBlock m) a d).1, (withFile x n true (writesBlock m) a d).2.2)) ∧
    ∀ v p, modWrite x n v p a d = ((withFile x n true (writeBlock v p) a d).1, (withFile x n true (writeBlock v p) a d).2.2) := by
  have key : ∀ m (b : Block Unit), (∀ y F, b.run y n F = fileWrites y n m F) →
      modWrites x n m a d = ((withFile x n true b a d).1, (withFile x n true b a d).2.2) := by
    intro m b hb
    unfold modWrites withFile openWith
    cases a.filename with
    | bytes _ => rfl
    | other => rfl
    | str f =>
      dsimp only
      cases fileOptions a with
      | error e => rfl
      | ok o =>
        dsimp only
        cases openDisk (d f) true a.truncExisting a.truncInvalid (COpts.of o).matlab with
        | error e => rfl
        | ok c =>
          dsimp only
          rw [hb, if_pos rfl]
          rfl
  have hm : ∀ r : Res Unit, ((outOf (fun _ => Out.unit) r).map fun _ => ()) = r := by intro r; cases r <;> rfl
  refine ⟨fun m => key m _ fun y F => ?_, fun v p => key [(p, v)] _ fun y F => ?_⟩
  · show (((outOf (fun _ => Out.unit) (fileWrites y n m F).1).map fun _ => ()), (fileWrites y n m F).2) = _
    rw [hm]
  · show (((outOf (fun _ => Out.unit) (fileWrite y n p v F).1).map fun _ => ()), (fileWrite y n p v F).2) = _
    rw [hm]; rfl

theorem openWith_read (a : FileArgs) (d : Disk) : openRead a d = (openWith false a d).map fun c => (c.2.1, c.2.2.2) := by
  unfold openRead openWith
  cases a.filename with
  | bytes _ => rfl
  | other => rfl
  | str f =>
    dsimp only
    cases fileOptions a with
    | error e => rfl
    | ok o =>
      dsimp only
      cases openDisk (d f) false a.truncExisting a.truncInvalid (COpts.of o).matlab <;> rfl

/-- C73. The functions `read` and `reads` are `with File(writable=False, ...) as f: return f.read(...)`, with `matlab_compatible=False` if it is not given. -/
theorem C73_functions_read (x : Ctx) (n : Nat) (a : FileArgs) (d : Disk) :
    (∀ ps, modReads x n ps a d = (withFile x n false (readsBlock ps) (readArgs a) d).1) ∧
    ∀ p, modRead x n p a d = (withFile x n false (readBlock p) (readArgs a) d).1 := by
  constructor
  · intro ps
    unfold modReads withFile
    rw [openWith_read]
    cases openWith false (readArgs a) d with
    | error e => rfl
    | ok c =>
      show fileReads (x.with c.2.1) n ps c.2.2.2 = ((outOf Out.vals (fileReads (x.with c.2.1) n ps c.2.2.2)).bind fun o => match o with | .vals l => .ok l | _ => .error .other)
      cases fileReads (x.with c.2.1) n ps c.2.2.2 <;> rfl
  · intro p
    unfold modRead withFile
    rw [openWith_read]
    cases openWith false (readArgs a) d with
    | error e => rfl
    | ok c =>
      show fileRead (x.with c.2.1) n p c.2.2.2 = ((outOf Out.val (fileRead (x.with c.2.1) n p c.2.2.2)).bind fun o => match o with | .val v => .ok v | _ => .error .other)
      cases fileRead (x.with c.2.1) n p c.2.2.2 <;> rfl

theorem loadAll_run (y : Ctx) (n : Nat) (F : FileS) (ks : List Str) (data : List (PathArg × Val)) : ((loadAllBlock ks data).run y n F).1 = loadAll y n F ks data := by
  induction ks generalizing data with
  | nil => rfl
  | cons k r ih =>
    rw [loadAllBlock, Block.run, loadAll]
    show ((match outOf Out.val (fileRead y n (.str k) F) with
      | .ok (.val v) => _ | .ok _ => _ | .error e => _ : Block _).run y n F).1 = _
    cases fileRead y n (.str k) F with
    | error e => rfl
    | ok v =>
      show ((match unescapePath k with | .ok uk => loadAllBlock r (pset data (.str uk) v) | .error e => .done (.error e) : Block _).run y n F).1 = (do
        let uk ← unescapePath k
        loadAll y n F r (pset data (.str uk) v))
      cases unescapePath k with
      | error e => rfl
      | ok uk => exact ih _

theorem loadSome_run (y : Ctx) (n : Nat) (F : FileS) (ks : List PathArg) (data : List (PathArg × Val)) : ((loadSomeBlock ks data).run y n F).1 = .ok (loadSome y n F ks data) := by
  induction ks generalizing data with
  | nil => rfl
  | cons k r ih =>
    rw [loadSomeBlock, Block.run, loadSome]
    show ((match outOf Out.val (fileRead y n k F) with
      | .ok (.val v) => loadSomeBlock r (pset data k v) | _ => loadSomeBlock r data : Block _).run y n F).1 = _
    cases fileRead y n k F with
    | error e => exact ih _
    | ok v => exact ih _

theorem openWith_of {w : Bool} {a : FileArgs} {d : Disk} {f : Str} {o : Options} {c : Nat × Heap} (hf : a.filename = .str f) (ho : fileOptions a = .ok o)
    (hc : openDisk (d f) w a.truncExisting a.truncInvalid (COpts.of o).matlab = .ok c) : openWith w a d = .ok (f, o, c.1, FileS.new c.2 w) := by
  unfold openWith
  rw [hf]
  dsimp only
  rw [ho]
  dsimp only
  rw [hc]

/-- C73. `savemat` is `with File(writable=True, ...)` with its options, and `loadmat` adds to the dict what `with File(writable=False, ...)` reads. -/
theorem C73_functions_mat (x : Ctx) (n : Nat) (f : FName) (d : Disk) :
    (∀ (m : List (PathArg × Val)) (a : SaveArgs) (o : Options), a.old = false → savematOptions a = .ok o →
      let s := withFile x n true (writesBlock m) ⟨savematName a.appendmat f, a.truncExisting, a.truncInvalid, some o, []⟩ d
      savemat x n f m a d = (.done s.1, s.2.2)) ∧
    ∀ (a : LoadArgs) (o : Options), loadOptions a = .ok o →
      loadmatTry x n f a d = (withFile x n false (loadBlock a.names) ⟨loadmatName a.appendmat f, false, false, some o, []⟩ d).1.map fun data => updateDict (a.mdict.getD data) data := by
  constructor
  · intro m a o ha ho
    dsimp only
    unfold savemat
    rw [ha, if_neg (by decide)]
    dsimp only
    rw [ho]
    dsimp only
    rw [(C73_functions_write x n _ d).1 m]
  · intro a o ho
    unfold loadmatTry
    rw [ho]
    unfold withFile
    show (openRead _ d >>= fun c => _) = _
    rw [openWith_read]
    cases openWith false ⟨loadmatName a.appendmat f, false, false, some o, []⟩ d with
    | error e => rfl
    | ok c =>
      show (do
        let data ← loadData (x.with c.2.1) n c.2.2.2 a.names
        (.ok (updateDict (a.mdict.getD data) data) : Res _)) = ((loadBlock a.names).run (x.with c.2.1) n c.2.2.2).1.map fun data => updateDict (a.mdict.getD data) data
      have : ((loadBlock a.names).run (x.with c.2.1) n c.2.2.2).1 = loadData (x.with c.2.1) n c.2.2.2 a.names := by
        cases a.names with
        | some ns => exact loadSome_run _ _ _ _ _
        | none =>
          show ((match outOf Out.names (fileIter (x.with c.2.1) c.2.2.2) with
            | .ok (.names ks) => loadAllBlock ks [] | .ok _ => .done (.error .other) | .error e => .done (.error e) : Block _).run (x.with c.2.1) n c.2.2.2).1 = (do
              let ks ← fileIter (x.with c.2.1) c.2.2.2
              loadAll (x.with c.2.1) n c.2.2.2 ks [])
          cases fileIter (x.with c.2.1) c.2.2.2 with
          | error e => rfl
          | ok ks => exact loadAll_run _ _ _ _ _
      rw [this]
      cases loadData (x.with c.2.1) n c.2.2.2 a.names <;> rfl

/-- C73. Data outlives the `with` statement.  In a `with` statement with a file opened for writing, `f.write(v, p)` was called at some point, for a place where nothing was, and
did not raise; the calls after it, whatever ended the block, did not touch this place.  Then, after any number of further `with` statements (and calls of the functions of the
module) with other files and with this one, none of which truncates it or touches this place, the value is read back: by the function `read`, and by `f.read` on the file
opened in whatever way, but for truncating it. -/
theorem C73_persists {α : Type} {x : Ctx} {n : Nat} {b : Block α} {a : FileArgs} {d d' : Disk} {f : Str} {o : Options} {ub : Nat} {F F' : FileS} {ops1 ops2 : List Op} {r : Res α}
    {p : PathArg} {ns : List Str} {v : Val} (hopen : openWith true a d = .ok (f, o, ub, F)) (hR : RtOpts (COpts.of o))
    (hcalls : Calls (x.with o) n b F (ops1 ++ .write p v :: ops2) r) (hw : WroteNew (x.with o) n (fileOps (x.with o) n ops1 F).2 p ns v F') (hv : Good (COpts.of o) v)
    (hel : ∀ op ∈ ops2, Elsewhere (COpts.of o) op ns) (hlater : LaterSessions f (COpts.of o).refsPath ns (withFile x n true b a d).2.2 d')
    {q : PathArg} (hq : Addr q ns) {m : Nat} (hm : n ≤ m) (y : Ctx) :
    (∀ (c : FileArgs) (o' : Options), c.filename = .str f → OptionsFor true c.options c.kw o' → (COpts.of o').refsPath = (COpts.of o).refsPath →
      ReadableWith (COpts.of o) (COpts.of o') v → modRead y m q c d' = .ok v) ∧
    ∀ (c : FileArgs) (w : Bool) (o' : Options) (ub' : Nat) (G : FileS), openWith w c d' = .ok (f, o', ub', G) → (w = true → c.truncExisting = false ∧ c.truncInvalid = false) →
      (COpts.of o').refsPath = (COpts.of o).refsPath → ReadableWith (COpts.of o) (COpts.of o') v → (withFile y m w (readBlock q) c d').1 = .ok v := by
  have hN := Spec.RtOpts.names hR
  obtain ⟨gs, t, s1, g, ob, wr⟩ := wrote_run (x := x.with o) hN ⟨hw.refs, hw.reach, hw.rw, hw.addr, hw.notRoot, hw.ok⟩
  have hst : StoredAt (x.with o) n F'.st.heap ns v := by
    have hrun : writeOne (x.with o) n (gs, t) v (fileOps (x.with o) n ops1 F).2.st = (.ok ob, F'.st) := by
      unfold writeOne
      exact (run_bind_ok wr.req).trans wr.run
    have := writeOne_stored hR wr.inv0 wr.tree0 (wr.names ▸ wr.off) (wr.names ▸ hw.free) hw.draws hv hrun
    rwa [← wr.names] at this
  have hF' : Reach (x.with o) F' := by
    have := Reach.wrote n [(p, v)] hw.reach (by
      intro pv hpv ha
      simp only [List.mem_singleton] at hpv
      subst hpv
      exact hw.notRoot (addr_unique hw.addr ha))
    have h2 : (fileWrites (x.with o) n [(p, v)] (fileOps (x.with o) n ops1 F).2).2 = F' := congrArg Prod.snd hw.ok
    rwa [h2] at this
  obtain ⟨aw, hre⟩ := fileOps_away (n := n) hw.refs hN hF' wr.off hel
  have hst2 := hst.away aw
  have hd0 : (withFile x n true b a d).2.2 f = some (.h5 ub (fileOps (x.with o) n ops2 F').2.st.heap) := by
    have e1 : (withFile x n true b a d).2.2 = d.put f (.h5 ub (b.run (x.with o) n F).2.st.heap) := by
      unfold withFile
      rw [hopen]
      rfl
    rw [e1, calls_run hcalls, fileOps_append]
    unfold Disk.put
    rw [if_pos rfl]
    have : (fileOps (x.with o) n (.write p v :: ops2) (fileOps (x.with o) n ops1 F).2).2 = (fileOps (x.with o) n ops2 F').2 := by
      rw [fileOps]
      show (fileOps (x.with o) n ops2 (fileWrite (x.with o) n p v (fileOps (x.with o) n ops1 F).2).2).2 = _
      rw [hw.ok]
    rw [this]
  obtain ⟨ub', hp, h1, h2, h3⟩ := sessions_stored (x := x.with o) hw.refs wr.off hlater ⟨ub, _, hd0, (reach_keep hw.refs hN hre).2, hst2⟩
  have hrb := h3.readsBack hw.refs wr.off
  constructor
  · intro c o' hc ho' href hrd
    rw [(C46_read hc h1 ho').1]
    exact hrb (y.with o') (FileS.new hp false) q m href hrd rfl rfl hq hm
  · intro c w o' ub'' G hG htr href hrd
    obtain ⟨c1, c2, hp', c3, rfl⟩ := openWith_ok hG
    have hh : hp' = hp := by
      cases w with
      | false =>
        have := openDisk_read c3
        rw [h1] at this
        cases this; rfl
      | true =>
        obtain ⟨t1, t2⟩ := htr rfl
        rw [h1] at c3
        unfold openDisk at c3
        rw [t1, t2] at c3
        simp at c3
        exact c3.2.symm
    subst hh
    have hrd' := hrb (y.with o') (FileS.new hp' w) q m href hrd rfl rfl hq hm
    unfold withFile
    rw [hG]
    show ((outOf Out.val (fileRead (y.with o') m q (FileS.new hp' w))).bind fun o => match o with | .val v => .ok v | _ => .error .other) = _
    rw [hrd']
    rfl

-- The example of `C46_write_read`: the block writes to '/x/z', asks for the number of variables and raises an exception; after that something else is written to the same file and to
-- another one.
def exArgs : FileArgs := ⟨.str p!"a.mat", false, false, none, []⟩
def exBlock : Block Unit := .call (.write (.str p!"x/z") (.seq .list [.int 7])) fun _ => .call .len fun _ => .done (.error .valueError)
def exMid : Disk := (withFile exX 10 true exBlock exArgs exDisk).2.2
def exEnd : Disk := (withFile exX 10 true (writeBlock (.int 1) (.str p!"v")) exArgs (withFile exX 10 true (writeBlock (.int 2) (.str p!"x/z")) { exArgs with filename := .str p!"b.mat" } exMid).2.2).2.2

example : ∃ (o : Options) (F F' : FileS), openWith true exArgs exDisk = .ok (p!"a.mat", o, 512, F) ∧ RtOpts (COpts.of o) ∧
    Calls (exX.with o) 10 exBlock F ([] ++ .write (.str p!"x/z") (.seq .list [.int 7]) :: [.len]) (.error .valueError) ∧
    WroteNew (exX.with o) 10 (fileOps (exX.with o) 10 [] F).2 (.str p!"x/z") [p!"x", p!"z"] (.seq .list [.int 7]) F' ∧ Good (COpts.of o) (.seq .list [.int 7]) ∧
    (∀ op ∈ [Op.len], Elsewhere (COpts.of o) op [p!"x", p!"z"]) ∧ LaterSessions p!"a.mat" (COpts.of o).refsPath [p!"x", p!"z"] exMid exEnd ∧ exDisk p!"b.mat" = none ∧ exEnd p!"b.mat" ≠ none := by
  have h1 : ∃ o, fileOptions exArgs = .ok o ∧ RtOpts (COpts.of o) ∧ RefsPathOk (COpts.of o) ∧
      (fileWrite (exX.with o) 10 (.str p!"x/z") (.seq .list [.int 7]) (FileS.new (exWritten (.seq .list [.int 7])).st.heap true)).1 = .ok () ∧
      (fileWrite (exX.with o) 10 (.str p!"x/z") (.seq .list [.int 7]) (FileS.new (exWritten (.seq .list [.int 7])).st.heap true)).2.st.rpos ≤ 1 := by
    exact ⟨_, rfl, ⟨by decide +kernel, fun _ => by decide +kernel, by decide +kernel, by decide +kernel⟩, ⟨by decide +kernel, by decide +kernel⟩, by decide +kernel, by decide +kernel⟩
  obtain ⟨o, a1, a2, a3, a5, a6⟩ := h1
  have hfor : OptionsFor false exArgs.options exArgs.kw o := (fileOptions_iff exArgs o).mp a1
  have hone : ∀ o', OptionsFor false exArgs.options exArgs.kw o' → o' = o := by
    intro o' ho'
    have := (fileOptions_iff exArgs o').mpr ho'
    rw [a1] at this
    cases this; rfl
  refine ⟨o, FileS.new (exWritten (.seq .list [.int 7])).st.heap true, _, ?_, a2, ?_, ⟨a3, ?_, rfl, ⟨p!"x", p!"z", by decide, by decide⟩, by decide, ?_, ?_, pair_of_fst a5⟩, ?_, ?_, ?_, rfl, ?_⟩
  · refine openWith_of (c := (512, _)) rfl a1 ?_
    cases (COpts.of o).matlab <;> rfl
  · exact .call (.call (.done _ _))
  · refine .opened _ true (reach_keep ⟨rfl, by decide⟩ (Spec.RtOpts.names ex_rtOpts) (.wrote 10 [(.str p!"/x/y", .seq .list [.int 7])] ex_reach ?_)).2
    intro pv hpv ha
    simp only [List.mem_singleton] at hpv
    subst hpv
    have := addr_unique ha ⟨p!"/x", p!"y", by decide, rfl⟩
    revert this; decide
  · rintro ⟨q, hq⟩
    have h3 := (resolve_iff_lpath (by intro c hc; simp only [List.mem_cons, List.not_mem_nil, or_false] at hc; rcases hc with rfl | rfl <;> decide) q).mp hq
    have h2 : resolve (exWritten (.seq .list [.int 7])).st.heap 0 [p!"x", p!"z"] = none := by decide +kernel
    have h3 : resolve (exWritten (.seq .list [.int 7])).st.heap 0 [p!"x", p!"z"] = some q := h3
    rw [h2] at h3
    cases h3
  · intro i j _ h2 h3
    have : j < 1 := Nat.lt_of_lt_of_le h3 a6
    omega
  · exact .seq .list _ nofun (fun v hv => (by simp only [List.mem_singleton] at hv; rw [hv]; exact .int 7))
  · intro op hop
    rw [List.mem_singleton.mp hop]; trivial
  · refine .session Unit exX 10 true _ _ (.session Unit exX 10 true _ _ (.none _) (fun h => by cases h)) ?_
    intro _ _ ub h o' hd ho'
    rw [hone o' ho']
    refine ⟨rfl, fun _ h => (by cases h), rfl, a2.names, ?_⟩
    intro ops r hc op hop
    cases hc with
    | call hc =>
      cases hc
      rw [List.mem_singleton.mp hop]
      exact ex_elsewhere p!"/" p!"v" _ _ (by decide) (by decide)
  · decide +kernel

end HS
