import Verif.Lemmas.MatWrite
import Verif.Lemmas.AttrsNew
import Verif.Props.Storage
import Verif.Props.Options
import Verif.Props.Mat
/-
C59: what is in a file written with `matlab_compatible` is as MATLAB expects it.
-/
namespace HS
open Spec

/-- What `matlab_compatible` means for the marshallers. -/
theorem matO_of {o : Options} (h : ReachableOptions o) (hm : o .matlabCompatible = .bool true) (ha : o .actionForMatlabIncompatible ≠ .str p!"ignore") :
    MatO (COpts.of o) := by
  have t := C08_matlab_table o h hm
  have tb : ∀ n, (n, PyVal.bool true) ∈ matlabTable → boolOf o n = true := by
    intro n hn
    unfold boolOf
    rw [t n _ hn]
    rfl
  refine ⟨?_, ?_, tb _ (by simp [matlabTable]), tb _ (by simp [matlabTable]), tb _ (by simp [matlabTable]), tb _ (by simp [matlabTable]), tb _ (by simp [matlabTable]), ?_⟩
  · show boolOf o _ = _
    unfold boolOf
    rw [hm]; rfl
  · show (if _ then _ else _) ≠ _
    rcases C09_always_valid o h .actionForMatlabIncompatible with e | e | e
    · exact absurd e ha
    · have : strOf o .actionForMatlabIncompatible = p!"discard" := by unfold strOf; rw [e]
      rw [this]; decide
    · have : strOf o .actionForMatlabIncompatible = p!"error" := by unfold strOf; rw [e]
      rw [this]; decide
  · show (match o .complexNames with | .tuple [.str a, .str b] => (a, b) | _ => ([], [])) = _
    rw [t .complexNames (.tuple [.str p!"real", .str p!"imag"]) (by simp [matlabTable])]

/-- C59. Options with `matlab_compatible`, incompatible data not ignored: whatever is done with a file all of whose objects are as MATLAB expects them, by whatever
calls of its methods and whether they succeed or raise in the middle, all its objects are as MATLAB expects them. -/
theorem C59_matlab {o : Options} (ho : ReachableOptions o) (hm : o .matlabCompatible = .bool true) (ha : o .actionForMatlabIncompatible ≠ .str p!"ignore")
    {x : Ctx} (hx : x.o = COpts.of o) (n : Nat) (ops : List Op) (hv : ∀ op ∈ ops, ∀ v ∈ written op, NumpyOk v) (F : FileS) (hF : MatFile F.st.heap) :
    MatFile (fileOps x n ops F).2.st.heap :=
  fileOps_mat (hx ▸ matO_of ho hm ha) ops hv hF

/-- C59. In particular in a new file. -/
theorem C59_new_file {o : Options} (ho : ReachableOptions o) (hm : o .matlabCompatible = .bool true) (ha : o .actionForMatlabIncompatible ≠ .str p!"ignore")
    {x : Ctx} (hx : x.o = COpts.of o) (n : Nat) (ops : List Op) (hv : ∀ op ∈ ops, ∀ v ∈ written op, NumpyOk v) (w : Bool) :
    MatFile (fileOps x n ops (FileS.new emptyHeap w)).2.st.heap :=
  C59_matlab ho hm ha hx n ops hv _ matFile_empty

/-- All HDF5 files on the disk have only objects as MATLAB expects them. -/
def Spec.MatDisk (d : Disk) : Prop := ∀ f ub h, d f = some (.h5 ub h) → MatFile h

theorem openDisk_mat {c : Option DFile} (hc : ∀ ub h, c = some (.h5 ub h) → MatFile h) {w t i m : Bool} {r : Nat × Heap} (h : openDisk c w t i m = .ok r) : MatFile r.2 := by
  unfold openDisk at h
  cases w with
  | false =>
    cases c with
    | none => cases h
    | some c =>
      cases c with
      | junk => cases h
      | h5 ub hp => cases h; exact hc _ _ rfl
  | true =>
    cases c with
    | none => cases h; exact matFile_empty
    | some c =>
      cases t with
      | true => cases h; exact matFile_empty
      | false =>
        cases c with
        | junk => cases h
        | h5 ub hp =>
          simp only [Bool.not_true, Bool.false_eq_true, if_false] at h
          split at h
          · cases h; exact matFile_empty
          · cases h; exact hc _ _ rfl

theorem modWrites_mat {x : Ctx} {n : Nat} {m : List (PathArg × Val)} {a : FileArgs} {d : Disk} (hd : MatDisk d)
    (hO : ∀ o, fileOptions a = .ok o → MatO (COpts.of o)) (hv : ∀ pv ∈ m, NumpyOk pv.2) : MatDisk (modWrites x n m a d).2 := by
  unfold modWrites
  cases hf : a.filename with
  | str f =>
    dsimp only
    cases ho : fileOptions a with
    | error e => exact hd
    | ok o =>
      dsimp only
      cases hc : openDisk (d f) true a.truncExisting a.truncInvalid (COpts.of o).matlab with
      | error e => exact hd
      | ok c =>
        dsimp only
        intro g ub h hg
        unfold Disk.put at hg
        split at hg
        · cases hg
          exact fileWrites_mat (x := x.with o) (hO o ho) hv (openDisk_mat (fun ub h e => hd f ub h e) hc)
        · exact hd g ub h hg
  | bytes b => exact hd
  | other => exact hd

theorem kwOptions_reachable {kw : List (Opt × PyVal)} {o : Options} (h : kwOptions kw = .ok o) : ReachableOptions o := ⟨_, o, [], h, rfl⟩

/-- C59. `savemat`: whatever it is given and whatever comes of it, if the HDF5 files are as MATLAB expects them before, they are so afterwards. -/
theorem C59_savemat (x : Ctx) (n : Nat) (f : FName) (m : List (PathArg × Val)) (a : SaveArgs) (ha : a.action ≠ .str p!"ignore") (hv : ∀ pv ∈ m, NumpyOk pv.2)
    (d : Disk) (hd : MatDisk d) : MatDisk (savemat x n f m a d).2 := by
  unfold savemat
  split
  · exact hd
  dsimp only
  cases ho : savematOptions a with
  | error e => exact hd
  | ok o =>
    refine modWrites_mat hd ?_ hv
    intro o' ho'
    have e : o' = o := by
      have : (Except.ok o : Res Options) = .ok o' := ho'
      cases this; rfl
    subst e
    obtain ⟨c1, _, c3⟩ := C09_constructor _ o' ho
    refine matO_of (kwOptions_reachable ho) (c1 true rfl) ?_
    have c := c3 .actionForMatlabIncompatible (by decide) (fun h => absurd h.2 (by simp [matlabTable]))
    by_cases hval : validOpt .actionForMatlabIncompatible a.action
    · rw [c.1 hval]; exact ha
    · rw [c.2 hval]; intro h; cases h

/-- C59. The function `writes` (and `write`): the same, if the options in effect have `matlab_compatible` and do not ignore incompatible data. -/
theorem C59_writes (x : Ctx) (n : Nat) (m : List (PathArg × Val)) (a : FileArgs) (hO : ∀ o, fileOptions a = .ok o → ReachableOptions o ∧
      o .matlabCompatible = .bool true ∧ o .actionForMatlabIncompatible ≠ .str p!"ignore") (hv : ∀ pv ∈ m, NumpyOk pv.2)
    (d : Disk) (hd : MatDisk d) : MatDisk (modWrites x n m a d).2 :=
  modWrites_mat hd (fun o ho => matO_of (hO o ho).1 (hO o ho).2.1 (hO o ho).2.2) hv

/-- What is written to an unused place is not discarded if there is a class for it. -/
theorem docClass_kept {o : COpts} (hO : MatO o) {v : Val} {cl : Str} (h : DocClass v cl) : ¬ Discarded o v := by
  rintro ⟨_, _, ⟨c, a, rfl, h1⟩ | ⟨h1, _⟩⟩
  · cases h with
    | np _ _ _ h2 =>
      rcases h1 with h1 | ⟨r, i, d, h1⟩ | ⟨_, _, _, _, h1⟩ <;> rw [h1] at h2 <;> cases h2
  · rw [hO.asStruct] at h1; cases h1

theorem dictAttrs_mat {o : COpts} (hm : o.matlab = true) (info : Option (List (Str × Nat))) {st : Bool} (hs : st = true) (ts : Str) :
    aget (dictAttrs o info st ts) p!"MATLAB_class" = some (.string p!"struct") := by
  unfold dictAttrs
  rw [hm, hs]
  cases info with
  | none => cases o.pyMeta <;> rfl
  | some l => cases o.pyMeta <;> cases h : (l.all fun i => i.1.all (· < 128)) <;> simp [aget, h]

/-- The attributes that are to be set have the class. -/
theorem newAttrs_class {o : COpts} (hO : MatO o) {v : Val} {cl : Str} (hc : DocClass v cl) {b : Body} {new : List (Str × AIn)} (h : NewAttrs o v b new) :
    (akeys new).Nodup ∧ aget new p!"MATLAB_class" = some (.string cl) := by
  cases h with
  | leaf _ c a d f hl _ _ => exact ⟨npAttrs_nodup _ _ _ _ _ _ _, (npAttrs_mat hO.matlab c (leafClass hc hl) _ _ _ _).1⟩
  | npObj c shape elems d f _ => cases hc; exact ⟨npAttrs_nodup _ _ _ _ _ _ _, (npAttrs_mat hO.matlab c (dt := .object) rfl _ _ _ _).1⟩
  | seq k elems d f _ => cases hc; exact ⟨npAttrs_nodup _ _ _ _ _ _ _, (npAttrs_mat hO.matlab .ndarray (dt := .object) rfl _ _ _ _).1⟩
  | dict k keys vals l =>
    have : (k != .counter) = true ∧ cl = p!"struct" := by cases hc <;> exact ⟨rfl, rfl⟩
    rw [this.2]
    exact ⟨dictAttrs_nodup _ _ _ _, dictAttrs_mat hO.matlab _ this.1 _⟩
  | record k vals l => cases hc; exact ⟨dictAttrs_nodup _ _ _ _, dictAttrs_mat hO.matlab _ rfl _⟩
  | structEmpty c shape names types elems esc f _ _ => cases hc; exact ⟨structAttrs_nodup _ _ _ _ _ _ _, (structAttrs_mat hO _ _ _ _ _ _).1⟩
  | struct c shape names types elems esc l _ _ _ => cases hc; exact ⟨structAttrs_nodup _ _ _ _ _ _ _, (structAttrs_mat hO _ _ _ _ _ _).1⟩
  | table c shape names types elems esc f _ _ hg =>
    unfold structAsGroup at hg
    rw [hO.asStruct] at hg
    simp at hg

/-- C59. Something written to an unused place has the class documented for it. -/
theorem C59_class {o : Options} (ho : ReachableOptions o) (hm : o .matlabCompatible = .bool true) (ha : o .actionForMatlabIncompatible ≠ .str p!"ignore")
    {x : Ctx} (hx : x.o = COpts.of o) (hN : NamesOk x.o) {n : Nat} {F F' : FileS} {p : PathArg} {ns : List Str} {v : Val} (hw : Wrote x n F p ns v F')
    (hfree : ¬ Exists F.st.heap ns) {cl : Str} (hc : DocClass v cl) :
    ∃ (q : Nat) (ob : Obj), LPath F'.st.heap ns q ∧ F'.st.heap[q]? = some ob ∧ aget ob.attrs p!"MATLAB_class" = some (.bytes cl) := by
  have hO : MatO x.o := hx ▸ matO_of ho hm ha
  obtain ⟨q, at', b, new, h1, h2, h3, h4⟩ := wrote_new hN hw hfree (docClass_kept hO hc)
  obtain ⟨h5, h6⟩ := newAttrs_class hO hc h3
  obtain ⟨v, h7, h8⟩ := fresh_stored h5 h4 h6
  exact ⟨q, _, h1, h2, by rw [h8, (stored_string h7).1]⟩

-- The hypotheses are met: default options, and a list, a dict, an array, text and an empty array are written, one of them over something else.
theorem ex_options : ∃ o, ReachableOptions o ∧ o .matlabCompatible = .bool true ∧ o .actionForMatlabIncompatible ≠ .str p!"ignore" ∧ exX.o = COpts.of o := by
  obtain ⟨o, h, e⟩ : ∃ o, newOptions Options.default = .ok o ∧ COpts.of o = exOpts := ⟨_, rfl, by decide +kernel⟩
  obtain ⟨c1, _, c3⟩ := C09_constructor _ o h
  have c := (c3 .actionForMatlabIncompatible (by decide) (fun h => absurd h.2 (by simp [matlabTable]))).1 (Or.inr (Or.inr rfl))
  refine ⟨o, ⟨_, o, [], h, rfl⟩, c1 true rfl, ?_, e.symm⟩
  rw [c]
  intro h; cases h

theorem numpyOk_np {c : Cont} {a : Arr} (h1 : c = .scalar → a.shape = []) (h2 : a.dt ≠ .object) : NumpyOk (.np c a) := by
  refine ⟨?_, ?_, ?_⟩
  · intro b h; cases h; exact h1 rfl
  · intro d b h; cases h; exact h2
  · intro c sh n t e h; cases h

/-- Calls of `write`. -/
def exMatOps : List Op :=
  [.write (.str p!"/a") (.seq .list [.str p!"xy", .np .ndarray ⟨.f64, [2], [.num 1, .num 2]⟩]), .write (.str p!"/a") (.np .ndarray ⟨.bool, [0, 3], []⟩),
   .write (.str p!"/b") (.np .ndarray ⟨.f16, [1], [.num 1]⟩), .del (.str p!"/a"), .write (.str p!"/c") (.np .scalar ⟨.c128, [], [.cplx 1 2]⟩)]

theorem ex_numpyOk : ∀ op ∈ exMatOps, ∀ v ∈ written op, NumpyOk v := by
  intro op hop v hv
  simp only [exMatOps, List.mem_cons, List.not_mem_nil, or_false] at hop
  rcases hop with rfl | rfl | rfl | rfl | rfl <;> simp only [written, List.mem_singleton, List.not_mem_nil] at hv
  · subst hv
    refine numpyOk_seq ?_
    intro e he
    simp only [List.mem_cons, List.not_mem_nil, or_false] at he
    rcases he with rfl | rfl
    · exact numpyOk_str _
    · exact numpyOk_np nofun nofun
  · subst hv; exact numpyOk_np nofun nofun
  · subst hv; exact numpyOk_np nofun nofun
  · subst hv; exact numpyOk_np (fun _ => rfl) nofun

example : ∃ o, ReachableOptions o ∧ o .matlabCompatible = .bool true ∧ o .actionForMatlabIncompatible ≠ .str p!"ignore" ∧ exX.o = COpts.of o ∧
    (∀ op ∈ exMatOps, ∀ v ∈ written op, NumpyOk v) ∧ MatFile exF.st.heap ∧
    (fileOps exX 10 exMatOps exF).2.st.heap.length = 8 := by
  obtain ⟨o, h1, h2, h3, h4⟩ := ex_options
  exact ⟨o, h1, h2, h3, h4, ex_numpyOk, matFile_empty, by decide +kernel⟩

-- `savemat` of a dict with an array to a file that is not there.
example : ∃ (a : SaveArgs) (m : List (PathArg × Val)), a.action ≠ .str p!"ignore" ∧ (∀ pv ∈ m, NumpyOk pv.2) ∧ MatDisk (fun _ => none) ∧
    (match (savemat exX 10 (.str p!"f") m a (fun _ => none)).2 p!"f.mat" with | some (.h5 _ h) => h.length | _ => 0) = 2 :=
  ⟨⟨true, false, .str p!"row", .bool false, .str p!"error", false, false⟩, [(.str p!"x", .np .ndarray ⟨.f64, [2], [.num 1, .num 2]⟩)], (by intro h; cases h), (by
    intro pv hpv
    rw [List.mem_singleton.mp hpv]
    exact numpyOk_np nofun nofun), nofun, by decide +kernel⟩

-- The function `writes` with default options.
example : ∃ a : FileArgs, (∀ o, fileOptions a = .ok o → ReachableOptions o ∧ o .matlabCompatible = .bool true ∧ o .actionForMatlabIncompatible ≠ .str p!"ignore") ∧
    ∃ o, fileOptions a = .ok o := by
  obtain ⟨o, h1, h2, h3, h4⟩ := ex_options
  exact ⟨⟨.str p!"f", false, false, some o, []⟩, fun o' h => by cases h; exact ⟨h1, h2, h3⟩, o, rfl⟩

-- Text written to an unused place.
example : ∃ F', Wrote exX 10 exF (.str p!"/x/y") [p!"x", p!"y"] (.str p!"ab") F' ∧ ¬ Exists exF.st.heap [p!"x", p!"y"] ∧ DocClass (.str p!"ab") p!"char" ∧ NamesOk exX.o := by
  obtain ⟨F', h⟩ := ex_writes (.str p!"ab") (by decide +kernel) (by decide +kernel)
  exact ⟨F', ⟨h.refs, h.reach, h.rw, h.addr, h.notRoot, h.ok⟩, h.free, .str _, ex_rtOpts.names⟩

theorem not_matFile {h : Heap} {p : Nat} {ob : Obj} (hp : h[p]? = some ob) (a : Arr) (f : Filters) (hb : ob.body = .dset a f) (hr : a.dt ≠ .ref) (hc : aget ob.attrs p!"MATLAB_class" = none) :
    ¬ MatFile h := by
  intro hm
  have := hm p ob hp
  unfold MatObj at this
  rw [hb] at this
  rcases this with ⟨_, _, ⟨c, h1, _⟩, _⟩ | ⟨_, _, _, ⟨c, h1, _⟩ | ⟨h1, _⟩, _⟩
  · rw [hc] at h1; cases h1
  · rw [hc] at h1; cases h1
  · exact hr h1

/-- If incompatible data are ignored there are Datasets MATLAB has no class for. -/
theorem C59_ignore : exXignore.o.matlab = true ∧ ¬ MatFile (fileWrite exXignore 10 (.str p!"/x") (.np .ndarray ⟨.f16, [1], [.num 1]⟩) exF).2.st.heap :=
  ⟨rfl, not_matFile (p := 1) (ob := (fileWrite exXignore 10 (.str p!"/x") (.np .ndarray ⟨.f16, [1], [.num 1]⟩) exF).2.st.heap.getD 1 ⟨[], .group []⟩) (by decide +kernel)
    ⟨.f16, [1, 1], [.num 1]⟩ ⟨none, some none, false, false, false⟩ (by decide +kernel) (by decide) (by decide +kernel)⟩

/-- F46: a structured array without elements whose field has a name that cannot be encoded: `write` raises, but the Dataset is left, without its class. -/
theorem C59_counterexample : ¬ MatFile (fileWrite exX 10 (.str p!"/x") (.npStruct .ndarray [0] [[0xD800]] [.base .f64 []] []) exF).2.st.heap ∧
    raised (fileWrite exX 10 (.str p!"/x") (.npStruct .ndarray [0] [[0xD800]] [.base .f64 []] []) exF).1 = some .unicodeError :=
  ⟨not_matFile (p := 1) (ob := (fileWrite exX 10 (.str p!"/x") (.npStruct .ndarray [0] [[0xD800]] [.base .f64 []] []) exF).2.st.heap.getD 1 ⟨[], .group []⟩) (by decide +kernel)
    ⟨.u64, [2], [.num 1, .num 0]⟩ ⟨none, some none, false, false, false⟩ (by decide +kernel) (by decide) (by decide +kernel), by decide +kernel⟩

/-- F3: a bool array overwritten by a uint8 array of the same shape keeps the class 'logical'. -/
theorem C59_counterexample_overwritten : ∃ F1 F2, fileWrite exX 10 (.str p!"/x") (.np .ndarray ⟨.bool, [1], [.num 1]⟩) exF = (.ok (), F1) ∧
    fileWrite exX 10 (.str p!"/x") (.np .ndarray ⟨.u8, [1], [.num 5]⟩) F1 = (.ok (), F2) ∧
    (F2.st.heap[1]?.map fun ob => aget ob.attrs p!"MATLAB_class") = some (some (.bytes p!"logical")) := by
  refine ⟨_, _, pair_of_fst (by decide +kernel), pair_of_fst (by decide +kernel), by decide +kernel⟩

end HS
