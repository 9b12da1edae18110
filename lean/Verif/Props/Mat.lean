import Verif.Props.ReadOpts
import Verif.Props.File
import Verif.Lemmas.Mat
/-
C44, C45, C46: the functions of the module.
-/
namespace HS
open Spec

theorem default_options (reading : Bool) : ∃ o, OptionsFor reading none [] o ∧ (COpts.of o).refsPath = p!"/#refs#" ∧ (COpts.of o).structsAsDicts = false := by
  let args : Opt → PyVal := fun n => if reading ∧ n = .matlabCompatible then .bool false else Options.default n
  obtain ⟨o, ho⟩ : ∃ o, newOptions args = .ok o := by
    cases reading with
    | true => exact ⟨_, rfl⟩
    | false => exact ⟨_, rfl⟩
  refine ⟨o, Or.inr ⟨rfl, args, ho, fun n => ⟨nofun, fun _ => rfl⟩⟩, ?_, ?_⟩ <;> obtain ⟨_, h2, h3⟩ := newOptions_value _ o ho
  case refine_2 =>
    have := (h3 .structsAsDicts (by decide) (fun h => by revert h; simp [matlabTable])).1 (by
      have : args .structsAsDicts = .bool false := by
        show (if _ then _ else _) = _
        rw [if_neg (by rintro ⟨_, h⟩; cases h)]
        rfl
      rw [this]
      exact ⟨_, rfl⟩)
    have e : o .structsAsDicts = .bool false := by
      rw [this]
      show (if _ then _ else _) = _
      rw [if_neg (by rintro ⟨_, h⟩; cases h)]
      rfl
    show boolOf o .structsAsDicts = _
    unfold boolOf
    rw [e]
    rfl
  show strOf o .groupForReferences = _
  have : o .groupForReferences = .str p!"/#refs#" := by
    by_cases hm : args .matlabCompatible = .bool true
    · exact h2 hm _ _ (by simp [matlabTable])
    · have := (h3 .groupForReferences (by decide) (fun h => hm h.1)).1 (by
        have : args .groupForReferences = .str p!"/#refs#" := by
          show (if _ then _ else _) = _
          rw [if_neg (by rintro ⟨_, h⟩; cases h)]
          rfl
        rw [this]
        exact ⟨_, rfl, rfl, by decide⟩)
      rw [this]
      show (if _ then _ else _) = _
      rw [if_neg (by rintro ⟨_, h⟩; cases h)]
      rfl
  unfold strOf
  rw [this]

/-! ### C44 -/

/-- There is exactly one name of the file for given arguments. -/
theorem C44_name_unique (b : Bool) (s : Str) : ∃ t, MatName b s t ∧ ∀ u, MatName b s u → u = t := by
  have hex : ∃ t, MatName b s t := by
    cases b with
    | false => exact ⟨s, Or.inl ⟨rfl, rfl⟩⟩
    | true =>
      by_cases h : ∃ b, s = b ++ p!".mat"
      · exact ⟨s, Or.inr (Or.inl ⟨rfl, h, rfl⟩)⟩
      · exact ⟨s ++ p!".mat", Or.inr (Or.inr ⟨rfl, h, rfl⟩)⟩
  obtain ⟨t, ht⟩ := hex
  refine ⟨t, ht, fun u hu => ?_⟩
  have := (matName_of hu).1.symm.trans (matName_of ht).1
  cases this; rfl

theorem modWrites_frame (x : Ctx) (n : Nat) (m : List (PathArg × Val)) (a : FileArgs) (d : Disk) {t : Str} (ht : a.filename = .str t) {g : Str} (hg : g ≠ t) :
    (modWrites x n m a d).2 g = d g := by
  unfold modWrites
  rw [ht]
  dsimp only
  split
  · rfl
  · split
    · rfl
    · simp [Disk.put, hg]

theorem modWrites_made {x : Ctx} {n : Nat} {m : List (PathArg × Val)} {a : FileArgs} {d : Disk} {t : Str} (ht : a.filename = .str t) {u : Unit}
    (h : (modWrites x n m a d).1 = .ok u) : ∃ ub hp, (modWrites x n m a d).2 t = some (.h5 ub hp) := by
  unfold modWrites at h ⊢
  rw [ht] at h ⊢
  dsimp only at h ⊢
  cases ho : fileOptions a with
  | error e => rw [ho] at h; cases h
  | ok o =>
    rw [ho] at h
    dsimp only at h ⊢
    cases hc : openDisk (d t) true a.truncExisting a.truncInvalid (COpts.of o).matlab with
    | error e => rw [hc] at h; cases h
    | ok c => exact ⟨c.1, _, by simp [Disk.put]; rfl⟩

/-- C44. `savemat` does what it does on the file with exactly that name, whatever the name given: everything is as if the exact name had been given without
`appendmat`, no other file is changed, and after success the file is there.  For the old formats SciPy's function is called with the same arguments. -/
theorem C44_savemat {a : SaveArgs} {s t : Str} (h : MatName a.appendmat s t) (x : Ctx) (n : Nat) (m : List (PathArg × Val)) (d : Disk) :
    (a.old = true → savemat x n (.str s) m a d = (.scipy (.str s) a.appendmat, d)) ∧
    (a.old = false → savemat x n (.str s) m a d = savemat x n (.str t) m { a with appendmat := false } d ∧
      (∀ g, g ≠ t → (savemat x n (.str s) m a d).2 g = d g) ∧
      ∀ u, (savemat x n (.str s) m a d).1 = .done (.ok u) → ∃ ub hp, (savemat x n (.str s) m a d).2 t = some (.h5 ub hp)) := by
  obtain ⟨h1, _⟩ := matName_of h
  constructor
  · intro ho
    simp [savemat, ho]
  · intro ho
    refine ⟨?_, ?_, ?_⟩
    · simp only [savemat, ho, h1]
      rfl
    · intro g hg
      simp only [savemat, ho, h1, Bool.false_eq_true, if_false]
      split
      · rfl
      · exact modWrites_frame x n m _ d rfl hg
    · intro u
      simp only [savemat, ho, h1, Bool.false_eq_true, if_false]
      cases ho : savematOptions a with
      | error e => intro h; cases h
      | ok o =>
        intro h
        dsimp only at h ⊢
        exact modWrites_made rfl (u := u) (MatOut.done.inj h)

/-- C44. `loadmat` depends on the file with exactly that name only, and does what it does if the exact name is given without `appendmat`. -/
theorem C44_loadmat {a : LoadArgs} {s t : Str} (h : MatName a.appendmat s t) (x : Ctx) (n : Nat) (d : Disk) :
    (∀ d' : Disk, d' t = d t → loadmat x n (.str s) a d' = loadmat x n (.str s) a d) ∧
    (∀ r, loadmat x n (.str s) a d = .done r ↔ loadmat x n (.str t) { a with appendmat := false } d = .done r) ∧
    (loadmat x n (.str s) a d = .scipy (.str s) a.appendmat ↔ loadmat x n (.str t) { a with appendmat := false } d = .scipy (.str t) false) := by
  obtain ⟨_, h1⟩ := matName_of h
  have e : loadmatTry x n (.str t) { a with appendmat := false } d = loadmatTry x n (.str s) a d := by
    unfold loadmatTry
    rw [h1]
    rfl
  refine ⟨?_, ?_, ?_⟩
  · intro d' hd
    have : loadmatTry x n (.str s) a d' = loadmatTry x n (.str s) a d := by
      unfold loadmatTry openRead
      rw [h1]
      dsimp only
      rw [hd]
    unfold loadmat
    rw [this]
  · intro r
    unfold loadmat
    rw [e]
    cases loadmatTry x n (.str s) a d with
    | ok r' => exact Iff.rfl
    | error e =>
      dsimp only
      split
      · exact ⟨nofun, nofun⟩
      · exact Iff.rfl
  · unfold loadmat
    rw [e]
    cases loadmatTry x n (.str s) a d with
    | ok r' => exact ⟨nofun, nofun⟩
    | error e =>
      dsimp only
      split
      · exact ⟨fun _ => rfl, fun _ => rfl⟩
      · exact ⟨nofun, nofun⟩

-- Names with and without the ending.
example : MatName true p!"a" p!"a.mat" ∧ MatName true p!"a.mat" p!"a.mat" ∧ MatName false p!"a" p!"a" ∧ MatName true p!"a.mat.x" p!"a.mat.x.mat" := by
  have hno : ∀ s : Str, endsWith s p!".mat" = false → ¬ ∃ b, s = b ++ p!".mat" := fun s h he => by
    rw [← endsWith_iff, h] at he; cases he
  exact ⟨Or.inr (Or.inr ⟨rfl, hno _ (by decide), rfl⟩), Or.inr (Or.inl ⟨rfl, ⟨p!"a", rfl⟩, rfl⟩), Or.inl ⟨rfl, rfl⟩, Or.inr (Or.inr ⟨rfl, hno _ (by decide), rfl⟩)⟩

/-- F38: a name given as `bytes`, which both functions provide for, raises `TypeError` in `File`. -/
theorem C44_counterexample (x : Ctx) (n : Nat) (b : Bytes) (m : List (PathArg × Val)) (a : SaveArgs) (o : Options) (ha : a.old = false) (ho : savematOptions a = .ok o) (d : Disk) :
    savemat x n (.bytes b) m a d = (.done (.error .typeError), d) := by
  have : ∃ b', savematName a.appendmat (.bytes b) = .bytes b' := by
    unfold savematName
    cases a.appendmat with
    | false => exact ⟨b, rfl⟩
    | true =>
      cases hb : endsWith b p!".mat" with
      | false => exact ⟨b ++ p!".mat", by simp [hb]⟩
      | true => exact ⟨b, by simp [hb]⟩
  obtain ⟨b', hb⟩ := this
  simp [savemat, ha, hb, ho, modWrites]

/-! ### C45 -/

/-- C45. With `variable_names`: for every HDF5 file whatsoever, the dict has the entries of `mdict`, overwritten with those of `variable_names` that can be read,
under the names given and with the values `File.read` gives; it never raises. -/
theorem C45_selected {x : Ctx} {n : Nat} {s t : Str} {a : LoadArgs} {d : Disk} {o : Options} {ub : Nat} {h : Heap} (hn : MatName a.appendmat s t)
    (ho : OptionsFor false a.options [] o) (hd : d t = some (.h5 ub h)) {ns : List PathArg} (hns : a.names = some ns) :
    ∃ r, loadmat x n (.str s) a d = .done (.ok r) ∧ Updated (a.mdict.getD []) (fun k v => k ∈ ns ∧ fileRead (x.with o) n k (FileS.new h false) = .ok v) r := by
  refine ⟨_, by unfold loadmat; rw [loadmatTry_eq hn ho hd, hns]; rfl, ?_⟩
  intro k v
  rw [updateDict_self (loadSome_nodup (x.with o) n (FileS.new h false) ns [] List.nodup_nil) a.mdict rfl, loadSome_get]
  by_cases hk : k ∈ ns
  · rw [if_pos hk]
    cases hr : fileRead (x.with o) n k (FileS.new h false) with
    | ok w =>
      simp only [Option.some.injEq]
      constructor
      · rintro rfl; exact Or.inl ⟨hk, hr⟩
      · rintro (⟨_, h⟩ | ⟨h, _⟩)
        · rw [hr] at h; cases h; rfl
        · exact absurd ⟨hk, hr⟩ (h w)
    | error e =>
      simp only [pget]
      constructor
      · intro h; exact Or.inr ⟨fun w hw => (by rw [hr] at hw; cases hw.2), h⟩
      · rintro (⟨_, h⟩ | ⟨_, h⟩)
        · rw [hr] at h; cases h
        · exact h
  · rw [if_neg hk]
    simp only [pget]
    constructor
    · intro h; exact Or.inr ⟨fun w hw => hk hw.1, h⟩
    · rintro (⟨h, _⟩ | ⟨_, h⟩)
      · exact absurd h hk
      · exact h

/-- A disk with one HDF5 file, `a.mat`, with a list and an int. -/
def exDisk : Disk := fun f => if f = p!"a.mat" then some (.h5 512 (exWritten (.seq .list [.int 7])).st.heap) else none

theorem ex_matName : MatName true p!"a" p!"a.mat" :=
  Or.inr (Or.inr ⟨rfl, fun he => by rw [← endsWith_iff] at he; revert he; decide, rfl⟩)

-- Two of the names in the file and one that is not, and a dict that has one of the keys.
example : ∃ (a : LoadArgs) (ns : List PathArg), MatName a.appendmat p!"a" p!"a.mat" ∧ (∃ o, OptionsFor false a.options [] o) ∧ (∃ ub h, exDisk p!"a.mat" = some (.h5 ub h)) ∧
    a.names = some ns ∧ ns.length = 2 ∧ a.mdict = some [(.str p!"/x/y", .none), (.str p!"z", .int 3)] := by
  refine ⟨⟨some [(.str p!"/x/y", .none), (.str p!"z", .int 3)], true, some [.str p!"/x/y", .str p!"nothing"], none⟩, _, ex_matName, ?_, ⟨_, _, rfl⟩, rfl, rfl, rfl⟩
  obtain ⟨o, h, _⟩ := default_options false
  exact ⟨o, h⟩

/-- C45 (partial). Without `variable_names`: `loadmat` succeeds if and only if every name in the root Group but the references Group's can be read and unescaped, and
then the dict has the entries of `mdict`, overwritten with the values of all of them under their unescaped names (of several with the same one the last in the
order of names).  Missing: files with a name that sorts before the name of the references Group (finding F7, `C45_counterexample`). -/
theorem C45_all_partial {x : Ctx} {n : Nat} {s t : Str} {a : LoadArgs} {d : Disk} {o : Options} {ub : Nat} {h : Heap} (hn : MatName a.appendmat s t)
    (ho : OptionsFor false a.options [] o) (hd : d t = some (.h5 ub h)) (hns : a.names = none) (hdn : DistinctNames h) {r : Str}
    (hr : (COpts.of o).refsPath = slash :: r) (hrn : IsName r) (hs : ∀ k, Exists h [k] → k ≠ r → strLt r k = true) :
    ∃ ks, ListsRoot h (some r) ks ∧
      ((∃ res, loadmat x n (.str s) a d = .done (.ok res)) ↔ ∀ k ∈ ks, ∃ v u, fileRead (x.with o) n (.str k) (FileS.new h false) = .ok v ∧ unescapePath k = .ok u) ∧
      ∀ res, loadmat x n (.str s) a d = .done (.ok res) → Updated (a.mdict.getD []) (LastOf (fun k => fileRead (x.with o) n (.str k) (FileS.new h false)) ks) res := by
  obtain ⟨ks, h1, h2⟩ := C38_iter_partial (x := x.with o) hr hrn h hdn false n [] rfl hs
  have h2' : fileIter (x.with o) (FileS.new h false) = .ok ks := h2
  have hl : loadmatTry x n (.str s) a d = (do
      let data ← loadAll (x.with o) n (FileS.new h false) ks []
      .ok (updateDict (a.mdict.getD data) data)) := by
    rw [loadmatTry_eq hn ho hd, hns]
    unfold loadData
    simp only [bind, Except.bind]
    rw [h2']
  have hup : ∀ {data}, loadAll (x.with o) n (FileS.new h false) ks [] = .ok data → Updated (a.mdict.getD [])
      (LastOf (fun k => fileRead (x.with o) n (.str k) (FileS.new h false)) ks) (updateDict (a.mdict.getD data) data) := by
    intro data hdata k v
    have hu := (loadAll_get hdata).2
    rw [updateDict_self (loadAll_nodup (data := []) List.nodup_nil hdata) a.mdict rfl]
    have hu' : ∀ v, pget data k = some v ↔ LastOf (fun k => fileRead (x.with o) n (.str k) (FileS.new h false)) ks k v := by
      intro v
      rw [hu k v]
      constructor
      · rintro (h | ⟨_, h⟩)
        · exact h
        · cases h
      · exact Or.inl
    cases hg : pget data k with
    | some w =>
      dsimp only
      rw [← hu' v, hg]
      constructor
      · exact Or.inl
      · rintro (h | ⟨h, _⟩)
        · exact h
        · exact absurd ((hu' w).mp hg) (h w)
    | none =>
      dsimp only
      rw [← hu' v, hg]
      constructor
      · intro h
        exact Or.inr ⟨fun w hw => (by rw [(hu' w).mpr hw] at hg; cases hg), h⟩
      · rintro (h | ⟨_, h⟩)
        · cases h
        · exact h
  refine ⟨ks, h1, ⟨?_, ?_⟩, ?_⟩
  · rintro ⟨res, hres⟩
    unfold loadmat at hres
    rw [hl] at hres
    cases hdata : loadAll (x.with o) n (FileS.new h false) ks [] with
    | error e =>
      rw [hdata] at hres
      simp only [bind, Except.bind] at hres
      split at hres <;> cases hres
    | ok data => exact (loadAll_get hdata).1
  · intro hall
    obtain ⟨data, hdata⟩ := loadAll_ok hall []
    refine ⟨updateDict (a.mdict.getD data) data, ?_⟩
    unfold loadmat
    rw [hl, hdata]
    rfl
  · intro res hres
    unfold loadmat at hres
    rw [hl] at hres
    cases hdata : loadAll (x.with o) n (FileS.new h false) ks [] with
    | error e =>
      rw [hdata] at hres
      simp only [bind, Except.bind] at hres
      split at hres <;> cases hres
    | ok data =>
      rw [hdata] at hres
      simp only [bind, Except.bind] at hres
      cases hres
      exact hup hdata

-- The file with `x/y` and the references Group.
example : ∃ (a : LoadArgs) (o : Options) (h : Heap) (r : Str), MatName a.appendmat p!"a" p!"a.mat" ∧ OptionsFor false a.options [] o ∧ (∃ ub, exDisk p!"a.mat" = some (.h5 ub h)) ∧
    a.names = none ∧ DistinctNames h ∧ (COpts.of o).refsPath = slash :: r ∧ IsName r ∧ (∀ k, Exists h [k] → k ≠ r → strLt r k = true) ∧ Exists h [p!"x"] ∧ Exists h [r] := by
  obtain ⟨o, h1, h2, _⟩ := default_options false
  refine ⟨⟨none, true, none, none⟩, o, _, p!"#refs#", ex_matName, h1, ⟨_, rfl⟩, rfl, ?_, h2, ⟨by decide, by decide, by decide⟩, ?_, ?_, ?_⟩
  · have := pres_ops (keysOk_elem exX.o) (n := 10) [.write (.str p!"/x/y") (.seq .list [.int 7])] (F := exF) (fun p => by
      unfold linksOf exF FileS.new St.init
      cases p with
      | zero => exact List.nodup_nil
      | succ p => exact List.nodup_nil)
    exact this
  · intro k hk
    rw [exists_root] at hk
    have : akeys (linksOf (exWritten (.seq .list [.int 7])).st.heap 0) = [p!"x", p!"#refs#"] := by decide +kernel
    rw [this] at hk
    simp only [List.mem_cons, List.not_mem_nil, or_false] at hk
    rcases hk with rfl | rfl
    · intro _; decide
    · intro h; exact absurd rfl h
  · rw [exists_root]; decide +kernel
  · rw [exists_root]; decide +kernel

/-- What is raised. -/
def matRaised : MatOut (List (PathArg × Val)) → Option Exc
  | .done (.error e) => some e
  | _ => none

/-- F7: after a list was saved as `!x`, `loadmat` raises, because the references Group is yielded by the iteration and then refused. -/
theorem C45_counterexample : (∃ F', fileWrite exX 10 (.str p!"!x") (.seq .list [.int 1]) exF = (.ok (), F')) ∧
    matRaised (loadmat exX 10 (.str p!"a") ⟨none, true, none, none⟩
      (fun f => if f = p!"a.mat" then some (.h5 512 (fileWrite exX 10 (.str p!"!x") (.seq .list [.int 1]) exF).2.st.heap) else none)) = some .valueError :=
  ⟨⟨_, pair_of_fst (by decide +kernel)⟩, by decide +kernel⟩

/-- C45. A file that is not there or is not HDF5 is left to SciPy, with the arguments given. -/
theorem C45_not_hdf5 {x : Ctx} {n : Nat} {s t : Str} {a : LoadArgs} {d : Disk} {o : Options} (hn : MatName a.appendmat s t) (ho : OptionsFor false a.options [] o)
    (hd : d t = none ∨ d t = some .junk) : loadmat x n (.str s) a d = .scipy (.str s) a.appendmat := by
  have h1 : loadOptions a = .ok o := by
    unfold loadOptions
    rcases ho with ⟨h, _⟩ | ⟨h, hr⟩
    · rw [h]
    · rw [h]
      exact (fileOptions_iff ⟨.other, false, false, none, []⟩ o).mpr (Or.inr ⟨rfl, hr⟩)
  have h2 : loadmatTry x n (.str s) a d = .error .osError := by
    unfold loadmatTry
    rw [h1, (matName_of hn).2]
    rcases hd with hd | hd <;>
      simp only [bind, Except.bind, openRead, fileOptions, List.length_nil, ne_eq, not_true, if_false, hd, openDisk, Bool.not_false, if_true]
  unfold loadmat
  rw [h2]
  rfl

theorem refs_default {o : COpts} (h : o.refsPath = p!"/#refs#") : RefsPathOk o ∧ hdf5Names o.refsPath = [p!"#refs#"] := by
  have : hdf5Names o.refsPath = [p!"#refs#"] := by rw [h]; decide
  exact ⟨⟨by rw [h]; rfl, by rw [this]; simp⟩, this⟩

-- A name without a file, and one with something else.
example : (∃ o, OptionsFor false none [] o) ∧ exDisk p!"b.mat" = none := by
  obtain ⟨o, h, _⟩ := default_options false
  exact ⟨⟨o, h⟩, by decide⟩

/-- C45. `savemat` to a file that is new or truncated, and `loadmat` of all of it with the default options: the dict has exactly the variables saved, with their
values. -/
theorem C45_savemat_loadmat {x y : Ctx} {n m : Nat} {s t : Str} {a : SaveArgs} {o : Options} {d d' : Disk} {items : List (Str × Val)} (hn : MatName a.appendmat s t)
    (hold : a.old = false) (ho : savematOptions a = .ok o) (hmeta : a.pyMeta = .bool true) (hact : a.action ≠ .str p!"ignore") (hempty : StartsEmpty (d t) a.truncExisting)
    (hitems : ∀ i ∈ items, VarName i.1 ∧ Good (COpts.of o) i.2) (hdist : (items.map (·.1)).Nodup)
    (hdraws : DrawsOk x n (items.map fun i => (.str i.1, i.2)) o (d t) a.truncExisting a.truncInvalid)
    (hsave : savemat x n (.str s) (items.map fun i => (.str i.1, i.2)) a d = (.done (.ok ()), d')) (hnm : n ≤ m) :
    ∃ res, loadmat y m (.str s) { mdict := none, appendmat := a.appendmat, names := none, options := none } d' = .done (.ok res) ∧
      ∀ k v, pget res k = some v ↔ ∃ i ∈ items, k = .str i.1 ∧ v = i.2 := by
  obtain ⟨o1, o2, o3, _, o5, o6, o7, o8⟩ := savemat_opts ho
  obtain ⟨hrp, hrc⟩ := refs_default o3
  have hnames : NamesOk (COpts.of o) := ⟨by rw [o5]; decide, by rw [o6]; decide⟩
  have hR : RtOpts (x.with o).o := ⟨o7 hmeta, fun _ => o2, hnames⟩
  have hmw : modWrites x n (items.map fun i => (.str i.1, i.2)) { filename := .str t, truncExisting := a.truncExisting, truncInvalid := a.truncInvalid, options := some o, kw := [] } d
      = (.ok (), d') := by
    unfold savemat at hsave
    rw [hold, ho, (matName_of hn).1] at hsave
    simp only [Bool.false_eq_true, if_false] at hsave
    have h1 := (Prod.mk.inj hsave).1
    have h2 := (Prod.mk.inj hsave).2
    exact Prod.ext (MatOut.done.inj h1) h2
  obtain ⟨ub, hp, F', c1, c2, c3⟩ := modWrites_ok rfl rfl hmw
  dsimp only at c1
  rw [openDisk_empty hempty] at c1
  cases c1
  have hdr := hdraws _ _ (openDisk_empty hempty _ _)
  have hF' : (fileWrites (x.with o) n (items.map fun i => (.str i.1, i.2)) (FileS.new emptyHeap true)).2 = F' := by rw [c2]
  rw [hF'] at hdr
  -- every variable reads back
  have hread := C35_several (x := x.with o) hR hrp (.opened emptyHeap true tree_empty) rfl (items := items.map fun i => (.str i.1, [i.1], i.2)) (by
      intro i hi
      obtain ⟨j, hj, rfl⟩ := List.mem_map.mp hi
      exact ⟨(hitems j hj).1.addr, by simp, empty_free (by simp), (hitems j hj).2⟩) (by
      rw [List.pairwise_map]
      have hnd := List.pairwise_map.mp hdist
      refine hnd.imp ?_
      intro i j hij
      exact apart_one hij) hdr (by rw [List.map_map]; exact c2)
  obtain ⟨o', ho', hrefs', hsd'⟩ := default_options false
  have hval : ∀ i ∈ items, fileRead (y.with o') m (.str i.1) (FileS.new F'.st.heap false) = .ok i.2 := by
    intro i hi
    refine hread (.str i.1, [i.1], i.2) (List.mem_map.mpr ⟨i, hi, rfl⟩) (y.with o') (FileS.new F'.st.heap false) (.str i.1) m ?_ ⟨Or.inr ⟨o1, o8 hact⟩, fun _ h => absurd (h.symm.trans hsd') (by decide)⟩ rfl rfl
      (hitems i hi).1.addr hnm
    show (COpts.of o').refsPath = (COpts.of o).refsPath
    rw [hrefs', o3]
  have hroot : ∀ k, Exists F'.st.heap [k] → k ≠ p!"#refs#" → k ∈ items.map (·.1) := by
    intro k hk hkr
    refine root_after (x := x.with o) (n := n) hrp hnames (fun i hi => (hitems i hi).1) ?_ (by rw [hF']; exact hk)
    show (hdf5Names (COpts.of o).refsPath).head? ≠ some k
    rw [hrc]
    intro e
    exact hkr (Option.some.inj e).symm
  have hdn : DistinctNames F'.st.heap := by
    have := pres_ops (x := x.with o) (keysOk_elem (x.with o).o) (n := n) [.writes (items.map fun i => (.str i.1, i.2))] (F := FileS.new emptyHeap true) (fun p => by
      unfold linksOf emptyHeap FileS.new St.init
      cases p with
      | zero => exact List.nodup_nil
      | succ p => exact List.nodup_nil)
    have h2 : (fileOps (x.with o) n [.writes (items.map fun i => (.str i.1, i.2))] (FileS.new emptyHeap true)).2 = F' := hF'
    rw [h2] at this
    exact this
  obtain ⟨ks, hk1, hk2, hk3⟩ := C45_all_partial (x := y) (n := m) (s := s) (t := t) (a := { mdict := none, appendmat := a.appendmat, names := none, options := none }) (d := d')
    hn ho' c3 rfl hdn (r := p!"#refs#") hrefs' ⟨by decide, by decide, by decide⟩ (by
      intro k hk hkr
      obtain ⟨i, hi, rfl⟩ := List.mem_map.mp (hroot k hk hkr)
      exact (hitems i hi).1.after)
  have hks : ∀ k, k ∈ ks ↔ ∃ i ∈ items, i.1 = k := by
    intro k
    rw [hk1.2]
    constructor
    · rintro ⟨h1, h2⟩
      exact List.mem_map.mp (hroot k h1 fun e => h2 (by rw [e]))
    · rintro ⟨i, hi, rfl⟩
      refine ⟨read_exists (F := FileS.new F'.st.heap false) (hval i hi) (hitems i hi).1.addr, fun e => ?_⟩
      have := (hitems i hi).1.after
      rw [← Option.some.inj e] at this
      revert this; decide
  have hall : ∀ k ∈ ks, ∃ v u, fileRead (y.with o') m (.str k) (FileS.new F'.st.heap false) = .ok v ∧ unescapePath k = .ok u := by
    intro k hk
    obtain ⟨i, hi, rfl⟩ := (hks k).mp hk
    exact ⟨_, _, hval i hi, unescapePath_plain (hitems i hi).1.bslash⟩
  obtain ⟨res, hres⟩ := hk2.mpr hall
  refine ⟨res, hres, fun k v => ?_⟩
  have hlast : ∀ k v, LastOf (fun k => fileRead (y.with o') m (.str k) (FileS.new F'.st.heap false)) ks k v → ∃ i ∈ items, k = .str i.1 ∧ v = i.2 := by
    rintro k v ⟨j, e, u, h1, h2, h3, h4, _⟩
    obtain ⟨i, hi, rfl⟩ := (hks e).mp (List.mem_of_getElem? h1)
    rw [unescapePath_plain (hitems i hi).1.bslash] at h2
    cases h2
    have h4' : fileRead (y.with o') m (.str i.1) (FileS.new F'.st.heap false) = .ok v := h4
    rw [hval i hi] at h4'
    cases h4'
    exact ⟨i, hi, h3, rfl⟩
  rw [hk3 res hres k v]
  constructor
  · rintro (h | ⟨_, h⟩)
    · exact hlast k v h
    · cases h
  · rintro ⟨i, hi, rfl, rfl⟩
    left
    obtain ⟨w, hw⟩ := lastOf_exists (rd := fun k => fileRead (y.with o') m (.str k) (FileS.new F'.st.heap false)) (l := ks)
      (fun k hk => by obtain ⟨v, _, h, _⟩ := hall k hk; exact ⟨v, h⟩) ((hks i.1).mpr ⟨i, hi, rfl⟩) (unescapePath_plain (hitems i hi).1.bslash)
    obtain ⟨j, hj, h1, h2⟩ := hlast _ _ hw
    have hji : fileRead (y.with o') m (.str j.1) (FileS.new F'.st.heap false) = .ok i.2 := by
      rw [← h1]; exact hval i hi
    rw [hval j hj] at hji
    rw [h2, Except.ok.inj hji] at hw
    exact hw

/-- It succeeded. -/
def matOk : MatOut Unit → Bool
  | .done (.ok _) => true
  | _ => false

theorem eq_of_matOk {r : MatOut Unit} (h : matOk r = true) : r = .done (.ok ()) := by
  cases r with
  | scipy f b => cases h
  | done r => cases r with
    | error e => cases h
    | ok u => rfl

/-- The default arguments of `savemat`. -/
def exSave : SaveArgs := ⟨true, false, .str p!"row", .bool true, .str p!"error", false, false⟩

-- Two variables, a list and an int, saved with the default arguments to a new file.
example : ∃ (o : Options) (d' : Disk), let items := [(p!"v", Val.seq .list [.int 7]), (p!"w", .int 3)]
    savematOptions exSave = .ok o ∧ exSave.pyMeta = .bool true ∧ exSave.action ≠ .str p!"ignore" ∧ StartsEmpty (exDisk p!"b.mat") exSave.truncExisting ∧
    (∀ i ∈ items, VarName i.1 ∧ Good (COpts.of o) i.2) ∧ (items.map (·.1)).Nodup ∧
    DrawsOk exX 10 (items.map fun i => (.str i.1, i.2)) o (exDisk p!"b.mat") exSave.truncExisting exSave.truncInvalid ∧
    savemat exX 10 (.str p!"b") (items.map fun i => (.str i.1, i.2)) exSave exDisk = (.done (.ok ()), d') := by
  refine ⟨_, _, rfl, rfl, nofun, Or.inl (by decide), ?_, by decide, ?_, pair_of_fst (eq_of_matOk (by decide +kernel))⟩
  · intro i hi
    simp only [List.mem_cons, List.not_mem_nil, or_false] at hi
    rcases hi with rfl | rfl
    · exact ⟨⟨by decide, by decide, by decide, by decide, by decide⟩, .seq .list _ nofun (fun v hv => by simp only [List.mem_singleton] at hv; rw [hv]; exact .int 7)⟩
    · exact ⟨⟨by decide, by decide, by decide, by decide, by decide⟩, .int 3⟩
  · intro ub h ho
    rw [openDisk_empty (Or.inl (by decide))] at ho
    cases ho
    intro i j _ _ h3
    exact absurd h3 (by
      refine Nat.not_lt.mpr (Nat.le_trans (Nat.le_of_eq ?_) (Nat.zero_le j))
      decide +kernel)

/-! ### C46 -/

/-- C46. The functions `read` and `reads` do what the methods of `File` do, with the given options or those made from the arguments given, `matlab_compatible` being
`False` if nothing is said. -/
theorem C46_read {x : Ctx} {n : Nat} {a : FileArgs} {d : Disk} {f : Str} {o : Options} {ub : Nat} {h : Heap} (hf : a.filename = .str f) (hd : d f = some (.h5 ub h))
    (ho : OptionsFor true a.options a.kw o) :
    (∀ p, modRead x n p a d = fileRead (x.with o) n p (FileS.new h false)) ∧ ∀ ps, modReads x n ps a d = fileReads (x.with o) n ps (FileS.new h false) := by
  have hf' : (readArgs a).filename = .str f := by
    unfold readArgs
    split
    · exact hf
    · exact hf
  have : openRead (readArgs a) d = .ok (o, FileS.new h false) := by
    unfold openRead
    rw [hf']
    dsimp only
    rw [(readOptions_iff a o).mpr ho]
    dsimp only
    rw [hd]
    simp only [openDisk, Bool.not_false, if_true]
  constructor
  · intro p
    unfold modRead
    rw [this]
  · intro ps
    unfold modReads
    rw [this]

/-- C46. If neither `options` nor `matlab_compatible` is given, the options used are not MATLAB compatible, and the order of the dimensions is as given or not
reversed. -/
theorem C46_not_matlab {kw : List (Opt × PyVal)} {o : Options} (hk : kwGet kw .matlabCompatible = none) (ho : OptionsFor true none kw o) :
    (COpts.of o).matlab = false ∧ (kwGet kw .reverseDimensionOrder = none → (COpts.of o).reverse = false) := by
  rcases ho with ⟨h, _⟩ | ⟨_, args, h, hargs⟩
  · cases h
  have hm : args .matlabCompatible = .bool false := by
    rw [(hargs _).2 hk, if_pos ⟨rfl, rfl⟩]
  obtain ⟨h1, _, h3⟩ := newOptions_value _ o h
  constructor
  · show boolOf o .matlabCompatible = false
    unfold boolOf
    rw [h1 false hm]; rfl
  · intro hr
    have := (h3 .reverseDimensionOrder (by decide) (by rintro ⟨h, _⟩; rw [hm] at h; cases h)).1
    rw [(hargs _).2 hr, if_neg (by rintro ⟨_, h⟩; cases h)] at this
    show boolOf o .reverseDimensionOrder = false
    unfold boolOf
    rw [this ⟨_, rfl⟩]; rfl

/-- C46. Both `options` and other arguments for options: `ValueError`, for reading and for writing, and nothing is changed. -/
theorem C46_both {x : Ctx} {n : Nat} {a : FileArgs} {d : Disk} {f : Str} {o : Options} (hf : a.filename = .str f) (ho : a.options = some o) (hk : a.kw ≠ []) :
    (∀ p, modRead x n p a d = .error .valueError) ∧ (∀ ps, modReads x n ps a d = .error .valueError) ∧ (∀ p v, modWrite x n v p a d = (.error .valueError, d)) ∧
    ∀ m, modWrites x n m a d = (.error .valueError, d) := by
  have hra : readArgs a = a := by
    unfold readArgs
    rw [if_pos (Or.inr (by rw [ho]; rfl))]
  have hfo : fileOptions a = .error .valueError := by
    unfold fileOptions
    rw [ho]
    dsimp only
    rw [if_pos (fun h => hk (List.length_eq_zero_iff.mp h))]
  have hor : openRead (readArgs a) d = .error .valueError := by
    unfold openRead
    rw [hra, hf]
    dsimp only
    rw [hfo]
  have hw : ∀ m, modWrites x n m a d = (.error .valueError, d) := by
    intro m
    unfold modWrites
    rw [hf]
    dsimp only
    rw [hfo]
  refine ⟨fun p => ?_, fun ps => ?_, fun p v => hw _, hw⟩
  · unfold modRead; rw [hor]
  · unfold modReads; rw [hor]

/-- C46. What the function `write` wrote to an unused place of a file, new or not, the function `read` reads back, although their default options differ. -/
theorem C46_write_read {x y : Ctx} {n m : Nat} {v : Val} {p q : PathArg} {ns : List Str} {a b : FileArgs} {o o' : Options} {f : Str} {d d' : Disk}
    (hf : a.filename = .str f) (hb : b.filename = .str f) (ho : OptionsFor false a.options a.kw o) (ho' : OptionsFor true b.options b.kw o')
    (hR : RtOpts (COpts.of o)) (hp : RefsPathOk (COpts.of o)) (hsame : (COpts.of o').refsPath = (COpts.of o).refsPath) (hrd : ReadableWith (COpts.of o) (COpts.of o') v)
    (hnew : StartsEmpty (d f) a.truncExisting ∨ ∃ ub h, d f = some (.h5 ub h) ∧ Tree h ∧ ¬ Exists h ns) (hpa : Addr p ns) (hq : Addr q ns) (hne : ns ≠ [])
    (hv : Good (COpts.of o) v) (hdraws : DrawsOk x n [(p, v)] o (d f) a.truncExisting a.truncInvalid) (hw : modWrite x n v p a d = (.ok (), d')) (hnm : n ≤ m) :
    modRead y m q b d' = .ok v := by
  obtain ⟨ub, h, F', c1, c2, c3⟩ := modWrites_ok hf ((fileOptions_iff a o).mpr ho) hw
  have hdr := hdraws _ _ c1
  have hF' : (fileWrites (x.with o) n [(p, v)] (FileS.new h true)).2 = F' := by rw [c2]
  rw [hF'] at hdr
  have hth : Tree h ∧ ¬ Exists h ns := by
    rcases openDisk_cases c1 with rfl | hc
    · exact ⟨tree_empty, empty_free hne⟩
    · rcases hnew with hs | ⟨ub', h', h1, h2, h3⟩
      · rw [openDisk_empty hs] at c1
        cases c1
        exact ⟨tree_empty, empty_free hne⟩
      · rw [hc] at h1
        cases h1
        exact ⟨h2, h3⟩
  rw [(C46_read hb c3 ho').1]
  exact file_rt (x := x.with o) hR ⟨hp, .opened h true hth.1, rfl, hpa, hne, hth.2, hdr, c2⟩ hv (y.with o') (FileS.new F'.st.heap false) q m hsame hrd rfl rfl hq hnm

-- Writing with the default arguments to the file of the example, at an unused place, and reading with the default arguments.
example : ∃ (o o' : Options) (d' : Disk), let a : FileArgs := ⟨.str p!"a.mat", false, false, none, []⟩
    OptionsFor false a.options a.kw o ∧ OptionsFor true a.options a.kw o' ∧ RtOpts (COpts.of o) ∧ RefsPathOk (COpts.of o) ∧ (COpts.of o').refsPath = (COpts.of o).refsPath ∧
    (COpts.of o').matlab = false ∧ ReadableWith (COpts.of o) (COpts.of o') (.seq .list [.int 7]) ∧ (∃ ub h, exDisk p!"a.mat" = some (.h5 ub h) ∧ Tree h ∧ ¬ Exists h [p!"x", p!"z"]) ∧
    Addr (.str p!"x/z") [p!"x", p!"z"] ∧ Addr (.str p!"/x//z/") [p!"x", p!"z"] ∧ Good (COpts.of o) (.seq .list [.int 7]) ∧
    DrawsOk exX 10 [(.str p!"x/z", .seq .list [.int 7])] o (exDisk p!"a.mat") a.truncExisting a.truncInvalid ∧
    modWrite exX 10 (.seq .list [.int 7]) (.str p!"x/z") a exDisk = (.ok (), d') := by
  have h1 : ∃ o, fileOptions ⟨.str p!"a.mat", false, false, none, []⟩ = .ok o ∧ RtOpts (COpts.of o) ∧ RefsPathOk (COpts.of o) ∧ (COpts.of o).matlab = true ∧
      (COpts.of o).action = .error ∧ (COpts.of o).refsPath = p!"/#refs#" ∧
      DrawsOk exX 10 [(.str p!"x/z", .seq .list [.int 7])] o (exDisk p!"a.mat") false false := by
    refine ⟨_, rfl, ⟨by decide +kernel, fun _ => by decide +kernel, by decide +kernel, by decide +kernel⟩, ⟨by decide +kernel, by decide +kernel⟩, by decide +kernel,
      by decide +kernel, by decide +kernel, ?_⟩
    intro ub h ho
    cases ho
    intro i j _ _ h3
    refine absurd (Nat.lt_of_lt_of_le h3 (Nat.le_of_eq (m := 1) (by decide +kernel))) ?_
    omega
  obtain ⟨o, a1, a2, a3, a4, a5, a6, a7⟩ := h1
  obtain ⟨o', b1, b2, b3⟩ := default_options true
  refine ⟨o, o', _, (fileOptions_iff ⟨.str p!"a.mat", false, false, none, []⟩ o).mp a1, b1, a2, a3, b2.trans a6.symm, (C46_not_matlab rfl b1).1, ⟨Or.inr ⟨a4, by rw [a5]; decide⟩, fun _ h => absurd (h.symm.trans b3) (by decide)⟩,
    ⟨_, _, rfl, (reach_keep ⟨rfl, by decide⟩ (Spec.RtOpts.names ex_rtOpts) (.wrote 10 [(.str p!"/x/y", .seq .list [.int 7])] ex_reach ?_)).2, ?_⟩,
    ⟨p!"x", p!"z", by decide, by decide⟩, ⟨p!"/x", p!"z", by decide, by decide⟩,
    .seq .list _ nofun (fun v hv => (by simp only [List.mem_singleton] at hv; rw [hv]; exact .int 7)), a7, pair_of_fst (by decide +kernel)⟩
  · intro pv hpv ha
    simp only [List.mem_singleton] at hpv
    subst hpv
    have := addr_unique ha ⟨p!"/x", p!"y", by decide, rfl⟩
    revert this; decide
  · rintro ⟨q, hq⟩
    have := (resolve_iff_lpath (by intro c hc; simp only [List.mem_cons, List.not_mem_nil, or_false] at hc; rcases hc with rfl | rfl <;> decide) q).mp hq
    have h2 : resolve (exWritten (.seq .list [.int 7])).st.heap 0 [p!"x", p!"z"] = none := by decide +kernel
    have h3 : resolve (exWritten (.seq .list [.int 7])).st.heap 0 [p!"x", p!"z"] = some q := this
    rw [h2] at h3
    cases h3

end HS
