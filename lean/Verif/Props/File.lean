import Verif.Lemmas.FileApi
import Verif.Props.RoundTrip
/-
C36–C40: the methods of `File`.
-/
namespace HS
open Spec

/-- C36. If one of the paths is not acceptable `writes` raises and the file is as before, bit for bit. -/
theorem C36_writes_check_first {x : Ctx} (hr : RefsPathOk x.o) (n : Nat) (mdict : List (PathArg × Val)) (F : FileS)
    (hb : ∃ pv ∈ mdict, BadPath x.o pv.1) : ∃ e, fileWrites x n mdict F = (.error e, F) := by
  obtain ⟨pv, h1, h2⟩ := hb
  obtain ⟨e, he⟩ := bad_check hr h2
  obtain ⟨e', he'⟩ := checkItems_bad h1 he
  unfold fileWrites
  split
  · exact ⟨_, rfl⟩
  · rw [he']; exact ⟨_, rfl⟩

/-- C36. If one of the paths is not acceptable `reads` raises, and what it raises does not depend on the file, of which therefore nothing was read. -/
theorem C36_reads_check_first {x : Ctx} (hr : RefsPathOk x.o) (paths : List PathArg) (hb : ∃ p ∈ paths, BadPath x.o p) :
    ∃ e, ∀ n F, fileReads x n paths F = .error e := by
  obtain ⟨p, h1, h2⟩ := hb
  obtain ⟨e, he⟩ := bad_check hr h2
  obtain ⟨e', he'⟩ := checkPaths_bad h1 he
  refine ⟨e', fun n F => ?_⟩
  unfold fileReads
  rw [he']

-- The second of three paths is in the references Group.
example : ∃ pv ∈ [(PathArg.str p!"a", Val.int 1), (.str p!"/#refs#/b", .int 2), (.str p!"c", .int 3)], BadPath exX.o pv.1 :=
  ⟨(.str p!"/#refs#/b", .int 2), by simp, Or.inr ⟨_, ⟨p!"/#refs#", p!"b", by decide, rfl⟩, by decide⟩⟩

theorem all2_comp {α β γ : Type} {R : α → β → Prop} {S : β → γ → Prop} {l : List α} {r : List γ} :
    (∃ m, All2 R l m ∧ All2 S m r) ↔ All2 (fun a c => ∃ b, R a b ∧ S b c) l r := by
  induction l generalizing r with
  | nil =>
    constructor
    · rintro ⟨m, h1, h2⟩; cases h1; cases h2; exact .nil
    · intro h; cases h; exact ⟨[], .nil, .nil⟩
  | cons a l ih =>
    constructor
    · rintro ⟨m, h1, h2⟩
      cases h1 with
      | cons h1 h3 =>
        cases h2 with
        | cons h2 h4 => exact .cons ⟨_, h1, h2⟩ (ih.mp ⟨_, h3, h4⟩)
    · intro h
      cases h with
      | cons h1 h2 =>
        obtain ⟨b, h3, h4⟩ := h1
        obtain ⟨m, h5, h6⟩ := ih.mpr h2
        exact ⟨b :: m, .cons h3 h5, .cons h4 h6⟩

/-- C37. `reads` returns one result per path, in order, each what `read` returns. -/
theorem C37_reads_is_read (x : Ctx) (n : Nat) (paths : List PathArg) (F : FileS) (ho : F.isOpen = true) (vs : List Val) :
    fileReads x n paths F = .ok vs ↔ All2 (fun p v => fileRead x n p F = .ok v) paths vs := by
  have : (fun p v => fileRead x n p F = .ok v) = fun p v => ∃ gt, checkPath x.o.refsPath p = .ok gt ∧ readOne x n F.st.heap gt = .ok v := by
    funext p v
    rw [fileRead_ok]
    simp [ho]
  rw [this, ← all2_comp]
  unfold fileReads
  cases hc : checkPaths x.o.refsPath paths with
  | error e =>
    constructor
    · intro h; cases h
    · rintro ⟨m, h1, _⟩
      rw [checkPaths_iff.mpr h1] at hc; cases hc
  | ok tr =>
    dsimp only
    rw [ho]
    simp only [Bool.not_true, Bool.false_eq_true, if_false]
    rw [readMany_iff]
    constructor
    · intro h; exact ⟨tr, checkPaths_iff.mp hc, h⟩
    · rintro ⟨m, h1, h2⟩
      rw [checkPaths_iff.mpr h1] at hc
      cases hc; exact h2

theorem all2_exists {α β : Type} {R : α → β → Prop} {l : List α} (h : ∀ a ∈ l, ∃ b, R a b) : ∃ r, All2 R l r := by
  induction l with
  | nil => exact ⟨[], .nil⟩
  | cons a l ih =>
    obtain ⟨b, hb⟩ := h a (by simp)
    obtain ⟨r, hr⟩ := ih fun a ha => h a (by simp [ha])
    exact ⟨b :: r, .cons hb hr⟩

/-- C37. `reads` raises if and only if one of the single reads does. -/
theorem C37_raises_iff (x : Ctx) (n : Nat) (paths : List PathArg) (F : FileS) (ho : F.isOpen = true) :
    (∃ e, fileReads x n paths F = .error e) ↔ ∃ p ∈ paths, ∃ e, fileRead x n p F = .error e := by
  constructor
  · rintro ⟨e, he⟩
    apply Classical.byContradiction
    intro hn
    have : ∀ p ∈ paths, ∃ v, fileRead x n p F = .ok v := by
      intro p hp
      cases hr : fileRead x n p F with
      | ok v => exact ⟨v, rfl⟩
      | error e => exact absurd ⟨p, hp, e, hr⟩ hn
    obtain ⟨vs, hvs⟩ := all2_exists this
    rw [(C37_reads_is_read x n paths F ho vs).mpr hvs] at he
    cases he
  · rintro ⟨p, hp, e, he⟩
    cases hr : fileReads x n paths F with
    | error e => exact ⟨e, rfl⟩
    | ok vs =>
      obtain ⟨v, _, hv⟩ := all2_left ((C37_reads_is_read x n paths F ho vs).mp hr) p hp
      rw [he] at hv; cases hv

/-- C37. If all paths are acceptable, `reads` raises what the first failing read raises. -/
theorem C37_first_error {x : Ctx} (hr : RefsPathOk x.o) (n : Nat) (before after : List PathArg) (p : PathArg) (F : FileS) (e : Exc)
    (hg : ∀ q ∈ before ++ p :: after, GoodPath x.o q) (hb : ∀ q ∈ before, ∃ v, fileRead x n q F = .ok v) (he : fileRead x n p F = .error e) :
    fileReads x n (before ++ p :: after) F = .error e := by
  obtain ⟨tr, htr⟩ := checkPaths_good fun q hq => good_check hr (hg q hq)
  unfold fileReads
  rw [htr]
  dsimp only
  obtain ⟨gt, hgt⟩ := good_check hr (hg p (by simp))
  rw [fileRead_eq, hgt] at he
  dsimp only at he
  cases ho : F.isOpen with
  | false => rw [ho] at he; cases he; rfl
  | true =>
    rw [ho] at he
    simp only [Bool.not_true, Bool.false_eq_true, if_false] at he ⊢
    clear hg
    induction before generalizing tr with
    | nil =>
      rw [List.nil_append, checkPaths] at htr
      obtain ⟨gt1, h1, h2⟩ := res_bind_ok.mp htr
      obtain ⟨r, h3, h4⟩ := res_bind_ok.mp h2
      rw [hgt] at h1
      cases h1; cases h4
      rw [readMany, he]; rfl
    | cons q l ih =>
      obtain ⟨v, hv⟩ := hb q (by simp)
      obtain ⟨gt', h1, _, h2⟩ := fileRead_ok.mp hv
      rw [List.cons_append, checkPaths] at htr
      obtain ⟨gt1, h5, h6⟩ := res_bind_ok.mp htr
      obtain ⟨r, h3, h4⟩ := res_bind_ok.mp h6
      rw [h1] at h5
      cases h5; cases h4
      rw [readMany, h2]
      show (readMany x n F.st.heap r >>= fun l => Except.ok (v :: l)) = _
      rw [ih (fun q hq => hb q (by simp [hq])) r h3]
      rfl

-- Two values are read in order; a missing one raises.
example : ∃ F : FileS, F.isOpen = true ∧ fileReads exX 10 [.str p!"/x/y", .str p!"x/y"] F = .ok [.int 7, .int 7] ∧
    fileReads exX 10 [.str p!"/x/y", .str p!"z"] F = .error .keyError ∧ ∀ q ∈ [PathArg.str p!"/x/y", .str p!"z"], GoodPath exX.o q := by
  refine ⟨exWritten (.int 7), by decide +kernel, ?_, eq_of_isExc (by decide +kernel), ?_⟩
  · exact eq_of_isVals (by decide +kernel)
  · intro q hq
    simp only [List.mem_cons, List.not_mem_nil, or_false] at hq
    rcases hq with rfl | rfl
    · exact ⟨_, ⟨p!"/x", p!"y", by decide, rfl⟩, by intro k hk; cases hk; decide⟩
    · exact ⟨_, ⟨p!"/", p!"z", by decide, rfl⟩, by intro k hk; cases hk; decide⟩

/-- C38. However a file was used, `len` is the number of names in the root Group, the references Group not counted. -/
theorem C38_len {x : Ctx} {r : Str} (hr : x.o.refsPath = slash :: r) (hrn : IsName r) (hro : nameOk r = true) (h : Heap) (hd : DistinctNames h) (w : Bool) (n : Nat)
    (ops : List Op) (ho : (fileOps x n ops (FileS.new h w)).2.isOpen = true) :
    ∃ l, ListsRoot (fileOps x n ops (FileS.new h w)).2.st.heap (some r) l ∧ fileLen x (fileOps x n ops (FileS.new h w)).2 = .ok l.length := by
  have hk : DistinctNames (fileOps x n ops (FileS.new h w)).2.st.heap := pres_ops (keysOk_elem x.o) ops (F := FileS.new h w) hd
  generalize (fileOps x n ops (FileS.new h w)).2 = F at ho hk
  have hnd : (akeys (linksOf F.st.heap 0)).Nodup := hk 0
  have hrc : commonComps x.o.refsPath = [r] := by
    rw [hr]
    show hdf5Names (slash :: r) = [r]
    rw [← hdf5Names_name r hrn]
    unfold hdf5Names
    rw [splitSlash_cons_slash]
    rfl
  have hlen : h5Len F.st.heap = (akeys (linksOf F.st.heap 0)).length := by simp [h5Len, akeys]
  have hct : h5Contains F.st.heap x.o.refsPath = .ok (decide (r ∈ akeys (linksOf F.st.heap 0))) := by
    unfold h5Contains
    rw [hrc]
    simp only [List.all_cons, List.all_nil, Bool.and_true, hro, if_true]
    congr 1
    rw [resolve, hlook_plain _ _ _ hrn.2.2]
    cases ha : aget (linksOf F.st.heap 0) r with
    | none =>
      have := aget_none_akeys.mp ha
      simp [this]
    | some q =>
      have : r ∈ akeys (linksOf F.st.heap 0) := by
        apply Decidable.byContradiction
        intro hn
        rw [aget_none_akeys.mpr hn] at ha; cases ha
      simp [this, resolve]
  refine ⟨(akeys (linksOf F.st.heap 0)).filter (fun k => k != r), ⟨hnd.filter _, ?_⟩, ?_⟩
  · intro k
    rw [List.mem_filter, exists_root]
    simp only [bne_iff_ne, ne_eq, Option.some.injEq]
    constructor
    · rintro ⟨h1, h2⟩; exact ⟨h1, fun h => h2 h.symm⟩
    · rintro ⟨h1, h2⟩; exact ⟨h1, fun h => h2 h.symm⟩
  · unfold fileLen
    rw [ho, hr, pDirname_simple hrn.2.1, ← hr, hct, hlen]
    simp only [Bool.not_true, Bool.false_eq_true, if_false]
    generalize akeys (linksOf F.st.heap 0) = l at hnd
    by_cases hm : r ∈ l
    · have hne : l.length ≠ 0 := by intro hh; rw [List.length_eq_zero_iff.mp hh] at hm; cases hm
      rw [if_pos ⟨hne, trivial⟩]
      simp only [bind, Except.bind, hm, decide_true, if_true]
      congr 1
      have := List.Nodup.erase_eq_filter hnd r
      rw [← this, List.length_erase_of_mem hm]
    · have : l.filter (fun k => k != r) = l := by
        rw [List.filter_eq_self]
        intro k hk
        have : k ≠ r := fun e => hm (e ▸ hk)
        simpa using this
      rw [this]
      split
      · simp [bind, Except.bind, hm]
      · rfl

/-- C38. If the references Group is not directly in the root Group `len` counts, and iteration yields, every name in the root Group. -/
theorem C38_len_iter_nested {x : Ctx} (hr : 2 ≤ (hdf5Names x.o.refsPath).length) (h : Heap) (hd : DistinctNames h) (w : Bool) (n : Nat)
    (ops : List Op) (ho : (fileOps x n ops (FileS.new h w)).2.isOpen = true) :
    ∃ l, ListsRoot (fileOps x n ops (FileS.new h w)).2.st.heap none l ∧ fileIter x (fileOps x n ops (FileS.new h w)).2 = .ok l ∧
      fileLen x (fileOps x n ops (FileS.new h w)).2 = .ok l.length := by
  have hk : DistinctNames (fileOps x n ops (FileS.new h w)).2.st.heap := pres_ops (keysOk_elem x.o) ops (F := FileS.new h w) hd
  generalize (fileOps x n ops (FileS.new h w)).2 = F at ho hk
  have hnd : (akeys (linksOf F.st.heap 0)).Nodup := hk 0
  have hp := pDirname_nested hr
  refine ⟨sortStr (akeys (linksOf F.st.heap 0)), ⟨sortStr_nodup hnd, ?_⟩, ?_, ?_⟩
  · intro k
    rw [(sortStr_perm _).mem_iff, exists_root]
    simp
  · unfold fileIter
    rw [ho]
    simp only [Bool.not_true, Bool.false_eq_true, if_false, if_neg hp]
  · unfold fileLen
    rw [ho]
    simp only [Bool.not_true, Bool.false_eq_true, if_false, hp, and_false]
    rw [(sortStr_perm _).length_eq]
    simp [h5Len, akeys]

/-- C38 (partial). Iteration yields every name in the root Group but the references Group's, once.  Missing: files with a name that sorts before the name of
the references Group, because `itertools.dropwhile` is used (finding F7, see `C38_counterexample`). -/
theorem C38_iter_partial {x : Ctx} {r : Str} (hr : x.o.refsPath = slash :: r) (hrn : IsName r) (h : Heap) (hd : DistinctNames h) (w : Bool) (n : Nat)
    (ops : List Op) (ho : (fileOps x n ops (FileS.new h w)).2.isOpen = true)
    (hs : ∀ k, Exists (fileOps x n ops (FileS.new h w)).2.st.heap [k] → k ≠ r → strLt r k = true) :
    ∃ l, ListsRoot (fileOps x n ops (FileS.new h w)).2.st.heap (some r) l ∧ fileIter x (fileOps x n ops (FileS.new h w)).2 = .ok l := by
  have hk : DistinctNames (fileOps x n ops (FileS.new h w)).2.st.heap := pres_ops (keysOk_elem x.o) ops (F := FileS.new h w) hd
  generalize (fileOps x n ops (FileS.new h w)).2 = F at ho hk hs
  have hnd : (akeys (linksOf F.st.heap 0)).Nodup := hk 0
  have hmem : ∀ k, k ∈ sortStr (akeys (linksOf F.st.heap 0)) ↔ Exists F.st.heap [k] := fun k => by rw [(sortStr_perm _).mem_iff, exists_root]
  refine ⟨(sortStr (akeys (linksOf F.st.heap 0))).filter (fun k => k != r), ⟨(sortStr_nodup hnd).filter _, ?_⟩, ?_⟩
  · intro k
    rw [List.mem_filter, hmem]
    simp only [bne_iff_ne, ne_eq, Option.some.injEq]
    constructor
    · rintro ⟨h1, h2⟩; exact ⟨h1, fun h => h2 h.symm⟩
    · rintro ⟨h1, h2⟩; exact ⟨h1, fun h => h2 h.symm⟩
  · unfold fileIter
    rw [ho]
    simp only [Bool.not_true, Bool.false_eq_true, if_false]
    rw [if_pos (by rw [hr]; exact pDirname_simple hrn.2.1)]
    congr 1
    have hd1 : x.o.refsPath.drop 1 = r := by rw [hr]; rfl
    rw [hd1]
    apply dropWhile_eq_filter (sortStr_nodup hnd)
    have hsort := sortStr_sorted (akeys (linksOf F.st.heap 0))
    intro k _ _ hh hm
    cases hl : sortStr (akeys (linksOf F.st.heap 0)) with
    | nil => rw [hl] at hm; cases hm
    | cons a l =>
      rw [hl] at hm hh hsort
      have har : a ≠ r := fun e => hh (by rw [e]; rfl)
      rcases List.mem_cons.mp hm with h1 | h1
      · exact har h1.symm
      · have h2 := (List.pairwise_cons.mp hsort).1 r h1
        have h3 := hs a ((hmem a).mp (by rw [hl]; simp)) har
        rw [h3] at h2; cases h2

/-- The example file after some writes. -/
def exOps : List Op := [.write (.str p!"a") (.seq .list [.int 1]), .write (.str p!"b") (.int 2), .del (.str p!"c"), .read (.str p!"b")]

/-- F7: after a list was written to `!x` iteration yields the references Group as well. -/
theorem C38_counterexample : ∃ l, l.length = 1 ∧ ListsRoot (fileOps exX 10 [.write (.str p!"!x") (.seq .list [.int 1])] exF).2.st.heap (some p!"#refs#") l ∧
    fileIter exX (fileOps exX 10 [.write (.str p!"!x") (.seq .list [.int 1])] exF).2 = .ok [p!"!x", p!"#refs#"] := by
  refine ⟨[p!"!x"], rfl, ⟨by simp, ?_⟩, by decide +kernel⟩
  intro k
  rw [exists_root]
  have : akeys (linksOf (fileOps exX 10 [.write (.str p!"!x") (.seq .list [.int 1])] exF).2.st.heap 0) = [p!"#refs#", p!"!x"] := by decide +kernel
  rw [this]
  simp only [List.mem_cons, List.not_mem_nil, or_false, ne_eq, Option.some.injEq]
  constructor
  · rintro rfl; exact ⟨Or.inr rfl, by decide⟩
  · rintro ⟨h | h, h2⟩
    · exact absurd h.symm h2
    · exact h

-- Two values and a references Group: len 2, and the names are yielded.
example : (fileOps exX 10 exOps exF).2.isOpen = true ∧ fileLen exX (fileOps exX 10 exOps exF).2 = .ok 2 ∧ fileIter exX (fileOps exX 10 exOps exF).2 = .ok [p!"a", p!"b"] := by
  decide +kernel
example : ∀ k, Exists (fileOps exX 10 exOps exF).2.st.heap [k] → k ≠ p!"#refs#" → strLt p!"#refs#" k = true := by
  intro k hk
  rw [exists_root] at hk
  have : akeys (linksOf (fileOps exX 10 exOps exF).2.st.heap 0) = [p!"#refs#", p!"a", p!"b"] := by decide +kernel
  rw [this] at hk
  simp only [List.mem_cons, List.not_mem_nil, or_false] at hk
  rcases hk with rfl | rfl | rfl <;> decide

/-- C38. Membership: a path is in the file if and only if something is at the place it addresses. -/
theorem C38_contains {p : PathArg} {ns : List Str} {F : FileS} (ha : Addr p ns) (ho : F.isOpen = true) (hn : ns.all nameOk = true) :
    ∃ b, fileContains p F = .ok b ∧ (b = true ↔ Exists F.st.heap ns) := fileContains_eq ha ho hn

/-- C38. The names iteration yields are members (`..` is not a name but a direction, and names have no surrogates). -/
theorem C38_iter_members {x : Ctx} {F : FileS} {l : List Str} (hl : fileIter x F = .ok l) {k : Str} (hk : k ∈ l) (h1 : IsName k) (h2 : k ≠ [dot, dot])
    (h3 : nameOk k = true) : fileContains (.str k) F = .ok true := by
  unfold fileIter at hl
  cases ho : F.isOpen with
  | false => rw [ho] at hl; cases hl
  | true =>
    rw [ho] at hl
    simp only [Bool.not_true, Bool.false_eq_true, if_false] at hl
    have hmem : k ∈ sortStr (akeys (linksOf F.st.heap 0)) := by
      split at hl
      · cases hl
        exact (List.dropWhile_suffix _).subset hk
      · cases hl; exact hk
    rw [(sortStr_perm _).mem_iff, ← exists_root] at hmem
    have hnk : names k = [k] := by
      unfold names
      rw [hdf5Names_name k h1]
      simp only [dotdot]
      rw [if_neg h2]; rfl
    have ha : Addr (.str k) [k] := by
      rw [← hnk]
      obtain ⟨g, t, hgt⟩ : ∃ g t, processPath (.str k) = .ok (g, t) := ⟨_, _, C06_process_path_str k⟩
      exact ⟨g, t, hgt, (C06_denotes k g t hgt).2.2.2.symm⟩
    obtain ⟨b, h4, h5⟩ := fileContains_eq ha ho (by simp [h3])
    rw [h4, h5.mpr hmem]

/-- C38. After `f[p] = v` on a place not used before, `f[p]` is `v` and `p in f`. -/
theorem C38_setitem_getitem {x : Ctx} (ho : RtOpts x.o) {n : Nat} {F F' : FileS} {p : PathArg} {ns : List Str} {v : Val} (hw : WroteNew x n F p ns v F')
    (hv : Good x.o v) (hopen : F'.isOpen = true) : fileRead x n p F' = .ok v ∧ fileContains p F' = .ok true := by
  have h := file_rt ho hw hv x F' p n rfl (readable_same hv) hopen rfl hw.addr (Nat.le_refl _)
  obtain ⟨b, h1, h2⟩ := fileContains_eq hw.addr hopen (read_nameOk h hw.addr)
  exact ⟨h, by rw [h1, h2.mpr (read_exists h hw.addr)]⟩

/-- C38. `del f[p]`: if something is at `p` then afterwards everything else is as before, and what was at `p` or below is not there any more; otherwise it
raises `KeyError` and nothing happens. -/
theorem C38_delitem {x : Ctx} (hr : RefsPathOk x.o) (hn : NamesOk x.o) {F : FileS} (hF : Reach x F) (ho : F.isOpen = true) (hrw : F.ro = false) {p : PathArg}
    {ns : List Str} (ha : Addr p ns) (hne : ns ≠ []) (hok : ns.all nameOk = true) :
    (Exists F.st.heap ns → ∃ F', fileDel p F = (.ok (), F') ∧ ∀ ms q, LPath F'.st.heap ms q ↔ LPath F.st.heap ms q ∧ ¬ ns <+: ms) ∧
    (¬ Exists F.st.heap ns → fileDel p F = (.error .keyError, F)) := by
  have ht := (reach_keep hr hn hF).2
  have hw : F.writable = true := reach_writable hF
  have hpl := addr_plain ha
  obtain ⟨g, t, hgt, rfl⟩ := ha
  cases hj : pJoin [g, t] with
  | error e => cases hj
  | ok j =>
    have hd : fileDel p F = ((unlinkPath 0 (hdf5Names g ++ hdf5Names t) F.st).1, { F with st := (unlinkPath 0 (hdf5Names g ++ hdf5Names t) F.st).2 }) := by
      unfold fileDel
      rw [hw, hgt]
      simp only [Bool.not_true, Bool.false_eq_true, if_false, ho]
      rw [hj]
      dsimp only
      rw [runFile_rw _ hrw, joined_names hgt hj, ho, hw]
    rcases unlinkPath_full (hdf5Names g ++ hdf5Names t) [] 0 F.st hpl hok hne .root with ⟨h1, h2⟩ | ⟨gl, t', p', q, h1, h2, h3, h4⟩
    · rw [h1] at hd
      refine ⟨?_, fun _ => hd⟩
      rintro ⟨q, hq⟩
      exact absurd (resolve_lpath hpl hq) (h2 q)
    · rw [h4] at hd
      rw [List.nil_append] at h1
      refine ⟨fun _ => ⟨_, hd, ?_⟩, ?_⟩
      · intro ms r
        rw [h1]
        exact lpath_removed ht h2 h3 ms r
      · intro hne
        exact absurd ⟨q, by rw [h1]; exact .snoc h2 h3⟩ hne

-- Deleting one of two values.
example : (fileDel (.str p!"/x/y") (exWritten (.int 7))).1 = .ok () ∧ fileContains (.str p!"x") (fileDel (.str p!"/x/y") (exWritten (.int 7))).2 = .ok true ∧
    fileContains (.str p!"x/y") (fileDel (.str p!"/x/y") (exWritten (.int 7))).2 = .ok false := by decide +kernel
example : Reach exX (exWritten (.int 7)) ∧ (exWritten (.int 7)).isOpen = true ∧ (exWritten (.int 7)).ro = false ∧ Exists (exWritten (.int 7)).st.heap [p!"x", p!"y"] := by
  refine ⟨.wrote 10 [(.str p!"/x/y", .int 7)] ex_reach ?_, by decide +kernel, by decide +kernel, ?_⟩
  · intro pv hpv
    simp only [List.mem_singleton] at hpv
    subst hpv
    intro ha
    have := addr_unique ha ⟨p!"/x", p!"y", by decide, rfl⟩
    revert this; decide
  · exact ⟨_, lpath_resolve (by intro c hc; simp only [List.mem_cons, List.not_mem_nil, or_false] at hc; rcases hc with rfl | rfl <;> decide) (by decide +kernel : resolve (exWritten (.int 7)).st.heap 0 [p!"x", p!"y"] = some 2)⟩

/-- C39. After `close()`: `closed` is True, the file is as it was before closing and stays so whatever is called, calls that work on the data raise, and they
raise `OSError` unless an argument is wrong, and closing again does nothing. -/
theorem C39_closed {x : Ctx} (hr : RefsPathOk x.o) (n : Nat) (F : FileS) :
    fileClosed (fileClose F).2 = true ∧ (fileClose F).2.st = F.st ∧
    ∀ ops, (fileOps x n ops (fileClose F).2).2 = (fileClose F).2 ∧
      (∀ (i : Nat) (op : Op), ops[i]? = some op → (OnData op → ∃ e, (fileOps x n ops (fileClose F).2).1[i]? = some (Except.error e)) ∧
        (NeedsFile x.o op → (fileOps x n ops (fileClose F).2).1[i]? = some (Except.error .osError)) ∧
        (op = .closed → (fileOps x n ops (fileClose F).2).1[i]? = some (Except.ok (.bool true))) ∧ (op = .close → (fileOps x n ops (fileClose F).2).1[i]? = some (Except.ok .unit))) := by
  refine ⟨rfl, rfl, fun ops => ?_⟩
  have hc : (fileClose F).2.isOpen = false := rfl
  generalize (fileClose F).2 = G at hc
  induction ops with
  | nil => exact ⟨rfl, fun i op h => by simp at h⟩
  | cons op ops ih =>
    have h1 : (fileOp x n op G).2 = G := closed_same hc op
    have h2 : fileOps x n (op :: ops) G = ((fileOp x n op G).1 :: (fileOps x n ops G).1, (fileOps x n ops G).2) := by
      rw [fileOps, h1]
    rw [h2]
    refine ⟨ih.1, ?_⟩
    intro i op' hi
    cases i with
    | zero =>
      simp only [List.getElem?_cons_zero, Option.some.injEq] at hi ⊢
      subst hi
      exact ⟨fun h => by simpa using closed_raises (x := x) (n := n) hc op h, fun h => by simpa using closed_os (n := n) hr hc op h, by rintro rfl; unfold fileOp fileClosed; rw [hc]; rfl, by rintro rfl; rfl⟩
    | succ i => exact ih.2 i op' (by simpa using hi)

-- Some calls on a closed file.
example : (fileOps exX 10 [.close, .read (.str p!"x/y"), .write (.str p!"z") (.int 1), .len, .closed] (exWritten (.int 7))).1.map raised =
    [none, some .osError, some .osError, some .osError, none] := by decide +kernel

/-- C40 (partial). A file opened read-only never changes, whatever is called.  Missing: that the calls raise `OSError` (finding F8, see `C40_counterexample`): the
File's own check never fires, so what is raised, if anything, is what h5py raises, or something else if something else is wrong before. -/
theorem C40_readonly_partial (x : Ctx) (n : Nat) (h : Heap) (ops : List Op) : (fileOps x n ops (FileS.new h false)).2.st = St.init h := by
  have : ∀ F : FileS, F.ro = true → (fileOps x n ops F).2.st = F.st ∧ (fileOps x n ops F).2.ro = true := by
    induction ops with
    | nil => intro F hF; exact ⟨rfl, hF⟩
    | cons op ops ih =>
      intro F hF
      obtain ⟨h1, h2⟩ := ro_op (x := x) (n := n) hF op
      obtain ⟨h3, h4⟩ := ih _ h2
      exact ⟨by rw [fileOps]; exact h3.trans h1, by rw [fileOps]; exact h4⟩
  exact (this (FileS.new h false) rfl).1

/-- F8: on a file opened read-only `writes` of nothing succeeds and deleting raises `KeyError`. -/
theorem C40_counterexample : (fileWrites exX 10 [] (FileS.new [⟨[], .group []⟩] false)).1 = .ok () ∧
    (fileDel (.str p!"a") (FileS.new [⟨[], .group []⟩] false)).1 = .error .keyError := by decide +kernel

example : (fileOps exX 10 [.write (.str p!"z") (.int 1)] (FileS.new [⟨[], .group []⟩] false)).1.map raised = [some .other] := by decide +kernel

end HS
