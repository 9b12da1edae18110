import Verif.Lemmas.PlainRead
import Verif.Props.MatRead
/-
What values stored with neither Python metadata nor MATLAB's attributes read back as.
-/
namespace HS
open Spec

theorem plainGood_regular {o : COpts} {v : Val} (h : PlainGood o v) : Regular o v := by
  induction h with
  | data h =>
    rcases h with h | ⟨h, _⟩
    · obtain ⟨c, h1, _⟩ := numericOf_numpy h
      obtain ⟨t, h2⟩ := dtName_num (numericOf_dt h)
      exact .plain h1 h2
    · obtain ⟨_, c, dt, sh, h1, h2⟩ := textData_class h
      obtain ⟨t, h2⟩ := dtName_text h2
      exact .plain h1 h2
  | npObj c sh e h1 h2 _ ih => exact .npObj c sh e h1 h2 ih
  | seq k e _ ih => exact .seq k e ih
  | fields h1 h2 _ _ ih =>
    refine .fields h1 h2.1 ih
  | dict k keys vals kn vn h1 _ h2 h3 _ _ i1 i2 =>
    refine .dict k keys vals h1 ?_ i1 i2
    intro e
    unfold Shown at h2
    rw [e] at h2
    cases h2 with
    | cons a h2 => cases h2 with
      | cons b h2 =>
        rw [a] at b
        have := h3.1
        rw [Except.ok.inj b] at this
        simp at this
  | npStruct c sh n ty e h1 h2 h3 _ _ _ ih => exact .npStruct c sh n ty e h1.1 h2 h3 ih
  | table _ _ _ _ _ _ h => exact h
  | emptyStruct c sh n ty _ h0 h1 h3 =>
    refine .npStruct c sh n ty [] h1 ?_ h3 (by intro w hw; cases hw)
    rw [prodN_zero.mpr h0]; rfl

theorem plainO_of {o : Options} (hm : o .matlabCompatible = .bool false) (hp : o .storePythonMetadata = .bool false) : PlainO (COpts.of o) := by
  refine ⟨?_, ?_⟩
  · show boolOf o _ = _
    unfold boolOf
    rw [hp]; rfl
  · show boolOf o _ = _
    unfold boolOf
    rw [hm]; rfl

/-- What has been written, and reading it. -/
theorem plain_file {o : Options} (ho : ReachableOptions o) (hm : o .matlabCompatible = .bool false) (hp : o .storePythonMetadata = .bool false) {x : Ctx} (hx : x.o = COpts.of o)
    {h0 : Heap} (ht : Tree h0) (hk : DistinctNames h0) (hv : ValidRefs x.o h0) (ha : CanonAtA x.o h0) {F : FileS} (hu : UsedFrom x.o h0 x F) {n : Nat} {F' : FileS}
    {p : PathArg} {ns : List Str} {v : Val} (hw : WroteNew x n F p ns v F') (y : Ctx) (hy : y.o.refsPath = x.o.refsPath) (hreg : Regular x.o v) :
    ∃ path q, Laid x.o F'.st.heap ns path q (.value v) ∧ Tree F'.st.heap ∧ DistinctNames F'.st.heap ∧ ¬ ns <+: hdf5Names x.o.refsPath ∧
      ∀ (G : FileS) (p' : PathArg) (m : Nat) (r : Res Val), G.isOpen = true → G.st.heap = F'.st.heap → Addr p' ns →
        readData y.o (viewOf F'.st.heap) (exclOf y.o F'.st.heap) m q = r → fileRead y m p' G = r := by
  have hO : PlainO x.o := hx ▸ plainO_of hm hp
  have hkept := plain_kept hO v
  obtain ⟨_, hN, hRI⟩ := used_ri hw.refs ht hv ha hu
  obtain ⟨gs, t, s1, g, ob, hrun⟩ := wrote_run hN ⟨hw.refs, hw.reach, hw.rw, hw.addr, hw.notRoot, hw.ok⟩
  obtain ⟨⟨q, hl⟩, _⟩ := C62_layout ho hx ht hv ha hu hw hreg hkept
  have hk' : DistinctNames F'.st.heap := by
    have := pres_ops (keysOk_elem x.o) (n := n) [.write p v] (used_distinct hk hu)
    show DistinctNames F'.st.heap
    have e : (fileOps x n [.write p v] F).2 = F' := by
      show (fileWrite x n p v F).2 = F'
      rw [hw.ok]
    rwa [e] at this
  have ht' : Tree F'.st.heap := by
    have := (reach_keep hw.refs hN (.wrote n [(p, v)] hw.reach (by
      intro pv hpv ha0
      rw [List.mem_singleton.mp hpv] at ha0
      exact hw.notRoot (addr_unique hw.addr ha0)))).2
    have e : (fileWrites x n [(p, v)] F).2 = F' := by
      have := hw.ok
      unfold fileWrite at this
      rw [this]
    rwa [e] at this
  have hnq : LPath F'.st.heap ns q := by cases hl <;> assumption
  have hoff : ¬ ns <+: hdf5Names x.o.refsPath := by
    intro hpre
    exact hrun.off.head (head_prefix hpre hw.notRoot)
  refine ⟨_, q, hl, ht', hk', hoff, ?_⟩
  intro G p' m r hG hh ha' hr
  have hoff' := hrun.off
  rw [hrun.names] at ha' hoff' hnq
  obtain ⟨gs', d1, d2⟩ := addr_check hw.refs hoff' ha'
  rw [fileRead_eq]
  rw [hy, d1]
  dsimp only
  rw [hG]
  simp only [Bool.not_true, Bool.false_eq_true, if_false]
  rw [hh, readOne_at hrun.dot (by rw [d2]; exact hnq), d2]
  obtain ⟨_, _, _, e1⟩ := hrun.reqG.ok g rfl
  have e2 : nameOk t = true := by
    have hr := hrun.run
    cases ob with
    | none => exact absurd ((writeData_none hr).mp rfl) hkept
    | some q => exact writeData_nameOk hr
  rw [if_pos e1, if_pos e2]
  exact hr

/-- C78. With neither `matlab_compatible` nor `store_python_metadata`, whatever is made of numbers, text, lists and the like, object arrays, dicts, records and structured arrays
stored as Groups (`PlainGood`) is read back, at every depth, as what the Datasets and Groups show (`AsPlain`: arrays as they were stored, object arrays, and structured arrays sorted by
the names of the fields).  This is so for any file in use and any place in it where nothing was, for reading with any options with the references Group at the same place
(`structs_as_dicts` makes no difference), through the same `File` object or after opening the file again, if the recursion limit is large enough. -/
theorem C78_plain {o : Options} (ho : ReachableOptions o) (hm : o .matlabCompatible = .bool false) (hp : o .storePythonMetadata = .bool false) {x : Ctx} (hx : x.o = COpts.of o)
    {h0 : Heap} (ht : Tree h0) (hk : DistinctNames h0) (hv : ValidRefs x.o h0) (ha : CanonAtA x.o h0) {F : FileS} (hu : UsedFrom x.o h0 x F) {n : Nat} {F' : FileS}
    {p : PathArg} {ns : List Str} {v : Val} (hw : WroteNew x n F p ns v F') (y : Ctx) (hy : y.o.refsPath = x.o.refsPath) (hg : PlainGood x.o v) :
    ∃ w N, AsPlain x.o (.value v) w ∧ ∀ (G : FileS) (p' : PathArg) (m : Nat), G.isOpen = true → G.st.heap = F'.st.heap → Addr p' ns → N ≤ m → fileRead y m p' G = .ok w := by
  have hO : PlainO x.o := hx ▸ plainO_of hm hp
  obtain ⟨path, q, hl, ht', hk', hoff, hrd⟩ := plain_file ho hm hp hx ht hk hv ha hu hw y hy (plainGood_regular hg)
  obtain ⟨w, N, h1, h2⟩ := (laid_plain (y := y.o) hO ht' hk' (commonComps_plain _) hy hl hoff hg).2
  exact ⟨w, N, h1, fun G p' m hG hh ha' hm' => hrd G p' m _ hG hh ha' (h2 m hm')⟩

theorem holds_same {o : COpts} (hr : o.reverse = false) (h2 : o.atleast2d = false) {a b : Arr} (hb : HoldsArray o a b) (hc : a.data.length = prodN a.shape) :
    b.shape = a.shape ∧ b.data = a.data := by
  have hs : b.shape = a.shape := by
    rw [hb.shape, hr]
    show RowShape o a.shape = _
    unfold RowShape
    rw [h2]; rfl
  have hR : RowShape o a.shape = a.shape := by
    unfold RowShape
    rw [h2]; rfl
  refine ⟨hs, ?_⟩
  have hl : b.data.length = a.data.length := by rw [hb.count, hs, hc]
  refine List.ext_getElem hl ?_
  intro k h1 h2
  have hk' : k < (indicesN a.shape).length := by rw [length_indicesN, ← hc]; exact h2
  have hg : (indicesN a.shape)[k]? = some ((indicesN a.shape)[k]) := List.getElem?_eq_getElem hk'
  generalize (indicesN a.shape)[k] = i at hg
  have hv : ValidIx a.shape i := (mem_indicesN _ i).mp (List.mem_of_getElem? hg)
  have := hb.elems i (by rw [hR]; exact valid_indexOf hv)
  rw [hr, if_neg (by decide), hs, hR, ravelN_of_getElem _ k i hg, List.getElem?_eq_getElem h1, List.getElem?_eq_getElem h2] at this
  exact Option.some.inj this

/-- C78. In particular without any conversions, arrays of numbers are read back as they were (complex numbers too if the names of their
fields are the default ones, `r` and `i`). -/
theorem C78_numbers {o : Options} (ho : ReachableOptions o) (hm : o .matlabCompatible = .bool false) (hp : o .storePythonMetadata = .bool false) {x : Ctx} (hx : x.o = COpts.of o)
    {h0 : Heap} (ht : Tree h0) (hk : DistinctNames h0) (hv : ValidRefs x.o h0) (ha : CanonAtA x.o h0) {F : FileS} (hu : UsedFrom x.o h0 x F) {n : Nat} {F' : FileS}
    {p : PathArg} {ns : List Str} {a : Arr} (hw : WroteNew x n F p ns (.np .ndarray a) F') (y : Ctx) (hy : y.o.refsPath = x.o.refsPath)
    (hr : x.o.reverse = false) (h2 : x.o.atleast2d = false) (hb : x.o.boolsU8 = false) (hs : x.o.storeShape = false)
    (hd : NumericDT a.dt) (hcx : a.dt = .c64 ∨ a.dt = .c128 → x.o.complexNames = (p!"r", p!"i")) (hc : a.data.length = prodN a.shape) :
    ∃ N, ∀ (G : FileS) (p' : PathArg) (m : Nat), G.isOpen = true → G.st.heap = F'.st.heap → Addr p' ns → N ≤ m → fileRead y m p' G = .ok (.np .ndarray a) := by
  obtain ⟨w, N, h1, h⟩ := C78_plain ho hm hp hx ht hk hv ha hu hw y hy (.data (.inl (.np _ _ hd hc)))
  refine ⟨N, ?_⟩
  suffices w = .np .ndarray a by rw [← this]; exact h
  cases h1 with
  | noData _ h' => rw [hs] at h'; cases h'
  | shape _ h' => rw [hs] at h'; cases h'
  | cells he => cases he
  | group hfo =>
    cases hfo with
    | fields hfi => cases hfi
  | @data _ a' b hl _ hH =>
    rcases hl with hl | ⟨hl, _⟩
    · cases hl
      obtain ⟨e1, e2⟩ := holds_same hr h2 hH hc
      have e3 : b.dt = a.dt := by
        have hdt := hH.dt
        generalize hA : a.dt = A at hdt hcx
        generalize hB : b.dt = B at hdt
        cases hdt with
        | bool => rw [hb]; rfl
        | c64 r i h1 h2 =>
          rw [hcx (.inl rfl)] at h1 h2
          rw [if_pos ⟨h1.resolve_right (by decide), h2.resolve_right (by decide)⟩]
        | c128 r i h1 h2 =>
          rw [hcx (.inr rfl)] at h1 h2
          rw [if_pos ⟨h1.resolve_right (by decide), h2.resolve_right (by decide)⟩]
        | same => rfl
      have : b = a := by
        cases a; cases b
        simp only at e1 e2 e3
        rw [e1, e2, e3]
      rw [this]
    · exfalso
      obtain ⟨_, c, dt, sh, h3, h4⟩ := textData_class hl
      cases h3
      rcases h4 with ⟨k, h4⟩ | ⟨k, h4⟩
      · rw [h4] at hd; simp [NumericDT] at hd
      · rw [h4] at hd; simp [NumericDT] at hd

theorem inOrder_same {o : COpts} (hr : o.reverse = false) (h2 : o.atleast2d = false) {sh : List Nat} {e el : List Val} (h : InOrder o sh e el) (hc : e.length = prodN sh) : el = e := by
  have hR : RowShape o sh = sh := by
    unfold RowShape
    rw [h2]; rfl
  have hS : StoredShape o sh = sh := by
    unfold StoredShape
    rw [hr, hR]; rfl
  refine List.ext_getElem (h.count.trans hc.symm) ?_
  intro k h1 h2
  have hk' : k < (indicesN sh).length := by rw [length_indicesN, ← hc]; exact h2
  have hg : (indicesN sh)[k]? = some ((indicesN sh)[k]) := List.getElem?_eq_getElem hk'
  generalize (indicesN sh)[k] = i at hg
  have hv : ValidIx sh i := (mem_indicesN _ i).mp (List.mem_of_getElem? hg)
  have := h.elems i (by rw [hR]; exact valid_indexOf hv)
  rw [hr, if_neg (by decide), hS, hR, ravelN_of_getElem _ k i hg, List.getElem?_eq_getElem h1, List.getElem?_eq_getElem h2] at this
  exact Option.some.inj this

/-- C78. In particular without any conversions, structured arrays whose fields are of numbers, bytes and structured dtypes of these, in one or more dimensions, are read back as they were
(as `numpy.ndarray`). -/
theorem C78_structured {o : Options} (ho : ReachableOptions o) (hm : o .matlabCompatible = .bool false) (hp : o .storePythonMetadata = .bool false) {x : Ctx} (hx : x.o = COpts.of o)
    {h0 : Heap} (ht : Tree h0) (hk : DistinctNames h0) (hv : ValidRefs x.o h0) (ha : CanonAtA x.o h0) {F : FileS} (hu : UsedFrom x.o h0 x F) {n : Nat} {F' : FileS}
    {p : PathArg} {ns : List Str} {c : Cont} {sh : List Nat} {names : List Str} {ty : List FT} {e : List Val} (hw : WroteNew x n F p ns (.npStruct c sh names ty e) F') (y : Ctx)
    (hy : y.o.refsPath = x.o.refsPath) (hr : x.o.reverse = false) (h2 : x.o.atleast2d = false) (hg : GoodTable x.o c sh names ty e) (hreg : Regular x.o (.npStruct c sh names ty e)) :
    ∃ N, ∀ (G : FileS) (p' : PathArg) (m : Nat), G.isOpen = true → G.st.heap = F'.st.heap → Addr p' ns → N ≤ m →
      fileRead y m p' G = .ok (.npStruct .ndarray sh names ty e) := by
  obtain ⟨w, N, h1, h⟩ := C78_plain ho hm hp hx ht hk hv ha hu hw y hy (.table _ _ _ _ _ hg hreg)
  refine ⟨N, ?_⟩
  suffices w = .npStruct .ndarray sh names ty e by rw [← this]; exact h
  have hsh : StoredShape x.o sh = sh := by
    unfold StoredShape RowShape
    rw [hr, h2]; rfl
  cases h1 with
  | data hlf => obtain ⟨_, _, _, hlf⟩ := leaf_numpy hlf; cases hlf
  | noData hlf => obtain ⟨_, _, _, hlf⟩ := leaf_numpy hlf; cases hlf
  | cells he => cases he
  | shape hs _ h0 =>
    rcases hs with ⟨_, he⟩ | ⟨c', n', ty', e', he⟩
    · cases he
    · cases he
      have := hg.size
      rw [prodN_zero.mpr h0] at this
      omega
  | group _ hG => exact absurd hG (goodTable_notGroup hg)
  | @table _ _ _ _ _ cols els _ c1 c2 c3 =>
    have : els = cols := by
      refine List.ext_getElem? fun k => ?_
      have hl := all2_length c3
      by_cases hk : k < cols.length
      · have e1 := List.getElem?_eq_getElem hk
        have e2 := List.getElem?_eq_getElem (hl ▸ hk)
        rw [e1, e2, inOrder_same hr h2 (all2_at c3 e1 e2) (c1 _ (List.getElem_mem hk))]
      · rw [List.getElem?_eq_none (by omega), List.getElem?_eq_none (by omega)]
    rw [this, hsh, c2]

theorem asPlain_together {o : COpts} {v w : Val} {texts : List Str} {vals : List Val} (h : AsPlain o (.value v) w) (hf : HasFields v texts vals)
    (hL : ∀ P ∈ vals.map Part.value, Listed o P) :
    ∃ S keys types els, LastShape o texts (vals.map .value) S ∧ w = .npStruct .ndarray S keys types els ∧ keys.Pairwise (fun a b => strLt a b = true) ∧ ∀ t, t ∈ keys ↔ t ∈ texts := by
  have leaf : ∀ {a : Arr}, LeafData o v a → False := by
    intro a hl
    obtain ⟨c, dt, sh, hn⟩ := leaf_numpy hl
    cases hf <;> cases hn
  cases h with
  | data hl => exact (leaf hl).elim
  | noData hl => exact (leaf hl).elim
  | shape hs =>
    rcases hs with ⟨e, he⟩ | ⟨c, n, ty, e, he⟩
    · cases hf <;> cases he
    · cases he; cases hf
  | cells he => cases hf <;> cases he
  | table => cases hf
  | @group _ names shown keys parts vs S' shapes els us types hfo hG hlen hs hk0 _ hsort hmem hvl hA hR _ _ _ =>
    have hfo' : parts = vals.map .value ∧ All2 (fun t k => escapePath t = .ok k) texts names := by
      cases hfo with
      | fields h1 h2 =>
        obtain ⟨rfl, rfl⟩ := hasFields_same h1 hf
        exact ⟨rfl, h2⟩
      | keysValues k ks vs h1 => exact (notText_hasFields rfl h1 hf).elim
      | one => cases hf
      | many => cases hf
    obtain ⟨rfl, he⟩ := hfo'
    have e : shown = texts := by
      have h1 := shown_of_escaped he
      refine List.ext_getElem? fun i => ?_
      have e1 := (shown_at hs).1
      have e2 := (shown_at h1).1
      by_cases hi : i < names.length
      · have a1 := List.getElem?_eq_getElem hi
        have a2 := List.getElem?_eq_getElem (e1 ▸ hi)
        have a3 := List.getElem?_eq_getElem (e2 ▸ hi)
        have b1 := (shown_at hs).2 i _ _ a1 a2
        have b2 := (shown_at h1).2 i _ _ a1 a3
        rw [a2, a3]
        exact congrArg some (Except.ok.inj (b1.symm.trans b2))
      · rw [List.getElem?_eq_none (by omega), List.getElem?_eq_none (by omega)]
    subst e
    refine ⟨S', keys, types, us.flatten, ?_, rfl, hsort, hmem⟩
    cases hR with
    | one _ h =>
      obtain ⟨P, hP, hn⟩ := h
      exact absurd (hL P hP) hn
    | several _ _ _ hLall hse hS _ =>
      have hv0 : 0 < (List.zipWith (Val.npObj .ndarray) shapes els).length := by
        rw [hvl]
        cases keys with
        | nil => exact absurd rfl hk0
        | cons => simp
      have hA2 : All2 (fun t w => (∃ P ∈ vals.map Part.value, AsPlain o P w) ∧ ∀ (i : Nat) (P : Part), shown[i]? = some t → (vals.map Part.value)[i]? = some P → AsPlain o P w) keys
          (List.zipWith (Val.npObj .ndarray) shapes els) := by
        refine all2_of hvl.symm fun j t w h1 h2 => ?_
        have hall : ∀ (i : Nat) (P : Part), shown[i]? = some t → (vals.map Part.value)[i]? = some P → AsPlain o P w := fun i P g1 g2 => hA i j t P w g1 g2 h1 h2
        obtain ⟨i, hi, e⟩ := List.mem_iff_getElem.mp ((hmem t).mp (List.mem_of_getElem? h1))
        have e1 : shown[i]? = some t := by rw [List.getElem?_eq_getElem hi, e]
        have e3 := List.getElem?_eq_getElem (l := vals.map Part.value) (i := i) (by rw [hlen, (shown_at hs).1]; exact hi)
        exact ⟨⟨_, List.mem_of_getElem? e3, hall i _ e1 e3⟩, hall⟩
      obtain ⟨arrs, la, harrs, hla, _, hla', hLS⟩ := plain_arrs hA2 hLall (hlen.trans (shown_at hs).1) hmem hsort hv0
      suffices la.1 = S' by rw [← this]; exact hLS
      have hzl : (List.zipWith (Val.npObj .ndarray) shapes els).length = shapes.length := by rw [List.length_zipWith]; omega
      rw [List.getLast?_eq_getElem?] at hS hla'
      have hj : shapes.length - 1 < els.length := by omega
      have hw : (List.zipWith (Val.npObj .ndarray) shapes els)[shapes.length - 1]? = some (.npObj .ndarray S' els[shapes.length - 1]) := by
        rw [List.getElem?_zipWith, hS, List.getElem?_eq_getElem hj]
      rw [← hla, hzl] at hla'
      obtain ⟨e1, _⟩ := all2_at harrs hw hla'
      injection e1 with _ e1
      exact e1.symm

theorem lists_shape {o : COpts} (h2 : o.atleast2d = false) (l : Nat) : StoredShape o [l] = [l] := by
  unfold StoredShape RowShape
  rw [h2]
  simp

theorem lists_listed {o : COpts} {vals : List Val} (hl : ∀ w ∈ vals, ∃ k e, w = .seq k e ∧ ¬ (o.storeShape = true ∧ e = [])) : ∀ P ∈ vals.map Part.value, Listed o P := by
  intro P hP
  obtain ⟨w, hw1, rfl⟩ := List.mem_map.mp hP
  obtain ⟨k, e, rfl, he⟩ := hl w hw1
  refine ⟨_, _, .seq k e, ?_⟩
  rintro ⟨h1, h⟩
  exact he ⟨h1, List.length_eq_zero_iff.mp (List.mem_singleton.mp h).symm⟩

theorem lists_last {o : COpts} (h2 : o.atleast2d = false) {texts : List Str} {vals : List Val} {i : Nat} {t : Str} {k : SeqKind} {e : List Val} (hi : texts[i]? = some t)
    (hlast : ∀ u ∈ texts, u = t ∨ strLt u t = true) (hv : vals[i]? = some (.seq k e)) : LastShape o texts (vals.map .value) [e.length] :=
  ⟨i, t, _, _, _, hi, hlast, by rw [List.getElem?_map, hv]; rfl, .seq k e, (lists_shape h2 _).symm⟩

/-- C78, finding F62. A dict with string keys whose values all are lists (or the like), none longer than the one of the last key, is read back as a structured array with as many
elements as that one: nothing in the file tells it from the columns of a structured array.  If the last one is empty, nothing is left of the others. -/
theorem C78_lists_together {o : Options} (ho : ReachableOptions o) (hm : o .matlabCompatible = .bool false) (hp : o .storePythonMetadata = .bool false) {x : Ctx} (hx : x.o = COpts.of o)
    {h0 : Heap} (ht : Tree h0) (hk : DistinctNames h0) (hv : ValidRefs x.o h0) (ha : CanonAtA x.o h0) {F : FileS} (hu : UsedFrom x.o h0 x F) {n : Nat} {F' : FileS}
    {p : PathArg} {ns : List Str} {v : Val} (hw : WroteNew x n F p ns v F') (y : Ctx) (hy : y.o.refsPath = x.o.refsPath) (h2 : x.o.atleast2d = false)
    {texts : List Str} {vals : List Val} (hf : HasFields v texts vals) (ht' : FieldTexts texts)
    (hl : ∀ w ∈ vals, ∃ k e, w = .seq k e ∧ ¬ (x.o.storeShape = true ∧ e = [])) {i : Nat} {t : Str} {k : SeqKind} {e : List Val} (hi : texts[i]? = some t)
    (hlast : ∀ u ∈ texts, u = t ∨ strLt u t = true) (hvi : vals[i]? = some (.seq k e)) (hshort : e = [] ∨ ∀ k' e', .seq k' e' ∈ vals → e'.length ≤ e.length)
    (hg : ∀ w ∈ vals, PlainGood x.o w) :
    ∃ keys types els N, keys.Pairwise (fun a b => strLt a b = true) ∧ (∀ t, t ∈ keys ↔ t ∈ texts) ∧
      ∀ (G : FileS) (p' : PathArg) (m : Nat), G.isOpen = true → G.st.heap = F'.st.heap → Addr p' ns → N ≤ m →
        fileRead y m p' G = .ok (.npStruct .ndarray [e.length] keys types els) := by
  have hL := lists_listed hl
  have hT : Together x.o texts (vals.map .value) := by
    refine .inr ⟨hL, fun S hS P hP sh es hE => ?_⟩
    rw [lastShape_same ht'.1 hS (lists_last h2 hi hlast hvi)]
    obtain ⟨w, hw1, rfl⟩ := List.mem_map.mp hP
    obtain ⟨k', e', rfl, _⟩ := hl w hw1
    rw [elements_same hE (.seq k' e'), lists_shape h2]
    rcases hshort with rfl | hs
    · exact .inr (.inl (by simp))
    · refine .inr (.inr (.inr ⟨rfl, fun j => ?_⟩))
      have := hs k' e' hw1
      match j with
      | 0 => simpa using this
      | j + 1 => simp
  obtain ⟨w, N, h1, h⟩ := C78_plain ho hm hp hx ht hk hv ha hu hw y hy (.fields hf ht' hT hg)
  obtain ⟨S, keys, types, els, hS, rfl, h3, h4⟩ := asPlain_together h1 hf hL
  rw [lastShape_same ht'.1 hS (lists_last h2 hi hlast hvi)] at h
  exact ⟨keys, types, els, N, h3, h4, h⟩

/-- C78, finding F62. If one of the lists is longer than the one of the last key (which is not empty), the dict cannot be read back: `IndexError` is raised.  Writing it is no error. -/
theorem C78_lists_longer {o : Options} (ho : ReachableOptions o) (hm : o .matlabCompatible = .bool false) (hp : o .storePythonMetadata = .bool false) {x : Ctx} (hx : x.o = COpts.of o)
    {h0 : Heap} (ht : Tree h0) (hk : DistinctNames h0) (hv : ValidRefs x.o h0) (ha : CanonAtA x.o h0) {F : FileS} (hu : UsedFrom x.o h0 x F) {n : Nat} {F' : FileS}
    {p : PathArg} {ns : List Str} {v : Val} (hw : WroteNew x n F p ns v F') (y : Ctx) (hy : y.o.refsPath = x.o.refsPath) (h2 : x.o.atleast2d = false)
    {texts : List Str} {vals : List Val} (hf : HasFields v texts vals) (ht' : FieldTexts texts)
    (hl : ∀ w ∈ vals, ∃ k e, w = .seq k e ∧ ¬ (x.o.storeShape = true ∧ e = [])) {i : Nat} {t : Str} {k : SeqKind} {e : List Val} (hi : texts[i]? = some t)
    (hlast : ∀ u ∈ texts, u = t ∨ strLt u t = true) (hvi : vals[i]? = some (.seq k e)) (h0 : e ≠ []) (hlong : ∃ k' e', .seq k' e' ∈ vals ∧ e.length < e'.length)
    (hg : ∀ w ∈ vals, PlainGood x.o w) :
    ∃ N, ∀ (G : FileS) (p' : PathArg) (m : Nat), G.isOpen = true → G.st.heap = F'.st.heap → Addr p' ns → N ≤ m → fileRead y m p' G = .error .indexError := by
  have hO : PlainO x.o := hx ▸ plainO_of hm hp
  have hreg : Regular x.o v := .fields hf ht'.1 (fun w hw => plainGood_regular (hg w hw))
  obtain ⟨path, q, hl', ht2, hk', hoff, hrd⟩ := plain_file ho hm hp hx ht hk hv ha hu hw y hy hreg
  have e0 : e.length ≠ 0 := fun h => h0 (List.length_eq_zero_iff.mp h)
  obtain ⟨N, h⟩ := laid_beyond (y := y.o) hO ht2 hk' (commonComps_plain _) hy hl' hoff hf ht' hg (lists_listed hl) (by
    intro S hS P hP sh es hE
    rw [lastShape_same ht'.1 hS (lists_last h2 hi hlast hvi)]
    obtain ⟨w, hw1, rfl⟩ := List.mem_map.mp hP
    obtain ⟨k', e', rfl, _⟩ := hl w hw1
    rw [elements_same hE (.seq k' e'), lists_shape h2]
    rfl) (by
    intro S hS
    rw [lastShape_same ht'.1 hS (lists_last h2 hi hlast hvi)]
    obtain ⟨k', e', g1, g2⟩ := hlong
    refine ⟨by simp; omega, _, List.mem_map_of_mem g1, _, _, .seq k' e', ?_, 0, ?_⟩
    · rw [lists_shape h2]; simp; omega
    · rw [lists_shape h2]; simpa using g2)
  exact ⟨N, fun G p' m hG hh ha' hm' => hrd G p' m _ hG hh ha' (h m hm')⟩

/-- Without Python metadata and not compatible with MATLAB. -/
def exOptsP : COpts := { exOpts with
  pyMeta := false, matlab := false, deleteUnused := false, structAsStruct := false, atleast2d := false, bytes16 := false, str16 := false, boolsU8 := false,
  reverse := false, storeShape := false, complexNames := (p!"r", p!"i") }

/-- A context with them. -/
def exXp : Ctx := { exX with o := exOptsP }

theorem ex_optionsP : ∃ o, ReachableOptions o ∧ o .matlabCompatible = .bool false ∧ o .storePythonMetadata = .bool false ∧ exXp.o = COpts.of o := by
  obtain ⟨o, h, e⟩ : ∃ o, newOptions (fun k => if k = .storePythonMetadata ∨ k = .matlabCompatible then .bool false else Options.default k) = .ok o ∧ COpts.of o = exXp.o :=
    ⟨_, rfl, by decide +kernel⟩
  obtain ⟨c1, _, c3⟩ := C09_constructor _ o h
  have c' := (c3 .storePythonMetadata (by decide) (fun h => absurd h.2 (by simp [matlabTable]))).1 ⟨false, rfl⟩
  refine ⟨o, ⟨_, o, [], h, rfl⟩, ?_, ?_, e.symm⟩
  · exact c1 false rfl
  · rw [c']; rfl

theorem ex_wroteP {v : Val} (hrun : (fileWrite exXp 10 (.str p!"/y") v exF).1 = .ok ()) (hpos : (fileWrite exXp 10 (.str p!"/y") v exF).2.st.rpos = 0) :
    UsedFrom exXp.o emptyHeap exXp exF ∧ WroteNew exXp 10 exF (.str p!"/y") [p!"y"] v (fileWrite exXp 10 (.str p!"/y") v exF).2 := by
  have hu : UsedFrom exXp.o emptyHeap exXp exF := .opened exXp true rfl ⟨ex_rtOpts.names.1, ex_rtOpts.names.2⟩
  refine ⟨hu, ⟨⟨rfl, by decide⟩, used_reach ⟨rfl, by decide⟩ tree_empty (empty_valid _) (empty_canon _) hu, rfl, ⟨p!"/", p!"y", by decide, rfl⟩, by decide, ?_, ?_, pair_of_fst hrun⟩⟩
  · rintro ⟨q, hq⟩
    have h1 := resolve_lpath (by intro c hc; simp only [List.mem_singleton] at hc; subst hc; decide) hq
    have h2 : resolve exF.st.heap 0 [p!"y"] = none := by decide +kernel
    rw [h2] at h1
    cases h1
  · intro i j _ _ h3
    rw [hpos] at h3
    omega

/-- A dict with a list, a dict of two lists, a structured array with objects, a str and an array. -/
def exPlainVal : Val := .dict .dict [.str p!"e", .str p!"a/b", .bytes [99], .str p!"d"]
  [.np .ndarray ⟨.c64, [2, 1], [.cplx 0 1, .cplx 5 2]⟩, .seq .list [.int 1, .str p!"t"],
    .dict .dict [.str p!"u", .str p!"v"] [.seq .list [.int 1, .int 2], .seq .tuple [.str p!"t", .none]],
    .npStruct .ndarray [2] [p!"v", p!"u"] [.base .i64 [], .base .object []] [exI64 1, exI64 2, .str p!"t", .str p!"xyz"]]

theorem ex_plainGood : PlainGood exXp.o exPlainVal := by
  have hn : ∀ {v : Val} {a : Arr}, NumericOf v a → PlainGood exXp.o v := fun h => .data (.inl h)
  have hi : ∀ i : Nat, PlainGood exXp.o (exI64 i) := fun i => hn (.np _ _ (by simp [NumericDT]) rfl)
  have h1 : PlainGood exXp.o (.int 1) := hn (.int 1 (by decide) (by decide))
  have h2 : PlainGood exXp.o (.int 2) := hn (.int 2 (by decide) (by decide))
  have hs : ∀ s : Str, s ≠ [] → PlainGood exXp.o (.str s) := fun s hs =>
    .data (.inr ⟨.utf32 (.str s) (by simpa using hs) (by simp) (fun h => by cases h.1), fun _ _ _ _ h => by cases h⟩)
  refine .fields (texts := [p!"e", p!"a/b", p!"c", p!"d"]) (.dict _ _ _ _ (.cons (.str _) (.cons (.str _) (.cons (.bytes _ _ (by decide)) (.cons (.str _) .nil)))) rfl)
    (by unfold FieldTexts; decide) (.inl ⟨_, List.mem_cons_self, ?_⟩) ?_
  · rintro ⟨sh, e, h, _⟩
    cases h
  · intro w hw
    simp only [List.mem_cons, List.not_mem_nil, or_false] at hw
    rcases hw with rfl | rfl | rfl | rfl
    · exact hn (.np _ _ (by simp [NumericDT]) rfl)
    · refine .seq _ _ ?_
      intro w hw
      simp only [List.mem_cons, List.not_mem_nil, or_false] at hw
      rcases hw with rfl | rfl
      · exact h1
      · exact hs _ (by decide)
    · refine .fields (texts := [p!"u", p!"v"]) (.dict _ _ _ _ (.cons (.str _) (.cons (.str _) .nil)) rfl) (by unfold FieldTexts; decide) (together_same (S := [2]) ?_) ?_
      · intro P hP
        simp only [List.map_cons, List.map_nil, List.mem_cons, List.not_mem_nil, or_false] at hP
        rcases hP with rfl | rfl
        · exact ⟨_, _, .seq _ _, (fun h => by cases h.1), rfl⟩
        · exact ⟨_, _, .seq _ _, (fun h => by cases h.1), rfl⟩
      · intro w hw
        simp only [List.mem_cons, List.not_mem_nil, or_false] at hw
        rcases hw with rfl | rfl
        · refine .seq _ _ ?_
          intro w hw
          simp only [List.mem_cons, List.not_mem_nil, or_false] at hw
          rcases hw with rfl | rfl
          · exact h1
          · exact h2
        · refine .seq _ _ ?_
          intro w hw
          simp only [List.mem_cons, List.not_mem_nil, or_false] at hw
          rcases hw with rfl | rfl
          · exact hs _ (by decide)
          · exact hn .none
    · refine .npStruct _ _ _ _ _ (by unfold FieldTexts; decide) (by decide) ?_ ⟨.inr ?_, (fun h => by cases h.1)⟩ (fun h => by cases h) ?_
      · intro n ts sp h
        cases h with
        | self => decide
        | field names types sp k name t u h1 h2 h3 =>
          match k with
          | 0 => cases h2; cases h3
          | 1 => cases h2; cases h3
          | k + 2 => simp at h2
      · exact ⟨_, .field _ _ _ 1 p!"u" _ _ rfl rfl (.self _), .inl ⟨[], rfl⟩⟩
      · intro w hw
        simp only [List.mem_cons, List.not_mem_nil, or_false] at hw
        rcases hw with rfl | rfl | rfl | rfl
        · exact hi 1
        · exact hi 2
        · exact hs _ (by decide)
        · exact hs _ (by decide)

/-- The value is written to a new file. -/
def exPlainF : FileS := (fileWrite exXp 10 (.str p!"/y") exPlainVal exF).2

-- The hypotheses are met.
example : ∃ o, ReachableOptions o ∧ o .matlabCompatible = .bool false ∧ o .storePythonMetadata = .bool false ∧ exXp.o = COpts.of o ∧ Tree emptyHeap ∧ DistinctNames emptyHeap ∧
    ValidRefs exXp.o emptyHeap ∧ CanonAtA exXp.o emptyHeap ∧ UsedFrom exXp.o emptyHeap exXp exF ∧ WroteNew exXp 10 exF (.str p!"/y") [p!"y"] exPlainVal exPlainF ∧
    PlainGood exXp.o exPlainVal := by
  obtain ⟨o, h1, h2, h3, h4⟩ := ex_optionsP
  obtain ⟨h6, h7⟩ := ex_wroteP (v := exPlainVal) (by decide +kernel) (by decide +kernel)
  exact ⟨o, h1, h2, h3, h4, tree_empty, ex_distinct, empty_valid _, empty_canon _, h6, h7, ex_plainGood⟩

-- The dict of two lists, and the structured array of three elements
example : (match fileRead exXp 10 (.str p!"/y") exPlainF with
    | .ok (.npStruct .ndarray sh names types vals) => sh == [1] && names == [p!"a/b", p!"c", p!"d", p!"e"] && types.length == 4 && Val.beqL vals
        [.npObj .ndarray [2] [.np .ndarray ⟨.i64, [], [.num 1]⟩, .np .ndarray ⟨.u32, [1], [.num 116]⟩],
          .npStruct .ndarray [2] [p!"u", p!"v"] [.base .i64 [], .base .object []] [exI64 1, exI64 2, .np .ndarray ⟨.u32, [1], [.num 116]⟩, .np .ndarray ⟨.f64, [0], []⟩],
          .npStruct .ndarray [2] [p!"u", p!"v"] [.base .object [], .base .i64 []] [.np .ndarray ⟨.u32, [1], [.num 116]⟩,
            .np .ndarray ⟨.u32, [3], [.num 120, .num 121, .num 122]⟩, exI64 1, exI64 2],
          .np .ndarray ⟨.c64, [2, 1], [.cplx 0 1, .cplx 5 2]⟩]
    | _ => false) = true := by decide +kernel

/-- A dict of two lists. -/
def exLists (a b : List Val) : Val := .dict .dict [.str p!"v", .str p!"u"] [.seq .list a, .seq .tuple b]

theorem ex_lists (a b : List Val) : HasFields (exLists a b) [p!"v", p!"u"] [.seq .list a, .seq .tuple b] ∧ FieldTexts [p!"v", p!"u"] ∧
    (∀ w ∈ [Val.seq .list a, .seq .tuple b], ∃ k e, w = .seq k e ∧ ¬ (exXp.o.storeShape = true ∧ e = [])) ∧ [p!"v", p!"u"][0]? = some p!"v" ∧
    (∀ u ∈ [p!"v", p!"u"], u = p!"v" ∨ strLt u p!"v" = true) ∧ [Val.seq .list a, .seq .tuple b][0]? = some (.seq .list a) ∧ exXp.o.atleast2d = false := by
  refine ⟨.dict .dict _ _ _ (.cons (.str _) (.cons (.str _) .nil)) rfl, by unfold FieldTexts; decide, ?_, rfl, by decide, rfl, rfl⟩
  intro w hw
  simp only [List.mem_cons, List.not_mem_nil, or_false] at hw
  rcases hw with rfl | rfl <;> exact ⟨_, _, rfl, fun h => by cases h.1⟩

theorem ex_seqGood (k : SeqKind) {l : List Val} (h : ∀ w ∈ l, w = .none ∨ w = .int 7) : PlainGood exXp.o (.seq k l) := by
  refine .seq _ _ fun w hw => ?_
  rcases h w hw with rfl | rfl
  · exact .data (.inl .none)
  · exact .data (.inl (.int _ (by decide) (by decide)))

-- Finding F62: a dict of two lists, the last one (by name) longer, empty, shorter.
example : (∀ k' e', .seq k' e' ∈ [Val.seq .list [.int 7, .none], .seq .tuple [.int 7]] → e'.length ≤ [Val.int 7, .none].length) ∧
    (∀ w ∈ [Val.seq .list [.int 7, .none], .seq .tuple [.int 7]], PlainGood exXp.o w) ∧ UsedFrom exXp.o emptyHeap exXp exF ∧
    (∃ F', WroteNew exXp 10 exF (.str p!"/y") [p!"y"] (exLists [.int 7, .none] [.int 7]) F') ∧
    ∃ F', WroteNew exXp 10 exF (.str p!"/y") [p!"y"] (exLists [] [.int 7]) F' := by
  obtain ⟨h6, h7⟩ := ex_wroteP (v := exLists [.int 7, .none] [.int 7]) (by decide +kernel) (by decide +kernel)
  obtain ⟨_, h8⟩ := ex_wroteP (v := exLists [] [.int 7]) (by decide +kernel) (by decide +kernel)
  refine ⟨?_, ?_, h6, ⟨_, h7⟩, _, h8⟩
  · intro k' e' h
    simp only [List.mem_cons, List.not_mem_nil, or_false] at h
    rcases h with h | h <;> cases h <;> decide
  · intro w hw
    simp only [List.mem_cons, List.not_mem_nil, or_false] at hw
    rcases hw with rfl | rfl <;> exact ex_seqGood _ (by simp)

example : (∃ k' e', .seq k' e' ∈ [Val.seq .list [.int 7], .seq .tuple [.int 7, .none]] ∧ [Val.int 7].length < e'.length) ∧
    (∀ w ∈ [Val.seq .list [.int 7], .seq .tuple [.int 7, .none]], PlainGood exXp.o w) ∧ UsedFrom exXp.o emptyHeap exXp exF ∧
    ∃ F', WroteNew exXp 10 exF (.str p!"/y") [p!"y"] (exLists [.int 7] [.int 7, .none]) F' := by
  obtain ⟨h6, h7⟩ := ex_wroteP (v := exLists [.int 7] [.int 7, .none]) (by decide +kernel) (by decide +kernel)
  refine ⟨⟨_, _, List.mem_cons_of_mem _ List.mem_cons_self, by decide⟩, ?_, h6, _, h7⟩
  intro w hw
  simp only [List.mem_cons, List.not_mem_nil, or_false] at hw
  rcases hw with rfl | rfl <;> exact ex_seqGood _ (by simp)

/-- Whether a value is a structured array of the shape, with the names and the columns. -/
def isStruct (v : Val) (sh : List Nat) (names : List Str) (cols : List Val) : Bool :=
  match v with
  | .npStruct .ndarray sh' names' _ vals => sh' == sh && names' == names && Val.beqL vals cols
  | _ => false

-- The shorter one is filled with zeros, and everything is lost if the last one is empty.
example : (match fileRead exXp 10 (.str p!"/y") (fileWrite exXp 10 (.str p!"/y") (exLists [.int 7, .int 8] [.int 7]) exF).2 with
    | .ok v => isStruct v [2] [p!"u", p!"v"] [exI64 7, exI64 0, exI64 7, exI64 8]
    | _ => false) = true := by decide +kernel

example : (match fileRead exXp 10 (.str p!"/y") (fileWrite exXp 10 (.str p!"/y") (exLists [.int 7, .int 8] [.str p!"t"]) exF).2 with
    | .ok v => isStruct v [2] [p!"u", p!"v"] [.np .ndarray ⟨.u32, [1], [.num 116]⟩, .np .ndarray ⟨.u32, [1], [.num 0]⟩, exI64 7, exI64 8]
    | _ => false) = true := by decide +kernel

example : (match fileRead exXp 10 (.str p!"/y") (fileWrite exXp 10 (.str p!"/y") (exLists [] [.int 7]) exF).2 with
    | .ok v => isStruct v [0] [p!"u", p!"v"] []
    | _ => false) = true := by decide +kernel

example : (match fileRead exXp 10 (.str p!"/y") (fileWrite exXp 10 (.str p!"/y") (exLists [.int 7] [.int 7, .int 8]) exF).2 with
    | .error .indexError => true
    | _ => false) = true := by decide +kernel

/-- The structured array with bytes, subarrays and a structured field. -/
theorem ex_tablePlain : ∃ c sh names ty e, exTable = .npStruct c sh names ty e ∧ GoodTable exXp.o c sh names ty e ∧ Regular exXp.o (.npStruct c sh names ty e) := by
  obtain ⟨c, sh, names, ty, e, h1, h2⟩ := ex_table
  exact ⟨c, sh, names, ty, e, h1, { h2 with table := rfl, kept := (fun h => by cases h), read := (fun h => by cases h) }, h1 ▸ ex_table_regular _⟩

example : UsedFrom exXp.o emptyHeap exXp exF ∧ (∃ F', WroteNew exXp 10 exF (.str p!"/y") [p!"y"] exTable F') ∧ exXp.o.reverse = false ∧ exXp.o.atleast2d = false := by
  obtain ⟨h6, h7⟩ := ex_wroteP (v := exTable) (by decide +kernel) (by decide +kernel)
  exact ⟨h6, ⟨_, h7⟩, rfl, rfl⟩

-- In a dict (the other value being a number, it is not taken for a column).
example : PlainGood exXp.o (.dict .dict [.str p!"t", .str p!"n"] [exTable, .int 7]) ∧
    ∃ F', WroteNew exXp 10 exF (.str p!"/y") [p!"y"] (.dict .dict [.str p!"t", .str p!"n"] [exTable, .int 7]) F' := by
  refine ⟨.fields (texts := [p!"t", p!"n"]) (.dict _ _ _ _ (.cons (.str _) (.cons (.str _) .nil)) rfl) (by unfold FieldTexts; decide) (.inl ⟨_, List.mem_cons_self, ?_⟩) ?_, _,
    (ex_wroteP (by decide +kernel) (by decide +kernel)).2⟩
  · rintro ⟨sh, e, h, _⟩
    cases h
  · intro w hw
    simp only [List.mem_cons, List.not_mem_nil, or_false] at hw
    rcases hw with rfl | rfl
    · obtain ⟨c, sh, names, ty, e, h1, h2, h3⟩ := ex_tablePlain
      rw [h1]
      exact .table _ _ _ _ _ h2 h3
    · exact .data (.inl (.int _ (by decide) (by decide)))

-- Numbers: with these options there are no conversions.
example : exXp.o.reverse = false ∧ exXp.o.atleast2d = false ∧ exXp.o.boolsU8 = false ∧ exXp.o.storeShape = false ∧ UsedFrom exXp.o emptyHeap exXp exF ∧
    ∃ F', WroteNew exXp 10 exF (.str p!"/y") [p!"y"] (.np .ndarray ⟨.i16, [2, 1], [.num 3, .num 4]⟩) F' := by
  obtain ⟨h6, h7⟩ := ex_wroteP (v := .np .ndarray ⟨.i16, [2, 1], [.num 3, .num 4]⟩) (by decide +kernel) (by decide +kernel)
  exact ⟨rfl, rfl, rfl, rfl, h6, _, h7⟩

end HS
