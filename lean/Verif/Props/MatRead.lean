import Verif.Lemmas.MatAll
import Verif.Props.Layout
/-
What values stored for MATLAB without Python metadata read back as.
-/
namespace HS
open Spec

theorem dtName_num {d : DT} (h : NumericDT d) : ∃ t, DtName d t := by
  simp only [NumericDT, List.mem_cons, List.not_mem_nil, or_false] at h
  rcases h with rfl | rfl | rfl | rfl | rfl | rfl | rfl | rfl | rfl | rfl | rfl | rfl | rfl | rfl <;> exact ⟨_, by constructor⟩

theorem dtName_text {d : DT} (h : (∃ n, d = .bytes n) ∨ ∃ n, d = .str n) : ∃ t, DtName d t := by
  rcases h with ⟨n, rfl⟩ | ⟨n, rfl⟩
  · by_cases h : n = 0
    · subst h; exact ⟨_, .bytes0⟩
    · exact ⟨_, .bytes n _ h (decimal_iff.mpr rfl)⟩
  · by_cases h : n = 0
    · subst h; exact ⟨_, .str0⟩
    · exact ⟨_, .str n _ h (decimal_iff.mpr rfl)⟩

theorem matGood_regular {o : COpts} {d : Bool} {v : Val} (h : MatGood o d v) : Regular o v := by
  have num : ∀ {v : Val} {a : Arr}, NumericOf v a → Regular o v := by
    intro v a h
    obtain ⟨c, h1, _⟩ := numericOf_numpy h
    obtain ⟨t, h2⟩ := dtName_num (numericOf_dt h)
    exact .plain h1 h2
  have text : ∀ {v : Val} {a : Arr}, TextData o v a → Regular o v := by
    intro v a h
    obtain ⟨_, c, dt, sh, h1, h2⟩ := textData_class h
    obtain ⟨t, h2⟩ := dtName_text h2
    exact .plain h1 h2
  induction h with
  | number h => exact num h
  | empty h =>
    rcases h with h | ⟨h, _⟩
    · exact num h
    · exact text h
  | chars h => obtain ⟨a, h, _⟩ := h.rows; exact text h
  | bytes h => exact text h
  | npObj c sh e h1 h2 _ ih => exact .npObj c sh e h1 h2 ih
  | seq k e _ ih => exact .seq k e ih
  | fields h1 _ h2 _ _ ih => exact .fields h1 h2 ih
  | dict k keys vals kn vn _ h1 h2 h3 _ _ _ i1 i2 =>
    refine .dict k keys vals h1 ?_ i1 i2
    intro e
    unfold Shown at h2
    rw [e] at h2
    cases h2 with
    | cons a h2 => cases h2 with
      | cons b h2 =>
        rw [a] at b
        exact h3 (Except.ok.inj b)
  | npStruct c sh n ty e _ h1 _ h2 h3 _ ih => exact .npStruct c sh n ty e h1 h2 h3 ih
  | emptyStruct c sh n ty h0 h1 _ h3 _ =>
    refine .npStruct c sh n ty [] h1 ?_ h3 (by intro w hw; cases hw)
    rw [prodN_zero.mpr h0]; rfl

/-- What `matlab_compatible` means together with `store_python_metadata` off. -/
theorem matR_of {o : Options} (h : ReachableOptions o) (hm : o .matlabCompatible = .bool true) (ha : o .actionForMatlabIncompatible ≠ .str p!"ignore")
    (hp : o .storePythonMetadata = .bool false) : MatR (COpts.of o) := by
  refine ⟨matO_of h hm ha, ?_, ?_⟩
  · show boolOf o _ = _
    unfold boolOf
    rw [hp]; rfl
  · show boolOf o _ = _
    unfold boolOf
    rw [C08_matlab_table o h hm .reverseDimensionOrder (.bool true) (by simp [matlabTable])]
    rfl

theorem used_distinct {o : COpts} {h0 : Heap} (hd : DistinctNames h0) {x : Ctx} {F : FileS} (h : UsedFrom o h0 x F) : DistinctNames F.st.heap := by
  induction h with
  | opened x w _ _ => exact hd
  | reopened x y w _ _ _ ih => exact ih
  | @wrote x F n mdict _ _ _ _ ih => exact pres_ops (keysOk_elem x.o) (n := n) [.writes mdict] ih
  | @deleted x F p _ _ ih => exact pres_ops (keysOk_elem x.o) (n := 0) [.del p] ih
  | @closed x F _ ih => exact pres_ops (keysOk_elem x.o) (n := 0) [.close] ih
  | @flushed x F _ ih => exact pres_ops (keysOk_elem x.o) (n := 0) [.flush] ih

/-- C66. With `matlab_compatible` and without Python metadata, whatever MATLAB has a class for, at every depth, is read back in its MATLAB form (`AsMatlab`: numbers keep dtype and
elements and have at least two dimensions, text is an array of its rows, lists and object arrays are object arrays, dicts, records and structured arrays are dicts of
their fields or, without `structs_as_dicts`, structured arrays).  This is so for any file in use and any place in it where nothing was, for reading with any options with the
references Group at the same place and `structs_as_dicts` either way, through the same `File` object or after opening the file again, if the recursion limit is large enough. -/
theorem C66_matlab_form {o : Options} (ho : ReachableOptions o) (hm : o .matlabCompatible = .bool true) (hi : o .actionForMatlabIncompatible ≠ .str p!"ignore")
    (hp : o .storePythonMetadata = .bool false) {x : Ctx} (hx : x.o = COpts.of o) {h0 : Heap} (ht : Tree h0) (hk : DistinctNames h0) (hv : ValidRefs x.o h0) (ha : CanonAtA x.o h0)
    {F : FileS} (hu : UsedFrom x.o h0 x F) {n : Nat} {F' : FileS} {p : PathArg} {ns : List Str} {v : Val} (hw : WroteNew x n F p ns v F') (y : Ctx)
    (hy : y.o.refsPath = x.o.refsPath) (hg : MatGood x.o y.o.structsAsDicts v) :
    ∃ w N, AsMatlab x.o y.o.structsAsDicts (.value v) w ∧ ∀ (G : FileS) (p' : PathArg) (m : Nat), G.isOpen = true → G.st.heap = F'.st.heap → Addr p' ns → N ≤ m → fileRead y m p' G = .ok w := by
  have hR : MatR x.o := hx ▸ matR_of ho hm hi hp
  have hkept := matGood_kept hR.toMatO hg
  obtain ⟨_, hN, hRI⟩ := used_ri hw.refs ht hv ha hu
  obtain ⟨gs, t, s1, g, ob, hrun⟩ := wrote_run hN ⟨hw.refs, hw.reach, hw.rw, hw.addr, hw.notRoot, hw.ok⟩
  obtain ⟨⟨q, hl⟩, _⟩ := C62_layout ho hx ht hv ha hu hw (matGood_regular hg) hkept
  have hk' : DistinctNames F'.st.heap := by
    have := pres_ops (keysOk_elem x.o) (n := n) [.write p v] (used_distinct hk hu)
    show DistinctNames F'.st.heap
    have e : (fileOps x n [.write p v] F).2 = F' := by
      show (fileWrite x n p v F).2 = F'
      rw [hw.ok]
    rwa [e] at this
  have ht' : Tree F'.st.heap := by
    have := (reach_keep hw.refs hN (.wrote n [(p, v)] hw.reach (by
      intro pv hpv ha0
      rw [List.mem_singleton.mp hpv] at ha0
      exact hw.notRoot (addr_unique hw.addr ha0)))).2
    have e : (fileWrites x n [(p, v)] F).2 = F' := by
      have := hw.ok
      unfold fileWrite at this
      rw [this]
    rwa [e] at this
  have hnq : LPath F'.st.heap ns q := by cases hl <;> assumption
  have hoff : ¬ ns <+: hdf5Names x.o.refsPath := by
    intro hpre
    exact hrun.off.head (head_prefix hpre hw.notRoot)
  obtain ⟨w, N, h1, h2⟩ := (laid_read (y := y.o) hR rfl ht' hk' (commonComps_plain _) hy hl hoff hg).2
  refine ⟨w, N, h1, ?_⟩
  intro G p' m hG hh ha' hm'
  have hoff' := hrun.off
  rw [hrun.names] at ha' hoff' hnq
  obtain ⟨gs', d1, d2⟩ := addr_check hw.refs hoff' ha'
  refine fileRead_ok.mpr ⟨(gs', t), by rw [hy]; exact d1, hG, ?_⟩
  rw [hh, readOne_at hrun.dot (by rw [d2]; exact hnq), d2]
  obtain ⟨_, _, _, e1⟩ := hrun.reqG.ok g rfl
  have e2 : nameOk t = true := by
    have hr := hrun.run
    cases ob with
    | none => exact absurd ((writeData_none hr).mp rfl) hkept
    | some q => exact writeData_nameOk hr
  rw [if_pos e1, if_pos e2]
  exact h2 m hm'

theorem units_same {dt : DT} {s t : Str} {u : List Nat} (hd : dt = .u16 ∨ dt = .u32) (h : Units dt s u) (h' : Units dt t u) : s = t := by
  rcases hd with rfl | rfl
  · have h1 := utf16Dec_enc s u h
    have h2 := utf16Dec_enc t u h'
    rw [h1] at h2
    exact Except.ok.inj h2
  · exact (show u = s from h).symm.trans (show u = t from h')

theorem storable_last {s : Str} (hs : Storable s) : s.getLast? ≠ some 0 := fun h => hs.2 0 h rfl

/-- What is stored for a str. -/
theorem str_data {o : COpts} {s : Str} {a : Arr} (h : TextData o (.str s) a) (hs : s ≠ []) : ∃ dt, (dt = .u16 ∨ dt = .u32) ∧ a = UnitsArr dt s.length [] [s] ∧
    (dt = .u16 → Single s) := by
  have nob : ∀ {n : Nat} {sh : List Nat} {bs : List Bytes}, ¬ BytesOf (.str s) n sh bs := by
    intro n sh bs h
    cases h
  cases h with
  | utf16 h h1 h2 h3 => cases h; exact ⟨_, .inl rfl, rfl, fun _ => h3.2 s (by simp)⟩
  | utf32 h => cases h; exact ⟨_, .inr rfl, rfl, nofun⟩
  | empty h h1 =>
    cases h
    rcases h1 with h1 | h1
    · exact absurd (List.length_eq_zero_iff.mp h1) hs
    · cases h1
  | bytes16 h => exact absurd h nob
  | bytes h => exact absurd h nob
  | empty16 h => exact absurd h nob
  | width0 h => exact absurd h nob

/-- A str is stored as the row of its characters. -/
theorem str_rows {o : COpts} (hO : o.atleast2d = true) {s : Str} (hs : Storable s) (h0 : s ≠ []) : CharRows o (.str s) [1] s.length [s] := by
  have hn : s.length ≠ 0 := fun h => h0 (List.length_eq_zero_iff.mp h)
  have rows : ∀ dt, (dt = .u16 ∧ Single s) ∨ dt = .u32 → TextRows (AsRow o (UnitsArr dt s.length [] [s])) [1] s.length [s] := by
    intro dt hdt
    refine ⟨?_, ?_, by omega, [s], .cons ?_ .nil, rfl, by simp, ?_⟩
    · show dt = _ ∨ _
      rcases hdt with ⟨h, _⟩ | h
      · exact .inr (.inl h)
      · exact .inr (.inr h)
    · show RowShape o [s.length] = _
      unfold RowShape
      rw [if_pos hO]; rfl
    · rcases hdt with ⟨rfl, h⟩ | rfl
      · exact utf16Enc_single h
      · rfl
    · simp [AsRow, UnitsArr]
  refine ⟨?_, ?_, ?_⟩
  · by_cases h : ToUtf16 o [s]
    · exact ⟨_, .utf16 (.str s) hn (by simp) h, rows _ (.inl ⟨rfl, h.2 s (by simp)⟩)⟩
    · exact ⟨_, .utf32 (.str s) hn (by simp) h, rows _ (.inr rfl)⟩
  · intro t ht; rw [List.mem_singleton.mp ht]; exact hs
  · intro n sh ss h _
    cases h
    refine ⟨fun _ _ => ⟨fun _ => ⟨s, by simp, storable_last hs⟩, fun h => ⟨s, by simp, ?_, storable_last hs⟩⟩, fun _ h => by cases h⟩
    intro hx
    exact h fun t ht => by rw [List.mem_singleton.mp ht]; exact hx

theorem str_notEmpty {s : Str} (h0 : s ≠ []) : ¬ NoElements (.str s) := by
  intro h
  rcases (noElements_numpy (.str s)).mp h with h | h | h
  · cases h
  · cases h
  · injection h with h; exact h0 (List.length_eq_zero_iff.mp h)

theorem str_good {o : COpts} {d : Bool} (hO : o.atleast2d = true) {s : Str} (hs : Storable s) (h0 : s ≠ []) : MatGood o d (.str s) := .chars (str_rows hO hs h0) (str_notEmpty h0)

theorem str_asMatlab {o : COpts} {d : Bool} (hO : o.atleast2d = true) {s : Str} (hs : Storable s) (h0 : s ≠ []) {w : Val} (h : AsMatlab o d (.value (.str s)) w) :
    ∃ r m, w = .np .ndarray r ∧ r.shape = [1, 1] ∧ IsStrArray r m [s] := by
  cases h with
  | number h => cases h
  | empty _ h => exact absurd h (str_notEmpty h0)
  | bytes h h1 =>
    obtain ⟨dt, hd, rfl, _⟩ := str_data h h0
    rw [show (UnitsArr dt s.length [] [s]).dt = dt from rfl] at h1
    subst h1
    rcases hd with hd | hd <;> cases hd
  | @chars _ rest w m ss r h1 h2 h3 h4 h5 h6 =>
    obtain ⟨⟨a, g1, g2⟩, g3, _⟩ := h1
    obtain ⟨dt, hd, rfl, hsg⟩ := str_data g1 h0
    have hsh : [1, s.length] = rest ++ [w] := by
      rw [← g2.shape]
      show _ = RowShape o [s.length]
      unfold RowShape
      rw [if_pos hO]
    have hsh2 : rest = [1] ∧ w = s.length := by
      have e : ([1] ++ [s.length] : List Nat) = rest ++ [w] := hsh
      have := List.append_inj' e rfl
      exact ⟨this.1.symm, by simpa using this.2.symm⟩
    obtain ⟨rfl, rfl⟩ := hsh2
    obtain ⟨us, u1, u2, u3, u4⟩ := g2.rows
    match us, u2 with
    | [u], _ =>
      cases u1 with
      | @cons t _ _ _ u1 ux =>
        cases ux
        have hl := u3 u (by simp)
        have e : s = u ++ List.replicate (s.length - u.length) 0 := by
          have : (s.map fun u : Nat => El.num (Int.ofNat u)) = (u ++ List.replicate (s.length - u.length) 0).map fun (x : Nat) => El.num x := by
            have := u4
            simp only [AsRow, UnitsArr, List.flatten_cons, List.flatten_nil, List.append_nil, List.flatMap_cons, List.flatMap_nil] at this
            exact this
          have inj : ∀ (a b : Nat), El.num (Int.ofNat a) = El.num (Int.ofNat b) → a = b := by
            intro a b hab
            injection hab with hab
            exact Int.ofNat.inj hab
          exact (List.map_inj_right inj).mp this
        have hk : s.length - u.length = 0 := by
          cases hk : s.length - u.length with
          | zero => rfl
          | succ k =>
            rw [hk] at e
            exfalso
            apply storable_last hs
            rw [e, List.replicate_succ', ← List.append_assoc, List.getLast?_append]
            rfl
        rw [hk, List.replicate_zero, List.append_nil] at e
        subst e
        have : Units dt s s := by
          rcases hd with rfl | rfl
          · exact utf16Enc_single (hsg rfl)
          · rfl
        rw [units_same hd u1 this] at h3
        exact ⟨r, m, rfl, h4, h3⟩
  | cells h => cases h
  | dict _ h => cases h with | fields h => cases h
  | one _ h =>
    generalize hps : List.map Part.value _ = ps at h
    cases h with | fields h => cases h
  | several _ h =>
    generalize hps : List.map (Part.column _) _ = ps at h
    cases h with | fields h => cases h

/-- C66. In particular a str comes back as an array of shape (1, 1) with that str. -/
theorem C66_str {o : Options} (ho : ReachableOptions o) (hm : o .matlabCompatible = .bool true) (hi : o .actionForMatlabIncompatible ≠ .str p!"ignore")
    (hp : o .storePythonMetadata = .bool false) {x : Ctx} (hx : x.o = COpts.of o) {h0 : Heap} (ht : Tree h0) (hk : DistinctNames h0) (hv : ValidRefs x.o h0) (ha : CanonAtA x.o h0)
    {F : FileS} (hu : UsedFrom x.o h0 x F) {n : Nat} {F' : FileS} {p : PathArg} {ns : List Str} {s : Str} (hw : WroteNew x n F p ns (.str s) F') (hs : Storable s) (hne : s ≠ [])
    (y : Ctx) (hy : y.o.refsPath = x.o.refsPath) :
    ∃ r m N, r.shape = [1, 1] ∧ IsStrArray r m [s] ∧
      ∀ (G : FileS) (p' : PathArg) (k : Nat), G.isOpen = true → G.st.heap = F'.st.heap → Addr p' ns → N ≤ k → fileRead y k p' G = .ok (.np .ndarray r) := by
  have hR : MatR x.o := hx ▸ matR_of ho hm hi hp
  obtain ⟨w, N, h1, h2⟩ := C66_matlab_form ho hm hi hp hx ht hk hv ha hu hw y hy (str_good hR.atleast2d hs hne)
  obtain ⟨r, m, rfl, h3, h4⟩ := str_asMatlab hR.atleast2d hs hne h1
  exact ⟨r, m, N, h3, h4, h2⟩

/-- Without Python metadata. -/
def exXm : Ctx := { exX with o := { exOpts with pyMeta := false } }

theorem ex_optionsM : ∃ o, ReachableOptions o ∧ o .matlabCompatible = .bool true ∧ o .actionForMatlabIncompatible ≠ .str p!"ignore" ∧ o .storePythonMetadata = .bool false ∧
    exXm.o = COpts.of o := by
  obtain ⟨o, h, e⟩ : ∃ o, newOptions (fun k => if k = .storePythonMetadata then .bool false else Options.default k) = .ok o ∧ COpts.of o = exXm.o := ⟨_, rfl, by decide +kernel⟩
  obtain ⟨c1, _, c3⟩ := C09_constructor _ o h
  have c := (c3 .actionForMatlabIncompatible (by decide) (fun h => absurd h.2 (by simp [matlabTable]))).1 (Or.inr (Or.inr rfl))
  have c' := (c3 .storePythonMetadata (by decide) (fun h => absurd h.2 (by simp [matlabTable])))
  refine ⟨o, ⟨_, o, [], h, rfl⟩, c1 true rfl, ?_, ?_, e.symm⟩
  · rw [c]; intro h; cases h
  · have c2 := c'.1 ⟨false, rfl⟩
    rw [c2]; rfl

/-- A dict with a list, a structured array, a str, an array and an array without elements. -/
def exMatVal : Val := .dict .dict [.str p!"a/b", .bytes [99], .str p!"d", .str p!"e"]
  [.seq .list [.int 1, .npStruct .ndarray [2] [p!"u", p!"v"] [.base .i64 [], .base .object []] [exI64 1, exI64 2, .str p!"t", .none]], .str p!"xyz",
    .np .ndarray ⟨.bool, [2], [.num 0, .num 1]⟩, .np .ndarray ⟨.f32, [3, 0], []⟩]

theorem ex_matGood (d : Bool) : MatGood exXm.o d exMatVal := by
  have hi : ∀ i : Nat, MatGood exXm.o d (exI64 i) := fun i => .number (.np _ _ (by simp [NumericDT]) rfl) ⟨rfl, fun e he => by rw [List.mem_singleton.mp he]; trivial⟩ (.table (.np _ _ _ .i64)) (by simp)
  have hs : ∀ s : Str, Storable s → s ≠ [] → MatGood exXm.o d (.str s) := fun s => str_good rfl
  refine .fields (texts := [p!"a/b", p!"c", p!"d", p!"e"]) (.dict _ _ _ _ (.cons (.str _) (.cons (.bytes _ _ (by decide)) (.cons (.str _) (.cons (.str _) .nil)))) rfl)
    (.table (.dict ..)) (by decide) (.inr ⟨by decide, by decide⟩) ?_
  intro w hw
  rcases List.mem_cons.mp hw with rfl | hw
  · refine .seq _ _ ?_
    intro w hw
    rcases List.mem_cons.mp hw with rfl | hw
    · exact .number (.int 1 (by decide) (by decide)) ⟨rfl, fun e he => by rw [List.mem_singleton.mp he]; trivial⟩ (.table (.int 1 (by decide) (by decide))) (by simp)
    rcases List.mem_singleton.mp hw with rfl
    refine .npStruct _ _ _ _ _ (by decide) (by decide) (.inr ⟨by decide, by decide⟩) rfl ?_ ?_
    · intro n ts sp h
      cases h with
      | self => decide
      | field names types sp k name t u h1 h2 h3 =>
        match k with
        | 0 => cases h2; cases h3
        | 1 => cases h2; cases h3
        | k + 2 => simp at h2
    · intro w hw
      simp only [List.mem_cons, List.not_mem_nil, or_false] at hw
      rcases hw with rfl | rfl | rfl | rfl
      · exact hi 1
      · exact hi 2
      · exact hs _ ⟨by decide, by decide⟩ (by decide)
      · exact .empty (.inl .none) (.table .none) (.shape (.plain .none) (by simp))
  simp only [List.mem_cons, List.not_mem_nil, or_false] at hw
  rcases hw with rfl | rfl | rfl
  · exact hs _ ⟨by decide, by decide⟩ (by decide)
  · refine .number (.np _ _ (by simp [NumericDT]) rfl) ⟨rfl, ?_⟩ (.table (.np _ _ _ .bool)) (by simp)
    intro e he
    have he : e = .num 0 ∨ e = .num 1 := by simpa using he
    rcases he with rfl | rfl
    · exact .inl rfl
    · exact .inr rfl
  · exact .empty (.inl (.np _ _ (by simp [NumericDT]) rfl)) (.table (.np _ _ _ .f32)) (.shape (.plain (.np _ _)) (by simp))

/-- The value is written to a new file. -/
def exMatF : FileS := (fileWrite exXm 10 (.str p!"/y") exMatVal exF).2

theorem ex_distinct : DistinctNames emptyHeap := by
  intro p
  match p with
  | 0 => exact .nil
  | p + 1 => exact .nil

theorem ex_wroteM {v : Val} (hrun : (fileWrite exXm 10 (.str p!"/y") v exF).1 = .ok ()) (hpos : (fileWrite exXm 10 (.str p!"/y") v exF).2.st.rpos = 0) :
    UsedFrom exXm.o emptyHeap exXm exF ∧ WroteNew exXm 10 exF (.str p!"/y") [p!"y"] v (fileWrite exXm 10 (.str p!"/y") v exF).2 := by
  have hu : UsedFrom exXm.o emptyHeap exXm exF := .opened exXm true rfl ⟨ex_rtOpts.names.1, ex_rtOpts.names.2⟩
  refine ⟨hu, ⟨⟨rfl, by decide⟩, used_reach ⟨rfl, by decide⟩ tree_empty (empty_valid _) (empty_canon _) hu, rfl, ⟨p!"/", p!"y", by decide, rfl⟩, by decide, ?_, ?_, pair_of_fst hrun⟩⟩
  · rintro ⟨q, hq⟩
    have h1 := resolve_lpath (by intro c hc; simp only [List.mem_singleton] at hc; subst hc; decide) hq
    have h2 : resolve exF.st.heap 0 [p!"y"] = none := by decide +kernel
    rw [h2] at h1
    cases h1
  · intro i j _ _ h3
    rw [hpos] at h3
    omega

-- The hypotheses are met.
example : ∃ o, ReachableOptions o ∧ o .matlabCompatible = .bool true ∧ o .actionForMatlabIncompatible ≠ .str p!"ignore" ∧ o .storePythonMetadata = .bool false ∧
    exXm.o = COpts.of o ∧ Tree emptyHeap ∧ DistinctNames emptyHeap ∧ ValidRefs exXm.o emptyHeap ∧ CanonAtA exXm.o emptyHeap ∧ UsedFrom exXm.o emptyHeap exXm exF ∧
    WroteNew exXm 10 exF (.str p!"/y") [p!"y"] exMatVal exMatF ∧ ∀ d, MatGood exXm.o d exMatVal := by
  obtain ⟨o, h1, h2, h3, h4, h5⟩ := ex_optionsM
  obtain ⟨h6, h7⟩ := ex_wroteM (v := exMatVal) (by decide +kernel) (by decide +kernel)
  exact ⟨o, h1, h2, h3, h4, h5, tree_empty, ex_distinct, empty_valid _, empty_canon _, h6, h7, ex_matGood⟩

-- Read with structs as dicts, and as structured arrays.
example : (match fileRead { exXm with o := { exXm.o with structsAsDicts := true } } 10 (.str p!"/y") exMatF with
    | .ok (.dict .dict keys vals) => Val.beqL keys [.str p!"a/b", .str p!"c", .str p!"d", .str p!"e"] && Val.beqL vals.tail
        [.np .ndarray ⟨.str 3, [1, 1], [.units p!"xyz"]⟩, .np .ndarray ⟨.bool, [1, 2], [.num 0, .num 1]⟩, .np .ndarray ⟨.f32, [3, 0], []⟩]
    | _ => false) = true := by decide +kernel
example : (match fileRead exXm 10 (.str p!"/y") exMatF with
    | .ok (.npStruct .ndarray sh names types vals) => sh == [1] && names == [p!"a/b", p!"c", p!"d", p!"e"] && types.length == 4 && Val.beqL (vals.drop 1)
        [.np .ndarray ⟨.str 3, [1, 1], [.units p!"xyz"]⟩, .np .ndarray ⟨.bool, [1, 2], [.num 0, .num 1]⟩, .np .ndarray ⟨.f32, [3, 0], []⟩]
    | _ => false) = true := by decide +kernel

-- A str.
example : Storable p!"xyz" ∧ p!"xyz" ≠ [] ∧ UsedFrom exXm.o emptyHeap exXm exF ∧ ∃ F', WroteNew exXm 10 exF (.str p!"/y") [p!"y"] (.str p!"xyz") F' := by
  obtain ⟨h6, h7⟩ := ex_wroteM (v := .str p!"xyz") (by decide +kernel) (by decide +kernel)
  exact ⟨⟨by decide, by decide⟩, by decide, h6, _, h7⟩

end HS
