import Verif.Lemmas.ProgressTree
/-
Writing succeeds: all values.
-/
namespace HS
open Spec

variable {K : Nat → Prop}

theorem exists_bound {α : Type} {P : Nat → α → Prop} {l : List α} (h : ∀ e ∈ l, ∃ n0 : Nat, ∀ n, n0 ≤ n → P n e) : ∃ n0 : Nat, ∀ n, n0 ≤ n → ∀ e ∈ l, P n e := by
  induction l with
  | nil => exact ⟨0, fun _ _ e he => by cases he⟩
  | cons a l ih =>
    obtain ⟨n1, h1⟩ := h a (by simp)
    obtain ⟨n2, h2⟩ := ih fun e he => h e (by simp [he])
    refine ⟨max n1 n2, fun n hn e he => ?_⟩
    rcases List.mem_cons.mp he with rfl | he
    · exact h1 n (by omega)
    · exact h2 n (by omega) e he

theorem writeData_kit {x : Ctx} (hn : NamesOk x.o) (n : Nat) : WrKit x (writeData x n) :=
  ⟨writeData_post hn.keys hn.vals n, fun p g gn name v => Pres.writeData (group_elem x.o p) n g gn name v⟩

/-- Values without parts. -/
theorem leaf_wrGo {x : Ctx} (ho : CanOverwrite x.o) {v : Val} {c : Cont} {a : Arr} (hl : leafOf v = some (c, a)) (hok : LeafOk x.o c a) (n : Nat) : WrGo x (writeData x (n + 1)) v := by
  intro K s g gn name hs hp _
  have hrun : writeData x (n + 1) g gn name v = writeNp x g name c a (tsOf v) := by
    cases v <;> first | (cases hl; done) | (rw [writeData]; simp only [hl]) | (rw [writeData]; dsimp only; rw [hl])
  obtain ⟨p, s1, h1, h2⟩ := writeNp_go ho hok (ascii_tsOf v) hs hp
  rw [hrun]
  exact Goes.ok h1 h2

theorem leafOk_of {o : COpts} {c : Cont} {a : Arr} (h1 : a.dt.matlabClass ≠ none) (h2 : a.dt ≠ .c64 ∧ a.dt ≠ .c128) (h3 : c = .scalar ∨ ∀ n, a.dt ≠ .str n) : LeafOk o c a where
  cls := fun _ _ => h1
  cplx := fun h => (h.elim h2.1 h2.2).elim
  str := fun _ hc ⟨n, hn⟩ => (h3.elim hc fun h => h n hn).elim

theorem leafOk_bytes {o : COpts} (b : Bytes) : LeafOk o .scalar (npBytes b) := by
  have h : (npBytes b).dt = .bytes b.length := rfl
  exact leafOk_of (by rw [h]; simp [DT.matlabClass]) ⟨by rw [h]; simp, by rw [h]; simp⟩ (Or.inl rfl)

theorem leafOk_str {o : COpts} (s : Str) : LeafOk o .scalar (npStr s) := by
  have h : (npStr s).dt = .str s.length := rfl
  exact leafOk_of (by rw [h]; simp [DT.matlabClass]) ⟨by rw [h]; simp, by rw [h]; simp⟩ (Or.inl rfl)

theorem npObj_wrGo {x : Ctx} (hx : RefsOk x) (ho : CanOverwrite x.o) (hn : NamesOk x.o) {n : Nat} {c : Cont} {shape : List Nat} {elems : List Val}
    (hv : ∀ v ∈ elems, WrGo x (writeData x n) v) (hsz : elems.length = prodN shape) : WrGo x (writeData x (n + 1)) (.npObj c shape elems) :=
  fun _ _ _ _ _ hs hp _ => writeNpObj_go hx ho (writeData_kit hn n) (ascii_tsOf (.npObj c shape elems)) hv hsz hs hp

theorem seq_wrGo {x : Ctx} (hx : RefsOk x) (ho : CanOverwrite x.o) (hn : NamesOk x.o) {n : Nat} {k : SeqKind} {elems : List Val}
    (hv : ∀ v ∈ elems, WrGo x (writeData x n) v) : WrGo x (writeData x (n + 1)) (.seq k elems) :=
  fun _ _ _ _ _ hs hp _ => writeNpObj_go hx ho (writeData_kit hn n) (ascii_tsOf (.seq k elems)) hv (by simp [prodN]) hs hp

theorem keyInfo_char {v : Val} {i : Str × Nat} (h : keyInfo v = some i) : i.2 < 128 := by
  have key : ∀ (r : Res Str) (t : Nat), t < 128 → (r.toOption).map (fun e => (e, t)) = some i → i.2 < 128 := by
    intro r t ht hr
    cases r with
    | error e => cases hr
    | ok e => cases hr; exact ht
  unfold keyInfo at h
  split at h
  · exact key _ _ (by decide) h
  · exact key _ _ (by decide) h
  · split at h
    · exact key _ _ (by decide) h
    · exact key _ _ (by decide) h
    · cases h
  · cases h

theorem keyInfos_char {ks : List Val} {l : List (Str × Nat)} (h : keyInfos ks = some l) : ∀ i ∈ l, i.2 < 128 := by
  induction ks generalizing l with
  | nil => cases h; simp
  | cons k ks ih =>
    rw [keyInfos] at h
    cases h1 : keyInfo k with
    | none => rw [h1] at h; cases h
    | some i =>
      cases h2 : keyInfos ks with
      | none => rw [h1, h2] at h; cases h
      | some l' =>
        rw [h1, h2] at h
        cases h
        intro j hj
        rcases List.mem_cons.mp hj with rfl | hj
        · exact keyInfo_char h1
        · exact ih h2 j hj

/-- The items of a dict whose keys are all text. -/
theorem textItems_ok {x : Ctx} (hn : NamesOk x.o) {wr : Wr} {keys vals : List Val} {texts : List Str} (hk : All2 KeyText keys texts)
    (ht : ∀ tv ∈ texts.zip vals, NameFor x.o tv.1 tv.2) (hs : ∀ t ∈ texts, Scalars t) (hv : ∀ v ∈ vals, WrGo x wr v) :
    (∀ i ∈ dictItems x.o keys vals, ItemOk x wr i) ∧ ∀ struct (ts : Str), Ascii ts → AttrsOk (dictAttrs x.o (keyInfos keys) struct ts) := by
  obtain ⟨l, hl, _, _, he, _⟩ := keyInfos_text hk
  constructor
  · intro i hi
    have hd := dictItems_ne_dot hn.keys hn.vals keys vals i hi
    unfold dictItems at hi
    rw [hl] at hi
    obtain ⟨k, v⟩ := i
    obtain ⟨j, hj⟩ := List.mem_iff_getElem?.mp hi
    rw [List.getElem?_zip_eq_some] at hj
    obtain ⟨t, h1, h2⟩ := all2_index he j k hj.1
    have hnf := ht (t, v) (List.mem_iff_getElem?.mpr ⟨j, List.getElem?_zip_eq_some.mpr ⟨h1, hj.2⟩⟩)
    obtain ⟨e1, e2, e3⟩ := escape_keeps h2
    exact ⟨hd, nameOk_iff.mpr (e2 hnf.text), e1 hnf.ne, fun hm hg => e3 (hnf.ascii hm hg), hv v (List.mem_of_getElem? hj.2)⟩
  · intro struct ts hts
    refine dictAttrs_ok _ _ _ hts (fun h => by rw [hl] at h; cases h) ?_
    intro l' hl'
    refine ⟨?_, keyInfos_char hl'⟩
    rw [hl] at hl'
    cases hl'
    intro i hi
    obtain ⟨j, hj⟩ := List.mem_iff_getElem?.mp hi
    obtain ⟨t, h1, h2⟩ := all2_index he j i.1 (by rw [List.getElem?_map, hj]; rfl)
    exact (escape_keeps h2).2.1 (hs t (List.mem_of_getElem? h1))

theorem splitCols_mem {size n : Nat} {l : List Val} {c : List Val} (h : c ∈ splitCols size n l) : ∀ e ∈ c, e ∈ l := by
  induction n generalizing l with
  | zero => cases h
  | succ n ih =>
    rw [splitCols] at h
    rcases List.mem_cons.mp h with rfl | h
    · exact fun e he => List.mem_of_mem_take he
    · exact fun e he => List.mem_of_mem_drop (ih h e he)

/-- Structured arrays. -/
theorem struct_wrGo {x : Ctx} (hx : RefsOk x) (ho : CanOverwrite x.o) (hn : NamesOk x.o) {n : Nat} {c : Cont} {shape : List Nat} {names : List Str} {types : List FT}
    {elems : List Val} (h1 : x.o.matlab = true → x.o.structAsStruct = false → x.o.action ≠ .error) (h2 : x.o.structAsStruct = true ∨ NeedsGroup names types)
    (hsz : elems.length = names.length * prodN shape) (h3 : ∀ nm ∈ names, nm ≠ [] ∧ Scalars nm)
    (h4 : x.o.matlab = true → prodN shape = 1 → ∀ (k : Nat) nm e, names[k]? = some nm → elems[k]? = some e → Grouped e → Ascii nm)
    (hv : ∀ v ∈ elems, ∀ m, n ≤ m → WrGo x (writeData x m) v) : WrGo x (writeData x (n + 2)) (.npStruct c shape names types elems) := by
  intro K s g gn name hs hp ha
  have hts := ascii_tsOf (.npStruct c shape names types elems)
  show Goes K x (writeStruct x (writeData x (n + 1)) g gn name c shape names types elems (tsOf (.npStruct c shape names types elems))) s _
  unfold writeStruct
  rw [if_neg (fun h => h1 h.1 h.2.1 h.2.2)]
  split
  · exact Goes.pure hs
  · obtain ⟨esc, he⟩ := escapes_total names
    have he2 := mapM_ok_forall2.mp he
    have hlen := mapM_length he
    have hesc : ∀ (j : Nat) k, esc[j]? = some k → ∃ t, names[j]? = some t ∧ escapePath t = .ok k := fun j k hk => all2_index (all2_flip he2) j k hk
    have hscal : ∀ e ∈ esc, Scalars e := by
      intro e hm
      obtain ⟨j, hj⟩ := List.mem_iff_getElem?.mp hm
      obtain ⟨t, e1, e2⟩ := hesc j e hj
      exact (escape_keeps e2).2.1 (h3 t (List.mem_of_getElem? e1)).2
    refine (Goes.ok (show (liftRes (names.mapM escapePath) : M (List Str)) s = (.ok esc, s) by rw [he]; rfl) (P := fun a s' => a = esc ∧ s' = s) ⟨rfl, rfl⟩).bind ?_
    rintro esc' s' _ ⟨rfl, rfl⟩
    split
    · obtain ⟨p, s1, e1, e2⟩ := putAttrs_go (a := shapeArr (shape2d x.o shape)) ho hs hp (structAttrs_ok x.o c types shape false hts hscal)
      exact Goes.ok e1 e2
    · rw [if_pos (structAsGroup_of h2)]
      have hpr : prodN (shape2d x.o shape) = prodN shape := by
        unfold shape2d
        split
        · exact prodN_atleast2d shape
        · rfl
      refine writeGroup_go (writeData_kit hn (n + 1)) (structAttrs_ok x.o c types shape true hts hscal) ?_ hs hp (fun hm => ha hm trivial)
      rintro ⟨k, v⟩ hi
      have hd := structItems_ne_dot he _ hi
      unfold structItems at hi
      rw [hpr, hlen] at hi
      obtain ⟨j, hj⟩ := List.mem_iff_getElem?.mp hi
      rw [List.getElem?_zip_eq_some, List.getElem?_map] at hj
      obtain ⟨hj1, hj2⟩ := hj
      obtain ⟨t, e1, e2⟩ := hesc j k hj1
      obtain ⟨k1, k2, k3⟩ := escape_keeps e2
      have hjlt : j < names.length := (List.getElem?_eq_some_iff.mp e1).1
      rw [splitCols_get _ _ _ j hjlt] at hj2
      have hcol : ((elems.drop (j * prodN shape)).take (prodN shape)) ∈ splitCols (prodN shape) names.length elems := List.mem_of_getElem? (splitCols_get _ _ _ j hjlt)
      have hcm := splitCols_mem hcol
      have hcl := (splitCols_col (prodN shape) names.length elems hsz _ hcol).1
      have ht := h3 t (List.mem_of_getElem? e1)
      have hvv := Option.some.inj hj2
      unfold fieldValue at hvv
      rw [hpr] at hvv
      by_cases h1' : prodN shape = 1
      · rw [if_pos h1'] at hvv
        rw [h1', Nat.mul_one] at hvv hcl
        have hjl : j < elems.length := by rw [hsz, h1', Nat.mul_one]; exact hjlt
        have hve : elems[j]? = some v := by
          rw [List.drop_eq_getElem_cons hjl, List.take_succ_cons] at hvv
          rw [List.getElem?_eq_getElem hjl]
          exact congrArg some hvv
        exact ⟨hd, nameOk_iff.mpr (k2 ht.2), k1 ht.1, fun hm hg => k3 (h4 hm h1' j t v e1 hve hg), hv v (List.mem_of_getElem? hve) _ (by omega)⟩
      · rw [if_neg h1'] at hvv
        subst hvv
        refine ⟨hd, nameOk_iff.mpr (k2 ht.2), k1 ht.1, fun _ hg => hg.elim, ?_⟩
        exact npObj_wrGo hx ho hn (fun v hv' => hv v (hcm v hv') n (Nat.le_refl _)) (by rw [hcl, hpr])

theorem h5Type_ok {t : FT} (h : H5Type t) : FT.err t = none ∧ FT.hasObject t = false ∧ FT.hasNull t = false ∧ ∀ d, Occurs d (FT.npdt t) → 0 ∉ d.shape := by
  induction h with
  | base dt sp h1 h2 h3 h4 h5 h6 h0 =>
    refine ⟨?_, by rw [FT.hasObject]; simp [h3], rfl, fun d hd => ?_⟩
    · cases dt with
      | str n => exact absurd rfl (h1 n)
      | bytes n =>
        cases n with
        | zero => exact absurd rfl h2
        | succ n => rfl
      | object => exact absurd rfl h3
      | ref => exact absurd rfl h4
      | crec r i d => exact absurd rfl (h5 r i d)
      | comp o s n t => exact absurd rfl (h6 o s n t)
      | _ => rfl
    · rw [FT.npdt] at hd
      exact occurs_subDT h0 (fun d => occurs_plain) hd
  | struct names types sp hne hn h0 _ ih =>
    refine ⟨?_, ?_, ?_, ?_⟩
    · rw [FT.err, if_neg hne]
      have : ∀ (ns : List Str) (ts : List FT), (∀ n ∈ ns, Scalars n) → (∀ t ∈ ts, FT.err t = none) → FT.errL ns ts = none := by
        intro ns
        induction ns with
        | nil => intro ts _ _; cases ts <;> rfl
        | cons n ns ih =>
          intro ts h1 h2
          cases ts with
          | nil => rfl
          | cons t r =>
            rw [FT.errL, if_pos (nameOk_iff.mpr (h1 n (by simp))), h2 t (by simp)]
            exact ih r (fun n hn => h1 n (by simp [hn])) (fun t ht => h2 t (by simp [ht]))
      exact this names types (fun n h => (hn n h).1) (fun t h => (ih t h).1)
    · rw [FT.hasObject, Bool.eq_false_iff, Ne, hasObjectL_iff]
      rintro ⟨t, h1, h2⟩
      rw [(ih t h1).2.1] at h2; cases h2
    · rw [FT.hasNull, Bool.eq_false_iff, Ne, Bool.or_eq_true, hasNullL_iff]
      rintro (h | ⟨t, h1, h2⟩)
      · obtain ⟨m, h1, h2⟩ := List.any_eq_true.mp h
        exact (hn m h1).2 ((nulName_iff m).mp h2)
      · rw [(ih t h1).2.2.1] at h2; cases h2
    · intro d hd
      rw [FT.npdt] at hd
      refine occurs_subDT h0 (fun d hd => ?_) hd
      cases hd with
      | self => simp [NpDT.shape]
      | field n t _ hm ho =>
        obtain ⟨t, h1, rfl⟩ := npdtL_mem hm
        exact (ih t h1).2.2.2 d ho

theorem tableAttrs_ok (o : COpts) (c : Cont) (types : List FT) (shape : List Nat) {esc : List Str} {ts : Str} (hts : Ascii ts) (he : ∀ e ∈ esc, Scalars e) :
    AttrsOk (tableAttrs o c types shape esc ts) := by
  unfold tableAttrs
  split
  · exact structAttrs_ok o c types shape false hts he
  · exact .ite (.cons (value_ok _) (by decide) (.cons (string_ok (ascii_structName c types)) (by decide) (.cons (string_ok (ascii_contName c)) (by decide)
      (.cons (string_ok hts) (by decide) .nil))))

/-- Structured arrays HDF5 has a type for. -/
theorem table_wrGo {x : Ctx} (ho : CanOverwrite x.o) {n : Nat} {c : Cont} {shape : List Nat} {names : List Str} {types : List FT}
    {elems : List Val} (h1 : x.o.matlab = true → x.o.action ≠ .error) (h2 : x.o.structAsStruct = false) (h3 : H5Type (.struct names types [])) :
    WrGo x (writeData x (n + 1)) (.npStruct c shape names types elems) := by
  intro K s g gn name hs hp ha
  have hts := ascii_tsOf (.npStruct c shape names types elems)
  obtain ⟨k1, k2, k3, k4⟩ := h5Type_ok h3
  have hnm : ∀ nm ∈ names, Scalars nm := by
    cases h3 with
    | struct _ _ _ _ hn _ _ => exact fun nm h => (hn nm h).1
  show Goes K x (writeStruct x (writeData x n) g gn name c shape names types elems (tsOf (.npStruct c shape names types elems))) s _
  unfold writeStruct
  rw [if_neg (fun h => h1 h.1 h.2.2)]
  split
  · exact Goes.pure hs
  · obtain ⟨esc, he⟩ := escapes_total names
    have he2 := mapM_ok_forall2.mp he
    have hscal : ∀ e ∈ esc, Scalars e := by
      intro e hm
      obtain ⟨j, hj⟩ := List.mem_iff_getElem?.mp hm
      obtain ⟨t, e1, e2⟩ := all2_index (all2_flip he2) j e hj
      exact (escape_keeps e2).2.1 (hnm t (List.mem_of_getElem? e1))
    refine (Goes.ok (show (liftRes (names.mapM escapePath) : M (List Str)) s = (.ok esc, s) by rw [he]; rfl) (P := fun a s' => a = esc ∧ s' = s) ⟨rfl, rfl⟩).bind ?_
    rintro esc' s' _ ⟨rfl, rfl⟩
    split
    · obtain ⟨p, s1, e1, e2⟩ := putAttrs_go (a := shapeArr (shape2d x.o shape)) ho hs hp (structAttrs_ok x.o c types shape false hts hscal)
      exact Goes.ok e1 e2
    · have hg : structAsGroup x.o names types = false := by
        unfold structAsGroup
        rw [FT.hasObject] at k2
        rw [FT.hasNull] at k3
        have h4 : doesDtypeHaveAZeroShape (.struct (FT.npdtL names types)) = false := by
          rw [Bool.eq_false_iff, Ne, C22_zero_shape]
          rintro ⟨d, hd, h0⟩
          refine k4 d ?_ h0
          rw [FT.npdt]
          exact occurs_sub _ hd
        rw [h2, k2, k3, h4]; rfl
      rw [if_neg (by rw [hg]; decide)]
      have hte : tableErr names types = none := by
        rw [FT.err] at k1
        exact k1
      rw [hte]
      obtain ⟨p, s1, e1, e2⟩ := putAttrs_go (a := tableArr x.o shape names types elems) ho hs hp (tableAttrs_ok x.o c types shape hts hscal)
      exact Goes.ok e1 e2

/-- Every value that can be written is written, with enough recursion depth. -/
theorem writable_go {x : Ctx} (hx : RefsOk x) (ho : CanOverwrite x.o) (hn : NamesOk x.o) {v : Val} (hv : Writable x.o v) :
    ∃ n0 : Nat, ∀ n, n0 ≤ n → WrGo x (writeData x n) v := by
  have leaf : ∀ {v : Val} {c : Cont} {a : Arr}, leafOf v = some (c, a) → LeafOk x.o c a → ∃ n0 : Nat, ∀ n, n0 ≤ n → WrGo x (writeData x n) v := by
    intro v c a hl hok
    refine ⟨1, fun n hn => ?_⟩
    obtain ⟨m, rfl⟩ : ∃ m, n = m + 1 := ⟨n - 1, by omega⟩
    exact leaf_wrGo ho hl hok m
  have up : ∀ {v : Val} (n0 : Nat), (∀ n, n0 ≤ n → WrGo x (writeData x (n + 1)) v) → ∃ n0 : Nat, ∀ n, n0 ≤ n → WrGo x (writeData x n) v := by
    intro v n0 h
    refine ⟨n0 + 1, fun n hn => ?_⟩
    obtain ⟨m, rfl⟩ : ∃ m, n = m + 1 := ⟨n - 1, by omega⟩
    exact h m (by omega)
  induction hv with
  | none => exact leaf rfl (leafOk_of (by simp [npZeros, DT.matlabClass]) ⟨by simp [npZeros], by simp [npZeros]⟩ (Or.inr (by simp [npZeros])))
  | ellipsis => exact leaf rfl (leafOk_of (by simp [npZeros, DT.matlabClass]) ⟨by simp [npZeros], by simp [npZeros]⟩ (Or.inr (by simp [npZeros])))
  | notImplemented => exact leaf rfl (leafOk_of (by simp [npZeros, DT.matlabClass]) ⟨by simp [npZeros], by simp [npZeros]⟩ (Or.inr (by simp [npZeros])))
  | bool b => exact leaf rfl (leafOk_of (by simp [DT.matlabClass]) ⟨by simp, by simp⟩ (Or.inl rfl))
  | int v =>
    by_cases h : -9223372036854775808 ≤ v ∧ v ≤ 9223372036854775807
    · exact leaf (by rw [leafOf, if_pos h]) (leafOk_of (by simp [DT.matlabClass]) ⟨by simp, by simp⟩ (Or.inl rfl))
    · exact leaf (by rw [leafOf, if_neg h]) (leafOk_bytes _)
  | float b => exact leaf rfl (leafOk_of (by simp [DT.matlabClass]) ⟨by simp, by simp⟩ (Or.inl rfl))
  | complex a b hc => exact leaf rfl ⟨fun _ _ => by simp [DT.matlabClass], fun _ => hc, fun _ h => absurd rfl h⟩
  | str s => exact leaf rfl (leafOk_str _)
  | bytes b => exact leaf rfl (leafOk_bytes _)
  | bytearray b => exact leaf rfl (leafOk_bytes _)
  | dtypeObj s hs =>
    obtain ⟨b, hb⟩ := utf8Enc_isOk s hs
    exact leaf (by rw [leafOf, hb]) (leafOk_bytes _)
  | np c a hp h1 h2 h3 =>
    refine leaf rfl ⟨fun hm ha hc => ?_, h2, h3⟩
    obtain ⟨p1, p2, p3, p4⟩ := hp.plain
    have h1' := h1 hm ha
    cases hdt : a.dt <;> rw [hdt] at hc h1' p3 p4 <;> first | (cases hc; done) | exact h1' rfl | exact p3 _ _ _ rfl | exact p4 _ _ _ _ rfl
  | npObj c shape elems hsz _ ih =>
    obtain ⟨n0, h⟩ := exists_bound ih
    exact up n0 fun n hn' => npObj_wrGo hx ho hn (h n hn') hsz
  | seq k elems _ ih =>
    obtain ⟨n0, h⟩ := exists_bound ih
    exact up n0 fun n hn' => seq_wrGo hx ho hn (h n hn')
  | dictText k keys vals texts hk ht hs _ ih =>
    obtain ⟨n0, h⟩ := exists_bound ih
    refine up n0 fun n hn' => ?_
    intro K s g gn name hs' hp ha
    obtain ⟨e1, e2⟩ := textItems_ok (wr := writeData x n) hn hk ht hs (h n hn')
    exact writeDict_go (writeData_kit hn n) (e2 _ _ (ascii_tsOf _)) e1 hs' hp (fun hm => ha hm trivial)
  | dictAny k keys vals hk hkv hks hvs _ _ ih1 ih2 =>
    obtain ⟨n1, h1⟩ := exists_bound ih1
    obtain ⟨n2, h2⟩ := exists_bound ih2
    refine up (max n1 n2 + 1) fun n hn' => ?_
    obtain ⟨m, rfl⟩ : ∃ m, n = m + 1 := ⟨n - 1, by omega⟩
    intro K s g gn name hs' hp ha
    have hki := keyInfos_notText hk
    refine writeDict_go (writeData_kit hn (m + 1)) (dictAttrs_ok _ _ _ (ascii_tsOf _) (fun _ => ⟨hks, hvs⟩) (fun l hl => by rw [hki] at hl; cases hl)) ?_ hs' hp (fun hm => ha hm trivial)
    intro i hi
    unfold dictItems at hi
    rw [hki] at hi
    simp only [List.mem_cons, List.not_mem_nil, or_false] at hi
    rcases hi with rfl | rfl
    · exact ⟨hn.keys, nameOk_iff.mpr hks, hkv.keys.1, fun _ hg => hg.elim, seq_wrGo hx ho hn (h1 m (by omega))⟩
    · exact ⟨hn.vals, nameOk_iff.mpr hvs, hkv.vals.1, fun _ hg => hg.elim, seq_wrGo hx ho hn (h2 m (by omega))⟩
  | record k vals _ ih =>
    obtain ⟨n0, h⟩ := exists_bound ih
    refine up n0 fun n hn' => ?_
    intro K s g gn name hs' hp ha
    have hnm : ∀ t ∈ k.fieldNames, t ≠ [] ∧ Ascii t := by
      have : ∀ t ∈ k.fieldNames, (!t.isEmpty && t.all (· < 128)) = true := List.all_eq_true.mp (by cases k <;> rfl)
      intro t ht
      have := this t ht
      rw [Bool.and_eq_true] at this
      exact ⟨by simpa using this.1, ascii_all this.2⟩
    obtain ⟨e1, e2⟩ := textItems_ok (wr := writeData x n) (vals := vals) hn (allKeyText_str k.fieldNames)
      (fun tv htv => by
        have := hnm tv.1 (List.of_mem_zip (a := tv.1) (b := tv.2) htv).1
        exact ⟨this.1, ascii_scalars this.2, fun _ _ => this.2⟩) (fun t ht => ascii_scalars (hnm t ht).2) (h n hn')
    exact writeDict_go (writeData_kit hn n) (e2 _ _ (ascii_tsOf _)) e1 hs' hp (fun hm => ha hm trivial)
  | npStruct c shape names types elems h1 h2 hsz h3 h4 _ ih =>
    obtain ⟨n0, h⟩ := exists_bound ih
    refine up (n0 + 1) fun n hn' => ?_
    obtain ⟨m, rfl⟩ : ∃ m, n = m + 1 := ⟨n - 1, by omega⟩
    exact struct_wrGo hx ho hn h1 h2 hsz h3 h4 (fun v hv m' hm' => h m' (by omega) v hv)
  | npTable c shape names types elems h1 h2 h3 => exact up 0 fun n _ => table_wrGo ho h1 h2 h3

end HS
