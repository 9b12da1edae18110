import Verif.Lemmas.BuildStruct
/-
Round trip of structured arrays: reading them back.
-/
namespace HS
open Spec

theorem mem_sortedLinks {l : List (Str × Nat)} {k : Str} {q : Nat} (h : (k, q) ∈ sortedLinks l) : aget l k = some q := by
  unfold sortedLinks at h
  obtain ⟨k', _, hk'⟩ := List.mem_filterMap.mp h
  cases ha : aget l k' with
  | none => rw [ha] at hk'; cases hk'
  | some q' => rw [ha] at hk'; cases hk'; exact ha

theorem sortedLinks_mem {l : List (Str × Nat)} {k : Str} {q : Nat} (h : aget l k = some q) : (k, q) ∈ sortedLinks l := by
  unfold sortedLinks
  refine List.mem_filterMap.mpr ⟨k, (sortStr_perm (akeys l)).mem_iff.mpr (List.mem_map.mpr ⟨_, aget_mem l k q h, rfl⟩), ?_⟩
  rw [h]
  rfl

/-! The columns. -/

theorem splitCols_length (size n : Nat) (l : List Val) : (splitCols size n l).length = n := by
  induction n generalizing l with
  | zero => rfl
  | succ n ih => rw [splitCols, List.length_cons, ih]

theorem splitCols_get (size n : Nat) (l : List Val) (k : Nat) (hk : k < n) : (splitCols size n l)[k]? = some ((l.drop (k * size)).take size) := by
  induction n generalizing l k with
  | zero => omega
  | succ n ih =>
    rw [splitCols]
    cases k with
    | zero => simp
    | succ k =>
      rw [List.getElem?_cons_succ, ih _ k (by omega), List.drop_drop]
      congr 3
      rw [Nat.succ_mul, Nat.add_comm]

theorem splitCols_flatten (size n : Nat) (l : List Val) (hl : l.length = n * size) : (splitCols size n l).flatten = l := by
  induction n generalizing l with
  | zero =>
    rw [Nat.zero_mul] at hl
    rw [List.length_eq_zero_iff.mp hl]
    rfl
  | succ n ih =>
    rw [splitCols, List.flatten_cons, ih, List.take_append_drop]
    rw [List.length_drop, hl, Nat.succ_mul]
    omega

theorem splitCols_col (size n : Nat) (l : List Val) (hl : l.length = n * size) : ∀ c ∈ splitCols size n l, c.length = size ∧ ∀ e ∈ c, e ∈ l := by
  intro c hc
  obtain ⟨k, hk, rfl⟩ := List.mem_iff_getElem.mp hc
  rw [splitCols_length] at hk
  have h1 := splitCols_get size n l k hk
  rw [List.getElem?_eq_getElem (by rw [splitCols_length]; exact hk)] at h1
  have h2 := Option.some.inj h1
  rw [h2]
  refine ⟨?_, fun e he => List.mem_of_mem_drop (List.mem_of_mem_take he)⟩
  rw [List.length_take, List.length_drop, hl]
  have : (k + 1) * size ≤ n * size := Nat.mul_le_mul_right _ hk
  rw [Nat.succ_mul] at this
  omega

/-! The types of the columns. -/

theorem ftOf_iff (v : Val) (t : FT) : ftOf v = some t ↔ NumpyOf v t := by
  constructor
  · intro h
    cases v <;> simp only [ftOf, Option.some.injEq, reduceCtorEq] at h <;> subst h <;> constructor
  · intro h
    cases h <;> rfl

theorem fieldType_ok {t : FT} {col : List Val} (hne : col ≠ []) (h : FieldOk t col) : fieldType col = t := by
  cases col with
  | nil => exact absurd rfl hne
  | cons v r =>
    rw [fieldType]
    rcases h with ⟨rfl, h⟩ | ⟨_, h⟩
    · cases hf : ftOf v with
      | none => rfl
      | some u =>
        dsimp only
        by_cases ha : r.all (fun w => ftOf w == some u) = true
        · exfalso
          refine h ⟨u, ?_⟩
          intro w hw
          rcases List.mem_cons.mp hw with rfl | hw
          · exact (ftOf_iff _ _).mp hf
          · have := List.all_eq_true.mp ha w hw
            exact (ftOf_iff _ _).mp (by simpa using this)
        · rw [if_neg ha]
    · rw [(ftOf_iff v t).mpr (h v (by simp)).1]
      dsimp only
      rw [if_pos]
      rw [List.all_eq_true]
      intro w hw
      rw [(ftOf_iff w t).mpr (h w (by simp [hw])).1]
      simp

theorem fieldOk_mem {t : FT} {col col' : List Val} (hm : ∀ v, v ∈ col ↔ v ∈ col') (h : FieldOk t col) : FieldOk t col' := by
  rcases h with ⟨h1, h2⟩ | ⟨h1, h2⟩
  · exact Or.inl ⟨h1, fun ⟨u, hu⟩ => h2 ⟨u, fun v hv => hu v ((hm v).mp hv)⟩⟩
  · exact Or.inr ⟨h1, fun v hv => h2 v ((hm v).mpr hv)⟩

theorem packEl_ok {o : COpts} {t : FT} {col : List Val} (h : FieldOk t col) {v : Val} (hv : v ∈ col) (hg : Good o v) : packEl t v = v := by
  unfold packEl
  rcases h with ⟨rfl, _⟩ | ⟨hn, h⟩
  · rw [if_pos rfl]
  · rw [if_neg hn]
    obtain ⟨h1, h2⟩ := h v hv
    cases h1 with
    | np c a =>
      dsimp only
      by_cases hs : a.shape = []
      · rw [if_pos hs]
        have hc : c = .scalar := by
          have : c = if subShape (.base a.dt a.shape) = [] then .scalar else .ndarray := h2
          rw [this]
          exact if_pos hs
        cases hg with
        | np _ _ hgn _ _ =>
          rw [flat0_good a hgn.arr hs (hgn.scalar hc).2, hc]
      · rw [if_neg hs]
        have hc : c = .ndarray := by
          have : c = if subShape (.base a.dt a.shape) = [] then .scalar else .ndarray := h2
          rw [this]
          exact if_neg hs
        rw [hc]
    | npObj c s e =>
      have hc : c = .ndarray := h2
      rw [hc]
    | npStruct c s n u e =>
      have hc : c = if s = [] then .scalar else .ndarray := h2
      dsimp only
      rw [hc]

/-! Reading the members. -/

theorem aget_fieldSet (l : List (Str × Val)) (k : Str) (v : Val) (k' : Str) : aget (fieldSet l k v) k' = if k' = k then some v else aget l k' := by
  unfold fieldSet
  by_cases hc : (akeys l).contains k = true
  · rw [if_pos hc]
    have hk : k ∈ akeys l := by simpa using hc
    clear hc
    induction l with
    | nil => cases hk
    | cons p l ih =>
      obtain ⟨a, b⟩ := p
      by_cases ha : a = k
      · subst ha
        by_cases hk' : k' = a
        · subst hk'
          simp [aget]
        · rw [if_neg hk']
          by_cases hin : a ∈ akeys l
          · have := ih hin
            rw [if_neg hk'] at this
            simp only [List.map_cons, if_pos, aget]
            rw [if_neg (fun h => hk' h.symm), if_neg (fun h => hk' h.symm)]
            exact this
          · have hid : l.map (fun p => if p.1 = a then (a, v) else p) = l := by
              have : ∀ p ∈ l, (fun p : Str × Val => if p.1 = a then (a, v) else p) p = id p := by
                intro p hp
                dsimp only
                rw [if_neg]
                · rfl
                · intro he
                  exact hin (List.mem_map.mpr ⟨p, hp, he⟩)
              rw [List.map_congr_left this, List.map_id]
            simp only [List.map_cons, if_pos, aget]
            rw [if_neg (fun h => hk' h.symm), if_neg (fun h => hk' h.symm), hid]
      · have hin : k ∈ akeys l := by
          have : k ∈ a :: akeys l := hk
          rcases List.mem_cons.mp this with h | h
          · exact absurd h.symm ha
          · exact h
        simp only [List.map_cons, if_neg ha, aget]
        by_cases hak : a = k'
        · rw [if_pos hak, if_pos hak]
          have : ¬ k' = k := fun h => ha (hak.trans h)
          rw [if_neg this]
        · rw [if_neg hak, if_neg hak]
          exact ih hin
  · rw [if_neg hc, aget_append]
    have hn : aget l k = none := (aget_none_iff l k).mpr (fun h => hc (by simpa using h))
    by_cases hk' : k' = k
    · subst hk'
      rw [hn]
      simp [aget]
    · rw [if_neg hk']
      cases hl : aget l k' with
      | some w => simp
      | none =>
        simp only [aget]
        rw [if_neg (fun h => hk' h.symm)]
        rfl

theorem readFields_spec {rd : Rd} {excl : Option Nat} {F : Str → Option Val} {L : List (Str × Nat)} {acc : List (Str × Val)}
    (hL : ∀ k q, (k, q) ∈ L → excl ≠ some q ∧ ∃ nm w, unescapePath k = .ok nm ∧ rd q = .ok w ∧ F nm = some w) (ha : ∀ k v, aget acc k = some v → F k = some v) :
    ∃ sd, readFields rd excl L acc = .ok sd ∧ (∀ k v, aget sd k = some v → F k = some v) ∧ (∀ k, aget acc k ≠ none → aget sd k ≠ none) ∧
      (∀ k q nm, (k, q) ∈ L → unescapePath k = .ok nm → aget sd nm ≠ none) := by
  induction L generalizing acc with
  | nil => exact ⟨acc, rfl, ha, fun _ h => h, fun _ _ _ h => by cases h⟩
  | cons p L ih =>
    obtain ⟨k, q⟩ := p
    obtain ⟨h1, nm, w, h2, h3, h4⟩ := hL k q (by simp)
    rw [readFields, h2]
    show ∃ sd, (if excl = some q then _ else _) = _ ∧ _
    rw [if_neg h1, h3]
    dsimp only
    obtain ⟨sd, g1, g2, g3, g4⟩ := ih (acc := fieldSet acc nm w) (fun k q h => hL k q (by simp [h])) (by
      intro k' v hv
      rw [aget_fieldSet] at hv
      by_cases hk : k' = nm
      · rw [if_pos hk] at hv
        cases hv
        rw [hk]; exact h4
      · rw [if_neg hk] at hv
        exact ha k' v hv)
    refine ⟨sd, g1, g2, ?_, ?_⟩
    · intro k' hk'
      refine g3 k' ?_
      rw [aget_fieldSet]
      by_cases hk : k' = nm
      · rw [if_pos hk]; simp
      · rw [if_neg hk]; exact hk'
    · intro k' q' nm' hm hu
      rcases List.mem_cons.mp hm with h | h
      · cases h
        rw [h2] at hu
        cases hu
        refine g3 nm ?_
        rw [aget_fieldSet, if_pos rfl]
        simp
      · exact g4 k' q' nm' h hu

theorem aget_zip {names : List Str} {ws : List Val} (hnd : names.Nodup) {k : Nat} {nm : Str} {w : Val} (h1 : names[k]? = some nm) (h2 : ws[k]? = some w) :
    aget (names.zip ws) nm = some w := by
  induction names generalizing ws k with
  | nil => simp at h1
  | cons a names ih =>
    cases ws with
    | nil => simp at h2
    | cons b ws =>
      rw [List.zip_cons_cons, aget]
      cases k with
      | zero =>
        simp only [List.getElem?_cons_zero, Option.some.injEq] at h1 h2
        rw [if_pos h1, h2]
      | succ k =>
        rw [List.getElem?_cons_succ] at h1 h2
        rw [List.nodup_cons] at hnd
        rw [if_neg]
        · exact ih hnd.2 h1 h2
        · rintro rfl
          exact hnd.1 (List.mem_of_getElem? h1)

/-- The structured data made of the members of a Group. -/
theorem buildStruct_ok {multi : Bool} {sd : List (Str × Val)} {names : List Str} {types : List FT} {sh0 : List Nat} {els : List (List Val)}
    (hn : names ≠ []) (hn0 : [] ∉ names) (hnd : names.Nodup) (hk : ∀ k v, aget sd k = some v → k ∈ names)
    (hf : All2 (fun nm e => fieldAt multi sd nm = .ok (sh0, e)) names els) (ht : All2 (fun t e => fieldType e = t ∧ ∀ v ∈ e, packEl t v = v) types els) :
    buildStruct multi sd (some names) = .ok (.tab sh0 names types els) := by
  have h0 : (akeys sd).filter (fun k => !names.contains k) = [] := by
    apply List.filter_eq_nil_iff.mpr
    intro k hk'
    have : aget sd k ≠ none := fun h => (aget_none_iff sd k).mp h hk'
    cases hs : aget sd k with
    | none => exact absurd hs this
    | some v => simpa using hk k v hs
  have h2 : names ++ sortStr [] = names := by simp [sortStr]
  rw [buildStruct_gen (names := names) (sh0 := sh0) (els := els) (fun h => by cases h) (fun f hf => by cases hf; rw [h0, h2]) hn hn0 hnd hf]
  have h5 : els.map fieldType = types := by
    clear hf
    induction ht with
    | nil => rfl
    | cons h _ ih => rw [List.map_cons, ih, h.1]
  have h6 : els.map (fun e => e.map (packEl (fieldType e))) = els := by
    clear hf h5
    induction ht with
    | nil => rfl
    | @cons t e _ _ h _ ih =>
      rw [List.map_cons, ih]
      refine congrArg (· :: _) ?_
      rw [h.1]
      have := List.map_congr_left (f := packEl t) (g := id) h.2
      rw [this, List.map_id]
  rw [h5, h6]


theorem structAttrs_nodup (o : COpts) (c : Cont) (types : List FT) (shape : List Nat) (group : Bool) (esc : List Str) (ts : Str) :
    (akeys (structAttrs o c types shape group esc ts)).Nodup := by
  unfold structAttrs
  cases o.pyMeta <;> cases o.matlab <;> cases (prodN shape == 0) <;> cases o.structAsStruct <;> cases group <;> cases (esc.all fun i => i.all (· < 128)) <;>
    exact of_decide_eq_true rfl

theorem structAttrs_get (o : COpts) (hm : o.pyMeta = true) (c : Cont) (types : List FT) (shape : List Nat) (h0 : prodN shape ≠ 0) (esc : List Str) (ts : Str) :
    aget (structAttrs o c types shape true esc ts) p!"Python.Type" = some (.string ts) ∧
    aget (structAttrs o c types shape true esc ts) p!"Python.Shape" = some (.value (.u64s shape)) ∧
    aget (structAttrs o c types shape true esc ts) p!"Python.numpy.UnderlyingType" = some (.string (structName c types)) ∧
    aget (structAttrs o c types shape true esc ts) p!"Python.numpy.Container" = some (.string c.name) ∧
    aget (structAttrs o c types shape true esc ts) p!"Python.Fields" = some (.stringArray esc) ∧
    aget (structAttrs o c types shape true esc ts) p!"Python.Empty" = none ∧
    aget (structAttrs o c types shape true esc ts) p!"MATLAB_class" =
      (if o.matlab then some (if o.structAsStruct then .string p!"struct" else .value (.pyStr p!"struct")) else none) := by
  unfold structAttrs
  have hb : (prodN shape == 0) = false := by simp [h0]
  rw [hm, hb]
  cases o.matlab <;> cases o.structAsStruct <;> cases (esc.all fun i => i.all (· < 128)) <;> exact ⟨rfl, rfl, rfl, rfl, rfl, rfl, rfl⟩

/-- The MATLAB class of a structured array. -/
def structClass (o : COpts) : Option Str := if o.matlab then some p!"struct" else none

theorem struct_attrs {o : COpts} (hm : o.pyMeta = true) {c : Cont} {types : List FT} {shape : List Nat} (h0 : prodN shape ≠ 0) {esc : List Str} {ts : Str}
    {attrs : List (Str × AVal)} (h : setAttributesAll [] (structAttrs o c types shape true esc ts) true = (.ok (), attrs)) :
    attrToString (aget attrs p!"Python.Type") = .ok (some ts) ∧ aget attrs p!"Python.Shape" = some (.u64s shape) ∧
    attrToString (aget attrs p!"Python.numpy.UnderlyingType") = .ok (some (structName c types)) ∧
    attrToString (aget attrs p!"Python.numpy.Container") = .ok (some c.name) ∧
    aget attrs p!"Python.Fields" = some (.strs esc) ∧ aget attrs p!"Python.Empty" = none ∧
    attrToString (aget attrs p!"MATLAB_class") = .ok (structClass o) := by
  have hnd := structAttrs_nodup o c types shape true esc ts
  obtain ⟨g1, g2, g3, g4, g5, g6, g7⟩ := structAttrs_get o hm c types shape h0 esc ts
  refine ⟨fresh_string hnd h g1, fresh_value hnd h g2, fresh_string hnd h g3, fresh_string hnd h g4, fresh_strings hnd h g5, fresh_none hnd h g6, ?_⟩
  unfold structClass
  cases hma : o.matlab with
  | false =>
    rw [hma] at g7
    rw [fresh_none hnd h g7]
    rfl
  | true =>
    rw [hma] at g7
    cases hs : o.structAsStruct with
    | true => rw [hs] at g7; exact fresh_string hnd h g7
    | false => rw [hs] at g7; rw [fresh_value hnd h g7]; rfl

theorem rev_struct {o ro : COpts} (ho : OptsOk o) (hr : ro.reverse = o.reverse ∨ (o.matlab = true ∧ o.action ≠ .ignore)) : ((structClass o).isSome || ro.reverse) = o.reverse := by
  unfold structClass
  cases hm : o.matlab with
  | true => rw [ho.rev hm]; rfl
  | false =>
    rcases hr with hr | ⟨hr, _⟩
    · rw [← hr]; rfl
    · rw [hm] at hr; cases hr

theorem structName_not {c : Cont} {types : List FT} : startsWith (structName c types) p!"complex" = false ∧ structName c types ≠ p!"bool" ∧
    startsWith (structName c types) p!"bytes" = false ∧ startsWith (structName c types) p!"str" = false := by
  unfold structName
  cases c <;> refine ⟨rfl, fun h => ?_, rfl, rfl⟩ <;> have h := congrArg List.head? h <;>
    first | exact absurd (show some 118 = some 98 from h) (by decide) | exact absurd (show some 114 = some 98 from h) (by decide)

theorem toContainer_tab {c : Cont} {ts : Str} (hts : c = .recarray → ts = p!"numpy.recarray") {shape : List Nat} {names : List Str} {types : List FT} {cols : List (List Val)} (h0 : 0 < prodN shape)
    (hc : c = .ndarray ∨ c = .recarray ∨ (c = .matrix ∧ shape.length = 2) ∨ (c = .scalar ∧ shape = [])) (hcol : ∀ l ∈ cols, l.length = prodN shape) :
    toContainer (some c.name) (structName c types) false (ts == p!"numpy.recarray") (.tab shape names types cols) =
      .ok (.npStruct c shape names types cols.flatten) := by
  obtain ⟨_, _, n3, n4⟩ := structName_not (c := c) (types := types)
  rcases hc with rfl | rfl | ⟨rfl, h2⟩ | ⟨rfl, rfl⟩
  · rfl
  · rw [hts rfl]; rfl
  · match shape, h2 with
    | [a, b], _ => rfl
  · show (Except.ok (.npStruct .scalar [] names types (cols.map fun l => l.headD .none)) : Res Val) = _
    have : cols.map (fun l => l.headD .none) = cols.flatten := by
      clear n3 n4
      induction cols with
      | nil => rfl
      | cons l r ih =>
        rw [List.map_cons, List.flatten_cons, ih fun l hl => hcol l (by simp [hl])]
        obtain ⟨v, rfl⟩ := List.length_eq_one_iff.mp (show l.length = 1 from hcol l (by simp))
        rfl
    rw [this]

theorem npFinish_tab {o ro : COpts} {mc : Option Str} (hrev : (mc.isSome || ro.reverse) = o.reverse) (hmc : mc ≠ some p!"char") {c : Cont} {ts : Str}
    (hts : c = .recarray → ts = p!"numpy.recarray") {shape sh1 sh0 : List Nat} {names : List Str} {types : List FT} {cols els : List (List Val)} (h0 : 0 < prodN shape)
    (hc : c = .ndarray ∨ c = .recarray ∨ (c = .matrix ∧ shape.length = 2) ∨ (c = .scalar ∧ shape = [])) (hcol : ∀ l ∈ cols, l.length = prodN shape)
    (hs : prodN sh1 = prodN shape)
    (hT : (if o.reverse then (NData.tab sh0 names types els).T else .tab sh0 names types els) = .tab sh1 names types cols) :
    npFinish ro (ts) (structName c types) shape (some c.name) false mc (.tab sh0 names types els) =
      .ok (.npStruct c shape names types cols.flatten) := by
  obtain ⟨n1, n2, n3, n4⟩ := structName_not (c := c) (types := types)
  unfold npFinish
  rw [hrev, n1]
  show ((if structName c types = p!"bool" ∧ (NData.tab sh0 names types els).isBool = false then toBool (NData.tab sh0 names types els)
    else Except.ok (NData.tab sh0 names types els)) >>= fun d => stringStep (structName c types) mc (if o.reverse then d.T else d) >>= fun d =>
    reshapeStep shape d >>= fun d => toContainer (some c.name) (structName c types) false (ts == p!"numpy.recarray") d) = _
  rw [if_neg (fun h => n2 h.1)]
  show (stringStep (structName c types) mc (if o.reverse then (NData.tab sh0 names types els).T else .tab sh0 names types els) >>= fun d =>
    reshapeStep shape d >>= fun d => toContainer (some c.name) (structName c types) false (ts == p!"numpy.recarray") d) = _
  rw [hT]
  have h1 : stringStep (structName c types) mc (.tab sh1 names types cols) = .ok (.tab sh1 names types cols) := by
    unfold stringStep
    rw [n3, n4]
    simp only [Bool.false_eq_true, if_false]
    rw [if_neg hmc]
  rw [h1]
  have h2 : reshapeStep shape (.tab sh1 names types cols) = .ok (.tab shape names types cols) := by
    unfold reshapeStep
    by_cases hn : shape = sh1
    · subst hn
      rw [if_neg (by simp [NData.shape])]
    · rw [if_pos ⟨hn, hs.symm⟩]
  show (reshapeStep shape (.tab sh1 names types cols) >>= fun d => toContainer (some c.name) (structName c types) false (ts == p!"numpy.recarray") d) = _
  rw [h2]
  exact toContainer_tab hts h0 hc hcol

/-- Reading the Group of a structured array. -/
theorem readNp_struct {o ro : COpts} (ho : OptsOk o) (hm : o.pyMeta = true) (hr : ro.reverse = o.reverse ∨ (o.matlab = true ∧ o.action ≠ .ignore))
    (hd : o.matlab = true → ro.structsAsDicts = false) {c : Cont} {ts : Str}
    (hts : c = .recarray → ts = p!"numpy.recarray") {shape sh1 sh0 : List Nat} {names esc : List Str} {types : List FT} {cols els : List (List Val)} (h0 : 0 < prodN shape)
    (hc : c = .ndarray ∨ c = .recarray ∨ (c = .matrix ∧ shape.length = 2) ∨ (c = .scalar ∧ shape = [])) (hcol : ∀ l ∈ cols, l.length = prodN shape)
    (hs : prodN sh1 = prodN shape)
    (hT : (if o.reverse then (NData.tab sh0 names types els).T else .tab sh0 names types els) = .tab sh1 names types cols)
    {attrs : List (Str × AVal)} (hat : setAttributesAll [] (structAttrs o c types shape true esc (ts)) true = (.ok (), attrs))
    (hn : names ≠ []) (hn0 : [] ∉ names) (hnd : names.Nodup) (hesc : esc.length = names.length) {links : List (Str × Nat)} (hlk : ∀ k q, aget links k = some q → k ∈ esc)
    {mu : Nat → Bool} {rd : Rd} {excl : Option Nat} {multi : Bool} {ws : List Val}
    (hrow : ∀ (k : Nat) nm, names[k]? = some nm → ∃ e q w, esc[k]? = some e ∧ unescapePath e = .ok nm ∧ aget links e = some q ∧ excl ≠ some q ∧ mu q = multi ∧ rd q = .ok w ∧
      ws[k]? = some w)
    (hws : All2 (fun w e => fieldArray multi w = .ok (sh0, e)) ws els) (hlen : ws.length = names.length)
    (ht : All2 (fun t e => fieldType e = t ∧ ∀ v ∈ e, packEl t v = v) types els) :
    readNp mu rd ro excl (Obj.view ⟨attrs, .group links⟩) = .ok (.npStruct c shape names types cols.flatten) := by
  obtain ⟨a1, a2, a3, a4, a5, a6, a7⟩ := struct_attrs hm (Nat.pos_iff_ne_zero.mp h0) hat
  have v : ∀ k, k ≠ p!"H5PATH" → aget (adel attrs p!"H5PATH") k = aget attrs k := fun k hk => aget_view ⟨attrs, .group links⟩ k hk
  -- the links
  have hmem : ∀ k q, (k, q) ∈ sortedLinks links → ∃ (i : Nat) (nm : Str) (w : Val), names[i]? = some nm ∧ unescapePath k = .ok nm ∧ excl ≠ some q ∧ mu q = multi ∧
      rd q = .ok w ∧ ws[i]? = some w := by
    intro k q hkq
    have hg := mem_sortedLinks hkq
    obtain ⟨i, hi, hik⟩ := List.mem_iff_getElem.mp (hlk k q hg)
    have hi' : i < names.length := by omega
    obtain ⟨e, q', w, r1, r2, r3, r4, r5, r6, r7⟩ := hrow i names[i] (List.getElem?_eq_getElem hi')
    rw [List.getElem?_eq_getElem hi] at r1
    have hke : k = e := hik.symm.trans (Option.some.inj r1)
    subst hke
    rw [hg] at r3
    cases r3
    exact ⟨i, names[i], w, List.getElem?_eq_getElem hi', r2, r4, r5, r6, r7⟩
  obtain ⟨sd, s1, s2, _, s4⟩ := readFields_spec (rd := rd) (excl := excl) (F := aget (names.zip ws)) (L := sortedLinks links) (acc := [])
    (fun k q hkq => by
      obtain ⟨i, nm, w, b1, b2, b3, _, b5, b6⟩ := hmem k q hkq
      exact ⟨b3, nm, w, b2, b5, aget_zip hnd b1 b6⟩) (fun k v h => by cases h)
  have hsd : ∀ (i : Nat) nm w, names[i]? = some nm → ws[i]? = some w → aget sd nm = some w := by
    intro i nm w b1 b2
    obtain ⟨e, q, w', r1, r2, r3, r4, r5, r6, r7⟩ := hrow i nm b1
    have := s4 e q nm (sortedLinks_mem r3) r2
    cases hg : aget sd nm with
    | none => exact absurd hg this
    | some w2 =>
      have := s2 nm w2 hg
      rw [aget_zip hnd b1 b2] at this
      exact this.symm
  have hmulti : isMulti mu excl (sortedLinks links) = multi := by
    unfold isMulti
    cases hmu : multi with
    | true =>
      rw [List.all_eq_true]
      rintro ⟨k, q⟩ hkq
      obtain ⟨_, _, _, _, _, _, b4, _⟩ := hmem k q hkq
      rw [b4, hmu, Bool.or_true]
    | false =>
      rw [List.all_eq_false]
      cases hnm : names with
      | nil => exact absurd hnm hn
      | cons nm r =>
        obtain ⟨e, q, w, r1, r2, r3, r4, r5, r6, r7⟩ := hrow 0 nm (by rw [hnm]; rfl)
        refine ⟨(e, q), sortedLinks_mem r3, ?_⟩
        dsimp only
        rw [r5, hmu, Bool.or_false]
        simpa using r4
  have hun : esc.mapM unescapePath = .ok names := by
    apply mapM_ok_forall2.mpr
    have key : ∀ (esc names : List Str), esc.length = names.length → (∀ (k : Nat) nm, names[k]? = some nm → ∃ e, esc[k]? = some e ∧ unescapePath e = .ok nm) →
        All2 (fun a b => unescapePath a = .ok b) esc names := by
      intro esc
      induction esc with
      | nil =>
        intro names hl _
        cases names with
        | nil => exact .nil
        | cons _ _ => cases hl
      | cons a esc ih =>
        intro names hl hh
        cases names with
        | nil => cases hl
        | cons b names =>
          refine .cons ?_ (ih names (by simpa using hl) fun k nm hk => ?_)
          · obtain ⟨e, h1, h2⟩ := hh 0 b rfl
            cases h1
            exact h2
          · obtain ⟨e, h1, h2⟩ := hh (k + 1) nm (by simpa using hk)
            exact ⟨e, by simpa using h1, h2⟩
    refine key esc names hesc fun k nm hk => ?_
    obtain ⟨e, _, _, r1, r2, _⟩ := hrow k nm hk
    exact ⟨e, r1, r2⟩
  have hbuild : buildStruct multi sd (some names) = .ok (.tab sh0 names types els) := by
    refine buildStruct_ok hn hn0 hnd ?_ ?_ ht
    · intro k w hk
      have := s2 k w hk
      have := aget_mem _ _ _ this
      exact (List.of_mem_zip this).1
    · have key : ∀ (names : List Str) (ws : List Val) (els : List (List Val)), ws.length = names.length → (∀ (i : Nat) nm w, names[i]? = some nm → ws[i]? = some w → aget sd nm = some w) →
          All2 (fun w e => fieldArray multi w = .ok (sh0, e)) ws els → All2 (fun nm e => fieldAt multi sd nm = .ok (sh0, e)) names els := by
        intro names ws els hl hh ha
        induction ha generalizing names with
        | nil =>
          cases names with
          | nil => exact .nil
          | cons _ _ => cases hl
        | @cons w e ws els h1 _ ih =>
          cases names with
          | nil => cases hl
          | cons nm names =>
            refine .cons ?_ (ih names (by simpa using hl) fun i nm' w' hi hw => hh (i + 1) nm' w' (by simpa using hi) (by simpa using hw))
            unfold fieldAt
            rw [hh 0 nm w rfl rfl]
            exact h1
      exact key names ws els hlen hsd hws
  unfold readNp
  dsimp only [Obj.view]
  rw [v _ (by decide), v _ (by decide), v _ (by decide), v _ (by decide), v _ (by decide), v _ (by decide), a1, a3, a4, a5, a7]
  dsimp only [attrToStrings, bind, Except.bind]
  rw [s1]
  dsimp only
  rw [if_neg]
  · rw [hmulti]
    have hg : ∀ mf, groupNames (some esc) mf = .ok (some names) := by
      intro mf
      show (esc.mapM unescapePath >>= fun r => Except.ok (some r)) = _
      rw [hun]
      rfl
    rw [hg]
    dsimp only
    rw [hbuild]
    dsimp only
    have hdec : decodes (some (structName c types)) (structClass o) = false := by
      unfold decodes structClass
      have : startsWith ((some (structName c types)).getD []) p!"complex" = false := structName_not.1
      rw [this]
      cases o.matlab <;> rfl
    rw [hdec]
    simp only [Bool.false_eq_true, if_false]
    unfold finish
    dsimp only
    rw [v _ (by decide), a2]
    dsimp only
    have hmn : ∀ mf, metaNames (some esc) mf = .ok (some names) := by
      intro mf
      show (esc.mapM unescapePath >>= fun r => Except.ok (some r)) = _
      rw [hun]
      rfl
    rw [hmn]
    show pyFinish ro (ts) (structName c types) shape (some c.name) (attrIsOne (aget (adel attrs p!"H5PATH") p!"Python.Empty")) (structClass o) (some names)
      (.tab sh0 names types els) = _
    rw [v _ (by decide), a6]
    exact npFinish_tab (rev_struct ho hr) (by unfold structClass; cases o.matlab <;> decide) hts h0 hc hcol hs hT
  · rintro ⟨h1, h2⟩
    have : o.matlab = true := by
      unfold structClass at h1
      cases hma : o.matlab with
      | true => rfl
      | false => rw [hma] at h1; cases h1
    rw [hd this] at h2
    cases h2

theorem all2_flip {α β : Type} {R : α → β → Prop} {l : List α} {r : List β} (h : All2 R l r) : All2 (fun b a => R a b) r l := by
  induction h with
  | nil => exact .nil
  | cons h1 _ ih => exact .cons h1 ih

theorem all2_of_get {α β : Type} {R : α → β → Prop} : ∀ {l : List α} {r : List β}, l.length = r.length →
    (∀ (k : Nat) a b, l[k]? = some a → r[k]? = some b → R a b) → All2 R l r
  | [], [], _, _ => .nil
  | [], _ :: _, h, _ => by cases h
  | _ :: _, [], h, _ => by cases h
  | a :: l, b :: r, h, hh => .cons (hh 0 a b rfl rfl) (all2_of_get (by simpa using h) fun k a' b' h1 h2 => hh (k + 1) a' b' (by simpa using h1) (by simpa using h2))

theorem all2_index {α β : Type} {R : α → β → Prop} {l : List α} {r : List β} (h : All2 R l r) : ∀ (k : Nat) a, l[k]? = some a → ∃ b, r[k]? = some b ∧ R a b := by
  induction h with
  | nil => intro k a h; simp at h
  | cons h _ ih =>
    intro k a hk
    cases k with
    | zero => cases hk; exact ⟨_, rfl, h⟩
    | succ k => obtain ⟨b, h1, h2⟩ := ih k a (by simpa using hk); exact ⟨b, by simpa using h1, h2⟩

theorem shape2d_idem (o : COpts) (s : List Nat) : shape2d o (shape2d o s) = shape2d o s := by
  unfold shape2d
  cases o.atleast2d with
  | false => rfl
  | true =>
    match s with
    | [] => rfl
    | [_] => rfl
    | _ :: _ :: _ => rfl

theorem prodN_shape2d (o : COpts) (s : List Nat) : prodN (shape2d o s) = prodN s := by
  unfold shape2d
  split
  · exact prodN_atleast2d s
  · rfl

/-- The values of a field in the order they are stored. -/
def storedCol (o : COpts) (multi : Bool) (sh : List Nat) (col : List Val) : List Val := if multi && o.reverse then transposeData sh col else col

theorem storedCol_mem {o : COpts} {multi : Bool} {sh : List Nat} {col : List Val} (h : col.length = prodN sh) (v : Val) : v ∈ col ↔ v ∈ storedCol o multi sh col := by
  unfold storedCol
  split
  · constructor
    · intro hv
      have h1 := transpose_transpose sh col h
      rw [← h1] at hv
      exact mem_transposeData _ _ (by rw [length_transposeData, prodN_reverse]) v hv
    · exact mem_transposeData _ _ h v
  · exact Iff.rfl

theorem rawOf_field {o : COpts} {shape : List Nat} {col : List Val} (hl : col.length = prodN (shape2d o shape)) :
    fieldArray (prodN (shape2d o shape) != 1) (rawOf o (prodN (shape2d o shape) != 1) (fieldValue (shape2d o shape) col)) =
      .ok (if prodN (shape2d o shape) != 1 then (if o.reverse then (shape2d o shape).reverse else shape2d o shape) else [1],
        storedCol o (prodN (shape2d o shape) != 1) (shape2d o shape) col) := by
  have hid := shape2d_idem o shape
  generalize shape2d o shape = sh at hl hid
  unfold fieldValue
  by_cases h1 : prodN sh = 1
  · have hb : (prodN sh != 1) = false := by simp [h1]
    rw [hb, if_pos h1]
    rw [h1] at hl
    obtain ⟨v, rfl⟩ := List.length_eq_one_iff.mp hl
    rfl
  · have hb : (prodN sh != 1) = true := by simp [h1]
    rw [hb, if_neg h1]
    unfold rawOf fieldArray storedCol
    simp only [if_true, hid, Bool.true_and]

/-- Structured arrays. -/
theorem struct_rt_as {x : Ctx} (ho : OptsOk x.o) (hm : x.o.pyMeta = true) {n B : Nat} {wr : Wr} (hwr : WrOk x wr) (hrt : WrRT x n wr)
    (hmul : ∀ sh el, prodN sh ≠ 0 → el.length = prodN sh → (∀ e ∈ el, Good x.o e) → ItemRT x wr B true (FieldSeen x n true) (.npObj .ndarray sh el))
    {s s' : St} {ob : Option Nat} {g : Nat} {gname name : Str} (hp : Pre x s g name) (hf : Fresh s g name) (hR : RandOk x s.rpos B) (hB : s'.rpos ≤ B) (c : Cont)
    (shape : List Nat) (names : List Str) (types : List FT) (elems : List Val) (hgs : GoodStruct x.o c shape names types elems) (hge : ∀ e ∈ elems, Good x.o e) {ts : Str}
    (hts : c = .recarray → ts = p!"numpy.recarray") (h : writeStruct x wr g gname name c shape names types elems (ts) s = (.ok ob, s')) :
    ∃ oid, ob = some oid ∧ NewObj x s s' oid ∧ (resolve s.heap 0 (refsComps x.o) ≠ some g → LinkAt s'.heap g name oid) ∧
      ∃ ob', viewOf s'.heap oid = some ob' ∧ attrToString (aget ob'.attrs p!"Python.Type") = .ok (some ts) ∧
        (∃ mc, attrToString (aget ob'.attrs p!"MATLAB_class") = .ok mc) ∧
        ∀ (ro : COpts) (V : View) (excl : Option Nat) (m : Nat), ReadableWith x.o ro (.npStruct c shape names types elems) → (∀ p, NewObj x s s' p → V p = viewOf s'.heap p) →
          (∀ q, excl = some q → ¬ NewObj x s s' q) → n ≤ m →
          readNp (looksMulti V) (readData ro V excl m) ro excl ob' = .ok (.npStruct c shape names types elems) := by
  have hsz : prodN shape ≠ 0 := Nat.pos_iff_ne_zero.mp hgs.size
  obtain ⟨esc, he, hw⟩ : ∃ esc, names.mapM escapePath = .ok esc ∧
      writeGroup x wr g gname name esc (prodN (shape2d x.o shape) != 1) (structItems x.o shape esc elems) (structAttrs x.o c types shape true esc (ts)) s = (.ok ob, s') := by
    rcases writeStruct_cases h with ⟨_, e, h1⟩ | ⟨h1, h2, h3, _⟩ | ⟨_, esc, h2, ⟨h3, _⟩ | ⟨_, _, h4⟩ | ⟨_, h5, _⟩⟩
    · cases h1
    · rw [hgs.kept h1 h3] at h2; cases h2
    · simp only [Bool.and_eq_true, beq_iff_eq] at h3
      exact absurd h3.2 hsz
    · exact ⟨esc, h2, h4⟩
    · exfalso
      exact absurd (structAsGroup_of hgs.group) (by simpa using h5)
  have hel : esc.length = names.length := mapM_length he
  have hesc := mapM_ok_forall2.mp he
  have hps := prodN_shape2d x.o shape
  have hlen : elems.length = esc.length * prodN (shape2d x.o shape) := by rw [hel, hps]; exact hgs.filled
  have hcolm := splitCols_col _ _ _ hlen
  have hscl := splitCols_length (prodN (shape2d x.o shape)) esc.length elems
  have hcols : ∀ (k : Nat) col, (splitCols (prodN (shape2d x.o shape)) esc.length elems)[k]? = some col → col = (elems.drop (k * prodN shape)).take (prodN shape) := by
    intro k col hk
    have hk' : k < esc.length := by
      rcases Nat.lt_or_ge k esc.length with h | h
      · exact h
      · rw [List.getElem?_eq_none (by rw [hscl]; exact h)] at hk; cases hk
    rw [splitCols_get _ _ _ _ hk', hps] at hk
    exact (Option.some.inj hk).symm
  have hflat := splitCols_flatten _ _ _ hlen
  have hitems : structItems x.o shape esc elems = esc.zip ((splitCols (prodN (shape2d x.o shape)) esc.length elems).map (fieldValue (shape2d x.o shape))) := rfl
  generalize splitCols (prodN (shape2d x.o shape)) esc.length elems = cols at *
  have hdot := structItems_ne_dot (o := x.o) (shape := shape) (elems := elems) he
  have hkeys : (structItems x.o shape esc elems).map (·.1) = esc := by
    rw [hitems]
    exact List.map_fst_zip (by rw [List.length_map, hscl]; exact Nat.le_refl _)
  have hnd : ((structItems x.o shape esc elems).map (·.1)).Nodup := by
    rw [hkeys]
    exact escaped_nodup (all2_flip hesc) hgs.named.2.2
  have hgd : ∀ i ∈ structItems x.o shape esc elems, ItemRT x wr B (prodN (shape2d x.o shape) != 1) (FieldSeen x n (prodN (shape2d x.o shape) != 1)) i.2 := by
    rintro ⟨k, w⟩ hi
    rw [hitems] at hi
    obtain ⟨col, hc1, hc2⟩ := List.mem_map.mp (List.of_mem_zip hi).2
    obtain ⟨hc3, hc4⟩ := hcolm col hc1
    dsimp only
    rw [← hc2]
    unfold fieldValue
    by_cases h1 : prodN (shape2d x.o shape) = 1
    · have hb : (prodN (shape2d x.o shape) != 1) = false := by simp [h1]
      rw [hb, if_pos h1]
      rw [h1] at hc3
      obtain ⟨v, rfl⟩ := List.length_eq_one_iff.mp hc3
      exact item_single hrt (hge v (hc4 v (by simp)))
    · have hb : (prodN (shape2d x.o shape) != 1) = true := by simp [h1]
      rw [hb, if_neg h1]
      exact hmul _ _ (by rw [hps]; exact hsz) hc3 fun e h => hge e (hc4 e h)
  obtain ⟨oid, links, attrs, oids, rfl, g1, g2, g3, g4, g5, g6⟩ := writeGroup_fresh hwr hp hf hR hB hdot hnd hgd hw
  have hv : viewOf s'.heap oid = some (Obj.view ⟨attrs, .group links⟩) := by unfold viewOf; rw [g3]; rfl
  obtain ⟨a1, _, _, _, _, _, a7⟩ := struct_attrs hm hsz g4
  have b1 : attrToString (aget (Obj.view ⟨attrs, .group links⟩).attrs p!"Python.Type") = .ok (some (ts)) := by
    rw [aget_view _ _ (by decide)]; exact a1
  have b7 : attrToString (aget (Obj.view ⟨attrs, .group links⟩).attrs p!"MATLAB_class") = .ok (structClass x.o) := by
    rw [aget_view _ _ (by decide)]; exact a7
  refine ⟨oid, rfl, g1, g2, _, hv, b1, ⟨_, b7⟩, ?_⟩
  intro ro V excl m' hro hV hE hnm
  have hsd : x.o.matlab = true → ro.structsAsDicts = false := by
    intro h1
    cases h2 : ro.structsAsDicts with
    | false => rfl
    | true => exact absurd (HasStruct.here c shape names types elems) (hro.structs h1 h2)
  have hrp : ∀ col ∈ cols, ReadableWith x.o ro (fieldValue (shape2d x.o shape) col) := by
    intro col _
    refine ⟨hro.order, fun h1 h2 => ?_⟩
    rw [hsd h1] at h2; cases h2
  rw [show (Except.ok (Val.npStruct c shape names types elems) : Res Val) = .ok (.npStruct c shape names types cols.flatten) by rw [hflat]]
  refine readNp_struct ho hm hro.order hsd hts (sh1 := if prodN (shape2d x.o shape) != 1 then shape2d x.o shape else [1])
    (sh0 := if prodN (shape2d x.o shape) != 1 then (if x.o.reverse then (shape2d x.o shape).reverse else shape2d x.o shape) else [1])
    (els := cols.map (storedCol x.o (prodN (shape2d x.o shape) != 1) (shape2d x.o shape))) (multi := prodN (shape2d x.o shape) != 1)
    (ws := cols.map fun col => rawOf x.o (prodN (shape2d x.o shape) != 1) (fieldValue (shape2d x.o shape) col))
    hgs.size ?_ ?_ ?_ ?_ g4 hgs.named.1 hgs.named.2.1 hgs.named.2.2 hel ?_ ?_ ?_ ?_ ?_
  · rcases hgs.cont with h | ⟨h, _⟩ | h | h
    · exact Or.inl h
    · exact Or.inr (Or.inl h)
    · exact Or.inr (Or.inr (Or.inl h))
    · exact Or.inr (Or.inr (Or.inr h))
  · intro l hl
    rw [(hcolm l hl).1, hps]
  · split
    · exact hps
    · rename_i h1
      have : prodN (shape2d x.o shape) = 1 := by simpa using h1
      rw [← hps, this]
      rfl
  · by_cases h1 : prodN (shape2d x.o shape) = 1
    · have hb : (prodN (shape2d x.o shape) != 1) = false := by simp [h1]
      rw [hb]
      have hst : cols.map (storedCol x.o false (shape2d x.o shape)) = cols := by
        have := List.map_congr_left (l := cols) (f := storedCol x.o false (shape2d x.o shape)) (g := id) fun l _ => rfl
        rw [this, List.map_id]
      rw [hst]
      have hTc : cols.map (transposeData [1]) = cols := by
        have := List.map_congr_left (l := cols) (f := transposeData [1]) (g := id) fun l hl => by
          have h2 := (hcolm l hl).1
          rw [h1] at h2
          obtain ⟨v, rfl⟩ := List.length_eq_one_iff.mp h2
          rfl
        rw [this, List.map_id]
      cases x.o.reverse with
      | false => rfl
      | true =>
        show NData.tab _ _ _ (cols.map (transposeData [1])) = _
        rw [hTc]
        rfl
    · have hb : (prodN (shape2d x.o shape) != 1) = true := by simp [h1]
      rw [hb]
      cases hrev : x.o.reverse with
      | false =>
        have hst : cols.map (storedCol x.o true (shape2d x.o shape)) = cols := by
          have := List.map_congr_left (l := cols) (f := storedCol x.o true (shape2d x.o shape)) (g := id) fun l _ => by unfold storedCol; rw [hrev]; rfl
          rw [this, List.map_id]
        rw [hst]
        rfl
      | true =>
        show NData.tab ((shape2d x.o shape).reverse).reverse _ _ ((cols.map (storedCol x.o true (shape2d x.o shape))).map (transposeData (shape2d x.o shape).reverse)) = _
        rw [List.reverse_reverse, List.map_map]
        have := List.map_congr_left (l := cols) (f := transposeData (shape2d x.o shape).reverse ∘ storedCol x.o true (shape2d x.o shape)) (g := id) fun l hl => by
          show transposeData (shape2d x.o shape).reverse (storedCol x.o true (shape2d x.o shape) l) = l
          unfold storedCol
          rw [hrev]
          exact transpose_transpose _ _ (hcolm l hl).1
        rw [this, List.map_id]
        rfl
  · intro k q hq
    rw [← hkeys]
    exact g5 k q hq
  · intro k nm hk
    obtain ⟨e, e1, e2⟩ := all2_index hesc k nm hk
    have hke : k < esc.length := by
      rcases Nat.lt_or_ge k esc.length with h | h
      · exact h
      · rw [List.getElem?_eq_none h] at e1; cases e1
    have hkc : k < cols.length := by rw [hscl]; exact hke
    have hit : (structItems x.o shape esc elems)[k]? = some (e, fieldValue (shape2d x.o shape) cols[k]) := by
      rw [hitems, List.getElem?_zip_eq_some]
      exact ⟨e1, by rw [List.getElem?_map, List.getElem?_eq_getElem hkc]; rfl⟩
    obtain ⟨q, q1, q2, q3, q4⟩ := all2_index g6 k _ hit
    obtain ⟨e', u1, u2⟩ := C01_unescape_escape nm
    rw [e2] at u1
    cases u1
    obtain ⟨f1, f2⟩ := q4 ro V excl m' hV hE
    refine ⟨e, q, _, e1, u2, q3, fun hh => hE q hh q2, f1, f2 (hrp _ (List.getElem_mem hkc)) (by omega), ?_⟩
    rw [List.getElem?_map, List.getElem?_eq_getElem hkc]
    rfl
  · refine all2_of_get (by simp) ?_
    intro k w e h1 h2
    rw [List.getElem?_map] at h1 h2
    cases hc : cols[k]? with
    | none => rw [hc] at h1; cases h1
    | some col =>
      rw [hc] at h1 h2
      cases h1
      cases h2
      exact rawOf_field (hcolm col (List.mem_of_getElem? hc)).1
  · rw [List.length_map, hscl, hel]
  · refine all2_of_get (by rw [List.length_map, hscl, hel, hgs.typed]) ?_
    intro k t e h1 h2
    rw [List.getElem?_map] at h2
    cases hc : cols[k]? with
    | none => rw [hc] at h2; cases h2
    | some col =>
      rw [hc] at h2
      cases h2
      obtain ⟨c1, c2⟩ := hcolm col (List.mem_of_getElem? hc)
      have hok := hgs.fields k t h1
      rw [← hcols k col hc] at hok
      have hok' := fieldOk_mem (storedCol_mem (o := x.o) (multi := prodN (shape2d x.o shape) != 1) c1) hok
      refine ⟨fieldType_ok ?_ hok', fun v hv => packEl_ok hok' hv (hge v (c2 v ((storedCol_mem c1 v).mpr hv)))⟩
      intro hn
      have : col ≠ [] := by
        rintro rfl
        rw [hps] at c1
        exact hsz c1.symm
      cases col with
      | nil => exact this rfl
      | cons v r =>
        have := (storedCol_mem (o := x.o) (multi := prodN (shape2d x.o shape) != 1) c1 v).mp (by simp)
        rw [hn] at this
        cases this

/-- Structured arrays. -/
theorem struct_rt {x : Ctx} (ho : OptsOk x.o) (hm : x.o.pyMeta = true) {n B : Nat} {wr : Wr} (hwr : WrOk x wr) (hrt : WrRT x n wr)
    (hmul : ∀ sh el, prodN sh ≠ 0 → el.length = prodN sh → (∀ e ∈ el, Good x.o e) → ItemRT x wr B true (FieldSeen x n true) (.npObj .ndarray sh el))
    {s s' : St} {ob : Option Nat} {g : Nat} {gname name : Str} (hp : Pre x s g name) (hf : Fresh s g name) (hR : RandOk x s.rpos B) (hB : s'.rpos ≤ B) (c : Cont)
    (shape : List Nat) (names : List Str) (types : List FT) (elems : List Val) (hgs : GoodStruct x.o c shape names types elems) (hge : ∀ e ∈ elems, Good x.o e)
    (h : writeStruct x wr g gname name c shape names types elems (structTypeString c) s = (.ok ob, s')) :
    ∃ oid, ob = some oid ∧ RTOut x (n + 1) s s' g name (.npStruct c shape names types elems) oid := by
  obtain ⟨oid, rfl, h1, h2, ob', h3, h4, h5, h6⟩ := struct_rt_as ho hm hwr hrt hmul hp hf hR hB c shape names types elems hgs hge (by rintro rfl; rfl) h
  refine ⟨oid, rfl, h1, h2, ts_typed h3 h4, ?_⟩
  intro ro V excl m hro hV hE hnm
  obtain ⟨m', rfl⟩ : ∃ m', m = m' + 1 := ⟨m - 1, by omega⟩
  rw [readData_ts ((hV oid h1).trans h3) h4 h5]
  rw [show readTyped (looksMulti V) (readData ro V excl m') ro excl ob' (structTypeString c) = readNp (looksMulti V) (readData ro V excl m') ro excl ob' by cases c <;> rfl]
  exact h6 ro V excl m' hro hV hE (by omega)

end HS
