import Verif.Lemmas.RtStruct
/-
Round trip of structured arrays stored as one compound Dataset.
-/
namespace HS
open Spec

/-! Storing the values one after another and taking them apart again. -/

theorem flatMap_chunks {t : FT} {l : List Val} (h : ∀ v ∈ l, (flatVal t v).length = FT.count t ∧ unflatVal t (flatVal t v) = v) (rest : List El) :
    (chunksN (FT.count t) l.length (l.flatMap (flatVal t) ++ rest)).map (unflatVal t) = l ∧
    (l.flatMap (flatVal t) ++ rest).drop (l.length * FT.count t) = rest ∧ (l.flatMap (flatVal t)).length = l.length * FT.count t := by
  induction l with
  | nil => exact ⟨rfl, by simp, by simp⟩
  | cons v r ih =>
    obtain ⟨h1, h2⟩ := h v (by simp)
    obtain ⟨i1, i2, i3⟩ := ih fun v hv => h v (by simp [hv])
    rw [List.flatMap_cons, List.length_cons, chunksN, List.append_assoc, List.take_left' h1, List.drop_left' h1, List.map_cons, h2, i1]
    refine ⟨rfl, ?_, ?_⟩
    · rw [Nat.add_mul, Nat.one_mul, Nat.add_comm, ← List.drop_drop, List.drop_left' h1, i2]
    · rw [List.length_append, h1, i3, Nat.add_mul, Nat.one_mul, Nat.add_comm]

theorem unflat_flat {types : List FT} {n : Nat} {elems : List Val} (hl : elems.length = types.length * n)
    (h : ∀ (k : Nat) t, types[k]? = some t → ∀ v ∈ (elems.drop (k * n)).take n, (flatVal t v).length = FT.count t ∧ unflatVal t (flatVal t v) = v) :
    unflatCols n types (flatVals n types elems) = splitCols n types.length elems ∧ (flatVals n types elems).length = n * FT.countL types := by
  induction types generalizing elems with
  | nil => exact ⟨rfl, by simp [flatVals, FT.countL]⟩
  | cons t r ih =>
    rw [List.length_cons, Nat.add_mul, Nat.one_mul] at hl
    have hlen : (elems.take n).length = n := by rw [List.length_take]; omega
    have h0 : ∀ v ∈ elems.take n, (flatVal t v).length = FT.count t ∧ unflatVal t (flatVal t v) = v := by
      intro v hv
      exact h 0 t rfl v (by simpa using hv)
    obtain ⟨c1, c2, c3⟩ := flatMap_chunks h0 (flatVals n r (elems.drop n))
    obtain ⟨i1, i2⟩ := ih (elems := elems.drop n) (by rw [List.length_drop]; omega) (by
      intro k u hk v hv
      refine h (k + 1) u hk v ?_
      rw [List.drop_drop] at hv
      rwa [Nat.add_mul, Nat.one_mul, Nat.add_comm])
    rw [hlen] at c1 c2 c3
    rw [flatVals, unflatCols, c1, c2, i1, List.length_cons, splitCols]
    refine ⟨rfl, ?_⟩
    rw [List.length_append, c3, i2, FT.countL, Nat.mul_add]

theorem padEl_fits {dt : DT} {e : El} (h : FitsDT dt e) : padEl dt e = e := by
  unfold padEl
  split
  · rename_i n u
    have hu : u.length = n := h
    rw [hu, Nat.sub_self]
    simp
  · rfl

/-- The elements of the value of a field, and the value made of them. -/
theorem fieldVal_flat {t : FT} {v : Val} (h : FieldVal t v) : (flatVal t v).length = FT.count t ∧ unflatVal t (flatVal t v) = v := by
  induction h with
  | number dt e h1 h2 h =>
    rw [flatVal, FT.count, unflatVal]
    refine ⟨rfl, ?_⟩
    show (match flat0 (.arr false ⟨dt, [], [padEl dt e]⟩) with | .ok v => v | .error _ => .other) = _
    rw [padEl_fits h]
    cases dt with
    | bytes n => exact absurd rfl (h1 n)
    | str n => exact absurd rfl (h2 n)
    | _ => rfl
  | bytes n b h1 h2 =>
    rw [flatVal, FT.count, unflatVal]
    refine ⟨rfl, ?_⟩
    rw [npBytes_self]
    show Val.np .scalar (npBytes (stripNul (b ++ List.replicate (n - b.length) 0))) = _
    rw [stripNul_append_zeros _ _ h2, npBytes_self]
  | array dt sp data _ hs h0 hl h =>
    rw [flatVal, FT.count, unflatVal, if_neg hs]
    have : data.map (padEl dt) = data := by
      have := List.map_congr_left (l := data) (f := padEl dt) (g := id) fun e he => padEl_fits (h e he)
      rw [this, List.map_id]
    rw [this]
    exact ⟨hl, rfl⟩
  | struct c names types sp elems hc hn h0 hp ht hl _ ih =>
    obtain ⟨u1, u2⟩ := unflat_flat (types := types) (n := prodN sp) (by rw [ht]; exact hl) ih
    rw [flatVal, FT.count, unflatVal, u1, u2, splitCols_flatten _ _ _ (by rw [ht]; exact hl), hc]
    exact ⟨rfl, rfl⟩

theorem splitCols_chunks (size n : Nat) (l : List Val) : splitCols size n l = chunksN size n l := by
  induction n generalizing l with
  | zero => rfl
  | succ n ih => rw [splitCols, chunksN, ih]

/-- The columns of a compound Dataset, as they are when it is read. -/
theorem table_cols {o : COpts} {c : Cont} {shape : List Nat} {names : List Str} {types : List FT} {elems : List Val} (h : GoodTable o c shape names types elems) :
    unflatCols (prodN (tableArr o shape names types elems).shape) types (tableArr o shape names types elems).data =
      (splitCols (prodN (shape2d o shape)) types.length elems).map (fun l => if o.reverse then transposeData (shape2d o shape) l else l) := by
  have hps := prodN_shape2d o shape
  have hlen : elems.length = types.length * prodN (shape2d o shape) := by rw [h.typed, hps]; exact h.filled
  have hcolm := splitCols_col _ _ _ hlen
  have hf : ∀ (k : Nat) t, types[k]? = some t → ∀ v ∈ (elems.drop (k * prodN (shape2d o shape))).take (prodN (shape2d o shape)),
      (flatVal t v).length = FT.count t ∧ unflatVal t (flatVal t v) = v := by
    intro k t hk v hv
    rw [hps] at hv
    exact fieldVal_flat (h.fields k t hk v hv)
  unfold tableArr
  dsimp only
  cases o.reverse with
  | false =>
    simp only [Bool.false_eq_true, if_false]
    rw [(unflat_flat hlen hf).1]
    exact (List.map_id _).symm
  | true =>
    simp only [if_true]
    rw [prodN_reverse]
    have hsl := splitCols_length (prodN (shape2d o shape)) types.length elems
    have hcl : ∀ l ∈ (splitCols (prodN (shape2d o shape)) types.length elems).map (transposeData (shape2d o shape)), l.length = prodN (shape2d o shape) := by
      intro l hl
      obtain ⟨l', _, rfl⟩ := List.mem_map.mp hl
      exact length_transposeData _ _
    have hch := chunksN_flatten (prodN (shape2d o shape)) _ hcl
    rw [List.length_map, hsl, ← splitCols_chunks] at hch
    have hfl : (((splitCols (prodN (shape2d o shape)) types.length elems).map (transposeData (shape2d o shape))).flatten).length = types.length * prodN (shape2d o shape) := by
      have : ∀ L : List (List Val), (∀ l ∈ L, l.length = prodN (shape2d o shape)) → L.flatten.length = L.length * prodN (shape2d o shape) := by
        intro L hL
        induction L with
        | nil => simp
        | cons l r ih => rw [List.flatten_cons, List.length_append, hL l (by simp), ih fun l hl => hL l (by simp [hl]), List.length_cons, Nat.add_mul, Nat.one_mul, Nat.add_comm]
      rw [this _ hcl, List.length_map, hsl]
    rw [(unflat_flat hfl ?_).1, hch]
    intro k t hk v hv
    have hkl : k < types.length := by
      rcases Nat.lt_or_ge k types.length with h | h
      · exact h
      · rw [List.getElem?_eq_none h] at hk; cases hk
    have h1 := splitCols_get (prodN (shape2d o shape)) types.length ((splitCols (prodN (shape2d o shape)) types.length elems).map (transposeData (shape2d o shape))).flatten k hkl
    rw [hch, List.getElem?_map, splitCols_get _ _ _ _ hkl] at h1
    rw [← Option.some.inj h1] at hv
    refine hf k t hk v (mem_transposeData _ _ ?_ v hv)
    have := (hcolm _ (List.mem_of_getElem? (splitCols_get (prodN (shape2d o shape)) types.length elems k hkl))).1
    exact this

theorem tableAttrs_get (o : COpts) (hm : o.pyMeta = true) (c : Cont) (types : List FT) (shape : List Nat) (h0 : prodN shape ≠ 0) (esc : List Str) (ts : Str) :
    (akeys (tableAttrs o c types shape esc ts)).Nodup ∧
    aget (tableAttrs o c types shape esc ts) p!"Python.Type" = some (.string ts) ∧
    aget (tableAttrs o c types shape esc ts) p!"Python.Shape" = some (.value (.u64s shape)) ∧
    aget (tableAttrs o c types shape esc ts) p!"Python.numpy.UnderlyingType" = some (.string (structName c types)) ∧
    aget (tableAttrs o c types shape esc ts) p!"Python.numpy.Container" = some (.string c.name) ∧
    aget (tableAttrs o c types shape esc ts) p!"Python.Fields" = none ∧
    aget (tableAttrs o c types shape esc ts) p!"Python.Empty" = none ∧
    aget (tableAttrs o c types shape esc ts) p!"MATLAB_class" = none ∧
    aget (tableAttrs o c types shape esc ts) p!"MATLAB_fields" = none := by
  unfold tableAttrs
  rw [if_neg h0, hm]
  exact ⟨of_decide_eq_true rfl, rfl, rfl, rfl, rfl, rfl, rfl, rfl, rfl⟩

/-- Structured arrays stored as one Dataset. -/
theorem table_rt_as {x : Ctx} (hm : x.o.pyMeta = true) {wr : Wr} (hwr : WrOk x wr) {s s' : St} {ob : Option Nat} {g : Nat} {gname name : Str} (hp : Pre x s g name)
    (hf : Fresh s g name) (c : Cont) (shape : List Nat) (names : List Str) (types : List FT) (elems : List Val) (hgt : GoodTable x.o c shape names types elems) {ts : Str}
    (hts : c = .recarray → ts = p!"numpy.recarray") (h : writeStruct x wr g gname name c shape names types elems (ts) s = (.ok ob, s')) :
    ∃ oid, ob = some oid ∧ NewObj x s s' oid ∧ LinkAt s'.heap g name oid ∧
      ∃ ob', viewOf s'.heap oid = some ob' ∧ attrToString (aget ob'.attrs p!"Python.Type") = .ok (some ts) ∧
        (∃ mc, attrToString (aget ob'.attrs p!"MATLAB_class") = .ok mc) ∧
        ∀ (ro : COpts) mu rd excl, ReadableWith x.o ro (.npStruct c shape names types elems) → readNp mu rd ro excl ob' = .ok (.npStruct c shape names types elems) := by
  have hsz : prodN shape ≠ 0 := Nat.pos_iff_ne_zero.mp hgt.size
  have po := writeStruct_post hwr hp h
  obtain ⟨y1, y2, y3⟩ := goodTable_type hgt
  obtain ⟨esc, hac, hw⟩ : ∃ esc, (x.o.matlab = true → x.o.action = .ignore) ∧
      (putDataset g name (tableArr x.o shape names types elems) (filtersFor x.o (tableArr x.o shape names types elems)) >>= fun p =>
        setAttrsM p (tableAttrs x.o c types shape esc (ts)) true >>= fun _ => (pure (some p) : M (Option Nat))) s = (.ok ob, s') := by
    have hne : x.o.matlab = true → x.o.action = .ignore := by
      intro h1
      cases hac : x.o.action with
      | ignore => rfl
      | discard => exact absurd hac (hgt.kept h1)
      | error =>
        unfold writeStruct at h
        rw [if_pos ⟨h1, hgt.table, hac⟩] at h
        cases h
    rcases writeStruct_cases h with ⟨_, e, h1⟩ | ⟨h1, h2, h3, _⟩ | ⟨_, esc, h2, ⟨h3, _⟩ | ⟨_, h5, _⟩ | ⟨_, _, _, h4⟩⟩
    · cases h1
    · exact absurd h3 (hgt.kept h1)
    · simp only [Bool.and_eq_true, beq_iff_eq] at h3
      exact absurd h3.2 hsz
    · rw [y1] at h5; cases h5
    · exact ⟨esc, hne, h4⟩
  obtain ⟨h1, h2, h3, _, attrs, h4, h5⟩ := putAttrs_fresh hp hf _ _ _ hw
  subst h1
  have t := po.ok _ rfl
  obtain ⟨hnd, g1, g2, g3, g4, g5, g6, g7, g8⟩ := tableAttrs_get x.o hm c types shape hsz esc (ts)
  have v : ∀ a f k, k ≠ p!"H5PATH" → aget (Obj.view ⟨attrs, .dset a f⟩).attrs k = aget attrs k := fun a f k hk => aget_view _ k hk
  have hv : viewOf s'.heap s.heap.length = some (Obj.view ⟨attrs, .dset (h5Store (tableArr x.o shape names types elems)) (filtersFor x.o (tableArr x.o shape names types elems)).stored⟩) := by
    unfold viewOf; rw [h5]; rfl
  have b1 := fresh_string hnd h4 g1
  have b7 : attrToString (aget attrs p!"MATLAB_class") = .ok none := by rw [fresh_none hnd h4 g7]; rfl
  have hty : attrToString (aget (Obj.view ⟨attrs, .dset (h5Store (tableArr x.o shape names types elems)) (filtersFor x.o (tableArr x.o shape names types elems)).stored⟩).attrs
      p!"Python.Type") = .ok (some (ts)) := by rw [v _ _ _ (by decide)]; exact b1
  refine ⟨_, rfl, ⟨Nat.le_refl _, t.lt, t.off⟩, h3, _, hv, hty, ⟨none, by rw [v _ _ _ (by decide)]; exact b7⟩, ?_⟩
  intro ro mu rd excl hro
  rw [readNp_dset rfl hty (by rw [v _ _ _ (by decide)]; exact fresh_string hnd h4 g3) (by rw [v _ _ _ (by decide)]; exact fresh_string hnd h4 g4)
    (by rw [v _ _ _ (by decide)]; exact fresh_none hnd h4 g5) (by rw [v _ _ _ (by decide)]; exact b7) (by rw [v _ _ _ (by decide)]; exact fresh_none hnd h4 g8)
    (by rw [v _ _ _ (by decide)]; exact fresh_value hnd h4 g2) (e := false) (by rw [v _ _ _ (by decide), fresh_none hnd h4 g6]; rfl)]
  have hps := prodN_shape2d x.o shape
  have hlen : elems.length = types.length * prodN (shape2d x.o shape) := by rw [hgt.typed, hps]; exact hgt.filled
  have hcolm := splitCols_col _ _ _ hlen
  have hd : ∀ rd, readDset rd (h5Store (tableArr x.o shape names types elems)) =
      .ok (.tab (tableArr x.o shape names types elems).shape names types ((splitCols (prodN (shape2d x.o shape)) types.length elems).map
        (fun l => if x.o.reverse then transposeData (shape2d x.o shape) l else l))) := by
    intro rd
    rw [← table_cols hgt]
    show readTable (tableArr x.o shape names types elems).shape names types (tableArr x.o shape names types elems).data = _
    unfold readTable
    rw [y2, y3]
    rfl
  rw [hd]
  show npFinish ro (ts) (structName c types) shape (some c.name) false none _ = _
  rw [← splitCols_flatten _ _ _ hlen]
  have horder : ro.reverse = x.o.reverse := by
    rcases hro.order with h | ⟨h6, h7⟩
    · exact h
    · exact absurd (hac h6) h7
  rw [splitCols_flatten _ _ _ hlen]
  rw [show (Except.ok (Val.npStruct c shape names types elems) : Res Val) = .ok (.npStruct c shape names types (splitCols (prodN (shape2d x.o shape)) types.length elems).flatten) by
    rw [splitCols_flatten _ _ _ hlen]]
  refine npFinish_tab (o := x.o) (sh1 := shape2d x.o shape) (by rw [horder]; rfl) (by decide) hts hgt.size ?_ (fun l hl => by rw [(hcolm l hl).1, hps]) hps ?_
  · rcases hgt.cont with h | ⟨h, _⟩ | h | h
    · exact Or.inl h
    · exact Or.inr (Or.inl h)
    · exact Or.inr (Or.inr (Or.inl h))
    · exact Or.inr (Or.inr (Or.inr h))
  · unfold tableArr
    dsimp only
    cases x.o.reverse with
    | false =>
      simp only [Bool.false_eq_true, if_false]
      rw [show (fun l : List Val => l) = id from rfl, List.map_id]
    | true =>
      simp only [if_true]
      show NData.tab (shape2d x.o shape).reverse.reverse names types (((splitCols (prodN (shape2d x.o shape)) types.length elems).map _).map (transposeData (shape2d x.o shape).reverse)) = _
      rw [List.reverse_reverse, List.map_map]
      have := List.map_congr_left (l := splitCols (prodN (shape2d x.o shape)) types.length elems) (f := transposeData (shape2d x.o shape).reverse ∘ fun l => transposeData (shape2d x.o shape) l) (g := id)
        fun l hl => transpose_transpose _ _ (hcolm l hl).1
      rw [this, List.map_id]

/-- Structured arrays stored as one Dataset. -/
theorem table_rt {x : Ctx} (hm : x.o.pyMeta = true) {n : Nat} {wr : Wr} (hwr : WrOk x wr) {s s' : St} {ob : Option Nat} {g : Nat} {gname name : Str} (hp : Pre x s g name)
    (hf : Fresh s g name) (c : Cont) (shape : List Nat) (names : List Str) (types : List FT) (elems : List Val) (hgt : GoodTable x.o c shape names types elems)
    (h : writeStruct x wr g gname name c shape names types elems (structTypeString c) s = (.ok ob, s')) :
    ∃ oid, ob = some oid ∧ RTOut x (n + 1) s s' g name (.npStruct c shape names types elems) oid := by
  obtain ⟨oid, rfl, h1, h2, ob', h3, h4, h5, h6⟩ := table_rt_as hm hwr hp hf c shape names types elems hgt (by rintro rfl; rfl) h
  refine ⟨oid, rfl, h1, fun _ => h2, ts_typed h3 h4, ?_⟩
  intro ro V excl m hro hV hE hnm
  obtain ⟨m', rfl⟩ : ∃ m', m = m' + 1 := ⟨m - 1, by omega⟩
  rw [readData_ts ((hV oid h1).trans h3) h4 h5]
  rw [show readTyped (looksMulti V) (readData ro V excl m') ro excl ob' (structTypeString c) = readNp (looksMulti V) (readData ro V excl m') ro excl ob' by cases c <;> rfl]
  exact h6 ro _ _ excl hro

end HS
