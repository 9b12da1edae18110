import Verif.Lemmas.RtTable
import Verif.Lemmas.LayoutGroup
import Verif.Lemmas.Text
/-
The layout of a value in the file: all writers together.
-/
namespace HS
open Spec

theorem hasFields_items {o : COpts} {v : Val} {texts : List Str} {vals keys : List Val} (hl : vals.length = keys.length) (hk : All2 KeyText keys texts) (hnd : texts.Nodup) :
    ((dictItems o keys vals).map (·.1)).Nodup ∧ (dictItems o keys vals).map (·.2) = vals ∧
    (HasFields v texts vals → FieldsOf o v ((dictItems o keys vals).map (·.1)) ((dictItems o keys vals).map fun i => .value i.2)) := by
  obtain ⟨l, h1, h2, _, h4, _⟩ := keyInfos_text hk
  have hlen : (l.map (·.1)).length = vals.length := by rw [List.length_map, h2, hl]
  have he : dictItems o keys vals = (l.map (·.1)).zip vals := by unfold dictItems; rw [h1]
  have hs := map_snd_zip (l.map (·.1)) vals hlen
  rw [he, map_fst_zip _ _ hlen]
  refine ⟨escaped_nodup h4 hnd, hs, fun hf => ?_⟩
  have : (((l.map (·.1)).zip vals).map fun i => Part.value i.2) = vals.map Part.value := by
    conv => rhs; rw [← hs, List.map_map]
    rfl
  rw [this]
  exact .fields hf (all2_flip h4)

theorem regular_documented {o : COpts} {v : Val} (h : Regular o v) (hd : ¬ Discarded o v) : Documented v := by
  cases h with
  | plain h1 h2 => exact .plain h1 h2
  | discarded _ _ h => exact absurd h hd
  | npObj c sh e h1 _ _ => exact .npObj c sh e h1
  | seq k e _ => exact .seq k e
  | fields h1 _ _ => exact .fields h1
  | dict k keys vals h1 _ _ _ => exact .dict k keys vals h1
  | npStruct c sh n ty e _ _ _ _ => exact .npStruct c sh n ty e

theorem regular_npObj {o : COpts} {c : Cont} {sh : List Nat} {e : List Val} (h : Regular o (.npObj c sh e)) : e.length = prodN sh ∧ ∀ w ∈ e, Regular o w := by
  cases h with
  | plain h => cases h
  | npObj _ _ _ _ h2 h3 => exact ⟨h2, h3⟩
  | fields h => cases h

theorem regular_seq {o : COpts} {k : SeqKind} {e : List Val} (h : Regular o (.seq k e)) : ∀ w ∈ e, Regular o w := by
  cases h with
  | plain h => cases h
  | seq _ _ h => exact h
  | fields h => cases h

theorem regular_npStruct {o : COpts} {c : Cont} {sh : List Nat} {n : List Str} {ty : List FT} {e : List Val} (h : Regular o (.npStruct c sh n ty e)) :
    n.Nodup ∧ e.length = n.length * prodN sh ∧ AllNamed (.struct n ty []) ∧ ∀ w ∈ e, Regular o w := by
  cases h with
  | plain h => cases h
  | npStruct _ _ _ _ _ h1 h2 h3 h4 => exact ⟨h1, h2, h3, h4⟩
  | fields h => cases h

/-- The items of a dict. -/
theorem regular_dict {o : COpts} {k : DictKind} {keys vals : List Val} (h : Regular o (.dict k keys vals)) :
    ((dictItems o keys vals).map (·.1)).Nodup ∧ (∀ i ∈ dictItems o keys vals, Regular o i.2) ∧
    FieldsOf o (.dict k keys vals) ((dictItems o keys vals).map (·.1)) ((dictItems o keys vals).map fun i => .value i.2) := by
  cases h with
  | plain h => cases h
  | @fields _ texts _ hf hnd hrg =>
    have hf0 := hf
    cases hf with
    | dict _ _ _ _ hk hl =>
      obtain ⟨h1, h2, h3⟩ := hasFields_items (o := o) (v := .dict k keys vals) hl hk hnd
      refine ⟨h1, fun i hi => hrg i.2 ?_, h3 hf0⟩
      rw [← h2]
      exact List.mem_map_of_mem hi
  | dict _ _ _ h1 h2 h3 h4 =>
    have he : dictItems o keys vals = [(o.keysName, .seq .tuple keys), (o.valuesName, .seq .tuple vals)] := by unfold dictItems; rw [keyInfos_notText h1]
    rw [he]
    refine ⟨by simp [h2], ?_, .keysValues k keys vals h1⟩
    intro i hi
    simp only [List.mem_cons, List.not_mem_nil, or_false] at hi
    rcases hi with rfl | rfl
    · exact .seq _ _ h3
    · exact .seq _ _ h4

/-- The items of a record. -/
theorem regular_record {o : COpts} {k : RecKind} {vals : List Val} (h : Regular o (.record k vals)) :
    ((dictItems o (k.fieldNames.map Val.str) vals).map (·.1)).Nodup ∧ (∀ i ∈ dictItems o (k.fieldNames.map Val.str) vals, Regular o i.2) ∧
    FieldsOf o (.record k vals) ((dictItems o (k.fieldNames.map Val.str) vals).map (·.1)) ((dictItems o (k.fieldNames.map Val.str) vals).map fun i => .value i.2) := by
  cases h with
  | plain h => cases h
  | @fields _ texts _ hf hnd hrg =>
    have hf0 := hf
    cases hf with
    | record _ _ hl =>
      rw [recordFields_eq] at hl hnd hf0
      obtain ⟨h1, h2, h3⟩ := hasFields_items (o := o) (v := .record k vals) (vals := vals) (by rw [List.length_map]; exact hl) (allKeyText_str _) hnd
      refine ⟨h1, fun i hi => hrg i.2 ?_, h3 hf0⟩
      rw [← h2]
      exact List.mem_map_of_mem hi

theorem splitCols_one (n : Nat) (l : List Val) (hl : l.length = n) : (splitCols 1 n l).map (fun c => c.headD .none) = l := by
  induction n generalizing l with
  | zero => rw [List.length_eq_zero_iff.mp hl]; rfl
  | succ n ih =>
    cases l with
    | nil => cases hl
    | cons a l =>
      rw [splitCols, List.map_cons]
      simp only [List.take_succ_cons, List.take_zero, List.headD_cons, List.drop_succ_cons, List.drop_zero]
      rw [ih l (by simpa using hl)]

/-- The items of a structured array. -/
theorem regular_struct {o : COpts} {c : Cont} {sh : List Nat} {n esc : List Str} {ty : List FT} {e : List Val} (h : Regular o (.npStruct c sh n ty e)) (he : n.mapM escapePath = .ok esc) :
    ((structItems o sh esc e).map (·.1)).Nodup ∧ (∀ i ∈ structItems o sh esc e, Regular o i.2) ∧
    ((prodN (shape2d o sh) != 1) = true → ∀ i ∈ structItems o sh esc e, ∃ sh e, i.2 = .npObj .ndarray sh e) ∧
    FieldsOf o (.npStruct c sh n ty e) ((structItems o sh esc e).map (·.1)) ((structItems o sh esc e).map fun i => partFor (prodN (shape2d o sh) != 1) i.2) := by
  obtain ⟨h1, h2, _, h4⟩ := regular_npStruct h
  have ha := mapM_all2 he
  have hlen : esc.length = n.length := (all2_length ha).symm
  have hcl : esc.length = ((splitCols (prodN (shape2d o sh)) esc.length e).map (fieldValue (shape2d o sh))).length := by rw [List.length_map, splitCols_length]
  have hl : e.length = esc.length * prodN (shape2d o sh) := by rw [hlen, prodN_shape2d]; exact h2
  have hcols := splitCols_col _ _ _ hl
  have hfl := splitCols_flatten _ _ _ hl
  have hs := map_snd_zip _ _ hcl
  unfold structItems
  rw [map_fst_zip _ _ hcl]
  refine ⟨escaped_nodup (all2_flip ha) h1, ?_, ?_, ?_⟩
  · intro i hi
    have hb := (List.of_mem_zip (a := i.1) (b := i.2) hi).2
    obtain ⟨col, hc1, hc2⟩ := List.mem_map.mp hb
    rw [← hc2]
    obtain ⟨c1, c2⟩ := hcols col hc1
    unfold fieldValue
    by_cases hp : prodN (shape2d o sh) = 1
    · rw [if_pos hp]
      rw [hp] at c1
      cases col with
      | nil => cases c1
      | cons a r => exact h4 a (c2 a (by simp))
    · rw [if_neg hp]
      exact .npObj _ _ _ (by simp) c1 (fun w hw => h4 w (c2 w hw))
  · intro hp i hi
    have hb := (List.of_mem_zip (a := i.1) (b := i.2) hi).2
    obtain ⟨col, hc1, hc2⟩ := List.mem_map.mp hb
    rw [← hc2]
    unfold fieldValue
    rw [if_neg (by simpa using hp)]
    exact ⟨_, _, rfl⟩
  · have hm : ((esc.zip ((splitCols (prodN (shape2d o sh)) esc.length e).map (fieldValue (shape2d o sh)))).map fun i => partFor (prodN (shape2d o sh) != 1) i.2) =
        ((splitCols (prodN (shape2d o sh)) esc.length e).map (fieldValue (shape2d o sh))).map (partFor (prodN (shape2d o sh) != 1)) := by
      conv => rhs; rw [← hs, List.map_map]
      rfl
    rw [hm]
    by_cases hp : prodN (shape2d o sh) = 1
    · have hpp : (prodN (shape2d o sh) != 1) = false := by simp [hp]
      rw [hpp]
      have : ((splitCols (prodN (shape2d o sh)) esc.length e).map (fieldValue (shape2d o sh))).map (partFor false) = e.map Part.value := by
        have h1 : (splitCols (prodN (shape2d o sh)) esc.length e).map (fieldValue (shape2d o sh)) = e := by
          have : fieldValue (shape2d o sh) = fun c => c.headD .none := by
            funext c
            unfold fieldValue
            rw [if_pos hp]
          rw [this, hp]
          exact splitCols_one _ _ (by rw [hl, hp, Nat.mul_one])
        rw [h1]
        rfl
      rw [this]
      exact .one c sh n ty e esc (by rw [prodN_shape2d] at hp; exact hp) ha
    · have hpp : (prodN (shape2d o sh) != 1) = true := by simp [hp]
      rw [hpp]
      have : ((splitCols (prodN (shape2d o sh)) esc.length e).map (fieldValue (shape2d o sh))).map (partFor true) =
          (splitCols (prodN (shape2d o sh)) esc.length e).map (.column (RowShape o sh)) := by
        rw [List.map_map, rowShape_2d]
        apply List.map_congr_left
        intro col _
        unfold fieldValue
        simp only [Function.comp]
        rw [if_neg hp]
        rfl
      rw [this]
      exact .many c sh n ty e esc _ (by rw [prodN_shape2d] at hp; exact hp) ha (fun col hc => by rw [(hcols col hc).1, prodN_shape2d]) hfl

theorem writeNp_laid {x : Ctx} (hS : x.o.matlab = true → x.o.structAsStruct = true) {s s' : St} {q g : Nat} {name : Str} {ns : List Str} (hp : Pre x s g name) (hf : Fresh s g name) {v : Val}
    {c : Cont} {a : Arr} (hl : leafOf v = some (c, a)) (hd : Documented v) (h : writeNp x g name c a (tsOf v) s = (.ok (some q), s')) : LOut x s s' ns q v := by
  have t := (writeNp_post hp c a (tsOf v) h).ok q rfl
  rcases writeNp_done hp.nd h with ⟨h1, _⟩ | ⟨d, q, at0, f', at', h0, h2, h3, h4, h5, h6, h7⟩
  · cases h1
  · cases h2
    cases h4 with
    | inPlace hl' _ _ _ _ => exact absurd hl' (hf _)
    | made hq =>
      obtain ⟨d1, d2⟩ := newAttrs_doc hS hd (.leaf v c a d (filtersFor x.o d).stored hl h0 h7)
      refine ⟨⟨hq, t.lt, t.off⟩, at', _, h5, stored_doc d1 d2 h6, ?_⟩
      intro h' at'' path P hK ho ha hL hP
      cases hP with
      | column sh e => rw [leafOf] at hl <;> first | cases hl | nofun
      | self =>
        refine .data hL ho ha (leaf_asNumpy hl) ?_
        exact leaf_data hl h0

theorem all2_map_of {α β : Type} {R : α → β → Prop} {f : α → β} {l : List α} (h : ∀ a ∈ l, R a (f a)) : All2 R l (l.map f) := by
  induction l with
  | nil => exact .nil
  | cons a r ih => exact .cons (h a (by simp)) (ih fun a ha => h a (by simp [ha]))

theorem padEl_width {dt : DT} {e : El} (h : ∀ n, dt = .bytes n → ∃ u, e = .units u) : InWidth dt e (padEl dt e) := by
  cases dt with
  | bytes n =>
    obtain ⟨u, rfl⟩ := h n rfl
    exact .bytes n u
  | _ => exact .other _ _ (fun n hn => by cases hn)

theorem column_data {t : FT} {l : List Val} (h : ∀ v ∈ l, FieldData t v (flatVal t v)) : ColumnData t l (l.flatMap (flatVal t)) := by
  induction l with
  | nil => exact .nil t
  | cons v r ih =>
    rw [List.flatMap_cons]
    exact .cons (h v (by simp)) (ih fun v hv => h v (by simp [hv]))

theorem columns_data {types : List FT} {n : Nat} {elems : List Val} (h : ∀ (k : Nat) t, types[k]? = some t → ∀ v ∈ (elems.drop (k * n)).take n, FieldData t v (flatVal t v)) :
    ColumnsData types (splitCols n types.length elems) (flatVals n types elems) := by
  induction types generalizing elems with
  | nil => exact .nil
  | cons t r ih =>
    rw [flatVals, List.length_cons, splitCols]
    refine .cons (column_data fun v hv => h 0 t rfl v (by simpa using hv)) (ih fun k u hk v hv => h (k + 1) u hk v ?_)
    rw [List.drop_drop] at hv
    rwa [Nat.add_mul, Nat.one_mul, Nat.add_comm]

theorem fits_units {n : Nat} {e : El} (h : FitsDT (.bytes n) e) : ∃ u, e = .units u := by
  cases e with
  | units u => exact ⟨u, rfl⟩
  | _ => exact absurd h (fun h => h)

/-- What is stored for the value of a field. -/
theorem fieldVal_data {t : FT} {v : Val} (h : FieldVal t v) : FieldData t v (flatVal t v) := by
  induction h with
  | number dt e h1 h2 h =>
    rw [flatVal]
    exact .base (.cons (padEl_width fun n hn => absurd hn (h1 n)) .nil)
  | bytes n b h1 h2 =>
    rw [flatVal]
    exact .base (all2_map_of fun e he => padEl_width fun m _ => by rw [npBytes] at he; exact ⟨_, List.mem_singleton.mp he⟩)
  | array dt sp data _ hs h0 hl h =>
    rw [flatVal]
    exact .base (all2_map_of fun e he => padEl_width fun m hm => by have := h e he; rw [hm] at this; exact fits_units this)
  | struct c names types sp elems hc hn h0 hp ht hl _ ih =>
    rw [flatVal]
    have hlen : elems.length = types.length * prodN sp := by rw [ht]; exact hl
    have := FieldData.struct (n := names) (c := c) (fun col hcol => (splitCols_col (prodN sp) types.length elems hlen col hcol).1) (columns_data ih)
    rwa [splitCols_flatten _ _ _ hlen] at this

/-- What is stored in a compound Dataset. -/
theorem table_data {o : COpts} {sh : List Nat} {n : List Str} {ty : List FT} {e : List Val} (hl : e.length = ty.length * prodN sh) (h : OfTypes sh ty e) :
    TableData o sh ty e (tableArr o sh n ty e).data := by
  have hps := prodN_shape2d o sh
  have hlen : e.length = ty.length * prodN (shape2d o sh) := by rw [hps]; exact hl
  have hcol := splitCols_col _ _ _ hl
  refine ⟨splitCols (prodN sh) ty.length e, (splitCols (prodN sh) ty.length e).map fun l => if o.reverse then transposeData (shape2d o sh) l else l,
    fun c hc => (hcol c hc).1, splitCols_flatten _ _ _ hl, all2_map_of fun c hc => inOrder_of (hcol c hc).1, ?_⟩
  unfold tableArr
  dsimp only
  cases o.reverse with
  | false =>
    simp only [Bool.false_eq_true, if_false, List.map_id']
    rw [hps]
    exact columns_data fun k t hk v hv => fieldVal_data (h k t hk v hv)
  | true =>
    simp only [if_true]
    rw [hps]
    have hcl : ∀ l ∈ (splitCols (prodN sh) ty.length e).map (transposeData (shape2d o sh)), l.length = prodN sh := by
      intro l hl
      obtain ⟨l', _, rfl⟩ := List.mem_map.mp hl
      rw [length_transposeData, hps]
    have hch := chunksN_flatten (prodN sh) _ hcl
    rw [List.length_map, splitCols_length, ← splitCols_chunks] at hch
    have := columns_data (types := ty) (n := prodN sh) (elems := ((splitCols (prodN sh) ty.length e).map (transposeData (shape2d o sh))).flatten) ?_
    · rwa [hch] at this
    intro k t hk v hv
    have hkl : k < ty.length := (List.getElem?_eq_some_iff.mp hk).1
    have h1 := splitCols_get (prodN sh) ty.length ((splitCols (prodN sh) ty.length e).map (transposeData (shape2d o sh))).flatten k hkl
    rw [hch, List.getElem?_map, splitCols_get _ _ _ _ hkl] at h1
    rw [← Option.some.inj h1] at hv
    refine fieldVal_data (h k t hk v (mem_transposeData _ _ ?_ v hv))
    rw [hps]
    exact (hcol _ (List.mem_of_getElem? (splitCols_get (prodN sh) ty.length e k hkl))).1

theorem writeStruct_laid {x : Ctx} (hS : x.o.matlab = true → x.o.structAsStruct = true) {B : Nat} {wr : Wr} (hw : WrAll x wr) {s s' : St} {q : Nat} {g : Nat} {name : Str} {ns : List Str}
    (hR : RI x noL s) (hp : Pl x B s g name) (hf : Fresh s g name) (hB : RandOk x s.rpos B) (hle : s'.rpos ≤ B) (hns : ∀ n ∈ ns, n ≠ []) {c : Cont} {sh : List Nat} {n : List Str}
    {ty : List FT} {e : List Val} (hv : Regular x.o (.npStruct c sh n ty e))
    (h : writeStruct x wr g (absName ns) name c sh n ty e (tsOf (.npStruct c sh n ty e)) s = (.ok (some q), s')) : LOut x s s' (ns ++ [name]) q (.npStruct c sh n ty e) := by
  have t := (writeStruct_post hw.ok hp.pre h).ok q rfl
  have hd : Documented (.npStruct c sh n ty e) := .npStruct c sh n ty e
  obtain ⟨_, hcount, hnamed, _⟩ := regular_npStruct hv
  have hself : ∀ {P}, PartFor (.npStruct c sh n ty e) P → P = .value (.npStruct c sh n ty e) := fun hP => by cases hP; rfl
  have hzero : (x.o.storeShape && prodN sh == 0) = false → ¬ (x.o.storeShape = true ∧ 0 ∈ sh) := by
    intro h0 hc
    rw [hc.1, prodN_zero.mpr hc.2] at h0
    cases h0
  rcases writeStruct_cases h with ⟨_, e, h⟩ | ⟨_, _, _, _, h⟩ | ⟨hnd, esc, he, ⟨h0, h⟩ | ⟨h0, hag, h⟩ | ⟨h0, hg, _, h⟩⟩
  · cases h
  · cases h
  · obtain ⟨h1, h2, h3, _, attrs, h4, h5⟩ := putAttrs_fresh hp.pre hf _ _ _ h
    cases h1
    obtain ⟨d1, d2⟩ := newAttrs_doc hS hd (.structEmpty c sh n ty e esc (filtersFor x.o (shapeArr (shape2d x.o sh))).stored he h0)
    refine ⟨⟨Nat.le_refl _, t.lt, t.off⟩, attrs, _, h5, stored_doc d1 d2 h4, ?_⟩
    intro h' at'' path P hK ho ha hL hP
    cases hself hP
    rw [Bool.and_eq_true, beq_iff_eq] at h0
    refine .shape hL ho ha (.inr ⟨c, n, ty, e, rfl⟩) h0.1 (prodN_zero.mp h0.2) ?_
    rw [rowShape_2d]
    rfl
  · obtain ⟨i1, i2, i3, i4⟩ := regular_struct hv he
    refine writeGroup_laid hw hR hp hf hB hle hns (structItems_ne_dot he) i1 i2 i3 ?_ ⟨structAsGroup_needs hnamed hag, hzero h0⟩ i4 (fun P hP => hself hP) h
    intro l at' hs
    obtain ⟨d1, d2⟩ := newAttrs_doc hS hd (.struct c sh n ty e esc l he h0 hag)
    exact stored_doc d1 d2 hs
  · obtain ⟨h1, h2, h3, _, attrs, h4, h5⟩ := putAttrs_fresh hp.pre hf _ _ _ h
    cases h1
    obtain ⟨d1, d2⟩ := newAttrs_doc hS hd (.table c sh n ty e esc (filtersFor x.o (tableArr x.o sh n ty e)).stored he h0 hg hnd)
    refine ⟨⟨Nat.le_refl _, t.lt, t.off⟩, attrs, _, h5, stored_doc d1 d2 h4, ?_⟩
    intro h' at'' path P hK ho ha hL hP
    cases hself hP
    refine .table hL ho ha (hzero h0) (fun hc => ?_) ⟨_, _, rfl⟩ ?_ (fun hT => ?_)
    · rw [structAsGroup_of hc.1] at hg
      cases hg
    · rw [h5Store_shape, storedShape_eq]
      rfl
    · refine table_data (n := n) ?_ hT
      rw [hcount, hnamed n ty [] (.self _)]

/-- The writers lay values out as they should. -/
theorem writeData_all {x : Ctx} (hk : x.o.keysName ≠ [dot]) (hv : x.o.valuesName ≠ [dot]) (hS : x.o.matlab = true → x.o.structAsStruct = true) (hne : refsComps x.o ≠ []) (n : Nat) :
    WrAll x (writeData x n) := by
  induction n with
  | zero => exact ⟨writeData_post hk hv 0, writeData_ref hk hv 0, writeData_at hk hv 0, fun h => writeData_none h, fun s g ns name v s' q B _ _ _ _ _ _ _ h => by cases h⟩
  | succ n ih =>
    refine ⟨writeData_post hk hv _, writeData_ref hk hv _, writeData_at hk hv _, fun h => writeData_none h, ?_⟩
    intro s g ns name v s' q B hR hp hf hB hle hr hns h
    have hnd : ¬ Discarded x.o v := fun hd => by cases (writeData_none h).mpr hd
    have hd := regular_documented hr hnd
    have hleaf : ∀ w : Val, Documented w → (match leafOf w with | some (c, a) => writeNp x g name c a (tsOf w) | none => raise .notImplemented) s = (.ok (some q), s') →
        LOut x s s' (ns ++ [name]) q w := by
      intro w hw h
      cases hl : leafOf w with
      | none => rw [hl] at h; cases h
      | some ca =>
        obtain ⟨c, a⟩ := ca
        rw [hl] at h
        exact writeNp_laid hS hp.pre hf hl hw h
    cases v with
    | npObj c sh e =>
      obtain ⟨r1, r2⟩ := regular_npObj hr
      refine writeNpObj_laid ih hne hR hp hf hB hle c sh e _ r2 r1 ?_ ?_ h
      · intro P hP
        cases hP with
        | self => exact .npObj c sh e
        | column => exact .column sh e
      · intro d f at' hdt hs
        obtain ⟨d1, d2⟩ := newAttrs_doc hS hd (.npObj c sh e d f hdt)
        exact stored_doc d1 d2 hs
    | seq k e =>
      refine writeNpObj_laid ih hne hR hp hf hB hle .ndarray [e.length] e _ (regular_seq hr) (by simp [prodN]) ?_ ?_ h
      · intro P hP
        cases hP with
        | self => exact .seq k e
      · intro d f at' hdt hs
        obtain ⟨d1, d2⟩ := newAttrs_doc hS hd (.seq k e d f hdt)
        exact stored_doc d1 d2 hs
    | dict k keys vals =>
      obtain ⟨i1, i2, i3⟩ := regular_dict hr
      refine writeDict_laid hk hv ih hR hp hf hB hle hns keys vals _ _ i1 i2 ?_ (by exact trivial) i3 (fun P hP => by cases hP; rfl) h
      intro l at' hs
      obtain ⟨d1, d2⟩ := newAttrs_doc hS hd (.dict k keys vals l)
      exact stored_doc d1 d2 hs
    | record k vals =>
      obtain ⟨i1, i2, i3⟩ := regular_record hr
      refine writeDict_laid hk hv ih hR hp hf hB hle hns _ vals _ _ i1 i2 ?_ (by exact trivial) i3 (fun P hP => by cases hP; rfl) h
      intro l at' hs
      obtain ⟨d1, d2⟩ := newAttrs_doc hS hd (.record k vals l)
      exact stored_doc d1 d2 hs
    | npStruct c sh nm ty e => exact writeStruct_laid hS ih hR hp hf hB hle hns hr h
    | none => exact hleaf (.none) hd h
    | ellipsis => exact hleaf (.ellipsis) hd h
    | notImplemented => exact hleaf (.notImplemented) hd h
    | bool b => exact hleaf (.bool b) hd h
    | int i => exact hleaf (.int i) hd h
    | float f => exact hleaf (.float f) hd h
    | complex a b => exact hleaf (.complex a b) hd h
    | str t => exact hleaf (.str t) hd h
    | bytes b => exact hleaf (.bytes b) hd h
    | bytearray b => exact hleaf (.bytearray b) hd h
    | np c a => exact hleaf (.np c a) hd h
    | dtypeObj t => exact hleaf (.dtypeObj t) hd h
    | other => exact hleaf (.other) hd h

end HS
