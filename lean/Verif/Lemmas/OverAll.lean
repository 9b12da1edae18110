import Verif.Lemmas.OverDict
/-
Everything that can be written over something.
-/
namespace HS
open Spec

/-- Structured arrays where nothing is. -/
theorem struct_new {x : Ctx} (ho : RtOpts x.o) {n B : Nat} {s s' : St} {ob : Option Nat} {g : Nat} {gl : List Str} {gname name : Str} (hi : Inv x s) (ht : Tree s.heap)
    (hgl : LPath s.heap gl g) (hns : OffRefs x.o (gl ++ [name])) (hf : Fresh s g name) (hR : RandOk x s.rpos B) (hB : s'.rpos ≤ B) (c : Cont) (shape : List Nat)
    (names : List Str) (types : List FT) (elems : List Val) (hg : Good x.o (.npStruct c shape names types elems))
    (h : writeData x (n + 1) g gname name (.npStruct c shape names types elems) s = (.ok ob, s')) :
    ∃ q, ob = some q ∧ LinkAt s'.heap g name q ∧ OverOut x (n + 1) s'.heap (gl ++ [name]) (.npStruct c shape names types elems) := by
  have hp := hns.pre hi ht hgl (lpath_lt ht hgl)
  have hnr := hns.notRefs ht hgl
  obtain ⟨q, rfl, out⟩ := writeData_rt ho (n + 1) s g gname name _ s' ob B hp hf (fun h => absurd h hnr) hR hB hg h
  have po := writeData_post ho.keys_ne ho.vals_ne (n + 1) s g gname name _ s' _ hp h
  have hlp : LPath s'.heap (gl ++ [name]) q := .snoc (place_keep ht hgl hns po.step.fr) (out.link hnr)
  refine ⟨q, rfl, out.link hnr, .struct c shape names types elems hlp ?_, q, NewObj x s s', hlp, out.new, fun p hp => newObj_in ht hgl po.step.fr hns.refs hp, out.reads⟩
  intro h0
  have h' : writeStruct x (writeData x n) g gname name c shape names types elems (structTypeString c) s = (.ok (some q), s') := h
  rcases writeStruct_cases h' with ⟨_, e, he⟩ | ⟨_, _, _, _, he⟩ | ⟨_, esc, _, ⟨h1, _⟩ | ⟨_, _, hw⟩ | ⟨_, _, _, hw⟩⟩
  · cases he
  · cases he
  · rw [Bool.and_eq_true, beq_iff_eq] at h1
    exact absurd h1.2 h0
  · obtain ⟨g2, s1, s3, s4, e0, e1, e2, e3, e4⟩ := writeGroup_run hw
    cases e0
    have E := group_elem x.o q
    have c1 := (getGroup_done hp.nd hp.inv.wf e1).2.1
    have c2 : isGroup s3.heap q = true := by
      have hP : Pres (fun h => isGroup h q = true) (if x.o.deleteUnused then deleteOthers q esc else pure () : M Unit) := by
        split
        · exact Pres.mod fun s hs => E.filter _ _ _ hs
        · exact Pres.pure _
      have := hP s1 c1
      rw [e2] at this
      exact this
    have c3 : isGroup s4.heap q = true := by
      have := Pres.writeFields E (fun g gn nm v => Pres.writeData E n g gn nm v) (g := q) (gn := joinName gname name) (ot := (prodN (shape2d x.o shape) != 1)) (structItems x.o shape esc elems) s3 c2
      rw [e3] at this
      exact this
    have := Pres.setAttrs E (p := q) (new := structAttrs x.o c types shape true esc (structTypeString c)) (d := true) s4 c3
    rw [e4] at this
    exact Or.inl this
  · rcases bind_run (putDataset g name (tableArr x.o shape names types elems) (filtersFor x.o (tableArr x.o shape names types elems)))
      (fun p => setAttrsM p (tableAttrs x.o c types shape esc (structTypeString c)) true >>= fun _ => (pure (some p) : M (Option Nat))) s with ⟨q', s1, e1, e2⟩ | ⟨e, s1, e1, e2⟩
    · rw [e2] at hw
      obtain ⟨_, at0, f', p2, _⟩ := putDataset_done hp.nd e1
      rcases bind_run (setAttrsM q' (tableAttrs x.o c types shape esc (structTypeString c)) true) (fun _ => (pure (some q') : M (Option Nat))) s1 with ⟨u, s2, e3, e4⟩ | ⟨e, s2, e3, e4⟩
      · rw [e4] at hw
        cases hw
        obtain ⟨o, at', q1, q2, rfl⟩ := setAttrs_done e3
        rw [p2] at q1
        cases q1
        exact Or.inr ⟨at', _, f', getElem?_set_attrs p2, fun hn => hn _ _ _ _ rfl⟩
      · rw [e4] at hw; cases hw
    · rw [e2] at hw; cases hw

theorem bind_congr_run {α β : Type} {m : M α} {f : α → M β} {s t : St} (h : m s = m t) : (m >>= f) s = (m >>= f) t := by
  rcases bind_run m f s with ⟨a, s1, e1, e2⟩ | ⟨e, s1, e1, e2⟩
  · rw [e2, run_bind_ok (h.symm.trans e1)]
  · rw [e2, run_bind_err (h.symm.trans e1)]

/-- A Dataset in the place of a Group is removed first. -/
theorem writeGroup_unlink {x : Ctx} {wr : Wr} {s : St} {g q : Nat} {gname name : Str} (hn : nameOk name = true) (hd : name ≠ [dot]) (hl : LinkAt s.heap g name q)
    (hq : isGroup s.heap q = false) {esc : List Str} {others : Bool} {items : List (Str × Val)} {at' : List (Str × AIn)} :
    writeGroup x wr g gname name esc others items at' s =
      writeGroup x wr g gname name esc others items at' { s with heap := s.heap.update g (Obj.mapLinks fun l => l.filter fun p => !(p.1 == name)) } := by
  have hu := unlink_runs hn hd hl
  have key : getGroup g name s = getGroup g name { s with heap := s.heap.update g (Obj.mapLinks fun l => l.filter fun p => !(p.1 == name)) } := by
    have h2 : aget (linksOf (s.heap.update g (Obj.mapLinks fun l => l.filter fun p => !(p.1 == name))) g) name = none := by
      rw [linksOf_obj, getElem?_update, if_pos rfl]
      cases hs : s.heap[g]? with
      | none => rfl
      | some o =>
        obtain ⟨a, b⟩ := o
        cases b with
        | dset _ _ => rfl
        | group l =>
          show aget (l.filter _) name = none
          rw [aget_filter (q := fun k => !(k == name))]
          simp
    have h1 : ∀ s0 : St, getLink g name s0 = (.ok (hlook s0.heap g name), s0) := by
      intro s0
      unfold getLink
      rw [if_pos hn]
    unfold getGroup
    rw [run_bind_ok (h1 s), run_bind_ok (h1 _), hlook_plain _ _ _ hd, hlook_plain _ _ _ hd]
    dsimp only
    rw [h2, hl]
    dsimp only
    rw [run_getSt, if_neg (by simp [hq]), run_bind_ok hu]
  unfold writeGroup
  exact bind_congr_run key

/-- A Dataset of another dtype is removed first. -/
theorem putDataset_unlink {s : St} {g q : Nat} {name : Str} (hn : nameOk name = true) (hd : name ≠ [dot]) (hl : LinkAt s.heap g name q) {a : Arr} {f : Filters}
    (hq : ∃ at' b fb, s.heap[q]? = some ⟨at', .dset b fb⟩ ∧ b.dt ≠ a.dt) :
    putDataset g name a f s = putDataset g name a f { s with heap := s.heap.update g (Obj.mapLinks fun l => l.filter fun p => !(p.1 == name)) } := by
  obtain ⟨at', b, fb, hq, hne⟩ := hq
  have hu := unlink_runs hn hd hl
  have h2 : aget (linksOf (s.heap.update g (Obj.mapLinks fun l => l.filter fun p => !(p.1 == name))) g) name = none := by
    rw [linksOf_obj, getElem?_update, if_pos rfl]
    cases hs : s.heap[g]? with
    | none => rfl
    | some o =>
      obtain ⟨a, b⟩ := o
      cases b with
      | dset _ _ => rfl
      | group l =>
        show aget (l.filter _) name = none
        rw [aget_filter (q := fun k => !(k == name))]
        simp
  unfold putDataset
  rw [run_getSt, run_getSt]
  simp only [if_pos hn]
  rw [hlook_plain _ _ _ hd, hlook_plain _ _ _ hd, h2, hl]
  dsimp only
  rw [hq]
  dsimp only
  rw [if_pos (Or.inl hne), run_bind_ok hu]

/-- Structured arrays written over something. -/
theorem struct_over {x : Ctx} (ho : RtOpts x.o) {n B : Nat} {s s' : St} {ob : Option Nat} {g : Nat} {gl : List Str} {gname name : Str} (hi : Inv x s) (ht : Tree s.heap)
    (hgl : LPath s.heap gl g) (hns : OffRefs x.o (gl ++ [name])) (hR : RandOk x s.rpos B) (hB : s'.rpos ≤ B) (c : Cont) (shape : List Nat)
    (names : List Str) (types : List FT) (elems : List Val) (hold : OldOk x.o s.heap (gl ++ [name]) (.npStruct c shape names types elems))
    (hg : Good x.o (.npStruct c shape names types elems)) (h : writeData x (n + 1) g gname name (.npStruct c shape names types elems) s = (.ok ob, s')) :
    ∃ q, ob = some q ∧ LinkAt s'.heap g name q ∧ OverOut x (n + 1) s'.heap (gl ++ [name]) (.npStruct c shape names types elems) := by
  by_cases hf : Fresh s g name
  · exact struct_new ho hi ht hgl hns hf hR hB c shape names types elems hg h
  · obtain ⟨q, hl⟩ : ∃ q, LinkAt s.heap g name q := Classical.byContradiction fun hn => hf fun q hq => hn ⟨q, hq⟩
    have hlp : LPath s.heap (gl ++ [name]) q := .snoc hgl hl
    obtain ⟨v1, hk, hov⟩ := hold q hlp
    obtain ⟨h0, hsim⟩ : prodN shape ≠ 0 ∧ IsSimple v1 := by
      generalize hw : Val.npStruct c shape names types elems = w at hov
      cases hov with
      | numbers _ _ _ h => subst hw; cases h
      | sorts _ h => subst hw; cases h with | number h => cases h
      | toMapping _ h => subst hw; exact h.elim
      | ofMapping _ h => subst hw; exact h.elim
      | ofStruct _ _ _ _ _ _ _ h => subst hw; exact h.elim
      | toStruct _ _ _ _ _ h1 h2 h3 => subst hw; cases h1; exact ⟨h2, h3⟩
      | fields h => subst hw; cases h
      | _ => cases hw
    have hq : isGroup s.heap q = false := by
      cases hk with
      | dset k1 k2 =>
        rw [lpath_fun k1 hlp] at k2
        unfold isGroup
        rw [k2]
      | group hd => cases hd <;> exact hsim.elim
      | struct => exact hsim.elim
    have hnc : ∃ at' b fb, s.heap[q]? = some ⟨at', .dset b fb⟩ ∧ b.dt ≠ (tableArr x.o shape names types elems).dt := by
      cases hk with
      | dset k1 k2 k3 =>
        rw [lpath_fun k1 hlp] at k2
        exact ⟨_, _, _, k2, nc_h5Store (dsetOf_nc k3) _ _ _ _⟩
      | group hd => cases hd <;> exact hsim.elim
      | struct => exact hsim.elim
    have hp := hns.pre hi ht hgl (lpath_lt ht hgl)
    have h' : writeStruct x (writeData x n) g gname name c shape names types elems (structTypeString c) s = (.ok ob, s') := h
    have c1 : ¬ (x.o.matlab ∧ x.o.structAsStruct = false ∧ x.o.action = .discard) := by
      rintro ⟨d1, d2, d3⟩
      cases hg with
      | npStruct _ _ _ _ _ hgs _ => rw [hgs.kept d1 d3] at d2; cases d2
      | npTable _ _ _ _ _ hgs => exact hgs.kept d1 d3
    have c2 : ¬ (x.o.matlab ∧ x.o.structAsStruct = false ∧ x.o.action = .error) := by
      intro hc
      unfold writeStruct at h'
      rw [if_pos hc] at h'
      cases h'
    have c3 : ¬ ((x.o.storeShape && prodN shape == 0) = true) := by
      intro hc
      simp only [Bool.and_eq_true, beq_iff_eq] at hc
      exact h0 hc.2
    obtain ⟨p, rfl⟩ : ∃ p, ob = some p := by
      cases ob with
      | some p => exact ⟨p, rfl⟩
      | none =>
        exfalso
        rcases writeStruct_cases h' with ⟨_, e, h1⟩ | ⟨h1, h2, h3, _⟩ | ⟨_, esc, h2, ⟨h3, _⟩ | ⟨_, _, h4⟩ | ⟨_, _, _, h4⟩⟩
        · cases h1
        · exact c1 ⟨h1, h2, h3⟩
        · exact c3 h3
        · obtain ⟨g2, s1, s3, s4, e0, _⟩ := writeGroup_run h4
          cases e0
        · obtain ⟨_, h5, _⟩ := putAttrs_link hp.nd _ _ _ h4
          cases h5
    have hnm := writeData_nameOk h
    have hu := unlink_runs hnm hp.nd hl
    have st := unlink_at hp hu
    have stT : Step x (oneA g name) (TgtD s g name) s _ := st.mono (fun _ _ h => h) (fun _ h => h.elim)
    have ht0 := tree_step ht stT (tgt_root ht)
    have hgl0 := place_keep ht hgl hns stT.fr
    refine struct_new (gname := gname) ho st.inv ht0 hgl0 hns ?_ hR hB c shape names types elems hg ?_
    · exact fun r hr => by
        rw [LinkAt, linksOf_obj, getElem?_update, if_pos rfl] at hr
        cases hs : s.heap[g]? with
        | none => rw [hs] at hr; cases hr
        | some o =>
          rw [hs] at hr
          obtain ⟨a, b⟩ := o
          cases b with
          | dset _ _ => cases hr
          | group l =>
            change aget (l.filter _) name = some r at hr
            rw [aget_filter (q := fun k => !(k == name))] at hr
            simp at hr
    · refine Eq.trans ?_ h'
      show writeStruct x (writeData x n) g gname name c shape names types elems (structTypeString c) _ = _
      cases he : names.mapM escapePath with
      | error e =>
        unfold writeStruct at h'
        rw [if_neg c2, if_neg c1, he] at h'
        cases h'
      | ok esc =>
        unfold writeStruct
        rw [if_neg c2, if_neg c1, he]
        show (if (x.o.storeShape && prodN shape == 0) = true then _ else _ : M (Option Nat)) _ = (if (x.o.storeShape && prodN shape == 0) = true then _ else _ : M (Option Nat)) _
        rw [if_neg c3]
        by_cases hs : structAsGroup x.o names types = true
        · rw [if_pos hs]
          exact (writeGroup_unlink hnm hp.nd hl hq).symm
        · rw [if_neg hs]
          cases hte : tableErr names types with
          | some e =>
            rcases writeStruct_cases h' with ⟨_, e, h1⟩ | ⟨h1, h2, h3, _⟩ | ⟨_, esc, h2, ⟨h3, _⟩ | ⟨_, h5, h4⟩ | ⟨_, _, h5, _⟩⟩
            · cases h1
            · exact absurd ⟨h1, h2, h3⟩ c1
            · exact absurd h3 c3
            · exact absurd h5 hs
            · rw [hte] at h5; cases h5
          | none =>
            exact (bind_congr_run (putDataset_unlink hnm hp.nd hl hnc)).symm

/-- Whatever can be written over what is there. -/
theorem writeData_over {x : Ctx} (ho : RtOpts x.o) (n : Nat) : WrOver x n (writeData x n) := by
  induction n with
  | zero => intro s g gl gname name v s' ob B _ _ _ _ _ _ _ _ h; cases h
  | succ n ih =>
    have hwr := writeData_post ho.keys_ne ho.vals_ne n
    have hat := writeData_at ho.keys_ne ho.vals_ne n
    have hrt := writeData_rt ho n
    intro s g gl gname name v s' ob B hi ht hgl hns hold hR hB hg h
    have hg0 := hg
    have leaf' : (match leafOf v with | some (c, a) => writeNp x g name c a (tsOf v) | none => raise .notImplemented) s = (.ok ob, s') →
        ∃ q, ob = some q ∧ LinkAt s'.heap g name q ∧ OverOut x (n + 1) s'.heap (gl ++ [name]) v := by
      intro h
      cases hl : leafOf v with
      | none => rw [hl] at h; cases h
      | some ca => obtain ⟨c, a⟩ := ca; rw [hl] at h; exact leaf_over ho.optsOk ho.pyMeta hi ht hgl hns hold hg hl h n
    have dict' : ∀ (k : DictKind) (keys vals : List Val), v = .dict k keys vals → vals.length = keys.length → (∀ v ∈ vals, Good x.o v) →
        ((∃ texts, All2 KeyText keys texts ∧ texts.Nodup) ∨ ((∃ k ∈ keys, NotTextKey k) ∧ KvNames x.o ∧ ∀ k ∈ keys, Good x.o k)) →
        ∃ q, ob = some q ∧ LinkAt s'.heap g name q ∧ OverOut x (n + 1) s'.heap (gl ++ [name]) v := by
      rintro k keys vals rfl hlen hgv hk
      refine dict_over ho hwr hat ih (fun s g gname name v s' ob h => writeData_none h) hi ht hgl hns hold hR hB (.dict k keys vals) hlen hgv hk
        (fun ro hro => readable_dict hro.order (fun e he => readable_key hro he) (fun e he => readable_val hro he)) ?_ h
      intro mu rd ro excl b hb
      rw [show readTyped mu rd ro excl b (tsOf (.dict k keys vals)) =
        (readDictItems rd ro excl b >>= fun it => .ok (.dict k (it.map (·.1)) (it.map (·.2)))) by cases k <;> rfl, hb]
      show Except.ok (Val.dict k ((keys.zip vals).map (·.1)) ((keys.zip vals).map (·.2))) = _
      rw [map_fst_zip _ _ hlen.symm, map_snd_zip _ _ hlen.symm]
    cases hg with
    | npObj c shape elems hc hl hge =>
      refine npObj_over ho.optsOk ho.pyMeta hwr hrt hi ht hgl hns hold hR hB c shape elems hc hl hge ?_ (fun ro hro => hro) ?_ h
      · intro d hd
        exact .npObj c shape elems hd
      · intro mu rd o' excl b hb
        refine Eq.trans ?_ hb
        cases c <;> rfl
    | seq k elems hk hge =>
      refine npObj_over ho.optsOk ho.pyMeta hwr hrt hi ht hgl hns hold hR hB .ndarray [elems.length] elems (Or.inl rfl) (by simp [prodN]) hge ?_ (fun ro hro => readable_seq hro) ?_ h
      · intro d hd
        exact .seq k elems hd
      · intro mu rd o' excl b hb
        rw [show readTyped mu rd o' excl b (tsOf (.seq k elems)) = (readNp mu rd o' excl b >>= fun w => toSeq k w) by cases k <;> rfl, hb]
        show (if k = .chainMap ∧ elems.isEmpty = true then _ else _) = _
        rw [if_neg]
        rintro ⟨h7, h8⟩
        exact hk h7 (by simpa using h8)
    | dictText k keys vals texts h1 h2 h3 h4 => exact dict' k keys vals rfl h3 h4 (Or.inl ⟨texts, h1, h2⟩)
    | dictAny k keys vals h1 h0 h2 h3 h4 => exact dict' k keys vals rfl h2 h4 (Or.inr ⟨h1, h0, h3⟩)
    | record k vals h1 h2 =>
      refine dict_over ho hwr hat ih (fun s g gname name v s' ob h => writeData_none h) hi ht hgl hns hold hR hB (.record k vals) (by simpa [recordFields_eq] using h1) h2
        (Or.inl ⟨k.fieldNames, allKeyText_str _, by cases k <;> decide⟩)
        (fun ro hro => readable_dict hro.order (fun e he => by
          obtain ⟨z, _, rfl⟩ := List.mem_map.mp he
          exact ⟨hro.order, fun _ _ h => by cases h⟩) (fun e he => readable_part hro (HasStruct.record k vals e he))) ?_ h
      intro mu rd ro excl b hb
      rw [show readTyped mu rd ro excl b (tsOf (.record k vals)) =
        (readDictItems rd ro excl b >>= fun it =>
          buildRecord (if (recKindOf k.typeString).getD k = .timezone1 ∧ it.length = 2 then .timezone2 else (recKindOf k.typeString).getD k) it) by cases k <;> rfl, hb]
      rw [← buildRecord_zip k vals h1]
      have : ((recKindOf k.typeString).getD k = .timezone1) ↔ (recKindOf k.typeString = some .timezone1) := by cases k <;> decide
      simp only [this]
      rfl
    | npStruct c shape names types elems h1 h2 => exact struct_over ho hi ht hgl hns hR hB c shape names types elems hold hg0 h
    | npTable c shape names types elems h1 => exact struct_over ho hi ht hgl hns hR hB c shape names types elems hold hg0 h
    | _ => exact leaf' h

end HS
