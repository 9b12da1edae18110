import Verif.Lemmas.OverMap
/-
Mappings written over something.
-/
namespace HS
open Spec

theorem OffRefs.child {o : COpts} {ns : List Str} (hns : OffRefs o ns) {c : Str} (hc : c ≠ [dot]) : OffRefs o (ns ++ [c]) := by
  refine ⟨?_, by simp, hns.refs, by rw [head_append_ne hns.ne]; exact hns.head⟩
  intro d hd
  rw [List.mem_append] at hd
  rcases hd with hd | hd
  · exact hns.plain d hd
  · rw [List.mem_singleton.mp hd]; exact hc

theorem writeItems_over {x : Ctx} {n B : Nat} {wr : Wr} (hwr : WrOk x wr) (hat : WrAt x wr) (hov : WrOver x n wr)
    (hdis : ∀ s g gname name v s' ob, wr g gname name v s = (.ok ob, s') → (ob = none ↔ Discarded x.o v)) {s s' : St} {g : Nat} {gname : Str} {items : List (Str × Val)}
    {ns : List Str} (hi : Inv x s) (ht : Tree s.heap) (hl : LPath s.heap ns g) (hns : OffRefs x.o ns) (hk : ∀ i ∈ items, i.1 ≠ [dot]) (hnd : (items.map (·.1)).Nodup)
    (hgd : ∀ i ∈ items, Good x.o i.2) (hold : ∀ i ∈ items, OldOk x.o s.heap (ns ++ [i.1]) i.2) (hR : RandOk x s.rpos B) (hB : s'.rpos ≤ B)
    (h : writeItems x wr g gname items s = (.ok (), s')) :
    (∀ (at' : List (Str × AVal)) (links : List (Str × Nat)), s.heap[g]? = some ⟨at', .group links⟩ → ∃ links' : List (Str × Nat), s'.heap[g]? = some ⟨at', .group links'⟩) ∧
      ∀ i ∈ items, OverOut x n s'.heap (ns ++ [i.1]) i.2 := by
  induction items generalizing s with
  | nil => cases h; exact ⟨fun _ _ h => ⟨_, h⟩, fun _ h => by cases h⟩
  | cons i items ih =>
    obtain ⟨k0, v⟩ := i
    have hkd0 : k0 ≠ [dot] := hk (k0, v) (by simp)
    have hrest : ∀ i ∈ items, i.1 ≠ [dot] := fun i hi => hk i (by simp [hi])
    have hlt := lpath_lt ht hl
    have hpi : ∀ i ∈ (k0, v) :: items, Pre x s g i.1 := fun i hm => (hns.child (hk i hm)).pre hi ht hl hlt
    have hrp := writeItems_rpos hwr hpi h
    rw [writeItems] at h
    rcases bind_run (wr g gname k0 v) _ s with ⟨ob, s1, e1, e2⟩ | ⟨e, s1, e1, e2⟩
    · rw [e2] at h
      have ho0 := hns.child (o := x.o) hkd0
      have hp := hpi (k0, v) (by simp)
      have po := hwr s g gname k0 v s1 _ hp e1
      have ht1 := tree_step ht po.step (tgt_root ht)
      have hl1 : LPath s1.heap ns g := place_keep ht hl ho0 po.step.fr
      have hpr : ∀ i ∈ items, Pre x s1 g i.1 := fun i hm => (hns.child (hrest i hm)).pre po.step.inv ht1 hl1 (lpath_lt ht1 hl1)
      have hB1 : s1.rpos ≤ B := by
        cases ob with
        | none =>
          dsimp only at h
          exact Nat.le_trans (writeItems_rpos hwr hpr h) hB
        | some p =>
          dsimp only at h
          rcases bind_run (setH5Path x p (asciiEnc gname)) _ s1 with ⟨u, s2, e3, e4⟩ | ⟨e, s2, e3, e4⟩
          · rw [e4] at h
            have sth := setH5Path_step po.step.inv p _ e3
            exact Nat.le_trans sth.fr.rpos (Nat.le_trans (writeItems_rpos hwr (fun i hm => (hpr i hm).keep sth) h) hB)
          · rw [e4] at h; cases h
      obtain ⟨q, rfl, hlk, out⟩ := hov s g ns gname k0 v s1 ob B hi ht hl ho0 (hold (k0, v) (by simp)) hR hB1 (hgd (k0, v) (by simp)) e1
      dsimp only at h
      rcases bind_run (setH5Path x q (asciiEnc gname)) _ s1 with ⟨u, s2, e3, e4⟩ | ⟨e, s2, e3, e4⟩
      · rw [e4] at h
        have sth := setH5Path_step po.step.inv q _ e3
        have hb := setH5Path_but e3
        have hq0 : q ≠ 0 := by
          rintro rfl
          exact ht1.noRoot _ _ hlk
        have ht2 := tree_step ht1 sth (fun hd => hq0 hd.symm)
        have hl2 : LPath s2.heap ns g := (hb.path _ _).mpr hl1
        have hkn : k0 ∉ items.map (·.1) := (List.nodup_cons.mp hnd).1
        have hne : ∀ i ∈ items, i.1 ≠ k0 := fun i hi hh => hkn (List.mem_map.mpr ⟨i, hi, hh⟩)
        have hold2 : ∀ i ∈ items, OldOk x.o s2.heap (ns ++ [i.1]) i.2 := by
          intro i hm
          have a1 := writeAt_away ht hl ho0 (hns.child (hrest i hm)) (apart_snoc (hne i hm)) po.step.fr
          have a2 : Away x.o (ns ++ [i.1]) s1.heap s2.heap := setH5Path_away (.snoc hl1 hlk) (apart_snoc (ns := ns) (hne i hm)).2 ho0.head e3
          exact ((hold i (by simp [hm])).away ht a1).away ht1 a2
        obtain ⟨ih1, ih2⟩ := ih sth.inv ht2 hl2 hrest (List.nodup_cons.mp hnd).2 (fun i hi => hgd i (by simp [hi])) hold2
          (hR.mono (Nat.le_trans po.step.fr.rpos sth.fr.rpos)) h
        refine ⟨?_, ?_⟩
        · intro at' links hob
          have hnl := noLoop_of_tree ht hl
          obtain ⟨o1, c1, c2, c3⟩ := po.step.fr.obj g _ hob (by rintro ⟨q', d1, d2⟩; exact hnl k0 q' d1 d2)
          have hgq : g ≠ q := by
            rintro rfl
            exact noLoop_of_tree ht1 hl1 k0 g hlk .refl
          obtain ⟨o2, d1, d2, d3⟩ := sth.fr.obj g _ c1 (fun hd => hgq hd)
          obtain ⟨a2, b2⟩ := o2
          have hk2 := c3.trans d3
          cases b2 with
          | dset a f => exact hk2.elim
          | group l =>
            dsimp only at d2 c2
            rw [c2] at d2
            subst d2
            exact ih1 _ _ d1
        · intro i hm
          rcases List.mem_cons.mp hm with rfl | hm
          · have aw := writeItems_away hwr hat sth.inv ht2 hl2 hns hrest h hdis hkd0 (fun w hw => absurd (List.mem_map.mpr ⟨_, hw, rfl⟩) hkn)
            exact (out.but hb).away ht2 aw
          · exact ih2 i hm
      · rw [e4] at h; cases h
    · rw [e2] at h; cases h

/-- Getting the Group: what it is like. -/
theorem getGroup_old {s s' : St} {g p : Nat} {name : Str} (hd : name ≠ [dot]) (h : getGroup g name s = (.ok p, s')) :
    (s' = s ∧ LinkAt s.heap g name p ∧ isGroup s.heap p = true) ∨ s'.heap[p]? = some ⟨[], .group []⟩ := by
  unfold getGroup at h
  have hcr : ∀ s0 : St, createGroup g name s0 = (.ok p, s') → s'.heap[p]? = some ⟨[], .group []⟩ := by
    intro s0 hc
    exact (createObj_done hc rfl).1
  rcases getLink_run g name s with hh | ⟨e, hh⟩
  · rw [run_bind_ok hh, hlook_plain _ _ _ hd] at h
    cases hl : aget (linksOf s.heap g) name with
    | none => rw [hl] at h; exact Or.inr (hcr s h)
    | some q =>
      rw [hl] at h
      dsimp only at h
      rw [run_getSt] at h
      by_cases hg : isGroup s.heap q = true
      · rw [if_pos hg, run_pure] at h
        cases h
        exact Or.inl ⟨rfl, hl, hg⟩
      · rw [if_neg hg] at h
        rcases unlink_run g name s with ⟨e, he⟩ | ⟨he, _⟩
        · rw [run_bind_err he] at h; cases h
        · rw [run_bind_ok he] at h
          exact Or.inr (hcr _ h)
  · rw [run_bind_err hh] at h; cases h

/-- The attributes are those of a new Group, but the types of the keys may be stale if all keys are str. -/
inductive AsNew (keys : List Val) (at' b : List (Str × AVal)) : Prop
  | same : (∀ k, aget at' k = aget b k) → AsNew keys at' b
  | stale (t : Str) (l : List (Str × Nat)) : keyInfos keys = some l → (∀ i ∈ l, i.2 = 116) → t.length ≠ l.length →
      (∀ k, k ≠ p!"Python.dict.key_str_types" → aget at' k = aget b k) → (∀ c ∈ t, c < 128) → aget at' p!"Python.dict.key_str_types" = some (.bytes t) → AsNew keys at' b

theorem stored_text {t : Str} (h : ∀ c ∈ t, c < 128) : (AIn.string t).stored = .ok (.bytes t) := by
  rw [AIn.stored, asciiEnc, if_pos (by simpa using h)]
  rfl

theorem groupAttrs_new {o : COpts} {keys : List Val} {struct : Bool} {ts : Str} {at' b : List (Str × AVal)}
    (h : setAttributesAll [] (dictAttrs o (keyInfos keys) struct ts) true = (.ok (), b)) (he : AsNew keys at' b) : GroupAttrs o keys struct ts at' := by
  have hnd := dictAttrs_nodup o (keyInfos keys) struct ts
  cases he with
  | same he => exact .exact (attrsOf_fresh hnd h he)
  | stale t l h1 h2 h3 h4 h5 h6 =>
    refine .stale t l h1 h2 h3 ?_ ?_
    · intro k v k1 k2 hv
      rw [h4 k k2] at hv
      exact attrsOf_fresh hnd h (fun _ => rfl) k v k1 hv
    · intro v hv
      rw [h6] at hv
      cases hv
      exact stored_text h5

/-- Old attributes that can be dealt with. -/
def OldAttrs (o : COpts) (keys : List Val) (struct : Bool) (ts : Str) (at0 : List (Str × AVal)) : Prop :=
  (∀ k i, k ≠ p!"Python.dict.key_str_types" → aget (dictAttrs o (keyInfos keys) struct ts) k = some i → setAttrOne k (aget at0 k) i = i.stored) ∧
    ∀ v, aget at0 p!"Python.dict.key_str_types" = some v → ∃ t, (AIn.string t).stored = .ok v ∧ ∀ l, keyInfos keys = some l → (∀ i ∈ l, i.2 = 116) ∨ t.length = l.length

theorem asNew_of {o : COpts} {keys : List Val} {struct : Bool} {ts : Str} {at0 at' : List (Str × AVal)} (h : OldAttrs o keys struct ts at0)
    (hs : setAttributesAll at0 (dictAttrs o (keyInfos keys) struct ts) true = (.ok (), at')) :
    ∃ b, setAttributesAll [] (dictAttrs o (keyInfos keys) struct ts) true = (.ok (), b) ∧ AsNew keys at' b := by
  have hnd := dictAttrs_nodup o (keyInfos keys) struct ts
  obtain ⟨b, b1, b2, b3, b4⟩ := setAttrs_but hnd p!"Python.dict.key_str_types" h.1 hs
  refine ⟨b, b1, ?_⟩
  have same : aget at' p!"Python.dict.key_str_types" = aget b p!"Python.dict.key_str_types" → AsNew keys at' b := by
    intro he
    refine .same fun k => ?_
    by_cases hk : k = p!"Python.dict.key_str_types"
    · rw [hk]; exact he
    · exact b2 k hk
  cases hn : aget (dictAttrs o (keyInfos keys) struct ts) p!"Python.dict.key_str_types" with
  | none =>
    obtain ⟨c1, c2⟩ := b3 hn
    exact same (c1.trans c2.symm)
  | some i =>
    obtain ⟨v, w, c1, c2, c3, c4⟩ := b4 i hn
    cases ho : aget at0 p!"Python.dict.key_str_types" with
    | none =>
      rw [ho, setAttrOne_none, c3] at c1
      cases c1
      exact same (c2.trans c4.symm)
    | some u =>
      obtain ⟨t, t1, t2⟩ := h.2 u ho
      rw [ho] at c1
      obtain ⟨l, l1, rfl⟩ : ∃ l, keyInfos keys = some l ∧ i = .string (l.map (·.2)) := by
        rcases dictAttrs_cases hn with ⟨hk, _⟩ | ⟨hk | hk, _⟩ | ⟨_, l, l1, l2⟩ | hk | ⟨hk, _⟩ | ⟨hk, _⟩
        case inr.inr.inl => exact ⟨l, l1, l2⟩
        all_goals exact absurd hk (by decide)
      by_cases hlen : t.length = l.length
      · have := aFits_string (k := p!"Python.dict.key_str_types") (s := t) (t := l.map (·.2)) (by rw [List.length_map]; exact hlen) u t1
        rw [this, c3] at c1
        cases c1
        exact same (c2.trans c4.symm)
      · have hall := (t2 l l1).resolve_right hlen
        obtain ⟨rfl, hc⟩ := stored_string t1
        obtain ⟨rfl, hc'⟩ := stored_string c3
        refine .stale t l l1 hall hlen b2 hc ?_
        rw [c2]
        unfold setAttrOne at c1
        rw [c3] at c1
        change (if (p!"Python.dict.key_str_types" : Str) = p!"MATLAB_fields" then Except.ok (AVal.bytes (l.map (·.2))) else
          if ((DT.bytes (l.map (·.2)).length, ([] : List Nat)) : DT × List Nat) = (DT.bytes t.length, []) then Except.ok (AVal.bytes (l.map (·.2))) else Except.ok (AVal.bytes t) : Res AVal) = .ok v at c1
        rw [if_neg (by decide), if_neg] at c1
        · cases c1; rfl
        · intro he
          simp only [Prod.mk.injEq, DT.bytes.injEq, List.length_map, and_true] at he
          exact hlen he.symm

theorem attr_bytes {t : Str} (h : ∀ c ∈ t, c < 128) : attrToString (some (.bytes t)) = .ok (some t) := by
  show (utf8Dec t >>= fun r => Except.ok (some r)) = _
  rw [utf8Dec_ascii t (by simpa using h)]
  rfl

/-- The stale types of the keys are not used. -/
theorem readDictItems_new {o : COpts} (hm : o.pyMeta = true) {keys : List Val} {struct : Bool} {ts : Str} {at' b : List (Str × AVal)}
    (h : setAttributesAll [] (dictAttrs o (keyInfos keys) struct ts) true = (.ok (), b)) (he : AsNew keys at' b) (rd : Rd) (ro : COpts) (excl : Option Nat)
    (links : List (Str × Nat)) : readDictItems rd ro excl (Obj.view ⟨at', .group links⟩) = readDictItems rd ro excl (Obj.view ⟨b, .group links⟩) := by
  have hnd := dictAttrs_nodup o (keyInfos keys) struct ts
  cases he with
  | same he => exact readDictItems_attrs (view_attrs he _) rfl
  | stale t l h1 h2 h3 h4 h5 h6 =>
    rw [h1] at h hnd
    obtain ⟨_, _, g3, g4, g5, g6, g7⟩ := dictAttrs_some o hm l struct ts
    have v : ∀ (a : List (Str × AVal)) k, k ≠ p!"H5PATH" → aget (adel a p!"H5PATH") k = aget a k := fun a k hk => aget_view ⟨a, .group links⟩ k hk
    unfold readDictItems
    dsimp only [Obj.view]
    rw [v _ _ (by decide), v _ _ (by decide), v _ _ (by decide), v _ _ (by decide), v _ _ (by decide), v _ _ (by decide), v _ _ (by decide), v _ _ (by decide), v _ _ (by decide), v _ _ (by decide)]
    rw [h4 p!"Python.Fields" (by decide), h4 p!"Python.dict.StoredAs" (by decide), h4 p!"Python.dict.keys_values_names" (by decide), h4 p!"MATLAB_fields" (by decide), h6]
    rw [fresh_strings hnd h g3, fresh_string hnd h g4, fresh_none hnd h g5, fresh_string hnd h g6, attr_bytes h5]
    dsimp only [attrToStrings, bind, Except.bind]
    rw [escapePath_eq, escapePath_eq]
    dsimp only
    rw [if_neg (by decide)]
    dsimp only
    have hc : (fun (i : Nat) (uk : Str) => if i < t.length ∧ (l.map (·.1)).length = t.length then keyConvert (t.getD i 0) uk else .ok (.str uk)) =
        (fun (i : Nat) (uk : Str) => if i < (l.map (·.2)).length ∧ (l.map (·.1)).length = (l.map (·.2)).length then keyConvert ((l.map (·.2)).getD i 0) uk else .ok (.str uk)) := by
      funext i uk
      rw [if_neg (by simp only [List.length_map]; rintro ⟨_, e⟩; exact h3 e.symm)]
      by_cases hi : i < l.length
      · rw [if_pos (by simp [hi])]
        have : (l.map (·.2)).getD i 0 = 116 := by
          rw [List.getD_eq_getElem?_getD, List.getElem?_map, List.getElem?_eq_getElem hi]
          exact h2 _ (List.getElem_mem hi)
        rw [this]
        rfl
      · rw [if_neg (by simp [hi])]
    rw [hc]

/-- What there is of the items of a mapping before they are written. -/
structure DictReady (x : Ctx) (s : St) (g g2 : Nat) (name : Str) (ns : List Str) (keys vals : List Val) (struct : Bool) (ts : Str) : Prop where
  inv : Inv x s
  tree : Tree s.heap
  link : LinkAt s.heap g name g2
  path : LPath s.heap ns g2
  lt : g2 < s.heap.length
  sep : Sep x s g2
  obj : ∃ (at' b : List (Str × AVal)) (links : List (Str × Nat)), s.heap[g2]? = some ⟨at', .group links⟩ ∧ setAttributesAll [] (dictAttrs x.o (keyInfos keys) struct ts) true = (.ok (), b) ∧
    AsNew keys at' b ∧ ∀ k p, aget links k = some p → k ∈ (dictItems x.o keys vals).map (·.1)
  old : ∀ i ∈ dictItems x.o keys vals, OldOk x.o s.heap (ns ++ [i.1]) i.2

theorem mapping_over_dset {o : COpts} {h : Heap} {ms : List Str} {v w : Val} (hk : Kind o h ms v) (hov : Overwrites o v w) {keys vals : List Val} {struct : Bool}
    (hw : DictOf w keys vals struct) {q : Nat} (hq : LPath h ms q) (hg : isGroup h q = true) :
    ∃ (k1 l1 : List Val) (s1 : Bool) (at' : List (Str × AVal)) (links : List (Str × Nat)), DictOf v k1 l1 s1 ∧ h[q]? = some ⟨at', .group links⟩ ∧
      GroupAttrs o k1 s1 (tsOf v) at' ∧ (∀ k p, aget links k = some p → k ∈ (dictItems o k1 l1).map (·.1)) ∧
      ∀ k w, (k, w) ∈ dictItems o k1 l1 → Kind o h (ms ++ [k]) w := by
  cases hk with
  | dset k1 k2 =>
    rw [lpath_fun k1 hq] at k2
    unfold isGroup at hg
    rw [k2] at hg
    cases hg
  | group d k1 k2 k3 k4 k5 =>
    rw [lpath_fun k1 hq] at k2
    exact ⟨_, _, _, _, _, d, k2, k3, k4, k5⟩
  | struct c s n t e k1 k2 =>
    exfalso
    have key : ∀ v, v = .npStruct c s n t e → Overwrites o v w → False := by
      intro v hv hov
      cases hov with
      | numbers _ _ h => subst hv; cases h
      | sorts h => subst hv; cases h with | number h => cases h
      | toMapping h => subst hv; exact h.elim
      | ofMapping h => subst hv; exact h.elim
      | ofStruct _ _ _ _ _ _ _ h2 => cases hw <;> exact h2.elim
      | toStruct _ _ _ _ _ h1 => subst h1; cases hw
      | fields h => subst hv; cases h
      | _ => cases hv
    exact key _ rfl hov

theorem oldAttrs_of {o : COpts} {k1 k2 : List Val} {s1 s2 : Bool} {ts us : Str} {at' : List (Str × AVal)}
    (hf : ∀ k i j, k ≠ p!"Python.dict.key_str_types" → aget (dictAttrs o (keyInfos k1) s1 ts) k = some i → aget (dictAttrs o (keyInfos k2) s2 us) k = some j → AFits k i j)
    (hk : ∀ l2, keyInfos k2 = some l2 → (∀ i ∈ l2, i.2 = 116) ∨ ∀ l1, keyInfos k1 = some l1 → l1.length = l2.length ∧ ¬ ∀ i ∈ l1, i.2 = 116)
    (ha : GroupAttrs o k1 s1 ts at') : OldAttrs o k2 s2 us at' := by
  have main : (∀ k v, k ≠ p!"H5PATH" → k ≠ p!"Python.dict.key_str_types" → aget at' k = some v → ∃ i, aget (dictAttrs o (keyInfos k1) s1 ts) k = some i ∧ i.stored = .ok v) →
      ∀ k i, k ≠ p!"Python.dict.key_str_types" → aget (dictAttrs o (keyInfos k2) s2 us) k = some i → setAttrOne k (aget at' k) i = i.stored := by
    intro ha k i hne hi
    cases hv : aget at' k with
    | none => exact setAttrOne_none k i
    | some v =>
      have h5 : k ≠ p!"H5PATH" := by rintro rfl; rw [dictAttrs_h5path] at hi; cases hi
      obtain ⟨j, j1, j2⟩ := ha k v h5 hne hv
      exact hf k j i hne j1 hi v j2
  cases ha with
  | exact ha =>
    refine ⟨main fun k v h5 _ hv => ha k v h5 hv, ?_⟩
    intro v hv
    obtain ⟨i, i1, i2⟩ := ha _ v (by decide) hv
    obtain ⟨l, l1, rfl⟩ : ∃ l, keyInfos k1 = some l ∧ i = .string (l.map (·.2)) := by
      rcases dictAttrs_cases i1 with ⟨hk, _⟩ | ⟨hk | hk, _⟩ | ⟨_, l, l1, l2⟩ | hk | ⟨hk, _⟩ | ⟨hk, _⟩
      case inr.inr.inl => exact ⟨l, l1, l2⟩
      all_goals exact absurd hk (by decide)
    refine ⟨_, i2, fun l2 h2 => ?_⟩
    rcases hk l2 h2 with h | h
    · exact Or.inl h
    · exact Or.inr (by rw [List.length_map]; exact (h l l1).1)
  | stale t l h1 h2 h3 h4 h5 =>
    refine ⟨main h4, fun v hv => ⟨t, h5 v hv, fun l2 hl2 => ?_⟩⟩
    rcases hk l2 hl2 with h | h
    · exact Or.inl h
    · exact absurd h2 (h l h1).2

theorem dict_ready {x : Ctx} (hkn : x.o.keysName ≠ [dot]) (hvn : x.o.valuesName ≠ [dot]) {s s1 s2 s3 : St} {g g2 : Nat} {gl : List Str} {name : Str} (hi : Inv x s)
    (ht : Tree s.heap) (hgl : LPath s.heap gl g) (hns : OffRefs x.o (gl ++ [name])) {v : Val} (hold : OldOk x.o s.heap (gl ++ [name]) v) {keys vals : List Val} {struct : Bool}
    (hd : DictOf v keys vals struct) (e1 : getGroup g name s = (.ok g2, s1)) (e2 : setAttrsM g2 (dictAttrs x.o (keyInfos keys) struct (tsOf v)) true s1 = (.ok (), s2))
    (e3 : (if (keyInfos keys).isNone || x.o.deleteUnused then deleteOthers g2 ((dictItems x.o keys vals).map (·.1)) else pure () : M Unit) s2 = (.ok (), s3)) :
    DictReady x s3 g g2 name (gl ++ [name]) keys vals struct (tsOf v) ∧ s.rpos ≤ s3.rpos := by
  have hp := hns.pre hi ht hgl (lpath_lt ht hgl)
  obtain ⟨st, hgs⟩ := getGroup_spec hp e1
  obtain ⟨t, hs⟩ := hgs g2 rfl
  obtain ⟨c1, c2, c3⟩ := getGroup_done hp.nd hp.inv.wf e1
  have stT : Step x (oneA g name) (TgtD s g name) s s1 := st.mono (fun _ _ h => h) (fun _ h => h.elim)
  have ht1 := tree_step ht stT (tgt_root ht)
  have hgl1 := place_keep ht hgl hns stT.fr
  have hlp1 : LPath s1.heap (gl ++ [name]) g2 := .snoc hgl1 c1
  have sa := setAttrsM_step st.inv g2 _ true e2
  have hg20 : g2 ≠ 0 := by rintro rfl; exact ht1.noRoot _ _ c1
  have hgg : g ≠ g2 := by
    rintro rfl
    exact noLoop_of_tree ht1 hgl1 name g c1 .refl
  have ht2 := tree_step ht1 sa (fun hd => hg20 hd.symm)
  have hlp2 : LPath s2.heap (gl ++ [name]) g2 := lpath_mono (fun _ _ _ h => (setAttrs_link e2 _ _ _).mpr h) hlp1
  have hs2 := hs.keep sa.fr st.inv t.lt
  have hlt2 := lpath_lt ht2 hlp2
  have hdot := dictItems_ne_dot hkn hvn keys vals
  -- the attributes and the items up to here
  obtain ⟨at0, links, hob, hfit, hcase⟩ : ∃ (at0 : List (Str × AVal)) (links : List (Str × Nat)), s1.heap[g2]? = some ⟨at0, .group links⟩ ∧
      OldAttrs x.o keys struct (tsOf v) at0 ∧
      (((keyInfos keys).isNone = true ∨ x.o.deleteUnused = true ∨ ∀ k p, aget links k = some p → k ∈ (dictItems x.o keys vals).map (·.1)) ∧
        ∀ i ∈ dictItems x.o keys vals, OldOk x.o s1.heap (gl ++ [name] ++ [i.1]) i.2) := by
    rcases getGroup_old hp.nd e1 with ⟨rfl, h1, h2⟩ | h1
    · obtain ⟨v1, k1, k2⟩ := hold g2 hlp1
      obtain ⟨kk1, l1, st1, at', links, d1, d2, d3, d4, d5⟩ := mapping_over_dset k1 k2 hd hlp1 h2
      obtain ⟨m1, mk, m2, m3⟩ := over_mapping k2 d1 hd
      refine ⟨at', links, d2, oldAttrs_of m1 mk d3, ?_, ?_⟩
      · rcases m2 with h | h | h
        · exact Or.inl h
        · exact Or.inr (Or.inl h)
        · exact Or.inr (Or.inr fun k p hk => h k (d4 k p hk))
      · intro i hm q hq
        obtain ⟨a, q1, q2⟩ := lpath_snoc hq
        rw [lpath_fun q1 hlp1, LinkAt, linksOf_obj, d2] at q2
        obtain ⟨⟨k, w⟩, w1, w2⟩ := List.mem_map.mp (d4 i.1 q q2)
        obtain ⟨ik, iv⟩ := i
        dsimp only at w2 hq ⊢
        subst w2
        exact ⟨w, d5 k w w1, m3 k w iv w1 hm⟩
    · refine ⟨[], [], h1, ⟨fun k i _ _ => setAttrOne_none k i, fun v hv => by cases hv⟩, Or.inr (Or.inr fun k p hk => by cases hk), ?_⟩
      intro i hm q hq
      obtain ⟨a, q1, q2⟩ := lpath_snoc hq
      rw [lpath_fun q1 hlp1, LinkAt, linksOf_obj, h1] at q2
      cases q2
  obtain ⟨hlink, hitems⟩ := hcase
  obtain ⟨o, at', a1, a2, a3⟩ := setAttrs_done e2
  rw [hob] at a1
  cases a1
  obtain ⟨b, b1, b2⟩ := asNew_of hfit a2
  have hob2 : s2.heap[g2]? = some ⟨at', .group links⟩ := by rw [a3]; exact getElem?_set_attrs hob
  have hitems2 : ∀ i ∈ dictItems x.o keys vals, OldOk x.o s2.heap (gl ++ [name] ++ [i.1]) i.2 := fun i hm =>
    (hitems i hm).away ht1 (setAttrsM_away hlp1 not_prefix_snoc hns.head e2)
  have hlink2 : LinkAt s2.heap g name g2 := (setAttrs_link e2 _ _ _).mpr c1
  have hrp : s.rpos ≤ s2.rpos := Nat.le_trans st.fr.rpos sa.fr.rpos
  by_cases hc : ((keyInfos keys).isNone || x.o.deleteUnused) = true
  · rw [if_pos hc] at e3
    have sd := deleteOthers_step sa.inv g2 hs2 ((dictItems x.o keys vals).map (·.1))
    have hlk := deleteOthers_link (s := s2) g2 ((dictItems x.o keys vals).map (·.1))
    unfold deleteOthers at e3
    cases e3
    have ht3 := tree_step ht2 sd (fun hd => hg20 hd.symm)
    have hl3 := (hlk g name g2).mpr ⟨hlink2, fun e => absurd e hgg⟩
    have hgl2 : LPath s2.heap gl g := by
      obtain ⟨a, q1, q2⟩ := lpath_snoc hlp2
      rw [(ht2.uniq _ _ _ _ _ hlink2 q2).1]; exact q1
    have hgl3 : LPath (s2.heap.update g2 (Obj.mapLinks fun l => l.filter fun p => ((dictItems x.o keys vals).map (·.1)).contains p.1)) gl g := by
      have key : ∀ l q, LPath s2.heap l q → l <+: gl → LPath (s2.heap.update g2 (Obj.mapLinks fun l => l.filter fun p => ((dictItems x.o keys vals).map (·.1)).contains p.1)) l q := by
        intro l q hq
        induction hq with
        | root => intro _; exact .root
        | @snoc l p q k h1 h2 ih =>
          intro hpre
          refine .snoc (ih ((List.prefix_append _ _).trans hpre)) ((hlk _ _ _).mpr ⟨h2, ?_⟩)
          intro he
          subst he
          have := h1.unique ht2 hlp2
          have h4 := hpre.length_le
          rw [this] at h4
          simp only [List.length_append, List.length_singleton] at h4
          omega
      exact key _ _ hgl2 (List.prefix_refl _)
    refine ⟨⟨sd.inv, ht3, hl3, .snoc hgl3 hl3, Nat.lt_of_lt_of_le hlt2 sd.fr.len, hs2.keep sd.fr sa.inv hlt2, ?_, ?_⟩, Nat.le_trans hrp sd.fr.rpos⟩
    · refine ⟨at', b, links.filter fun p => ((dictItems x.o keys vals).map (·.1)).contains p.1, ?_, b1, b2, ?_⟩
      · dsimp only
        rw [getElem?_update, if_pos rfl, hob2]
        rfl
      · intro k p hk
        rw [aget_filter] at hk
        split at hk
        · rename_i hh
          simpa using hh
        · cases hk
    · intro i hm
      exact (hitems2 i hm).away ht2 (away_delete (o := x.o) ht2 _ hlp2 hns.head (List.mem_map.mpr ⟨i, hm, rfl⟩))
  · rw [if_neg hc, run_pure] at e3
    cases e3
    refine ⟨⟨sa.inv, ht2, hlink2, hlp2, hlt2, hs2, ⟨at', b, links, hob2, b1, b2, ?_⟩, hitems2⟩, hrp⟩
    rw [Bool.or_eq_true] at hc
    rcases hlink with h | h | h
    · exact absurd (Or.inl h) hc
    · exact absurd (Or.inr h) hc
    · exact h

theorem in_sub {o : COpts} {h : Heap} {ms : List Str} {k : Str} {p : Nat} (hp : InOrRefs o h (ms ++ [k]) p) : InOrRefs o h ms p :=
  ⟨hp.1, fun l hl => by
    rcases hp.2 l hl with h1 | h1
    · exact Or.inl ((List.prefix_append ms [k]).trans h1)
    · exact Or.inr h1⟩

theorem all2_choose {α β : Type} {R : α → β → Prop} {l : List α} (h : ∀ a ∈ l, ∃ b, R a b) : ∃ r, All2 R l r := by
  induction l with
  | nil => exact ⟨[], .nil⟩
  | cons a l ih =>
    obtain ⟨b, hb⟩ := h a (by simp)
    obtain ⟨r, hr⟩ := ih fun c hc => h c (by simp [hc])
    exact ⟨b :: r, .cons hb hr⟩

/-- Mappings written over something. -/
theorem dict_over {x : Ctx} (ho : RtOpts x.o) {n B : Nat} {wr : Wr} (hwr : WrOk x wr) (hat : WrAt x wr) (hov : WrOver x n wr)
    (hdis : ∀ s g gname name v s' ob, wr g gname name v s = (.ok ob, s') → (ob = none ↔ Discarded x.o v)) {s s' : St} {ob : Option Nat} {g : Nat} {gl : List Str}
    {gname name : Str} (hi : Inv x s) (ht : Tree s.heap) (hgl : LPath s.heap gl g) (hns : OffRefs x.o (gl ++ [name])) {v : Val} (hold : OldOk x.o s.heap (gl ++ [name]) v)
    (hR : RandOk x s.rpos B) (hB : s'.rpos ≤ B) {keys vals : List Val} {struct : Bool} (hd : DictOf v keys vals struct) (hlen : vals.length = keys.length)
    (hgv : ∀ v ∈ vals, Good x.o v)
    (hk : (∃ texts, All2 KeyText keys texts ∧ texts.Nodup) ∨ ((∃ k ∈ keys, NotTextKey k) ∧ KvNames x.o ∧ ∀ k ∈ keys, Good x.o k))
    (hrv : ∀ ro, ReadableWith x.o ro v → ReadableWith x.o ro (.dict .dict keys vals))
    (hrd : ∀ mu rd ro excl b, readDictItems rd ro excl b = .ok (keys.zip vals) → readTyped mu rd ro excl b (tsOf v) = .ok v)
    (h : writeDict x wr g gname name keys vals struct (tsOf v) s = (.ok ob, s')) :
    ∃ q, ob = some q ∧ LinkAt s'.heap g name q ∧ OverOut x (n + 1) s'.heap (gl ++ [name]) v := by
  have hp := hns.pre hi ht hgl (lpath_lt ht hgl)
  have po := writeDict_post ho.keys_ne ho.vals_ne hwr hp keys vals struct (tsOf v) h
  have hgl' := place_keep ht hgl hns po.step.fr
  have ht' := tree_step ht po.step (tgt_root ht)
  obtain ⟨q0, s30, e00, hlk, _⟩ := writeDict_at ho.keys_ne ho.vals_ne hwr hp (hns.notRefs ht hgl) (noLoop_of_tree ht hgl) keys vals struct (tsOf v) h
  obtain ⟨g2, s1, s2, s3, e0, e1, e2, e3, e4⟩ := writeDict_run keys vals struct (tsOf v) h
  rw [e00] at e0
  cases e0
  obtain ⟨rdy, hrp⟩ := dict_ready ho.keys_ne ho.vals_ne hi ht hgl hns hold hd e1 e2 e3
  have hdot := dictItems_ne_dot ho.keys_ne ho.vals_ne keys vals
  obtain ⟨at', b, links, hob, hb1, hb2, hb3⟩ := rdy.obj
  have hitems : ((dictItems x.o keys vals).map (·.1)).Nodup ∧ ∀ i ∈ dictItems x.o keys vals, Good x.o i.2 := by
    rcases hk with ⟨texts, ht1, ht2⟩ | ⟨hnt, hkv, hgk⟩
    · obtain ⟨l, hl1, hl2, hl3, hl4, hl5⟩ := keyInfos_text ht1
      have hll : (l.map (·.1)).length = vals.length := by simp [hl2, hlen]
      have hdi : dictItems x.o keys vals = (l.map (·.1)).zip vals := by unfold dictItems; rw [hl1]
      refine ⟨by rw [hdi, map_fst_zip _ _ hll]; exact escaped_nodup hl4 ht2, ?_⟩
      intro i hi
      rw [hdi] at hi
      exact hgv _ (List.of_mem_zip hi).2
    · have hl1 := keyInfos_notText hnt
      have hdi : dictItems x.o keys vals = [(x.o.keysName, .seq .tuple keys), (x.o.valuesName, .seq .tuple vals)] := by unfold dictItems; rw [hl1]
      refine ⟨by rw [hdi]; simp [hkv.ne], ?_⟩
      intro i hi
      rw [hdi] at hi
      simp only [List.mem_cons, List.not_mem_nil, or_false] at hi
      rcases hi with rfl | rfl
      · exact .seq _ _ (fun h => by cases h) hgk
      · exact .seq _ _ (fun h => by cases h) hgv
  obtain ⟨w1, w2⟩ := writeItems_over hwr hat hov hdis rdy.inv rdy.tree rdy.path hns hdot hitems.1 hitems.2 rdy.old (hR.mono hrp) hB e4
  obtain ⟨links', hob'⟩ := w1 _ _ hob
  have hlp : LPath s'.heap (gl ++ [name]) q0 := .snoc hgl' hlk
  have hnames : ∀ k p, aget links' k = some p → k ∈ (dictItems x.o keys vals).map (·.1) := by
    intro k p hkp
    have := (writeItems_links hwr hat rdy.inv rdy.lt rdy.sep (noLoop_of_tree rdy.tree rdy.path) hdot e4 hdis k).mp
      ⟨p, by rw [LinkAt, linksOf_obj, hob']; exact hkp⟩
    rcases this with ⟨q, hq⟩ | ⟨w, hw, _⟩
    · rw [LinkAt, linksOf_obj, hob] at hq
      exact hb3 k q hq
    · exact List.mem_map.mpr ⟨_, hw, rfl⟩
  refine ⟨q0, e00, hlk, .group hd hlp hob' (groupAttrs_new hb1 hb2) hnames (fun k w hw => (w2 (k, w) hw).kind), q0,
    fun p => InOrRefs x.o s'.heap (gl ++ [name]) p, hlp, at_in ht' hlp, fun p hp => hp, ?_⟩
  intro ro V excl m hro v1 v2 v3
  obtain ⟨m', rfl⟩ : ∃ m', m = m' + 1 := ⟨m - 1, by omega⟩
  have hV : V q0 = some (Obj.view ⟨at', .group links'⟩) := by rw [v1 q0 (at_in ht' hlp), viewOf, hob']; rfl
  obtain ⟨t1, t2⟩ := dict_ts ho.pyMeta hb1 (.group links')
  have he : ∀ k, k ≠ p!"Python.dict.key_str_types" → aget (Obj.view ⟨at', .group links'⟩).attrs k = aget (Obj.view ⟨b, .group links'⟩).attrs k := by
    intro k hk
    unfold Obj.view
    dsimp only
    rw [aget_adel, aget_adel]
    cases hb2 with
    | same h => rw [h]
    | stale _ _ _ _ _ h => rw [h k hk]
  rw [readData_ts hV (by rw [he _ (by decide)]; exact t1) (by rw [he _ (by decide)]; exact t2)]
  refine hrd _ _ _ _ _ ?_
  rw [readDictItems_new ho.pyMeta hb1 hb2]
  have hro' := hrv ro hro
  -- every item
  have item : ∀ i ∈ dictItems x.o keys vals, ReadableWith x.o ro i.2 → ∃ q, aget links' i.1 = some q ∧ excl ≠ some q ∧ readData ro V excl m' q = .ok i.2 := by
    intro i hm hri
    obtain ⟨_, q, S, r1, r2, r3, r4⟩ := w2 i hm
    obtain ⟨a, c1, c2⟩ := lpath_snoc r1
    rw [lpath_fun c1 hlp, LinkAt, linksOf_obj, hob'] at c2
    refine ⟨q, c2, fun e => v2 q e (in_sub (r3 q r2)), ?_⟩
    exact r4 ro V excl m' hri (fun p hp => v1 p (in_sub (r3 p hp))) (fun r hr hS => v2 r hr (in_sub (r3 r hS))) (by omega)
  rcases hk with ⟨texts, ht1, ht2⟩ | ⟨hnt, hkv, hgk⟩
  · obtain ⟨l, hl1, hl2, hl3, hl4, hl5⟩ := keyInfos_text ht1
    have hll : (l.map (·.1)).length = vals.length := by simp [hl2, hlen]
    have hdi : dictItems x.o keys vals = (l.map (·.1)).zip vals := by unfold dictItems; rw [hl1]
    rw [hl1] at hb1
    rw [hdi] at item hnames
    rw [map_fst_zip _ _ hll] at hnames
    obtain ⟨oids, c7⟩ : ∃ oids, All2 (fun (i : Str × Val) q => (aget links' i.1 = some q ∧ excl ≠ some q) ∧ readData ro V excl m' q = .ok i.2) ((l.map (·.1)).zip vals) oids := by
      refine all2_choose fun i hm => ?_
      obtain ⟨q, c1, c2, c3⟩ := item i hm (readable_val hro' (List.of_mem_zip hm).2)
      exact ⟨q, ⟨c1, c2⟩, c3⟩
    obtain ⟨d1, d2⟩ := all2_unzip (R := fun k q => aget links' k = some q ∧ excl ≠ some q) (S := fun v q => readData ro V excl m' q = .ok v) hll c7
    exact readDictItems_text ho hl2 hl3 hl5 hb1 (fun k q hq => Or.inl (hnames k q hq)) d1 d2 ht1 ht2
  · have hl1 := keyInfos_notText hnt
    have hdi : dictItems x.o keys vals = [(x.o.keysName, .seq .tuple keys), (x.o.valuesName, .seq .tuple vals)] := by unfold dictItems; rw [hl1]
    rw [hl1] at hb1
    rw [hdi] at item
    obtain ⟨qk, k1, _, k2⟩ := item _ (List.mem_cons_self ..) (readable_list hro'.order fun e he => readable_key hro' he)
    obtain ⟨qv, l1, _, l2⟩ := item _ (List.mem_cons_of_mem _ (List.mem_cons_self ..)) (readable_list hro'.order fun e he => readable_val hro' he)
    exact readDictItems_kv ho hkv hb1 k1 l1 excl k2 l2

end HS
