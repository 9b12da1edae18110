import Verif.Lemmas.FileWrite
import Verif.Lemmas.DictEntries
/-
Writing to the root Group.
-/
namespace HS
open Spec

theorem tree_inv_none {x : Ctx} {s : St} (ht : Tree s.heap) (hr : s.refs = none) (hc : s.created = false) (h1 : 11 ≤ s.counter)
    (h2 : ∀ c, s.canon = some c → c < s.heap.length) : Inv x s where
  wf := ht.wf
  pos := isGroup_lt ht.root
  refs := fun r h => by rw [hr] at h; cases h
  created := fun h => by rw [hc] at h; cases h
  acyc := (tree_inv (x := x) ht).acyc
  below := (tree_inv (x := x) ht).below
  ctr := h1
  cnt := fun h => by rw [hc] at h; cases h
  can := h2

/-- An unused place in the root Group that is not on the way to the references Group. -/
theorem root_pre {x : Ctx} {s : St} (hi : Inv x s) (hne : refsComps x.o ≠ []) {k : Str} (hkd : k ≠ [dot]) (hk : (refsComps x.o).head? ≠ some k)
    (hf : Fresh s 0 k) : Pre x s 0 k where
  inv := hi
  glt := hi.pos
  nd := hkd
  off := by
    intro pre h1 h2
    have := hi.acyc pre [] 0 (prefix_of_snoc h1) (List.nil_prefix) h2 rfl
    subst this
    obtain ⟨t, ht⟩ := h1
    rw [← ht] at hk
    exact hk rfl
  res := by
    intro _ hr
    have := (hi.refs 0 hr).1
    exact absurd (hi.acyc _ [] 0 (List.prefix_refl _) List.nil_prefix this rfl) hne
  sep := fun q hq => absurd hq (hf q)

theorem getGroup_root {s : St} (hg : isGroup s.heap 0 = true) : getGroup 0 [dot] s = (.ok 0, s) := by
  unfold getGroup
  have e : getLink 0 [dot] s = (.ok (some 0), s) := by
    unfold getLink
    rw [if_pos (by decide)]
    rfl
  rw [run_bind_ok e]
  dsimp only
  rw [run_getSt, if_pos hg, run_pure]

/-- Deleting in the root Group when the references Group is not there. -/
theorem delete_root {x : Ctx} {s s1 : St} (hi : Inv x s) (ht : Tree s.heap) {r : Str} (hr : (refsComps x.o).head? = some r) (hno : s.refs = none ∨ Fresh s 0 r) (names : List Str)
    (h : deleteOthers 0 names s = (.ok (), s1)) : Inv x s1 ∧ Tree s1.heap := by
  have hrefs : s.refs = none := by
    rcases hno with hno | hno
    · exact hno
    cases hs : s.refs with
    | none => rfl
    | some g =>
      have h1 := lpath_resolve (plainComps x) (hi.refs g hs).1
      cases hc : refsComps x.o with
      | nil => rw [hc] at hr; cases hr
      | cons a l =>
        rw [hc] at h1 hr
        cases hr
        have h2 := resolve_lpath (by rw [← hc]; exact plainComps x) h1
        rw [resolve, hlook_plain _ _ _ ((plainComps x) r (by rw [hc]; simp))] at h2
        cases hl : aget (linksOf s.heap 0) r with
        | none => rw [hl] at h2; cases h2
        | some q => exact absurd hl (hno q)
  have hcr : s.created = false := by
    cases hc : s.created with
    | false => rfl
    | true => exact absurd hrefs (hi.created hc)
  unfold deleteOthers at h
  cases h
  have hlen : (s.heap.update 0 (Obj.mapLinks fun l => l.filter fun p => names.contains p.1)).length = s.heap.length := length_update _ _ _
  have hsub : ∀ p k q, LinkAt (s.heap.update 0 (Obj.mapLinks fun l => l.filter fun p => names.contains p.1)) p k q → LinkAt s.heap p k q := by
    intro p k q hl
    exact ((deleteOthers_link 0 names p k q).mp hl).1
  have ht1 : Tree (s.heap.update 0 (Obj.mapLinks fun l => l.filter fun p => names.contains p.1)) := by
    refine ⟨fun p k q hl => by rw [hlen]; exact ht.wf _ _ _ (hsub p k q hl), ?_, fun p k hl => ht.noRoot p k (hsub _ _ _ hl),
      fun _ _ _ _ _ a b => ht.uniq _ _ _ _ _ (hsub _ _ _ a) (hsub _ _ _ b)⟩
    obtain ⟨at', l, hg⟩ := isGroup_get ht.root
    unfold isGroup
    rw [getElem?_update, if_pos rfl, hg]
    rfl
  exact ⟨tree_inv_none ht1 hrefs hcr hi.ctr (fun c hc => by show c < _; rw [hlen]; exact hi.can c hc), ht1⟩

/-- What deleting in the root Group does, if it is done. -/
structure RootKept (x : Ctx) (del : Bool) (names : List Str) (s s1 : St) : Prop where
  inv : Inv x s1
  tree : Tree s1.heap
  len : s1.heap.length = s.heap.length
  rpos : s1.rpos = s.rpos
  links : ∀ k q, LinkAt s1.heap 0 k q ↔ LinkAt s.heap 0 k q ∧ (del = true → k ∈ names)
  attrs : ∀ o, s.heap[0]? = some o → ∃ o', s1.heap[0]? = some o' ∧ o'.attrs = o.attrs

theorem delete_kept {x : Ctx} {s s1 : St} (hi : Inv x s) (ht : Tree s.heap) {r : Str} (hr : (refsComps x.o).head? = some r) {del : Bool} (hno : del = true → s.refs = none ∨ Fresh s 0 r)
    (names : List Str) (h : (if del then deleteOthers 0 names else pure () : M Unit) s = (.ok (), s1)) : RootKept x del names s s1 := by
  cases del with
  | false =>
    rw [if_neg (by decide), run_pure] at h
    cases h
    exact ⟨hi, ht, rfl, rfl, fun k q => ⟨fun h => ⟨h, fun h => by cases h⟩, fun h => h.1⟩, fun o ho => ⟨o, ho, rfl⟩⟩
  | true =>
    rw [if_pos rfl] at h
    obtain ⟨h1, h2⟩ := delete_root hi ht hr (hno rfl) names h
    unfold deleteOthers at h
    cases h
    refine ⟨h1, h2, length_update _ _ _, rfl, fun k q => ?_, fun o ho => ?_⟩
    · rw [deleteOthers_link 0 names 0 k q]
      exact ⟨fun h => ⟨h.1, fun _ => h.2 rfl⟩, fun h => ⟨h.1, fun _ => h.2 rfl⟩⟩
    · refine ⟨_, by dsimp only; rw [getElem?_update, if_pos rfl, ho]; rfl, ?_⟩
      obtain ⟨a, b⟩ := o
      cases b <;> rfl

/-- A Group with the attributes. -/
theorem setAttrs_root {x : Ctx} {s s1 : St} (hi : Inv x s) (ht : Tree s.heap) {new : List (Str × AIn)} (h : setAttrsM 0 new true s = (.ok (), s1)) :
    ∃ old attrs links, s.heap[0]? = some ⟨old, .group links⟩ ∧ setAttributesAll old new true = (.ok (), attrs) ∧ s1.heap[0]? = some ⟨attrs, .group links⟩ ∧
      Inv x s1 ∧ Tree s1.heap ∧ s1.heap.length = s.heap.length ∧ s1.rpos = s.rpos ∧ s1.refs = s.refs ∧ ∀ k q, LinkAt s1.heap 0 k q ↔ LinkAt s.heap 0 k q := by
  have st := setAttrsM_step hi 0 _ true h
  have hlk := setAttrs_link h
  obtain ⟨old, links, hg⟩ := isGroup_get ht.root
  unfold setAttrsM at h
  rw [hg] at h
  dsimp only at h
  cases hs : setAttributesAll old new true with
  | mk r attrs =>
    rw [hs] at h
    cases h
    have h0 : 0 < s.heap.length := hi.pos
    refine ⟨old, attrs, links, hg, hs, by dsimp only; rw [List.getElem?_set_self h0], st.inv, ?_, List.length_set, rfl, rfl, fun k q => hlk 0 k q⟩
    refine ⟨st.inv.wf, ?_, fun p k hl => ht.noRoot p k ((hlk _ _ _).mp hl), fun _ _ _ _ _ a b => ht.uniq _ _ _ _ _ ((hlk _ _ _).mp a) ((hlk _ _ _).mp b)⟩
    unfold isGroup
    dsimp only
    rw [List.getElem?_set_self h0]

/-- A dict-like written to the root Group. -/
structure RootDict (x : Ctx) (n : Nat) (new : List (Str × AIn)) (del : Bool) (items : List (Str × Val)) (s s' : St) (attrs : List (Str × AVal)) (links : List (Str × Nat)) (oids : List Nat) : Prop where
  inv : Inv x s'
  tree : Tree s'.heap
  set : ∀ old b, s.heap[0]? = some ⟨old, b⟩ → setAttributesAll old new true = (.ok (), attrs)
  obj : s'.heap[0]? = some ⟨attrs, .group links⟩
  only : ∀ k q, aget links k = some q → k ∈ items.map (·.1) ∨ (refsComps x.o).head? = some k ∨ (LinkAt s.heap 0 k q ∧ del = false)
  read : All2 (fun i q => NewObj x s s' q ∧ aget links i.1 = some q ∧ Reads x n s s' q i.2) items oids

theorem root_dict {x : Ctx} (hk : x.o.keysName ≠ [dot]) (hv : x.o.valuesName ≠ [dot]) {n B : Nat} {wr : Wr} (hwr : WrOk x wr) (hrt : WrRT x n wr) {s s' : St}
    {ob : Option Nat} (hi : Inv x s) (ht : Tree s.heap) {r : Str} (hr : (refsComps x.o).head? = some r) (hR : RandOk x s.rpos B) (hB : s'.rpos ≤ B)
    (keys vals : List Val) (struct : Bool) (ts : Str) (hnd : ((dictItems x.o keys vals).map (·.1)).Nodup) (hgd : ∀ i ∈ dictItems x.o keys vals, Good x.o i.2)
    (hhead : ∀ i ∈ dictItems x.o keys vals, i.1 ≠ r) (hfresh : ∀ i ∈ dictItems x.o keys vals, Fresh s 0 i.1)
    (hdel : (keyInfos keys).isNone = true ∨ x.o.deleteUnused = true → s.refs = none ∨ Fresh s 0 r)
    (h : writeDict x wr 0 [slash] [dot] keys vals struct ts s = (.ok ob, s')) :
    ∃ attrs links oids, RootDict x n (dictAttrs x.o (keyInfos keys) struct ts) ((keyInfos keys).isNone || x.o.deleteUnused) (dictItems x.o keys vals) s s' attrs links oids := by
  have hne : refsComps x.o ≠ [] := by intro hc; rw [hc] at hr; cases hr
  obtain ⟨g2, s1, s2, s3, rfl, e1, e2, e3, e4⟩ := writeDict_run keys vals struct ts h
  rw [getGroup_root ht.root] at e1
  cases e1
  obtain ⟨old, attrs, l0, a1, a2, a3, a4, a5, a6, a7, a9, a8⟩ := setAttrs_root hi ht e2
  have rk := delete_kept a4 a5 hr (fun hd => (hdel (by simpa using hd)).imp (fun h => a9.trans h) (fun h q hq => h q ((a8 r q).mp hq))) _ e3
  have hdot := dictItems_ne_dot hk hv keys vals
  have hf3 : ∀ i ∈ dictItems x.o keys vals, Fresh s3 0 i.1 := fun i hii q hq => hfresh i hii q ((a8 _ _).mp ((rk.links _ _).mp hq).1)
  have hoff : resolve s3.heap 0 (refsComps x.o) ≠ some 0 := fun hc => hne (rk.inv.acyc _ [] 0 (List.prefix_refl _) List.nil_prefix hc rfl)
  have hpos : s3.rpos = s.rpos := rk.rpos.trans a7
  obtain ⟨sti, oids, ha⟩ := writeItems_rt hwr hrt rk.inv hoff
    (fun i hii => root_pre rk.inv hne (hdot i hii) (by rw [hr]; intro hc; exact hhead i hii (Option.some.inj hc).symm) (hf3 i hii)) hf3 hnd hgd
    (by rw [hpos]; exact hR) hB e4
  obtain ⟨o3, b1, b2⟩ := rk.attrs _ a3
  obtain ⟨o', c1, c2, c3⟩ := sti.fr.obj 0 _ b1 (fun h => h)
  have ht' := tree_step rk.tree sti (fun h => h)
  obtain ⟨oa, links, c4⟩ := isGroup_get ht'.root
  rw [c4] at c1
  cases c1
  dsimp only at c2
  rw [b2] at c2
  dsimp only at c2
  subst c2
  have hlk : linksOf s'.heap 0 = links := by rw [linksOf_obj, c4]; rfl
  have hlen : s3.heap.length = s.heap.length := rk.len.trans a6
  refine ⟨_, links, oids, sti.inv, ht', ?_, c4, ?_, ?_⟩
  · intro old' b hb
    rw [a1] at hb
    cases hb
    exact a2
  · intro k q hq
    apply Classical.byContradiction
    intro hn
    have hnk : (refsComps x.o).head? ≠ some k := fun h => hn (Or.inr (Or.inl h))
    have := sti.fr.links 0 rk.inv.pos (fun h => h) k (fun hA => hn (Or.inl hA.2)) (by
      rintro (⟨_, pre, p1, p2⟩ | ⟨p1, _⟩)
      · have := rk.inv.acyc pre [] 0 (prefix_of_snoc p1) List.nil_prefix p2 rfl
        subst this
        obtain ⟨t, p3⟩ := p1
        rw [← p3] at hnk
        exact hnk rfl
      · exact hoff p1)
    rw [hlk, hq] at this
    obtain ⟨d1, d2⟩ := (rk.links k q).mp this.symm
    cases hd : (keyInfos keys).isNone || x.o.deleteUnused with
    | true => exact hn (Or.inl (d2 hd))
    | false => exact hn (Or.inr (Or.inr ⟨(a8 _ _).mp d1, hd⟩))
  · refine all2_mono ?_ ha
    rintro i q ⟨h1, h2, h3, _⟩
    refine ⟨⟨by rw [← hlen]; exact h1.1, h1.2⟩, ?_, h3.later (by rw [hlen]; exact Nat.le_refl _) (Fr.rfl' (A := noA) (D := noD) sti.inv.wf) (fun _ _ => rfl)⟩
    unfold LinkAt at h2
    rw [hlk] at h2
    exact h2

/-- The items of a dict-like stored in a Group with nothing else in it but what is excluded. -/
theorem items_read {o ro : COpts} (ho : RtOpts o) {keys vals : List Val} {struct : Bool} {ts : Str} (hlen : vals.length = keys.length)
    (hk : (∃ texts, All2 KeyText keys texts ∧ texts.Nodup) ∨ ((∃ k ∈ keys, NotTextKey k) ∧ KvNames o)) {attrs : List (Str × AVal)} {links : List (Str × Nat)}
    (h : setAttributesAll [] (dictAttrs o (keyInfos keys) struct ts) true = (.ok (), attrs)) {excl : Option Nat}
    (hlk : ∀ k q, aget links k = some q → k ∈ (dictItems o keys vals).map (·.1) ∨ excl = some q) {rd : Rd} {oids : List Nat}
    (hq : All2 (fun (i : Str × Val) q => (aget links i.1 = some q ∧ excl ≠ some q) ∧ rd q = .ok i.2) (dictItems o keys vals) oids) :
    readDictItems rd ro excl (Obj.view ⟨attrs, .group links⟩) = .ok (keys.zip vals) := by
  rcases hk with ⟨texts, ht1, ht2⟩ | ⟨hnt, hkv⟩
  · obtain ⟨l, hl1, hl2, hl3, hl4, hl5⟩ := keyInfos_text ht1
    have hll : (l.map (·.1)).length = vals.length := by simp [hl2, hlen]
    have hdi : dictItems o keys vals = (l.map (·.1)).zip vals := by unfold dictItems; rw [hl1]
    have hnm : (dictItems o keys vals).map (·.1) = l.map (·.1) := by rw [hdi, map_fst_zip _ _ hll]
    rw [hnm] at hlk
    rw [hdi] at hq
    rw [hl1] at h
    obtain ⟨d1, d2⟩ := all2_unzip (R := fun k q => aget links k = some q ∧ excl ≠ some q) (S := fun v q => rd q = .ok v) hll hq
    exact readDictItems_text ho hl2 hl3 hl5 h hlk d1 d2 ht1 ht2
  · have hl1 := keyInfos_notText hnt
    have hdi : dictItems o keys vals = [(o.keysName, .seq .tuple keys), (o.valuesName, .seq .tuple vals)] := by unfold dictItems; rw [hl1]
    rw [hl1] at h
    rw [hdi] at hq
    cases hq with
    | cons a1 a2 =>
      cases a2 with
      | cons b1 b2 => exact readDictItems_kv ho hkv h a1.1.1 b1.1.1 excl a1.2 b1.2

/-- A dict-like and the way it is stored. -/
inductive DictLike : Val → List Val → List Val → Bool → Str → Prop
  | dict (k : DictKind) (keys vals : List Val) : DictLike (.dict k keys vals) keys vals (k != .counter) k.typeString
  | record (k : RecKind) (vals : List Val) : vals.length = k.fieldNames.length → DictLike (.record k vals) (k.fieldNames.map Val.str) vals true k.typeString

theorem dictLike_read {ro : COpts} {V : View} {excl : Option Nat} {m : Nat} {v : Val} {keys vals : List Val} {struct : Bool} {ts : Str} (hd : DictLike v keys vals struct ts)
    (hlen : vals.length = keys.length) {oid : Nat} {ob : Obj} (hV : V oid = some ob) (h4 : attrToString (aget ob.attrs p!"Python.Type") = .ok (some ts))
    (h5 : ∃ mc, attrToString (aget ob.attrs p!"MATLAB_class") = .ok mc) (h6 : readDictItems (readData ro V excl m) ro excl ob = .ok (keys.zip vals)) :
    readData ro V excl (m + 1) oid = .ok v := by
  cases hd with
  | dict k =>
    rw [readData_ts hV h4 h5]
    rw [show readTyped (looksMulti V) (readData ro V excl m) ro excl ob k.typeString =
      (readDictItems (readData ro V excl m) ro excl ob >>= fun it => .ok (.dict k (it.map (·.1)) (it.map (·.2)))) by cases k <;> rfl, h6]
    show Except.ok (Val.dict k ((keys.zip vals).map (·.1)) ((keys.zip vals).map (·.2))) = _
    rw [map_fst_zip _ _ hlen.symm, map_snd_zip _ _ hlen.symm]
  | record k _ hl =>
    rw [readData_ts hV h4 h5]
    rw [show readTyped (looksMulti V) (readData ro V excl m) ro excl ob k.typeString =
      (readDictItems (readData ro V excl m) ro excl ob >>= fun it =>
        buildRecord (if (recKindOf k.typeString).getD k = .timezone1 ∧ it.length = 2 then .timezone2 else (recKindOf k.typeString).getD k) it) by cases k <;> rfl, h6]
    rw [← buildRecord_zip k vals hl]
    have : ((recKindOf k.typeString).getD k = .timezone1) ↔ (recKindOf k.typeString = some .timezone1) := by cases k <;> decide
    simp only [this]
    rfl

end HS
