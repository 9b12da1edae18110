import Verif.Lemmas.RootWrite
import Verif.Lemmas.FileApi
import Verif.Lemmas.Mat
import Verif.Spec.Root
import Verif.Spec.Overwrite
/-
Writing to the root Group through `File`.
-/
namespace HS
open Spec

theorem root_addr {o : COpts} (hr : RefsPathOk o) {p : PathArg} (ha : Addr p []) : ∃ gs, checkPath o.refsPath p = .ok (gs, [dot]) ∧ commonComps gs = [] := by
  obtain ⟨gt, h1⟩ := good_check hr (p := p) ⟨[], ha, fun k h => by cases h⟩
  obtain ⟨g, t⟩ := gt
  obtain ⟨h2, h3, _⟩ := checkPath_off hr h1
  have hu := addr_unique ha ⟨g, t, h2, rfl⟩
  have ht : t = [dot] := by
    apply Classical.byContradiction
    intro hc
    rw [(h3 hc).2] at hu
    simp at hu
  subst ht
  refine ⟨g, h1, ?_⟩
  exact (List.append_eq_nil_iff.mp hu.symm).1

/-- Reading the root Group. -/
theorem fileRead_root {y : Ctx} (hr : RefsPathOk y.o) {p : PathArg} (ha : Addr p []) {G : FileS} (hG : G.isOpen = true) (ht : isGroup G.st.heap 0 = true) (m : Nat) :
    fileRead y m p G = readData y.o (viewOf G.st.heap) (exclOf y.o G.st.heap) m 0 := by
  obtain ⟨gs, h1, h2⟩ := root_addr hr ha
  have e : readOne y m G.st.heap (gs, [dot]) = readData y.o (viewOf G.st.heap) (exclOf y.o G.st.heap) m 0 := by
    unfold readOne
    dsimp only
    rw [h2, if_pos (show ([] : List Str).all nameOk = true from rfl)]
    dsimp only [resolve]
    rw [if_pos ht, if_pos (by decide)]
    rfl
  unfold fileRead fileReads
  simp only [checkPaths, h1, bind, Except.bind, hG, readMany, e]
  cases readData y.o (viewOf G.st.heap) (exclOf y.o G.st.heap) m 0 <;> rfl

theorem writeOne_dot {x : Ctx} {n : Nat} {v : Val} {gs : Str} {s : St} (h2 : commonComps gs = []) (ht : isGroup s.heap 0 = true) :
    writeOne x n (gs, [dot]) v s = writeData x n 0 [slash] [dot] v s := by
  unfold writeOne
  dsimp only
  rw [h2]
  have e : requireGroup [] s = (.ok 0, s) := by
    unfold requireGroup
    rw [if_pos (show ([] : List Str).all nameOk = true from rfl)]
    dsimp only [resolve]
    rw [if_pos ht]
  rw [run_bind_ok e]
  rfl

/-- Writing the root Group. -/
theorem wroteRoot_run {x : Ctx} {n : Nat} {F F' : FileS} {p : PathArg} {v : Val} (hw : WroteRoot x n F p v F') (ht : isGroup F.st.heap 0 = true) :
    ∃ ob, writeData x n 0 [slash] [dot] v F.st = (.ok ob, F'.st) ∧ F.isOpen = true ∧ F'.isOpen = true := by
  obtain ⟨gs, h1, h2⟩ := root_addr hw.refs hw.addr
  have h := hw.ok
  unfold fileWrite fileWrites at h
  split at h
  · cases h
  have hc : checkItems x.o.refsPath [(p, v)] = .ok [((gs, [dot]), v)] := by
    simp only [checkItems, h1, bind, Except.bind]
  rw [hc] at h
  dsimp only at h
  split at h
  · cases h
  rename_i hopen
  have hone := writeOne_dot (x := x) (n := n) (v := v) h2 ht
  rcases bind_run (writeOne x n (gs, [dot]) v) (fun _ => writeMany x n []) F.st with ⟨ob, s1, e1, e2⟩ | ⟨e, s1, e1, e2⟩
  · have e3 : writeMany x n [((gs, [dot]), v)] F.st = (.ok (), s1) := e2
    rw [runFile_rw _ hw.rw, e3] at h
    cases h
    refine ⟨ob, hone.symm.trans e1, ?_, ?_⟩
    all_goals simpa using hopen
  · have e3 : writeMany x n [((gs, [dot]), v)] F.st = (.error e, s1) := e2
    rw [runFile_rw _ hw.rw, e3] at h
    cases h

/-- What is known about a dict-like that can be read back. -/
structure DictGood (o : COpts) (v : Val) (keys vals : List Val) : Prop where
  len : vals.length = keys.length
  good : ∀ i ∈ dictItems o keys vals, Good o i.2
  nodup : ((dictItems o keys vals).map (·.1)).Nodup
  names : ∀ k, k ∈ (dictItems o keys vals).map (·.1) → EntryName o v k
  kind : (∃ texts, All2 KeyText keys texts ∧ texts.Nodup) ∨ ((∃ k ∈ keys, NotTextKey k) ∧ KvNames o)
  clears : (keyInfos keys).isNone = true ∨ o.deleteUnused = true ↔ Clears o v
  readable : ∀ ro, ReadableWith o ro v → ∀ i ∈ dictItems o keys vals, ReadableWith o ro i.2

theorem text_good {o : COpts} {v : Val} {keys vals : List Val} {texts : List Str} (hf : HasFields v texts vals) (h1 : All2 KeyText keys texts) (h2 : texts.Nodup)
    (h3 : vals.length = keys.length) (h4 : ∀ w ∈ vals, Good o w) (hn : ∀ dk ks vs, v = .dict dk ks vs → ks = keys)
    (hp : ∀ ro, ReadableWith o ro v → ∀ w ∈ vals, ReadableWith o ro w) : DictGood o v keys vals := by
  obtain ⟨l, hl1, hl2, hl3, hl4, hl5⟩ := keyInfos_text h1
  have hll : (l.map (·.1)).length = vals.length := by simp [hl2, h3]
  have hdi : dictItems o keys vals = (l.map (·.1)).zip vals := by unfold dictItems; rw [hl1]
  have hnm : (dictItems o keys vals).map (·.1) = l.map (·.1) := by rw [hdi, map_fst_zip _ _ hll]
  refine ⟨h3, ?_, by rw [hnm]; exact escaped_nodup hl4 h2, ?_, Or.inl ⟨texts, h1, h2⟩, ?_, ?_⟩
  · intro i hi
    rw [hdi] at hi
    exact h4 _ (List.of_mem_zip hi).2
  · intro k hk
    rw [hnm] at hk
    exact .field hf ((mem_names hl4 k).mp hk)
  · constructor
    · rintro (h | h)
      · rw [hl1] at h; cases h
      · exact Or.inl h
    · rintro (h | ⟨dk, ks, vs, h5, h6⟩)
      · exact Or.inr h
      · rw [hn dk ks vs h5] at h6
        have := keyInfos_notText h6
        rw [hl1] at this
        cases this
  · intro ro hro i hi
    rw [hdi] at hi
    exact hp ro hro _ (List.of_mem_zip hi).2

theorem dict_good {o : COpts} {v : Val} {keys vals : List Val} {struct : Bool} {ts : Str} (hd : DictLike v keys vals struct ts) (hg : Good o v) : DictGood o v keys vals := by
  cases hd with
  | dict k =>
    cases hg with
    | dictText _ _ _ texts h1 h2 h3 h4 =>
      exact text_good (.dict k keys vals texts h1 h3) h1 h2 h3 h4 (fun _ _ _ h => by cases h; rfl) (fun ro hro w hw => readable_val hro hw)
    | dictAny _ _ _ h1 h0 h2 h3 h4 =>
      have hl1 := keyInfos_notText h1
      have hdi : dictItems o keys vals = [(o.keysName, .seq .tuple keys), (o.valuesName, .seq .tuple vals)] := by unfold dictItems; rw [hl1]
      refine ⟨h2, ?_, by rw [hdi]; simp [h0.ne], ?_, Or.inr ⟨h1, h0⟩, ?_, ?_⟩
      · intro i hi
        rw [hdi] at hi
        simp only [List.mem_cons, List.not_mem_nil, or_false] at hi
        rcases hi with rfl | rfl
        · exact .seq _ _ (fun h => by cases h) h3
        · exact .seq _ _ (fun h => by cases h) h4
      · intro i hi
        rw [hdi] at hi
        simp only [List.map_cons, List.map_nil, List.mem_cons, List.not_mem_nil, or_false] at hi
        rcases hi with rfl | rfl
        · exact .keys k keys vals h1
        · exact .values k keys vals h1
      · exact ⟨fun _ => Or.inr ⟨k, keys, vals, rfl, h1⟩, fun _ => Or.inl (by rw [hl1]; rfl)⟩
      · intro ro hro i hi
        rw [hdi] at hi
        simp only [List.mem_cons, List.not_mem_nil, or_false] at hi
        rcases hi with rfl | rfl
        · exact readable_list hro.order fun e he => readable_key hro he
        · exact readable_list hro.order fun e he => readable_val hro he
  | record k _ hl =>
    cases hg with
    | record _ _ h1 h2 =>
      exact text_good (.record k vals hl) (allKeyText_str _) (by cases k <;> decide) (by simpa using hl) h2 (fun _ _ _ h => by cases h)
        (fun ro hro w hw => readable_part hro (HasStruct.record k vals w hw))

/-- What can be read back is not discarded. -/
theorem good_kept {o : COpts} {v : Val} (hg : Good o v) : ¬ Discarded o v := by
  rintro ⟨h1, h2, ⟨c, a, rfl, h3⟩ | ⟨h3, c, s, n, t, e, rfl⟩⟩
  · cases hg with
    | np _ _ g1 g2 g3 =>
      rcases h3 with h3 | ⟨r, i, d, h3⟩ | ⟨o', s, n, t, h3⟩
      · exact g2 h1 h2 h3
      · exact g1.arr.plain.2.2.1 r i d h3
      · exact g1.arr.plain.2.2.2 o' s n t h3
  · cases hg with
    | npStruct _ _ _ _ _ g1 g2 => rw [g1.kept h1 h2] at h3; cases h3
    | npTable _ _ _ _ _ g1 => exact g1.kept h1 h2

theorem writeItems_nameOk {x : Ctx} {n g : Nat} {gname : Str} {items : List (Str × Val)} (hk : ∀ i ∈ items, ¬ Discarded x.o i.2) {s s' : St}
    (h : writeItems x (writeData x n) g gname items s = (.ok (), s')) : ∀ i ∈ items, nameOk i.1 = true := by
  induction items generalizing s with
  | nil => intro i hi; cases hi
  | cons i items ih =>
    obtain ⟨k, v⟩ := i
    rw [writeItems] at h
    rcases bind_run (writeData x n g gname k v) _ s with ⟨ob, s1, e1, e2⟩ | ⟨e, s1, e1, e2⟩
    · rw [e2] at h
      cases ob with
      | none => exact absurd ((writeData_none e1).mp rfl) (hk (k, v) (by simp))
      | some q =>
        dsimp only at h
        rcases bind_run (setH5Path x q (asciiEnc gname)) _ s1 with ⟨u, s2, e3, e4⟩ | ⟨e, s2, e3, e4⟩
        · rw [e4] at h
          intro i hi
          rcases List.mem_cons.mp hi with rfl | hi
          · exact writeData_nameOk e1
          · exact ih (fun i hi => hk i (by simp [hi])) h i hi
        · rw [e4] at h; cases h
    · rw [e2] at h; cases h

/-- A dict-like written to the root Group. -/
theorem wroteRoot_dict {x : Ctx} (hR : RtOpts x.o) {n : Nat} {F F' : FileS} {p : PathArg} {v : Val} (hw : WroteRoot x n F p v F') {keys vals : List Val}
    {struct : Bool} {ts : Str} (hd : DictLike v keys vals struct ts) (hv : Good x.o v) (hf : RootFree x.o F v) :
    ∃ m attrs links oids, n = m + 1 ∧ DictGood x.o v keys vals ∧ (∀ i ∈ dictItems x.o keys vals, nameOk i.1 = true) ∧
      RootDict x m (dictAttrs x.o (keyInfos keys) struct ts) ((keyInfos keys).isNone || x.o.deleteUnused) (dictItems x.o keys vals) F.st F'.st attrs links oids := by
  have hg := dict_good hd hv
  obtain ⟨hi, ht⟩ := reach_keep hw.refs hR.names hw.reach
  obtain ⟨ob, h, _, _⟩ := wroteRoot_run hw ht.root
  obtain ⟨r, hr⟩ : ∃ r, (refsComps x.o).head? = some r := by
    have := hw.refs.notRoot
    cases hc : hdf5Names x.o.refsPath with
    | nil => exact absurd hc this
    | cons a l => exact ⟨a, by rw [show refsComps x.o = hdf5Names x.o.refsPath from rfl, hc]; rfl⟩
  have hfr : ∀ k, ¬ Spec.Exists F.st.heap [k] → Fresh F.st 0 k := fun k hk q hq => hk ⟨q, lpath_one.mpr hq⟩
  have hB : F'.st.rpos ≤ F'.st.rpos := Nat.le_refl _
  obtain ⟨m, rfl, h2⟩ : ∃ m, n = m + 1 ∧ writeDict x (writeData x m) 0 [slash] [dot] keys vals struct ts F.st = (.ok ob, F'.st) := by
    cases n with
    | zero => cases h
    | succ m => cases hd <;> exact ⟨m, rfl, h⟩
  obtain ⟨attrs, links, oids, hh⟩ := root_dict hR.keys_ne hR.vals_ne (writeData_post hR.keys_ne hR.vals_ne m) (writeData_rt hR m) hi ht hr hw.draws hB keys vals struct ts
    hg.nodup hg.good (fun i hi e => hf.notRefs i.1 (hg.names i.1 (List.mem_map.mpr ⟨i, hi, rfl⟩)) (by rw [e]; exact hr))
    (fun i hi => hfr _ (hf.free i.1 (hg.names i.1 (List.mem_map.mpr ⟨i, hi, rfl⟩)))) (fun hc => by
      rcases hf.noRefs (hg.clears.mp hc) r hr with h | ⟨hp, w, h⟩
      · exact Or.inr (hfr _ h)
      · left; rw [h]; rfl) h2
  refine ⟨m, attrs, links, oids, rfl, hg, ?_, hh⟩
  obtain ⟨_, _, _, _, _, _, _, _, e4⟩ := writeDict_run keys vals struct ts h2
  exact writeItems_nameOk (fun i hi => good_kept (hg.good i hi)) e4

/-- The entries can be read. -/
theorem rootDict_entry {x : Ctx} {m n : Nat} (hr : RefsPathOk x.o) {new : List (Str × AIn)} {del : Bool} {items : List (Str × Val)} {s s' : St} {attrs : List (Str × AVal)}
    {links : List (Str × Nat)} {oids : List Nat} (hd : RootDict x m new del items s s' attrs links oids) (hmn : m ≤ n) {k : Str} {w : Val} (hk : (k, w) ∈ items)
    (hok : nameOk k = true) (hne : (refsComps x.o).head? ≠ some k) : ReadsBack x n s'.heap [k] w := by
  obtain ⟨q, _, h1, h2, h3⟩ := all2_left hd.read (k, w) hk
  intro y G p j hy hyr hG hh ha hj
  have hpl := addr_plain ha
  have ho : OffRefs x.o ([] ++ [k]) := ⟨hpl, by simp, hr.notRoot, fun hc => hne (hc.symm.trans rfl)⟩
  obtain ⟨gs, d1, d2⟩ := addr_check hr ho ha
  have hkl : LinkAt s'.heap 0 k q := by
    unfold LinkAt
    rw [linksOf_obj, hd.obj]
    exact h2
  have hro := readOne_of (y := y) (m := j) (s := s) (gs := gs) (t := k) (by rw [d2]; rfl) hd.tree.root hkl (by rw [d2]; rfl) hok (hpl k (by simp)) h3 (by omega) hy hyr
  rw [← hy] at d1
  unfold fileRead fileReads
  simp only [checkPaths, d1, bind, Except.bind, hG, readMany, hh, hro]
  rfl

/-- The whole root Group can be read. -/
theorem rootDict_whole {x : Ctx} (hR : RtOpts x.o) {m : Nat} (hr : RefsPathOk x.o) {v : Val} {keys vals : List Val} {struct : Bool} {ts : Str} (hl : DictLike v keys vals struct ts)
    (hg : DictGood x.o v keys vals) {s s' : St} {attrs : List (Str × AVal)} {links : List (Str × Nat)} {oids : List Nat}
    (hd : RootDict x m (dictAttrs x.o (keyInfos keys) struct ts) ((keyInfos keys).isNone || x.o.deleteUnused) (dictItems x.o keys vals) s s' attrs links oids)
    (ha : RootAlone x.o s.heap v) : ReadsBack x (m + 1) s'.heap [] v := by
  intro y G p j hy hyr hG hh hp hj
  have hr' : RefsPathOk y.o := ⟨by rw [hy]; exact hr.abs, by rw [hy]; exact hr.notRoot⟩
  rw [fileRead_root hr' hp hG (by rw [hh]; exact hd.tree.root), hh]
  obtain ⟨j', rfl⟩ : ∃ j', j = j' + 1 := ⟨j - 1, by omega⟩
  obtain ⟨b, hb⟩ := ha.attrs
  have hset := hd.set [] b hb
  obtain ⟨r, hrr⟩ := ha.refs
  have hV : viewOf s'.heap 0 = some (Obj.view ⟨attrs, .group links⟩) := by rw [viewOf, hd.obj]; rfl
  have hlk : linksOf s'.heap 0 = links := by rw [linksOf_obj, hd.obj]; rfl
  have hrc : commonComps y.o.refsPath = [r] := by rw [hy]; exact hrr
  have hrd : r ≠ [dot] := by
    have := plainComps x
    rw [show refsComps x.o = [r] from hrr] at this
    exact this r (by simp)
  have hex : exclOf y.o s'.heap = aget links r := by
    unfold exclOf
    rw [hrc, resolve, hlook_plain _ _ _ hrd, hlk]
    cases aget links r <;> rfl
  obtain ⟨t1, t2⟩ := dict_ts hR.pyMeta hset (.group links)
  refine dictLike_read hl hg.len hV t1 t2 (items_read (oids := oids) hR hg.len hg.kind hset ?_ ?_)
  · intro k q hkq
    rcases hd.only k q hkq with h | h | ⟨h, h2⟩
    · exact Or.inl h
    · right
      rw [show refsComps x.o = [r] from hrr] at h
      cases h
      rw [hex, hkq]
    · right
      have hc : ¬ Clears x.o v := by
        intro hc
        have := hg.clears.mpr hc
        rw [Bool.or_eq_false_iff] at h2
        rcases this with h | h
        · rw [h2.1] at h; cases h
        · rw [h2.2] at h; cases h
      have := ha.others hc k ⟨q, lpath_one.mpr h⟩
      rw [hrr] at this
      cases this
      rw [hex, hkq]
  · refine all2_mono ?_ (all2_mem hd.read)
    rintro i q ⟨h0, h1, h2, h3⟩
    refine ⟨⟨h2, ?_⟩, h3 y.o _ _ j' (hg.readable y.o hyr i h0) (fun _ _ => rfl) ?_ (by omega)⟩
    · intro hc
      unfold exclOf at hc
      rw [hy] at hc
      exact h1.2.2 ⟨_, List.prefix_refl _, hc⟩
    · intro p hp hn
      unfold exclOf at hp
      rw [hy] at hp
      exact hn.2.2 ⟨_, List.prefix_refl _, hp⟩

theorem putDataset_root {s : St} (hg : isGroup s.heap 0 = true) (a : Arr) (f : Filters) : putDataset 0 [dot] a f s = (.error .valueError, s) := by
  obtain ⟨at', l, h⟩ := isGroup_get hg
  unfold putDataset
  rw [run_getSt]
  have e : (if nameOk [dot] = true then hlook s.heap 0 [dot] else none) = some 0 := rfl
  rw [e]
  dsimp only
  rw [h]
  dsimp only
  rw [if_pos rfl]
  unfold createDset createObj
  rw [if_neg (by decide), if_pos (Or.inr (Or.inr (show (hlook s.heap 0 [dot]).isSome = true from rfl)))]

theorem putAttrs_root {s : St} (hg : isGroup s.heap 0 = true) (a : Arr) (f : Filters) (new : List (Str × AIn)) :
    (putDataset 0 [dot] a f >>= fun p => setAttrsM p new true >>= fun _ => (pure (some p) : M (Option Nat))) s = (.error .valueError, s) :=
  run_bind_err (putDataset_root hg a f)

theorem writeNp_root {x : Ctx} {s : St} (hg : isGroup s.heap 0 = true) (c : Cont) (a : Arr) (ts : Str) :
    ∃ res, writeNp x 0 [dot] c a ts s = (res, s) ∧ ∀ p, res ≠ .ok (some p) := by
  unfold writeNp
  split
  · exact ⟨_, rfl, fun p h => by cases h⟩
  · split
    · exact ⟨_, rfl, fun p h => by cases h⟩
    · cases hp : prepare x.o c a with
      | error e => exact ⟨.error e, rfl, fun p h => by cases h⟩
      | ok d => exact ⟨.error .valueError, putAttrs_root hg _ _ _, fun p h => by cases h⟩

theorem writeNpObj_root {x : Ctx} {wr : Wr} (hwr : WrOk x wr) {s s' : St} (hi : Inv x s) (ht : Tree s.heap) {c : Cont} {shape : List Nat} {elems : List Val} {ts : Str}
    {res : Res (Option Nat)} (h : writeNpObj x wr 0 [dot] c shape elems ts s = (res, s')) : ∃ e, res = .error e := by
  unfold writeNpObj at h
  generalize (if x.o.reverse = true then transposeData _ elems else elems) = el at h
  split at h
  · rw [run_bind_ok (show (pure _ : M Arr) s = (.ok _, s) from rfl), putAttrs_root ht.root] at h
    cases h
    exact ⟨_, rfl⟩
  · rcases bind_run (writeObjectArray x wr el) _ s with ⟨l, s1, e1, e2⟩ | ⟨e, s1, e1, e2⟩
    · have st := writeObjectArray_step hwr hi e1
      have ht1 := tree_step ht st (fun h => h)
      rw [run_bind_ok (e2.trans (run_pure _ _)), putAttrs_root ht1.root] at h
      cases h
      exact ⟨_, rfl⟩
    · rw [run_bind_err e2] at h
      cases h
      exact ⟨_, rfl⟩

theorem mapping_like {o : COpts} {v : Val} (hm : IsMapping v) (hg : Good o v) : ∃ keys vals struct ts, DictLike v keys vals struct ts := by
  cases v with
  | dict k keys vals => exact ⟨keys, vals, _, _, .dict k keys vals⟩
  | record k vals =>
    cases hg with
    | record _ _ h1 _ => exact ⟨_, vals, _, _, .record k vals (recordFields_eq k ▸ h1)⟩
  | _ => exact hm.elim

theorem fields_like {v : Val} {texts : List Str} {vals : List Val} (hf : HasFields v texts vals) :
    ∃ keys struct ts, DictLike v keys vals struct ts ∧ All2 KeyText keys texts ∧ vals.length = keys.length := by
  cases hf with
  | dict k keys _ _ h1 h2 => exact ⟨keys, _, _, .dict k keys vals, h1, h2⟩
  | record k _ h =>
    rw [recordFields_eq] at h ⊢
    exact ⟨_, _, _, .record k vals h, allKeyText_str _, by simpa using h⟩

theorem fields_items (o : COpts) {keys vals : List Val} {texts : List Str} (h1 : All2 KeyText keys texts) (hl : vals.length = keys.length) {t k : Str} {w : Val}
    (ht : (t, w) ∈ texts.zip vals) (hk : escapePath t = .ok k) : (k, w) ∈ dictItems o keys vals := by
  obtain ⟨l, h1, h2, _, h4, _⟩ := keyInfos_text h1
  have hdi : dictItems o keys vals = (l.map (·.1)).zip vals := by unfold dictItems; rw [h1]
  rw [hdi]
  exact (zip_names h4 vals k w).mpr ⟨t, ht, hk⟩

/-- Nothing but mappings and structured arrays can be written to the root Group. -/
theorem simple_root {x : Ctx} (hN : NamesOk x.o) {n : Nat} {v : Val} (hv : IsSimple v) {s s' : St} (hi : Inv x s) (ht : Tree s.heap) {res : Res (Option Nat)}
    (h : writeData x n 0 [slash] [dot] v s = (res, s')) :
    (∀ p, res ≠ .ok (some p)) ∧ ((∀ k l, v ≠ .seq k l) → (∀ c sh l, v ≠ .npObj c sh l) → s' = s) := by
  cases n with
  | zero => cases h; exact ⟨(fun p h => by cases h), fun _ _ => rfl⟩
  | succ n =>
    have hwr := writeData_post hN.keys hN.vals (x := x) n
    have leaf : (match leafOf v with | some (c, a) => writeNp x 0 [dot] c a (tsOf v) | none => raise .notImplemented) s = (res, s') →
        (∀ p, res ≠ .ok (some p)) ∧ ((∀ k l, v ≠ .seq k l) → (∀ c sh l, v ≠ .npObj c sh l) → s' = s) := by
      intro h
      cases hl : leafOf v with
      | none => rw [hl] at h; cases h; exact ⟨(fun p h => by cases h), fun _ _ => rfl⟩
      | some ca =>
        obtain ⟨c, a⟩ := ca
        rw [hl] at h
        obtain ⟨r, h1, h2⟩ := writeNp_root (x := x) ht.root c a (tsOf v)
        have h' : writeNp x 0 [dot] c a (tsOf v) s = (res, s') := h
        rw [h1] at h'
        cases h'
        exact ⟨h2, fun _ _ => rfl⟩
    cases v with
    | npObj c shape elems =>
      obtain ⟨e, rfl⟩ := writeNpObj_root hwr hi ht h
      exact ⟨(fun p h => by cases h), fun _ h => absurd rfl (h _ _ _)⟩
    | seq k elems =>
      obtain ⟨e, rfl⟩ := writeNpObj_root hwr hi ht h
      exact ⟨(fun p h => by cases h), fun h => absurd rfl (h _ _)⟩
    | dict k keys vals => exact hv.elim
    | record k vals => exact hv.elim
    | npStruct c shape names types elems => exact hv.elim
    | _ => exact leaf h

end HS
