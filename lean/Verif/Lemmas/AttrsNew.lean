import Verif.Lemmas.DictEntries
import Verif.Lemmas.MatFile
/-
Which attributes something written to an unused place gets.
-/
namespace HS
open Spec

/-- The attributes for a value, and what is stored for it. -/
inductive NewAttrs (o : COpts) : Val → Body → List (Str × AIn) → Prop
  | leaf (v : Val) (c : Cont) (a d : Arr) (f : Filters) : leafOf v = some (c, a) → prepare o c a = .ok d →
      ¬ (o.matlab = true ∧ a.dt.matlabClass = none ∧ o.action ≠ .ignore) →
      NewAttrs o v (.dset (h5Store d) f) (npAttrs o c a.dt a.shape a.isEmpty (h5Store d).dt (tsOf v))
  | npObj (c : Cont) (shape : List Nat) (elems : List Val) (d : Arr) (f : Filters) :
      (d.dt = if o.storeShape && prodN shape == 0 then .u64 else .ref) →
      NewAttrs o (.npObj c shape elems) (.dset (h5Store d) f) (npAttrs o c .object shape (prodN shape == 0) d.dt (tsOf (.npObj c shape elems)))
  | seq (k : SeqKind) (elems : List Val) (d : Arr) (f : Filters) :
      (d.dt = if o.storeShape && prodN [elems.length] == 0 then .u64 else .ref) →
      NewAttrs o (.seq k elems) (.dset (h5Store d) f) (npAttrs o .ndarray .object [elems.length] (prodN [elems.length] == 0) d.dt (tsOf (.seq k elems)))
  | dict (k : DictKind) (keys vals : List Val) (l : List (Str × Nat)) :
      NewAttrs o (.dict k keys vals) (.group l) (dictAttrs o (keyInfos keys) (k != .counter) (tsOf (.dict k keys vals)))
  | record (k : RecKind) (vals : List Val) (l : List (Str × Nat)) :
      NewAttrs o (.record k vals) (.group l) (dictAttrs o (keyInfos (k.fieldNames.map Val.str)) true (tsOf (.record k vals)))
  | structEmpty (c : Cont) (shape : List Nat) (names : List Str) (types : List FT) (elems : List Val) (esc : List Str) (f : Filters) :
      names.mapM escapePath = .ok esc → (o.storeShape && prodN shape == 0) = true →
      NewAttrs o (.npStruct c shape names types elems) (.dset (h5Store (shapeArr (shape2d o shape))) f) (structAttrs o c types shape false esc (structTypeString c))
  | struct (c : Cont) (shape : List Nat) (names : List Str) (types : List FT) (elems : List Val) (esc : List Str) (l : List (Str × Nat)) :
      names.mapM escapePath = .ok esc → (o.storeShape && prodN shape == 0) = false → structAsGroup o names types = true →
      NewAttrs o (.npStruct c shape names types elems) (.group l) (structAttrs o c types shape true esc (structTypeString c))
  | table (c : Cont) (shape : List Nat) (names : List Str) (types : List FT) (elems : List Val) (esc : List Str) (f : Filters) :
      names.mapM escapePath = .ok esc → (o.storeShape && prodN shape == 0) = false → structAsGroup o names types = false →
      ¬ (o.matlab = true ∧ o.structAsStruct = false ∧ o.action = .discard) →
      NewAttrs o (.npStruct c shape names types elems) (.dset (h5Store (tableArr o shape names types elems)) f) (tableAttrs o c types shape esc (structTypeString c))

/-- The object has these attributes and is of that kind. -/
def HasAttrs (h : Heap) (q : Nat) (at' : List (Str × AVal)) : Prop := ∃ l, h[q]? = some ⟨at', .group l⟩

theorem hasAttrs_step {x : Ctx} {A D} {s s' : St} (f : Fr x A D s s') {q : Nat} {at' : List (Str × AVal)} (hD : ¬ D q) (h : HasAttrs s.heap q at') : HasAttrs s'.heap q at' := by
  obtain ⟨l, h⟩ := h
  obtain ⟨o', h1, h2, h3⟩ := f.obj q _ h hD
  obtain ⟨a, b⟩ := o'
  cases b with
  | group l' => exact ⟨l', by rw [h1, show a = at' from h2]⟩
  | dset b' f' => exact h3.elim

theorem writeItems_attrs {x : Ctx} {wr : Wr} (hwr : WrOk x wr) (hat : WrAt x wr) {s s' : St} {g : Nat} {gname : Str} {items : List (Str × Val)} (hi : Inv x s)
    (hg : g < s.heap.length) (hs : Sep x s g) (hnl : NoLoop s g) (hk : ∀ i ∈ items, i.1 ≠ [dot]) {at' : List (Str × AVal)} (ha : HasAttrs s.heap g at')
    (h : writeItems x wr g gname items s = (.ok (), s')) : HasAttrs s'.heap g at' := by
  induction items generalizing s with
  | nil => cases h; exact ha
  | cons i items ih =>
    obtain ⟨k0, v⟩ := i
    have hkd0 : k0 ≠ [dot] := hk (k0, v) (by simp)
    have hrest : ∀ i ∈ items, i.1 ≠ [dot] := fun i hi => hk i (by simp [hi])
    rw [writeItems] at h
    rcases bind_run (wr g gname k0 v) _ s with ⟨ob, s1, e1, e2⟩ | ⟨e, s1, e1, e2⟩
    · rw [e2] at h
      have hpre := hs.pre hi hg hkd0
      have po := hwr s g gname k0 v s1 _ hpre e1
      have st := po.below hi hg hs
      have hg1 : g < s1.heap.length := Nat.lt_of_lt_of_le hg st.fr.len
      have hs1 := hs.keep st.fr hi hg
      have hoff : resolve s.heap 0 (refsComps x.o) ≠ some g := fun hc => hs g .refl ⟨_, List.prefix_refl _, hc⟩
      have ha1 : HasAttrs s1.heap g at' := hasAttrs_step po.step.fr (by rintro ⟨q, h1, h2⟩; exact hnl k0 q h1 h2) ha
      have hnl1 := hnl.keep st.fr hg
      cases ob with
      | none =>
        dsimp only at h
        exact ih st.inv hg1 hs1 hnl1 hrest ha1 h
      | some p =>
        dsimp only at h
        have hl := hat.link _ _ _ _ _ _ _ hpre hoff hnl e1
        rcases bind_run (setH5Path x p (asciiEnc gname)) _ s1 with ⟨u, s2, e3, e4⟩ | ⟨e, s2, e3, e4⟩
        · rw [e4] at h
          have sth := setH5Path_step st.inv p _ e3
          have ha2 : HasAttrs s2.heap g at' := hasAttrs_step sth.fr (fun e => by
            have e : g = p := e
            rw [← e] at hl
            exact hnl1 _ _ hl .refl) ha1
          exact ih sth.inv (Nat.lt_of_lt_of_le hg1 sth.fr.len) (hs1.keep sth.fr st.inv hg1) (hnl1.keep sth.fr hg1) hrest ha2 h
        · rw [e4] at h; cases h
    · rw [e2] at h; cases h

theorem writeFields_attrs {x : Ctx} {wr : Wr} (hwr : WrOk x wr) (hat : WrAt x wr) {s s' : St} {g : Nat} {gname : Str} {others : Bool} {items : List (Str × Val)} (hi : Inv x s)
    (hg : g < s.heap.length) (hs : Sep x s g) (hnl : NoLoop s g) (hk : ∀ i ∈ items, i.1 ≠ [dot]) {at' : List (Str × AVal)} (ha : HasAttrs s.heap g at')
    (h : writeFields x wr g gname others items s = (.ok (), s')) : HasAttrs s'.heap g at' := by
  induction items generalizing s with
  | nil => cases h; exact ha
  | cons i items ih =>
    obtain ⟨k0, v⟩ := i
    have hkd0 : k0 ≠ [dot] := hk (k0, v) (by simp)
    have hrest : ∀ i ∈ items, i.1 ≠ [dot] := fun i hi => hk i (by simp [hi])
    rw [writeFields] at h
    rcases bind_run (wr g gname k0 v) _ s with ⟨ob, s1, e1, e2⟩ | ⟨e, s1, e1, e2⟩
    · rw [e2] at h
      have hpre := hs.pre hi hg hkd0
      have po := hwr s g gname k0 v s1 _ hpre e1
      have st := po.below hi hg hs
      have hg1 : g < s1.heap.length := Nat.lt_of_lt_of_le hg st.fr.len
      have hs1 := hs.keep st.fr hi hg
      have hoff : resolve s.heap 0 (refsComps x.o) ≠ some g := fun hc => hs g .refl ⟨_, List.prefix_refl _, hc⟩
      have ha1 : HasAttrs s1.heap g at' := hasAttrs_step po.step.fr (by rintro ⟨q, h1, h2⟩; exact hnl k0 q h1 h2) ha
      have hnl1 := hnl.keep st.fr hg
      cases ob with
      | none =>
        dsimp only at h
        exact ih st.inv hg1 hs1 hnl1 hrest ha1 h
      | some p =>
        dsimp only at h
        have hl := hat.link _ _ _ _ _ _ _ hpre hoff hnl e1
        rcases bind_run (setAttrsM p (if x.o.matlab then [(p!"H5PATH", .string gname)] else []) others) (fun _ => writeFields x wr g gname others items) s1 with ⟨u, s2, e3, e4⟩ | ⟨e, s2, e3, e4⟩
        · have h := e4.symm.trans h
          have sth := setAttrsM_step st.inv p _ others e3
          have ha2 : HasAttrs s2.heap g at' := hasAttrs_step sth.fr (fun e => by
            have e : g = p := e
            rw [← e] at hl
            exact hnl1 _ _ hl .refl) ha1
          exact ih sth.inv (Nat.lt_of_lt_of_le hg1 sth.fr.len) (hs1.keep sth.fr st.inv hg1) (hnl1.keep sth.fr hg1) hrest ha2 h
        · have h := e4.symm.trans h; cases h
    · rw [e2] at h; cases h

/-- Nothing is at the place. -/
abbrev Unused (s : St) (g : Nat) (name : Str) : Prop := ∀ q, ¬ LinkAt s.heap g name q

theorem getGroup_new {g g2 : Nat} {name : Str} {s s1 : St} (hd : name ≠ [dot]) (hf : Unused s g name) (h : getGroup g name s = (.ok g2, s1)) :
    s1.heap[g2]? = some ⟨[], .group []⟩ ∧ LinkAt s1.heap g name g2 := by
  unfold getGroup at h
  rcases getLink_run g name s with hh | ⟨e, hh⟩
  · rw [run_bind_ok hh, hlook_plain _ _ _ hd] at h
    cases hl : aget (linksOf s.heap g) name with
    | none =>
      rw [hl] at h
      obtain ⟨h1, h2, _⟩ := createObj_done (h : createObj g name ⟨[], .group []⟩ s = _) rfl
      exact ⟨h1, h2⟩
    | some q => exact absurd hl (hf q)
  · rw [run_bind_err hh] at h; cases h

theorem deleteOthers_attrs {c : Prop} [Decidable c] {g2 : Nat} {names : List Str} {s s' : St} {at' : List (Str × AVal)} (ha : HasAttrs s.heap g2 at')
    (h : (if c then deleteOthers g2 names else pure () : M Unit) s = (.ok (), s')) : HasAttrs s'.heap g2 at' := by
  by_cases hc : c
  · rw [if_pos hc] at h
    unfold deleteOthers at h
    cases h
    obtain ⟨l, hl⟩ := ha
    refine ⟨l.filter fun p => names.contains p.1, ?_⟩
    dsimp only
    rw [getElem?_update, if_pos rfl, hl]
    rfl
  · rw [if_neg hc] at h
    cases h; exact ha

theorem deleteOthers_keep {x : Ctx} {c : Prop} [Decidable c] {g2 : Nat} {names : List Str} {s s' : St} (hi : Inv x s) (hg : g2 < s.heap.length) (hs : Sep x s g2) (hnl : NoLoop s g2)
    (h : (if c then deleteOthers g2 names else pure () : M Unit) s = (.ok (), s')) : Inv x s' ∧ g2 < s'.heap.length ∧ Sep x s' g2 ∧ NoLoop s' g2 := by
  by_cases hc : c
  · rw [if_pos hc] at h
    have sd := deleteOthers_step hi g2 hs names
    unfold deleteOthers at h
    cases h
    exact ⟨sd.inv, Nat.lt_of_lt_of_le hg sd.fr.len, hs.keep sd.fr hi hg, hnl.keep sd.fr hg⟩
  · rw [if_neg hc] at h
    cases h; exact ⟨hi, hg, hs, hnl⟩

theorem setAttrs_hasAttrs {p : Nat} {new : List (Str × AIn)} {d : Bool} {s s' : St} {a0 : List (Str × AVal)} (ha : HasAttrs s.heap p a0) (h : setAttrsM p new d s = (.ok (), s')) :
    ∃ at', setAttributesAll a0 new d = (.ok (), at') ∧ HasAttrs s'.heap p at' := by
  obtain ⟨o, at', h1, h2, h3⟩ := setAttrs_done h
  obtain ⟨l, hl⟩ := ha
  rw [hl] at h1
  cases h1
  exact ⟨at', h2, l, by rw [h3]; exact getElem?_set_attrs hl⟩

theorem putAttrs_new {g : Nat} {name : Str} {a : Arr} {f : Filters} {new : List (Str × AIn)} {s s' : St} {ob : Option Nat} (hd : name ≠ [dot]) (hf : Unused s g name)
    (h : (putDataset g name a f >>= fun p => setAttrsM p new true >>= fun _ => (pure (some p) : M (Option Nat))) s = (.ok ob, s')) :
    ∃ q at', ob = some q ∧ setAttributesAll [] new true = (.ok (), at') ∧ s'.heap[q]? = some ⟨at', .dset (h5Store a) f.stored⟩ := by
  rcases bind_run (putDataset g name a f) (fun p => setAttrsM p new true >>= fun _ => (pure (some p) : M (Option Nat))) s with ⟨p, s1, e1, e2⟩ | ⟨e, s1, e1, e2⟩
  · have h' := e2.symm.trans h
    obtain ⟨hl, at0, f', h0, how⟩ := putDataset_done hd e1
    rcases bind_run (setAttrsM p new true) (fun _ => (pure (some p) : M (Option Nat))) s1 with ⟨u, s2, e3, e4⟩ | ⟨e, s2, e3, e4⟩
    · have h'' := e4.symm.trans h'
      rw [run_pure] at h''
      cases h''
      obtain ⟨o, at2, h1, h2, h3⟩ := setAttrs_done e3
      rw [h0] at h1
      cases h1
      cases how with
      | made _ => exact ⟨p, at2, rfl, h2, by rw [h3]; exact getElem?_set_attrs h0⟩
      | inPlace hl' _ _ _ _ => exact absurd hl' (hf _)
    · have h'' := e4.symm.trans h'
      cases h''
  · have h' := e2.symm.trans h
    cases h'

theorem writeNpObj_new {x : Ctx} {wr : Wr} (hwr : WrOk x wr) {g : Nat} {name : Str} {c : Cont} {shape : List Nat} {elems : List Val} {ts : Str} {s s' : St} {ob : Option Nat}
    (hp : Pre x s g name) (hoff : resolve s.heap 0 (refsComps x.o) ≠ some g) (hf : Unused s g name)
    (h : writeNpObj x wr g name c shape elems ts s = (.ok ob, s')) :
    ∃ q at' d f, ob = some q ∧ setAttributesAll [] (npAttrs x.o c .object shape (prodN shape == 0) d.dt ts) true = (.ok (), at') ∧
      s'.heap[q]? = some ⟨at', .dset (h5Store d) f⟩ ∧ d.dt = if x.o.storeShape && prodN shape == 0 then .u64 else .ref := by
  unfold writeNpObj at h
  generalize (if x.o.reverse = true then transposeData (if x.o.atleast2d = true then atleast2dShape shape else shape) elems else elems) = el at h
  generalize (if x.o.reverse = true then (if x.o.atleast2d = true then atleast2dShape shape else shape).reverse else (if x.o.atleast2d = true then atleast2dShape shape else shape)) = sh' at h
  split at h
  · rename_i hc
    rw [run_pure_bind] at h
    obtain ⟨q, at', h1, h2, h3⟩ := putAttrs_new hp.nd hf h
    exact ⟨q, at', _, _, h1, h2, h3, by rw [if_pos hc]; rfl⟩
  · rename_i hc
    rcases bind_run (writeObjectArray x wr el >>= fun refs => (pure ⟨.ref, sh', refs.map El.ref⟩ : M Arr)) _ s with ⟨d, s1, e1, e2⟩ | ⟨e, s1, e1, e2⟩
    · rw [e2] at h
      rcases bind_run (writeObjectArray x wr el) (fun refs => (pure ⟨.ref, sh', refs.map El.ref⟩ : M Arr)) s with ⟨l, s2, e3, e4⟩ | ⟨e, s2, e3, e4⟩
      · rw [e4, run_pure] at e1; cases e1
        have st := writeObjectArray_step hwr hp.inv e3
        have hf1 : Unused s1 g name := by
          intro q hq
          unfold LinkAt at hq
          rw [st.fr.link_keep hp hoff (fun h => h) (fun h => h)] at hq
          exact hf q hq
        obtain ⟨q, at', h1, h2, h3⟩ := putAttrs_new hp.nd hf1 h
        exact ⟨q, at', _, _, h1, h2, h3, by rw [if_neg hc]⟩
      · rw [e4] at e1; cases e1
    · rw [e2] at h; cases h

theorem writeData_new {x : Ctx} (hk : x.o.keysName ≠ [dot]) (hv : x.o.valuesName ≠ [dot]) {n g : Nat} {gname name : Str} {v : Val} {s s' : St} {q : Nat} (hp : Pre x s g name)
    (hoff : resolve s.heap 0 (refsComps x.o) ≠ some g) (hf : Unused s g name) (h : writeData x n g gname name v s = (.ok (some q), s')) :
    ∃ at' b new, NewAttrs x.o v b new ∧ setAttributesAll [] new true = (.ok (), at') ∧ s'.heap[q]? = some ⟨at', b⟩ := by
  cases n with
  | zero => cases h
  | succ n =>
    have hwr := writeData_post hk hv n
    have hat := writeData_at hk hv n
    have hleaf : ∀ w : Val, (match leafOf w with | some (c, a) => writeNp x g name c a (tsOf w) | none => raise .notImplemented) s = (.ok (some q), s') →
        ∃ at' b new, NewAttrs x.o w b new ∧ setAttributesAll [] new true = (.ok (), at') ∧ s'.heap[q]? = some ⟨at', b⟩ := by
      intro w h
      cases hl : leafOf w with
      | none => rw [hl] at h; cases h
      | some ca =>
        obtain ⟨c, a⟩ := ca
        rw [hl] at h
        rcases writeNp_done hp.nd h with ⟨h1, _⟩ | ⟨d, q, at0, f', at', h0, h2, h3, h4, h5, h6, h7⟩
        · cases h1
        · cases h2
          cases h4 with
          | made _ => exact ⟨at', _, _, .leaf w c a d _ hl h0 h7, h6, h5⟩
          | inPlace hl' _ _ _ _ => exact absurd hl' (hf _)
    have hd : ∀ keys vals struct ts, writeDict x (writeData x n) g gname name keys vals struct ts s = (.ok (some q), s') →
        ∃ at' l, setAttributesAll [] (dictAttrs x.o (keyInfos keys) struct ts) true = (.ok (), at') ∧ s'.heap[q]? = some ⟨at', .group l⟩ := by
      intro keys vals struct ts h
      obtain ⟨g2, s1, s2, s3, e0, e1, e2, e3, e4⟩ := writeDict_run keys vals struct ts h
      cases e0
      obtain ⟨st, hgs⟩ := getGroup_spec hp e1
      obtain ⟨c1, c2⟩ := getGroup_new hp.nd hf e1
      obtain ⟨t, hs⟩ := hgs q rfl
      obtain ⟨at', h1, h2⟩ := setAttrs_hasAttrs ⟨[], c1⟩ e2
      have h3 := deleteOthers_attrs h2 e3
      have hnl1 : NoLoop s1 q := by
        intro k p hl
        unfold LinkAt linksOf at hl
        rw [c1] at hl
        cases hl
      have sa := setAttrsM_step st.inv q _ true e2
      have hlt : q < s2.heap.length := Nat.lt_of_lt_of_le t.lt sa.fr.len
      obtain ⟨k1, k2, k3, k4⟩ := deleteOthers_keep sa.inv hlt (hs.keep sa.fr st.inv t.lt) (hnl1.keep sa.fr t.lt) e3
      obtain ⟨l, hl⟩ := writeItems_attrs hwr hat k1 k2 k3 k4 (dictItems_ne_dot hk hv keys vals) h3 e4
      exact ⟨at', l, h1, hl⟩
    cases v with
    | npObj c shape elems =>
      obtain ⟨q, at', d, f, h1, h2, h3, h4⟩ := writeNpObj_new hwr hp hoff hf (h : writeNpObj x (writeData x n) g name c shape elems _ s = _)
      cases h1
      exact ⟨at', _, _, .npObj c shape elems d f h4, h2, h3⟩
    | seq k elems =>
      obtain ⟨q, at', d, f, h1, h2, h3, h4⟩ := writeNpObj_new hwr hp hoff hf (h : writeNpObj x (writeData x n) g name .ndarray [elems.length] elems _ s = _)
      cases h1
      exact ⟨at', _, _, .seq k elems d f h4, h2, h3⟩
    | dict k keys vals =>
      obtain ⟨at', l, h1, h2⟩ := hd _ _ _ _ h
      exact ⟨at', _, _, .dict k keys vals l, h1, h2⟩
    | record k vals =>
      obtain ⟨at', l, h1, h2⟩ := hd _ _ _ _ h
      exact ⟨at', _, _, .record k vals l, h1, h2⟩
    | npStruct c shape names types elems =>
      rcases writeStruct_cases h with ⟨_, e, h⟩ | ⟨_, _, _, _, h⟩ | ⟨hnd, esc, he, ⟨h0, h⟩ | ⟨h0, hag, h⟩ | ⟨h0, hg, _, h⟩⟩
      · cases h
      · cases h
      · obtain ⟨q, at', h1, h2, h3⟩ := putAttrs_new hp.nd hf h
        cases h1
        exact ⟨at', _, _, .structEmpty c shape names types elems esc _ he h0, h2, h3⟩
      · obtain ⟨g2, s1, s3, s4, e0, e1, e3, e6, e8⟩ := writeGroup_run h
        cases e0
        obtain ⟨st, hgs⟩ := getGroup_spec hp e1
        obtain ⟨c1, c2⟩ := getGroup_new hp.nd hf e1
        obtain ⟨t, hs⟩ := hgs q rfl
        have hnl1 : NoLoop s1 q := by
          intro k p hl
          unfold LinkAt linksOf at hl
          rw [c1] at hl
          cases hl
        obtain ⟨k1, k2, k3, k4⟩ := deleteOthers_keep st.inv t.lt hs hnl1 e3
        have h3 := deleteOthers_attrs (at' := []) ⟨[], c1⟩ e3
        have h4 := writeFields_attrs hwr hat k1 k2 k3 k4 (structItems_ne_dot he) h3 e6
        obtain ⟨at', h5, l, h6⟩ := setAttrs_hasAttrs h4 e8
        exact ⟨at', _, _, .struct c shape names types elems esc l he h0 hag, h5, h6⟩
      · obtain ⟨q, at', h1, h2, h3⟩ := putAttrs_new hp.nd hf h
        cases h1
        exact ⟨at', _, _, .table c shape names types elems esc _ he h0 hg hnd, h2, h3⟩
    | none => exact hleaf (.none) h
    | ellipsis => exact hleaf (.ellipsis) h
    | notImplemented => exact hleaf (.notImplemented) h
    | bool b => exact hleaf (.bool b) h
    | int i => exact hleaf (.int i) h
    | float f => exact hleaf (.float f) h
    | complex a b => exact hleaf (.complex a b) h
    | str t => exact hleaf (.str t) h
    | bytes b => exact hleaf (.bytes b) h
    | bytearray b => exact hleaf (.bytearray b) h
    | np c a => exact hleaf (.np c a) h
    | dtypeObj t => exact hleaf (.dtypeObj t) h
    | other => exact hleaf (.other) h

/-- What is written through `File` to an unused place. -/
theorem run_new {x : Ctx} (hN : NamesOk x.o) {n : Nat} {F F' : FileS} {ns : List Str} {v : Val} {gs t : Str} {s1 : St} {g : Nat} {ob : Option Nat}
    (hr : WroteRun x n F.st F'.st ns v gs t s1 g ob) (hfree : ¬ Exists F.st.heap ns) (hd : ¬ Discarded x.o v) :
    ∃ q at' b new, LPath F'.st.heap ns q ∧ F'.st.heap[q]? = some ⟨at', b⟩ ∧ NewAttrs x.o v b new ∧ setAttributesAll [] new true = (.ok (), at') := by
  cases ob with
  | none => exact absurd ((writeData_none hr.run).mp rfl) hd
  | some q =>
    have hf : Unused s1 g t := by
      intro q hl
      obtain ⟨_, _, h3, _⟩ := hr.reqG.ok g rfl
      rcases h3 with h3 | h3
      · rw [h3] at hl
        have := hr.path1
        rw [h3] at this
        exact hfree ⟨q, by rw [hr.names]; exact .snoc this hl⟩
      · rw [LinkAt, h3] at hl; cases hl
    have hoff : resolve s1.heap 0 (refsComps x.o) ≠ some g := OffRefs.notRefs hr.tree (hr.names ▸ hr.off) hr.path1
    have hnl := noLoop_of_tree hr.tree hr.path1
    obtain ⟨at', b, new, h1, h2, h3⟩ := writeData_new hN.keys hN.vals hr.pre hoff hf hr.run
    have hl := (writeData_at hN.keys hN.vals n).link _ _ _ _ _ _ _ hr.pre hoff hnl hr.run
    exact ⟨q, at', b, new, by rw [hr.names]; exact .snoc hr.path hl, h3, h1, h2⟩

theorem wrote_new {x : Ctx} (hN : NamesOk x.o) {n : Nat} {F F' : FileS} {p : PathArg} {ns : List Str} {v : Val} (hw : Wrote x n F p ns v F') (hfree : ¬ Exists F.st.heap ns)
    (hd : ¬ Discarded x.o v) :
    ∃ q at' b new, LPath F'.st.heap ns q ∧ F'.st.heap[q]? = some ⟨at', b⟩ ∧ NewAttrs x.o v b new ∧ setAttributesAll [] new true = (.ok (), at') := by
  obtain ⟨gs, t, s1, g, ob, hr⟩ := wrote_run hN hw
  exact run_new hN hr hfree hd

theorem dtClass_eq {dt : DT} {cl : Str} (h : DtClass dt cl) : dt.matlabClass = some cl := by cases h <;> rfl

theorem leafClass {v : Val} {cl : Str} {c : Cont} {a : Arr} (h : DocClass v cl) (hl : leafOf v = some (c, a)) : a.dt.matlabClass = some cl := by
  cases h with
  | int i h1 h2 =>
    rw [leafOf, if_pos ⟨h1, by omega⟩] at hl
    cases hl; rfl
  | bigInt i h1 =>
    rw [leafOf, if_neg (by omega)] at hl
    cases hl; rfl
  | np c a cl h =>
    rw [leafOf] at hl; cases hl
    exact dtClass_eq h
  | none => rw [leafOf] at hl; cases hl; rfl
  | ellipsis => rw [leafOf] at hl; cases hl; rfl
  | notImplemented => rw [leafOf] at hl; cases hl; rfl
  | bool b => rw [leafOf] at hl; cases hl; rfl
  | float b => rw [leafOf] at hl; cases hl; rfl
  | complex a b => rw [leafOf] at hl; cases hl; rfl
  | str s => rw [leafOf] at hl; cases hl; rfl
  | bytes s => rw [leafOf] at hl; cases hl; rfl
  | bytearray s => rw [leafOf] at hl; cases hl; rfl
  | npObj c shape elems => rw [leafOf] at hl <;> first | cases hl | nofun
  | seq k elems => rw [leafOf] at hl <;> first | cases hl | nofun
  | dict k v => rw [leafOf] at hl <;> first | cases hl | nofun
  | orderedDict k v => rw [leafOf] at hl <;> first | cases hl | nofun
  | record k v => rw [leafOf] at hl <;> first | cases hl | nofun
  | npStruct c s n t e => rw [leafOf] at hl <;> first | cases hl | nofun

end HS
