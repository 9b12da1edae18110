import Verif.Lemmas.RtScalar
/-
Round trip of object arrays and sequences.
-/
namespace HS
open Spec

theorem writeObjectArray_rt {x : Ctx} {n B : Nat} {wr : Wr} (hwr : WrOk x wr) (hrt : WrRT x n wr) {s s' : St} {vs : List Val} {l : List Nat} (hi : Inv x s)
    (hg : ∀ v ∈ vs, Good x.o v) (hR : RandOk x s.rpos B) (hB : s'.rpos ≤ B) (h : writeObjectArray x wr vs s = (.ok l, s')) :
    All2 (fun v q => NewObj x s s' q ∧ Reads x n s s' q v) vs l ∧ l.Pairwise (· < ·) := by
  unfold writeObjectArray at h
  rcases bind_run (ensureRefs x) _ s with ⟨r, s1, e1, e2⟩ | ⟨e, s1, e1, e2⟩
  · rw [e2] at h
    obtain ⟨st, hr⟩ := ensureRefs_spec hi e1
    have hr1 := hr r rfl
    rcases bind_run (ensureCanon r) _ s1 with ⟨c, s2, e3, e4⟩ | ⟨e, s2, e3, e4⟩
    · rw [e4] at h
      have st1 := ensureCanon_spec st.inv hr1 e3
      have st2 : Step x noA noD s s2 := st.trans st1 (fun _ _ h => h) (fun _ _ h => h)
      have hr2 := st1.keepRefs hr1
      have str := writeElems_step hwr st2.inv hr2 h
      obtain ⟨h1, h2⟩ := writeElems_rt hwr hrt st2.inv hr2 hg (hR.mono st2.fr.rpos) hB h
      refine ⟨all2_mono ?_ h1, h2⟩
      rintro v q ⟨c1, c2⟩
      exact ⟨⟨Nat.le_trans st2.fr.len c1.1, c1.2⟩, c2.later st2.fr.len (Fr.rfl' (A := noA) (D := noD) str.inv.wf) (fun _ _ => rfl)⟩
    · rw [e4] at h; cases h
  · rw [e2] at h; cases h

theorem toContainer_obj (c : Cont) (shape : List Nat) (elems : List Val) (hc : c = .ndarray ∨ (c = .matrix ∧ shape.length = 2)) (e r : Bool) :
    toContainer (some c.name) p!"object" e r (.obj shape elems) = .ok (.npObj c shape elems) := by
  rcases hc with rfl | ⟨rfl, h⟩
  · rfl
  · match shape, h with
    | [a, b], _ => rfl

theorem mcOf_object (o : COpts) : mcOf o .object = none ∨ mcOf o .object = some p!"cell" := by
  unfold mcOf
  split
  · exact Or.inr rfl
  · exact Or.inl rfl

theorem stringStep_obj (o : COpts) (shape : List Nat) (elems : List Val) :
    stringStep p!"object" (mcOf o .object) (.obj shape elems) = .ok (.obj shape elems) := by
  rcases mcOf_object o with h | h <;> rw [h] <;> rfl

theorem npFinish_obj {o : COpts} (ho : OptsOk o) (c : Cont) (shape : List Nat) (elems : List Val) (hc : c = .ndarray ∨ (c = .matrix ∧ shape.length = 2))
    (hl : elems.length = prodN shape) (ts : Str) (d : NData)
    (hd : prodN shape ≠ 0 → d = .obj (if o.reverse then (if o.atleast2d then atleast2dShape shape else shape).reverse else (if o.atleast2d then atleast2dShape shape else shape))
      (if o.reverse then transposeData (if o.atleast2d then atleast2dShape shape else shape) elems else elems)) :
    npFinish o ts p!"object" shape (some c.name) (prodN shape == 0) (mcOf o .object) d = .ok (.npObj c shape elems) := by
  unfold npFinish
  rw [rev_eq o ho]
  by_cases h0 : prodN shape = 0
  · have he : elems = [] := by
      apply List.eq_nil_of_length_eq_zero; rw [hl, h0]
    subst he
    have hb : (prodN shape == 0) = true := by simp [h0]
    rw [hb]
    have hz : zerosOf .object shape = .obj shape [] := by
      unfold zerosOf
      rw [if_pos rfl, h0]; rfl
    have hTT : ∀ b : Bool, (if b then (if b then (NData.obj shape [] : NData).T else NData.obj shape []).T else (if b then (NData.obj shape [] : NData).T else NData.obj shape [])) = .obj shape [] := by
      intro b
      cases b with
      | false => rfl
      | true =>
        simp only [if_true, NData.T, List.reverse_reverse]
        rw [transpose_transpose shape ([] : List Val) (by rw [h0]; rfl)]
    show (stringStep p!"object" (mcOf o .object) (if o.reverse then (if o.reverse then (zerosOf .object shape).T else zerosOf .object shape).T
      else (if o.reverse then (zerosOf .object shape).T else zerosOf .object shape)) >>= fun d => reshapeStep shape d >>= fun d =>
        toContainer (some c.name) p!"object" true (ts == p!"numpy.recarray") d) = _
    rw [hz, hTT, stringStep_obj]
    show (reshapeStep shape (.obj shape []) >>= fun d => toContainer (some c.name) p!"object" true (ts == p!"numpy.recarray") d) = _
    rw [reshapeStep, if_neg (by simp [NData.shape])]
    exact toContainer_obj c shape [] hc _ _
  · have hb : (prodN shape == 0) = false := by simp [h0]
    rw [hb]
    show (stringStep p!"object" (mcOf o .object) (if o.reverse then d.T else d) >>= fun d => reshapeStep shape d >>= fun d =>
        toContainer (some c.name) p!"object" false (ts == p!"numpy.recarray") d) = _
    have hT : (if o.reverse then d.T else d) = .obj (if o.atleast2d then atleast2dShape shape else shape) elems := by
      rw [hd h0]
      cases o.reverse with
      | false => rfl
      | true =>
        simp only [if_true, NData.T, List.reverse_reverse]
        rw [transpose_transpose]
        rw [hl]
        split
        · rw [prodN_atleast2d]
        · rfl
    rw [hT, stringStep_obj]
    show (reshapeStep shape (.obj (if o.atleast2d then atleast2dShape shape else shape) elems) >>= fun d =>
      toContainer (some c.name) p!"object" false (ts == p!"numpy.recarray") d) = _
    have hr : reshapeStep shape (.obj (if o.atleast2d then atleast2dShape shape else shape) elems) = .ok (.obj shape elems) := by
      have hpr : prodN shape = prodN (if o.atleast2d then atleast2dShape shape else shape) := by
        split
        · rw [prodN_atleast2d]
        · rfl
      generalize (if o.atleast2d then atleast2dShape shape else shape) = sh at hpr
      unfold reshapeStep
      by_cases hn : shape = sh
      · subst hn
        rw [if_neg (by simp [NData.shape])]
      · rw [if_pos ⟨hn, hpr⟩]
    rw [hr]
    exact toContainer_obj c shape elems hc _ _

theorem mapM_refs {rd : Rd} {vs : List Val} {l : List Nat} (h : All2 (fun v q => rd q = .ok v) vs l) :
    (l.map El.ref).mapM (fun e => match e with | .ref p => rd p | _ => .error .valueError) = .ok vs := by
  induction h with
  | nil => rfl
  | cons h1 _ ih =>
    rw [List.map_cons, List.mapM_cons]
    dsimp only
    rw [h1, ih]
    rfl

theorem writeNpObj_rt {x : Ctx} (ho : OptsOk x.o) (hm : x.o.pyMeta = true) {n B : Nat} {wr : Wr} (hwr : WrOk x wr) (hrt : WrRT x n wr) {s s' : St} {ob : Option Nat}
    {g : Nat} {name : Str} (hp : Pre x s g name) (hf : Fresh s g name) (hsl : Slot x B s g name) (hR : RandOk x s.rpos B) (hB : s'.rpos ≤ B) (c : Cont)
    (shape : List Nat) (elems : List Val) (ts : Str) (hc : c = .ndarray ∨ (c = .matrix ∧ shape.length = 2)) (hl : elems.length = prodN shape)
    (hg : ∀ e ∈ elems, Good x.o e) (h : writeNpObj x wr g name c shape elems ts s = (.ok ob, s')) :
    ∃ oid, ob = some oid ∧ NewObj x s s' oid ∧ LinkAt s'.heap g name oid ∧
      ∃ ob', viewOf s'.heap oid = some ob' ∧ attrToString (aget ob'.attrs p!"Python.Type") = .ok (some ts) ∧
        (∃ mc, attrToString (aget ob'.attrs p!"MATLAB_class") = .ok mc) ∧
        ∀ (ro : COpts) (V : View) (excl : Option Nat) (m : Nat), ReadableWith x.o ro (.npObj c shape elems) → (∀ p, NewObj x s s' p → V p = viewOf s'.heap p) → (∀ q, excl = some q → ¬ NewObj x s s' q) → n ≤ m →
          readNp (looksMulti V) (readData ro V excl m) ro excl ob' = .ok (.npObj c shape elems) := by
  have po := writeNpObj_post hwr hp c shape elems ts h
  unfold writeNpObj at h
  have main : ∀ (d : Arr) (s1 : St), Step x noA noD s s1 → s1.rpos ≤ B → 
      (putDataset g name d (filtersFor x.o d) >>= fun p => setAttrsM p (npAttrs x.o c .object shape (prodN shape == 0) d.dt ts) true >>= fun _ => (pure (some p) : M (Option Nat))) s1 = (.ok ob, s') →
      (Step x (oneA g name) noD s1 s' → ∀ (ro : COpts) (V : View) (excl : Option Nat) (m : Nat), ReadableWith x.o ro (.npObj c shape elems) → (∀ p, NewObj x s s' p → V p = viewOf s'.heap p) → (∀ q, excl = some q → ¬ NewObj x s s' q) → n ≤ m →
        ∃ nd, readDset (readData ro V excl m) (h5Store d) = .ok nd ∧
        (prodN shape ≠ 0 → nd = .obj (if x.o.reverse then (if x.o.atleast2d then atleast2dShape shape else shape).reverse else (if x.o.atleast2d then atleast2dShape shape else shape))
      (if x.o.reverse then transposeData (if x.o.atleast2d then atleast2dShape shape else shape) elems else elems))) →
      ∃ oid, ob = some oid ∧ NewObj x s s' oid ∧ LinkAt s'.heap g name oid ∧
      ∃ ob', viewOf s'.heap oid = some ob' ∧ attrToString (aget ob'.attrs p!"Python.Type") = .ok (some ts) ∧
        (∃ mc, attrToString (aget ob'.attrs p!"MATLAB_class") = .ok mc) ∧
        ∀ (ro : COpts) (V : View) (excl : Option Nat) (m : Nat), ReadableWith x.o ro (.npObj c shape elems) → (∀ p, NewObj x s s' p → V p = viewOf s'.heap p) → (∀ q, excl = some q → ¬ NewObj x s s' q) → n ≤ m →
          readNp (looksMulti V) (readData ro V excl m) ro excl ob' = .ok (.npObj c shape elems) := by
    intro d s1 st hB1 h hrd
    have hp1 := hp.keep st
    have hf1 := hf.keep st hp hsl hB1
    have po1 := putAttrs_post hp1 _ _ _ h
    obtain ⟨h1, h2, h3, _, attrs, h4, h5⟩ := putAttrs_fresh hp1 hf1 d (filtersFor x.o d) _ h
    subst h1
    have t := po.ok _ rfl
    refine ⟨_, rfl, ⟨st.fr.len, t.lt, t.off⟩, h3, _, by unfold viewOf; rw [h5]; rfl, ?_⟩
    refine ⟨(readNp_fresh hm h4 _ _ x.o (fun _ => false) (fun _ => .error .other) none).1, ⟨_, (readNp_fresh hm h4 _ _ x.o (fun _ => false) (fun _ => .error .other) none).2.1⟩, ?_⟩
    intro ro V excl m hro c1 c2 c3
    obtain ⟨nd, d1, d2⟩ := hrd (po1.fresh hf1) ro V excl m hro c1 c2 c3
    rw [(readNp_fresh hm h4 _ _ ro _ _ excl).2.2, d1]
    show npFinish ro ts p!"object" shape (some c.name) (prodN shape == 0) (mcOf x.o .object) nd = _
    rw [npFinish_opts (o := x.o) (by
      rcases hro.order with hro | ⟨hma, _⟩
      · exact Or.inr hro
      · unfold mcOf; rw [if_pos hma]; exact Or.inl rfl)]
    exact npFinish_obj ho c shape elems hc hl ts nd d2
  split at h
  · rename_i hs
    rw [run_pure_bind] at h
    refine main _ s (Step.refl hp.inv) ?_ h ?_
    · have := po.step.fr.rpos; omega
    · intro _ ro V excl m _ _ _ _
      refine ⟨_, rfl, ?_⟩
      intro h0
      simp only [Bool.and_eq_true, beq_iff_eq] at hs
      exact absurd hs.2 h0
  · have hsub : ∀ e ∈ (if x.o.reverse = true then transposeData (if x.o.atleast2d = true then atleast2dShape shape else shape) elems else elems), e ∈ elems := by
      intro e he
      split at he
      · refine mem_transposeData _ _ ?_ e he
        rw [hl]
        split
        · rw [prodN_atleast2d]
        · rfl
      · exact he
    have hel : ∀ e ∈ (if x.o.reverse = true then transposeData (if x.o.atleast2d = true then atleast2dShape shape else shape) elems else elems), Good x.o e := fun e he => hg e (hsub e he)
    generalize hge : (if x.o.reverse = true then transposeData (if x.o.atleast2d = true then atleast2dShape shape else shape) elems else elems) = el at h hel hsub main
    generalize hgs : (if x.o.reverse = true then (if x.o.atleast2d = true then atleast2dShape shape else shape).reverse else (if x.o.atleast2d = true then atleast2dShape shape else shape)) = sh' at h main
    rcases bind_run (writeObjectArray x wr el >>= fun refs => (pure ⟨.ref, sh', refs.map El.ref⟩ : M Arr)) _ s with ⟨d, s1, e1, e2⟩ | ⟨e, s1, e1, e2⟩
    · rw [e2] at h
      rcases bind_run (writeObjectArray x wr el) (fun refs => (pure ⟨.ref, sh', refs.map El.ref⟩ : M Arr)) s with ⟨l, s2, e3, e4⟩ | ⟨e, s2, e3, e4⟩
      · rw [e4, run_pure] at e1; cases e1
        have st := writeObjectArray_step hwr hp.inv e3
        have hB1 : s1.rpos ≤ B := by
          have := (putAttrs_post (hp.keep st) _ _ _ h).step.fr.rpos
          omega
        refine main _ s1 st hB1 h ?_
        intro st1 ro V excl m hro c1 c2 c3
        obtain ⟨a1, _⟩ := writeObjectArray_rt hwr hrt hp.inv hel hR hB1 e3
        refine ⟨.obj sh' el, ?_, fun _ => rfl⟩
        have hmap := mapM_refs (rd := readData ro V excl m) (vs := el) (l := l) (all2_mono (fun v q hq =>
          (hq.2.2.stepAt (Nat.le_refl _) st1 (fun p k hk => hk.1) hp.glt) ro V excl m (readable_elem hro (hsub v hq.1)) c1 c2 c3) (all2_mem a1))
        show (if (DT.ref) = DT.ref then _ else _) = _
        rw [if_pos rfl]
        show ((l.map El.ref).mapM (fun e => match e with | .ref p => readData ro V excl m p | _ => .error .valueError) >>= fun e => Except.ok (NData.obj sh' e)) = _
        rw [hmap]
        rfl
      · rw [e4] at e1; cases e1
    · rw [e2] at h; cases h

/-- Object arrays. -/
theorem npObj_rt {x : Ctx} (ho : OptsOk x.o) (hm : x.o.pyMeta = true) {n B : Nat} {wr : Wr} (hwr : WrOk x wr) (hrt : WrRT x n wr) {s s' : St} {ob : Option Nat}
    {g : Nat} {name : Str} (hp : Pre x s g name) (hf : Fresh s g name) (hsl : Slot x B s g name) (hR : RandOk x s.rpos B) (hB : s'.rpos ≤ B) (c : Cont)
    (shape : List Nat) (elems : List Val) (hc : c = .ndarray ∨ (c = .matrix ∧ shape.length = 2)) (hl : elems.length = prodN shape)
    (hg : ∀ e ∈ elems, Good x.o e) (h : writeNpObj x wr g name c shape elems (npTypeString c .object) s = (.ok ob, s')) :
    ∃ oid, ob = some oid ∧ RTOut x (n + 1) s s' g name (.npObj c shape elems) oid := by
  obtain ⟨oid, rfl, h1, h2, ob', h3, h4, h5, h6⟩ := writeNpObj_rt ho hm hwr hrt hp hf hsl hR hB c shape elems _ hc hl hg h
  refine ⟨oid, rfl, h1, fun _ => h2, ts_typed h3 h4, ?_⟩
  intro ro V excl m hro c1 c2 c3
  obtain ⟨m', rfl⟩ : ∃ m', m = m' + 1 := ⟨m - 1, by omega⟩
  rw [readData_ts ((c1 oid h1).trans h3) h4 h5]
  rw [show readTyped (looksMulti V) (readData ro V excl m') ro excl ob' (npTypeString c .object) = readNp (looksMulti V) (readData ro V excl m') ro excl ob' by cases c <;> rfl]
  exact h6 ro V excl m' hro c1 c2 (by omega)

/-- Sequences. -/
theorem seq_rt {x : Ctx} (ho : OptsOk x.o) (hm : x.o.pyMeta = true) {n B : Nat} {wr : Wr} (hwr : WrOk x wr) (hrt : WrRT x n wr) {s s' : St} {ob : Option Nat}
    {g : Nat} {name : Str} (hp : Pre x s g name) (hf : Fresh s g name) (hsl : Slot x B s g name) (hR : RandOk x s.rpos B) (hB : s'.rpos ≤ B) (k : SeqKind)
    (elems : List Val) (hk : k = .chainMap → elems ≠ []) (hg : ∀ e ∈ elems, Good x.o e)
    (h : writeNpObj x wr g name .ndarray [elems.length] elems k.typeString s = (.ok ob, s')) :
    ∃ oid, ob = some oid ∧ RTOut x (n + 1) s s' g name (.seq k elems) oid := by
  obtain ⟨oid, rfl, h1, h2, ob', h3, h4, h5, h6⟩ := writeNpObj_rt ho hm hwr hrt hp hf hsl hR hB .ndarray [elems.length] elems _ (Or.inl rfl) (by simp [prodN]) hg h
  refine ⟨oid, rfl, h1, fun _ => h2, ts_typed h3 h4, ?_⟩
  intro ro V excl m hro c1 c2 c3
  obtain ⟨m', rfl⟩ : ∃ m', m = m' + 1 := ⟨m - 1, by omega⟩
  rw [readData_ts ((c1 oid h1).trans h3) h4 h5]
  rw [show readTyped (looksMulti V) (readData ro V excl m') ro excl ob' k.typeString = (readNp (looksMulti V) (readData ro V excl m') ro excl ob' >>= fun w => toSeq k w) by cases k <;> rfl,
    h6 ro V excl m' (readable_seq hro) c1 c2 (by omega)]
  show (if k = .chainMap ∧ elems.isEmpty = true then _ else _) = _
  rw [if_neg]
  rintro ⟨h7, h8⟩
  exact hk h7 (by simpa using h8)

end HS
