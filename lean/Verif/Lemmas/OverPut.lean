import Verif.Lemmas.OverKind
/-
Datasets written over something.
-/
namespace HS
open Spec

theorem over_struct {o : COpts} {v w : Val} {c : Cont} {s : List Nat} {n : List Str} {t : List FT} {e : List Val} (h : Overwrites o v w) (hv : v = .npStruct c s n t e) : prodN s ≠ 0 := by
  cases h with
  | numbers _ _ h => subst hv; cases h
  | sorts h => subst hv; cases h with | number h => cases h
  | toMapping h => subst hv; exact h.elim
  | ofMapping h => subst hv; exact h.elim
  | ofStruct _ _ _ _ _ h1 h2 => rw [h1] at hv; cases hv; exact h2
  | toStruct _ _ _ _ _ _ _ h => subst hv; exact h.elim
  | fields h => subst hv; cases h
  | _ => cases hv

theorem dsetOf_nc {o : COpts} {v : Val} {d : Arr} {new : List (Str × AIn)} (h : DsetOf o v d new) : NC d.dt := by
  cases h with
  | leaf _ _ h => exact h
  | npObj c sh el h => rcases h with ⟨h, _⟩ | h <;> rw [h] <;> nofun
  | seq k el h => rcases h with ⟨h, _⟩ | h <;> rw [h] <;> nofun

theorem nc_h5Store {d : Arr} (h : NC d.dt) : NC (h5Store d).dt := by
  intro o s n t hd
  rcases h5Store_dt d with h1 | ⟨_, h1⟩ | ⟨_, _, b, _, h1⟩ | ⟨_, _, _, _, _, h1, _⟩
  · exact h o s n t (h1 ▸ hd)
  · rw [h1] at hd; cases hd
  · rw [h1] at hd; cases b <;> cases hd
  · exact h _ _ _ _ h1

theorem nc_of_h5Store {d : Arr} (h : NC (h5Store d).dt) : NC d.dt := by
  intro o s n t hd
  rcases h5Store_dt d with h1 | ⟨h1, _⟩ | ⟨_, _, b, h1, _⟩ | ⟨_, _, _, _, _, _, h1⟩
  · exact h o s n t (h1 ▸ hd)
  · rw [hd] at h1; cases h1
  · rw [hd] at h1; cases h1
  · exact h _ _ _ _ h1

/-- Nothing old is in the way of a Dataset. -/
theorem old_fits {o : COpts} {h : Heap} {ms : List Str} {v : Val} (ho : OldOk o h ms v) {q : Nat} (hq : LPath h ms q) {at0 : List (Str × AVal)} {b : Arr} {f : Filters}
    (hb : h[q]? = some ⟨at0, .dset b f⟩) {d : Arr} {new : List (Str × AIn)} (hd : DsetOf o v d new) (h1 : b.dt = d.dt) (h2 : b.shape = d.shape) : FitsOld at0 new := by
  obtain ⟨v1, hk, hov⟩ := ho q hq
  have h0 : aget new p!"H5PATH" = none := by cases hd <;> exact npAttrs_h5path ..
  cases hk with
  | dset k1 k2 k3 k4 =>
    rw [lpath_fun k1 hq, hb] at k2
    cases k2
    exact fitsOld_of h0 (overwrites_fits hov _ _ _ _ k3 hd h1 h2) k4
  | group _ k1 k2 =>
    rw [lpath_fun k1 hq, hb] at k2
    cases k2
  | struct c s n t e k1 k2 =>
    have := k2 (over_struct hov rfl)
    rw [lpath_fun k1 hq] at this
    rcases this with this | ⟨at', b', f', h3, h4⟩
    · unfold isGroup at this
      rw [hb] at this
      cases this
    · rw [hb] at h3
      cases h3
      rw [h1] at h4
      exact absurd (dsetOf_nc hd) h4

/-- Writing a Dataset and its attributes. -/
theorem dset_over {x : Ctx} {s s' : St} {ob : Option Nat} {g : Nat} {gl : List Str} {name : Str} (hg : LPath s.heap gl g) (hnd : name ≠ [dot]) {v : Val}
    (ho : OldOk x.o s.heap (gl ++ [name]) v) {d : Arr} {f : Filters} {new : List (Str × AIn)} (hd : DsetOf x.o v d new)
    (h : (putDataset g name d f >>= fun p => setAttrsM p new true >>= fun _ => (pure (some p) : M (Option Nat))) s = (.ok ob, s')) :
    ∃ (q : Nat) (at' b : List (Str × AVal)) (f' : Filters), ob = some q ∧ LinkAt s'.heap g name q ∧ s'.heap[q]? = some ⟨at', .dset (h5Store d) f'⟩ ∧
      setAttributesAll [] new true = (.ok (), b) ∧ (∀ k, aget at' k = aget b k) ∧ AttrsOf new at' := by
  rcases bind_run (putDataset g name d f) (fun p => setAttrsM p new true >>= fun _ => (pure (some p) : M (Option Nat))) s with ⟨q, s1, e1, e2⟩ | ⟨e, s1, e1, e2⟩
  · rw [e2] at h
    obtain ⟨p1, at0, f', p2, p3⟩ := putDataset_done hnd e1
    rcases bind_run (setAttrsM q new true) (fun _ => (pure (some q) : M (Option Nat))) s1 with ⟨u, s2, e3, e4⟩ | ⟨e, s2, e3, e4⟩
    · rw [e4] at h
      cases h
      obtain ⟨o, at', q1, q2, rfl⟩ := setAttrs_done e3
      rw [p2] at q1
      cases q1
      have hnew : (akeys new).Nodup := by cases hd <;> exact npAttrs_nodup ..
      have hf : FitsOld at0 new := by
        cases p3 with
        | made => exact fitsOld_nil new
        | inPlace c1 c2 c3 c4 c5 => exact old_fits ho (.snoc hg c1) c2 hd c4 c5
      obtain ⟨b, b1, b2⟩ := setAttrs_fits hnew hf q2
      exact ⟨q, at', b, f', rfl, (linkAt_set_attrs p2 _ _ _).mpr p1, getElem?_set_attrs p2, b1, b2, attrsOf_fresh hnew b1 b2⟩
    · rw [e4] at h; cases h
  · rw [e2] at h; cases h

/-- The Group written to is where it was. -/
theorem place_keep {x : Ctx} {s s' : St} (ht : Tree s.heap) {gl : List Str} {g : Nat} {name : Str} (hg : LPath s.heap gl g) (ho : OffRefs x.o (gl ++ [name]))
    (f : Fr x (oneA g name) (TgtD s g name) s s') : LPath s'.heap gl g := by
  have hp : PlainNames gl := prefix_plain ho.plain (List.prefix_append _ _)
  refine lpath_resolve hp ?_
  rw [f.resolve_user ht hg ?_ not_prefix_snoc]
  · exact resolve_lpath hp hg
  · by_cases hc : gl = []
    · exact Or.inl hc
    · exact Or.inr (ho.prefix (List.prefix_append _ _) hc)

/-- Writers over something. -/
def WrOver (x : Ctx) (n : Nat) (wr : Wr) : Prop := ∀ s g gl gname name v s' ob B, Inv x s → Tree s.heap → LPath s.heap gl g → OffRefs x.o (gl ++ [name]) →
  OldOk x.o s.heap (gl ++ [name]) v → RandOk x s.rpos B → s'.rpos ≤ B → Good x.o v → wr g gname name v s = (.ok ob, s') →
  ∃ q, ob = some q ∧ LinkAt s'.heap g name q ∧ OverOut x n s'.heap (gl ++ [name]) v

/-- Values written as one Dataset. -/
theorem leaf_over {x : Ctx} (ho : OptsOk x.o) (hm : x.o.pyMeta = true) {s s' : St} {ob : Option Nat} {g : Nat} {gl : List Str} {name : Str} (hi : Inv x s) (ht : Tree s.heap)
    (hgl : LPath s.heap gl g) (hns : OffRefs x.o (gl ++ [name])) {v : Val} (hold : OldOk x.o s.heap (gl ++ [name]) v) (hgv : Good x.o v) {c : Cont} {a : Arr}
    (hl : leafOf v = some (c, a)) (h : writeNp x g name c a (tsOf v) s = (.ok ob, s')) (n : Nat) :
    ∃ q, ob = some q ∧ LinkAt s'.heap g name q ∧ OverOut x (n + 1) s'.heap (gl ++ [name]) v := by
  obtain ⟨hg, hrec, hdrop, hcn, hrd⟩ := leafOf_good hgv hl
  have hp := hns.pre hi ht hgl (lpath_lt ht hgl)
  have po := writeNp_post hp c a (tsOf v) h
  have hgl' := place_keep ht hgl hns po.step.fr
  have ht' := tree_step ht po.step (tgt_root ht)
  unfold writeNp at h
  split at h
  · cases h
  · rename_i g1
    split at h
    · rename_i hd
      refine absurd ?_ (hdrop hd.1 hd.2.2)
      have h2 := hd.2.1
      have hpl := hg.arr.plain
      revert h2
      cases hdt : a.dt with
      | f16 => intro _; rfl
      | crec r i dd => exact absurd hdt (hpl.2.2.1 r i dd)
      | comp oo sz nn tt => exact absurd hdt (hpl.2.2.2 oo sz nn tt)
      | _ => simp [DT.matlabClass]
    · rename_i g2
      cases hd : prepare x.o c a with
      | error e => rw [hd] at h; cases h
      | ok d =>
        rw [hd] at h
        have hds : DsetOf x.o v d (npAttrs x.o c a.dt a.shape a.isEmpty (h5Store d).dt (tsOf v)) := .leaf hl hd (nc_of_h5Store (prepare_not_comp hg.arr.plain.2.2.2 hd))
        obtain ⟨q, at', b, f', rfl, c1, c2, c3, c4, c5⟩ := dset_over (f := filtersFor x.o d) hgl (hns.plain name (by simp)) hold hds h
        have hlp : LPath s'.heap (gl ++ [name]) q := .snoc hgl' c1
        refine ⟨q, rfl, c1, .dset hlp c2 hds c5, q, fun p => p = q, hlp, rfl, fun p hp => hp ▸ at_in ht' hlp, ?_⟩
        intro ro V excl m hro v1 v2 v3
        obtain ⟨m', rfl⟩ : ∃ m', m = m' + 1 := ⟨m - 1, by omega⟩
        have hV : V q = some (Obj.view ⟨at', .dset (h5Store d) f'⟩) := by rw [v1 q rfl, viewOf, c2]; rfl
        rw [readData_attrs hV c4 (readNp_fresh hm c3 _ _ x.o (fun _ => false) (fun _ => .error .other) none).1
          ⟨_, (readNp_fresh hm c3 _ _ x.o (fun _ => false) (fun _ => .error .other) none).2.1⟩]
        refine hrd _ _ _ _ _ ?_
        rw [(readNp_fresh hm c3 _ _ ro _ _ excl).2.2]
        rw [readDset_arr (prepare_not_ref hg.arr.plain.2.1 hd) (prepare_not_comp hg.arr.plain.2.2.2 hd)]
        show npFinish ro (tsOf v) a.dt.name a.shape (some c.name) a.isEmpty (mcOf x.o a.dt) _ = _
        rw [npFinish_opts (o := x.o)]
        · exact leaf_roundtrip x.o ho c a d (tsOf v) hg hcn hrec hd
        · rcases hro.order with hro | ⟨hma, hac⟩
          · exact Or.inr hro
          · refine Or.inl ?_
            unfold mcOf
            rw [if_pos hma]
            cases hcl : a.dt.matlabClass with
            | some _ => rfl
            | none =>
              exfalso
              cases hact : x.o.action with
              | error => exact g1 ⟨hma, hcl, hact⟩
              | discard => exact g2 ⟨hma, hcl, hact⟩
              | ignore => exact hac hact

/-- Datasets of objects. -/
theorem npObj_over {x : Ctx} (ho : OptsOk x.o) (hm : x.o.pyMeta = true) {n B : Nat} {wr : Wr} (hwr : WrOk x wr) (hrt : WrRT x n wr) {s s' : St} {ob : Option Nat} {g : Nat}
    {gl : List Str} {name : Str} (hi : Inv x s) (ht : Tree s.heap) (hgl : LPath s.heap gl g) (hns : OffRefs x.o (gl ++ [name])) {v : Val}
    (hold : OldOk x.o s.heap (gl ++ [name]) v) (hR : RandOk x s.rpos B) (hB : s'.rpos ≤ B) (c : Cont) (shape : List Nat) (elems : List Val)
    (hc : c = .ndarray ∨ (c = .matrix ∧ shape.length = 2)) (hl : elems.length = prodN shape) (hge : ∀ e ∈ elems, Good x.o e)
    (hds : ∀ d, ObjData x.o shape d → DsetOf x.o v d (npAttrs x.o c .object shape (prodN shape == 0) d.dt (tsOf v)))
    (hrv : ∀ ro, ReadableWith x.o ro v → ReadableWith x.o ro (.npObj c shape elems))
    (hrd : ∀ mu rd o' excl ob, readNp mu rd o' excl ob = .ok (.npObj c shape elems) → readTyped mu rd o' excl ob (tsOf v) = .ok v)
    (h : writeNpObj x wr g name c shape elems (tsOf v) s = (.ok ob, s')) :
    ∃ q, ob = some q ∧ LinkAt s'.heap g name q ∧ OverOut x (n + 1) s'.heap (gl ++ [name]) v := by
  have hp := hns.pre hi ht hgl (lpath_lt ht hgl)
  have po := writeNpObj_post hwr hp c shape elems (tsOf v) h
  have hgl' := place_keep ht hgl hns po.step.fr
  have ht' := tree_step ht po.step (tgt_root ht)
  unfold writeNpObj at h
  have main : ∀ (d : Arr) (s1 : St), Step x noA noD s s1 → s1.rpos ≤ B → ObjData x.o shape d →
      (putDataset g name d (filtersFor x.o d) >>= fun p => setAttrsM p (npAttrs x.o c .object shape (prodN shape == 0) d.dt (tsOf v)) true >>= fun _ => (pure (some p) : M (Option Nat))) s1 = (.ok ob, s') →
      (∀ (ro : COpts) (V : View) (excl : Option Nat) (m : Nat), ReadableWith x.o ro (.npObj c shape elems) → (∀ p, NewObj x s s1 p → V p = viewOf s1.heap p) →
        (∀ q, excl = some q → ¬ NewObj x s s1 q) → n ≤ m →
        ∃ nd, readDset (readData ro V excl m) (h5Store d) = .ok nd ∧
        (prodN shape ≠ 0 → nd = .obj (if x.o.reverse then (if x.o.atleast2d then atleast2dShape shape else shape).reverse else (if x.o.atleast2d then atleast2dShape shape else shape))
      (if x.o.reverse then transposeData (if x.o.atleast2d then atleast2dShape shape else shape) elems else elems))) →
      ∃ q, ob = some q ∧ LinkAt s'.heap g name q ∧ OverOut x (n + 1) s'.heap (gl ++ [name]) v := by
    intro d s1 st hB1 hod h hrd1
    have hds1 := hds d hod
    have aw := refs_away ht st hns
    have hgl1 : LPath s1.heap gl g := place_keep ht hgl hns ((st.mono (A' := oneA g name) (D' := TgtD s g name) (fun _ _ h => h.elim) (fun _ h => h.elim)).fr)
    have po1 := putAttrs_post (hp.keep st) _ _ _ h
    obtain ⟨q, at', b, f', rfl, c1, c2, c3, c4, c5⟩ := dset_over (f := filtersFor x.o d) hgl1 (hns.plain name (by simp)) (hold.away ht aw) hds1 h
    have hlp : LPath s'.heap (gl ++ [name]) q := .snoc hgl' c1
    have hkeep : ∀ p, NewObj x s s1 p → InOrRefs x.o s'.heap (gl ++ [name]) p ∧ s'.heap[p]? = s1.heap[p]? := fun p hp => refsNew_keep ht st hgl hgl1 hns po1.step.fr hp
    refine ⟨q, rfl, c1, .dset hlp c2 hds1 c5, q, fun p => p = q ∨ NewObj x s s1 p, hlp, Or.inl rfl, ?_, ?_⟩
    · rintro p (rfl | hp)
      · exact at_in ht' hlp
      · exact (hkeep p hp).1
    · intro ro V excl m hro v1 v2 v3
      obtain ⟨m', rfl⟩ : ∃ m', m = m' + 1 := ⟨m - 1, by omega⟩
      have hV : V q = some (Obj.view ⟨at', .dset (h5Store d) f'⟩) := by rw [v1 q (Or.inl rfl), viewOf, c2]; rfl
      rw [readData_attrs hV c4 (readNp_fresh hm c3 _ _ x.o (fun _ => false) (fun _ => .error .other) none).1
        ⟨_, (readNp_fresh hm c3 _ _ x.o (fun _ => false) (fun _ => .error .other) none).2.1⟩]
      refine hrd _ _ _ _ _ ?_
      have hro' := hrv ro hro
      obtain ⟨nd, d1, d2⟩ := hrd1 ro V excl m' hro' (fun p hp => by
        rw [v1 p (Or.inr hp), viewOf, viewOf, (hkeep p hp).2]) (fun r hr hn => v2 r hr (Or.inr hn)) (by omega)
      rw [(readNp_fresh hm c3 _ _ ro _ _ excl).2.2, d1]
      show npFinish ro (tsOf v) p!"object" shape (some c.name) (prodN shape == 0) (mcOf x.o .object) nd = _
      rw [npFinish_opts (o := x.o) (by
        rcases hro'.order with hro | ⟨hma, _⟩
        · exact Or.inr hro
        · unfold mcOf; rw [if_pos hma]; exact Or.inl rfl)]
      exact npFinish_obj ho c shape elems hc hl _ nd d2
  split at h
  · rename_i hs
    rw [run_pure_bind] at h
    have hs' := hs
    simp only [Bool.and_eq_true, beq_iff_eq] at hs'
    refine main _ s (Step.refl hi) ?_ (Or.inl ⟨rfl, hs'.1, hs'.2⟩) h ?_
    · have := po.step.fr.rpos; omega
    · intro ro V excl m _ _ _ _
      exact ⟨_, rfl, fun h0 => absurd hs'.2 h0⟩
  · have hsub : ∀ e ∈ (if x.o.reverse = true then transposeData (if x.o.atleast2d = true then atleast2dShape shape else shape) elems else elems), e ∈ elems := by
      intro e he
      split at he
      · refine mem_transposeData _ _ ?_ e he
        rw [hl]
        split
        · rw [prodN_atleast2d]
        · rfl
      · exact he
    have hel : ∀ e ∈ (if x.o.reverse = true then transposeData (if x.o.atleast2d = true then atleast2dShape shape else shape) elems else elems), Good x.o e := fun e he => hge e (hsub e he)
    generalize hgen : (if x.o.reverse = true then transposeData (if x.o.atleast2d = true then atleast2dShape shape else shape) elems else elems) = el at h hel hsub main
    generalize hgs : (if x.o.reverse = true then (if x.o.atleast2d = true then atleast2dShape shape else shape).reverse else (if x.o.atleast2d = true then atleast2dShape shape else shape)) = sh' at h main
    rcases bind_run (writeObjectArray x wr el >>= fun refs => (pure ⟨.ref, sh', refs.map El.ref⟩ : M Arr)) _ s with ⟨d, s1, e1, e2⟩ | ⟨e, s1, e1, e2⟩
    · rw [e2] at h
      rcases bind_run (writeObjectArray x wr el) (fun refs => (pure ⟨.ref, sh', refs.map El.ref⟩ : M Arr)) s with ⟨l, s2, e3, e4⟩ | ⟨e, s2, e3, e4⟩
      · rw [e4, run_pure] at e1; cases e1
        have st := writeObjectArray_step hwr hi e3
        have hB1 : s1.rpos ≤ B := by
          have := (putAttrs_post (hp.keep st) _ _ _ h).step.fr.rpos
          omega
        refine main _ s1 st hB1 (Or.inr rfl) h ?_
        intro ro V excl m hro c1 c2 c3
        obtain ⟨a1, _⟩ := writeObjectArray_rt hwr hrt hi hel hR hB1 e3
        refine ⟨.obj sh' el, ?_, fun _ => rfl⟩
        have hmap := mapM_refs (rd := readData ro V excl m) (vs := el) (l := l) (all2_mono (fun v q hq =>
          hq.2.2 ro V excl m (readable_elem hro (hsub v hq.1)) c1 c2 c3) (all2_mem a1))
        show (if (DT.ref) = DT.ref then _ else _) = _
        rw [if_pos rfl]
        exact congrArg (fun r => r >>= fun e => Except.ok (NData.obj sh' e)) hmap
      · rw [e4] at e1; cases e1
    · rw [e2] at h; cases h

end HS
