import Verif.Lemmas.RefsValid
/-
References stay valid: writing arrays, and finding or making the references Group.
-/
namespace HS
open Spec

theorem NotA.keep {x : Ctx} {A D} {s s' : St} (f : Fr x A D s s') {p : Nat} (hp : p < s.heap.length) (h : NotA x s p) : NotA x s' p := by
  intro rg hr hl
  obtain ⟨h1, h2⟩ := f.link_old hl hp
  exact h rg (f.resolve_old _ (plainComps x) rg hr h1) h2

/-- What is at the place is not the canonical empty. -/
theorem notA_link {x : Ctx} {B : Nat} {A D} {s s' : St} {g : Nat} {name : Str} {p : Nat} (hp : Pl x B s g name) (f : Fr x A D s s') (ht : Tree s'.heap)
    (hl : LinkAt s'.heap g name p) : NotA x s' p := by
  intro rg hr hla
  obtain ⟨rfl, rfl⟩ := ht.uniq _ _ _ _ _ hl hla
  exact (hp.slot (f.resolve_old _ (plainComps x) g hr hp.pre.glt)).2.1 rfl

/-- Changes of the attributes of an object that is not the canonical empty. -/
theorem setAttrs_ri {x : Ctx} {L : Nat → Prop} {s s' : St} {res : Res Unit} {p : Nat} {new : List (Str × AIn)} {d : Bool} (hR : RI x L s) (hn : NotA x s p)
    (h0 : p ≠ 0) (h : setAttrsM p new d s = (res, s')) : RI x L s' ∧ KeepRefs x s s' := by
  have st := setAttrsM_step hR.inv p new d h
  unfold setAttrsM at h
  cases ho : s.heap[p]? with
  | none => rw [ho] at h; cases h; exact ⟨hR, .refl⟩
  | some o =>
    rw [ho] at h
    have he : s' = { s with heap := s.heap.update p fun o => { o with attrs := (setAttributesAll o.attrs new d).2 } } := by
      cases h
      simp [Heap.update, ho]
    rw [he] at st ⊢
    exact hR.update (f := fun o => { o with attrs := (setAttributesAll o.attrs new d).2 }) st (fun h => h0 h.symm) (fun _ _ => rfl)
      (fun ob h1 h2 => hR.vals p ob h1 h2) hn

theorem setH5Path_ri {x : Ctx} {L : Nat → Prop} {s s' : St} {res : Res Unit} {p : Nat} {b : Res Bytes} (hR : RI x L s) (hn : NotA x s p)
    (h0 : p ≠ 0) (h : setH5Path x p b s = (res, s')) : RI x L s' ∧ KeepRefs x s s' := by
  have st := setH5Path_step hR.inv p b h
  unfold setH5Path at h
  by_cases hm : x.o.matlab = true
  · rw [if_pos hm] at h
    cases b with
    | error e => cases h; exact ⟨hR, .refl⟩
    | ok b =>
      change ((Except.ok () : Res Unit), ({ s with heap := s.heap.update p fun o => { o with attrs := aput o.attrs p!"H5PATH" (.bytes b) } } : St)) = _ at h
      cases h
      exact hR.update (f := fun o => { o with attrs := aput o.attrs p!"H5PATH" (.bytes b) }) st (fun h => h0 h.symm) (fun _ _ => rfl)
        (fun ob h1 h2 => hR.vals p ob h1 h2) hn
  · rw [if_neg hm] at h
    change ((Except.ok () : Res Unit), ({ s with heap := s.heap.update p fun o => { o with attrs := adel o.attrs p!"H5PATH" } } : St)) = _ at h
    cases h
    exact hR.update (f := fun o => { o with attrs := adel o.attrs p!"H5PATH" }) st (fun h => h0 h.symm) (fun _ _ => rfl)
      (fun ob h1 h2 => hR.vals p ob h1 h2) hn

theorem h5Store_refs {x : Ctx} {s : St} {a : Arr} {f : Filters} (hb : (h5Store a).dt = .ref → ∀ r, El.ref r ∈ (h5Store a).data → RefTo x s r) : BodyRefs x s (.dset (h5Store a) f) := by
  intro b f' r h1 h2 h3
  cases h1
  exact hb h2 r h3

/-- Writing an array to the place. -/
theorem putDataset_ri {x : Ctx} {L : Nat → Prop} {B : Nat} {s s' : St} {res : Res Nat} {g : Nat} {name : Str} (hR : RI x L s) (hp : Pl x B s g name) (a : Arr) (f : Filters)
    (hb : (h5Store a).dt = .ref → ∀ r, El.ref r ∈ (h5Store a).data → RefTo x s r)
    (h : putDataset g name a f s = (res, s')) : RI x L s' ∧ KeepRefs x s s' ∧ ∀ p, res = .ok p → LinkAt s'.heap g name p := by
  unfold putDataset at h
  rw [run_getSt] at h
  have hcreate : createDset g name a f s = (res, s') → RI x L s' ∧ KeepRefs x s s' ∧ ∀ p, res = .ok p → LinkAt s'.heap g name p :=
    fun h => create_ri hR hp rfl (h5Store_refs hb) h
  have hreplace : (unlink g name >>= fun _ => createDset g name a f) s = (res, s') →
      RI x L s' ∧ KeepRefs x s s' ∧ ∀ p, res = .ok p → LinkAt s'.heap g name p :=
    fun h => replace_ri (o := ⟨[], .dset (h5Store a) f.stored⟩) hR hp rfl (h5Store_refs hb) h
  cases hl : (if nameOk name = true then hlook s.heap g name else none) with
  | none => rw [hl] at h; exact hcreate h
  | some q =>
    rw [hl] at h
    dsimp only at h
    have hlq : LinkAt s.heap g name q := by
      split at hl
      · rw [hlook_plain _ _ _ hp.pre.nd] at hl; exact hl
      · cases hl
    have hother : (if name = [dot] then createDset g name a f else unlink g name >>= fun _ => createDset g name a f) s = (res, s') →
        RI x L s' ∧ KeepRefs x s s' ∧ ∀ p, res = .ok p → LinkAt s'.heap g name p := by
      intro h
      rw [if_neg hp.pre.nd] at h
      exact hreplace h
    cases heq : s.heap[q]? with
    | none => rw [heq] at h; exact hother h
    | some ob =>
      obtain ⟨at', bo⟩ := ob
      cases bo with
      | group l => rw [heq] at h; exact hother h
      | dset b fb =>
        rw [heq] at h
        dsimp only at h
        split at h
        · exact hreplace h
        · cases hop : f.opts with
          | none => rw [hop] at h; exact hcreate h
          | some op =>
            rw [hop] at h
            dsimp only at h
            split at h
            · exact hreplace h
            · rw [run_modSt, run_pure] at h
              have st : Step x noA (oneD q) s { s with heap := s.heap.update q fun ob => { ob with body := .dset (h5Store a) fb } } := by
                refine update_step hp.pre.inv q _ ?_
                intro o ho
                rw [heq] at ho; cases ho
                exact ⟨rfl, Or.inr (by unfold isGroup; rw [heq])⟩
              cases h
              have h0 : q ≠ 0 := by rintro rfl; exact hR.tree.noRoot _ _ hlq
              obtain ⟨h1, h2⟩ := hR.update (f := fun ob => { ob with body := .dset (h5Store a) fb }) st (fun h => h0 h.symm)
                (fun ob h => by rw [heq] at h; cases h; rfl) (fun ob _ _ => h5Store_refs hb) (hp.notA hR.tree hlq .refl)
              refine ⟨h1, h2, ?_⟩
              intro p hpp
              cases hpp
              show aget (linksOf (s.heap.update q _) g) name = some q
              by_cases hgq : g = q
              · subst hgq
                unfold LinkAt at hlq
                rw [linksOf_obj, heq] at hlq
                cases hlq
              · rw [linksOf_update_ne _ _ _ _ hgq]; exact hlq

/-- Writing to a place: references stay valid. -/
structure ROut (x : Ctx) (L : Nat → Prop) (g : Nat) (name : Str) (s s' : St) (P : Nat → Prop) : Prop where
  ri : RI x L s'
  keep : KeepRefs x s s'
  link : resolve s.heap 0 (refsComps x.o) = some g → ∀ p, P p → LinkAt s'.heap g name p
  notA : ∀ p, P p → NotA x s' p
  ne : ∀ p, P p → p ≠ 0

theorem ROut.refl {x : Ctx} {L : Nat → Prop} {g : Nat} {name : Str} {s : St} (hR : RI x L s) {P : Nat → Prop} (hP : ∀ p, ¬ P p) : ROut x L g name s s P :=
  ⟨hR, .refl, fun _ p h => (hP p h).elim, fun p h => (hP p h).elim, fun p h => (hP p h).elim⟩

theorem ROut.weaken {x : Ctx} {L : Nat → Prop} {g : Nat} {name : Str} {s s' : St} {P Q : Nat → Prop} (h : ROut x L g name s s' P) (hQ : ∀ p, Q p → P p) : ROut x L g name s s' Q :=
  ⟨h.ri, h.keep, fun hr p hp => h.link hr p (hQ p hp), fun p hp => h.notA p (hQ p hp), fun p hp => h.ne p (hQ p hp)⟩

/-- What was written to the references Group stays there. -/
theorem ROut.then {x : Ctx} {L : Nat → Prop} {g : Nat} {name : Str} {A D} {s s1 s2 : St} {P : Nat → Prop} (h : ROut x L g name s s1 P) (hR : RI x L s2) (hk : KeepRefs x s1 s2)
    (st : Step x A D s1 s2) (hres : resolve s.heap 0 (refsComps x.o) = some g → resolve s1.heap 0 (refsComps x.o) = some g) (hlt : ∀ p, P p → p < s1.heap.length) :
    ROut x L g name s s2 P :=
  ⟨hR, h.keep.trans hk, fun hr p hp => (hk g name p (hres hr) (h.link hr p hp)).2, fun p hp => (h.notA p hp).keep st.fr (hlt p hp), h.ne⟩

theorem Pl.refs {x : Ctx} {B : Nat} {s s1 : St} {A D} {g : Nat} {name : Str} (h : Pl x B s g name) (st : Step x A D s s1) (hr : resolve s.heap 0 (refsComps x.o) = some g) :
    resolve s1.heap 0 (refsComps x.o) = some g := (st.inv.refs g (st.keepRefs (h.slot hr).1)).1

theorem putDataset_rout {x : Ctx} {L : Nat → Prop} {B : Nat} {s s' : St} {res : Res Nat} {g : Nat} {name : Str} (hR : RI x L s) (hp : Pl x B s g name) (a : Arr) (f : Filters)
    (hb : (h5Store a).dt = .ref → ∀ r, El.ref r ∈ (h5Store a).data → RefTo x s r)
    (h : putDataset g name a f s = (res, s')) : ROut x L g name s s' (fun p => res = .ok p) := by
  obtain ⟨h1, h2, h3⟩ := putDataset_ri hR hp a f hb h
  have po := putDataset_post hp.pre a f h
  exact ⟨h1, h2, fun _ p hpp => h3 p hpp, fun p hpp => notA_link hp po.step.fr h1.tree (h3 p hpp), fun p hpp h0 => by
    have := h3 p hpp
    rw [h0] at this
    exact h1.tree.noRoot _ _ this⟩

theorem putAttrs_rout {x : Ctx} {L : Nat → Prop} {B : Nat} {s s' : St} {res : Res (Option Nat)} {g : Nat} {name : Str} (hR : RI x L s) (hp : Pl x B s g name) (a : Arr) (f : Filters)
    (hb : (h5Store a).dt = .ref → ∀ r, El.ref r ∈ (h5Store a).data → RefTo x s r)
    (at' : List (Str × AIn)) (h : (putDataset g name a f >>= fun p => setAttrsM p at' true >>= fun _ => (pure (some p) : M (Option Nat))) s = (res, s')) :
    ROut x L g name s s' (fun p => res = .ok (some p)) := by
  rcases bind_run (putDataset g name a f) (fun p => setAttrsM p at' true >>= fun _ => (pure (some p) : M (Option Nat))) s with ⟨p, s1, e1, e2⟩ | ⟨e, s1, e1, e2⟩
  · have h' := e2.symm.trans h
    have po := putDataset_post hp.pre a f e1
    have ou := putDataset_rout hR hp a f hb e1
    have fin : ∀ (s2 : St) (r2 : Res Unit), setAttrsM p at' true s1 = (r2, s2) → ROut x L g name s s2 (fun q => q = p) := by
      intro s2 r2 e3
      obtain ⟨h1, h2⟩ := setAttrs_ri ou.ri (ou.notA p rfl) (ou.ne p rfl) e3
      exact (ou.weaken (Q := fun q => q = p) (fun q hq => by rw [hq])).then h1 h2 (setAttrsM_step po.step.inv p at' true e3) (hp.refs po.step)
        (fun q hq => by rw [hq]; exact (po.ok p rfl).lt)
    rcases bind_run (setAttrsM p at' true) (fun _ => (pure (some p) : M (Option Nat))) s1 with ⟨u, s2, e3, e4⟩ | ⟨e, s2, e3, e4⟩
    · have h'' := e4.symm.trans h'
      rw [run_pure] at h''
      cases h''
      exact (fin _ _ e3).weaken (fun q hq => by cases hq; rfl)
    · have h'' := e4.symm.trans h'
      cases h''
      exact (fin _ _ e3).weaken (fun q hq => by cases hq)
  · have h' := e2.symm.trans h
    have ou := putDataset_rout hR hp a f hb e1
    cases h'
    exact ou.weaken (fun q hq => by cases hq)

theorem writeNp_rout {x : Ctx} {L : Nat → Prop} {B : Nat} {s s' : St} {res : Res (Option Nat)} {g : Nat} {name : Str} (hR : RI x L s) (hp : Pl x B s g name) (c : Cont) (a : Arr) (ts : Str)
    (ha : a.dt ≠ .ref) (h : writeNp x g name c a ts s = (res, s')) : ROut x L g name s s' (fun p => res = .ok (some p)) := by
  unfold writeNp at h
  split at h
  · cases h; exact ROut.refl hR (fun p h => by cases h)
  · split at h
    · cases h; exact ROut.refl hR (fun p h => by cases h)
    · cases hd : prepare x.o c a with
      | error e => rw [hd] at h; cases h; exact ROut.refl hR (fun p h => by cases h)
      | ok d =>
        rw [hd] at h
        exact putAttrs_rout hR hp d (filtersFor x.o d) (fun h => absurd h (prepare_not_ref ha hd)) _ h

/-- The Groups made on the way to the references Group are Groups. -/
theorem createPath_groups (cs : List Str) (g : Nat) (s s' : St) (res : Res Nat) (h : createPath g cs s = (res, s')) (p : Nat) (ob : Obj) (hp : s'.heap[p]? = some ob) :
    (∃ l, ob.body = .group l) ∨ s.heap[p]? = some ob := by
  have hcreate : ∀ (g : Nat) (c : Str) (s s1 : St) (r1 : Res Nat), createGroup g c s = (r1, s1) → ∀ (p : Nat) (ob : Obj), s1.heap[p]? = some ob → (∃ l, ob.body = .group l) ∨ s.heap[p]? = some ob := by
    intro g c s s1 r1 h1 p ob hp
    rcases createObj_run g c ⟨[], .group []⟩ s with ⟨e, he⟩ | ⟨he, _, _, h3, _, h5⟩
    · rw [createGroup, he] at h1; cases h1
      exact Or.inr hp
    · rw [createGroup, he] at h1; cases h1
      change (createHeap _ _ _ _)[p]? = _ at hp
      rw [getElem?_createHeap] at hp
      split at hp
      · cases hp; exact Or.inl ⟨_, rfl⟩
      · split at hp
        · obtain ⟨at', l, h7⟩ := isGroup_get h3
          rw [h7] at hp; cases hp
          exact Or.inl ⟨_, rfl⟩
        · exact Or.inr hp
  induction cs generalizing g s with
  | nil => simp only [createPath, raise] at h; cases h; exact Or.inr hp
  | cons c cs ih =>
    cases cs with
    | nil => rw [createPath] at h; exact hcreate _ _ _ _ _ h p ob hp
    | cons c2 cs =>
      rw [createPath] at h
      rotate_left
      · intro hh; cases hh
      rcases getLink_run g c s with hh | ⟨e, hh⟩
      · rw [run_bind_ok hh] at h
        cases hl : hlook s.heap g c with
        | some g' => rw [hl] at h; exact ih g' s h
        | none =>
          rw [hl] at h
          rcases bind_run (createGroup g c) (fun a => createPath a (c2 :: cs)) s with ⟨a, s2, e3, e4⟩ | ⟨e, s2, e3, e4⟩
          · have h' := e4.symm.trans h
            rcases ih a s2 h' with h1 | h1
            · exact Or.inl h1
            · exact hcreate _ _ _ _ _ e3 p ob h1
          · have h' := e4.symm.trans h
            cases h'
            exact hcreate _ _ _ _ _ e3 p ob hp
      · rw [run_bind_err hh] at h
        cases h
        exact Or.inr hp

end HS
