import Verif.Lemmas.RefsGroup
import Verif.Props.PathEsc
/-
What the writers change: the link they write to, what is below it, new objects, and the references Group.
-/
namespace HS
open Spec

/-- Conditions on the place something is written to. -/
structure Pre (x : Ctx) (s : St) (g : Nat) (name : Str) : Prop where
  inv : Inv x s
  glt : g < s.heap.length
  nd : name ≠ [dot]
  off : OffPath x s g name
  res : Reserved s g name
  sep : ∀ q, LinkAt s.heap g name q → Sep x s q

/-- The objects below the place something is written to. -/
def TgtD (s : St) (g : Nat) (name : Str) (p : Nat) : Prop := ∃ q, LinkAt s.heap g name q ∧ LReach s.heap q p

/-- A new object, or one that was below the place. -/
structure Tgt (x : Ctx) (s s' : St) (g : Nat) (name : Str) (p : Nat) : Prop where
  own : s.heap.length ≤ p ∨ TgtD s g name p
  lt : p < s'.heap.length
  off : ¬ OnRefsPath (refsComps x.o) s'.heap p

theorem OffPath.keep {x : Ctx} {A D} {s s1 : St} (f : Fr x A D s s1) {g : Nat} {name : Str} (hg : g < s.heap.length) (h : OffPath x s g name) :
    OffPath x s1 g name := by
  intro pre h1 h2
  exact h pre h1 (f.resolve_old pre (prefix_plain (plainComps x) (prefix_of_snoc h1)) g h2 hg)

theorem Reserved.keep {x : Ctx} {A D} {s s1 : St} (f : Fr x A D s s1) (hi : Inv x s) {g : Nat} {name : Str} (hg : g < s.heap.length) (h : Reserved s g name) :
    Reserved s1 g name := by
  intro hc hr c hcc
  rcases f.crt hc with h1 | ⟨_, h2⟩
  · have hne := hi.created h1
    cases hs : s.refs with
    | none => exact absurd hs hne
    | some r =>
      rw [(f.refs r hs).1] at hr
      cases hr
      exact h h1 hs c (Nat.le_trans f.counter hcc)
  · have := h2 g hr
    omega

/-- What is new at a place off the way to the references Group does not lead there. -/
theorem Sep.new {x : Ctx} {A D} {s s1 : St} (f : Fr x A D s s1) (hi : Inv x s) {g q : Nat} {name : Str} (hg : g < s.heap.length) (ho : OffPath x s g name)
    (hl : LinkAt s1.heap g name q) (hq : s.heap.length ≤ q) : Sep x s1 q := by
  rintro p hr ⟨pre, hp, hres⟩
  induction hn : pre.length generalizing pre p with
  | zero =>
    have : pre = [] := List.length_eq_zero_iff.mp hn
    subst this
    simp only [resolve, Option.some.injEq] at hres
    subst hres
    have := (f.reach_old hr hi.pos).1
    omega
  | succ n ih =>
    have hpl := prefix_plain (plainComps x) hp
    by_cases hlt : p < s.heap.length
    · have := (f.reach_old hr hlt).1
      omega
    · rcases snoc_cases pre with rfl | ⟨m, c, rfl⟩
      · simp at hn
      obtain ⟨a, ha, hl2⟩ := (resolve_snoc _ _ m c (hpl c (by simp)) p).mp hres
      rcases hr.cases_end with rfl | ⟨b, k, hb, hl3⟩
      · obtain ⟨e1, e2⟩ := f.k2 p g name a c (by omega) hl hl2
        subst e1; subst e2
        exact ho m hp (f.resolve_old m (prefix_plain (plainComps x) (prefix_of_snoc hp)) g ha hg)
      · obtain ⟨e1, e2⟩ := f.k2 p b k a c (by omega) hl3 hl2
        subst e1
        exact ih b hb m (prefix_of_snoc hp) ha (by simp at hn; omega)

theorem Pre.keep {x : Ctx} {A D} {s s1 : St} (st : Step x A D s s1) {g : Nat} {name : Str} (h : Pre x s g name) : Pre x s1 g name where
  inv := st.inv
  glt := Nat.lt_of_lt_of_le h.glt st.fr.len
  nd := h.nd
  off := h.off.keep st.fr h.glt
  res := h.res.keep st.fr h.inv h.glt
  sep := by
    intro q hl
    by_cases hq : q < s.heap.length
    · exact (h.sep q (st.fr.k1 _ _ _ hl hq)).keep st.fr h.inv hq
    · exact Sep.new st.fr h.inv h.glt h.off hl (by omega)

theorem TgtD.old {x : Ctx} {A D} {s s1 : St} (f : Fr x A D s s1) {g : Nat} {name : Str} {p : Nat} (hp : p < s.heap.length) (h : TgtD s1 g name p) :
    TgtD s g name p := by
  obtain ⟨q, h1, h2⟩ := h
  obtain ⟨h3, h4⟩ := f.reach_old h2 hp
  exact ⟨q, f.k1 _ _ _ h1 h3, h4⟩

theorem own_old {x : Ctx} {A D} {s s1 : St} (f : Fr x A D s s1) {g : Nat} {name : Str} {p : Nat} (h : s1.heap.length ≤ p ∨ TgtD s1 g name p) :
    s.heap.length ≤ p ∨ TgtD s g name p := by
  by_cases hp : p < s.heap.length
  · rcases h with h | h
    · have := f.len; omega
    · exact Or.inr (h.old f hp)
  · exact Or.inl (by omega)

theorem Tgt.old {x : Ctx} {A D} {s s1 s2 : St} (f : Fr x A D s s1) {g : Nat} {name : Str} {p : Nat} (h : Tgt x s1 s2 g name p) : Tgt x s s2 g name p :=
  ⟨own_old f h.own, h.lt, h.off⟩

theorem Tgt.later {x : Ctx} {A D} {s s1 s2 : St} (f : Fr x A D s1 s2) {g : Nat} {name : Str} {p : Nat} (h : Tgt x s s1 g name p) : Tgt x s s2 g name p :=
  ⟨h.own, Nat.lt_of_lt_of_le h.lt f.len, fun ho => h.off (f.onPath_old p ho h.lt)⟩

/-- Attribute changes at an object. -/
theorem setAttrsM_step {x : Ctx} {s s' : St} {res : Res Unit} (hi : Inv x s) (p : Nat) (new : List (Str × AIn)) (d : Bool)
    (h : setAttrsM p new d s = (res, s')) : Step x noA (oneD p) s s' := by
  unfold setAttrsM at h
  cases ho : s.heap[p]? with
  | none => rw [ho] at h; cases h; exact Step.refl hi
  | some o =>
    rw [ho] at h
    have he : s' = { s with heap := s.heap.update p fun o => { o with attrs := (setAttributesAll o.attrs new d).2 } } := by
      cases h
      simp [Heap.update, ho]
    rw [he]
    refine update_step hi p _ ?_
    intro o _
    exact ⟨rfl, Or.inl (SameKind.refl _)⟩

theorem setH5Path_step {x : Ctx} {s s' : St} {res : Res Unit} (hi : Inv x s) (p : Nat) (b : Res Bytes)
    (h : setH5Path x p b s = (res, s')) : Step x noA (oneD p) s s' := by
  unfold setH5Path at h
  by_cases hm : x.o.matlab = true
  · rw [if_pos hm] at h
    cases b with
    | error e => cases h; exact Step.refl hi
    | ok b =>
      change ((Except.ok () : Res Unit), ({ s with heap := s.heap.update p fun o => { o with attrs := aput o.attrs p!"H5PATH" (.bytes b) } } : St)) = _ at h
      cases h
      exact update_step hi p _ (fun o _ => ⟨rfl, Or.inl (SameKind.refl _)⟩)
  · rw [if_neg hm] at h
    change ((Except.ok () : Res Unit), ({ s with heap := s.heap.update p fun o => { o with attrs := adel o.attrs p!"H5PATH" } } : St)) = _ at h
    cases h
    exact update_step hi p _ (fun o _ => ⟨rfl, Or.inl (SameKind.refl _)⟩)

/-- Creating an object at the place. -/
theorem create_at {x : Ctx} {s s' : St} {res : Res Nat} {g : Nat} {name : Str} (hp : Pre x s g name) (o : Obj) (ho : objLinks o = [])
    (h : createObj g name o s = (res, s')) :
    Step x (oneA g name) noD s s' ∧ ∀ p, res = .ok p → Tgt x s s' g name p ∧ Sep x s' p ∧ p = s.heap.length ∧ s'.heap[p]? = some o ∧
      s' = { s with heap := createHeap s.heap g name o } ∧ LinkAt s'.heap g name p ∧ isGroup s.heap g = true ∧ aget (linksOf s.heap g) name = none := by
  rcases createObj_run g name o s with ⟨e, he⟩ | ⟨he, _, _, h3, _, h5⟩
  · rw [he] at h; cases h
    exact ⟨Step.refl hp.inv, fun p h => by cases h⟩
  · rw [he] at h; cases h
    have st := createObj_step hp.inv g name o ho h3 h5 (fun _ => hp.off) hp.res
    refine ⟨st, ?_⟩
    intro p hpp
    cases hpp
    have hl : LinkAt (createHeap s.heap g name o) g name s.heap.length := (linkAt_createHeap _ _ _ _ h3 h5 ho _ _ _).mpr (Or.inr ⟨rfl, rfl, rfl⟩)
    have hs := Sep.new st.fr hp.inv hp.glt hp.off hl (Nat.le_refl _)
    refine ⟨⟨Or.inl (Nat.le_refl _), ?_, hs _ .refl⟩, hs, rfl, ?_, rfl, hl, h3, h5⟩
    · show _ < (createHeap _ _ _ _).length
      rw [createHeap_length]; omega
    · show (createHeap _ _ _ _)[_]? = _
      rw [getElem?_createHeap, if_pos rfl]

/-- Unlinking at the place. -/
theorem unlink_at {x : Ctx} {s s' : St} {res : Res Unit} {g : Nat} {name : Str} (hp : Pre x s g name) (h : unlink g name s = (res, s')) :
    Step x (oneA g name) noD s s' := by
  rcases unlink_run g name s with ⟨e, he⟩ | ⟨he, _⟩
  · rw [he] at h; cases h; exact Step.refl hp.inv
  · rw [he] at h; cases h
    exact unlink_step hp.inv g name (fun _ => hp.off)

/-- Replacing what is at the place. -/
theorem replace_at {x : Ctx} {s s' : St} {res : Res Nat} {g : Nat} {name : Str} (hp : Pre x s g name) (o : Obj) (ho : objLinks o = [])
    (h : (unlink g name >>= fun _ => createObj g name o) s = (res, s')) :
    Step x (oneA g name) noD s s' ∧ ∀ p, res = .ok p → Tgt x s s' g name p ∧ Sep x s' p := by
  rcases bind_run (unlink g name) (fun _ => createObj g name o) s with ⟨a, s1, e1, e2⟩ | ⟨e, s1, e1, e2⟩
  · have h' := e2.symm.trans h
    have st := unlink_at hp e1
    obtain ⟨h1, h2⟩ := create_at (hp.keep st) o ho h'
    refine ⟨st.trans h1 (fun _ _ h => h) (fun _ _ h => h), ?_⟩
    intro p hpp
    obtain ⟨h3, h4, _⟩ := h2 p hpp
    exact ⟨h3.old st.fr, h4⟩
  · have h' := e2.symm.trans h
    cases h'
    exact ⟨unlink_at hp e1, fun p h => by cases h⟩

/-- Frame condition for something written to a place. -/
structure Post (x : Ctx) (g : Nat) (name : Str) (s s' : St) (P : Nat → Prop) : Prop where
  step : Step x (oneA g name) (TgtD s g name) s s'
  ok : ∀ p, P p → Tgt x s s' g name p

theorem putDataset_post {x : Ctx} {s s' : St} {res : Res Nat} {g : Nat} {name : Str} (hp : Pre x s g name) (a : Arr) (f : Filters)
    (h : putDataset g name a f s = (res, s')) : Post x g name s s' (fun p => res = .ok p) := by
  unfold putDataset at h
  rw [run_getSt] at h
  have hcreate : createDset g name a f s = (res, s') → Post x g name s s' (fun p => res = .ok p) := by
    intro h
    obtain ⟨h1, h2⟩ := create_at hp _ rfl h
    exact ⟨h1.mono (fun _ _ h => h) (fun _ h => h.elim), fun p hpp => (h2 p hpp).1⟩
  have hreplace : (unlink g name >>= fun _ => createDset g name a f) s = (res, s') → Post x g name s s' (fun p => res = .ok p) := by
    intro h
    obtain ⟨h1, h2⟩ := replace_at hp ⟨[], .dset (h5Store a) f.stored⟩ rfl h
    exact ⟨h1.mono (fun _ _ h => h) (fun _ h => h.elim), fun p hpp => (h2 p hpp).1⟩
  cases hl : (if nameOk name = true then hlook s.heap g name else none) with
  | none => rw [hl] at h; exact hcreate h
  | some q =>
    rw [hl] at h
    dsimp only at h
    have hlq : LinkAt s.heap g name q := by
      split at hl
      · rw [hlook_plain _ _ _ hp.nd] at hl; exact hl
      · cases hl
    have hother : (if name = [dot] then createDset g name a f else unlink g name >>= fun _ => createDset g name a f) s = (res, s') →
        Post x g name s s' (fun p => res = .ok p) := by
      intro h
      rw [if_neg hp.nd] at h
      exact hreplace h
    cases heq : s.heap[q]? with
    | none => rw [heq] at h; exact hother h
    | some ob =>
      obtain ⟨at', bo⟩ := ob
      cases bo with
      | group l => rw [heq] at h; exact hother h
      | dset b fb =>
        rw [heq] at h
        dsimp only at h
        split at h
        · exact hreplace h
        · cases hop : f.opts with
          | none => rw [hop] at h; exact hcreate h
          | some op =>
            rw [hop] at h
            dsimp only at h
            split at h
            · exact hreplace h
            · rw [run_modSt, run_pure] at h
              have st : Step x noA (oneD q) s { s with heap := s.heap.update q fun ob => { ob with body := .dset (h5Store a) fb } } := by
                refine update_step hp.inv q _ ?_
                intro o ho
                rw [heq] at ho; cases ho
                exact ⟨rfl, Or.inr (by unfold isGroup; rw [heq])⟩
              cases h
              refine ⟨st.mono (fun _ _ h => h.elim) (fun p hpq => ⟨q, hlq, by rw [show p = q from hpq]; exact .refl⟩), ?_⟩
              intro p hpp
              cases hpp
              refine ⟨Or.inr ⟨q, hlq, .refl⟩, ?_, ((hp.sep q hlq).keep st.fr hp.inv (hp.inv.wf _ _ _ hlq)) q .refl⟩
              rw [length_update]; exact hp.inv.wf _ _ _ hlq

theorem Post.then_obj {x : Ctx} {g : Nat} {name : Str} {s s1 s2 : St} {P : Nat → Prop} {p : Nat} (h : Post x g name s s1 P) (hP : P p)
    (st : Step x noA (oneD p) s1 s2) : Post x g name s s2 P where
  step := h.step.trans st (fun _ _ h => h.elim) (by
    intro q hq hqp
    rw [show q = p from hqp] at hq ⊢
    rcases (h.ok p hP).own with h' | h'
    · omega
    · exact h')
  ok := fun q hq => (h.ok q hq).later st.fr

theorem Post.weaken {x : Ctx} {g : Nat} {name : Str} {s s' : St} {P Q : Nat → Prop} (h : Post x g name s s' P) (hQ : ∀ p, Q p → P p) : Post x g name s s' Q :=
  ⟨h.step, fun p hp => h.ok p (hQ p hp)⟩

theorem Post.refl {x : Ctx} {g : Nat} {name : Str} {s : St} (hi : Inv x s) {P : Nat → Prop} (hP : ∀ p, ¬ P p) : Post x g name s s P :=
  ⟨Step.refl hi, fun p h => absurd h (hP p)⟩

/-- Work that only concerns the references Group, then something written to the place. -/
theorem Post.after {x : Ctx} {g : Nat} {name : Str} {s s1 s2 : St} {P : Nat → Prop} (st : Step x noA noD s s1) (h : Post x g name s1 s2 P) :
    Post x g name s s2 P where
  step := (st.mono (A' := oneA g name) (D' := TgtD s g name) (fun _ _ h => h.elim) (fun _ h => h.elim)).trans h.step (fun _ _ h => h)
    (fun p hp hd => hd.old st.fr hp)
  ok := fun p hp => (h.ok p hp).old st.fr

/-- Writing an array and then its attributes. -/
theorem putAttrs_post {x : Ctx} {s s' : St} {res : Res (Option Nat)} {g : Nat} {name : Str} (hp : Pre x s g name) (a : Arr) (f : Filters)
    (at' : List (Str × AIn)) (h : (putDataset g name a f >>= fun p => setAttrsM p at' true >>= fun _ => (pure (some p) : M (Option Nat))) s = (res, s')) :
    Post x g name s s' (fun p => res = .ok (some p)) := by
  rcases bind_run (putDataset g name a f) (fun p => setAttrsM p at' true >>= fun _ => (pure (some p) : M (Option Nat))) s with ⟨p, s1, e1, e2⟩ | ⟨e, s1, e1, e2⟩
  · have h' := e2.symm.trans h
    have po := putDataset_post hp a f e1
    rcases bind_run (setAttrsM p at' true) (fun _ => (pure (some p) : M (Option Nat))) s1 with ⟨u, s2, e3, e4⟩ | ⟨e, s2, e3, e4⟩
    · have h'' := e4.symm.trans h'
      rw [run_pure] at h''
      cases h''
      have po2 := po.then_obj rfl (setAttrsM_step po.step.inv p at' true e3)
      exact po2.weaken (fun q hq => by cases hq; rfl)
    · have h'' := e4.symm.trans h'
      cases h''
      have po2 := po.then_obj rfl (setAttrsM_step po.step.inv p at' true e3)
      exact po2.weaken (fun q hq => by cases hq)
  · have h' := e2.symm.trans h
    have po := putDataset_post hp a f e1
    cases h'
    exact po.weaken (fun q hq => by cases hq)

theorem writeNp_post {x : Ctx} {s s' : St} {res : Res (Option Nat)} {g : Nat} {name : Str} (hp : Pre x s g name) (c : Cont) (a : Arr) (ts : Str)
    (h : writeNp x g name c a ts s = (res, s')) : Post x g name s s' (fun p => res = .ok (some p)) := by
  unfold writeNp at h
  split at h
  · cases h; exact Post.refl hp.inv (fun p h => by cases h)
  · split at h
    · cases h; exact Post.refl hp.inv (fun p h => by cases h)
    · cases hd : prepare x.o c a with
      | error e => rw [hd] at h; cases h; exact Post.refl hp.inv (fun p h => by cases h)
      | ok d =>
        rw [hd] at h
        exact putAttrs_post hp d (filtersFor x.o d) _ h

/-- A recursive writer respects the frame. -/
def WrOk (x : Ctx) (wr : Wr) : Prop := ∀ s g gname name v s' res, Pre x s g name → wr g gname name v s = (res, s') →
  Post x g name s s' (fun p => res = .ok (some p))

/-- One element of an object array. -/
theorem elem_step {x : Ctx} {wr : Wr} (hwr : WrOk x wr) {s s1 s2 : St} {r : Nat} {nm : Str} {v : Val} {res : Res (Option Nat)} (hi : Inv x s) (hr : s.refs = some r)
    (h1 : nextName x s = (.ok nm, s1)) (h2 : wr r (refsName x.o) nm v s1 = (res, s2)) :
    Step x noA noD s s2 ∧ Pre x s1 r nm ∧ (∀ q, ¬ LinkAt s1.heap r nm q) ∧
      ∀ p, res = .ok (some p) → s1.heap.length ≤ p ∧ p < s2.heap.length ∧ ¬ OnRefsPath (refsComps x.o) s2.heap p := by
  obtain ⟨st, hn⟩ := nextName_spec hi hr h1
  obtain ⟨n1, n2, n3, n4⟩ := hn nm rfl
  have hr1 := st.keepRefs hr
  have hres1 := (st.inv.refs r hr1).1
  have hpre : Pre x s1 r nm := ⟨st.inv, resolve_lt st.inv _ (plainComps x) r hres1, n1, offPath_refs st.inv hres1 nm, n2, fun q hq => absurd hq (n3 q)⟩
  have po := hwr s1 r _ nm v s2 res hpre h2
  have hno : ∀ p, ¬ TgtD s1 r nm p := by rintro p ⟨q, hq, _⟩; exact n3 q hq
  have st2 : Step x (oneA r nm) noD s1 s2 := po.step.mono (fun _ _ h => h) (fun p h => (hno p h).elim)
  have st3 := (st.mono (A' := oneA r nm) (D' := noD) (fun _ _ h => h.elim) (fun _ h => h)).trans st2 (fun _ _ h => h) (fun _ _ h => h)
  refine ⟨⟨st3.fr.absorbRefs (hi.refs r hr).1 ?_ ?_, st3.inv⟩, hpre, n3, ?_⟩
  · rcases n4 with ⟨_, a1, a2, _⟩ | ⟨_, i, b1, b2, b3⟩
    · exact Or.inr (Or.inl ⟨s.counter, Nat.le_refl _, by have := st2.fr.counter; omega, a1⟩)
    · exact Or.inr (Or.inr ⟨i, b1, Nat.lt_of_lt_of_le b2 st2.fr.rpos, b3⟩)
  · intro ha
    rcases n4 with ⟨_, a1, _⟩ | ⟨_, i, _, _, b⟩
    · have := hexStr_a (ha.symm.trans a1)
      have := hi.ctr
      omega
    · exact absurd (b.symm.trans ha) (randName_ne_a x i)
  · intro p hpp
    have t := po.ok p hpp
    refine ⟨?_, t.lt, t.off⟩
    rcases t.own with h | h
    · exact h
    · exact absurd h (hno p)

theorem writeElems_step {x : Ctx} {wr : Wr} (hwr : WrOk x wr) {s s' : St} {r c : Nat} {vs : List Val} {res : Res (List Nat)} (hi : Inv x s)
    (hr : s.refs = some r) (h : writeElems x wr r c vs s = (res, s')) : Step x noA noD s s' := by
  induction vs generalizing s res with
  | nil => cases h; exact Step.refl hi
  | cons v vs ih =>
    rw [writeElems] at h
    rcases bind_run (nextName x) _ s with ⟨nm, s1, e1, e2⟩ | ⟨e, s1, e1, e2⟩
    · rw [e2] at h
      rcases bind_run (wr r (refsName x.o) nm v) _ s1 with ⟨ob, s2, e3, e4⟩ | ⟨e, s2, e3, e4⟩
      · rw [e4] at h
        obtain ⟨st, _, _, hob⟩ := elem_step hwr hi hr e1 e3
        cases ob with
        | none =>
          dsimp only at h
          rcases bind_run (writeElems x wr r c vs) _ s2 with ⟨l, s3, e5, e6⟩ | ⟨e, s3, e5, e6⟩
          · rw [e6] at h; cases h
            exact st.trans (ih st.inv (st.keepRefs hr) e5) (fun _ _ h => h) (fun _ _ h => h)
          · rw [e6] at h; cases h
            exact st.trans (ih st.inv (st.keepRefs hr) e5) (fun _ _ h => h) (fun _ _ h => h)
        | some p =>
          dsimp only at h
          obtain ⟨q1, q2, q3⟩ := hob p rfl
          have hlen : s.heap.length ≤ s1.heap.length := (nextName_spec hi hr e1).1.fr.len
          rcases bind_run (setH5Path x p (asciiEnc (refsName x.o))) _ s2 with ⟨u, s3, e5, e6⟩ | ⟨e, s3, e5, e6⟩
          · have st2 := st.trans (setH5Path_step st.inv p _ e5) (fun _ _ h => h) (fun q hq hqp => by
              rw [show q = p from hqp] at hq; omega)
            rw [e6] at h
            rcases bind_run (writeElems x wr r c vs) _ s3 with ⟨l, s4, e7, e8⟩ | ⟨e, s4, e7, e8⟩
            · rw [e8] at h; cases h
              exact st2.trans (ih st2.inv (st2.keepRefs hr) e7) (fun _ _ h => h) (fun _ _ h => h)
            · rw [e8] at h; cases h
              exact st2.trans (ih st2.inv (st2.keepRefs hr) e7) (fun _ _ h => h) (fun _ _ h => h)
          · have st2 := st.trans (setH5Path_step st.inv p _ e5) (fun _ _ h => h) (fun q hq hqp => by
              rw [show q = p from hqp] at hq; omega)
            rw [e6] at h; cases h
            exact st2
      · rw [e4] at h; cases h
        exact (elem_step hwr hi hr e1 e3).1
    · rw [e2] at h; cases h
      exact (nextName_spec hi hr e1).1

theorem writeObjectArray_step {x : Ctx} {wr : Wr} (hwr : WrOk x wr) {s s' : St} {vs : List Val} {res : Res (List Nat)} (hi : Inv x s)
    (h : writeObjectArray x wr vs s = (res, s')) : Step x noA noD s s' := by
  unfold writeObjectArray at h
  rcases bind_run (ensureRefs x) _ s with ⟨r, s1, e1, e2⟩ | ⟨e, s1, e1, e2⟩
  · rw [e2] at h
    obtain ⟨st, hr⟩ := ensureRefs_spec hi e1
    have hr1 := hr r rfl
    rcases bind_run (ensureCanon r) _ s1 with ⟨c, s2, e3, e4⟩ | ⟨e, s2, e3, e4⟩
    · rw [e4] at h
      have st2 := st.trans (ensureCanon_spec st.inv hr1 e3) (fun _ _ h => h) (fun _ _ h => h)
      have hr2 := (ensureCanon_spec st.inv hr1 e3).keepRefs hr1
      exact st2.trans (writeElems_step hwr st2.inv hr2 h) (fun _ _ h => h) (fun _ _ h => h)
    · rw [e4] at h; cases h
      exact st.trans (ensureCanon_spec st.inv hr1 e3) (fun _ _ h => h) (fun _ _ h => h)
  · rw [e2] at h; cases h
    exact (ensureRefs_spec hi e1).1

theorem writeNpObj_post {x : Ctx} {wr : Wr} (hwr : WrOk x wr) {s s' : St} {res : Res (Option Nat)} {g : Nat} {name : Str} (hp : Pre x s g name) (c : Cont)
    (shape : List Nat) (elems : List Val) (ts : Str) (h : writeNpObj x wr g name c shape elems ts s = (res, s')) :
    Post x g name s s' (fun p => res = .ok (some p)) := by
  unfold writeNpObj at h
  generalize (if x.o.reverse = true then _ else elems) = el at h
  generalize (if x.o.reverse = true then (if x.o.atleast2d = true then atleast2dShape shape else shape).reverse else _) = sh' at h
  split at h
  · rw [run_pure_bind] at h
    exact putAttrs_post hp _ _ _ h
  · rcases bind_run (writeObjectArray x wr el >>= fun refs => (pure ⟨.ref, sh', refs.map El.ref⟩ : M Arr)) _ s with ⟨d, s1, e1, e2⟩ | ⟨e, s1, e1, e2⟩
    · rw [e2] at h
      rcases bind_run (writeObjectArray x wr el) (fun refs => (pure ⟨.ref, sh', refs.map El.ref⟩ : M Arr)) s with ⟨l, s2, e3, e4⟩ | ⟨e, s2, e3, e4⟩
      · rw [e4, run_pure] at e1; cases e1
        have st := writeObjectArray_step hwr hp.inv e3
        exact Post.after st (putAttrs_post (hp.keep st) _ _ _ h)
      · rw [e4] at e1; cases e1
    · rw [e2] at h; cases h
      rcases bind_run (writeObjectArray x wr el) (fun refs => (pure ⟨.ref, sh', refs.map El.ref⟩ : M Arr)) s with ⟨l, s2, e3, e4⟩ | ⟨e, s2, e3, e4⟩
      · rw [e4, run_pure] at e1; cases e1
      · rw [e4] at e1; cases e1
        have st := writeObjectArray_step hwr hp.inv e3
        exact ⟨st.mono (fun _ _ h => h.elim) (fun _ h => h.elim), fun p h => by cases h⟩

/-- What a Group gets written is below it. -/
theorem Sep.pre {x : Ctx} {s : St} (hi : Inv x s) {g : Nat} (hg : g < s.heap.length) (hs : Sep x s g) {k : Str} (hk : k ≠ [dot]) : Pre x s g k where
  inv := hi
  glt := hg
  nd := hk
  off := fun pre h1 h2 => hs g .refl ⟨pre, prefix_of_snoc h1, h2⟩
  res := fun _ hr _ _ _ => hs g .refl ⟨_, List.prefix_refl _, (hi.refs g hr).1⟩
  sep := fun _ hq => hs.child hq

/-- Changes below a Group, seen from the Group. -/
theorem Post.below {x : Ctx} {g : Nat} {k : Str} {s s' : St} {P : Nat → Prop} (hi : Inv x s) (hg : g < s.heap.length) (hs : Sep x s g) (h : Post x g k s s' P) :
    Step x noA (LReach s.heap g) s s' := by
  refine ⟨?_, h.step.inv⟩
  have f := (Fr.rfl' (x := x) (A := noA) (D := LReach s.heap g) hi.wf).trans h.step.fr hi.created ?_ ?_ ?_
  · exact f
  · rintro p k _ hn ⟨rfl, _⟩
    exact hn .refl
  · rintro p _ ⟨q, h1, h2⟩
    exact (LReach.step .refl h1).trans h2
  · rintro p k q hr _ ⟨rfl, _⟩
    exact absurd ⟨_, List.prefix_refl _, hr⟩ ((hs.keep h.step.fr hi hg) p .refl)

theorem writeItems_step {x : Ctx} {wr : Wr} (hwr : WrOk x wr) {s s' : St} {g : Nat} {gname : Str} {items : List (Str × Val)} {res : Res Unit} (hi : Inv x s)
    (hg : g < s.heap.length) (hs : Sep x s g) (hk : ∀ i ∈ items, i.1 ≠ [dot]) (h : writeItems x wr g gname items s = (res, s')) :
    Step x noA (LReach s.heap g) s s' := by
  induction items generalizing s res with
  | nil => cases h; exact Step.refl hi
  | cons i items ih =>
    obtain ⟨k, v⟩ := i
    have hkd : k ≠ [dot] := hk (k, v) (by simp)
    have hrest : ∀ i ∈ items, i.1 ≠ [dot] := fun i hi => hk i (by simp [hi])
    rw [writeItems] at h
    rcases bind_run (wr g gname k v) _ s with ⟨ob, s1, e1, e2⟩ | ⟨e, s1, e1, e2⟩
    · rw [e2] at h
      have po := hwr s g gname k v s1 _ (hs.pre hi hg hkd) e1
      have st := po.below hi hg hs
      have hg1 : g < s1.heap.length := Nat.lt_of_lt_of_le hg st.fr.len
      have hs1 := hs.keep st.fr hi hg
      cases ob with
      | none =>
        dsimp only at h
        exact st.trans (ih st.inv hg1 hs1 hrest h) (fun _ _ h => h) (fun p hp hr => (st.fr.reach_old hr hp).2)
      | some p =>
        dsimp only at h
        have t := po.ok p rfl
        have hD : ∀ q, q < s.heap.length → oneD p q → LReach s.heap g q := by
          intro q hq hqp
          rw [show q = p from hqp] at hq ⊢
          rcases t.own with h | ⟨a, h1, h2⟩
          · omega
          · exact (LReach.step .refl h1).trans h2
        rcases bind_run (setH5Path x p (asciiEnc gname)) _ s1 with ⟨u, s2, e3, e4⟩ | ⟨e, s2, e3, e4⟩
        · rw [e4] at h
          have st2 := st.trans (setH5Path_step st.inv p _ e3) (fun _ _ h => h) hD
          exact st2.trans (ih st2.inv (Nat.lt_of_lt_of_le hg st2.fr.len) (hs.keep st2.fr hi hg) hrest h) (fun _ _ h => h)
            (fun p hp hr => (st2.fr.reach_old hr hp).2)
        · rw [e4] at h; cases h
          exact st.trans (setH5Path_step st.inv p _ e3) (fun _ _ h => h) hD
    · rw [e2] at h; cases h
      exact (hwr s g gname k v _ _ (hs.pre hi hg hkd) e1).below hi hg hs

/-- Getting the Group. -/
theorem getGroup_spec {x : Ctx} {s s' : St} {res : Res Nat} {g : Nat} {name : Str} (hp : Pre x s g name) (h : getGroup g name s = (res, s')) :
    Step x (oneA g name) noD s s' ∧ ∀ p, res = .ok p → Tgt x s s' g name p ∧ Sep x s' p := by
  unfold getGroup at h
  rcases getLink_run g name s with hh | ⟨e, hh⟩
  · rw [run_bind_ok hh, hlook_plain _ _ _ hp.nd] at h
    cases hl : aget (linksOf s.heap g) name with
    | none =>
      rw [hl] at h
      obtain ⟨h1, h2⟩ := create_at hp _ rfl h
      exact ⟨h1, fun p hpp => ⟨(h2 p hpp).1, (h2 p hpp).2.1⟩⟩
    | some q =>
      rw [hl] at h
      dsimp only at h
      rw [run_getSt] at h
      split at h
      · cases h
        refine ⟨Step.refl hp.inv, ?_⟩
        intro p hpp
        cases hpp
        exact ⟨⟨Or.inr ⟨q, hl, .refl⟩, hp.inv.wf _ _ _ hl, hp.sep q hl q .refl⟩, hp.sep q hl⟩
      · exact replace_at hp _ rfl h
  · rw [run_bind_err hh] at h; cases h
    exact ⟨Step.refl hp.inv, fun p h => by cases h⟩

/-- Changes below the Group written to the place. -/
theorem Post.then_below {x : Ctx} {g : Nat} {name : Str} {s s1 s2 : St} {P : Nat → Prop} {p : Nat} (h : Post x g name s s1 P) (hP : P p)
    (st : Step x noA (LReach s1.heap p) s1 s2) : Post x g name s s2 P where
  step := h.step.trans st (fun _ _ h => h.elim) (by
    intro q hq hqp
    obtain ⟨h1, h2⟩ := h.step.fr.reach_old hqp hq
    rcases (h.ok p hP).own with h' | ⟨a, h3, h4⟩
    · omega
    · exact ⟨a, h3, h4.trans h2⟩)
  ok := fun q hq => (h.ok q hq).later st.fr

theorem deleteOthers_step {x : Ctx} {s : St} (hi : Inv x s) (g : Nat) (hs : Sep x s g) (names : List Str) :
    Step x noA (oneD g) s { s with heap := s.heap.update g (Obj.mapLinks fun l => l.filter fun p => names.contains p.1) } := by
  refine removeLinks_step hi g noA (oneD g) (fun k => names.contains k) (fun _ _ => Or.inl rfl) (Or.inl rfl) ?_
  intro _ k _ pre h1 h2
  exact hs g .refl ⟨pre, prefix_of_snoc h1, h2⟩

theorem escape_ne_dot {p e : Str} (h : escapePath p = .ok e) : e ≠ [dot] := by
  rintro rfl
  exact (C02_escaped_cannot_navigate p _ h).2.2.1 rfl

theorem keyInfo_ne_dot {v : Val} {i : Str × Nat} (h : keyInfo v = some i) : i.1 ≠ [dot] := by
  have key : ∀ (r : Res Str) (t : Nat), (r.toOption).map (fun e => (e, t)) = some i → (∀ e, r = .ok e → e ≠ [dot]) → i.1 ≠ [dot] := by
    intro r t hr hd
    cases r with
    | error e => cases hr
    | ok e => cases hr; exact hd e rfl
  have bind_ok : ∀ (m : Res Str) e, (m >>= escapePath) = .ok e → e ≠ [dot] := by
    intro m e he
    cases m with
    | error e' => cases he
    | ok a => exact escape_ne_dot he
  cases v with
  | str s => exact key _ _ h (fun e he => escape_ne_dot he)
  | bytes b => exact key _ _ h (fun e he => bind_ok _ e he)
  | np c a =>
    cases c with
    | scalar =>
      obtain ⟨dt, sh, da⟩ := a
      cases dt with
      | str n => exact key _ _ h (fun e he => bind_ok _ e he)
      | bytes n => exact key _ _ h (fun e he => bind_ok _ e he)
      | _ => cases h
    | _ => cases h
  | _ => cases h

theorem keyInfos_ne_dot {ks : List Val} {l : List (Str × Nat)} (h : keyInfos ks = some l) : ∀ i ∈ l, i.1 ≠ [dot] := by
  induction ks generalizing l with
  | nil => cases h; simp
  | cons k ks ih =>
    rw [keyInfos] at h
    split at h
    · rename_i i l' h1 h2
      cases h
      intro j hj
      rw [List.mem_cons] at hj
      rcases hj with rfl | hj
      · exact keyInfo_ne_dot h1
      · exact ih h2 j hj
    · cases h

/-- The names the items of a dict are written under. -/
def dictItems (o : COpts) (keys vals : List Val) : List (Str × Val) := match keyInfos keys with
  | none => [(o.keysName, .seq .tuple keys), (o.valuesName, .seq .tuple vals)]
  | some l => (l.map (·.1)).zip vals

theorem dictItems_ne_dot {o : COpts} (hk : o.keysName ≠ [dot]) (hv : o.valuesName ≠ [dot]) (keys vals : List Val) :
    ∀ i ∈ dictItems o keys vals, i.1 ≠ [dot] := by
  intro i hi
  unfold dictItems at hi
  split at hi
  · simp only [List.mem_cons, List.not_mem_nil, or_false] at hi
    rcases hi with rfl | rfl
    · exact hk
    · exact hv
  · rename_i l hl
    obtain ⟨a, b⟩ := i
    have := (List.of_mem_zip hi).1
    rw [List.mem_map] at this
    obtain ⟨j, h1, h2⟩ := this
    rw [← h2]
    exact keyInfos_ne_dot hl j h1

theorem writeDict_post {x : Ctx} (hk : x.o.keysName ≠ [dot]) (hv : x.o.valuesName ≠ [dot]) {wr : Wr} (hwr : WrOk x wr) {s s' : St} {res : Res (Option Nat)} {g : Nat}
    {gname name : Str} (hp : Pre x s g name) (keys vals : List Val) (struct : Bool) (ts : Str)
    (h : writeDict x wr g gname name keys vals struct ts s = (res, s')) : Post x g name s s' (fun p => res = .ok (some p)) := by
  unfold writeDict at h
  dsimp only at h
  change (getGroup g name >>= fun g2 => _) s = _ at h
  rcases bind_run (getGroup g name) _ s with ⟨g2, s1, e1, e2⟩ | ⟨e, s1, e1, e2⟩
  · rw [e2] at h
    obtain ⟨st, hg⟩ := getGroup_spec hp e1
    obtain ⟨t, hs⟩ := hg g2 rfl
    have po : Post x g name s s1 (fun p => p = g2) := ⟨st.mono (fun _ _ h => h) (fun _ h => h.elim), fun p hpp => by rw [hpp]; exact t⟩
    rcases bind_run (setAttrsM g2 (dictAttrs x.o (keyInfos keys) struct ts) true) _ s1 with ⟨u, s2, e3, e4⟩ | ⟨e, s2, e3, e4⟩
    · rw [e4] at h
      have sa := setAttrsM_step st.inv g2 _ true e3
      have po2 := po.then_obj rfl sa
      have hg2 : g2 < s2.heap.length := (po2.ok g2 rfl).lt
      have hs2 := hs.keep sa.fr st.inv t.lt
      change ((if (keyInfos keys).isNone || x.o.deleteUnused then deleteOthers g2 ((dictItems x.o keys vals).map (·.1)) else pure () : M Unit) >>= fun _ =>
        ((if x.o.matlab then liftRes (asciiEnc (joinName gname name)) else pure [] : M Bytes) >>= fun _ =>
          (writeItems x wr g2 (joinName gname name) (dictItems x.o keys vals) >>= fun _ => (pure (some g2) : M (Option Nat))))) s2 = _ at h
      obtain ⟨s3, e5, po3, hs3⟩ : ∃ s3, (if (keyInfos keys).isNone || x.o.deleteUnused then deleteOthers g2 ((dictItems x.o keys vals).map (·.1)) else pure () : M Unit) s2 = (.ok (), s3) ∧
          Post x g name s s3 (fun p => p = g2) ∧ Sep x s3 g2 := by
        split
        · have sd := deleteOthers_step po2.step.inv g2 hs2 ((dictItems x.o keys vals).map (·.1))
          exact ⟨_, rfl, po2.then_obj rfl sd, hs2.keep sd.fr po2.step.inv hg2⟩
        · exact ⟨s2, rfl, po2, hs2⟩
      rw [run_bind_ok e5] at h
      rcases bind_run (if x.o.matlab then liftRes (asciiEnc (joinName gname name)) else pure [] : M Bytes) (fun _ =>
          (writeItems x wr g2 (joinName gname name) (dictItems x.o keys vals) >>= fun _ => (pure (some g2) : M (Option Nat)))) s3 with ⟨b, s4, e6, e7⟩ | ⟨e, s4, e6, e7⟩
      · rw [e7] at h
        have h34 : s4 = s3 := by
          split at e6
          · cases ha : asciiEnc (joinName gname name) <;> rw [ha] at e6 <;> cases e6; rfl
          · cases e6; rfl
        subst h34
        have hdot := dictItems_ne_dot hk hv keys vals
        rcases bind_run (writeItems x wr g2 (joinName gname name) (dictItems x.o keys vals)) (fun _ => (pure (some g2) : M (Option Nat))) s4 with ⟨u, s5, e8, e9⟩ | ⟨e, s5, e8, e9⟩
        · have po4 := po3.then_below rfl (writeItems_step hwr po3.step.inv (po3.ok g2 rfl).lt hs3 hdot e8)
          rw [e9, run_pure] at h; cases h
          exact po4.weaken (fun p hpp => by cases hpp; rfl)
        · have po4 := po3.then_below rfl (writeItems_step hwr po3.step.inv (po3.ok g2 rfl).lt hs3 hdot e8)
          rw [e9] at h; cases h
          exact po4.weaken (fun p hpp => by cases hpp)
      · rw [e7] at h
        have h34 : s4 = s3 := by
          split at e6
          · cases ha : asciiEnc (joinName gname name) <;> rw [ha] at e6 <;> cases e6; rfl
          · cases e6
        subst h34
        cases h
        exact po3.weaken (fun p hpp => by cases hpp)
    · rw [e4] at h; cases h
      exact (po.then_obj rfl (setAttrsM_step st.inv g2 _ true e3)).weaken (fun p hpp => by cases hpp)
  · rw [e2] at h; cases h
    obtain ⟨st, _⟩ := getGroup_spec hp e1
    exact ⟨st.mono (fun _ _ h => h) (fun _ h => h.elim), fun p h => by cases h⟩

theorem writeFields_step {x : Ctx} {wr : Wr} (hwr : WrOk x wr) {s s' : St} {g : Nat} {gname : Str} {others : Bool} {items : List (Str × Val)} {res : Res Unit}
    (hi : Inv x s) (hg : g < s.heap.length) (hs : Sep x s g) (hk : ∀ i ∈ items, i.1 ≠ [dot]) (h : writeFields x wr g gname others items s = (res, s')) :
    Step x noA (LReach s.heap g) s s' := by
  induction items generalizing s res with
  | nil => cases h; exact Step.refl hi
  | cons i items ih =>
    obtain ⟨k, v⟩ := i
    have hkd : k ≠ [dot] := hk (k, v) (by simp)
    have hrest : ∀ i ∈ items, i.1 ≠ [dot] := fun i hi => hk i (by simp [hi])
    rw [writeFields] at h
    rcases bind_run (wr g gname k v) _ s with ⟨ob, s1, e1, e2⟩ | ⟨e, s1, e1, e2⟩
    · rw [e2] at h
      have po := hwr s g gname k v s1 _ (hs.pre hi hg hkd) e1
      have st := po.below hi hg hs
      have hg1 : g < s1.heap.length := Nat.lt_of_lt_of_le hg st.fr.len
      have hs1 := hs.keep st.fr hi hg
      cases ob with
      | none =>
        dsimp only at h
        exact st.trans (ih st.inv hg1 hs1 hrest h) (fun _ _ h => h) (fun p hp hr => (st.fr.reach_old hr hp).2)
      | some p =>
        dsimp only at h
        have t := po.ok p rfl
        have hD : ∀ q, q < s.heap.length → oneD p q → LReach s.heap g q := by
          intro q hq hqp
          rw [show q = p from hqp] at hq ⊢
          rcases t.own with h | ⟨a, h1, h2⟩
          · omega
          · exact (LReach.step .refl h1).trans h2
        rcases bind_run (setAttrsM p (if x.o.matlab then [(p!"H5PATH", .string gname)] else []) others) _ s1 with ⟨u, s2, e3, e4⟩ | ⟨e, s2, e3, e4⟩
        · rw [e4] at h
          have st2 := st.trans (setAttrsM_step st.inv p _ _ e3) (fun _ _ h => h) hD
          exact st2.trans (ih st2.inv (Nat.lt_of_lt_of_le hg st2.fr.len) (hs.keep st2.fr hi hg) hrest h) (fun _ _ h => h)
            (fun p hp hr => (st2.fr.reach_old hr hp).2)
        · rw [e4] at h; cases h
          exact st.trans (setAttrsM_step st.inv p _ _ e3) (fun _ _ h => h) hD
    · rw [e2] at h; cases h
      exact (hwr s g gname k v _ _ (hs.pre hi hg hkd) e1).below hi hg hs

theorem writeGroup_post {x : Ctx} {wr : Wr} (hwr : WrOk x wr) {s s' : St} {res : Res (Option Nat)} {g : Nat} {gname name : Str} (hp : Pre x s g name)
    {esc : List Str} {others : Bool} {items : List (Str × Val)} {at' : List (Str × AIn)} (hdot : ∀ i ∈ items, i.1 ≠ [dot])
    (h : writeGroup x wr g gname name esc others items at' s = (res, s')) : Post x g name s s' (fun p => res = .ok (some p)) := by
  unfold writeGroup at h
  rcases bind_run (getGroup g name) _ s with ⟨g2, s1, e1, e2⟩ | ⟨e, s1, e1, e2⟩
  · rw [e2] at h
    obtain ⟨st, hg⟩ := getGroup_spec hp e1
    obtain ⟨t, hs⟩ := hg g2 rfl
    have po : Post x g name s s1 (fun p => p = g2) := ⟨st.mono (fun _ _ h => h) (fun _ h => h.elim), fun p hpp => by rw [hpp]; exact t⟩
    obtain ⟨s3, e5, po3, hs3⟩ : ∃ s3, (if x.o.deleteUnused then deleteOthers g2 esc else pure () : M Unit) s1 = (.ok (), s3) ∧
        Post x g name s s3 (fun p => p = g2) ∧ Sep x s3 g2 := by
      split
      · have sd := deleteOthers_step po.step.inv g2 hs esc
        exact ⟨_, rfl, po.then_obj rfl sd, hs.keep sd.fr po.step.inv t.lt⟩
      · exact ⟨s1, rfl, po, hs⟩
    rw [run_bind_ok e5] at h
    rcases bind_run (writeFields x wr g2 (joinName gname name) others items) (fun _ => setAttrsM g2 at' true >>= fun _ => (pure (some g2) : M (Option Nat))) s3
      with ⟨u, s4, e6, e7⟩ | ⟨e, s4, e6, e7⟩
    · have h1 := e7.symm.trans h
      have po4 := po3.then_below rfl (writeFields_step hwr po3.step.inv (po3.ok g2 rfl).lt hs3 hdot e6)
      rcases bind_run (setAttrsM g2 at' true) (fun _ => (pure (some g2) : M (Option Nat))) s4 with ⟨u, s5, e8, e9⟩ | ⟨e, s5, e8, e9⟩
      · have h2 := e9.symm.trans h1
        rw [run_pure] at h2; cases h2
        exact (po4.then_obj rfl (setAttrsM_step po4.step.inv g2 _ true e8)).weaken (fun p hpp => by cases hpp; rfl)
      · have h2 := e9.symm.trans h1
        cases h2
        exact (po4.then_obj rfl (setAttrsM_step po4.step.inv g2 _ true e8)).weaken (fun p hpp => by cases hpp)
    · have h1 := e7.symm.trans h
      cases h1
      exact (po3.then_below rfl (writeFields_step hwr po3.step.inv (po3.ok g2 rfl).lt hs3 hdot e6)).weaken (fun p hpp => by cases hpp)
  · rw [e2] at h; cases h
    obtain ⟨st, _⟩ := getGroup_spec hp e1
    exact ⟨st.mono (fun _ _ h => h) (fun _ h => h.elim), fun p h => by cases h⟩

/-- The steps of writing the Group of a structured array. -/
theorem writeGroup_run {x : Ctx} {wr : Wr} {s s' : St} {ob : Option Nat} {g : Nat} {gname name : Str} {esc : List Str} {others : Bool} {items : List (Str × Val)}
    {at' : List (Str × AIn)} (h : writeGroup x wr g gname name esc others items at' s = (.ok ob, s')) :
    ∃ g2 s1 s3 s4, ob = some g2 ∧ getGroup g name s = (.ok g2, s1) ∧ (if x.o.deleteUnused then deleteOthers g2 esc else pure () : M Unit) s1 = (.ok (), s3) ∧
      writeFields x wr g2 (joinName gname name) others items s3 = (.ok (), s4) ∧ setAttrsM g2 at' true s4 = (.ok (), s') := by
  unfold writeGroup at h
  rcases bind_run (getGroup g name) _ s with ⟨g2, s1, e1, e2⟩ | ⟨e, s1, e1, e2⟩
  · rw [e2] at h
    rcases bind_run (if x.o.deleteUnused then deleteOthers g2 esc else pure () : M Unit) (fun _ =>
      writeFields x wr g2 (joinName gname name) others items >>= fun _ => setAttrsM g2 at' true >>= fun _ => (pure (some g2) : M (Option Nat))) s1
      with ⟨u, s3, e3, e4⟩ | ⟨e, s3, e3, e4⟩
    · have h1 := e4.symm.trans h
      rcases bind_run (writeFields x wr g2 (joinName gname name) others items) (fun _ => setAttrsM g2 at' true >>= fun _ => (pure (some g2) : M (Option Nat))) s3
        with ⟨u', s4, e6, e7⟩ | ⟨e, s4, e6, e7⟩
      · have h2 := e7.symm.trans h1
        rcases bind_run (setAttrsM g2 at' true) (fun _ => (pure (some g2) : M (Option Nat))) s4 with ⟨u'', s5, e8, e9⟩ | ⟨e, s5, e8, e9⟩
        · have h3 := e9.symm.trans h2
          rw [run_pure] at h3
          cases h3
          exact ⟨g2, s1, s3, s4, rfl, e1, e3, e6, e8⟩
        · have h3 := e9.symm.trans h2; cases h3
      · have h2 := e7.symm.trans h1; cases h2
    · have h1 := e4.symm.trans h; cases h1
  · rw [e2] at h; cases h

theorem escape_total (s : Str) : ∃ e, escapePath s = .ok e := ⟨_, escapePath_eq s⟩

theorem escapes_total (l : List Str) : ∃ e, l.mapM escapePath = .ok e := by
  induction l with
  | nil => exact ⟨[], rfl⟩
  | cons a l ih =>
    obtain ⟨e, he⟩ := ih
    obtain ⟨b, hb⟩ := escape_total a
    refine ⟨b :: e, ?_⟩
    rw [List.mapM_cons, hb, he]
    rfl

theorem escapes_ne_dot {l e : List Str} (h : l.mapM escapePath = .ok e) : ∀ k ∈ e, k ≠ [dot] := by
  induction l generalizing e with
  | nil => cases h; intro k hk; cases hk
  | cons a l ih =>
    obtain ⟨b, hb⟩ := escape_total a
    obtain ⟨r, hr⟩ := escapes_total l
    rw [List.mapM_cons, hb, hr] at h
    cases h
    intro k hk
    rw [List.mem_cons] at hk
    rcases hk with rfl | hk
    · exact escape_ne_dot hb
    · exact ih hr k hk

theorem structItems_ne_dot {o : COpts} {shape : List Nat} {names esc : List Str} {elems : List Val} (h : names.mapM escapePath = .ok esc) :
    ∀ i ∈ structItems o shape esc elems, i.1 ≠ [dot] := by
  rintro ⟨a, b⟩ hi
  exact escapes_ne_dot h a (List.of_mem_zip hi).1

/-- The ways writing structured data can go. -/
theorem writeStruct_cases {x : Ctx} {wr : Wr} {s s' : St} {res : Res (Option Nat)} {g : Nat} {gname name : Str} {c : Cont} {shape : List Nat} {names : List Str}
    {types : List FT} {elems : List Val} {ts : Str} (h : writeStruct x wr g gname name c shape names types elems ts s = (res, s')) :
    ((s' = s ∨ s' = (unlink g name s).2) ∧ ∃ e, res = .error e) ∨
    (x.o.matlab = true ∧ x.o.structAsStruct = false ∧ x.o.action = .discard ∧ s' = s ∧ res = .ok none) ∨
    (¬ (x.o.matlab = true ∧ x.o.structAsStruct = false ∧ x.o.action = .discard) ∧ ∃ esc, names.mapM escapePath = .ok esc ∧
      (((x.o.storeShape && prodN shape == 0) = true ∧
        (putDataset g name (shapeArr (shape2d x.o shape)) (filtersFor x.o (shapeArr (shape2d x.o shape))) >>= fun p =>
          setAttrsM p (structAttrs x.o c types shape false esc ts) true >>= fun _ => (pure (some p) : M (Option Nat))) s = (res, s')) ∨
       ((x.o.storeShape && prodN shape == 0) = false ∧ structAsGroup x.o names types = true ∧
        writeGroup x wr g gname name esc (prodN (shape2d x.o shape) != 1) (structItems x.o shape esc elems) (structAttrs x.o c types shape true esc ts) s = (res, s')) ∨
       ((x.o.storeShape && prodN shape == 0) = false ∧ structAsGroup x.o names types = false ∧ tableErr names types = none ∧
        (putDataset g name (tableArr x.o shape names types elems) (filtersFor x.o (tableArr x.o shape names types elems)) >>= fun p =>
          setAttrsM p (tableAttrs x.o c types shape esc ts) true >>= fun _ => (pure (some p) : M (Option Nat))) s = (res, s')))) := by
  unfold writeStruct at h
  split at h
  · cases h; exact Or.inl ⟨.inl rfl, _, rfl⟩
  · split at h
    · rename_i hd
      cases h
      exact Or.inr (Or.inl ⟨hd.1, hd.2.1, hd.2.2, rfl, rfl⟩)
    · rename_i hd
      obtain ⟨esc, he⟩ := escapes_total names
      rw [he] at h
      change ((if (x.o.storeShape && prodN shape == 0) = true then _ else _ : M (Option Nat))) s = _ at h
      split at h
      · rename_i h1
        exact Or.inr (Or.inr ⟨hd, esc, he, Or.inl ⟨h1, h⟩⟩)
      · rename_i h1
        split at h
        · rename_i h2
          exact Or.inr (Or.inr ⟨hd, esc, he, Or.inr (Or.inl ⟨by simpa using h1, h2, h⟩)⟩)
        · rename_i h2
          cases ht : tableErr names types with
          | some e =>
            rw [ht] at h
            cases h; exact Or.inl ⟨.inr rfl, _, rfl⟩
          | none =>
            rw [ht] at h
            exact Or.inr (Or.inr ⟨hd, esc, he, Or.inr (Or.inr ⟨by simpa using h1, by simpa using h2, rfl, h⟩)⟩)

theorem writeStruct_post {x : Ctx} {wr : Wr} (hwr : WrOk x wr) {s s' : St} {res : Res (Option Nat)} {g : Nat} {gname name : Str} (hp : Pre x s g name) {c : Cont}
    {shape : List Nat} {names : List Str} {types : List FT} {elems : List Val} {ts : Str}
    (h : writeStruct x wr g gname name c shape names types elems ts s = (res, s')) : Post x g name s s' (fun p => res = .ok (some p)) := by
  rcases writeStruct_cases h with ⟨rfl | rfl, e, rfl⟩ | ⟨_, _, _, rfl, rfl⟩ | ⟨_, esc, he, ⟨_, h⟩ | ⟨_, _, h⟩ | ⟨_, _, _, h⟩⟩
  · exact Post.refl hp.inv (fun p h => by cases h)
  · exact ⟨(unlink_at hp rfl).mono (fun _ _ h => h) (fun _ h => h.elim), fun p h => by cases h⟩
  · exact Post.refl hp.inv (fun p h => by cases h)
  · exact putAttrs_post hp _ _ _ h
  · exact writeGroup_post hwr hp (structItems_ne_dot he) h
  · exact putAttrs_post hp _ _ _ h

/-- The writers change nothing but the link they write to, what is below it, new objects, and the references Group, whether they succeed or
fail. -/
theorem writeData_post {x : Ctx} (hk : x.o.keysName ≠ [dot]) (hv : x.o.valuesName ≠ [dot]) (n : Nat) : WrOk x (writeData x n) := by
  induction n with
  | zero =>
    intro s g gname name v s' res hp h
    cases h
    exact Post.refl hp.inv (fun p h => by cases h)
  | succ n ih =>
    intro s g gname name v s' res hp h
    have hleaf : ∀ w : Val, (match leafOf w with | some (c, a) => writeNp x g name c a (tsOf w) | none => raise .notImplemented) s = (res, s') →
        Post x g name s s' (fun p => res = .ok (some p)) := by
      intro w h
      cases hl : leafOf w with
      | none => rw [hl] at h; cases h; exact Post.refl hp.inv (fun p h => by cases h)
      | some ca =>
        obtain ⟨c, a⟩ := ca
        rw [hl] at h
        exact writeNp_post hp c a _ h
    cases v with
    | npObj c shape elems => exact writeNpObj_post ih hp c shape elems _ h
    | seq k elems => exact writeNpObj_post ih hp .ndarray _ elems _ h
    | dict k keys vals => exact writeDict_post hk hv ih hp keys vals _ _ h
    | record k vals => exact writeDict_post hk hv ih hp _ vals _ _ h
    | npStruct c shape names types elems => exact writeStruct_post ih hp h
    | none => exact hleaf (.none) h
    | ellipsis => exact hleaf (.ellipsis) h
    | notImplemented => exact hleaf (.notImplemented) h
    | bool b => exact hleaf (.bool b) h
    | int i => exact hleaf (.int i) h
    | float f => exact hleaf (.float f) h
    | complex a b => exact hleaf (.complex a b) h
    | str t => exact hleaf (.str t) h
    | bytes b => exact hleaf (.bytes b) h
    | bytearray b => exact hleaf (.bytearray b) h
    | np c a => exact hleaf (.np c a) h
    | dtypeObj t => exact hleaf (.dtypeObj t) h
    | other => exact hleaf (.other) h

end HS
