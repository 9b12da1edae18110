import Verif.Lemmas.Steps
/-
Finding or making the references Group and the names in it.
-/
namespace HS
open Spec

/-- Links on the way to the references Group, and links of new objects. -/
def ChainA (x : Ctx) (s : St) (p : Nat) (k : Str) : Prop :=
  s.heap.length ≤ p ∨ ∃ pre, (pre ++ [k]) <+: refsComps x.o ∧ resolve s.heap 0 pre = some p

/-- The bookkeeping is the same. -/
def SameBk (s s' : St) : Prop :=
  s'.refs = s.refs ∧ s'.created = s.created ∧ s'.counter = s.counter ∧ s'.rpos = s.rpos ∧ s'.canon = s.canon

theorem SameBk.refl (s : St) : SameBk s s := ⟨rfl, rfl, rfl, rfl, rfl⟩
theorem SameBk.trans {a b c : St} (h : SameBk a b) (g : SameBk b c) : SameBk a c :=
  ⟨g.1.trans h.1, g.2.1.trans h.2.1, g.2.2.1.trans h.2.2.1, g.2.2.2.1.trans h.2.2.2.1, g.2.2.2.2.trans h.2.2.2.2⟩

theorem ChainA.old {x : Ctx} {A D} {s s1 : St} (f : Fr x A D s s1) {p : Nat} {k : Str} (h : ChainA x s1 p k) : ChainA x s p k := by
  rcases h with h | ⟨pre, h1, h2⟩
  · exact Or.inl (Nat.le_trans f.len h)
  · by_cases hp : p < s.heap.length
    · exact Or.inr ⟨pre, h1, f.resolve_old pre (prefix_plain (plainComps x) (prefix_of_snoc h1)) p h2 hp⟩
    · exact Or.inl (by omega)

/-- Changes on the way to the references Group are accounted for. -/
theorem Fr.absorb {x : Ctx} {s s' : St} (f : Fr x (ChainA x s) noD s s') (hr : s.refs = none)
    (hk : ∀ p k q, resolve s'.heap 0 (refsComps x.o) = some p → LinkAt s'.heap p k q → LinkAt s.heap p k q ∨ NewName x s s' k) :
    Fr x noA noD s s' where
  len := f.len
  k1 := f.k1
  k2 := f.k2
  obj := f.obj
  links := by
    intro p hp hd k _ hc
    refine f.links p hp hd k ?_ hc
    rintro (h | ⟨pre, h1, h2⟩)
    · omega
    · exact hc (Or.inl ⟨hr, pre, h1, h2⟩)
  same := by
    intro p hp hd _ hn
    refine f.same p hp hd ?_ hn
    rintro k (h | ⟨pre, h1, h2⟩)
    · omega
    · exact hn ⟨pre, prefix_of_snoc h1, h2⟩
  refkeys := by
    intro p k q h1 h2
    rcases hk p k q h1 h2 with h | h
    · exact Or.inl h
    · exact Or.inr (Or.inl h)
  counter := f.counter
  rpos := f.rpos
  refs := f.refs
  canon := f.canon
  crt := f.crt
  rnd := f.rnd
  cfx := f.cfx

theorem getLink_run (g : Nat) (name : Str) (s : St) :
    getLink g name s = (.ok (hlook s.heap g name), s) ∨ (∃ e, getLink g name s = (.error e, s)) := by
  unfold getLink
  split
  · exact Or.inl rfl
  · exact Or.inr ⟨_, rfl⟩

theorem hlook_create_mono (h : Heap) (g : Nat) (name : Str) (o : Obj) (hg : isGroup h g = true) (hn : aget (linksOf h g) name = none)
    (ho : objLinks o = []) (p : Nat) (k : Str) (q : Nat) (hl : hlook h p k = some q) : hlook (createHeap h g name o) p k = some q := by
  unfold hlook at hl ⊢
  split
  · rename_i hd; rw [if_pos hd] at hl; exact hl
  · rename_i hd; rw [if_neg hd] at hl
    exact (linkAt_createHeap h g name o hg hn ho p k q).mpr (Or.inl hl)

theorem resolve_create_mono (h : Heap) (g : Nat) (name : Str) (o : Obj) (hg : isGroup h g = true) (hn : aget (linksOf h g) name = none)
    (ho : objLinks o = []) (pre : List Str) (p q : Nat) (hl : resolve h p pre = some q) : resolve (createHeap h g name o) p pre = some q := by
  induction pre generalizing p with
  | nil => exact hl
  | cons c r ih =>
    simp only [resolve] at hl ⊢
    cases hc : hlook h p c with
    | none => rw [hc] at hl; cases hl
    | some g' =>
      rw [hc] at hl
      rw [hlook_create_mono h g name o hg hn ho p c g' hc]
      exact ih g' hl

theorem reserved_none {x : Ctx} {s : St} (hi : Inv x s) (hr : s.refs = none) (g : Nat) (name : Str) : Reserved s g name :=
  fun hc => absurd hr (hi.created hc)

/-- Making the Groups on the way to the references Group. -/
theorem createPath_spec {x : Ctx} (cs pre : List Str) (g : Nat) (s s' : St) (res : Res Nat) (hi : Inv x s) (hr : s.refs = none)
    (hcs : refsComps x.o = pre ++ cs) (hg : resolve s.heap 0 pre = some g) (h : createPath g cs s = (res, s')) :
    Step x (ChainA x s) noD s s' ∧ SameBk s s' ∧ (∀ l q, resolve s.heap 0 l = some q → resolve s'.heap 0 l = some q) ∧
      (∀ p k q, LinkAt s'.heap p k q → LinkAt s.heap p k q ∨ ∃ pre', (pre' ++ [k]) <+: refsComps x.o ∧ resolve s'.heap 0 pre' = some p) ∧
      ∀ r, res = .ok r → resolve s'.heap 0 (refsComps x.o) = some r ∧ isGroup s'.heap r = true ∧ linksOf s'.heap r = [] ∧ s.heap.length ≤ r := by
  induction cs generalizing pre g s with
  | nil =>
    simp only [createPath, raise] at h
    cases h
    exact ⟨Step.refl hi, SameBk.refl _, fun _ _ h => h, fun _ _ _ h => Or.inl h, fun r h => by cases h⟩
  | cons c cs ih =>
    have hpc : (pre ++ [c]) <+: refsComps x.o := ⟨cs, by rw [hcs]; simp⟩
    have hcd : c ≠ [dot] := plainComps x c (by rw [hcs]; simp)
    have hA : ∀ p k, oneA g c p k → ChainA x s p k := by
      rintro p k ⟨rfl, rfl⟩
      exact Or.inr ⟨pre, hpc, hg⟩
    -- the result of creating one Group
    have hcreate : ∀ (s1 : St) (r1 : Res Nat), createGroup g c s = (r1, s1) →
        (s1 = s ∧ ∃ e, r1 = .error e) ∨ (Step x (ChainA x s) noD s s1 ∧ SameBk s s1 ∧ r1 = .ok s.heap.length ∧
          resolve s1.heap 0 (pre ++ [c]) = some s.heap.length ∧ isGroup s1.heap s.heap.length = true ∧ linksOf s1.heap s.heap.length = [] ∧
          (∀ l q, resolve s.heap 0 l = some q → resolve s1.heap 0 l = some q) ∧
          (∀ p k q, LinkAt s1.heap p k q → LinkAt s.heap p k q ∨ ∃ pre', (pre' ++ [k]) <+: refsComps x.o ∧ resolve s1.heap 0 pre' = some p)) := by
      intro s1 r1 h1
      rcases createObj_run g c ⟨[], .group []⟩ s with ⟨e, he⟩ | ⟨he, _, _, h3, _, h5⟩
      · rw [createGroup, he] at h1; cases h1
        exact Or.inl ⟨rfl, _, rfl⟩
      · rw [createGroup, he] at h1; cases h1
        refine Or.inr ⟨?_, ⟨rfl, rfl, rfl, rfl, rfl⟩, rfl, ?_, ?_, ?_, fun l q hl => resolve_create_mono _ _ _ _ h3 h5 rfl l 0 q hl, ?_⟩
        · exact (createObj_step hi g c _ rfl h3 h5 (fun hn => absurd hr hn) (reserved_none hi hr g c)).mono hA (fun _ h => h)
        · exact (resolve_snoc _ _ pre c hcd _).mpr ⟨g, resolve_create_mono _ _ _ _ h3 h5 rfl _ _ _ hg,
            (linkAt_createHeap _ _ _ _ h3 h5 rfl _ _ _).mpr (Or.inr ⟨rfl, rfl, rfl⟩)⟩
        · show isGroup (createHeap _ _ _ _) _ = true
          unfold isGroup; rw [getElem?_createHeap, if_pos rfl]
        · show linksOf (createHeap _ _ _ _) _ = []
          rw [linksOf_createHeap _ _ _ _ h3, if_pos rfl]; rfl
        · intro p k q hl
          rcases (linkAt_createHeap _ _ _ _ h3 h5 rfl p k q).mp hl with hl | ⟨rfl, rfl, rfl⟩
          · exact Or.inl hl
          · exact Or.inr ⟨pre, hpc, resolve_create_mono _ _ _ _ h3 h5 rfl pre 0 p hg⟩
    cases cs with
    | nil =>
      rw [createPath] at h
      rcases hcreate s' res h with ⟨rfl, e, rfl⟩ | ⟨h1, h2, rfl, h3, h4, h5, h6, h7⟩
      · exact ⟨Step.refl hi, SameBk.refl _, fun _ _ h => h, fun _ _ _ h => Or.inl h, fun r h => by cases h⟩
      · refine ⟨h1, h2, h6, h7, ?_⟩
        intro r hr'
        cases hr'
        rw [hcs]
        exact ⟨h3, h4, h5, Nat.le_refl _⟩
    | cons c2 cs =>
      have hcs' : refsComps x.o = (pre ++ [c]) ++ (c2 :: cs) := by rw [hcs]; simp
      rw [createPath] at h
      rotate_left
      · intro hh; cases hh
      rcases bind_run (getLink g c) _ s with ⟨a, s1, e1, e2⟩ | ⟨e, s1, e1, e2⟩
      · rw [e2] at h
        rcases getLink_run g c s with hh | ⟨e, hh⟩
        · rw [hh] at e1; cases e1
          rw [hlook_plain _ _ _ hcd] at h
          cases hl : aget (linksOf s.heap g) c with
          | some g' =>
            rw [hl] at h
            exact ih (pre ++ [c]) g' s hi hr hcs' ((resolve_snoc _ _ pre c hcd g').mpr ⟨g, hg, hl⟩) h
          | none =>
            rw [hl] at h
            rcases bind_run (createGroup g c) (fun a => createPath a (c2 :: cs)) s with ⟨a, s2, e3, e4⟩ | ⟨e, s2, e3, e4⟩
            · have h' : createPath a (c2 :: cs) s2 = (res, s') := e4.symm.trans h
              rcases hcreate s2 _ e3 with ⟨_, e, h1⟩ | ⟨h1, h2, h3, h4, h5, h6, h7, h8⟩
              · cases h1
              · cases h3
                obtain ⟨i1, i2, i4, i5, i3⟩ := ih (pre ++ [c]) _ s2 h1.inv (h2.1.trans hr) hcs' h4 h'
                refine ⟨h1.trans i1 (fun p k => ChainA.old h1.fr) (fun _ _ h => h), h2.trans i2, fun l q hl => i4 l q (h7 l q hl), ?_, ?_⟩
                · intro p k q hl
                  rcases i5 p k q hl with hl | hl
                  · rcases h8 p k q hl with hl | ⟨pre', a1, a2⟩
                    · exact Or.inl hl
                    · exact Or.inr ⟨pre', a1, i4 pre' p a2⟩
                  · exact Or.inr hl
                intro r hr'
                obtain ⟨j1, j2, j3, j4⟩ := i3 r hr'
                exact ⟨j1, j2, j3, Nat.le_trans h1.fr.len j4⟩
            · have h' : ((Except.error e : Res Nat), s2) = (res, s') := e4.symm.trans h
              rcases hcreate s2 _ e3 with ⟨h0, e, h1⟩ | ⟨h1, h2, h3, h4, h5, h6, h7, h8⟩
              · subst h0
                cases h'
                exact ⟨Step.refl hi, SameBk.refl _, fun _ _ h => h, fun _ _ _ h => Or.inl h, fun r h => by cases h⟩
              · cases h3
        · rw [hh] at e1; cases e1
      · rw [e2] at h
        rcases getLink_run g c s with hh | ⟨e, hh⟩
        · rw [hh] at e1; cases e1
        · rw [hh] at e1; cases e1
          cases h
          exact ⟨Step.refl hi, SameBk.refl _, fun _ _ h => h, fun _ _ _ h => Or.inl h, fun r h => by cases h⟩

/-- Unlinking what is in the place of the references Group. -/
theorem unlinkPath_spec {x : Ctx} (cs pre : List Str) (g : Nat) (s s' : St) (res : Res Unit) (hi : Inv x s) (hr : s.refs = none)
    (hcs : refsComps x.o = pre ++ cs) (hg : resolve s.heap 0 pre = some g) (h : unlinkPath g cs s = (res, s')) :
    Step x (ChainA x s) noD s s' ∧ SameBk s s' ∧ ∀ p k q, LinkAt s'.heap p k q → LinkAt s.heap p k q := by
  induction cs generalizing pre g s with
  | nil =>
    simp only [unlinkPath, raise] at h
    cases h
    exact ⟨Step.refl hi, SameBk.refl _, fun _ _ _ h => h⟩
  | cons c cs ih =>
    have hpc : (pre ++ [c]) <+: refsComps x.o := ⟨cs, by rw [hcs]; simp⟩
    have hcd : c ≠ [dot] := plainComps x c (by rw [hcs]; simp)
    have hA : ∀ p k, oneA g c p k → ChainA x s p k := by
      rintro p k ⟨rfl, rfl⟩
      exact Or.inr ⟨pre, hpc, hg⟩
    cases cs with
    | nil =>
      rw [unlinkPath] at h
      rcases unlink_run g c s with ⟨e, he⟩ | ⟨he, _⟩
      · rw [he] at h; cases h
        exact ⟨Step.refl hi, SameBk.refl _, fun _ _ _ h => h⟩
      · rw [he] at h; cases h
        exact ⟨(unlink_step hi g c (fun hn => absurd hr hn)).mono hA (fun _ h => h), ⟨rfl, rfl, rfl, rfl, rfl⟩, fun p k q hl => (unlink_step hi g c (fun hn => absurd hr hn)).fr.k1 p k q hl (by
          have h9 := (unlink_step hi g c (fun hn => absurd hr hn)).inv.wf p k q hl
          rw [length_update] at h9
          exact h9)⟩
    | cons c2 cs =>
      have hcs' : refsComps x.o = (pre ++ [c]) ++ (c2 :: cs) := by rw [hcs]; simp
      rw [unlinkPath] at h
      rotate_left
      · intro hh; cases hh
      rcases bind_run (getLink g c) _ s with ⟨a, s1, e1, e2⟩ | ⟨e, s1, e1, e2⟩
      · rw [e2] at h
        rcases getLink_run g c s with hh | ⟨e, hh⟩
        · rw [hh] at e1; cases e1
          rw [hlook_plain _ _ _ hcd] at h
          cases hl : aget (linksOf s.heap g) c with
          | some g' =>
            rw [hl] at h
            exact ih (pre ++ [c]) g' s hi hr hcs' ((resolve_snoc _ _ pre c hcd g').mpr ⟨g, hg, hl⟩) h
          | none =>
            rw [hl] at h
            simp only [raise] at h
            cases h
            exact ⟨Step.refl hi, SameBk.refl _, fun _ _ _ h => h⟩
        · rw [hh] at e1; cases e1
      · rw [e2] at h
        rcases getLink_run g c s with hh | ⟨e, hh⟩
        · rw [hh] at e1; cases e1
        · rw [hh] at e1; cases e1
          cases h
          exact ⟨Step.refl hi, SameBk.refl _, fun _ _ _ h => h⟩

/-- Remembering the references Group. -/
theorem setRefs_inv {x : Ctx} {s : St} (hi : Inv x s) (r : Nat) (cr : Bool) (hc : cr = true → linksOf s.heap r = [])
    (h1 : resolve s.heap 0 (refsComps x.o) = some r) (h2 : isGroup s.heap r = true) : Inv x { s with refs := some r, created := cr } where
  wf := hi.wf
  pos := hi.pos
  refs := fun r' h => by cases h; exact ⟨h1, h2⟩
  created := fun _ => by simp
  acyc := hi.acyc
  below := hi.below
  ctr := hi.ctr
  cnt := by
    intro h r' c q hr' _ hl
    cases hr'
    unfold LinkAt at hl
    rw [hc h] at hl
    cases hl
  can := hi.can

theorem setRefs_fr {x : Ctx} {s s' : St} (f : Fr x noA noD s s') (hs : s.refs = none) (r : Nat) (cr : Bool)
    (hc : cr = true → s.heap.length ≤ r) : Fr x noA noD s { s' with refs := some r, created := cr } where
  len := f.len
  k1 := f.k1
  k2 := f.k2
  obj := f.obj
  links := f.links
  same := f.same
  refkeys := f.refkeys
  counter := f.counter
  rpos := f.rpos
  refs := fun r' h => by rw [hs] at h; cases h
  canon := f.canon
  crt := fun h => Or.inr ⟨hs, fun r' h' => by cases h'; exact hc h⟩
  rnd := fun h => absurd hs h
  cfx := fun h => absurd hs h

/-- `ensureRefs`: nothing but the way to the references Group changes, and if it succeeds that Group is there. -/
theorem ensureRefs_spec {x : Ctx} {s s' : St} {res : Res Nat} (hi : Inv x s)
    (h : ensureRefs x s = (res, s')) :
    Step x noA noD s s' ∧ (∀ r, res = .ok r → s'.refs = some r) := by
  unfold ensureRefs at h
  change (match s.refs with | some r => (pure r : M Nat) | none => _) s = _ at h
  cases hs : s.refs with
  | some r =>
    rw [hs] at h
    cases h
    exact ⟨Step.refl hi, fun r' h => by cases h; exact hs⟩
  | none =>
    rw [hs] at h
    have hmake : ∀ (s1 : St), Step x (ChainA x s) noD s s1 → SameBk s s1 → (∀ p k q, LinkAt s1.heap p k q → LinkAt s.heap p k q) →
        (createPath 0 (refsComps x.o) >>= fun r => modSt (fun s => { s with refs := some r, created := true }) >>= fun _ => (pure r : M Nat)) s1 = (res, s') →
        Step x noA noD s s' ∧ (∀ r, res = .ok r → s'.refs = some r) := by
      intro s1 hst hbk hlk hrun
      rcases bind_run (createPath 0 (refsComps x.o)) (fun r => modSt (fun s => { s with refs := some r, created := true }) >>= fun _ => (pure r : M Nat)) s1
        with ⟨a, s2, e1, e2⟩ | ⟨e, s2, e1, e2⟩
      · have h' := e2.symm.trans hrun
        obtain ⟨i1, i2, i4, i5, i3⟩ := createPath_spec (x := x) (refsComps x.o) [] 0 s1 s2 _ hst.inv (hbk.1.trans hs) rfl rfl e1
        have hst2 := hst.trans i1 (fun p k => ChainA.old hst.fr) (fun _ _ h => h)
        obtain ⟨j1, j2, j3, j4⟩ := i3 a rfl
        have hbk2 := hbk.trans i2
        change ((Except.ok a : Res Nat), ({ s2 with refs := some a, created := true } : St)) = _ at h'
        cases h'
        have hfr : Fr x noA noD s s2 := hst2.fr.absorb hs (by
          intro p k q hp hl
          rw [j1] at hp; cases hp
          unfold LinkAt at hl; rw [j3] at hl; cases hl)
        refine ⟨⟨setRefs_fr hfr hs a true (fun _ => Nat.le_trans hst.fr.len j4), setRefs_inv hst2.inv a true (fun _ => j3) j1 j2⟩,
          fun r h => by cases h; rfl⟩
      · have h' := e2.symm.trans hrun
        obtain ⟨i1, i2, i4, i5, _⟩ := createPath_spec (x := x) (refsComps x.o) [] 0 s1 s2 _ hst.inv (hbk.1.trans hs) rfl rfl e1
        have hst2 := hst.trans i1 (fun p k => ChainA.old hst.fr) (fun _ _ h => h)
        cases h'
        refine ⟨⟨hst2.fr.absorb hs ?_, hst2.inv⟩, fun r h => by cases h⟩
        intro p k q hp hl
        rcases i5 p k q hl with hl | ⟨pre, h1, h2⟩
        · exact Or.inl (hlk p k q hl)
        · have := hst2.inv.acyc pre (refsComps x.o) p (prefix_of_snoc h1) (List.prefix_refl _) h2 hp
          have h5 := h1.length_le
          rw [← this] at h5
          simp at h5
          omega
    cases hres : resolve s.heap 0 (refsComps x.o) with
    | none =>
      rw [hres] at h
      exact hmake s (Step.refl hi) (SameBk.refl s) (fun _ _ _ h => h) h
    | some r =>
      rw [hres] at h
      by_cases hg : isGroup s.heap r = true
      · simp only [hg, if_true] at h
        change ((Except.ok r : Res Nat), ({ s with refs := some r, created := false } : St)) = _ at h
        cases h
        refine ⟨⟨setRefs_fr (Fr.rfl' hi.wf) hs r false (fun h => by cases h), setRefs_inv hi r false (fun h => by cases h) hres hg⟩, fun r h => by cases h; rfl⟩
      · simp only [hg] at h
        rcases bind_run (unlinkPath 0 (refsComps x.o)) (fun _ => createPath 0 (refsComps x.o) >>= fun r =>
          modSt (fun s => { s with refs := some r, created := true }) >>= fun _ => (pure r : M Nat)) s with ⟨a, s2, e1, e2⟩ | ⟨e, s2, e1, e2⟩
        · have h' := e2.symm.trans h
          obtain ⟨u1, u2, u3⟩ := unlinkPath_spec (x := x) (refsComps x.o) [] 0 s s2 _ hi hs rfl rfl e1
          exact hmake s2 u1 u2 u3 h'
        · have h' := e2.symm.trans h
          obtain ⟨u1, u2, u3⟩ := unlinkPath_spec (x := x) (refsComps x.o) [] 0 s s2 _ hi hs rfl rfl e1
          cases h'
          exact ⟨⟨u1.fr.absorb hs (fun p k q _ hl => Or.inl (u3 p k q hl)), u1.inv⟩, fun r h => by cases h⟩

/-- No link of the references Group is on the way to it. -/
theorem offPath_refs {x : Ctx} {s : St} (hi : Inv x s) {r : Nat} (hr : resolve s.heap 0 (refsComps x.o) = some r) (k : Str) : OffPath x s r k := by
  intro pre h1 h2
  have := hi.acyc pre (refsComps x.o) r (prefix_of_snoc h1) (List.prefix_refl _) h2 hr
  have h5 := h1.length_le
  rw [← this] at h5
  simp at h5
  omega

/-- New names in the references Group are accounted for. -/
theorem Fr.absorbRefs {x : Ctx} {s s' : St} {r : Nat} {k : Str} {D : Nat → Prop} (f : Fr x (oneA r k) D s s')
    (hr : resolve s.heap 0 (refsComps x.o) = some r) (hn : NewName x s s' k)
    (hka : k = p!"a" → s.canon = none) : Fr x noA D s s' where
  len := f.len
  k1 := f.k1
  k2 := f.k2
  obj := f.obj
  links := by
    intro p hp hd k' _ hc
    refine f.links p hp hd k' ?_ hc
    rintro ⟨rfl, rfl⟩
    exact hc (Or.inr ⟨hr, hka⟩)
  same := by
    intro p hp hd _ hn'
    refine f.same p hp hd ?_ hn'
    rintro k' ⟨rfl, _⟩
    exact hn' ⟨_, List.prefix_refl _, hr⟩
  refkeys := by
    intro p k' q h1 h2
    rcases f.refkeys p k' q h1 h2 with h | h | ⟨_, rfl⟩
    · exact Or.inl h
    · exact Or.inr (Or.inl h)
    · exact Or.inr (Or.inl hn)
  counter := f.counter
  rpos := f.rpos
  refs := f.refs
  canon := f.canon
  crt := f.crt
  rnd := f.rnd
  cfx := f.cfx

theorem Step.keepRefs {x : Ctx} {A D} {s s' : St} {r : Nat} (st : Step x A D s s') (hr : s.refs = some r) : s'.refs = some r :=
  (st.fr.refs r hr).1

theorem reserved_a {x : Ctx} {s : St} (hi : Inv x s) (r : Nat) : Reserved s r p!"a" := by
  intro _ _ c hc h
  have := hexStr_a h
  have := hi.ctr
  omega

theorem a_ne_dot : (p!"a" : Str) ≠ [dot] := by decide

/-- `ensureCanon`. -/
theorem ensureCanon_spec {x : Ctx} {s s' : St} {res : Res Nat} {r : Nat} (hi : Inv x s) (hr : s.refs = some r)
    (h : ensureCanon r s = (res, s')) : Step x noA noD s s' := by
  unfold ensureCanon at h
  change (match s.canon with | some c => (pure c : M Nat) | none => _) s = _ at h
  have hres := (hi.refs r hr).1
  cases hc : s.canon with
  | some c => rw [hc] at h; cases h; exact Step.refl hi
  | none =>
    rw [hc] at h
    have hmake : ∀ s1 : St, Step x noA noD s s1 → s1.canon = none →
        (createObj r p!"a" canonObj >>= fun c => modSt (fun s => { s with canon := some c }) >>= fun _ => (pure c : M Nat)) s1 = (res, s') →
        Step x noA noD s s' := by
      intro s1 st hcan hrun
      have hr1 := st.keepRefs hr
      have hres1 := (st.inv.refs r hr1).1
      rcases bind_run (createObj r p!"a" canonObj) (fun c => modSt (fun s => { s with canon := some c }) >>= fun _ => (pure c : M Nat)) s1
        with ⟨a, s2, e1, e2⟩ | ⟨e, s2, e1, e2⟩
      · have h' := e2.symm.trans hrun
        rcases createObj_run r p!"a" canonObj s1 with ⟨e, he⟩ | ⟨he, _, _, h3, _, h5⟩
        · rw [he] at e1; cases e1
        · rw [he] at e1; cases e1
          change ((Except.ok s1.heap.length : Res Nat), ({ s1 with heap := createHeap s1.heap r p!"a" canonObj, canon := some s1.heap.length } : St)) = _ at h'
          cases h'
          have st2 := createObj_step st.inv r p!"a" canonObj rfl h3 h5 (fun _ => offPath_refs st.inv hres1 _) (reserved_a st.inv r)
          have st3 : Step x noA noD s1 { s1 with heap := createHeap s1.heap r p!"a" canonObj } := ⟨st2.fr.absorbRefs hres1 (Or.inl rfl) (fun _ => hcan), st2.inv⟩
          have st4 := st.trans st3 (fun _ _ h => h) (fun _ _ h => h)
          exact st4.trans (meta_step (s' := { s1 with heap := createHeap s1.heap r p!"a" canonObj, canon := some s1.heap.length }) st4.inv rfl rfl rfl
            (Nat.le_refl _) (Nat.le_refl _) (fun _ => rfl) (fun _ => rfl) (fun c h => by rw [show s1.canon = some c from h] at hcan; cases hcan)
            (fun c h => by cases h; show s1.heap.length < (createHeap s1.heap r p!"a" canonObj).length; rw [createHeap_length]; omega)) (fun _ _ h => h) (fun _ _ h => h)
      · have h' := e2.symm.trans hrun
        rcases createObj_run r p!"a" canonObj s1 with ⟨e, he⟩ | ⟨he, _, _, h3, _, h5⟩
        · rw [he] at e1; cases e1; cases h'; exact st
        · rw [he] at e1; cases e1
    cases hl : hlook s.heap r p!"a" with
    | none => rw [hl] at h; exact hmake s (Step.refl hi) hc h
    | some c =>
      rw [hl] at h
      dsimp only at h
      cases ho : s.heap[c]? with
      | none => rw [ho] at h; exact hmake s (Step.refl hi) hc h
      | some ob =>
        rw [ho] at h
        dsimp only at h
        cases hb : isCanon ob with
        | error e =>
          have : (liftRes (isCanon ob) : M Bool) s = (.error e, s) := by rw [hb]; rfl
          rcases bind_run (liftRes (isCanon ob)) _ s with ⟨a, s2, e1, e2⟩ | ⟨e', s2, e1, e2⟩
          · rw [this] at e1; cases e1
          · rw [e2, ] at h
            rw [this] at e1; cases e1
            cases h
            exact Step.refl hi
        | ok b =>
          have : (liftRes (isCanon ob) : M Bool) s = (.ok b, s) := by rw [hb]; rfl
          rcases bind_run (liftRes (isCanon ob)) _ s with ⟨a, s2, e1, e2⟩ | ⟨e', s2, e1, e2⟩
          · rw [e2] at h
            rw [this] at e1; cases e1
            cases b with
            | true =>
              change ((Except.ok c : Res Nat), ({ s with canon := some c } : St)) = _ at h
              cases h
              exact meta_step (s' := { s with canon := some c }) hi rfl rfl rfl
                (Nat.le_refl _) (Nat.le_refl _) (fun _ => rfl) (fun _ => rfl) (fun c h => by rw [hc] at h; cases h)
                (fun c' h => by cases h; exact (List.getElem?_eq_some_iff.mp ho).1)
            | false =>
              rcases bind_run (unlink r p!"a") (fun _ => (createObj r p!"a" canonObj >>= fun c =>
                modSt (fun s => { s with canon := some c }) >>= fun _ => (pure c : M Nat))) s with ⟨a, s2, e1, e2⟩ | ⟨e', s2, e1, e2⟩
              · have h' := e2.symm.trans h
                rcases unlink_run r p!"a" s with ⟨e, he⟩ | ⟨he, _⟩
                · rw [he] at e1; cases e1
                · rw [he] at e1; cases e1
                  have st := unlink_step hi r p!"a" (fun _ => offPath_refs hi hres _)
                  exact hmake _ ⟨st.fr.absorbRefs hres (Or.inl rfl) (fun _ => hc), st.inv⟩ hc h'
              · have h' := e2.symm.trans h
                rcases unlink_run r p!"a" s with ⟨e, he⟩ | ⟨he, _⟩
                · rw [he] at e1; cases e1; cases h'
                  exact Step.refl hi
                · rw [he] at e1; cases e1
          · rw [this] at e1; cases e1

/-- Drawing names. -/
theorem drawName_spec {x : Ctx} {s s' : St} {res : Res Str} {r n : Nat} (hi : Inv x s) (hcr : s.created = false) (h : drawName x r n s = (res, s')) :
    Step x noA noD s s' ∧ s'.heap = s.heap ∧ s'.counter = s.counter ∧ s'.created = s.created ∧ s'.refs = s.refs ∧
      ∀ nm, res = .ok nm → hlook s'.heap r nm = none ∧ ∃ i, s.rpos ≤ i ∧ i < s'.rpos ∧ nm = randName x i := by
  induction n generalizing s with
  | zero =>
    simp only [drawName, raise] at h
    cases h
    exact ⟨Step.refl hi, rfl, rfl, rfl, rfl, fun _ h => by cases h⟩
  | succ n ih =>
    rw [drawName] at h
    rw [run_getSt, run_modSt] at h
    have st : Step x noA noD s { s with rpos := s.rpos + 1 } :=
      meta_step (s' := { s with rpos := s.rpos + 1 }) hi rfl rfl rfl (Nat.le_refl _) (Nat.le_succ _) (fun h => by rw [hcr] at h; cases h) (fun _ => rfl) (fun _ h => h) hi.can
    cases hl : hlook s.heap r (randName x s.rpos) with
    | none =>
      rw [hl] at h
      rw [if_neg (by simp), run_pure] at h
      cases h
      refine ⟨st, rfl, rfl, rfl, rfl, ?_⟩
      intro nm hnm
      cases hnm
      exact ⟨hl, s.rpos, Nat.le_refl _, Nat.lt_succ_self _, rfl⟩
    | some q =>
      rw [hl, if_pos (by simp)] at h
      obtain ⟨h1, h2, h3, h4, h5, h6⟩ := ih st.inv hcr h
      refine ⟨st.trans h1 (fun _ _ h => h) (fun _ _ h => h), h2, h3, h4, h5, ?_⟩
      intro nm hnm
      obtain ⟨j1, i, j2, j3, j4⟩ := h6 nm hnm
      refine ⟨j1, i, ?_, j3, j4⟩
      change s.rpos + 1 ≤ i at j2
      omega

/-- `nextName`: an unused name. -/
theorem nextName_spec {x : Ctx} {s s' : St} {res : Res Str} {r : Nat} (hi : Inv x s) (hr : s.refs = some r) (h : nextName x s = (res, s')) :
    Step x noA noD s s' ∧ ∀ nm, res = .ok nm → nm ≠ [dot] ∧ Reserved s' r nm ∧ (∀ q, ¬ LinkAt s'.heap r nm q) ∧
      ((s.created = true ∧ nm = hexStr s.counter ∧ s'.counter = s.counter + 1 ∧ s'.rpos = s.rpos) ∨
        (s.created = false ∧ ∃ i, s.rpos ≤ i ∧ i < s'.rpos ∧ nm = randName x i)) := by
  unfold nextName at h
  change (if s.created then _ else _ : M Str) s = _ at h
  cases hcr : s.created with
  | true =>
    rw [hcr] at h
    change ((Except.ok (hexStr s.counter) : Res Str), ({ s with counter := s.counter + 1 } : St)) = _ at h
    cases h
    refine ⟨meta_step (s' := { s with counter := s.counter + 1 }) hi rfl rfl rfl (Nat.le_succ _) (Nat.le_refl _) (fun _ => rfl) (fun h => by rw [hcr] at h; cases h) (fun _ h => h) hi.can, ?_⟩
    intro nm hnm
    cases hnm
    refine ⟨hexStr_ne_dot _, ?_, fun q hl => hi.cnt hcr r _ q hr (Nat.le_refl _) hl, Or.inl ⟨rfl, rfl, rfl, rfl⟩⟩
    intro _ _ c hc he
    have := hexStr_inj he
    change s.counter + 1 ≤ c at hc
    omega
  | false =>
    rw [hcr] at h
    change (ensureRefs x >>= fun r => ensureCanon r >>= fun _ => drawName x r x.hang) s = _ at h
    have he : ensureRefs x s = (.ok r, s) := by
      unfold ensureRefs
      change (match s.refs with | some r => (pure r : M Nat) | none => _) s = _
      rw [hr]; rfl
    rcases bind_run (ensureRefs x) (fun r => ensureCanon r >>= fun _ => drawName x r x.hang) s with ⟨a, s1, e1, e2⟩ | ⟨e, s1, e1, e2⟩
    · rw [he] at e1; cases e1
      rw [e2] at h
      rcases bind_run (ensureCanon r) (fun _ => drawName x r x.hang) s with ⟨a, s1, e1, e2⟩ | ⟨e, s1, e1, e2⟩
      · rw [e2] at h
        have st := ensureCanon_spec hi hr e1
        have hcr1 : s1.created = false := by rw [(st.fr.refs r hr).2]; exact hcr
        obtain ⟨h1, h2, h3, h4, h5, h6⟩ := drawName_spec st.inv hcr1 h
        refine ⟨st.trans h1 (fun _ _ h => h) (fun _ _ h => h), ?_⟩
        intro nm hnm
        obtain ⟨j1, i, j2, j3, j4⟩ := h6 nm hnm
        have hd : nm ≠ [dot] := by rw [j4]; exact randName_ne_dot x i
        refine ⟨hd, ?_, ?_, Or.inr ⟨rfl, i, Nat.le_trans st.fr.rpos j2, j3, j4⟩⟩
        · intro hc'
          rw [h4, hcr1] at hc'; cases hc'
        · intro q hl
          rw [hlook_plain _ _ _ hd] at j1
          unfold LinkAt at hl
          rw [j1] at hl; cases hl
      · have h' := e2.symm.trans h
        have st := ensureCanon_spec hi hr e1
        cases h'
        exact ⟨st, fun _ h => by cases h⟩
    · rw [he] at e1; cases e1

end HS
