import Verif.Lemmas.Frame
import Verif.Lemmas.Hex
/-
The elementary operations on files.
-/
namespace HS
open Spec

/-- A change within the frame that keeps the invariant. -/
structure Step (x : Ctx) (A : Nat → Str → Prop) (D : Nat → Prop) (s s' : St) : Prop where
  fr : Fr x A D s s'
  inv : Inv x s'

/-- No link changes. -/
abbrev noA : Nat → Str → Prop := fun _ _ => False
/-- No object changes. -/
abbrev noD : Nat → Prop := fun _ => False
/-- One link may change. -/
abbrev oneA (g : Nat) (k : Str) : Nat → Str → Prop := fun p c => p = g ∧ c = k
/-- One object may change. -/
abbrev oneD (q : Nat) : Nat → Prop := fun p => p = q

theorem Step.refl {x : Ctx} {A D} {s : St} (hi : Inv x s) : Step x A D s s := ⟨Fr.rfl' hi.wf, hi⟩

theorem Step.trans {x : Ctx} {A A1 : Nat → Str → Prop} {D D1 : Nat → Prop} {s s1 s2 : St} (f : Step x A D s s1) (g : Step x A1 D1 s1 s2)
    (hA : ∀ p k, A1 p k → A p k) (hD : ∀ p, p < s.heap.length → D1 p → D p) : Step x A D s s2 :=
  ⟨f.fr.trans g.fr f.inv.created (fun p k _ _ h => hA p k h) hD (fun p k _ _ _ h => Or.inr (Or.inr (hA p k h))), g.inv⟩

theorem Step.mono {x : Ctx} {A A' : Nat → Str → Prop} {D D' : Nat → Prop} {s s' : St} (f : Step x A D s s')
    (hA : ∀ p k, A p k → A' p k) (hD : ∀ p, D p → D' p) : Step x A' D' s s' := ⟨f.fr.mono hA hD, f.inv⟩

/-- After the counter or the number of drawn names went up the future names are still different from the used ones. -/
theorem newName_ne {x : Ctx} {s s' : St} (hc : 11 ≤ s'.counter) (hr : s'.rpos = s.rpos) (c : Nat) (k : Str) (h : s'.counter ≤ c)
    (hn : NewName x s s' k) : k ≠ hexStr c := by
  rintro rfl
  rcases hn with h1 | ⟨e, _, h2, h3⟩ | ⟨i, h1, h2, _⟩
  · have := hexStr_a h1.symm; omega
  · have := hexStr_inj h3; omega
  · omega

/-- Changes of the bookkeeping only. -/
theorem meta_step {x : Ctx} {s s' : St} (hi : Inv x s) (hh : s'.heap = s.heap) (hrefs : s'.refs = s.refs) (hcr : s'.created = s.created)
    (hc : s.counter ≤ s'.counter) (hr : s.rpos ≤ s'.rpos) (hrnd : s.created = true → s'.rpos = s.rpos)
    (hcfx : s.created = false → s'.counter = s.counter)
    (hcan : ∀ c, s.canon = some c → s'.canon = some c) (hlt : ∀ c, s'.canon = some c → c < s.heap.length) : Step x noA noD s s' := by
  have f : Fr x noA noD s s' := {
    len := by rw [hh]; exact Nat.le_refl _
    k1 := fun p k q h _ => by rw [hh] at h; exact h
    k2 := fun q p1 k1 _ _ hq h _ => by rw [hh] at h; have := hi.wf _ _ _ h; omega
    obj := fun p o h _ => ⟨o, by rw [hh]; exact h, rfl, SameKind.refl _⟩
    links := fun _ _ _ _ _ _ => by rw [hh]
    same := fun _ _ _ _ _ => by rw [hh]
    refkeys := fun _ _ _ _ h => by rw [hh] at h; exact Or.inl h
    counter := hc
    rpos := hr
    refs := fun r h => ⟨by rw [hrefs]; exact h, hcr⟩
    canon := hcan
    crt := fun h => Or.inl (by rw [← hcr]; exact h)
    rnd := fun _ h => hrnd h
    cfx := fun _ h => hcfx h }
  refine ⟨f, f.inv_keep hi (by rw [hh]; exact hi.wf) hrefs hcr (fun _ _ _ _ _ _ h => h) (fun _ _ _ h => h) (fun _ _ _ _ _ h => h.elim) ?_ (by rw [hh]; exact hlt)⟩
  intro h c k
  exact newName_ne (Nat.le_trans hi.ctr hc) (hrnd h) c k

/-- The links of an object. -/
def objLinks (o : Obj) : List (Str × Nat) := match o.body with | .group l => l | _ => []

theorem linksOf_obj (h : Heap) (p : Nat) : linksOf h p = match h[p]? with | some o => objLinks o | none => [] := by
  unfold linksOf objLinks
  cases h[p]? with
  | none => rfl
  | some o => obtain ⟨_, b⟩ := o; cases b <;> rfl

theorem objLinks_map (f : List (Str × Nat) → List (Str × Nat)) (o : Obj) :
    objLinks (o.mapLinks f) = match o.body with | .group l => f l | _ => [] := by
  obtain ⟨_, b⟩ := o
  cases b <;> rfl

theorem mapLinks_attrs (f : List (Str × Nat) → List (Str × Nat)) (o : Obj) : (o.mapLinks f).attrs = o.attrs ∧ SameKind o.body (o.mapLinks f).body := by
  obtain ⟨_, b⟩ := o
  cases b <;> simp [Obj.mapLinks, SameKind]

theorem linksOf_update_ne (h : Heap) (p q : Nat) (f : Obj → Obj) (hn : q ≠ p) : linksOf (h.update p f) q = linksOf h q := by
  rw [linksOf_obj, linksOf_obj, getElem?_update, if_neg hn]

theorem linksOf_update_map (h : Heap) (p : Nat) (f : List (Str × Nat) → List (Str × Nat)) (hg : isGroup h p = true) :
    linksOf (h.update p (Obj.mapLinks f)) p = f (linksOf h p) := by
  obtain ⟨at', l, hp⟩ := isGroup_get hg
  rw [linksOf_obj, linksOf_obj, getElem?_update, if_pos rfl, hp]
  rfl

theorem linksOf_snoc (h : Heap) (o : Obj) (p : Nat) : linksOf (h ++ [o]) p = if p = h.length then objLinks o else linksOf h p := by
  rw [linksOf_obj, linksOf_obj]
  by_cases hp : p = h.length
  · subst hp; simp
  · rw [if_neg hp, List.getElem?_append]
    by_cases hlt : p < h.length
    · rw [if_pos hlt]
    · rw [if_neg hlt]
      have : h.length < p := by omega
      rw [List.getElem?_eq_none (by simp; omega), List.getElem?_eq_none (by omega)]

/-- The heap after creating an object. -/
def createHeap (h : Heap) (g : Nat) (name : Str) (o : Obj) : Heap :=
  (h.update g (Obj.mapLinks fun l => l ++ [(name, h.length)])) ++ [o]

theorem createHeap_length (h : Heap) (g : Nat) (name : Str) (o : Obj) : (createHeap h g name o).length = h.length + 1 := by
  simp [createHeap, length_update]

theorem linksOf_createHeap (h : Heap) (g : Nat) (name : Str) (o : Obj) (hg : isGroup h g = true) (p : Nat) :
    linksOf (createHeap h g name o) p = if p = h.length then objLinks o else if p = g then linksOf h g ++ [(name, h.length)] else linksOf h p := by
  unfold createHeap
  rw [linksOf_snoc, length_update]
  by_cases hp : p = h.length
  · rw [if_pos hp, if_pos hp]
  · rw [if_neg hp, if_neg hp]
    by_cases hpg : p = g
    · rw [if_pos hpg, hpg, linksOf_update_map h g _ hg]
    · rw [if_neg hpg, linksOf_update_ne h g p _ hpg]

theorem getElem?_createHeap (h : Heap) (g : Nat) (name : Str) (o : Obj) (p : Nat) : (createHeap h g name o)[p]? =
    if p = h.length then some o else if p = g then (h[g]?).map (Obj.mapLinks fun l => l ++ [(name, h.length)]) else h[p]? := by
  unfold createHeap
  rw [List.getElem?_append, length_update]
  by_cases hlt : p < h.length
  · rw [if_pos hlt, if_neg (by omega), getElem?_update]
  · rw [if_neg hlt]
    by_cases hp : p = h.length
    · rw [if_pos hp, hp]; simp
    · rw [if_neg hp, List.getElem?_eq_none (by simp; omega)]
      by_cases hpg : p = g
      · rw [if_pos hpg, List.getElem?_eq_none (by omega)]; rfl
      · rw [if_neg hpg, List.getElem?_eq_none (by omega)]

theorem isGroup_lt {h : Heap} {p : Nat} (hg : isGroup h p = true) : p < h.length := by
  obtain ⟨_, _, hp⟩ := isGroup_get hg
  exact (List.getElem?_eq_some_iff.mp hp).1

/-- The links after creating an object without links. -/
theorem linkAt_createHeap (h : Heap) (g : Nat) (name : Str) (o : Obj) (hg : isGroup h g = true) (hn : aget (linksOf h g) name = none)
    (ho : objLinks o = []) (p : Nat) (k : Str) (q : Nat) :
    LinkAt (createHeap h g name o) p k q ↔ LinkAt h p k q ∨ (p = g ∧ k = name ∧ q = h.length) := by
  have hgl := isGroup_lt hg
  unfold LinkAt
  rw [linksOf_createHeap h g name o hg]
  by_cases hp : p = h.length
  · rw [if_pos hp, ho, linksOf_ge h p (by omega)]
    constructor
    · intro h; cases h
    · rintro (h | ⟨h, _⟩)
      · cases h
      · omega
  · rw [if_neg hp]
    by_cases hpg : p = g
    · subst hpg
      rw [if_pos rfl, aget_append]
      by_cases hk : k = name
      · subst hk
        rw [hn]
        simp [aget, eq_comm]
      · have : aget [(name, h.length)] k = none := by simp [aget]; exact fun h => hk h.symm
        rw [this]
        cases aget (linksOf h p) k <;> simp [hk]
    · rw [if_neg hpg]
      simp [hpg]

/-- A successful creation. -/
theorem createObj_run (g : Nat) (name : Str) (o : Obj) (s : St) :
    (∃ e, createObj g name o s = (.error e, s)) ∨
    (createObj g name o s = (.ok s.heap.length, { s with heap := createHeap s.heap g name o }) ∧ nameOk name = true ∧ name ≠ [] ∧
      isGroup s.heap g = true ∧ name ≠ [dot] ∧ aget (linksOf s.heap g) name = none) := by
  unfold createObj
  by_cases h1 : nameOk name = true
  · rw [if_neg (by simp [h1])]
    by_cases h2 : name = [] ∨ (!isGroup s.heap g) = true ∨ (hlook s.heap g name).isSome = true
    · rw [if_pos h2]; exact Or.inl ⟨_, rfl⟩
    · rw [if_neg h2]
      refine Or.inr ⟨rfl, h1, fun h => h2 (Or.inl h), ?_, ?_, ?_⟩
      · cases hg : isGroup s.heap g with
        | true => rfl
        | false => exact absurd (Or.inr (Or.inl (by simp [hg]))) h2
      · intro hd
        exact h2 (Or.inr (Or.inr (by simp [hlook, hd])))
      · cases hl : aget (linksOf s.heap g) name with
        | none => rfl
        | some q =>
          refine absurd (Or.inr (Or.inr ?_)) h2
          unfold hlook
          split
          · rfl
          · rw [hl]; rfl
  · rw [if_pos (by simp [h1])]; exact Or.inl ⟨_, rfl⟩

/-- Creating an object. -/
theorem createObj_fr {x : Ctx} {s : St} (hi : Inv x s) (g : Nat) (name : Str) (o : Obj) (ho : objLinks o = [])
    (hg : isGroup s.heap g = true) (hn : aget (linksOf s.heap g) name = none) :
    Fr x (oneA g name) noD s { s with heap := createHeap s.heap g name o } where
  len := by rw [createHeap_length]; omega
  k1 := by
    intro p k q h hq
    rcases (linkAt_createHeap s.heap g name o hg hn ho p k q).mp h with h | ⟨_, _, h⟩
    · exact h
    · omega
  k2 := by
    intro q p1 k1 p2 k2 hq h1 h2
    rcases (linkAt_createHeap s.heap g name o hg hn ho p1 k1 q).mp h1 with h1 | ⟨a1, b1, _⟩
    · have := hi.wf _ _ _ h1; omega
    rcases (linkAt_createHeap s.heap g name o hg hn ho p2 k2 q).mp h2 with h2 | ⟨a2, b2, _⟩
    · have := hi.wf _ _ _ h2; omega
    exact ⟨a1.trans a2.symm, b1.trans b2.symm⟩
  obj := by
    intro p ob hp _
    have hlt : p < s.heap.length := (List.getElem?_eq_some_iff.mp hp).1
    rw [getElem?_createHeap, if_neg (by omega)]
    by_cases hpg : p = g
    · subst hpg
      rw [if_pos rfl, hp]
      exact ⟨_, rfl, mapLinks_attrs _ _⟩
    · rw [if_neg hpg]
      exact ⟨ob, hp, rfl, SameKind.refl _⟩
  links := by
    intro p hp _ k hA _
    show aget (linksOf (createHeap s.heap g name o) p) k = _
    rw [linksOf_createHeap s.heap g name o hg, if_neg (by omega)]
    by_cases hpg : p = g
    · subst hpg
      rw [if_pos rfl, aget_append]
      have : aget [(name, s.heap.length)] k = none := by
        simp only [aget]
        rw [if_neg]
        intro h; exact hA ⟨rfl, h.symm⟩
      rw [this]
      cases aget (linksOf s.heap p) k <;> rfl
    · rw [if_neg hpg]
  same := by
    intro p hp _ hA _
    rw [getElem?_createHeap, if_neg (by omega), if_neg (fun h => hA name ⟨h, rfl⟩)]
  refkeys := by
    intro p k q _ h
    rcases (linkAt_createHeap s.heap g name o hg hn ho p k q).mp h with h | ⟨a, b, _⟩
    · exact Or.inl h
    · exact Or.inr (Or.inr ⟨a, b⟩)
  counter := Nat.le_refl _
  rpos := Nat.le_refl _
  refs := fun _ h => ⟨h, rfl⟩
  canon := fun _ h => h
  crt := fun h => Or.inl h
  rnd := fun _ _ => rfl
  cfx := fun _ _ => rfl

/-- The link `name` of `g` is not on the way to the references Group. -/
def OffPath (x : Ctx) (s : St) (g : Nat) (name : Str) : Prop :=
  ∀ pre, (pre ++ [name]) <+: refsComps x.o → resolve s.heap 0 pre ≠ some g

/-- The link is not one of the names that are going to be used for references. -/
def Reserved (s : St) (g : Nat) (name : Str) : Prop := s.created = true → s.refs = some g → ∀ c, s.counter ≤ c → name ≠ hexStr c

theorem inv_oneA {x : Ctx} {s s' : St} {g : Nat} {name : Str} {D : Nat → Prop} (f : Fr x (oneA g name) D s s') (hi : Inv x s)
    (hwf : ∀ p k q, LinkAt s'.heap p k q → q < s'.heap.length) (hrefs : s'.refs = s.refs) (hcr : s'.created = s.created)
    (hc : s'.counter = s.counter) (hr : s'.rpos = s.rpos) (hoff : s.refs ≠ none → OffPath x s g name) (hres : Reserved s g name)
    (hD : s.refs ≠ none → ∀ p, OnRefsPath (refsComps x.o) s.heap p → ¬ D p) (hcn : s'.canon = s.canon) : Inv x s' := by
  refine f.inv_keep hi hwf hrefs hcr ?_ hD ?_ ?_ (fun c h => Nat.lt_of_lt_of_le (hi.can c (hcn.symm.trans h)) f.len)
  · rintro hne pre c p h1 h2 ⟨rfl, rfl⟩
    exact hoff hne pre h1 h2
  · rintro h r k c hr ⟨rfl, rfl⟩ hc'
    exact hres h hr c hc'
  · intro h c k
    exact newName_ne (by rw [hc]; exact hi.ctr) hr c k

theorem createObj_step {x : Ctx} {s : St} (hi : Inv x s) (g : Nat) (name : Str) (o : Obj) (ho : objLinks o = [])
    (hg : isGroup s.heap g = true) (hn : aget (linksOf s.heap g) name = none) (hoff : s.refs ≠ none → OffPath x s g name) (hres : Reserved s g name) :
    Step x (oneA g name) noD s { s with heap := createHeap s.heap g name o } := by
  have f := createObj_fr hi g name o ho hg hn
  refine ⟨f, inv_oneA f hi ?_ rfl rfl rfl rfl hoff hres (fun _ _ _ h => h) rfl⟩
  intro p k q h
  rw [createHeap_length]
  rcases (linkAt_createHeap s.heap g name o hg hn ho p k q).mp h with h | ⟨_, _, h⟩
  · have := hi.wf _ _ _ h; omega
  · omega

/-- Changing an object without touching links. -/
theorem update_step {x : Ctx} {s : St} (hi : Inv x s) (q : Nat) (f : Obj → Obj)
    (hf : ∀ o, s.heap[q]? = some o → objLinks (f o) = objLinks o ∧ (SameKind o.body (f o).body ∨ isGroup s.heap q = false)) :
    Step x noA (oneD q) s { s with heap := s.heap.update q f } := by
  have hl : ∀ p, linksOf (s.heap.update q f) p = linksOf s.heap p := by
    intro p
    by_cases hp : p = q
    · subst hp
      rw [linksOf_obj, linksOf_obj, getElem?_update, if_pos rfl]
      cases ho : s.heap[p]? with
      | none => rfl
      | some o => exact (hf o ho).1
    · exact linksOf_update_ne _ _ _ _ hp
  have hla : ∀ p k r, LinkAt (s.heap.update q f) p k r ↔ LinkAt s.heap p k r := by
    intro p k r; unfold LinkAt; rw [hl]
  have hres : ∀ pre g, resolve (s.heap.update q f) g pre = resolve s.heap g pre := by
    intro pre
    induction pre with
    | nil => intro g; rfl
    | cons c r ih =>
      intro g
      simp only [resolve, hlook, hl]
      split <;> simp_all
  have hreach : ∀ a b, LReach (s.heap.update q f) a b → LReach s.heap a b := by
    intro a b h
    induction h with
    | refl => exact .refl
    | step _ h ih => exact .step ih ((hla _ _ _).mp h)
  have fr : Fr x noA (oneD q) s { s with heap := s.heap.update q f } := {
    len := by rw [length_update]; exact Nat.le_refl _
    k1 := fun p k r h _ => (hla p k r).mp h
    k2 := fun r p1 k1 _ _ hq h _ => by have := hi.wf _ _ _ ((hla _ _ _).mp h); omega
    obj := fun p o h hn => ⟨o, by rw [getElem?_update, if_neg hn]; exact h, rfl, SameKind.refl _⟩
    links := fun p _ _ k _ _ => by show aget (linksOf (s.heap.update q f) p) k = _; rw [hl]
    same := fun p _ hn _ _ => by show (s.heap.update q f)[p]? = _; rw [getElem?_update, if_neg hn]
    refkeys := fun _ _ _ _ h => Or.inl ((hla _ _ _).mp h)
    counter := Nat.le_refl _
    rpos := Nat.le_refl _
    refs := fun _ h => ⟨h, rfl⟩
    canon := fun _ h => h
    crt := fun h => Or.inl h
    rnd := fun _ _ => rfl
    cfx := fun _ _ => rfl }
  refine ⟨fr, ?_⟩
  exact {
    wf := fun p k r h => by rw [length_update]; exact hi.wf _ _ _ ((hla _ _ _).mp h)
    pos := by rw [length_update]; exact hi.pos
    refs := by
      intro r hr
      obtain ⟨h1, h2⟩ := hi.refs r hr
      refine ⟨by rw [hres]; exact h1, ?_⟩
      by_cases hrq : r = q
      · subst hrq
        obtain ⟨at', l, hg⟩ := isGroup_get h2
        rcases (hf _ hg).2 with hk | hk
        · exact isGroup_of_kind hg (by rw [getElem?_update, if_pos rfl, hg]; rfl) hk h2
        · rw [hk] at h2; cases h2
      · show isGroup (s.heap.update q f) r = true
        unfold isGroup
        rw [getElem?_update, if_neg hrq]
        exact h2
    created := hi.created
    acyc := fr.acyc hi
    below := fr.below hi
    ctr := hi.ctr
    cnt := fun h r c q hr hc hl => hi.cnt h r c q hr hc ((hla _ _ _).mp hl)
    can := fun c h => by rw [show ({ s with heap := s.heap.update q f } : St).heap = s.heap.update q f from rfl, length_update]; exact hi.can c h }

/-- Removing links of one object. -/
theorem removeLinks_step {x : Ctx} {s : St} (hi : Inv x s) (g : Nat) (A : Nat → Str → Prop) (D : Nat → Prop) (keep : Str → Bool)
    (hA : ∀ k, keep k = false → D g ∨ A g k) (hne : D g ∨ ∃ k, A g k)
    (hoff : s.refs ≠ none → ∀ k, keep k = false → OffPath x s g k) :
    Step x A D s { s with heap := s.heap.update g (Obj.mapLinks fun l => l.filter fun p => keep p.1) } := by
  have hl : ∀ p, linksOf (s.heap.update g (Obj.mapLinks fun l => l.filter fun p => keep p.1)) p =
      if p = g then (linksOf s.heap g).filter (fun p => keep p.1) else linksOf s.heap p := by
    intro p
    by_cases hp : p = g
    · subst hp
      rw [if_pos rfl, linksOf_obj, linksOf_obj, getElem?_update, if_pos rfl]
      cases ho : s.heap[p]? with
      | none => rfl
      | some o => obtain ⟨_, b⟩ := o; cases b <;> rfl
    · rw [if_neg hp]; exact linksOf_update_ne _ _ _ _ hp
  have hag : ∀ p k, aget (linksOf (s.heap.update g (Obj.mapLinks fun l => l.filter fun p => keep p.1)) p) k =
      if p = g ∧ keep k = false then none else aget (linksOf s.heap p) k := by
    intro p k
    rw [hl]
    by_cases hp : p = g
    · subst hp
      rw [if_pos rfl, aget_filter]
      cases keep k <;> simp
    · rw [if_neg hp]; simp [hp]
  have hla : ∀ p k r, LinkAt (s.heap.update g (Obj.mapLinks fun l => l.filter fun p => keep p.1)) p k r → LinkAt s.heap p k r := by
    intro p k r h
    unfold LinkAt at h ⊢
    rw [hag] at h
    split at h
    · cases h
    · exact h
  have fr : Fr x A D s { s with heap := s.heap.update g (Obj.mapLinks fun l => l.filter fun p => keep p.1) } := {
    len := by rw [length_update]; exact Nat.le_refl _
    k1 := fun p k r h _ => hla p k r h
    k2 := fun r p1 k1 _ _ hq h _ => by have := hi.wf _ _ _ (hla _ _ _ h); omega
    obj := by
      intro p o h _
      by_cases hp : p = g
      · subst hp
        exact ⟨_, by rw [getElem?_update, if_pos rfl, h]; rfl, mapLinks_attrs _ _⟩
      · exact ⟨o, by rw [getElem?_update, if_neg hp]; exact h, rfl, SameKind.refl _⟩
    links := by
      intro p _ hD k hn _
      show aget (linksOf (s.heap.update g _) p) k = _
      rw [hag, if_neg]
      rintro ⟨rfl, h⟩
      rcases hA k h with h | h
      · exact hD h
      · exact hn h
    same := by
      intro p _ hD hn _
      show (s.heap.update g _)[p]? = _
      rw [getElem?_update, if_neg]
      rintro rfl
      rcases hne with h | ⟨k, h⟩
      · exact hD h
      · exact hn k h
    refkeys := fun _ _ _ _ h => Or.inl (hla _ _ _ h)
    counter := Nat.le_refl _
    rpos := Nat.le_refl _
    refs := fun _ h => ⟨h, rfl⟩
    canon := fun _ h => h
    crt := fun h => Or.inl h
    rnd := fun _ _ => rfl
    cfx := fun _ _ => rfl }
  refine ⟨fr, ?_⟩
  have hchain : s.refs ≠ none → ∀ pre, pre <+: refsComps x.o → ∀ p, resolve s.heap 0 pre = some p →
      resolve (s.heap.update g (Obj.mapLinks fun l => l.filter fun p => keep p.1)) 0 pre = some p := by
    intro hne' pre hp p h
    induction hn : pre.length generalizing pre p with
    | zero =>
      have : pre = [] := List.length_eq_zero_iff.mp hn
      subst this; exact h
    | succ n ih =>
      have hpl := prefix_plain (plainComps x) hp
      rcases snoc_cases pre with rfl | ⟨m, c, rfl⟩
      · simp at hn
      obtain ⟨a, ha, hl'⟩ := (resolve_snoc _ _ m c (hpl c (by simp)) p).mp h
      refine (resolve_snoc _ _ m c (hpl c (by simp)) p).mpr ⟨a, ih m (prefix_of_snoc hp) a ha (by simp at hn; omega), ?_⟩
      unfold LinkAt
      rw [hag, if_neg]
      · exact hl'
      · rintro ⟨rfl, h⟩
        exact hoff hne' c h m hp ha
  exact {
    wf := fun p k r h => by rw [length_update]; exact hi.wf _ _ _ (hla _ _ _ h)
    pos := by rw [length_update]; exact hi.pos
    refs := by
      intro r hr
      obtain ⟨h1, h2⟩ := hi.refs r hr
      refine ⟨hchain (by rw [show s.refs = some r from hr]; simp) _ (List.prefix_refl _) r h1, ?_⟩
      obtain ⟨at', l, hg⟩ := isGroup_get h2
      by_cases hrq : r = g
      · subst hrq
        exact isGroup_of_kind hg (by rw [getElem?_update, if_pos rfl, hg]; rfl) (mapLinks_attrs _ _).2 h2
      · exact isGroup_of_kind hg (by rw [getElem?_update, if_neg hrq]; exact hg) (SameKind.refl _) h2
    created := hi.created
    acyc := fr.acyc hi
    below := fr.below hi
    ctr := hi.ctr
    cnt := fun h r c q hr hc hl => hi.cnt h r c q hr hc (hla _ _ _ hl)
    can := fun c h => Nat.lt_of_lt_of_le (hi.can c h) fr.len }

/-- Unlinking. -/
theorem unlink_run (g : Nat) (name : Str) (s : St) :
    (∃ e, unlink g name s = (.error e, s)) ∨
    (unlink g name s = (.ok (), { s with heap := s.heap.update g (Obj.mapLinks fun l => l.filter fun p => !(p.1 == name)) }) ∧
      name ≠ [dot] ∧ ∃ q, LinkAt s.heap g name q) := by
  unfold unlink
  by_cases h1 : nameOk name = true
  · rw [if_neg (by simp [h1])]
    by_cases h2 : name = [dot] ∨ (hlook s.heap g name).isNone = true
    · rw [if_pos h2]; exact Or.inl ⟨_, rfl⟩
    · rw [if_neg h2]
      have hd : name ≠ [dot] := fun h => h2 (Or.inl h)
      refine Or.inr ⟨rfl, hd, ?_⟩
      unfold LinkAt
      rw [hlook_plain _ _ _ hd] at h2
      cases hl : aget (linksOf s.heap g) name with
      | none => exact absurd (Or.inr (by rw [hl]; rfl)) h2
      | some q => exact ⟨q, rfl⟩
  · rw [if_pos (by simp [h1])]; exact Or.inl ⟨_, rfl⟩

theorem unlink_step {x : Ctx} {s : St} (hi : Inv x s) (g : Nat) (name : Str) (hoff : s.refs ≠ none → OffPath x s g name) :
    Step x (oneA g name) noD s { s with heap := s.heap.update g (Obj.mapLinks fun l => l.filter fun p => !(p.1 == name)) } := by
  refine removeLinks_step hi g (oneA g name) noD (fun k => !(k == name)) ?_ (Or.inr ⟨name, rfl, rfl⟩) ?_
  · intro k h
    exact Or.inr ⟨rfl, by simpa using h⟩
  · intro hne k h
    have : k = name := by simpa using h
    rw [this]; exact hoff hne

end HS
