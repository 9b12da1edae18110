import Verif.Spec.Progress
import Verif.Lemmas.FileGroup
import Verif.Lemmas.Pres
import Verif.Lemmas.Unicode
import Verif.Lemmas.RtFrame
/-
Writing succeeds: the elementary operations, and the references Group.
-/
namespace HS
open Spec

variable {K : Nat → Prop}

/-- The computation succeeds with the given result and state afterwards, unless it hangs drawing names. -/
def Goes (K : Nat → Prop) {α : Type} (x : Ctx) (m : M α) (s : St) (P : α → St → Prop) : Prop :=
  (∃ a s', m s = (.ok a, s') ∧ P a s') ∨ ∃ s', m s = (.error .other, s') ∧ Unlucky x s' ∧ ¬ ∃ r, K r

theorem Goes.ok {α : Type} {x : Ctx} {m : M α} {s s' : St} {a : α} {P : α → St → Prop} (h : m s = (.ok a, s')) (hP : P a s') : Goes K x m s P := Or.inl ⟨a, s', h, hP⟩

theorem Goes.pure {α : Type} {x : Ctx} {s : St} {a : α} {P : α → St → Prop} (hP : P a s) : Goes K x (Pure.pure a : M α) s P := Or.inl ⟨a, s, rfl, hP⟩

theorem Goes.bind {α β : Type} {x : Ctx} {m : M α} {f : α → M β} {s : St} {P : α → St → Prop} {Q : β → St → Prop} (h : Goes K x m s P)
    (hf : ∀ a s', m s = (.ok a, s') → P a s' → Goes K x (f a) s' Q) : Goes K x (m >>= f) s Q := by
  rcases h with ⟨a, s', h, hP⟩ | ⟨s', h, hu⟩
  · rcases hf a s' h hP with ⟨b, s2, h2, hQ⟩ | ⟨s2, h2, hu⟩
    · exact Or.inl ⟨b, s2, by rw [run_bind_ok h]; exact h2, hQ⟩
    · exact Or.inr ⟨s2, by rw [run_bind_ok h]; exact h2, hu⟩
  · exact Or.inr ⟨s', run_bind_err h, hu⟩

theorem Goes.mono {α : Type} {x : Ctx} {m : M α} {s : St} {P Q : α → St → Prop} (h : Goes K x m s P) (hPQ : ∀ a s', m s = (.ok a, s') → P a s' → Q a s') : Goes K x m s Q := by
  rcases h with ⟨a, s', h, hP⟩ | h
  · exact Or.inl ⟨a, s', h, hPQ a s' h hP⟩
  · exact Or.inr h

/-- Whatever is on the way to the references Group is a Group. -/
structure Way (K : Nat → Prop) (x : Ctx) (h : Heap) : Prop where
  grp : ∀ pre c p, (pre ++ [c]) <+: refsComps x.o → resolve h 0 pre = some p → isGroup h p = true
  none : (∃ r, K r) → resolve h 0 (refsComps x.o) = none

/-- The attribute MATLAB_class is text. -/
def ClassOk (at' : List (Str × AVal)) : Prop := ∀ b, aget at' p!"MATLAB_class" = some (.bytes b) → ∃ s, utf8Dec b = .ok s

/-- A state from which writing can go on. -/
structure Go (K : Nat → Prop) (x : Ctx) (s : St) : Prop where
  inv : Inv x s
  way : s.refs = none → Way K x s.heap
  txt : TextClasses s.heap
  mine : ∀ r, K r → s.rpos = r ∧ (s.refs ≠ none → s.created = true)

theorem txt_iff {h : Heap} : TextClasses h ↔ ∀ (p : Nat) (ob : Obj), h[p]? = some ob → ClassOk ob.attrs := by
  constructor
  · intro ht p ob hp
    exact ht ob (List.mem_of_getElem? hp)
  · intro ht ob hm
    obtain ⟨p, hp⟩ := List.mem_iff_getElem?.mp hm
    exact ht p ob hp

theorem Way.of {x : Ctx} {h h' : Heap} (hl : ∀ pre k p q, (pre ++ [k]) <+: refsComps x.o → resolve h 0 pre = some p → LinkAt h' p k q → LinkAt h p k q)
    (hg : ∀ p, isGroup h p = true → isGroup h' p = true) (hw : Way K x h) : Way K x h' := by
  have key : ∀ pre, pre <+: refsComps x.o → ∀ p, resolve h' 0 pre = some p → resolve h 0 pre = some p := by
    intro pre hp p hr
    induction hn : pre.length generalizing pre p with
    | zero =>
      have : pre = [] := List.length_eq_zero_iff.mp hn
      subst this; exact hr
    | succ n ih =>
      have hpl := prefix_plain (plainComps x) hp
      rcases snoc_cases pre with rfl | ⟨m, c, rfl⟩
      · simp at hn
      obtain ⟨a, ha, hl'⟩ := (resolve_snoc _ _ m c (hpl c (by simp)) p).mp hr
      have hm := ih m (prefix_of_snoc hp) a ha (by simp at hn; omega)
      exact (resolve_snoc _ _ m c (hpl c (by simp)) p).mpr ⟨a, hm, hl m c a p hp hm hl'⟩
  refine ⟨fun pre c p hp hr => hg p (hw.grp pre c p hp (key pre (prefix_of_snoc hp) p hr)), fun hk => ?_⟩
  cases hr : resolve h' 0 (refsComps x.o) with
  | none => rfl
  | some p =>
    have := key _ (List.prefix_refl _) p hr
    rw [hw.none hk] at this; cases this

theorem isGroup_update {h : Heap} {q : Nat} {f : Obj → Obj} (hf : ∀ o, h[q]? = some o → (∃ l, o.body = .group l) → ∃ l, (f o).body = .group l) (p : Nat)
    (hg : isGroup h p = true) : isGroup (h.update q f) p = true := by
  obtain ⟨at', l, hp⟩ := isGroup_get hg
  unfold isGroup
  rw [getElem?_update]
  by_cases hpq : p = q
  · subst hpq
    rw [if_pos rfl, hp]
    obtain ⟨l', hl⟩ := hf _ hp ⟨l, rfl⟩
    rw [Option.map_some]
    cases ho : f ⟨at', .group l⟩ with
    | mk a b =>
      rw [ho] at hl
      dsimp only at hl
      subst hl
      rfl
  · rw [if_neg hpq, hp]

theorem isGroup_create {h : Heap} {g : Nat} {name : Str} {o : Obj} (p : Nat) (hg : isGroup h p = true) : isGroup (createHeap h g name o) p = true := by
  have hlt := isGroup_lt hg
  obtain ⟨at', l, hp⟩ := isGroup_get hg
  unfold isGroup
  rw [getElem?_createHeap, if_neg (by omega)]
  by_cases hh : p = g
  · subst hh
    rw [if_pos rfl, hp]; rfl
  · rw [if_neg hh, hp]

theorem isGroup_attrs {h : Heap} {q : Nat} (f : List (Str × AVal) → List (Str × AVal)) (p : Nat) (hg : isGroup h p = true) :
    isGroup (h.update q fun o => { o with attrs := f o.attrs }) p = true :=
  isGroup_update (f := fun o => { o with attrs := f o.attrs }) (fun _ _ h => h) p hg

theorem linkAt_attrs {h : Heap} {q p r : Nat} {k : Str} (f : List (Str × AVal) → List (Str × AVal)) (hl : LinkAt (h.update q fun o => { o with attrs := f o.attrs }) p k r) :
    LinkAt h p k r := by
  unfold LinkAt at hl ⊢
  rw [linksOf_update_body (f := fun o => { o with attrs := f o.attrs }) (fun o _ => by obtain ⟨a, b⟩ := o; cases b <;> rfl)] at hl
  exact hl

/-- Being a Group stays. -/
theorem group_elem (o : COpts) (p : Nat) : Elem o (fun h => isGroup h p = true) where
  create := fun h g name ob hp _ _ _ => isGroup_create p hp
  filter := fun h g f hp => isGroup_update (fun o _ ⟨l, hl⟩ => ⟨l.filter f, by unfold Obj.mapLinks; rw [hl]⟩) p hp
  attrs := fun h q f hp => isGroup_attrs f p hp
  data := fun h q a b fb at' hp hq _ _ _ => isGroup_update (fun o ho ⟨l, hl⟩ => by rw [hq] at ho; cases ho; cases hl) p hp

theorem txt_create {h : Heap} {g : Nat} {name : Str} {o : Obj} (ho : ClassOk o.attrs) (ht : TextClasses h) : TextClasses (createHeap h g name o) := by
  rw [txt_iff] at ht ⊢
  intro p ob hp
  rw [getElem?_createHeap] at hp
  split at hp
  · cases hp; exact ho
  · split at hp
    · cases hg : h[g]? with
      | none => rw [hg] at hp; cases hp
      | some og =>
        rw [hg] at hp
        cases hp
        rw [(mapLinks_attrs _ _).1]
        exact ht g og hg
    · exact ht p ob hp

theorem txt_update {h : Heap} {q : Nat} {f : Obj → Obj} (hf : ∀ o, h[q]? = some o → ClassOk o.attrs → ClassOk (f o).attrs) (ht : TextClasses h) :
    TextClasses (h.update q f) := by
  rw [txt_iff] at ht ⊢
  intro p ob hp
  rw [getElem?_update] at hp
  split at hp
  · cases hg : h[q]? with
    | none => rw [hg] at hp; cases hp
    | some og =>
      rw [hg] at hp
      cases hp
      exact hf og hg (ht q og hg)
  · exact ht p ob hp

/-- Attributes that can be stored: texts can be encoded, and a MATLAB_class is a text. -/
def AttrsOk (new : List (Str × AIn)) : Prop := ∀ e ∈ new, (∃ v, e.2.stored = .ok v) ∧ (e.1 = p!"MATLAB_class" → (∃ s, e.2 = .string s) ∨ ∃ s, e.2 = .value (.pyStr s))

theorem setAttrOne_ok {k : Str} {old : Option AVal} {i : AIn} (h : ∃ v, i.stored = .ok v) : ∃ v, setAttrOne k old i = .ok v ∧ (i.stored = .ok v ∨ old = some v) := by
  obtain ⟨v, hv⟩ := h
  have e : ∀ r : AVal → Res AVal, (i.stored >>= r) = r v := by intro r; rw [hv]; rfl
  unfold setAttrOne
  rw [e]
  cases i with
  | stringArray l => exact ⟨v, rfl, Or.inl hv⟩
  | pyInt l => exact ⟨v, rfl, Or.inl hv⟩
  | string s =>
    cases old with
    | none => exact ⟨v, rfl, Or.inl hv⟩
    | some o =>
      dsimp only
      split
      · exact ⟨v, rfl, Or.inl hv⟩
      · split
        · split
          · exact ⟨v, rfl, Or.inl hv⟩
          · exact ⟨o, rfl, Or.inr rfl⟩
        · exact ⟨v, rfl, Or.inl hv⟩
  | value w =>
    cases old with
    | none => exact ⟨v, rfl, Or.inl hv⟩
    | some o =>
      dsimp only
      split
      · exact ⟨v, rfl, Or.inl hv⟩
      · split
        · split
          · exact ⟨v, rfl, Or.inl hv⟩
          · exact ⟨o, rfl, Or.inr rfl⟩
        · exact ⟨v, rfl, Or.inl hv⟩

theorem ascii_text {s : Str} (h : s.all (· < 128) = true) : ∃ t, utf8Dec s = .ok t := ⟨s, utf8Dec_ascii s (fun c hc => by simpa using List.all_eq_true.mp h c hc)⟩

theorem class_stored {i : AIn} {b : Bytes} (hi : (∃ s, i = .string s) ∨ ∃ s, i = .value (.pyStr s)) (hs : i.stored = .ok (.bytes b)) : ∃ t, utf8Dec b = .ok t := by
  rcases hi with ⟨s, rfl⟩ | ⟨s, rfl⟩
  · simp only [AIn.stored, asciiEnc] at hs
    split at hs
    · rename_i h
      cases hs
      exact ascii_text h
    · cases hs
  · cases hs

theorem setAttrsLoop_go {ex : List (Str × AVal)} {new : List (Str × AIn)} (hn : AttrsOk new) (hex : ClassOk ex) {cur : List (Str × AVal)} (hc : ClassOk cur) :
    ∃ cur', setAttrsLoop ex new cur = (.ok (), cur') ∧ ClassOk cur' := by
  induction new generalizing cur with
  | nil => exact ⟨cur, rfl, hc⟩
  | cons e r ih =>
    obtain ⟨k, i⟩ := e
    obtain ⟨h1, h2⟩ := hn (k, i) (by simp)
    obtain ⟨v, hv, hv'⟩ := setAttrOne_ok (k := k) (old := aget ex k) h1
    rw [setAttrsLoop, hv]
    refine ih (fun e he => hn e (by simp [he])) ?_
    intro b hb
    rw [aget_aput] at hb
    split at hb
    · rename_i hk
      cases hb
      rcases hv' with hv' | hv'
      · exact class_stored (h2 hk.symm) hv'
      · exact hex b (by rw [hk]; exact hv')
    · exact hc b hb

theorem setAttributesAll_go {old : List (Str × AVal)} {new : List (Str × AIn)} {d : Bool} (hn : AttrsOk new) (ho : ClassOk old) :
    (setAttributesAll old new d).1 = .ok () ∧ ClassOk (setAttributesAll old new d).2 := by
  obtain ⟨cur, h1, h2⟩ := setAttrsLoop_go hn ho ho
  unfold setAttributesAll
  rw [h1]
  refine ⟨rfl, ?_⟩
  dsimp only
  split
  · intro b hb
    rw [aget_filter cur (fun k => (akeys new).contains k)] at hb
    split at hb
    · exact h2 b hb
    · cases hb
  · exact h2

/-- Setting attributes succeeds. -/
theorem setAttrsM_go {x : Ctx} {s : St} {p : Nat} {new : List (Str × AIn)} {d : Bool} (hs : Go K x s) (hp : p < s.heap.length) (hn : AttrsOk new) :
    ∃ s1, setAttrsM p new d s = (.ok (), s1) ∧ Go K x s1 := by
  obtain ⟨o, ho⟩ : ∃ o, s.heap[p]? = some o := ⟨_, List.getElem?_eq_getElem hp⟩
  obtain ⟨h1, h2⟩ := setAttributesAll_go (d := d) hn (txt_iff.mp hs.txt p o ho)
  have hrun : setAttrsM p new d s = (.ok (), { s with heap := s.heap.update p fun o => { o with attrs := (setAttributesAll o.attrs new d).2 } }) := by
    unfold setAttrsM Heap.update
    rw [ho]
    dsimp only
    rw [h1]
  refine ⟨_, hrun, (setAttrsM_step hs.inv p new d hrun).inv, fun hr => ?_, ?_, hs.mine⟩
  · refine Way.of ?_ ?_ (hs.way hr)
    · exact fun _ k a q _ _ hl => linkAt_attrs (fun at' => (setAttributesAll at' new d).2) hl
    · exact fun a => isGroup_attrs (fun at' => (setAttributesAll at' new d).2) a
  · exact txt_update (fun o' ho' _ => by rw [ho] at ho'; cases ho'; exact h2) hs.txt

theorem asciiEnc_ok {s : Str} (h : Ascii s) : asciiEnc s = .ok s := by
  unfold asciiEnc
  rw [if_pos (List.all_eq_true.mpr fun c hc => by simpa using h c hc)]

/-- Setting the attribute H5PATH succeeds. -/
theorem setH5Path_go {x : Ctx} {s : St} {p : Nat} {gn : Str} (hs : Go K x s) (ha : x.o.matlab = true → Ascii gn) :
    ∃ s1, setH5Path x p (asciiEnc gn) s = (.ok (), s1) ∧ Go K x s1 := by
  have key : ∀ f : List (Str × AVal) → List (Str × AVal), (∀ l, aget (f l) p!"MATLAB_class" = aget l p!"MATLAB_class") →
      (s.refs = none → Way K x (s.heap.update p fun o => { o with attrs := f o.attrs })) ∧ TextClasses (s.heap.update p fun o => { o with attrs := f o.attrs }) := by
    intro f hf
    refine ⟨fun hr => Way.of ?_ ?_ (hs.way hr), txt_update ?_ hs.txt⟩
    · exact fun _ k a q _ _ hl => linkAt_attrs f hl
    · exact fun a => isGroup_attrs f a
    · intro o _ h b hb
      rw [hf] at hb
      exact h b hb
  unfold setH5Path
  by_cases hm : x.o.matlab = true
  · rw [if_pos hm, asciiEnc_ok (ha hm)]
    have hrun : (liftRes (Except.ok gn) >>= fun b => modifyAttr p p!"H5PATH" (.bytes b) : M Unit) s =
      (.ok (), { s with heap := s.heap.update p fun o => { o with attrs := aput o.attrs p!"H5PATH" (.bytes gn) } }) := rfl
    refine ⟨_, hrun, ?_, (key (fun l => aput l _ _) ?_).1, (key (fun l => aput l _ _) ?_).2, hs.mine⟩
    · refine (setH5Path_step hs.inv p (.ok gn) (res := .ok ()) ?_).inv
      unfold setH5Path
      rw [if_pos hm]; exact hrun
    all_goals
      intro l
      rw [aget_aput, if_neg (by decide)]
  · rw [if_neg hm]
    have hrun : deleteAttr p p!"H5PATH" s = (.ok (), { s with heap := s.heap.update p fun o => { o with attrs := adel o.attrs p!"H5PATH" } }) := rfl
    refine ⟨_, hrun, ?_, (key (fun l => adel l _) ?_).1, (key (fun l => adel l _) ?_).2, hs.mine⟩
    · refine (setH5Path_step hs.inv p (.ok gn) (res := .ok ()) ?_).inv
      unfold setH5Path
      rw [if_neg hm]; exact hrun
    all_goals
      intro l
      rw [aget_adel, if_neg (by decide)]

/-- A place that something can be written to. -/
structure PlaceOk (x : Ctx) (s : St) (g : Nat) (name : Str) : Prop where
  pre : Pre x s g name
  grp : isGroup s.heap g = true
  enc : nameOk name = true
  ne : name ≠ []

theorem createObj_runs {g : Nat} {name : Str} {o : Obj} {s : St} (h1 : nameOk name = true) (h2 : name ≠ []) (h3 : isGroup s.heap g = true) (h4 : name ≠ [dot])
    (h5 : aget (linksOf s.heap g) name = none) : createObj g name o s = (.ok s.heap.length, { s with heap := createHeap s.heap g name o }) := by
  unfold createObj
  rw [if_neg (by simp [h1]), if_neg]
  · rfl
  · rintro (h | h | h)
    · exact h2 h
    · rw [h3] at h; cases h
    · rw [hlook_plain _ _ _ h4, h5] at h; cases h

theorem createObj_go {x : Ctx} {s : St} {g : Nat} {name : Str} {o : Obj} (hs : Go K x s) (hp : PlaceOk x s g name) (hn : aget (linksOf s.heap g) name = none)
    (ho : objLinks o = []) (hc : ClassOk o.attrs) : ∃ s1, createObj g name o s = (.ok s.heap.length, s1) ∧ Go K x s1 := by
  have hrun := createObj_runs (o := o) hp.enc hp.ne hp.grp hp.pre.nd hn
  refine ⟨_, hrun, (create_at hp.pre o ho hrun).1.inv, fun hr => Way.of ?_ (fun a => isGroup_create a) (hs.way hr), txt_create hc hs.txt, hs.mine⟩
  intro pre k a q h1 h2 hl
  rcases (linkAt_createHeap _ _ _ _ hp.grp hn ho _ _ _).mp hl with hl | ⟨rfl, rfl, _⟩
  · exact hl
  · exact absurd h2 (hp.pre.off pre h1)

theorem unlink_runs {g : Nat} {name : Str} {s : St} {q : Nat} (h1 : nameOk name = true) (h2 : name ≠ [dot]) (h3 : LinkAt s.heap g name q) :
    unlink g name s = (.ok (), { s with heap := s.heap.update g (Obj.mapLinks fun l => l.filter fun p => !(p.1 == name)) }) := by
  unfold unlink
  rw [if_neg (by simp [h1]), if_neg]
  · rfl
  · rintro (h | h)
    · exact h2 h
    · rw [hlook_plain _ _ _ h2, h3] at h; cases h

theorem linkAt_filter {h : Heap} {g p q : Nat} {keep : Str → Bool} {k : Str} (hl : LinkAt (h.update g (Obj.mapLinks fun l => l.filter fun e => keep e.1)) p k q) :
    LinkAt h p k q ∧ (p = g → keep k = true) := by
  unfold LinkAt at hl ⊢
  rw [linksOf_update_mapLinks] at hl
  split at hl
  · rw [aget_filter] at hl
    split at hl
    · rename_i hk; exact ⟨hl, fun _ => hk⟩
    · cases hl
  · rename_i hp
    refine ⟨hl, fun h' => absurd ?_ hp⟩
    subst h'
    exact ⟨rfl, linkAt_group hl⟩

theorem filter_go {x : Ctx} {s : St} {g : Nat} {keep : Str → Bool} (hs : Go K x s) :
    (s.refs = none → Way K x (s.heap.update g (Obj.mapLinks fun l => l.filter fun e => keep e.1))) ∧ TextClasses (s.heap.update g (Obj.mapLinks fun l => l.filter fun e => keep e.1)) := by
  refine ⟨fun hr => Way.of (fun _ _ _ _ _ _ hl => (linkAt_filter hl).1) ?_ (hs.way hr), txt_update (fun o _ h => by rw [(mapLinks_attrs _ _).1]; exact h) hs.txt⟩
  exact fun a => isGroup_update (fun o _ ⟨l, hl⟩ => ⟨_, by unfold Obj.mapLinks; rw [hl]⟩) a

theorem unlink_go {x : Ctx} {s : St} {g q : Nat} {name : Str} (hs : Go K x s) (hp : PlaceOk x s g name) (hl : LinkAt s.heap g name q) :
    ∃ s1, unlink g name s = (.ok (), s1) ∧ Go K x s1 ∧ PlaceOk x s1 g name ∧ aget (linksOf s1.heap g) name = none := by
  have hrun := unlink_runs hp.enc hp.pre.nd hl
  have st := unlink_at hp.pre hrun
  refine ⟨_, hrun, ⟨st.inv, (filter_go (keep := fun k => !(k == name)) hs).1, (filter_go (keep := fun k => !(k == name)) hs).2, hs.mine⟩, ⟨hp.pre.keep st, ?_, hp.enc, hp.ne⟩, ?_⟩
  · exact isGroup_update (fun o _ ⟨l, hl⟩ => ⟨_, by unfold Obj.mapLinks; rw [hl]⟩) g hp.grp
  · cases ha : aget (linksOf (s.heap.update g (Obj.mapLinks fun l => l.filter fun p => !(p.1 == name))) g) name with
    | none => rfl
    | some r =>
      have := (linkAt_filter (keep := fun k => !(k == name)) ha).2 rfl
      simp at this

/-- Replacing something succeeds. -/
theorem replace_go {x : Ctx} {s : St} {g q : Nat} {name : Str} {o : Obj} (hs : Go K x s) (hp : PlaceOk x s g name) (hl : LinkAt s.heap g name q) (ho : objLinks o = [])
    (hc : ClassOk o.attrs) : ∃ p s1, (unlink g name >>= fun _ => createObj g name o) s = (.ok p, s1) ∧ Go K x s1 := by
  obtain ⟨s1, h1, h2, h3, h4⟩ := unlink_go hs hp hl
  obtain ⟨s2, h5, h6⟩ := createObj_go h2 h3 h4 ho hc
  exact ⟨_, s2, by rw [run_bind_ok h1]; exact h5, h6⟩

theorem classOk_nil : ClassOk [] := by intro b hb; cases hb

/-- Writing a Dataset succeeds, if the filters tell the options of the compression (F27). -/
theorem putDataset_go {x : Ctx} {s : St} {g : Nat} {name : Str} {a : Arr} {f : Filters} (hs : Go K x s) (hp : PlaceOk x s g name) (hf : f.opts ≠ none) :
    ∃ p s1, putDataset g name a f s = (.ok p, s1) ∧ Go K x s1 := by
  have hrep : ∀ q, LinkAt s.heap g name q → ∃ p s1, (unlink g name >>= fun _ => createDset g name a f) s = (.ok p, s1) ∧ Go K x s1 :=
    fun q hl => replace_go hs hp hl (o := ⟨[], .dset (h5Store a) f.stored⟩) rfl classOk_nil
  unfold putDataset
  rw [run_getSt, if_pos hp.enc, hlook_plain _ _ _ hp.pre.nd]
  cases hl : aget (linksOf s.heap g) name with
  | none =>
    obtain ⟨s1, h1, h2⟩ := createObj_go hs hp hl (o := ⟨[], .dset (h5Store a) f.stored⟩) rfl classOk_nil
    exact ⟨_, s1, h1, h2⟩
  | some q =>
    dsimp only
    have hother : ∃ p s1, (if name = [dot] then createDset g name a f else unlink g name >>= fun _ => createDset g name a f) s = (.ok p, s1) ∧ Go K x s1 := by
      rw [if_neg hp.pre.nd]; exact hrep q hl
    cases heq : s.heap[q]? with
    | none => exact hother
    | some ob =>
      obtain ⟨at', bo⟩ := ob
      cases bo with
      | group l => exact hother
      | dset b fb =>
        dsimp only
        split
        · exact hrep q hl
        · cases hop : f.opts with
          | none =>
            exact absurd hop hf
          | some op =>
            dsimp only
            split
            · exact hrep q hl
            · rw [run_modSt, run_pure]
              have st : Step x noA (oneD q) s { s with heap := s.heap.update q fun ob => { ob with body := .dset (h5Store a) fb } } := by
                refine update_step hp.pre.inv q _ ?_
                intro o ho
                rw [heq] at ho; cases ho
                exact ⟨rfl, Or.inr (by unfold isGroup; rw [heq])⟩
              refine ⟨_, _, rfl, st.inv, fun hr => Way.of ?_ ?_ (hs.way hr), txt_update (fun _ _ h => h) hs.txt, hs.mine⟩
              · intro _ k p r _ _ hl'
                unfold LinkAt at hl' ⊢
                rw [linksOf_update_body (fun o ho => by rw [heq] at ho; cases ho; rfl)] at hl'
                exact hl'
              · exact fun p => isGroup_update (fun o ho ⟨l, hl⟩ => by rw [heq] at ho; cases ho; cases hl) p

end HS
