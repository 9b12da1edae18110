import Verif.Lemmas.RtFrame
import Verif.Lemmas.FileInv
import Verif.Lemmas.RtScalar
import Verif.Spec.ValidRefs
/-
References stay valid: what is in the references Group stays there.
-/
namespace HS
open Spec

/-- `r` is in the references Group. -/
def RefTo (x : Ctx) (s : St) (r : Nat) : Prop := ∃ rg nm, resolve s.heap 0 (refsComps x.o) = some rg ∧ LinkAt s.heap rg nm r

/-- What is in the references Group stays there. -/
def KeepRefs (x : Ctx) (s s' : St) : Prop := ∀ rg nm q, resolve s.heap 0 (refsComps x.o) = some rg → LinkAt s.heap rg nm q →
  resolve s'.heap 0 (refsComps x.o) = some rg ∧ LinkAt s'.heap rg nm q

theorem KeepRefs.refl {x : Ctx} {s : St} : KeepRefs x s s := fun _ _ _ h1 h2 => ⟨h1, h2⟩
theorem KeepRefs.trans {x : Ctx} {s s1 s2 : St} (h1 : KeepRefs x s s1) (h2 : KeepRefs x s1 s2) : KeepRefs x s s2 :=
  fun rg nm q a b => by obtain ⟨c, d⟩ := h1 rg nm q a b; exact h2 rg nm q c d
theorem KeepRefs.to {x : Ctx} {s s' : St} (h : KeepRefs x s s') {r : Nat} (hr : RefTo x s r) : RefTo x s' r := by
  obtain ⟨rg, nm, a, b⟩ := hr
  obtain ⟨c, d⟩ := h rg nm r a b
  exact ⟨rg, nm, c, d⟩

/-- The references of a body are in the references Group. -/
def BodyRefs (x : Ctx) (s : St) (b : Body) : Prop := ∀ a f r, b = .dset a f → a.dt = .ref → El.ref r ∈ a.data → RefTo x s r

/-- Not the canonical empty. -/
def NotA (x : Ctx) (s : St) (p : Nat) : Prop := ∀ rg, resolve s.heap 0 (refsComps x.o) = some rg → ¬ LinkAt s.heap rg p!"a" p

/-- The references in the objects of interest are valid, and the name of the canonical empty is used for it. -/
structure RI (x : Ctx) (L : Nat → Prop) (s : St) : Prop where
  inv : Inv x s
  tree : Tree s.heap
  vals : ∀ (p : Nat) (ob : Obj), s.heap[p]? = some ob → L p → BodyRefs x s ob.body
  canA : ∀ rg q, resolve s.heap 0 (refsComps x.o) = some rg → LinkAt s.heap rg p!"a" q → ∃ ob, s.heap[q]? = some ob ∧ isCanon ob = .ok true
  can : ∀ c, s.canon = some c → ∃ rg, s.refs = some rg ∧ LinkAt s.heap rg p!"a" c

theorem canon_not_group {ob : Obj} (h : isCanon ob = .ok true) (l : List (Str × Nat)) : ob.body ≠ .group l := by
  intro hb
  unfold isCanon at h
  rw [hb] at h
  cases h

theorem RI.change {x : Ctx} {L : Nat → Prop} {s s' : St} (hR : RI x L s) (hi : Inv x s') (ht : Tree s'.heap) (hrefs : s'.refs = s.refs) (hcan : s'.canon = s.canon)
    (hk : KeepRefs x s s')
    (hA : ∀ rg q, resolve s'.heap 0 (refsComps x.o) = some rg → LinkAt s'.heap rg p!"a" q → ∃ ob, s'.heap[q]? = some ob ∧ isCanon ob = .ok true)
    (hv : ∀ (p : Nat) (ob : Obj), s'.heap[p]? = some ob → L p → BodyRefs x s ob.body) : RI x L s' where
  inv := hi
  tree := ht
  vals := fun p ob h1 h2 a f r h3 h4 h5 => hk.to (hv p ob h1 h2 a f r h3 h4 h5)
  canA := hA
  can := by
    intro c hc
    rw [hcan] at hc
    obtain ⟨rg, h1, h2⟩ := hR.can c hc
    exact ⟨rg, hrefs.trans h1, (hk rg _ c (hR.inv.refs rg h1).1 h2).2⟩

/-- Creating an object. -/
theorem RI.create {x : Ctx} {L : Nat → Prop} {s : St} {g : Nat} {name : Str} {o : Obj} {A D} (hR : RI x L s)
    (st : Step x A D s { s with heap := createHeap s.heap g name o }) (hD : ¬ D 0)
    (hg : isGroup s.heap g = true) (hn : aget (linksOf s.heap g) name = none) (ho : objLinks o = []) (hb : BodyRefs x s o.body)
    (hc : resolve s.heap 0 (refsComps x.o) = some g → name = p!"a" → isCanon o = .ok true) :
    RI x L { s with heap := createHeap s.heap g name o } ∧ KeepRefs x s { s with heap := createHeap s.heap g name o } := by
  have hk : KeepRefs x s { s with heap := createHeap s.heap g name o } := by
    intro rg nm q h1 h2
    exact ⟨resolve_create_mono _ _ _ _ hg hn ho _ _ _ h1, (linkAt_createHeap _ _ _ _ hg hn ho _ _ _).mpr (Or.inl h2)⟩
  refine ⟨hR.change st.inv (tree_step hR.tree st hD) rfl rfl hk ?_ ?_, hk⟩
  · intro rg q h1 h2
    rcases (linkAt_createHeap _ _ _ _ hg hn ho _ _ _).mp h2 with h3 | ⟨rfl, h4, rfl⟩
    · have hr := st.fr.resolve_old _ (plainComps x) rg h1 (linkAt_lt h3)
      obtain ⟨ob, h5, h6⟩ := hR.canA rg q hr h3
      refine ⟨ob, ?_, h6⟩
      show (createHeap _ _ _ _)[q]? = _
      rw [getElem?_createHeap, if_neg (by have := hR.inv.wf _ _ _ h3; omega), if_neg ?_]
      · exact h5
      · rintro rfl
        obtain ⟨at', l, h7⟩ := isGroup_get hg
        rw [h7] at h5; cases h5
        exact canon_not_group h6 l rfl
    · have hr := st.fr.resolve_old _ (plainComps x) rg h1 (isGroup_lt hg)
      refine ⟨o, ?_, hc hr h4.symm⟩
      show (createHeap _ _ _ _)[_]? = _
      rw [getElem?_createHeap, if_pos rfl]
  · intro p ob h1 h2
    change (createHeap _ _ _ _)[p]? = _ at h1
    rw [getElem?_createHeap] at h1
    split at h1
    · cases h1; exact hb
    · split at h1
      · obtain ⟨at', l, h7⟩ := isGroup_get hg
        rw [h7] at h1
        cases h1
        intro a f r h; cases h
      · exact hR.vals p ob h1 h2

/-- Changing an object that is not the canonical empty, but not its links. -/
theorem RI.update {x : Ctx} {L : Nat → Prop} {s : St} {p : Nat} {f : Obj → Obj} {A D} (hR : RI x L s)
    (st : Step x A D s { s with heap := s.heap.update p f }) (hD : ¬ D 0) (hf : ∀ ob, s.heap[p]? = some ob → objLinks (f ob) = objLinks ob)
    (hb : ∀ ob, s.heap[p]? = some ob → L p → BodyRefs x s (f ob).body) (hn : NotA x s p) :
    RI x L { s with heap := s.heap.update p f } ∧ KeepRefs x s { s with heap := s.heap.update p f } := by
  have hl : ∀ q, linksOf (s.heap.update p f) q = linksOf s.heap q := by
    intro q
    by_cases hq : q = p
    · subst hq
      rw [linksOf_obj, linksOf_obj, getElem?_update, if_pos rfl]
      cases ho : s.heap[q]? with
      | none => rfl
      | some ob => exact hf ob ho
    · exact linksOf_update_ne _ _ _ _ hq
  have hres : ∀ l g, resolve (s.heap.update p f) g l = resolve s.heap g l := by
    intro l
    induction l with
    | nil => intro g; rfl
    | cons c l ih =>
      intro g
      simp only [resolve, hlook, hl]
      split
      · exact ih _
      · rfl
  have hk : KeepRefs x s { s with heap := s.heap.update p f } := by
    intro rg nm q h1 h2
    refine ⟨by rw [hres]; exact h1, ?_⟩
    unfold LinkAt; rw [hl]; exact h2
  refine ⟨hR.change st.inv (tree_step hR.tree st hD) rfl rfl hk ?_ ?_, hk⟩
  · intro rg q h1 h2
    rw [hres] at h1
    unfold LinkAt at h2
    rw [hl] at h2
    obtain ⟨ob, h5, h6⟩ := hR.canA rg q h1 h2
    refine ⟨ob, ?_, h6⟩
    show (s.heap.update p f)[q]? = _
    rw [getElem?_update, if_neg ?_]
    · exact h5
    · rintro rfl
      exact hn rg h1 h2
  · intro q ob h1 h2
    change (s.heap.update p f)[q]? = _ at h1
    rw [getElem?_update] at h1
    split at h1
    · rename_i hq
      cases ho : s.heap[p]? with
      | none => rw [ho] at h1; cases h1
      | some ob0 =>
        rw [ho] at h1
        cases h1
        exact hb ob0 ho (hq ▸ h2)
    · exact hR.vals q ob h1 h2

theorem resolve_keep {h h' : Heap} {cs : List Str} (hp : PlainNames cs)
    (hl : ∀ pre k p, (pre ++ [k]) <+: cs → resolve h 0 pre = some p → aget (linksOf h' p) k = aget (linksOf h p) k) (p : Nat)
    (hr : resolve h 0 cs = some p) : resolve h' 0 cs = some p := by
  have key : ∀ n (pre : List Str) p, pre.length = n → pre <+: cs → resolve h 0 pre = some p → resolve h' 0 pre = some p := by
    intro n
    induction n with
    | zero =>
      intro pre p hn _ hr
      have : pre = [] := List.length_eq_zero_iff.mp hn
      subst this; exact hr
    | succ n ih =>
      intro pre p hn hpre hr
      rcases snoc_cases pre with rfl | ⟨l, c, rfl⟩
      · simp at hn
      have hc : c ≠ [dot] := hp c (hpre.subset (by simp))
      obtain ⟨q, hq, hlk⟩ := (resolve_snoc _ _ _ _ hc _).mp hr
      refine (resolve_snoc _ _ _ _ hc _).mpr ⟨q, ih l q (by simp at hn; exact hn) (prefix_of_snoc hpre) hq, ?_⟩
      unfold LinkAt
      rw [hl l c q hpre hq]
      exact hlk
  exact key _ cs p rfl (List.prefix_refl _) hr

/-- Removing links that do not matter for the references Group. -/
theorem RI.filter {x : Ctx} {L : Nat → Prop} {s : St} {g : Nat} {keep : Str → Bool} {A D} (hR : RI x L s)
    (st : Step x A D s { s with heap := s.heap.update g (Obj.mapLinks fun l => l.filter fun p => keep p.1) }) (hD : ¬ D 0)
    (hoff : ∀ k, keep k = false → OffPath x s g k) (hng : ∀ k q, keep k = false → LinkAt s.heap g k q → resolve s.heap 0 (refsComps x.o) ≠ some g) :
    RI x L { s with heap := s.heap.update g (Obj.mapLinks fun l => l.filter fun p => keep p.1) } ∧
      KeepRefs x s { s with heap := s.heap.update g (Obj.mapLinks fun l => l.filter fun p => keep p.1) } := by
  have hl : ∀ p k, keep k = true ∨ p ≠ g → aget (linksOf (s.heap.update g (Obj.mapLinks fun l => l.filter fun p => keep p.1)) p) k = aget (linksOf s.heap p) k := by
    intro p k hh
    by_cases hp : p = g
    · subst hp
      have hkk : keep k = true := by
        rcases hh with h | h
        · exact h
        · exact absurd rfl h
      cases hgg : isGroup s.heap p with
      | true =>
        rw [linksOf_update_map _ _ _ hgg, aget_filter (q := fun k => keep k), if_pos hkk]
      | false =>
        have h0 : ∀ f, linksOf (s.heap.update p (Obj.mapLinks f)) p = linksOf s.heap p := by
          intro f
          rw [linksOf_obj, linksOf_obj, getElem?_update, if_pos rfl]
          cases ho : s.heap[p]? with
          | none => rfl
          | some ob =>
            obtain ⟨at', bo⟩ := ob
            cases bo with
            | group l => unfold isGroup at hgg; rw [ho] at hgg; cases hgg
            | dset a f => rfl
        rw [h0]
    · rw [linksOf_update_ne _ _ _ _ hp]
  have hk : KeepRefs x s { s with heap := s.heap.update g (Obj.mapLinks fun l => l.filter fun p => keep p.1) } := by
    intro rg nm q h1 h2
    refine ⟨resolve_keep (plainComps x) ?_ rg h1, ?_⟩
    · intro pre k p h3 h4
      refine hl p k ?_
      cases hkk : keep k with
      | true => exact Or.inl rfl
      | false =>
        refine Or.inr ?_
        rintro rfl
        exact hoff k hkk pre h3 h4
    · show aget _ _ = _
      rw [hl rg nm ?_]
      · exact h2
      · cases hkk : keep nm with
        | true => exact Or.inl rfl
        | false =>
          refine Or.inr ?_
          rintro rfl
          exact hng nm q hkk h2 h1
  refine ⟨hR.change st.inv (tree_step hR.tree st hD) rfl rfl hk ?_ ?_, hk⟩
  · intro rg q h1 h2
    have hlt := hR.inv.wf
    have h3 : LinkAt s.heap rg p!"a" q := by
      have hql : q < s.heap.length := by
        have := st.inv.wf _ _ _ h2
        change q < (s.heap.update _ _).length at this
        rwa [length_update] at this
      exact st.fr.k1 _ _ _ h2 hql
    have hr := st.fr.resolve_old _ (plainComps x) rg h1 (linkAt_lt h3)
    obtain ⟨ob, h5, h6⟩ := hR.canA rg q hr h3
    refine ⟨ob, ?_, h6⟩
    show (s.heap.update _ _)[q]? = _
    rw [getElem?_update]
    split
    · rename_i hq
      subst hq
      rw [h5]
      obtain ⟨at', bo⟩ := ob
      cases bo with
      | group l => exact absurd rfl (canon_not_group h6 l)
      | dset a f => rfl
    · exact h5
  · intro p ob h1 h2
    change (s.heap.update _ _)[p]? = _ at h1
    rw [getElem?_update] at h1
    split at h1
    · rename_i hq
      cases ho : s.heap[g]? with
      | none => rw [ho] at h1; cases h1
      | some ob0 =>
        rw [ho] at h1
        cases h1
        obtain ⟨at', bo⟩ := ob0
        cases bo with
        | group l => intro a f r h; cases h
        | dset a f => exact hR.vals g _ ho (hq ▸ h2)
    · exact hR.vals p ob h1 h2

/-- Nothing but the bookkeeping changes. -/
theorem RI.meta {x : Ctx} {L : Nat → Prop} {s s' : St} (hR : RI x L s) (hi : Inv x s') (hh : s'.heap = s.heap) (hrefs : s'.refs = s.refs) (hcan : s'.canon = s.canon) :
    RI x L s' ∧ KeepRefs x s s' := by
  have hk : KeepRefs x s s' := by intro rg nm q h1 h2; rw [hh]; exact ⟨h1, h2⟩
  refine ⟨hR.change hi (by rw [hh]; exact hR.tree) hrefs hcan hk ?_ ?_, hk⟩
  · intro rg q h1 h2
    rw [hh] at h1 h2 ⊢
    exact hR.canA rg q h1 h2
  · intro p ob h1 h2
    rw [hh] at h1
    exact hR.vals p ob h1 h2

/-- Conditions on the place something is written to: if it is in the references Group it is unused and stays so. -/
structure Pl (x : Ctx) (B : Nat) (s : St) (g : Nat) (name : Str) : Prop where
  pre : Pre x s g name
  fresh : resolve s.heap 0 (refsComps x.o) = some g → Fresh s g name
  slot : Slot x B s g name

theorem Pl.keep {x : Ctx} {B : Nat} {s s1 : St} (st : Step x noA noD s s1) (hB : s1.rpos ≤ B) {g : Nat} {name : Str} (h : Pl x B s g name) : Pl x B s1 g name where
  pre := h.pre.keep st
  fresh := fun hr => Fresh.keep st h.pre h.slot hB (h.fresh (st.fr.resolve_old _ (plainComps x) g hr h.pre.glt))
  slot := h.slot.keep st.fr h.pre.glt

/-- What is at the place, and what is below, is not in the references Group. -/
theorem Pl.notIn {x : Ctx} {B : Nat} {s : St} {g : Nat} {name : Str} (h : Pl x B s g name) (ht : Tree s.heap) {q p : Nat} (hl : LinkAt s.heap g name q)
    (hr : LReach s.heap q p) {rg : Nat} (hrg : resolve s.heap 0 (refsComps x.o) = some rg) (nm : Str) : ¬ LinkAt s.heap rg nm p := by
  intro hlp
  rcases hr.cases_end with rfl | ⟨a, k, h1, h2⟩
  · obtain ⟨rfl, rfl⟩ := ht.uniq _ _ _ _ _ hl hlp
    exact h.fresh hrg _ hl
  · obtain ⟨rfl, rfl⟩ := ht.uniq _ _ _ _ _ h2 hlp
    exact h.pre.sep q hl a h1 ⟨_, List.prefix_refl _, hrg⟩

theorem Pl.notA {x : Ctx} {B : Nat} {s : St} {g : Nat} {name : Str} (h : Pl x B s g name) (ht : Tree s.heap) {q p : Nat} (hl : LinkAt s.heap g name q)
    (hr : LReach s.heap q p) : NotA x s p := fun _ hrg => h.notIn ht hl hr hrg _

theorem noD_zero : ¬ noD 0 := fun h => h

/-- Creating an object at the place. -/
theorem create_ri {x : Ctx} {L : Nat → Prop} {B : Nat} {s s' : St} {res : Res Nat} {g : Nat} {name : Str} {o : Obj} (hR : RI x L s) (hp : Pl x B s g name)
    (ho : objLinks o = []) (hb : BodyRefs x s o.body) (h : createObj g name o s = (res, s')) :
    RI x L s' ∧ KeepRefs x s s' ∧ ∀ p, res = .ok p → LinkAt s'.heap g name p := by
  obtain ⟨st, h1⟩ := create_at hp.pre o ho h
  rcases createObj_run g name o s with ⟨e, he⟩ | ⟨he, _, _, h3, _, h5⟩
  · rw [he] at h; cases h
    exact ⟨hR, .refl, fun p h => by cases h⟩
  · rw [he] at h; cases h
    obtain ⟨a, b⟩ := hR.create st noD_zero h3 h5 ho hb (fun hr hn => absurd hn (hp.slot hr).2.1)
    exact ⟨a, b, fun p hpp => (h1 p hpp).2.2.2.2.2.1⟩

/-- Unlinking at the place. -/
theorem unlink_ri {x : Ctx} {L : Nat → Prop} {B : Nat} {s s' : St} {res : Res Unit} {g : Nat} {name : Str} (hR : RI x L s) (hp : Pl x B s g name)
    (h : unlink g name s = (res, s')) : RI x L s' ∧ KeepRefs x s s' ∧ Pl x B s' g name := by
  have st := unlink_at hp.pre h
  rcases unlink_run g name s with ⟨e, he⟩ | ⟨he, hd, q, hl⟩
  · rw [he] at h; cases h
    exact ⟨hR, .refl, hp⟩
  · rw [he] at h; cases h
    have hne : resolve s.heap 0 (refsComps x.o) ≠ some g := fun hr => hp.fresh hr q hl
    obtain ⟨a, b⟩ := hR.filter (keep := fun k => !(k == name)) st noD_zero (by
      intro k hk
      have : k = name := by simpa using hk
      rw [this]; exact hp.pre.off) (fun _ _ _ _ => hne)
    have hres := fun hr => hne (st.fr.resolve_old _ (plainComps x) g hr hp.pre.glt)
    exact ⟨a, b, hp.pre.keep st, fun hr => absurd hr hres, fun hr => absurd hr hres⟩

/-- Replacing what is at the place. -/
theorem replace_ri {x : Ctx} {L : Nat → Prop} {B : Nat} {s s' : St} {res : Res Nat} {g : Nat} {name : Str} {o : Obj} (hR : RI x L s) (hp : Pl x B s g name)
    (ho : objLinks o = []) (hb : BodyRefs x s o.body) (h : (unlink g name >>= fun _ => createObj g name o) s = (res, s')) :
    RI x L s' ∧ KeepRefs x s s' ∧ ∀ p, res = .ok p → LinkAt s'.heap g name p := by
  rcases bind_run (unlink g name) (fun _ => createObj g name o) s with ⟨a, s1, e1, e2⟩ | ⟨e, s1, e1, e2⟩
  · have h' := e2.symm.trans h
    obtain ⟨h1, h2, h3⟩ := unlink_ri hR hp e1
    obtain ⟨h4, h5, h6⟩ := create_ri h1 h3 ho (fun a f r q1 q2 q3 => h2.to (hb a f r q1 q2 q3)) h'
    exact ⟨h4, h2.trans h5, h6⟩
  · have h' := e2.symm.trans h
    cases h'
    obtain ⟨h1, h2, h3⟩ := unlink_ri hR hp e1
    exact ⟨h1, h2, fun p h => by cases h⟩

end HS
