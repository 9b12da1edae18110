import Verif.Lemmas.FileInv
/-
Making the Groups on the way to a place (`require_group`).
-/
namespace HS
open Spec

/-- Links made on the way along `full`. -/
def MkA (s : St) (full : List Str) (p : Nat) (k : Str) : Prop :=
  s.heap.length ≤ p ∨ ∃ pre, (pre ++ [k]) <+: full ∧ LPath s.heap pre p ∧ ∀ q, ¬ LinkAt s.heap p k q

theorem Fr.lpath_old {x : Ctx} {A D} {s s' : St} (f : Fr x A D s s') {l : List Str} {p : Nat} (h : LPath s'.heap l p) (hlt : p < s.heap.length) :
    LPath s.heap l p := by
  induction h with
  | root => exact .root
  | snoc a hl ih =>
    obtain ⟨h1, h2⟩ := f.link_old hl hlt
    exact .snoc (ih h1) h2

theorem MkA.old {x : Ctx} {A D} {s s1 : St} (f : Fr x A D s s1) (hm : ∀ p k q, LinkAt s.heap p k q → LinkAt s1.heap p k q) {full : List Str} {p : Nat} {k : Str}
    (h : MkA s1 full p k) : MkA s full p k := by
  by_cases hp : p < s.heap.length
  · rcases h with h | ⟨pre, h1, h2, h3⟩
    · have := f.len; omega
    · exact Or.inr ⟨pre, h1, f.lpath_old h2 hp, fun q hl => h3 q (hm _ _ _ hl)⟩
  · exact Or.inl (by omega)

theorem lpath_mono {h h' : Heap} (hm : ∀ p k q, LinkAt h p k q → LinkAt h' p k q) {l : List Str} {p : Nat} (hp : LPath h l p) : LPath h' l p := by
  induction hp with
  | root => exact .root
  | snoc _ hl ih => exact .snoc ih (hm _ _ _ hl)

/-- What making a path does. -/
structure MkPath (x : Ctx) (full : List Str) (s s' : St) (res : Res Nat) : Prop where
  step : Step x (MkA s full) noD s s'
  bk : SameBk s s'
  mono : ∀ p k q, LinkAt s.heap p k q → LinkAt s'.heap p k q
  ok : ∀ r, res = .ok r → LPath s'.heap full r ∧ isGroup s'.heap r = true ∧ linksOf s'.heap r = [] ∧ s.heap.length ≤ r
  only : ∀ l q, LPath s'.heap l q → LPath s.heap l q ∨ l <+: full

theorem MkPath.err {x : Ctx} {full : List Str} {s : St} (hi : Inv x s) (e : Exc) : MkPath x full s s (.error e) :=
  ⟨Step.refl hi, SameBk.refl _, fun _ _ _ h => h, (fun r h => by cases h), fun _ _ h => Or.inl h⟩

theorem lpath_created {h : Heap} (ht : Tree h) {pre : List Str} {g : Nat} {c : Str} {o : Obj} (hg : LPath h pre g) (h1 : isGroup h g = true)
    (h2 : aget (linksOf h g) c = none) (ho : objLinks o = []) {l : List Str} {q : Nat} (hl : LPath (createHeap h g c o) l q) : LPath h l q ∨ l = pre ++ [c] ∧ q = h.length := by
  induction hl with
  | root => exact Or.inl .root
  | snoc _ hk ih =>
    rcases (linkAt_createHeap _ _ _ _ h1 h2 ho _ _ _).mp hk with hk | ⟨rfl, rfl, rfl⟩
    · rcases ih with ih | ⟨_, rfl⟩
      · exact Or.inl (.snoc ih hk)
      · exact absurd (linkAt_lt hk) (Nat.lt_irrefl _)
    · rcases ih with ih | ⟨_, he⟩
      · exact Or.inr ⟨by rw [ih.unique ht hg], rfl⟩
      · exact absurd (isGroup_lt h1) (by rw [he]; exact Nat.lt_irrefl _)

theorem MkPath.cons {x : Ctx} {full : List Str} {s s1 s' : St} {res : Res Nat}
    (hl : s.heap.length ≤ s1.heap.length) (h2 : MkPath x full s1 s' res) (hm : ∀ p k q, LinkAt s.heap p k q → LinkAt s1.heap p k q)
    (st : Step x (MkA s full) noD s s1) (bk : SameBk s s1) (hon : ∀ l q, LPath s1.heap l q → LPath s.heap l q ∨ l <+: full) : MkPath x full s s' res where
  step := st.trans h2.step (fun _ _ h => h.old st.fr hm) (fun _ _ h => h)
  bk := bk.trans h2.bk
  mono := fun p k q h => h2.mono p k q (hm p k q h)
  ok := fun r hr => by
    obtain ⟨a, b, c, d⟩ := h2.ok r hr
    exact ⟨a, b, c, Nat.le_trans hl d⟩
  only := fun l q h => by
    rcases h2.only l q h with h | h
    · exact hon l q h
    · exact Or.inr h

theorem createGroup_user {x : Ctx} {s s' : St} (hi : Inv x s) (ht : Tree s.heap) {pre full : List Str} {g : Nat} {c : Str} {res : Res Nat}
    (ho : OffRefs x.o (pre ++ [c])) (hf : (pre ++ [c]) <+: full) (hg : LPath s.heap pre g) (h : createGroup g c s = (res, s')) :
    (s' = s ∧ ∃ e, res = .error e) ∨ (Step x (MkA s full) noD s s' ∧ SameBk s s' ∧ (∀ p k q, LinkAt s.heap p k q → LinkAt s'.heap p k q) ∧
      res = .ok s.heap.length ∧ LPath s'.heap (pre ++ [c]) s.heap.length ∧ isGroup s'.heap s.heap.length = true ∧ linksOf s'.heap s.heap.length = [] ∧
      ∀ l q, LPath s'.heap l q → LPath s.heap l q ∨ l <+: full) := by
  rcases createObj_run g c ⟨[], .group []⟩ s with ⟨e, he⟩ | ⟨he, _, _, h3, _, h5⟩
  · rw [createGroup, he] at h; cases h
    exact Or.inl ⟨rfl, _, rfl⟩
  · rw [createGroup, he] at h; cases h
    have hpre := ho.pre hi ht hg (lpath_lt ht hg)
    have hm : ∀ p k q, LinkAt s.heap p k q → LinkAt (createHeap s.heap g c ⟨[], .group []⟩) p k q :=
      fun p k q hl => (linkAt_createHeap _ _ _ _ h3 h5 rfl _ _ _).mpr (Or.inl hl)
    refine Or.inr ⟨?_, ⟨rfl, rfl, rfl, rfl, rfl⟩, hm, rfl, ?_, ?_, ?_, ?_⟩
    · refine (createObj_step hi g c _ rfl h3 h5 (fun _ => hpre.off) hpre.res).mono ?_ (fun _ h => h)
      rintro p k ⟨rfl, rfl⟩
      exact Or.inr ⟨pre, hf, hg, fun q hl => by rw [LinkAt, h5] at hl; cases hl⟩
    · exact .snoc (lpath_mono hm hg) ((linkAt_createHeap _ _ _ _ h3 h5 rfl _ _ _).mpr (Or.inr ⟨rfl, rfl, rfl⟩))
    · show isGroup (createHeap _ _ _ _) _ = true
      unfold isGroup; rw [getElem?_createHeap, if_pos rfl]
    · show linksOf (createHeap _ _ _ _) _ = []
      rw [linksOf_createHeap _ _ _ _ h3, if_pos rfl]; rfl
    · intro l q hl
      rcases lpath_created ht hg h3 h5 rfl hl with h | ⟨rfl, _⟩
      · exact Or.inl h
      · exact Or.inr hf

theorem createPath_user {x : Ctx} (cs pre : List Str) (g : Nat) (s s' : St) (res : Res Nat) (hi : Inv x s) (ht : Tree s.heap)
    (ho : OffRefs x.o (pre ++ cs)) (hg : LPath s.heap pre g) (h : createPath g cs s = (res, s')) : MkPath x (pre ++ cs) s s' res := by
  induction cs generalizing pre g s with
  | nil =>
    simp only [createPath, raise] at h
    cases h
    exact .err hi _
  | cons c cs ih =>
    have hf : (pre ++ [c]) <+: (pre ++ c :: cs) := ⟨cs, by simp⟩
    have hoc : OffRefs x.o (pre ++ [c]) := ho.prefix hf (by simp)
    have hcd : c ≠ [dot] := ho.plain c (by simp)
    cases cs with
    | nil =>
      rw [createPath] at h
      rcases createGroup_user hi ht hoc hf hg h with ⟨rfl, e, rfl⟩ | ⟨h1, h2, h3, rfl, h5, h6, h7, h8⟩
      · exact .err hi _
      · exact ⟨h1, h2, h3, fun r hr => by cases hr; exact ⟨h5, h6, h7, Nat.le_refl _⟩, h8⟩
    | cons c2 cs =>
      have hcs' : pre ++ c :: c2 :: cs = (pre ++ [c]) ++ (c2 :: cs) := by simp
      rw [createPath] at h
      rotate_left
      · intro hh; cases hh
      rcases getLink_run g c s with hh | ⟨e, hh⟩
      · rw [run_bind_ok hh, hlook_plain _ _ _ hcd] at h
        cases hl : aget (linksOf s.heap g) c with
        | some g' =>
          rw [hl] at h
          rw [hcs'] at ho ⊢
          exact ih (pre ++ [c]) g' s hi ht ho (.snoc hg hl) h
        | none =>
          rw [hl] at h
          dsimp only at h
          rcases bind_run (createGroup g c) (fun a => createPath a (c2 :: cs)) s with ⟨a, s2, e3, e4⟩ | ⟨e, s2, e3, e4⟩
          · have h' : createPath a (c2 :: cs) s2 = (res, s') := e4.symm.trans h
            rcases createGroup_user hi ht hoc hf hg e3 with ⟨_, e, h1⟩ | ⟨h1, h2, h3, h4, h5, h6, h7, h8⟩
            · cases h1
            · cases h4
              rw [hcs'] at ho ⊢ h1 h8
              have i := ih (pre ++ [c]) _ s2 h1.inv (tree_step ht h1 (fun h => h)) ho h5 h'
              exact MkPath.cons h1.fr.len i h3 h1 h2 h8
          · have h' : ((Except.error e : Res Nat), s2) = (res, s') := e4.symm.trans h
            rcases createGroup_user hi ht hoc hf hg e3 with ⟨h0, e, h1⟩ | ⟨h1, h2, h3, h4, h5, h6, h7, h8⟩
            · subst h0
              cases h'
              exact .err hi _
            · cases h4
      · rw [run_bind_err hh] at h; cases h
        exact .err hi _

end HS
