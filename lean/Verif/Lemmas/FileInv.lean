import Verif.Lemmas.RtAll
import Verif.Model.File
import Verif.Props.Path
/-
Files that are trees: every object has one path; places that are off the way to the references Group.
-/
namespace HS
open Spec

theorem Spec.LPath.unique {h : Heap} (ht : Tree h) {l1 l2 : List Str} {p : Nat} (h1 : LPath h l1 p) (h2 : LPath h l2 p) : l1 = l2 := by
  induction h1 generalizing l2 with
  | root =>
    cases h2 with
    | root => rfl
    | snoc _ hl => exact absurd hl (ht.noRoot _ _)
  | snoc a hl ih =>
    cases h2 with
    | root => exact absurd hl (ht.noRoot _ _)
    | snoc b hl2 =>
      obtain ⟨rfl, rfl⟩ := ht.uniq _ _ _ _ _ hl hl2
      rw [ih b]

theorem lpath_resolve {h : Heap} {l : List Str} (hp : PlainNames l) {p : Nat} (hr : resolve h 0 l = some p) : LPath h l p := by
  induction hn : l.length generalizing l p with
  | zero =>
    have : l = [] := List.length_eq_zero_iff.mp hn
    subst this
    simp only [resolve, Option.some.injEq] at hr
    subst hr; exact .root
  | succ n ih =>
    rcases snoc_cases l with rfl | ⟨m, c, rfl⟩
    · simp at hn
    obtain ⟨q, hq, hl⟩ := (resolve_snoc _ _ m c (hp c (by simp)) p).mp hr
    exact .snoc (ih (fun d hd => hp d (by simp [hd])) hq (by simp at hn; omega)) hl

theorem resolve_lpath {h : Heap} {l : List Str} (hp : PlainNames l) {p : Nat} (hr : LPath h l p) : resolve h 0 l = some p := by
  induction hr with
  | root => rfl
  | snoc a hl ih => exact (resolve_snoc _ _ _ _ (hp _ (by simp)) _).mpr ⟨_, ih (fun d hd => hp d (by simp [hd])), hl⟩

theorem Spec.LPath.reach {h : Heap} {l : List Str} {q p : Nat} (h1 : LPath h l q) (h2 : LReach h q p) : ∃ m, LPath h (l ++ m) p := by
  induction h2 with
  | refl => exact ⟨[], by simpa using h1⟩
  | step _ hl ih =>
    obtain ⟨m, hm⟩ := ih
    exact ⟨m ++ [_], by rw [← List.append_assoc]; exact .snoc hm hl⟩

/-- A place off the way to the references Group. -/
structure OffRefs (o : COpts) (l : List Str) : Prop where
  plain : PlainNames l
  ne : l ≠ []
  refs : refsComps o ≠ []
  head : l.head? ≠ (refsComps o).head?

theorem head_prefix {α : Type} {l r : List α} (h : l <+: r) (hl : l ≠ []) : l.head? = r.head? := by
  obtain ⟨t, rfl⟩ := h
  cases l with
  | nil => exact absurd rfl hl
  | cons a l => rfl

theorem head_append_ne {α : Type} {l r : List α} (hl : l ≠ []) : (l ++ r).head? = l.head? := by
  cases l with
  | nil => exact absurd rfl hl
  | cons a l => rfl

theorem tree_inv {x : Ctx} {h : Heap} (ht : Tree h) : Inv x (St.init h) where
  wf := ht.wf
  pos := isGroup_lt ht.root
  refs := fun r h => by cases h
  created := fun h => by cases h
  acyc := fun l1 l2 p h1 h2 r1 r2 =>
    (lpath_resolve (prefix_plain (plainComps x) h1) r1).unique ht (lpath_resolve (prefix_plain (plainComps x) h2) r2)
  below := by
    rintro r k q p hr hl hre ⟨pre, hp, hpr⟩
    obtain ⟨m, hm⟩ := (LPath.snoc (lpath_resolve (plainComps x) hr) hl).reach hre
    have := (lpath_resolve (prefix_plain (plainComps x) hp) hpr).unique ht hm
    have h2 := hp.length_le
    rw [this] at h2
    simp at h2
    omega
  ctr := Nat.le_refl _
  cnt := fun h => by cases h
  can := fun _ h => by cases h

theorem tree_step {x : Ctx} {A D} {s s' : St} (ht : Tree s.heap) (st : Step x A D s s') (hD : ¬ D 0) : Tree s'.heap where
  wf := st.inv.wf
  root := by
    obtain ⟨at', l, hg⟩ := isGroup_get ht.root
    obtain ⟨o', h1, _, h3⟩ := st.fr.obj 0 _ hg hD
    exact isGroup_of_kind hg h1 h3 ht.root
  noRoot := fun p k hl => ht.noRoot p k (st.fr.k1 p k 0 hl (isGroup_lt ht.root))
  uniq := by
    intro p1 k1 p2 k2 q h1 h2
    by_cases hq : q < s.heap.length
    · exact ht.uniq _ _ _ _ _ (st.fr.k1 _ _ _ h1 hq) (st.fr.k1 _ _ _ h2 hq)
    · exact st.fr.k2 q _ _ _ _ (by omega) h1 h2

theorem tgt_root {s : St} (ht : Tree s.heap) {g : Nat} {name : Str} : ¬ TgtD s g name 0 := by
  rintro ⟨q, hl, hr⟩
  rcases hr.cases_end with rfl | ⟨a, k, _, hl2⟩
  · exact ht.noRoot _ _ hl
  · exact ht.noRoot _ _ hl2

/-- Objects at such places are not on the way to the references Group. -/
theorem OffRefs.notOn {x : Ctx} {h : Heap} {l : List Str} (ho : OffRefs x.o l) (ht : Tree h) {p : Nat} (hp : LPath h l p) : ¬ OnRefsPath (refsComps x.o) h p := by
  rintro ⟨pre, h1, h2⟩
  have := (lpath_resolve (prefix_plain (plainComps x) h1) h2).unique ht hp
  subst this
  exact ho.head (head_prefix h1 ho.ne)

theorem OffRefs.append {o : COpts} {l m : List Str} (ho : OffRefs o l) (hm : PlainNames m) : OffRefs o (l ++ m) where
  plain := by
    intro c hc
    rcases List.mem_append.mp hc with h | h
    · exact ho.plain c h
    · exact hm c h
  ne := by simp [ho.ne]
  refs := ho.refs
  head := by rw [head_append_ne ho.ne]; exact ho.head

theorem OffRefs.prefix {o : COpts} {l m : List Str} (ho : OffRefs o l) (h : m <+: l) (hm : m ≠ []) : OffRefs o m where
  plain := prefix_plain ho.plain h
  ne := hm
  refs := ho.refs
  head := by rw [head_prefix h hm]; exact ho.head

/-- `l` continues to an off path whatever names follow (also names that are not plain). -/
theorem OffRefs.notOn_below {x : Ctx} {h : Heap} {l m : List Str} (ho : OffRefs x.o l) (ht : Tree h) {p : Nat} (hp : LPath h (l ++ m) p) :
    ¬ OnRefsPath (refsComps x.o) h p := by
  rintro ⟨pre, h1, h2⟩
  have := (lpath_resolve (prefix_plain (plainComps x) h1) h2).unique ht hp
  subst this
  apply ho.head
  rw [← head_prefix h1 (by simp [ho.ne]), head_append_ne ho.ne]

/-- The conditions for writing to a place off the way to the references Group. -/
theorem OffRefs.pre {x : Ctx} {s : St} (hi : Inv x s) (ht : Tree s.heap) {gl : List Str} {t : Str} (ho : OffRefs x.o (gl ++ [t])) {g : Nat}
    (hg : LPath s.heap gl g) (hlt : g < s.heap.length) : Pre x s g t where
  inv := hi
  glt := hlt
  nd := ho.plain t (by simp)
  off := by
    intro pre h1 h2
    have := (lpath_resolve (prefix_plain (plainComps x) (prefix_of_snoc h1)) h2).unique ht hg
    subst this
    exact ho.head (head_prefix h1 (by simp))
  res := by
    intro _ hr
    exfalso
    have := (lpath_resolve (plainComps x) (hi.refs g hr).1).unique ht hg
    exact ho.head (by rw [← this, head_append_ne ho.refs])
  sep := by
    intro q hl p hr
    obtain ⟨m, hm⟩ := (LPath.snoc hg hl).reach hr
    exact ho.notOn_below ht hm

/-- The Group is not the references Group. -/
theorem OffRefs.notRefs {x : Ctx} {h : Heap} (ht : Tree h) {gl : List Str} {t : Str} (ho : OffRefs x.o (gl ++ [t])) {g : Nat}
    (hg : LPath h gl g) : resolve h 0 (refsComps x.o) ≠ some g := by
  intro hr
  have := (lpath_resolve (plainComps x) hr).unique ht hg
  exact ho.head (by rw [← this, head_append_ne ho.refs])

/-- Links off the machinery that are not written to. -/
theorem Fr.link_user {x : Ctx} {A D} {s s' : St} (f : Fr x A D s s') (ht : Tree s.heap) {l : List Str} {k : Str} (ho : OffRefs x.o (l ++ [k])) {p : Nat}
    (hp : LPath s.heap l p) (hlt : p < s.heap.length) (hD : ¬ D p) (hA : ¬ A p k) : aget (linksOf s'.heap p) k = aget (linksOf s.heap p) k := by
  refine f.links p hlt hD k hA ?_
  rintro (⟨_, pre, c1, c2⟩ | c)
  · have := (lpath_resolve (prefix_plain (plainComps x) (prefix_of_snoc c1)) c2).unique ht hp
    subst this
    exact ho.head (head_prefix c1 (by simp))
  · exact ho.notRefs ht hp c.1

theorem lpath_lt {h : Heap} (ht : Tree h) {l : List Str} {p : Nat} (hp : LPath h l p) : p < h.length := by
  cases hp with
  | root => exact isGroup_lt ht.root
  | snoc _ hl => exact ht.wf _ _ _ hl

theorem prefix_snoc_of {α : Type} {l m : List α} {c : α} (h : l <+: m ++ [c]) : l = m ++ [c] ∨ l <+: m := by
  obtain ⟨t, ht⟩ := h
  rcases snoc_cases t with rfl | ⟨t', d, rfl⟩
  · exact Or.inl (by simpa using ht)
  · rw [← List.append_assoc] at ht
    exact Or.inr ⟨t', (List.append_inj' ht rfl).1⟩

/-- A path that the place written to is not on is the same afterwards. -/
theorem Fr.resolve_user {x : Ctx} {s s' : St} {g : Nat} {t : Str} {gl : List Str} (f : Fr x (oneA g t) (TgtD s g t) s s') (ht : Tree s.heap)
    (hg : LPath s.heap gl g) {l : List Str} (ho : l = [] ∨ OffRefs x.o l) (hn : ¬ (gl ++ [t]) <+: l) : resolve s'.heap 0 l = resolve s.heap 0 l := by
  induction hlen : l.length generalizing l with
  | zero =>
    have : l = [] := List.length_eq_zero_iff.mp hlen
    subst this; rfl
  | succ n ih =>
    rcases snoc_cases l with rfl | ⟨m, c, rfl⟩
    · simp at hlen
    have ho' : OffRefs x.o (m ++ [c]) := by
      rcases ho with h | h
      · simp at h
      · exact h
    have hm : m = [] ∨ OffRefs x.o m := by
      by_cases h : m = []
      · exact Or.inl h
      · exact Or.inr (ho'.prefix (List.prefix_append _ _) h)
    have hmn : ¬ (gl ++ [t]) <+: m := fun h => hn (h.trans (List.prefix_append _ _))
    have e := ih hm hmn (by simp at hlen; omega)
    rw [resolve_append, resolve_append, e]
    cases hq : resolve s.heap 0 m with
    | none => rfl
    | some p =>
      have hpl : PlainNames m := fun d hd => ho'.plain d (by simp [hd])
      have hpp := lpath_resolve hpl hq
      have hc := ho'.plain c (by simp)
      have : aget (linksOf s'.heap p) c = aget (linksOf s.heap p) c := by
        refine f.link_user ht ho' hpp (lpath_lt ht hpp) ?_ ?_
        · rintro ⟨q, hl, hr⟩
          obtain ⟨r, hr⟩ := (LPath.snoc hg hl).reach hr
          have := hpp.unique ht hr
          exact hmn ⟨r, this.symm⟩
        · rintro ⟨rfl, rfl⟩
          have := hpp.unique ht hg
          subst this
          exact hn (List.prefix_refl _)
      simp only [Option.bind_some, resolve, hlook_plain _ _ _ hc, this]

end HS
