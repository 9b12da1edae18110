import Verif.Lemmas.FileWrite
import Verif.Lemmas.Pres
import Verif.Lemmas.Collection
/-
Small facts about the `File` methods.
-/
namespace HS
open Spec

theorem all2_left {α β : Type} {R : α → β → Prop} {l : List α} {r : List β} (hr : All2 R l r) : ∀ a ∈ l, ∃ b, b ∈ r ∧ R a b := by
  induction hr with
  | nil => intro b hb; cases hb
  | cons h1 _ ih =>
    intro b hb
    rcases List.mem_cons.mp hb with rfl | hb
    · exact ⟨_, by simp, h1⟩
    · obtain ⟨a, h2, h3⟩ := ih b hb
      exact ⟨a, by simp [h2], h3⟩

theorem lpath_nil {h : Heap} {q : Nat} (hq : LPath h [] q) : q = 0 := by
  generalize hl : ([] : List Str) = l at hq
  cases hq with
  | root => rfl
  | snoc a b => simp at hl

theorem lpath_snoc {h : Heap} {l : List Str} {k : Str} {q : Nat} (hq : LPath h (l ++ [k]) q) : ∃ p, LPath h l p ∧ LinkAt h p k q := by
  generalize hl : l ++ [k] = m at hq
  cases hq with
  | root => simp at hl
  | snoc a b =>
    have h1 := List.append_inj' hl rfl
    obtain ⟨rfl, h2⟩ := h1
    cases h2
    exact ⟨_, a, b⟩

theorem check_addr {refs : Str} {p : PathArg} {gt : Str × Str} (h : checkPath refs p = .ok gt) : processPath p = .ok gt := by
  unfold checkPath at h
  cases hp : processPath p with
  | error e => rw [hp] at h; cases h
  | ok gt' =>
    rw [hp] at h
    simp only [bind, Except.bind] at h
    split at h
    · cases h
    · exact h

theorem bad_check {o : COpts} (hr : RefsPathOk o) {p : PathArg} (h : BadPath o p) : ∃ e, checkPath o.refsPath p = .error e := by
  cases hc : checkPath o.refsPath p with
  | error e => exact ⟨e, rfl⟩
  | ok gt =>
    obtain ⟨g, t⟩ := gt
    have hp := check_addr hc
    exfalso
    rcases h with h | ⟨ns, h1, h2⟩
    · exact h _ ⟨g, t, hp, rfl⟩
    · have := addr_unique h1 ⟨g, t, hp, rfl⟩
      subst this
      rw [C07_inside_rejected _ hr.abs hr.notRoot p g t hp h2] at hc
      cases hc

theorem good_check {o : COpts} (hr : RefsPathOk o) {p : PathArg} (h : GoodPath o p) : ∃ gt, checkPath o.refsPath p = .ok gt := by
  obtain ⟨ns, ⟨g, t, h1, rfl⟩, h2⟩ := h
  rcases checkPath_iff o.refsPath hr.abs p g t h1 with ⟨_, y, h3, h4⟩ | ⟨h3, _⟩
  · exact absurd h3 (h2 y h4)
  · exact ⟨_, h3⟩

theorem checkItems_bad {refs : Str} {l : List (PathArg × Val)} {pv : PathArg × Val} (hm : pv ∈ l) {e : Exc} (he : checkPath refs pv.1 = .error e) :
    ∃ e', checkItems refs l = .error e' := by
  cases hc : checkItems refs l with
  | error e => exact ⟨e, rfl⟩
  | ok tw =>
    exfalso
    obtain ⟨gv, _, h2, _⟩ := all2_left (checkItems_mem hc) pv hm
    rw [he] at h2; cases h2

theorem checkPaths_iff {refs : Str} {l : List PathArg} {tr : List (Str × Str)} : checkPaths refs l = .ok tr ↔ All2 (fun p gt => checkPath refs p = .ok gt) l tr := by
  induction l generalizing tr with
  | nil => constructor
           · intro h; cases h; exact .nil
           · intro h; cases h; rfl
  | cons a l ih =>
    rw [checkPaths]
    constructor
    · intro h
      obtain ⟨gt, h1, h2⟩ := res_bind_ok.mp h
      obtain ⟨r, h3, h4⟩ := res_bind_ok.mp h2
      cases h4
      exact .cons h1 (ih.mp h3)
    · intro h
      cases h with
      | cons h1 h2 => exact res_bind_ok.mpr ⟨_, h1, res_bind_ok.mpr ⟨_, ih.mpr h2, rfl⟩⟩

theorem checkPaths_bad {refs : Str} {l : List PathArg} {p : PathArg} (hm : p ∈ l) {e : Exc} (he : checkPath refs p = .error e) :
    ∃ e', checkPaths refs l = .error e' := by
  cases hc : checkPaths refs l with
  | error e => exact ⟨e, rfl⟩
  | ok tr =>
    exfalso
    obtain ⟨gt, _, h2⟩ := all2_left (checkPaths_iff.mp hc) p hm
    rw [he] at h2; cases h2

theorem checkPaths_good {refs : Str} {l : List PathArg} (h : ∀ p ∈ l, ∃ gt, checkPath refs p = .ok gt) : ∃ tr, checkPaths refs l = .ok tr := by
  induction l with
  | nil => exact ⟨_, rfl⟩
  | cons a l ih =>
    obtain ⟨gt, h1⟩ := h a (by simp)
    obtain ⟨tr, h2⟩ := ih fun p hp => h p (by simp [hp])
    exact ⟨gt :: tr, by rw [checkPaths, h1, h2]; rfl⟩

theorem checkItems_good {refs : Str} {l : List (PathArg × Val)} (h : ∀ p ∈ l, ∃ gt, checkPath refs p.1 = .ok gt) : ∃ tr, checkItems refs l = .ok tr := by
  induction l with
  | nil => exact ⟨_, rfl⟩
  | cons a l ih =>
    obtain ⟨gt, h1⟩ := h a (by simp)
    obtain ⟨tr, h2⟩ := ih fun p hp => h p (by simp [hp])
    obtain ⟨p, v⟩ := a
    exact ⟨(gt, v) :: tr, by rw [checkItems, h1, h2]; rfl⟩

theorem readMany_iff {x : Ctx} {n : Nat} {h : Heap} {l : List (Str × Str)} {vs : List Val} :
    readMany x n h l = .ok vs ↔ All2 (fun gt v => readOne x n h gt = .ok v) l vs := by
  induction l generalizing vs with
  | nil => constructor
           · intro h; cases h; exact .nil
           · intro h; cases h; rfl
  | cons a l ih =>
    rw [readMany]
    constructor
    · intro h
      obtain ⟨gt, h1, h2⟩ := res_bind_ok.mp h
      obtain ⟨r, h3, h4⟩ := res_bind_ok.mp h2
      cases h4
      exact .cons h1 (ih.mp h3)
    · intro h
      cases h with
      | cons h1 h2 => exact res_bind_ok.mpr ⟨_, h1, res_bind_ok.mpr ⟨_, ih.mpr h2, rfl⟩⟩

/-- One read. -/
theorem fileRead_eq {x : Ctx} {n : Nat} {p : PathArg} {F : FileS} : fileRead x n p F =
    match checkPath x.o.refsPath p with
    | .error e => .error e
    | .ok gt => if !F.isOpen then .error .osError else readOne x n F.st.heap gt := by
  unfold fileRead fileReads
  rw [checkPaths]
  cases hc : checkPath x.o.refsPath p with
  | error e => rfl
  | ok gt =>
    simp only [checkPaths, bind, Except.bind]
    cases F.isOpen with
    | false => rfl
    | true =>
      simp only [Bool.not_true, Bool.false_eq_true, if_false, readMany, bind, Except.bind]
      cases readOne x n F.st.heap gt <;> rfl

theorem fileRead_ok {x : Ctx} {n : Nat} {p : PathArg} {F : FileS} {v : Val} :
    fileRead x n p F = .ok v ↔ ∃ gt, checkPath x.o.refsPath p = .ok gt ∧ F.isOpen = true ∧ readOne x n F.st.heap gt = .ok v := by
  rw [fileRead_eq]
  constructor
  · intro h
    cases hc : checkPath x.o.refsPath p with
    | error e => rw [hc] at h; cases h
    | ok gt =>
      rw [hc] at h
      dsimp only at h
      split at h
      · cases h
      · rename_i ho
        exact ⟨gt, rfl, by simpa using ho, h⟩
  · rintro ⟨gt, h1, h2, h3⟩
    rw [h1, h2]; exact h3

/-- Names of what can be read can be encoded. -/
theorem read_nameOk {x : Ctx} {n : Nat} {p : PathArg} {F : FileS} {v : Val} {ns : List Str} (h : fileRead x n p F = .ok v) (ha : Addr p ns) :
    ns.all nameOk = true := by
  obtain ⟨⟨g, t⟩, h1, _, h3⟩ := fileRead_ok.mp h
  have hp := check_addr h1
  have := addr_unique ha ⟨g, t, hp, rfl⟩
  subst this
  unfold readOne at h3
  dsimp only at h3
  split at h3
  · rename_i hg
    cases hr : resolve F.st.heap 0 (commonComps g) with
    | none => rw [hr] at h3; cases h3
    | some q =>
      rw [hr] at h3
      dsimp only at h3
      split at h3
      · split at h3
        · rename_i ht
          rw [List.all_append]
          rcases processPath_names hp with ⟨h4, h5, h6⟩ | ⟨h4, h5, _⟩
          · rw [h5, h6]; rfl
          · rw [h4, Bool.and_eq_true]
            exact ⟨hg, by simpa using ht⟩
        · cases h3
      · cases h3
  · cases h3

/-- What can be read exists. -/
theorem read_exists {x : Ctx} {n : Nat} {p : PathArg} {F : FileS} {v : Val} {ns : List Str} (h : fileRead x n p F = .ok v) (ha : Addr p ns) :
    Exists F.st.heap ns := by
  obtain ⟨⟨g, t⟩, h1, _, h3⟩ := fileRead_ok.mp h
  have hp := check_addr h1
  have := addr_unique ha ⟨g, t, hp, rfl⟩
  subst this
  unfold readOne at h3
  dsimp only at h3
  split at h3
  · cases hr : resolve F.st.heap 0 (commonComps g) with
    | none => rw [hr] at h3; cases h3
    | some q =>
      rw [hr] at h3
      have hl := lpath_resolve (commonComps_plain g) hr
      dsimp only at h3
      split at h3
      · split at h3
        · cases hk : hlook F.st.heap q t with
          | none => rw [hk] at h3; cases h3
          | some r =>
            rcases processPath_names hp with ⟨h4, h5, h6⟩ | ⟨h4, h5, _⟩
            · rw [h5, h6]; exact ⟨0, .root⟩
            · rw [h4]
              rw [hlook_plain _ _ _ h5] at hk
              exact ⟨r, .snoc hl hk⟩
        · cases h3
      · cases h3
  · cases h3

theorem fileContains_eq {p : PathArg} {ns : List Str} {F : FileS} (ha : Addr p ns) (ho : F.isOpen = true) (hn : ns.all nameOk = true) :
    ∃ b, fileContains p F = .ok b ∧ (b = true ↔ Exists F.st.heap ns) := by
  obtain ⟨g, t, hp, rfl⟩ := ha
  have hpl : PlainNames (hdf5Names g ++ hdf5Names t) := addr_plain ⟨g, t, hp, rfl⟩
  unfold fileContains
  rw [hp]
  dsimp only
  cases hj : pJoin [g, t] with
  | error e => cases hj
  | ok j =>
    rw [ho]
    simp only [Bool.not_true, Bool.false_eq_true, if_false, bind, Except.bind]
    unfold h5Contains
    rw [joined_names hp hj, if_pos hn]
    refine ⟨_, rfl, ?_⟩
    constructor
    · intro h
      cases hr : resolve F.st.heap 0 (hdf5Names g ++ hdf5Names t) with
      | none => rw [hr] at h; cases h
      | some q => exact ⟨q, lpath_resolve hpl hr⟩
    · rintro ⟨q, hq⟩
      rw [resolve_lpath hpl hq]; rfl

theorem exists_root {h : Heap} {k : Str} : Exists h [k] ↔ k ∈ akeys (linksOf h 0) := by
  constructor
  · rintro ⟨q, hq⟩
    obtain ⟨p, h2, h3⟩ := lpath_snoc (l := []) hq
    rw [lpath_nil h2] at h3
    apply Decidable.byContradiction
    intro hn
    rw [LinkAt, aget_none_akeys.mpr hn] at h3
    cases h3
  · intro hk
    cases ha : aget (linksOf h 0) k with
    | none => exact absurd hk (aget_none_akeys.mp ha)
    | some q => exact ⟨q, .snoc (l := []) .root ha⟩

theorem sortStr_nodup {l : List Str} (h : l.Nodup) : (sortStr l).Nodup := (sortStr_perm l).nodup_iff.mpr h

theorem dropWhile_eq_filter {l : List Str} {r : Str} (hn : l.Nodup) (hs : ∀ k ∈ l, k ≠ r → l.head? ≠ some r → r ∉ l) :
    (l.dropWhile fun k => k == r) = l.filter fun k => k != r := by
  cases l with
  | nil => rfl
  | cons a l =>
    rw [List.dropWhile_cons, List.filter_cons]
    by_cases ha : a = r
    · subst ha
      simp only [BEq.rfl, if_true, bne_self_eq_false, Bool.false_eq_true, if_false]
      have hnr : a ∉ l := (List.nodup_cons.mp hn).1
      have : l.filter (fun k => k != a) = l := by
        rw [List.filter_eq_self]
        intro k hk
        have : k ≠ a := fun e => hnr (e ▸ hk)
        simpa using this
      rw [this]
      cases l with
      | nil => rfl
      | cons b l =>
        have : b ≠ a := fun e => hnr (by simp [e])
        rw [List.dropWhile_cons]
        simp [this]
    · have hb : (a == r) = false := by simpa using ha
      have hc : (a != r) = true := by simpa using ha
      rw [hb, hc]
      simp only [Bool.false_eq_true, if_false, if_true]
      have hnr := hs a (by simp) ha (by simpa using ha)
      congr 1
      symm
      rw [List.filter_eq_self]
      intro k hk
      have : k ≠ r := fun e => hnr (by simp [← e, hk])
      simpa using this

theorem pDirname_simple {r : Str} (hr : slash ∉ r) : pDirname (slash :: r) = [slash] := by
  have : ((slash :: r).reverse.dropWhile (· != slash)).reverse = [slash] := by
    rw [List.reverse_cons, List.dropWhile_append_of_pos]
    · rfl
    · intro c hc
      have : c ≠ slash := fun e => hr (by rw [← e]; simpa using hc)
      simpa using this
  unfold pDirname
  rw [this]; rfl

/-- Files and `File` objects after any history keep what the elementary changes keep. -/
theorem pres_ops {x : Ctx} {P : Heap → Prop} (E : Elem x.o P) {n : Nat} (ops : List Op) {F : FileS} (h : P F.st.heap) : P (fileOps x n ops F).2.st.heap := by
  induction ops generalizing F with
  | nil => exact h
  | cons op r ih =>
    show P (fileOps x n r (fileOp x n op F).2).2.st.heap
    apply ih
    cases op with
    | writes m => exact Pres.writes E h
    | write p v => exact Pres.writes E h
    | del p => exact Pres.del E h
    | flush => show P (fileFlush F).2.st.heap; unfold fileFlush; split <;> exact h
    | _ => exact h

/-- `del f[path]` with names that can be encoded: it succeeds or there is nothing. -/
theorem unlinkPath_full (cs pre : List Str) (g : Nat) (s : St) (ho : PlainNames (pre ++ cs)) (hn : cs.all nameOk = true) (hc : cs ≠ []) (hg : LPath s.heap pre g) :
    (unlinkPath g cs s = (.error .keyError, s) ∧ ∀ q, resolve s.heap g cs ≠ some q) ∨ ∃ gl t p q, pre ++ cs = gl ++ [t] ∧ LPath s.heap gl p ∧ LinkAt s.heap p t q ∧
      unlinkPath g cs s = (.ok (), { s with heap := s.heap.update p (Obj.mapLinks fun l => l.filter fun p => !(p.1 == t)) }) := by
  induction cs generalizing pre g with
  | nil => exact absurd rfl hc
  | cons c cs ih =>
    have hcd : c ≠ [dot] := ho c (by simp)
    have hcn : nameOk c = true := by simp only [List.all_cons, Bool.and_eq_true] at hn; exact hn.1
    have hcsn : cs.all nameOk = true := by simp only [List.all_cons, Bool.and_eq_true] at hn; exact hn.2
    have hgl : getLink g c s = (.ok (hlook s.heap g c), s) := by unfold getLink; rw [if_pos hcn]
    cases cs with
    | nil =>
      rw [unlinkPath]
      cases hl : aget (linksOf s.heap g) c with
      | none =>
        left
        refine ⟨?_, ?_⟩
        · unfold unlink
          rw [hlook_plain _ _ _ hcd, hl, hcn]
          simp
        · intro q hq
          rw [resolve, hlook_plain _ _ _ hcd, hl] at hq
          cases hq
      | some q =>
        right
        rcases unlink_run g c s with ⟨e, he⟩ | ⟨he, _⟩
        · exfalso
          unfold unlink at he
          rw [hlook_plain _ _ _ hcd, hl, hcn] at he
          simp [hcd] at he
        · exact ⟨pre, c, g, q, rfl, hg, hl, he⟩
    | cons c2 cs =>
      have hcs' : pre ++ c :: c2 :: cs = (pre ++ [c]) ++ (c2 :: cs) := by simp
      rw [unlinkPath]
      rotate_left
      · intro hh; cases hh
      rw [run_bind_ok hgl, hlook_plain _ _ _ hcd]
      cases hl : aget (linksOf s.heap g) c with
      | some g' =>
        rw [hcs'] at ho ⊢
        rcases ih (pre ++ [c]) g' ho hcsn (by simp) (.snoc hg hl) with ⟨h1, h2⟩ | h1
        · refine Or.inl ⟨h1, ?_⟩
          intro q hq
          rw [resolve, hlook_plain _ _ _ hcd, hl] at hq
          exact h2 q hq
        · exact Or.inr h1
      | none =>
        refine Or.inl ⟨rfl, ?_⟩
        intro q hq
        rw [resolve, hlook_plain _ _ _ hcd, hl] at hq
        cases hq

/-- The links after removing one. -/
theorem linkAt_removed {h : Heap} {p : Nat} {t : Str} {q : Nat} (hl : LinkAt h p t q) (a : Nat) (k : Str) (b : Nat) :
    LinkAt (h.update p (Obj.mapLinks fun l => l.filter fun p => !(p.1 == t))) a k b ↔ LinkAt h a k b ∧ ¬ (a = p ∧ k = t) := by
  unfold LinkAt at *
  rw [linksOf_update_mapLinks]
  by_cases ha : a = p
  · subst ha
    have hg : isGroup h a = true := linkAt_group hl
    rw [if_pos ⟨rfl, hg⟩, aget_filter (linksOf h a) (fun k => !(k == t)) k]
    by_cases hk : k = t
    · subst hk; simp
    · simp [hk]
  · rw [if_neg (fun h => ha h.1)]
    simp [ha]

/-- Names lead to one object. -/
theorem lpath_fun {h : Heap} {l : List Str} {p q : Nat} (h1 : LPath h l p) (h2 : LPath h l q) : p = q := by
  induction h1 generalizing q with
  | root => exact (lpath_nil h2).symm
  | snoc _ hl ih =>
    obtain ⟨p', h3, h4⟩ := lpath_snoc h2
    rw [← ih h3] at h4
    unfold LinkAt at *
    rw [hl] at h4; cases h4; rfl

/-- The places after removing one link. -/
theorem lpath_removed {h : Heap} (ht : Tree h) {gl : List Str} {p : Nat} {t : Str} {q : Nat} (hg : LPath h gl p) (hl : LinkAt h p t q) (ms : List Str) (r : Nat) :
    LPath (h.update p (Obj.mapLinks fun l => l.filter fun p => !(p.1 == t))) ms r ↔ LPath h ms r ∧ ¬ (gl ++ [t]) <+: ms := by
  constructor
  · intro hr
    induction hr with
    | root => exact ⟨.root, by simp⟩
    | snoc _ h2 ih =>
      rename_i l a b k _
      obtain ⟨h3, h4⟩ := (linkAt_removed hl _ _ _).mp h2
      refine ⟨.snoc ih.1 h3, ?_⟩
      intro hp
      rcases List.prefix_concat_iff.mp hp with h5 | h5
      · have := List.append_inj' h5 rfl
        obtain ⟨h6, h7⟩ := this
        cases h7
        subst h6
        apply h4
        refine ⟨?_, rfl⟩
        exact lpath_fun ih.1 hg
      · exact ih.2 h5
  · rintro ⟨h1, h2⟩
    induction h1 with
    | root => exact .root
    | snoc h3 h4 ih =>
      rename_i l a b k
      refine .snoc (ih fun h => h2 (h.trans (List.prefix_append _ _))) ((linkAt_removed hl _ _ _).mpr ⟨h4, ?_⟩)
      rintro ⟨rfl, rfl⟩
      apply h2
      rw [h3.unique ht hg]
      exact List.prefix_refl _

/-- A references Group with two or more names is not directly in the root Group. -/
theorem pDirname_nested {r : Str} (h : 2 ≤ (hdf5Names r).length) : pDirname r ≠ [slash] := by
  intro he
  have key : ((r.reverse.dropWhile (· != slash)).reverse) = [slash] := by
    unfold pDirname at he
    dsimp only at he
    split at he
    · exact he
    · rename_i hs
      exfalso
      apply hs
      generalize ((r.reverse.dropWhile (· != slash)).reverse) = z at he
      unfold rstripSlash at he
      have h1 : z.reverse.dropWhile (· == slash) = [slash] := by
        have := congrArg List.reverse he
        simpa using this
      have h2 : ∀ c l, z.reverse.dropWhile (· == slash) = c :: l → (c == slash) = false := by
        intro c l hcl
        have := List.head_dropWhile_not (p := (· == slash)) (l := z.reverse) (by rw [hcl]; simp)
        simpa [hcl] using this
      have := h2 _ _ h1
      simp at this
  have h3 : r.reverse = r.reverse.takeWhile (· != slash) ++ r.reverse.dropWhile (· != slash) := List.takeWhile_append_dropWhile.symm
  have h4 : r.reverse.dropWhile (· != slash) = [slash] := by
    have := congrArg List.reverse key
    simpa using this
  rw [h4] at h3
  have h5 : r = slash :: (r.reverse.takeWhile (· != slash)).reverse := by
    have := congrArg List.reverse h3
    simpa using this
  have h6 : slash ∉ (r.reverse.takeWhile (· != slash)).reverse := by
    intro hm
    rw [List.mem_reverse] at hm
    have : ∀ l : Str, ∀ c ∈ l.takeWhile (· != slash), c ≠ slash := by
      intro l
      induction l with
      | nil => simp
      | cons a l ih =>
        intro c hc
        rw [List.takeWhile_cons] at hc
        split at hc
        · rename_i ha
          rcases List.mem_cons.mp hc with rfl | hc
          · simpa using ha
          · exact ih c hc
        · cases hc
    exact this _ _ hm rfl
  generalize (r.reverse.takeWhile (· != slash)).reverse = t at h5 h6
  subst h5
  have h7 : splitSlash (slash :: t) = [[], t] := by
    rw [splitSlash_cons_slash, splitSlash_free t h6]
  unfold hdf5Names at h
  rw [h7] at h
  simp only [ne_eq, List.filter_cons] at h
  simp at h
  split at h <;> simp at h

theorem reach_writable {x : Ctx} {F : FileS} (h : Reach x F) : F.writable = true := by
  induction h with
  | opened => rfl
  | wrote n m _ _ ih =>
    unfold fileWrites
    split
    · exact ih
    · split
      · exact ih
      · split
        · exact ih
        · unfold runFile; split <;> exact ih
  | deleted p _ _ ih =>
    unfold fileDel
    split
    · exact ih
    · split
      · exact ih
      · split
        · exact ih
        · split
          · exact ih
          · unfold runFile; split <;> exact ih
  | closed _ ih => exact ih
  | flushed _ ih => unfold fileFlush; split <;> exact ih

/-- Nothing changes in a closed file. -/
theorem closed_same {x : Ctx} {n : Nat} {G : FileS} (hc : G.isOpen = false) (op : Op) : (fileOp x n op G).2 = G := by
  have hw : ∀ m, (fileWrites x n m G).2 = G := by
    intro m
    unfold fileWrites
    split
    · rfl
    · split
      · rfl
      · rw [hc]; rfl
  cases op with
  | writes m => exact hw m
  | write p v => exact hw _
  | del p =>
    show (fileDel p G).2 = G
    unfold fileDel
    split
    · rfl
    · split
      · rfl
      · rw [hc]; rfl
  | close =>
    show (fileClose G).2 = G
    unfold fileClose
    cases G
    simp only at hc
    subst hc
    rfl
  | flush =>
    show (fileFlush G).2 = G
    unfold fileFlush
    rw [hc]; rfl
  | _ => rfl

/-- Wrapping keeps exceptions. -/
theorem outOf_error {α : Type} {f : α → Out} {r : Res α} {e : Exc} (h : r = .error e) : outOf f r = .error e := by rw [h]; rfl

theorem closed_writes {x : Ctx} {n : Nat} {G : FileS} (hc : G.isOpen = false) (m : List (PathArg × Val)) : ∃ e, (fileWrites x n m G).1 = .error e := by
  unfold fileWrites
  split
  · exact ⟨_, rfl⟩
  · split
    · exact ⟨_, rfl⟩
    · rw [hc]; exact ⟨_, rfl⟩

theorem closed_reads {x : Ctx} {n : Nat} {G : FileS} (hc : G.isOpen = false) (l : List PathArg) : ∃ e, fileReads x n l G = .error e := by
  unfold fileReads
  split
  · exact ⟨_, rfl⟩
  · rw [hc]; exact ⟨_, rfl⟩

/-- Data operations on a closed file raise. -/
theorem closed_raises {x : Ctx} {n : Nat} {G : FileS} (hc : G.isOpen = false) (op : Op) (hd : OnData op) : ∃ e, some (fileOp x n op G).1 = some (.error e) := by
  have lift : ∀ {α : Type} (f : α → Out) (r : Res α), (∃ e, r = .error e) → ∃ e, some (outOf f r) = some (.error e) := by
    rintro α f r ⟨e, he⟩
    exact ⟨e, by rw [outOf_error he]⟩
  cases op with
  | writes m => exact lift _ _ (closed_writes hc m)
  | write p v => exact lift _ _ (closed_writes hc _)
  | reads l => exact lift _ _ (closed_reads hc l)
  | read p =>
    refine lift _ _ ?_
    obtain ⟨e, he⟩ := closed_reads (x := x) (n := n) hc [p]
    unfold fileRead
    rw [he]; exact ⟨e, rfl⟩
  | len => refine lift _ _ ?_; unfold fileLen; rw [hc]; exact ⟨_, rfl⟩
  | iter => refine lift _ _ ?_; unfold fileIter; rw [hc]; exact ⟨_, rfl⟩
  | flush => refine lift _ _ ?_; unfold fileFlush; rw [hc]; exact ⟨_, rfl⟩
  | del p =>
    refine lift _ _ ?_
    unfold fileDel
    split
    · exact ⟨_, rfl⟩
    · split
      · exact ⟨_, rfl⟩
      · rw [hc]; exact ⟨_, rfl⟩
  | _ => exact hd.elim

/-- With acceptable arguments they raise `OSError`. -/
theorem closed_os {x : Ctx} (hr : RefsPathOk x.o) {n : Nat} {G : FileS} (hc : G.isOpen = false) (op : Op) (hd : NeedsFile x.o op) :
    some (fileOp x n op G).1 = some (.error .osError) := by
  have hw : ∀ m, (∀ pv ∈ m, GoodPath x.o pv.1) → (fileWrites x n m G).1 = .error .osError := by
    intro m hm
    obtain ⟨tw, htw⟩ := checkItems_good fun pv h => good_check hr (hm pv h)
    unfold fileWrites
    split
    · rfl
    · rw [htw, hc]; rfl
  have hrd : ∀ l, (∀ p ∈ l, GoodPath x.o p) → fileReads x n l G = .error .osError := by
    intro m hm
    obtain ⟨tw, htw⟩ := checkPaths_good fun pv h => good_check hr (hm pv h)
    unfold fileReads
    rw [htw, hc]; rfl
  have lift : ∀ {α : Type} (f : α → Out) (r : Res α), r = .error .osError → some (outOf f r) = some (.error .osError) := by
    intro α f r he
    rw [outOf_error he]
  cases op with
  | writes m => exact lift _ _ (hw m hd)
  | write p v => exact lift _ _ (hw _ (by intro pv h; simp only [List.mem_singleton] at h; subst h; exact hd))
  | reads l => exact lift _ _ (hrd l hd)
  | read p =>
    refine lift _ _ ?_
    unfold fileRead
    rw [hrd [p] (by intro q h; simp only [List.mem_singleton] at h; subst h; exact hd)]; rfl
  | len => refine lift _ _ ?_; unfold fileLen; rw [hc]; rfl
  | iter => refine lift _ _ ?_; unfold fileIter; rw [hc]; rfl
  | flush => refine lift _ _ ?_; unfold fileFlush; rw [hc]; rfl
  | contains p =>
    refine lift _ _ ?_
    obtain ⟨ns, g, t, hgt, _⟩ := hd
    unfold fileContains
    rw [hgt, hc]; rfl
  | del p =>
    refine lift _ _ ?_
    obtain ⟨ns, g, t, hgt, _⟩ := hd
    unfold fileDel
    rw [hgt, hc]
    split <;> rfl
  | _ => exact hd.elim

/-- On a file opened read-only nothing changes. -/
theorem ro_op {x : Ctx} {n : Nat} {F : FileS} (h : F.ro = true) (op : Op) : (fileOp x n op F).2.st = F.st ∧ (fileOp x n op F).2.ro = true := by
  have hw : ∀ m, (fileWrites x n m F).2 = F := by
    intro m
    unfold fileWrites
    split
    · rfl
    · split
      · rfl
      · split
        · rfl
        · exact runFile_ro _ h
  cases op with
  | writes m => show (fileWrites x n m F).2.st = _ ∧ (fileWrites x n m F).2.ro = _; rw [hw]; exact ⟨rfl, h⟩
  | write p v => show (fileWrites x n _ F).2.st = _ ∧ (fileWrites x n _ F).2.ro = _; rw [hw]; exact ⟨rfl, h⟩
  | del p =>
    have : (fileDel p F).2 = F := by
      unfold fileDel
      split
      · rfl
      · split
        · rfl
        · split
          · rfl
          · split
            · rfl
            · exact runFile_ro _ h
    show (fileDel p F).2.st = _ ∧ (fileDel p F).2.ro = _
    rw [this]; exact ⟨rfl, h⟩
  | close => exact ⟨rfl, h⟩
  | flush =>
    show (fileFlush F).2.st = _ ∧ (fileFlush F).2.ro = _
    unfold fileFlush
    split <;> exact ⟨rfl, h⟩
  | _ => exact ⟨rfl, h⟩

end HS
