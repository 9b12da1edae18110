import Verif.Model.Mapping
import Verif.Props.File
import Verif.Lemmas.Threads
/-
Lemmas for the methods `File` inherits.
-/
namespace HS
open Spec

/-- A place where nothing is raises `KeyError`. -/
theorem read_absent {x : Ctx} (hr : RefsPathOk x.o) {n : Nat} {p : PathArg} {F : FileS} {ns : List Str} (hg : GoodPath x.o p) (ha : Addr p ns) (ho : F.isOpen = true)
    (hok : ns.all nameOk = true) (hne : ¬ Exists F.st.heap ns) : fileRead x n p F = .error .keyError := by
  obtain ⟨⟨g, t⟩, hc⟩ := good_check hr hg
  have hp := check_addr hc
  have := addr_unique ha ⟨g, t, hp, rfl⟩
  subst this
  rw [fileRead_eq, hc, ho]
  show readOne x n F.st.heap (g, t) = _
  rw [List.all_append, Bool.and_eq_true] at hok
  rcases processPath_names hp with ⟨h4, h5, h6⟩ | ⟨h4, h5, _⟩
  · rw [h5, h6] at hne
    exact absurd ⟨0, .root⟩ hne
  rw [h4] at hne hok
  unfold readOne
  dsimp only
  rw [if_pos (show (commonComps g).all nameOk = true from hok.1)]
  cases hq : resolve F.st.heap 0 (commonComps g) with
  | none => rfl
  | some q =>
    dsimp only
    cases hG : isGroup F.st.heap q with
    | false => rfl
    | true =>
      have ht : nameOk t = true := by simpa using hok.2
      rw [if_pos rfl, if_pos ht, hlook_plain _ _ _ h5]
      cases hl : aget (linksOf F.st.heap q) t with
      | none => rfl
      | some r => exact absurd ⟨r, .snoc (lpath_resolve (commonComps_plain g) hq) hl⟩ hne

theorem dropWhile_nil {α : Type} {p : α → Bool} {l : List α} (h : l.dropWhile p = []) : ∀ a ∈ l, p a = true := by
  induction l with
  | nil => intro a ha; cases ha
  | cons b l ih =>
    cases hb : p b with
    | false => rw [List.dropWhile_cons, hb] at h; cases h
    | true =>
      rw [List.dropWhile_cons, hb] at h
      intro a ha
      rcases List.mem_cons.mp ha with rfl | ha
      · exact hb
      · exact ih h a ha

theorem dropWhile_head {α : Type} {p : α → Bool} {l l' : List α} {a : α} (h : l.dropWhile p = a :: l') : p a = false := by
  induction l with
  | nil => cases h
  | cons b l ih =>
    cases hb : p b with
    | false => rw [List.dropWhile_cons, hb] at h; cases h; exact hb
    | true => rw [List.dropWhile_cons, hb] at h; exact ih h

/-- The first name that is yielded, if the references Group is directly below the root. -/
theorem iter_first {x : Ctx} {r : Str} (hr : x.o.refsPath = slash :: r) (hrn : IsName r) {F : FileS} (ho : F.isOpen = true) :
    (fileIter x F = .ok [] ∧ ∀ k, Exists F.st.heap [k] → k = r) ∨ ∃ k l, fileIter x F = .ok (k :: l) ∧ Exists F.st.heap [k] ∧ k ≠ r := by
  have hmem : ∀ k, k ∈ sortStr (akeys (linksOf F.st.heap 0)) ↔ Exists F.st.heap [k] := fun k => by rw [(sortStr_perm _).mem_iff, exists_root]
  have hd1 : x.o.refsPath.drop 1 = r := by rw [hr]; rfl
  have hi : fileIter x F = .ok ((sortStr (akeys (linksOf F.st.heap 0))).dropWhile fun k => k == r) := by
    unfold fileIter
    rw [ho]
    simp only [Bool.not_true, Bool.false_eq_true, if_false]
    rw [if_pos (by rw [hr]; exact pDirname_simple hrn.2.1), hd1]
  rw [hi]
  cases hl : (sortStr (akeys (linksOf F.st.heap 0))).dropWhile fun k => k == r with
  | nil =>
    refine Or.inl ⟨rfl, fun k hk => ?_⟩
    have := dropWhile_nil hl k ((hmem k).mpr hk)
    exact eq_of_beq this
  | cons k l =>
    refine Or.inr ⟨k, l, rfl, ?_, ?_⟩
    · rw [← hmem]
      exact (List.dropWhile_suffix _).subset (by rw [hl]; simp)
    · have := dropWhile_head hl
      intro e
      rw [e] at this
      simp at this

/-- A name is the address of what has that name in the root Group. -/
theorem addr_name {k : Str} (h1 : IsName k) (h2 : k ≠ [dot, dot]) : Addr (.str k) [k] := by
  have hnk : names k = [k] := by
    unfold names
    rw [hdf5Names_name k h1]
    simp only [dotdot]
    rw [if_neg h2]; rfl
  rw [← hnk]
  obtain ⟨g, t, hgt⟩ : ∃ g t, processPath (.str k) = .ok (g, t) := ⟨_, _, C06_process_path_str k⟩
  exact ⟨g, t, hgt, (C06_denotes k g t hgt).2.2.2.symm⟩

theorem filter_less {α : Type} {p q : α → Bool} {l : List α} {a : α} (hm : a ∈ l) (hp : p a = true) (hq : q a = false) (hpq : ∀ b, q b = true → p b = true) :
    (l.filter q).length < (l.filter p).length := by
  have hle : ∀ l : List α, (l.filter q).length ≤ (l.filter p).length := by
    intro l
    induction l with
    | nil => simp
    | cons b l ih =>
      rw [List.filter_cons, List.filter_cons]
      cases hb : q b with
      | true => rw [hpq b hb]; simpa using ih
      | false =>
        simp only [Bool.false_eq_true, if_false]
        split
        · simp; omega
        · exact ih
  induction l with
  | nil => cases hm
  | cons b l ih =>
    rw [List.filter_cons, List.filter_cons]
    rcases List.mem_cons.mp hm with rfl | hm
    · rw [hp, hq]
      have := hle l
      simp; omega
    · have := ih hm
      cases hb : q b with
      | true => rw [hpq b hb]; simpa using this
      | false =>
        simp only [Bool.false_eq_true, if_false]
        split
        · simp; omega
        · exact this

theorem fileDel_same (p : PathArg) (F : FileS) : (fileDel p F).2.isOpen = F.isOpen ∧ (fileDel p F).2.writable = F.writable ∧ (fileDel p F).2.ro = F.ro := by
  unfold fileDel
  split
  · exact ⟨rfl, rfl, rfl⟩
  split
  · exact ⟨rfl, rfl, rfl⟩
  split
  · exact ⟨rfl, rfl, rfl⟩
  split
  · exact ⟨rfl, rfl, rfl⟩
  · have h := runFile_writable F (unlinkPath 0 (commonComps ‹Str›))
    exact ⟨h.2.1, h.1, h.2.2⟩

theorem fileWrites_same (x : Ctx) (n : Nat) (m : List (PathArg × Val)) (F : FileS) :
    (fileWrites x n m F).2.isOpen = F.isOpen ∧ (fileWrites x n m F).2.writable = F.writable ∧ (fileWrites x n m F).2.ro = F.ro := by
  unfold fileWrites
  split
  · exact ⟨rfl, rfl, rfl⟩
  split
  · exact ⟨rfl, rfl, rfl⟩
  split
  · exact ⟨rfl, rfl, rfl⟩
  · have h := runFile_writable F (writeMany x n ‹_›)
    exact ⟨h.2.1, h.1, h.2.2⟩

theorem lpath_pre {h : Heap} {l m : List Str} {q : Nat} (hq : LPath h (l ++ m) q) : ∃ p, LPath h l p := by
  induction m generalizing l with
  | nil => exact ⟨q, by simpa using hq⟩
  | cons k m ih =>
    obtain ⟨p, hp⟩ := ih (l := l ++ [k]) (by simpa using hq)
    obtain ⟨p', h1, _⟩ := lpath_snoc hp
    exact ⟨p', h1⟩

theorem refs_name {r : Str} (hrn : IsName r) : hdf5Names (slash :: r) = [r] := by
  rw [hdf5Names_cons_slash, hdf5Names_name r hrn]

theorem refs_one {o : COpts} {r : Str} (hr : o.refsPath = slash :: r) (hrn : IsName r) : RefsPathOk o :=
  ⟨by rw [hr]; rfl, by rw [hr, refs_name hrn]; simp⟩

theorem readNames_iff {x : Ctx} {n : Nat} {F : FileS} {ks : List Str} {l : List (Str × Val)} :
    readNames x n F ks = .ok l ↔ l.map (·.1) = ks ∧ ∀ kv ∈ l, fileRead x n (.str kv.1) F = .ok kv.2 := by
  induction ks generalizing l with
  | nil =>
    rw [readNames]
    constructor
    · intro h; cases h; simp
    · rintro ⟨h, _⟩
      cases l with
      | nil => rfl
      | cons a l => cases h
  | cons k ks ih =>
    rw [readNames]
    constructor
    · intro h
      obtain ⟨v, h1, h2⟩ := res_bind_ok.mp h
      obtain ⟨r, h3, h4⟩ := res_bind_ok.mp h2
      cases h4
      obtain ⟨h5, h6⟩ := ih.mp h3
      refine ⟨by simp [h5], ?_⟩
      intro kv hkv
      rcases List.mem_cons.mp hkv with rfl | hkv
      · exact h1
      · exact h6 kv hkv
    · rintro ⟨h1, h2⟩
      cases l with
      | nil => cases h1
      | cons a l =>
        obtain ⟨k', v⟩ := a
        simp only [List.map_cons, List.cons.injEq] at h1
        obtain ⟨rfl, h1⟩ := h1
        refine res_bind_ok.mpr ⟨v, h2 (k', v) (by simp), res_bind_ok.mpr ⟨l, ih.mpr ⟨h1, fun kv hkv => h2 kv (by simp [hkv])⟩, rfl⟩⟩

end HS
