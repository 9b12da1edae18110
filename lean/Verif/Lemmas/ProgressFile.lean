import Verif.Lemmas.ProgressAll
import Verif.Lemmas.FileWrite
import Verif.Lemmas.Stored
import Verif.Lemmas.FileApi
/-
Progress of writing: the Groups on the way and the File.
-/
namespace HS
open Spec

variable {K : Nat → Prop}

theorem createPath_new2 {cs : List Str} (hne : cs ≠ []) {g : Nat} {s : St} (hn : ∀ k ∈ cs, nameOk k = true ∧ k ≠ [] ∧ k ≠ [dot]) (hg : isGroup s.heap g = true)
    (hl : linksOf s.heap g = []) (ht : TextClasses s.heap) :
    ∃ r s', createPath g cs s = (.ok r, s') ∧ TextClasses s'.heap ∧ ∀ p, isGroup s.heap p = true → isGroup s'.heap p = true := by
  induction cs generalizing g s with
  | nil => exact absurd rfl hne
  | cons c cs ih =>
    obtain ⟨h1, h2, h3⟩ := hn c (by simp)
    have hrun := createObj_runs (o := ⟨[], .group []⟩) (s := s) h1 h2 hg h3 (by rw [hl]; rfl)
    have ht' : TextClasses (createHeap s.heap g c ⟨[], .group []⟩) := txt_create classOk_nil ht
    cases cs with
    | nil => exact ⟨_, _, hrun, ht', fun p hp => isGroup_create p hp⟩
    | cons d cs =>
      rw [createPath]
      · rw [run_bind_ok (getLink_ok h1), hlook_plain _ _ _ h3, hl]
        show ∃ r s', (createGroup g c >>= fun g' => createPath g' (d :: cs)) s = (.ok r, s') ∧ TextClasses s'.heap ∧ _
        rw [run_bind_ok (show createGroup g c s = _ from hrun)]
        obtain ⟨r, s', e1, e2, e3⟩ := ih (g := s.heap.length) (s := { s with heap := createHeap s.heap g c ⟨[], .group []⟩ }) (by simp)
          (fun k hk => hn k (List.mem_cons_of_mem _ hk)) (isGroup_new _ _ _) (linksOf_new _ _ _ _) ht'
        exact ⟨r, s', e1, e2, fun p hp => e3 p (isGroup_create p hp)⟩
      · simp

/-- Making the Groups on the way to a place. -/
theorem createPath_way {full cs pre : List Str} {g : Nat} {s : St} (hnm : ∀ k ∈ full, nameOk k = true ∧ k ≠ [] ∧ k ≠ [dot])
    (hw : ∀ pre p, pre <+: full → LPath s.heap pre p → isGroup s.heap p = true) (ht : TextClasses s.heap) (hcs : full = pre ++ cs)
    (hne : cs ≠ []) (hg : LPath s.heap pre g) (hnone : resolve s.heap 0 full = none) :
    ∃ r s', createPath g cs s = (.ok r, s') ∧ TextClasses s'.heap ∧ ∀ p, isGroup s.heap p = true → isGroup s'.heap p = true := by
  induction cs generalizing pre g with
  | nil => exact absurd rfl hne
  | cons c cs ih =>
    have hmem : ∀ k ∈ c :: cs, nameOk k = true ∧ k ≠ [] ∧ k ≠ [dot] := fun k hk => hnm k (by rw [hcs]; exact List.mem_append_right _ hk)
    obtain ⟨h1, h2, h3⟩ := hmem c (by simp)
    have hgg : isGroup s.heap g = true := hw pre g ⟨c :: cs, hcs.symm⟩ hg
    cases hl : aget (linksOf s.heap g) c with
    | none =>
      have hrun := createObj_runs (o := ⟨[], .group []⟩) (s := s) h1 h2 hgg h3 hl
      have ht' : TextClasses (createHeap s.heap g c ⟨[], .group []⟩) := txt_create classOk_nil ht
      cases cs with
      | nil => exact ⟨_, _, hrun, ht', fun p hp => isGroup_create p hp⟩
      | cons d cs =>
        rw [createPath]
        · rw [run_bind_ok (getLink_ok h1), hlook_plain _ _ _ h3, hl]
          show ∃ r s', (createGroup g c >>= fun g' => createPath g' (d :: cs)) s = (.ok r, s') ∧ TextClasses s'.heap ∧ _
          rw [run_bind_ok (show createGroup g c s = _ from hrun)]
          obtain ⟨r, s', e1, e2, e3⟩ := createPath_new2 (g := s.heap.length) (s := { s with heap := createHeap s.heap g c ⟨[], .group []⟩ }) (cs := d :: cs) (by simp)
            (fun k hk => hmem k (List.mem_cons_of_mem _ hk)) (isGroup_new _ _ _) (linksOf_new _ _ _ _) ht'
          exact ⟨r, s', e1, e2, fun p hp => e3 p (isGroup_create p hp)⟩
        · simp
    | some g' =>
      have hr' : LPath s.heap (pre ++ [c]) g' := .snoc hg hl
      cases cs with
      | nil =>
        have := resolve_lpath (fun k hk => (hnm k hk).2.2) (hcs ▸ hr')
        rw [this] at hnone; cases hnone
      | cons d cs =>
        rw [createPath]
        · rw [run_bind_ok (getLink_ok h1), hlook_plain _ _ _ h3, hl]
          exact ih (pre := pre ++ [c]) (by rw [hcs]; simp) (by simp) hr'
        · simp

/-- `require_group`. -/
theorem requireGroup_go {x : Ctx} {s : St} (hs : Go K x s) (ht : Tree s.heap) {comps : List Str} {t : Str} (ho : OffRefs x.o (comps ++ [t]))
    (hn : ∀ k ∈ comps, nameOk k = true ∧ k ≠ []) (hw : ∀ pre p, pre <+: comps → LPath s.heap pre p → isGroup s.heap p = true) :
    ∃ g s', requireGroup comps s = (.ok g, s') ∧ Go K x s' ∧ Tree s'.heap ∧ LPath s'.heap comps g ∧ isGroup s'.heap g = true := by
  have hpl : ∀ k ∈ comps, k ≠ [dot] := fun d hd => ho.plain d (by simp [hd])
  suffices h : ∃ r s', requireGroup comps s = (.ok r, s') ∧ TextClasses s'.heap ∧ ∀ p, isGroup s.heap p = true → isGroup s'.heap p = true by
    obtain ⟨g, s', h1, h2, h3⟩ := h
    have r := requireGroup_user hs.inv ht ho h1
    obtain ⟨r1, r2, _, _⟩ := r.ok g rfl
    refine ⟨g, s', h1, ⟨r.step.inv, fun hr => ?_, h2, fun k hk => ⟨by rw [r.bk.2.2.2.1]; exact (hs.mine k hk).1, fun hr => by rw [r.bk.2.1]; exact (hs.mine k hk).2 (by rw [← r.bk.1]; exact hr)⟩⟩, tree_step ht r.step (fun h => h), r1, r2⟩
    have hsr : s.refs = none := by rw [← r.bk.1]; exact hr
    have off : ∀ pre, pre <+: refsComps x.o → pre ≠ [] → ¬ pre <+: comps := by
      intro pre hp hp0 h
      refine ho.head ?_
      rw [← head_prefix (h.trans (List.prefix_append _ _)) hp0, ← head_prefix hp hp0]
    refine ⟨fun pre c p hp hres => ?_, fun hk => ?_⟩
    rotate_left
    · cases hres : resolve s'.heap 0 (refsComps x.o) with
      | none => rfl
      | some q =>
        rcases r.only _ q (lpath_resolve (plainComps x) hres) with h | h
        · have := resolve_lpath (plainComps x) h
          rw [(hs.way hsr).none hk] at this; cases this
        · exact absurd h (off _ (List.prefix_refl _) ho.refs)
    have hpre := prefix_plain (plainComps x) (prefix_of_snoc hp)
    rcases r.only pre p (lpath_resolve hpre hres) with h | h
    · exact h3 _ ((hs.way hsr).grp pre c p hp (resolve_lpath hpre h))
    · by_cases hp0 : pre = []
      · subst hp0
        cases hres
        exact h3 _ ((hs.way hsr).grp [] c 0 hp rfl)
      · exact absurd h (off pre (prefix_of_snoc hp) hp0)
  unfold requireGroup
  rw [if_pos (List.all_eq_true.mpr fun k hk => (hn k hk).1)]
  cases hr : resolve s.heap 0 comps with
  | some g =>
    dsimp only
    rw [if_pos (hw comps g (List.prefix_rfl) (lpath_resolve hpl hr))]
    exact ⟨g, s, rfl, hs.txt, fun _ h => h⟩
  | none =>
    dsimp only
    refine createPath_way (full := comps) (pre := []) (fun k hk => ⟨(hn k hk).1, (hn k hk).2, hpl k hk⟩) hw hs.txt rfl ?_ .root hr
    rintro rfl
    cases hr

theorem ascii_absName {l : List Str} (h : ∀ k ∈ l, Ascii k) : Ascii (absName l) := by
  have h1 : Ascii [slash] := ascii_all (by rfl)
  unfold absName
  split
  · exact h1
  · intro c hc
    obtain ⟨k, hk, hc⟩ := List.mem_flatMap.mp hc
    rcases List.mem_cons.mp hc with rfl | hc
    · exact h1 _ (by simp)
    · exact h k hk c hc

theorem ascii_refsName {o : COpts} (h : ∀ k ∈ refsComps o, Ascii k) : Ascii (refsName o) := by
  have h1 : Ascii [slash] := ascii_all (by rfl)
  intro c hc
  obtain ⟨k, hk, hc⟩ := List.mem_flatMap.mp hc
  rcases List.mem_cons.mp hc with rfl | hc
  · exact h1 _ (by simp)
  · exact h k hk c hc

theorem hdf5Names_ne {p : Str} {k : Str} (h : k ∈ hdf5Names p) : k ≠ [] := by
  rintro rfl
  unfold hdf5Names at h
  simp at h

theorem Spec.CanWrite.refsOk {x : Ctx} {F : FileS} {p : PathArg} {ns : List Str} {v : Val} (h : CanWrite x F p ns v) : RefsOk x where
  ne := h.refs.notRoot
  name := fun k hk => ⟨nameOk_iff.mpr (h.refsText k hk).1, hdf5Names_ne hk⟩
  ascii := fun hm => ascii_refsName fun k hk => (h.refsText k hk).2 hm

/-- The position in the random stream if the references Group is made by this File. -/
def OwnPos (x : Ctx) (F : FileS) (r : Nat) : Prop := OwnRefs x F ∧ F.st.rpos = r

theorem Spec.CanWrite.go {x : Ctx} {F : FileS} {p : PathArg} {ns : List Str} {v : Val} (h : CanWrite x F p ns v) : Go (OwnPos x F) x F.st ∧ Tree F.st.heap := by
  obtain ⟨hi, ht⟩ := reach_keep h.refs h.names h.reach
  refine ⟨⟨hi, fun h0 => ⟨fun pre c q hp hr => ?_, fun hk => ?_⟩, h.classes, fun r hk => ?_⟩, ht⟩
  rotate_left
  · obtain ⟨r, hk, _⟩ := hk
    rcases hk with hk | ⟨_, hk⟩
    · exact absurd h0 (hi.created hk)
    · cases hres : resolve F.st.heap 0 (refsComps x.o) with
      | none => rfl
      | some q => exact absurd ⟨q, lpath_resolve (plainComps x) hres⟩ hk
  · refine ⟨hk.2, fun h0 => ?_⟩
    rcases hk.1 with hk | ⟨hk, _⟩
    · exact hk
    · exact absurd hk h0
  refine h.refsWay pre q (prefix_of_snoc hp) ?_ (lpath_resolve (prefix_plain (plainComps x) (prefix_of_snoc hp)) hr)
  rintro rfl
  have := hp.length_le
  rw [List.length_append] at this
  exact absurd this (Nat.not_succ_le_self _)

theorem addr_ne {p : PathArg} {ns : List Str} (h : Addr p ns) {k : Str} (hk : k ∈ ns) : k ≠ [] := by
  obtain ⟨g, t, h1, h2⟩ := h
  subst h2
  rcases List.mem_append.mp hk with h | h <;> exact hdf5Names_ne h

/-- One write to a place in a File. -/
theorem canWrite_go {x : Ctx} {v : Val} {n : Nat} {F : FileS} {p : PathArg} {ns : List Str} (hc : CanWrite x F p ns v) (hg : WrGo x (writeData x n) v) :
    ((fileWrite x n p v F).1 = .ok () ∧ (OwnRefs x F → OwnRefs x (fileWrite x n p v F).2 ∧ (fileWrite x n p v F).2.st.rpos = F.st.rpos) ∧
        TextClasses (fileWrite x n p v F).2.st.heap) ∨
      ((fileWrite x n p v F).1 = .error .other ∧ Unlucky x (fileWrite x n p v F).2.st ∧ ¬ OwnRefs x F) := by
  obtain ⟨hs, ht⟩ := hc.go
  rcases snoc_cases ns with rfl | ⟨l, t, rfl⟩
  · exact absurd rfl hc.notRoot
  have ho : OffRefs x.o (l ++ [t]) := ⟨addr_plain hc.addr, hc.notRoot, hc.refs.notRoot, hc.off⟩
  obtain ⟨gs, h1, h2⟩ := addr_check hc.refs ho hc.addr
  have hne : ∀ k ∈ l ++ [t], nameOk k = true ∧ k ≠ [] := fun k hk => ⟨nameOk_iff.mpr (hc.text k hk), addr_ne hc.addr hk⟩
  have hgo : Goes (OwnPos x F) x (writeMany x n [((gs, t), v)]) F.st (fun _ s' => Go (OwnPos x F) x s') := by
    unfold writeMany
    refine Goes.bind (P := fun _ s' => Go (OwnPos x F) x s') ?_ (fun _ _ _ h => Goes.pure h)
    unfold writeOne
    dsimp only
    rw [h2]
    obtain ⟨g, s1, e1, e2, e3, e4, e5⟩ := requireGroup_go hs ht ho (fun k hk => hne k (by simp [hk])) (fun pre q hp hq =>
      hc.way pre q (hp.trans (List.prefix_append _ _)) (by
        rintro rfl
        have := hp.length_le
        rw [List.length_append] at this
        exact absurd this (Nat.not_succ_le_self _)) hq)
    refine Goes.bind (Goes.ok e1 (P := fun g' s' => g' = g ∧ s' = s1) ⟨rfl, rfl⟩) ?_
    rintro _ _ - ⟨rfl, rfl⟩
    refine (hg _ _ _ _ t e2 ⟨ho.pre e2.inv e3 e4 (isGroup_lt e5), e5, (hne t (by simp)).1, (hne t (by simp)).2⟩ ?_)
    intro hm hgr
    exact ⟨ascii_absName fun k hk => hc.ascii hm hgr k (by simp [hk]), hc.ascii hm hgr t (by simp)⟩
  have hck : checkItems x.o.refsPath [(p, v)] = .ok [((gs, t), v)] := by
    rw [checkItems, h1]; rfl
  have hw : F.writable = true := reach_writable hc.reach
  unfold fileWrite fileWrites
  rw [if_neg (by simp [hw]), hck]
  dsimp only
  rw [if_neg (by simp [hc.isOpen]), runFile_rw _ hc.rw]
  rcases hgo with ⟨a, s', h, hG⟩ | ⟨s', h, hu⟩
  · rw [h]
    refine Or.inl ⟨rfl, fun hk => ⟨?_, (hG.mine _ ⟨hk, rfl⟩).1⟩, hG.txt⟩
    by_cases h0 : s'.refs = none
    · refine Or.inr ⟨h0, ?_⟩
      rintro ⟨q, hq⟩
      have := resolve_lpath (plainComps x) hq
      rw [(hG.way h0).none ⟨_, hk, rfl⟩] at this; cases this
    · exact Or.inl ((hG.mine _ ⟨hk, rfl⟩).2 h0)
  · rw [h]; exact Or.inr ⟨rfl, hu.1, fun hk => hu.2 ⟨_, hk, rfl⟩⟩

end HS
