import Verif.Lemmas.FileGroup
import Verif.Spec.File
/-
`File` methods: what they keep, and the round trip.
-/
namespace HS
open Spec

theorem commonComps_plain (p : Str) : PlainNames (commonComps p) := by
  intro c hc
  simp only [commonComps, List.mem_filter] at hc
  simpa using (of_decide_eq_true hc.2).2

theorem refsComps_eq (o : COpts) : refsComps o = hdf5Names o.refsPath := rfl

/-- What `require_group` does on the way to a place. -/
structure ReqG (x : Ctx) (comps : List Str) (s s' : St) (res : Res Nat) : Prop where
  step : Step x (MkA s comps) noD s s'
  bk : SameBk s s'
  mono : ∀ p k q, LinkAt s.heap p k q → LinkAt s'.heap p k q
  ok : ∀ r, res = .ok r → LPath s'.heap comps r ∧ isGroup s'.heap r = true ∧ (s' = s ∨ linksOf s'.heap r = []) ∧ comps.all nameOk = true
  only : ∀ l q, LPath s'.heap l q → LPath s.heap l q ∨ l <+: comps

theorem requireGroup_user {x : Ctx} {s s' : St} {res : Res Nat} (hi : Inv x s) (ht : Tree s.heap) {comps : List Str} {t : Str}
    (ho : OffRefs x.o (comps ++ [t])) (h : requireGroup comps s = (res, s')) : ReqG x comps s s' res := by
  have hpl : PlainNames comps := fun d hd => ho.plain d (by simp [hd])
  have refl : ∀ e, ReqG x comps s s (.error e) := fun e => ⟨Step.refl hi, SameBk.refl _, fun _ _ _ h => h, (fun r h => by cases h), fun _ _ h => Or.inl h⟩
  unfold requireGroup at h
  by_cases hn : comps.all nameOk = true
  · rw [if_pos hn] at h
    cases hr : resolve s.heap 0 comps with
    | some g =>
      rw [hr] at h
      dsimp only at h
      by_cases hg : isGroup s.heap g = true
      · rw [if_pos hg] at h; cases h
        exact ⟨Step.refl hi, SameBk.refl _, fun _ _ _ h => h, (fun r h => by
          cases h
          exact ⟨lpath_resolve hpl hr, hg, Or.inl rfl, hn⟩), fun _ _ h => Or.inl h⟩
      · rw [if_neg hg] at h; cases h
        exact refl _
    | none =>
      rw [hr] at h
      dsimp only at h
      by_cases hc : comps = []
      · subst hc; cases hr
      · have hoc : OffRefs x.o ([] ++ comps) := ho.prefix (List.prefix_append _ _) hc
        have m := createPath_user comps [] 0 s s' res hi ht hoc .root h
        exact ⟨m.step, m.bk, m.mono, (fun r h => by
          obtain ⟨a, b, c, d⟩ := m.ok r h
          exact ⟨a, b, Or.inr c, hn⟩), m.only⟩
  · rw [if_neg hn] at h; cases h
    exact refl _

/-- One write to a place off the references Group: invariants. -/
theorem writeOne_keep {x : Ctx} (hn : NamesOk x.o) {n : Nat} {s s' : St} {res : Res (Option Nat)} (hi : Inv x s) (ht : Tree s.heap) {gs t : Str} {v : Val}
    (ho : OffRefs x.o (commonComps gs ++ [t])) (h : writeOne x n (gs, t) v s = (res, s')) : Inv x s' ∧ Tree s'.heap := by
  unfold writeOne at h
  dsimp only at h
  rcases bind_run (requireGroup (commonComps gs)) (fun g => writeData x n g (absName (commonComps gs)) t v) s with ⟨g, s1, e1, e2⟩ | ⟨e, s1, e1, e2⟩
  · rw [e2] at h
    have r := requireGroup_user hi ht ho e1
    obtain ⟨r1, r2, _, _⟩ := r.ok g rfl
    have ht1 := tree_step ht r.step (fun h => h)
    have hp := ho.pre r.step.inv ht1 r1 (isGroup_lt r2)
    have po := writeData_post hn.keys hn.vals n s1 g _ t v s' res hp h
    exact ⟨po.step.inv, tree_step ht1 po.step (tgt_root ht1)⟩
  · rw [e2] at h; cases h
    have r := requireGroup_user hi ht ho e1
    exact ⟨r.step.inv, tree_step ht r.step (fun h => h)⟩

theorem writeMany_keep {x : Ctx} (hn : NamesOk x.o) {n : Nat} {l : List ((Str × Str) × Val)} {s s' : St} {res : Res Unit} (hi : Inv x s) (ht : Tree s.heap)
    (ho : ∀ e ∈ l, OffRefs x.o (commonComps e.1.1 ++ [e.1.2])) (h : writeMany x n l s = (res, s')) : Inv x s' ∧ Tree s'.heap := by
  induction l generalizing s with
  | nil => cases h; exact ⟨hi, ht⟩
  | cons e l ih =>
    obtain ⟨⟨gs, t⟩, v⟩ := e
    rw [writeMany] at h
    rcases bind_run (writeOne x n (gs, t) v) (fun _ => writeMany x n l) s with ⟨a, s1, e1, e2⟩ | ⟨e, s1, e1, e2⟩
    · rw [e2] at h
      obtain ⟨h1, h2⟩ := writeOne_keep hn hi ht (ho ((gs, t), v) (by simp)) e1
      exact ih h1 h2 (fun e he => ho e (by simp [he])) h
    · rw [e2] at h; cases h
      exact writeOne_keep hn hi ht (ho ((gs, t), v) (by simp)) e1

/-- Processed paths: group names and one more name. -/
theorem processPath_names {p : PathArg} {g t : Str} (h : processPath p = .ok (g, t)) :
    (t = [dot] ∧ hdf5Names g = [] ∧ hdf5Names t = []) ∨ (hdf5Names t = [t] ∧ t ≠ [dot] ∧ t ≠ [] ∧ slash ∉ t) := by
  obtain ⟨q, hq⟩ := processPath_pair p g t h
  rw [splitTarget_eq] at hq
  have hN := names_isName q
  have hl : lead q = [] ∨ lead q = [slash] ∨ lead q = [slash, slash] := by
    unfold lead
    split
    · exact Or.inl rfl
    · exact Or.inr (Or.inr rfl)
    · exact Or.inr (Or.inl rfl)
  rcases List.eq_nil_or_concat (names q) with hn | ⟨xs, y, hn⟩
  · rw [hn] at hq
    simp only [groupTarget, List.getLast?_nil, Prod.mk.injEq] at hq
    obtain ⟨rfl, rfl⟩ := hq
    refine Or.inl ⟨rfl, ?_, rfl⟩
    rcases hl with h | h | h <;> rw [h] <;> rfl
  · rw [List.concat_eq_append] at hn
    have hy : IsName y := hN y (by simp [hn])
    have : t = y := by
      rw [hn] at hq
      have := congrArg Prod.snd hq
      simpa [groupTarget] using this
    subst this
    exact Or.inr ⟨hdf5Names_name t hy, hy.2.2, hy.1, hy.2.1⟩

/-- A path that passes the check is off the references Group. -/
theorem checkPath_off {o : COpts} (hr : RefsPathOk o) {p : PathArg} {g t : Str} (h : checkPath o.refsPath p = .ok (g, t)) :
    processPath p = .ok (g, t) ∧ (t ≠ [dot] → OffRefs o (commonComps g ++ [t]) ∧ hdf5Names g ++ hdf5Names t = commonComps g ++ [t]) ∧
      (t = [dot] → Addr p []) := by
  have hp : processPath p = .ok (g, t) := by
    unfold checkPath at h
    cases hp : processPath p with
    | error e => rw [hp] at h; cases h
    | ok gt =>
      rw [hp] at h
      simp only [bind, Except.bind] at h
      split at h
      · cases h
      · exact h
  refine ⟨hp, ?_, ?_⟩
  · intro hd
    rcases processPath_names hp with ⟨h1, _⟩ | ⟨h1, h2, _⟩
    · exact absurd h1 hd
    rcases checkPath_iff o.refsPath hr.abs p g t hp with ⟨h3, _⟩ | ⟨_, h4⟩
    · rw [h] at h3; cases h3
    · rw [h1] at h4 ⊢
      refine ⟨⟨?_, by simp, hr.notRoot, ?_⟩, rfl⟩
      · intro c hc
        rcases List.mem_append.mp hc with h | h
        · exact commonComps_plain g c h
        · simp only [List.mem_singleton] at h; subst h; exact h2
      · intro he
        apply h4
        cases hn : hdf5Names o.refsPath with
        | nil => exact absurd hn hr.notRoot
        | cons a l =>
          refine ⟨a, rfl, ?_⟩
          show (commonComps g ++ [t]).head? = some a
          rw [he, refsComps_eq, hn]; rfl
  · rintro rfl
    rcases processPath_names hp with ⟨_, h1, h2⟩ | ⟨_, h2, _⟩
    · exact ⟨g, _, hp, by rw [h1, h2]; rfl⟩
    · exact absurd rfl h2

theorem checkItems_mem {refs : Str} {l : List (PathArg × Val)} {tw : List ((Str × Str) × Val)} (h : checkItems refs l = .ok tw) :
    All2 (fun pv gv => checkPath refs pv.1 = .ok gv.1 ∧ pv.2 = gv.2) l tw := by
  induction l generalizing tw with
  | nil => cases h; exact .nil
  | cons a l ih =>
    obtain ⟨p, v⟩ := a
    rw [checkItems] at h
    obtain ⟨gt, h1, h2⟩ := res_bind_ok.mp h
    obtain ⟨r, h3, h4⟩ := res_bind_ok.mp h2
    cases h4
    exact .cons ⟨h1, rfl⟩ (ih h3)

theorem checkItems_off {o : COpts} (hr : RefsPathOk o) {l : List (PathArg × Val)} {tw : List ((Str × Str) × Val)} (h : checkItems o.refsPath l = .ok tw)
    (hroot : ∀ pv ∈ l, ¬ Addr pv.1 []) : ∀ e ∈ tw, OffRefs o (commonComps e.1.1 ++ [e.1.2]) := by
  intro e he
  obtain ⟨pv, h1, h2, _⟩ := all2_right (checkItems_mem h) e he
  obtain ⟨_, h3, h4⟩ := checkPath_off hr h2
  exact (h3 (fun hd => hroot pv h1 (h4 hd))).1

theorem run_eta {α : Type} (m : M α) (s : St) : m s = ((m s).1, (m s).2) := rfl

theorem runFile_ro {α : Type} {F : FileS} (m : M α) (h : F.ro = true) : (runFile F m).2 = F := by
  unfold runFile; simp [h]

theorem runFile_rw {α : Type} {F : FileS} (m : M α) (h : F.ro = false) : runFile F m = ((m F.st).1, { F with st := (m F.st).2 }) := by
  unfold runFile; simp [h]

/-- Unlinking at a place off the references Group. -/
theorem unlinkPath_user (cs pre : List Str) (g : Nat) (s s' : St) (res : Res Unit) (ho : PlainNames (pre ++ cs)) (hg : LPath s.heap pre g)
    (h : unlinkPath g cs s = (res, s')) : (s' = s ∧ ∃ e, res = .error e) ∨ ∃ gl t p q, pre ++ cs = gl ++ [t] ∧ LPath s.heap gl p ∧ LinkAt s.heap p t q ∧
      res = .ok () ∧ s' = { s with heap := s.heap.update p (Obj.mapLinks fun l => l.filter fun p => !(p.1 == t)) } := by
  induction cs generalizing pre g with
  | nil => cases h; exact Or.inl ⟨rfl, _, rfl⟩
  | cons c cs ih =>
    have hcd : c ≠ [dot] := ho c (by simp)
    cases cs with
    | nil =>
      rw [unlinkPath] at h
      rcases unlink_run g c s with ⟨e, he⟩ | ⟨he, _, q, hq⟩
      · rw [he] at h; cases h; exact Or.inl ⟨rfl, _, rfl⟩
      · rw [he] at h; cases h
        exact Or.inr ⟨pre, c, g, q, rfl, hg, hq, rfl, rfl⟩
    | cons c2 cs =>
      have hcs' : pre ++ c :: c2 :: cs = (pre ++ [c]) ++ (c2 :: cs) := by simp
      rw [unlinkPath] at h
      rotate_left
      · intro hh; cases hh
      rcases getLink_run g c s with hh | ⟨e, hh⟩
      · rw [run_bind_ok hh, hlook_plain _ _ _ hcd] at h
        cases hl : aget (linksOf s.heap g) c with
        | some g' =>
          rw [hl] at h
          rw [hcs'] at ho ⊢
          exact ih (pre ++ [c]) g' ho (.snoc hg hl) h
        | none =>
          rw [hl] at h; cases h
          exact Or.inl ⟨rfl, _, rfl⟩
      · rw [run_bind_err hh] at h; cases h
        exact Or.inl ⟨rfl, _, rfl⟩

theorem joined_names {p : PathArg} {g t j : Str} (h : processPath p = .ok (g, t)) (hj : pJoin [g, t] = .ok j) : commonComps j = hdf5Names g ++ hdf5Names t := by
  cases hj
  have hts : isAbs t = false := by
    rcases processPath_names h with ⟨rfl, _⟩ | ⟨_, _, h1, h2⟩
    · rfl
    · cases t with
      | nil => rfl
      | cons c r =>
        have : c ≠ slash := fun hc => h2 (by simp [hc])
        simp [isAbs, this]
  exact hdf5Names_joinStep g t hts

theorem addr_unique {p : PathArg} {a b : List Str} (h1 : Addr p a) (h2 : Addr p b) : a = b := by
  obtain ⟨g, t, e1, rfl⟩ := h1
  obtain ⟨g', t', e2, rfl⟩ := h2
  rw [e1] at e2; cases e2; rfl

theorem addr_plain {p : PathArg} {ns : List Str} (h : Addr p ns) : PlainNames ns := by
  obtain ⟨g, t, _, rfl⟩ := h
  intro c hc
  rcases List.mem_append.mp hc with h | h
  · exact commonComps_plain g c h
  · exact commonComps_plain t c h

theorem reach_keep {x : Ctx} (hr : RefsPathOk x.o) (hn : NamesOk x.o) {F : FileS} (h : Reach x F) : Inv x F.st ∧ Tree F.st.heap := by
  induction h with
  | opened h w ht => exact ⟨tree_inv ht, ht⟩
  | @wrote F n mdict hF hroot ih =>
    unfold fileWrites
    split
    · exact ih
    cases hc : checkItems x.o.refsPath mdict with
    | error e => exact ih
    | ok tw =>
      dsimp only
      split
      · exact ih
      cases hro : F.ro with
      | true => rw [runFile_ro _ hro]; exact ih
      | false =>
        rw [runFile_rw _ hro]
        exact writeMany_keep hn ih.1 ih.2 (checkItems_off hr hc hroot) (run_eta (writeMany x n tw) F.st)
  | @deleted F p hF hoff ih =>
    unfold fileDel
    split
    · exact ih
    cases hp : processPath p with
    | error e => exact ih
    | ok gt =>
      obtain ⟨g, t⟩ := gt
      dsimp only
      split
      · exact ih
      cases hj : pJoin [g, t] with
      | error e => exact ih
      | ok j =>
        dsimp only
        cases hro : F.ro with
        | true => rw [runFile_ro _ hro]; exact ih
        | false =>
          rw [runFile_rw _ hro]
          have ha : Addr p (commonComps j) := ⟨g, t, hp, joined_names hp hj⟩
          by_cases hne : commonComps j = []
          · rw [hne]; exact ih
          have ho : OffRefs x.o ([] ++ commonComps j) := ⟨addr_plain ha, hne, hr.notRoot, hoff _ ha⟩
          rcases unlinkPath_user (commonComps j) [] 0 F.st _ _ ho.plain .root (run_eta (unlinkPath 0 (commonComps j)) F.st) with ⟨h1, _⟩ | ⟨gl, t', p', q, h1, h2, h3, _, h5⟩
          · show Inv x (unlinkPath 0 (commonComps j) F.st).2 ∧ Tree (unlinkPath 0 (commonComps j) F.st).2.heap
            rw [h1]; exact ih
          · show Inv x (unlinkPath 0 (commonComps j) F.st).2 ∧ Tree (unlinkPath 0 (commonComps j) F.st).2.heap
            rw [h5]
            rw [h1] at ho
            have hpre := ho.pre ih.1 ih.2 h2 (lpath_lt ih.2 h2)
            have st := unlink_step ih.1 p' t' (fun _ => hpre.off)
            exact ⟨st.inv, tree_step ih.2 st (fun h => h)⟩
  | closed hF ih => exact ih
  | @flushed F hF ih =>
    unfold fileFlush
    split <;> exact ih

end HS
