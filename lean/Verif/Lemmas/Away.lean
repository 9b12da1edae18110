import Verif.Lemmas.Local
import Verif.Lemmas.Stored
/-
Changes elsewhere.
-/
namespace HS
open Spec

theorem prefix_comparable {α : Type} {a b l : List α} (h1 : a <+: l) (h2 : b <+: l) : a <+: b ∨ b <+: a := List.prefix_or_prefix_of_prefix h1 h2

/-- Where the place `ms` and the references Group have their objects. -/
def InOrRefs (o : COpts) (h : Heap) (ms : List Str) (p : Nat) : Prop := p < h.length ∧ ∀ l, LPath h l p → ms <+: l ∨ (l.head? = (refsComps o).head? ∧ ¬ l <+: refsComps o)

/-- What is stored at `ms` is not changed. -/
structure Away (o : COpts) (ms : List Str) (h h' : Heap) : Prop where
  len : h.length ≤ h'.length
  old : ∀ l p, LPath h' l p → p < h.length → LPath h l p
  obj : ∀ p, InOrRefs o h ms p → h'[p]? = h[p]?
  path : ∀ q, LPath h' ms q ↔ LPath h ms q

theorem Away.refl (o : COpts) (ms : List Str) (h : Heap) : Away o ms h h := ⟨Nat.le_refl _, fun _ _ h _ => h, fun _ _ => rfl, fun _ => Iff.rfl⟩

theorem Away.keep {o : COpts} {ms : List Str} {h h' : Heap} (a : Away o ms h h') {p : Nat} (hp : InOrRefs o h ms p) : InOrRefs o h' ms p :=
  ⟨Nat.lt_of_lt_of_le hp.1 a.len, fun l hl => hp.2 l (a.old l p hl hp.1)⟩

theorem Away.trans {o : COpts} {ms : List Str} {h h' h'' : Heap} (a : Away o ms h h') (b : Away o ms h' h'') : Away o ms h h'' where
  len := Nat.le_trans a.len b.len
  old l p h1 h2 := a.old l p (b.old l p h1 (Nat.lt_of_lt_of_le h2 a.len)) h2
  obj p hp := (b.obj p (a.keep hp)).trans (a.obj p hp)
  path q := (b.path q).trans (a.path q)

/-- Changes at `ns` are away from `ms`, if the path is. -/
theorem away_of_fr {x : Ctx} {A D} {s s' : St} (ht : Tree s.heap) (f : Fr x A D s s') {ns ms : List Str} (hns : OffRefs x.o ns) (hms : OffRefs x.o ms) (ha : Apart ns ms)
    (hA : ∀ p k, p < s.heap.length → A p k → ∃ l, LPath s.heap l p ∧ (l ++ [k]) <+: ns) (hD : ∀ p, p < s.heap.length → D p → ∃ l, LPath s.heap (ns ++ l) p)
    (hp : ∀ q, LPath s'.heap ms q ↔ LPath s.heap ms q) : Away x.o ms s.heap s'.heap where
  len := f.len
  old l p h1 h2 := f.lpath_old h1 h2
  path := hp
  obj p hi := by
    refine f.same p hi.1 ?_ ?_ ?_
    · intro hd
      obtain ⟨l, hl⟩ := hD p hi.1 hd
      rcases hi.2 _ hl with h | ⟨h, _⟩
      · rcases prefix_comparable h (List.prefix_append ns l) with h | h
        · exact ha.2 h
        · exact ha.1 h
      · exact hns.head (by rw [← h, head_append_ne hns.ne])
    · intro k hk
      obtain ⟨l, hl, hk⟩ := hA p k hi.1 hk
      have hk := (List.prefix_append l [k]).trans hk
      rcases hi.2 _ hl with h | ⟨h, hl0⟩
      · exact ha.2 (h.trans hk)
      · exact hns.head (by rw [← h, head_prefix hk (fun he => hl0 (by rw [he]; exact List.nil_prefix))])
    · rintro ⟨pre, h1, h2⟩
      rcases hi.2 _ (lpath_resolve (prefix_plain (plainComps x) h1) h2) with h | ⟨h, h3⟩
      · exact hms.head (head_prefix (h.trans h1) hms.ne)
      · exact h3 h1

theorem requireGroup_away {x : Ctx} {s s' : St} {res : Res Nat} (ht : Tree s.heap) {gl : List Str} {t : Str} {ms : List Str}
    (hns : OffRefs x.o (gl ++ [t])) (hms : OffRefs x.o ms) (ha : Apart (gl ++ [t]) ms) (r : ReqG x gl s s' res) : Away x.o ms s.heap s'.heap := by
  refine away_of_fr ht r.step.fr hns hms ha ?_ (fun _ _ h => h.elim) ?_
  · rintro p k hp (h | ⟨pre, h1, h2, _⟩)
    · omega
    · exact ⟨pre, h2, h1.trans (List.prefix_append _ _)⟩
  · intro q
    refine ⟨fun h => ?_, lpath_mono r.mono⟩
    rcases r.only _ _ h with h | h
    · exact h
    · exact absurd (h.trans (List.prefix_append _ _)) ha.2

theorem resolve_iff_lpath {h : Heap} {l : List Str} (hp : PlainNames l) (q : Nat) : LPath h l q ↔ resolve h 0 l = some q := ⟨resolve_lpath hp, lpath_resolve hp⟩

theorem writeAt_away {x : Ctx} {s s' : St} (ht : Tree s.heap) {gl : List Str} {g : Nat} {t : Str} {ms : List Str} (hg : LPath s.heap gl g)
    (hns : OffRefs x.o (gl ++ [t])) (hms : OffRefs x.o ms) (ha : Apart (gl ++ [t]) ms) (f : Fr x (oneA g t) (TgtD s g t) s s') : Away x.o ms s.heap s'.heap := by
  refine away_of_fr ht f hns hms ha ?_ ?_ ?_
  · rintro p k hp ⟨rfl, rfl⟩
    exact ⟨gl, hg, List.prefix_refl _⟩
  · rintro p hp ⟨q, h1, h2⟩
    exact LPath.reach (.snoc hg h1) h2
  · intro q
    rw [resolve_iff_lpath hms.plain, resolve_iff_lpath hms.plain, f.resolve_user ht hg (Or.inr hms) ha.1]

/-- Whatever comes of a write elsewhere. -/
theorem writeOne_away {x : Ctx} (hn : NamesOk x.o) {n : Nat} {s s' : St} {res : Res (Option Nat)} (hi : Inv x s) (ht : Tree s.heap) {gs t : Str} {v : Val} {ms : List Str}
    (ho : OffRefs x.o (commonComps gs ++ [t])) (hms : OffRefs x.o ms) (ha : Apart (commonComps gs ++ [t]) ms) (h : writeOne x n (gs, t) v s = (res, s')) :
    Away x.o ms s.heap s'.heap := by
  unfold writeOne at h
  dsimp only at h
  rcases bind_run (requireGroup (commonComps gs)) (fun g => writeData x n g (absName (commonComps gs)) t v) s with ⟨g, s1, e1, e2⟩ | ⟨e, s1, e1, e2⟩
  · rw [e2] at h
    have r := requireGroup_user hi ht ho e1
    obtain ⟨r1, r2, _, _⟩ := r.ok g rfl
    have ht1 := tree_step ht r.step (fun h => h)
    have hp := ho.pre r.step.inv ht1 r1 (isGroup_lt r2)
    have po := writeData_post hn.keys hn.vals n s1 g _ t v s' res hp h
    exact (requireGroup_away ht ho hms ha r).trans (writeAt_away ht1 r1 ho hms ha po.step.fr)
  · rw [e2] at h; cases h
    exact requireGroup_away ht ho hms ha (requireGroup_user hi ht ho e1)

theorem writeMany_away {x : Ctx} (hn : NamesOk x.o) {n : Nat} {l : List ((Str × Str) × Val)} {s s' : St} {res : Res Unit} (hi : Inv x s) (ht : Tree s.heap) {ms : List Str}
    (ho : ∀ e ∈ l, OffRefs x.o (commonComps e.1.1 ++ [e.1.2]) ∧ Apart (commonComps e.1.1 ++ [e.1.2]) ms) (hms : OffRefs x.o ms)
    (h : writeMany x n l s = (res, s')) : Away x.o ms s.heap s'.heap := by
  induction l generalizing s with
  | nil => cases h; exact .refl _ _ _
  | cons e l ih =>
    obtain ⟨⟨gs, t⟩, v⟩ := e
    obtain ⟨o1, o2⟩ := ho ((gs, t), v) (by simp)
    rw [writeMany] at h
    rcases bind_run (writeOne x n (gs, t) v) (fun _ => writeMany x n l) s with ⟨a, s1, e1, e2⟩ | ⟨e, s1, e1, e2⟩
    · rw [e2] at h
      obtain ⟨h1, h2⟩ := writeOne_keep hn hi ht o1 e1
      exact (writeOne_away hn hi ht o1 hms o2 e1).trans (ih h1 h2 (fun e he => ho e (by simp [he])) h)
    · rw [e2] at h; cases h
      exact writeOne_away hn hi ht o1 hms o2 e1

/-- `File.writes` elsewhere. -/
theorem fileWrites_away {x : Ctx} (hr : RefsPathOk x.o) (hn : NamesOk x.o) {n : Nat} {F : FileS} (hi : Inv x F.st) (ht : Tree F.st.heap) {ms : List Str}
    {m : List (PathArg × Val)} (hms : OffRefs x.o ms) (ha : ∀ pv ∈ m, ∀ ns, Addr pv.1 ns → Apart ns ms) :
    Away x.o ms F.st.heap (fileWrites x n m F).2.st.heap := by
  unfold fileWrites
  split
  · exact .refl _ _ _
  cases hc : checkItems x.o.refsPath m with
  | error e => exact .refl _ _ _
  | ok tw =>
    dsimp only
    split
    · exact .refl _ _ _
    cases hro : F.ro with
    | true => rw [runFile_ro _ hro]; exact .refl _ _ _
    | false =>
      rw [runFile_rw _ hro]
      refine writeMany_away hn hi ht ?_ hms (run_eta (writeMany x n tw) F.st)
      intro e he
      obtain ⟨pv, h1, h2, _⟩ := all2_right (checkItems_mem hc) e he
      obtain ⟨c1, h3, h4⟩ := checkPath_off hr h2
      obtain ⟨h5, h6⟩ := h3 (fun hd => (ha pv h1 _ (h4 hd)).1 List.nil_prefix)
      exact ⟨h5, ha pv h1 _ ⟨_, _, c1, h6.symm⟩⟩

/-- `File.__delitem__` elsewhere. -/
theorem fileDel_away {x : Ctx} (hr : RefsPathOk x.o) {F : FileS} (hi : Inv x F.st) (ht : Tree F.st.heap) {ms : List Str} {p : PathArg} (hms : OffRefs x.o ms)
    (ha : ∀ ns, Addr p ns → Apart ns ms ∧ ns.head? ≠ (hdf5Names x.o.refsPath).head?) : Away x.o ms F.st.heap (fileDel p F).2.st.heap := by
  unfold fileDel
  split
  · exact .refl _ _ _
  cases hp : processPath p with
  | error e => exact .refl _ _ _
  | ok gt =>
    obtain ⟨g, t⟩ := gt
    dsimp only
    split
    · exact .refl _ _ _
    cases hj : pJoin [g, t] with
    | error e => exact .refl _ _ _
    | ok j =>
      dsimp only
      cases hro : F.ro with
      | true => rw [runFile_ro _ hro]; exact .refl _ _ _
      | false =>
        rw [runFile_rw _ hro]
        have had : Addr p (commonComps j) := ⟨g, t, hp, joined_names hp hj⟩
        obtain ⟨a1, a2⟩ := ha _ had
        have hne : commonComps j ≠ [] := fun h => a1.1 (by rw [h]; exact List.nil_prefix)
        have ho : OffRefs x.o ([] ++ commonComps j) := ⟨addr_plain had, hne, hr.notRoot, a2⟩
        show Away x.o ms F.st.heap (unlinkPath 0 (commonComps j) F.st).2.heap
        rcases unlinkPath_user (commonComps j) [] 0 F.st _ _ ho.plain .root (run_eta (unlinkPath 0 (commonComps j)) F.st) with ⟨h1, _⟩ | ⟨gl, t', p', q, h1, h2, h3, _, h5⟩
        · rw [h1]; exact .refl _ _ _
        · rw [h5]
          rw [List.nil_append] at ho h1
          rw [h1] at ho a1
          have hpre := ho.pre hi ht h2 (lpath_lt ht h2)
          have st := unlink_step hi p' t' (fun _ => hpre.off)
          refine away_of_fr ht st.fr ho hms a1 ?_ (fun _ _ h => h.elim) ?_
          · rintro p k hp ⟨rfl, rfl⟩
            exact ⟨gl, h2, List.prefix_refl _⟩
          · intro r
            rw [lpath_removed ht h2 h3]
            exact ⟨fun h => h.1, fun h => ⟨h, a1.1⟩⟩

/-- One call elsewhere. -/
theorem fileOp_away {x : Ctx} (hr : RefsPathOk x.o) (hn : NamesOk x.o) {n : Nat} {F : FileS} (hF : Reach x F) {ms : List Str} {op : Op} (hms : OffRefs x.o ms)
    (ha : Elsewhere x.o op ms) : Away x.o ms F.st.heap (fileOp x n op F).2.st.heap ∧ Reach x (fileOp x n op F).2 := by
  obtain ⟨hi, ht⟩ := reach_keep hr hn hF
  have hnil : ∀ {ns : List Str}, Apart ns ms → ns ≠ [] := fun h he => h.1 (by rw [he]; exact List.nil_prefix)
  cases op with
  | writes m => exact ⟨fileWrites_away hr hn hi ht hms ha, .wrote n m hF fun pv h1 h2 => hnil (ha pv h1 _ h2) rfl⟩
  | write p v =>
    have ha' : ∀ pv ∈ [(p, v)], ∀ ns, Addr pv.1 ns → Apart ns ms := by
      intro pv hpv
      simp only [List.mem_singleton] at hpv
      subst hpv; exact ha
    exact ⟨fileWrites_away hr hn hi ht hms ha', .wrote n [(p, v)] hF fun pv h1 h2 => hnil (ha' pv h1 _ h2) rfl⟩
  | del p => exact ⟨fileDel_away hr hi ht hms ha, .deleted p hF fun ns h => (ha ns h).2⟩
  | close => exact ⟨.refl _ _ _, .closed hF⟩
  | flush =>
    refine ⟨?_, .flushed hF⟩
    show Away x.o ms F.st.heap (fileFlush F).2.st.heap
    unfold fileFlush
    split <;> exact .refl _ _ _
  | _ => exact ⟨.refl _ _ _, hF⟩

theorem fileOps_away {x : Ctx} (hr : RefsPathOk x.o) (hn : NamesOk x.o) {n : Nat} {ops : List Op} {F : FileS} (hF : Reach x F) {ms : List Str} (hms : OffRefs x.o ms)
    (ha : ∀ op ∈ ops, Elsewhere x.o op ms) : Away x.o ms F.st.heap (fileOps x n ops F).2.st.heap ∧ Reach x (fileOps x n ops F).2 := by
  induction ops generalizing F with
  | nil => exact ⟨.refl _ _ _, hF⟩
  | cons op ops ih =>
    obtain ⟨h1, h2⟩ := fileOp_away (n := n) hr hn hF hms (ha op (by simp))
    obtain ⟨h3, h4⟩ := ih h2 fun op hop => ha op (by simp [hop])
    rw [fileOps]
    exact ⟨h1.trans h3, h4⟩

/-- Reading a place that exists. -/
theorem readOne_at {x : Ctx} {m : Nat} {h : Heap} {gs t : Str} {q : Nat} (hd : t ≠ [dot]) (hq : LPath h (commonComps gs ++ [t]) q) :
    readOne x m h (gs, t) = if (commonComps gs).all nameOk then if nameOk t then readData x.o (viewOf h) (exclOf x.o h) m q else .error .unicodeError
      else .error .unicodeError := by
  obtain ⟨g, h1, h2⟩ := lpath_snoc hq
  unfold readOne
  dsimp only
  rw [resolve_lpath (commonComps_plain gs) h1]
  have hg : isGroup h g = true := by
    unfold LinkAt linksOf at h2
    unfold isGroup
    cases hh : h[g]? with
    | none => rw [hh] at h2; cases h2
    | some o =>
      obtain ⟨a, b⟩ := o
      rw [hh] at h2
      cases b with
      | dset a f => cases h2
      | group l => rfl
  dsimp only
  rw [if_pos hg, hlook_plain _ _ _ hd]
  rw [LinkAt] at h2
  rw [h2]

/-- What the readers see of a place is not changed elsewhere. -/
theorem away_reads {x : Ctx} {ms : List Str} {h h' : Heap} (a : Away x.o ms h h') (hms : OffRefs x.o ms) (hs : SelfContained x.o h ms) {q : Nat}
    (hq : LPath h ms q) (m : Nat) : readData x.o (viewOf h') (exclOf x.o h') m q = readData x.o (viewOf h) (exclOf x.o h) m q := by
  have key : ∀ p, PartOf h q p → InOrRefs x.o h ms p := by
    intro p hp
    obtain ⟨h1, h2⟩ := hs q p hq hp
    refine ⟨h1, fun l hl => ?_⟩
    rcases h2 l hl with h | ⟨h, h3⟩
    · exact Or.inl h
    · exact Or.inr ⟨(head_prefix h hms.refs).symm, fun h4 => h3 (h4.eq_of_length_le h.length_le)⟩
  have excl : ∀ {g : Heap} {p : Nat}, InOrRefs x.o g ms p → exclOf x.o g ≠ some p := by
    intro g p hp he
    rcases hp.2 _ (lpath_resolve (plainComps x) he) with h | h
    · exact hms.head (head_prefix h hms.ne)
    · exact h.2 (List.prefix_refl _)
  refine readData_local x.o (S := PartOf h q) ?_ ?_ ?_ m q .refl
  · intro p hp
    unfold viewOf
    rw [a.obj p (key p hp)]
  · intro p ob r hp hv hh
    unfold viewOf at hv
    cases ho : h[p]? with
    | none => rw [ho] at hv; cases hv
    | some o =>
      rw [ho] at hv
      simp only [Option.map_some, Option.some.injEq] at hv
      subst hv
      exact .step hp ho hh
  · intro p hp
    have := key p hp
    exact ⟨fun h => absurd h (excl (a.keep this)), fun h => absurd h (excl this)⟩

/-- The objects a write makes. -/
theorem newObj_in {x : Ctx} {s s' : St} (ht : Tree s.heap) {gl : List Str} {g : Nat} {t : Str} (hg : LPath s.heap gl g)
    (f : Fr x (oneA g t) (TgtD s g t) s s') (hrf : refsComps x.o ≠ []) {p : Nat} (hp : NewObj x s s' p) : InOrRefs x.o s'.heap (gl ++ [t]) p := by
  have key : ∀ l q, LPath s'.heap l q → s.heap.length ≤ q → gl ++ [t] <+: l ∨ (l.head? = (refsComps x.o).head? ∧ l ≠ []) := by
    intro l q hl
    induction hl with
    | root => intro h; have := isGroup_lt ht.root; omega
    | @snoc l p0 q k h1 h2 ih =>
      intro hq
      by_cases hp0 : p0 < s.heap.length
      · have ho := f.lpath_old h1 hp0
        by_cases hD : TgtD s g t p0
        · obtain ⟨r, h3, h4⟩ := hD
          obtain ⟨l', h5⟩ := LPath.reach (.snoc hg h3) h4
          rw [ho.unique ht h5]
          exact Or.inl (by rw [List.append_assoc]; exact List.prefix_append _ _)
        by_cases hA : oneA g t p0 k
        · obtain ⟨rfl, rfl⟩ := hA
          rw [ho.unique ht hg]
          exact Or.inl (List.prefix_refl _)
        by_cases hC : ChainKey x s p0 k
        · refine Or.inr ⟨?_, by simp⟩
          rcases hC with ⟨_, pre, c1, c2⟩ | ⟨c, _⟩
          · rw [ho.unique ht (lpath_resolve (prefix_plain (plainComps x) (prefix_of_snoc c1)) c2)]
            exact head_prefix c1 (by simp)
          · rw [ho.unique ht (lpath_resolve (plainComps x) c), head_append_ne hrf]
        · have := f.links p0 hp0 hD k hA hC
          rw [LinkAt, this] at h2
          have := ht.wf _ _ _ h2
          omega
      · rcases ih (by omega) with h | ⟨h3, h4⟩
        · exact Or.inl (h.trans (List.prefix_append _ _))
        · exact Or.inr ⟨by rw [head_append_ne h4, h3], by simp⟩
  obtain ⟨h1, h2, h3⟩ := hp
  refine ⟨h2, fun l hl => ?_⟩
  rcases key l p hl h1 with h | ⟨h, h4⟩
  · exact Or.inl h
  · exact Or.inr ⟨h, fun h5 => h3 ⟨l, h5, resolve_lpath (prefix_plain (plainComps x) h5) hl⟩⟩

/-- `v` is stored at `ms`: reading it depends only on objects there and in the references Group. -/
structure StoredAt (x : Ctx) (n : Nat) (h : Heap) (ms : List Str) (v : Val) : Prop where
  names : ms.all nameOk = true
  ex : ∃ (q : Nat) (S : Nat → Prop), LPath h ms q ∧ (∀ p, S p → InOrRefs x.o h ms p) ∧
    ∀ (ro : COpts) (V : View) (excl : Option Nat) (m : Nat), ReadableWith x.o ro v → (∀ p, S p → V p = viewOf h p) → (∀ r, excl = some r → ¬ S r) → n ≤ m → readData ro V excl m q = .ok v

theorem StoredAt.away {x : Ctx} {n : Nat} {h h' : Heap} {ms : List Str} {v : Val} (hs : StoredAt x n h ms v) (a : Away x.o ms h h') : StoredAt x n h' ms v := by
  obtain ⟨h0, q, S, h1, h2, h3⟩ := hs
  refine ⟨h0, q, S, (a.path q).mpr h1, fun p hp => a.keep (h2 p hp), fun ro V excl m hro h4 h5 h6 => h3 ro V excl m hro ?_ h5 h6⟩
  intro p hp
  rw [h4 p hp]
  unfold viewOf
  rw [a.obj p (h2 p hp)]

theorem StoredAt.readsBack {x : Ctx} {n : Nat} {h : Heap} {ms : List Str} {v : Val} (hs : StoredAt x n h ms v) (hr : RefsPathOk x.o) (hms : OffRefs x.o ms) :
    ReadsBack x n h ms v := by
  obtain ⟨h0, q, S, h1, h2, h3⟩ := hs
  intro y G p m hy hyr hG hh ha hm
  rcases snoc_cases ms with rfl | ⟨l, t, rfl⟩
  · exact absurd rfl hms.ne
  obtain ⟨gs, c1, rfl⟩ := addr_check hr hms ha
  rw [fileRead_eq, hy, c1]
  dsimp only
  rw [hG, hh, if_neg (by decide), readOne_at (hms.plain t (by simp)) h1]
  simp only [List.all_append, List.all_cons, List.all_nil, Bool.and_true, Bool.and_eq_true] at h0
  rw [if_pos h0.1, if_pos h0.2]
  refine h3 _ _ _ m hyr (fun _ _ => rfl) ?_ hm
  intro r he hS
  rw [exclOf, hy] at he
  rcases (h2 r hS).2 _ (lpath_resolve (plainComps x) he) with h | h
  · exact hms.head (head_prefix h hms.ne)
  · exact h.2 (List.prefix_refl _)

/-- One write to an unused place. -/
theorem writeOne_stored {x : Ctx} (hR : RtOpts x.o) {n : Nat} {s s' : St} {ob : Option Nat} (hi : Inv x s) (ht : Tree s.heap) {gs t : Str} {v : Val}
    (ho : OffRefs x.o (commonComps gs ++ [t])) (hfree : ¬ Exists s.heap (commonComps gs ++ [t])) (hr : RandOk x s.rpos s'.rpos) (hv : Good x.o v)
    (h : writeOne x n (gs, t) v s = (.ok ob, s')) : StoredAt x n s'.heap (commonComps gs ++ [t]) v := by
  have hd : t ≠ [dot] := ho.plain t (by simp)
  obtain ⟨s1, g, w⟩ := writeOne_run (Spec.RtOpts.names hR) hi ht ho hd h
  obtain ⟨r1, r2, r3, r4⟩ := w.reqG.ok g rfl
  have hf : Fresh s1 g t := by
    intro q hl
    rcases r3 with h3 | h3
    · rw [h3] at hl r1
      exact hfree ⟨q, .snoc r1 hl⟩
    · rw [LinkAt, h3] at hl; cases hl
  have hnr := ho.notRefs w.tree r1
  have hb : s1.rpos = s.rpos := w.reqG.bk.2.2.2.1
  obtain ⟨q, rfl, out⟩ := writeData_rt hR n s1 g _ t v s' ob s'.rpos w.pre hf (fun h => absurd h hnr) (by rw [hb]; exact hr) (Nat.le_refl _) hv w.run
  refine ⟨?_, q, NewObj x s1 s', .snoc w.path (out.link hnr), fun p hp => newObj_in w.tree r1 w.post.step.fr ho.refs hp, fun V excl m h1 h2 h3 => out.reads V excl m h1 h2 h3⟩
  simp only [List.all_append, List.all_cons, List.all_nil, Bool.and_true, Bool.and_eq_true]
  exact ⟨r4, writeData_nameOk w.run⟩

theorem writeOne_rpos {x : Ctx} (hn : NamesOk x.o) {n : Nat} {s s' : St} {res : Res (Option Nat)} (hi : Inv x s) (ht : Tree s.heap) {gs t : Str} {v : Val}
    (ho : OffRefs x.o (commonComps gs ++ [t])) (h : writeOne x n (gs, t) v s = (res, s')) : s.rpos ≤ s'.rpos := by
  unfold writeOne at h
  dsimp only at h
  rcases bind_run (requireGroup (commonComps gs)) (fun g => writeData x n g (absName (commonComps gs)) t v) s with ⟨g, s1, e1, e2⟩ | ⟨e, s1, e1, e2⟩
  · rw [e2] at h
    have r := requireGroup_user hi ht ho e1
    obtain ⟨r1, r2, _, _⟩ := r.ok g rfl
    have ht1 := tree_step ht r.step (fun h => h)
    have hp := ho.pre r.step.inv ht1 r1 (isGroup_lt r2)
    exact Nat.le_trans r.step.fr.rpos (writeData_post hn.keys hn.vals n s1 g _ t v s' res hp h).step.fr.rpos
  · rw [e2] at h; cases h
    exact (requireGroup_user hi ht ho e1).step.fr.rpos

theorem writeMany_rpos {x : Ctx} (hn : NamesOk x.o) {n : Nat} {l : List ((Str × Str) × Val)} {s s' : St} {res : Res Unit} (hi : Inv x s) (ht : Tree s.heap)
    (ho : ∀ e ∈ l, OffRefs x.o (commonComps e.1.1 ++ [e.1.2])) (h : writeMany x n l s = (res, s')) : s.rpos ≤ s'.rpos := by
  induction l generalizing s with
  | nil => cases h; exact Nat.le_refl _
  | cons e l ih =>
    obtain ⟨⟨gs, t⟩, v⟩ := e
    rw [writeMany] at h
    rcases bind_run (writeOne x n (gs, t) v) (fun _ => writeMany x n l) s with ⟨a, s1, e1, e2⟩ | ⟨e, s1, e1, e2⟩
    · rw [e2] at h
      obtain ⟨h1, h2⟩ := writeOne_keep hn hi ht (ho ((gs, t), v) (by simp)) e1
      exact Nat.le_trans (writeOne_rpos hn hi ht (ho ((gs, t), v) (by simp)) e1) (ih h1 h2 (fun e he => ho e (by simp [he])) h)
    · rw [e2] at h; cases h
      exact writeOne_rpos hn hi ht (ho ((gs, t), v) (by simp)) e1

/-- Several writes to unused places. -/
theorem writeMany_stored {x : Ctx} (hR : RtOpts x.o) {n : Nat} {l : List ((Str × Str) × Val)} {s s' : St} (hi : Inv x s) (ht : Tree s.heap)
    (ho : ∀ e ∈ l, OffRefs x.o (commonComps e.1.1 ++ [e.1.2]) ∧ ¬ Exists s.heap (commonComps e.1.1 ++ [e.1.2]) ∧ Good x.o e.2)
    (hap : l.Pairwise fun a b => Apart (commonComps a.1.1 ++ [a.1.2]) (commonComps b.1.1 ++ [b.1.2]))
    (hr : RandOk x s.rpos s'.rpos) (h : writeMany x n l s = (.ok (), s')) : ∀ e ∈ l, StoredAt x n s'.heap (commonComps e.1.1 ++ [e.1.2]) e.2 := by
  have hN := Spec.RtOpts.names hR
  induction l generalizing s with
  | nil => intro e he; cases he
  | cons e l ih =>
    obtain ⟨⟨gs, t⟩, v⟩ := e
    obtain ⟨o1, o2, o3⟩ := ho ((gs, t), v) (by simp)
    obtain ⟨p1, p2⟩ := List.pairwise_cons.mp hap
    rw [writeMany] at h
    rcases bind_run (writeOne x n (gs, t) v) (fun _ => writeMany x n l) s with ⟨ob, s1, e1, e2⟩ | ⟨e, s1, e1, e2⟩
    · rw [e2] at h
      obtain ⟨h1, h2⟩ := writeOne_keep hN hi ht o1 e1
      have hro := writeOne_rpos hN hi ht o1 e1
      have hro2 := writeMany_rpos hN h1 h2 (fun e he => (ho e (by simp [he])).1) h
      have hst := writeOne_stored hR hi ht o1 o2 (fun i j a b c => hr i j a b (by omega)) o3 e1
      intro e he
      rcases List.mem_cons.mp he with rfl | he
      · exact hst.away (writeMany_away hN h1 h2 (fun e he => ⟨(ho e (by simp [he])).1, And.symm (p1 e he)⟩) o1 h)
      · refine ih h1 h2 ?_ p2 (fun i j a b c => hr i j (by omega) b c) h e he
        intro e he
        obtain ⟨q1, q2, q3⟩ := ho e (by simp [he])
        refine ⟨q1, ?_, q3⟩
        rintro ⟨q, hq⟩
        exact q2 ⟨q, ((writeOne_away hN hi ht o1 q1 (p1 e he) e1).path q).mp hq⟩
    · rw [e2] at h; cases h

end HS
