import Verif.Lemmas.FileApi
import Verif.Spec.Storage
/-
What a write leaves at its place.
-/
namespace HS
open Spec

theorem h5Store_shape (a : Arr) : (h5Store a).shape = a.shape := by
  unfold h5Store h5Read
  split
  · split
    · split <;> rfl
    · rfl
  · rfl
  · rfl
  · rfl

theorem h5Store_size (a : Arr) : DataSize (h5Store a) a.nbytes := by
  unfold DataSize
  rw [h5Store_shape]
  unfold Arr.nbytes h5Store
  split
  · rename_i n0 n1 dbl he
    left
    unfold h5Read
    rw [he]
    dsimp only
    split
    · cases dbl <;> rfl
    · rw [he]
  · rename_i he
    right
    rw [he]; exact ⟨rfl, by simp [DT.itemsize]⟩
  · rename_i he
    left
    rw [he]; rfl
  · left; rfl

theorem h5Store_dt_size {a b : Arr} (h : b.dt = a.dt) (hs : b.shape = a.shape) : DataSize (h5Store b) a.nbytes := by
  have : a.nbytes = b.nbytes := by unfold Arr.nbytes; rw [h, hs]
  rw [this]; exact h5Store_size b

theorem filtersFor_asked (o : COpts) (a : Arr) : AsAsked o a.shape a.nbytes (filtersFor o a).stored := by
  unfold filtersFor
  by_cases h : a.shape ≠ [] ∧ o.compress = true ∧ o.threshold ≤ a.nbytes
  · rw [if_pos h]
    refine ⟨fun _ => ⟨rfl, rfl, rfl, ?_⟩, fun hn => absurd ⟨h.2.1, h.1, h.2.2⟩ hn⟩
    simp only [Filters.stored]
    split <;> rfl
  · rw [if_neg h]
    refine ⟨fun ⟨h1, h2, h3⟩ => absurd ⟨h2, h1, h3⟩ h, fun _ => ⟨rfl, rfl, rfl, ?_⟩⟩
    simp only [Filters.stored]
    by_cases hs : a.shape = []
    · simp [hs]
    · rw [if_pos hs]; simp [hs]

theorem filtersFor_chunked (o : COpts) (a : Arr) : ChunkedAsNeeded (filtersFor o a).stored := by
  unfold filtersFor ChunkedAsNeeded
  split
  · simp [Filters.stored]
  · simp [Filters.stored]

/-- Overwriting in place needs the same filters. -/
theorem sameFilters_asked {o : COpts} {a : Arr} {fb : Filters} (h : SameFilters (filtersFor o a) fb) : AsAsked o a.shape a.nbytes fb := by
  have hs := filtersFor_asked o a
  have h1 : fb.compression = (filtersFor o a).stored.compression := h.compression
  have h2 : fb.shuffle = (filtersFor o a).stored.shuffle := h.shuffle
  have h3 : fb.fletcher32 = (filtersFor o a).stored.fletcher32 := h.fletcher32
  have h4 : fb.opts = (filtersFor o a).stored.opts := by
    rw [h.opts.2]
    have := h.opts.1
    simp only [Filters.stored]
    cases ho : (filtersFor o a).opts with
    | none => rw [ho] at this; cases this
    | some op => rfl
  exact ⟨by rw [h1, h2, h3, h4]; exact hs.compressed, by rw [h1, h2, h3, h4]; exact hs.plain⟩

/-- What holds of all Datasets of the file: those of `h0` that were not overwritten, the canonical empty, and Datasets with the filters asked for. -/
def DsetsOk (o : COpts) (h0 h : Heap) : Prop := h0.length ≤ h.length ∧ ∀ (q : Nat) at' b f, h[q]? = some ⟨at', .dset b f⟩ →
  (∃ at0, h0[q]? = some ⟨at0, .dset b f⟩) ∨ CanonicalEmpty b f ∨
  ∃ sz, DataSize b sz ∧ AsAsked o b.shape sz f ∧ (ChunkedAsNeeded f ∨ ∃ at0 b0, h0[q]? = some ⟨at0, .dset b0 f⟩)

theorem dsetsOk_elem (o : COpts) (h0 : Heap) : Elem o (DsetsOk o h0) where
  create := by
    rintro h g name ob ⟨hl, hP⟩ hg hn hm
    refine ⟨?_, ?_⟩
    · have : (createHeap h g name ob).length = h.length + 1 := by simp [createHeap, length_update]
      omega
    intro q at' b f hq
    rw [getElem?_createHeap] at hq
    by_cases h1 : q = h.length
    · rw [if_pos h1] at hq
      cases hq
      cases hm with
      | canon => exact Or.inr (Or.inl ⟨rfl, rfl⟩)
      | dset d => exact Or.inr (Or.inr ⟨d.nbytes, h5Store_size d, by rw [h5Store_shape]; exact filtersFor_asked o d, Or.inl (filtersFor_chunked o d)⟩)
    · rw [if_neg h1] at hq
      by_cases h2 : q = g
      · subst h2
        exfalso
        unfold isGroup at hg
        cases hq' : h[q]? with
        | none => rw [hq'] at hg; cases hg
        | some o1 =>
          obtain ⟨a1, b1⟩ := o1
          rw [hq'] at hg hq
          cases b1 with
          | dset _ _ => cases hg
          | group l => simp [Obj.mapLinks] at hq
      · simp only [h2, if_false] at hq
        exact hP q at' b f hq
  filter := by
    rintro h g f ⟨hl, hP⟩
    refine ⟨by rw [length_update]; exact hl, ?_⟩
    intro q at' b f' hq
    rw [getElem?_update] at hq
    split at hq
    · rename_i he
      subst he
      cases hq' : h[q]? with
      | none => rw [hq'] at hq; cases hq
      | some o1 =>
        obtain ⟨a1, b1⟩ := o1
        rw [hq'] at hq
        cases b1 with
        | dset _ _ => exact hP q at' b f' (by rw [hq']; exact hq)
        | group l => simp [Obj.mapLinks] at hq
    · exact hP q at' b f' hq
  attrs := by
    rintro h p f ⟨hl, hP⟩
    refine ⟨by rw [length_update]; exact hl, ?_⟩
    intro q at' b f' hq
    rw [getElem?_update] at hq
    split at hq
    · rename_i he
      subst he
      cases hq' : h[q]? with
      | none => rw [hq'] at hq; cases hq
      | some o1 =>
        obtain ⟨a1, b1⟩ := o1
        rw [hq'] at hq
        simp only [Option.map_some, Option.some.injEq, Obj.mk.injEq] at hq
        obtain ⟨_, rfl⟩ := hq
        exact hP q a1 b f' hq'
    · exact hP q at' b f' hq
  data := by
    rintro h q a b fb at' ⟨hl, hP⟩ hq hd hs hf
    refine ⟨by rw [length_update]; exact hl, ?_⟩
    intro q' at2 b2 f2 hq2
    rw [getElem?_update] at hq2
    split at hq2
    · rename_i he
      subst he
      rw [hq] at hq2
      simp only [Option.map_some, Option.some.injEq, Obj.mk.injEq, Body.dset.injEq] at hq2
      obtain ⟨_, rfl, rfl⟩ := hq2
      refine Or.inr (Or.inr ⟨a.nbytes, h5Store_size a, by rw [h5Store_shape]; exact sameFilters_asked hf, ?_⟩)
      rcases hP q' at' b fb hq with ⟨at0, h1⟩ | ⟨_, h1⟩ | ⟨sz, _, _, h1⟩
      · exact Or.inr ⟨_, _, h1⟩
      · left; subst h1; simp [ChunkedAsNeeded]
      · exact h1
    · exact hP q' at2 b2 f2 hq2

/-- A write through `File` taken apart: the containing Group is found or made, then the value is written there. -/
structure WroteRun (x : Ctx) (n : Nat) (s s' : St) (ns : List Str) (v : Val) (gs t : Str) (s1 : St) (g : Nat) (ob : Option Nat) : Prop where
  names : ns = commonComps gs ++ [t]
  dot : t ≠ [HS.dot]
  off : OffRefs x.o ns
  inv0 : Inv x s
  tree0 : Tree s.heap
  inv : Inv x s1
  tree : Tree s1.heap
  req : requireGroup (commonComps gs) s = (.ok g, s1)
  reqG : ReqG x (commonComps gs) s s1 (.ok g)
  path1 : LPath s1.heap (commonComps gs) g
  pre : Pre x s1 g t
  run : writeData x n g (absName (commonComps gs)) t v s1 = (.ok ob, s')
  post : Post x g t s1 s' (fun q => ob = some q)
  path : LPath s'.heap (commonComps gs) g
  grp : isGroup s'.heap g = true

/-- The part of `writeOne` after which the Group is there. -/
theorem writeOne_run {x : Ctx} (hN : NamesOk x.o) {n : Nat} {s s' : St} {ob : Option Nat} (hi : Inv x s) (ht : Tree s.heap) {gs t : Str} {v : Val}
    (ho : OffRefs x.o (commonComps gs ++ [t])) (hd : t ≠ [dot])
    (h : writeOne x n (gs, t) v s = (.ok ob, s')) : ∃ s1 g, WroteRun x n s s' (commonComps gs ++ [t]) v gs t s1 g ob := by
  unfold writeOne at h
  dsimp only at h
  rcases bind_run (requireGroup (commonComps gs)) (fun g => writeData x n g (absName (commonComps gs)) t v) s with ⟨g, s1, e1, e2⟩ | ⟨e, s1, e1, e2⟩
  · rw [e2] at h
    have r := requireGroup_user hi ht ho e1
    obtain ⟨r1, r2, r3, r4⟩ := r.ok g rfl
    have ht1 := tree_step ht r.step (fun h => h)
    have hp := ho.pre r.step.inv ht1 r1 (isGroup_lt r2)
    have po := writeData_post hN.keys hN.vals n s1 g _ t v s' _ hp h
    have hcomps : commonComps gs = [] ∨ OffRefs x.o (commonComps gs) := by
      by_cases hc : commonComps gs = []
      · exact Or.inl hc
      · exact Or.inr (ho.prefix (List.prefix_append _ _) hc)
    have hpath := po.step.fr.resolve_user ht1 r1 hcomps not_prefix_snoc
    rw [resolve_lpath (commonComps_plain gs) r1] at hpath
    have hlp : LPath s'.heap (commonComps gs) g := lpath_resolve (commonComps_plain gs) hpath
    refine ⟨s1, g, rfl, hd, ho, hi, ht, r.step.inv, ht1, e1, r, r1, hp, h, po.weaken (fun p hp => by rw [hp]), hlp, ?_⟩
    obtain ⟨at', l, hg⟩ := isGroup_get r2
    have hg' := hg
    obtain ⟨o', h1, _, h3⟩ := po.step.fr.obj g _ hg (by
      rintro ⟨q, hq, hr⟩
      obtain ⟨l, hl⟩ := LPath.reach (.snoc r1 hq) hr
      have := LPath.unique ht1 r1 hl
      simp at this)
    exact isGroup_of_kind hg h1 h3 r2
  · rw [e2] at h; cases h

/-- A write through `File` taken apart. -/
theorem wrote_run_at {x : Ctx} (hN : NamesOk x.o) {F F' : FileS} {p : PathArg} {ns : List Str} {v : Val} {n : Nat} (hp : RefsPathOk x.o) (hi : Inv x F.st) (ht : Tree F.st.heap)
    (hro : F.ro = false) (ha : Addr p ns) (hne : ns ≠ []) (h : fileWrite x n p v F = (.ok (), F')) :
    ∃ gs t s1 g ob, WroteRun x n F.st F'.st ns v gs t s1 g ob := by
  unfold fileWrite fileWrites at h
  split at h
  · cases h
  cases hc : checkItems x.o.refsPath [(p, v)] with
  | error e => rw [hc] at h; cases h
  | ok tw =>
    rw [hc] at h
    dsimp only at h
    split at h
    · cases h
    obtain ⟨⟨gs, t⟩, h1, h2⟩ := res_bind_ok.mp hc
    obtain ⟨l, h3, h4⟩ := res_bind_ok.mp h2
    cases h3
    cases h4
    obtain ⟨c1, c2, c3⟩ := checkPath_off hp h1
    have hd : t ≠ [dot] := by
      intro hd
      exact hne (addr_unique ha (c3 hd))
    obtain ⟨ho, hns⟩ := c2 hd
    have hns' : ns = commonComps gs ++ [t] := addr_unique ha ⟨gs, t, c1, hns.symm⟩
    subst hns'
    rcases bind_run (writeOne x n (gs, t) v) (fun _ => writeMany x n []) F.st with ⟨ob, s1, e1, e2⟩ | ⟨e, s1, e1, e2⟩
    · have e3 : writeMany x n [((gs, t), v)] F.st = (.ok (), s1) := e2
      rw [runFile_rw _ hro, e3] at h
      cases h
      obtain ⟨s2, g, hr⟩ := writeOne_run hN hi ht ho hd e1
      exact ⟨gs, t, s2, g, ob, hr⟩
    · have e3 : writeMany x n [((gs, t), v)] F.st = (.error e, s1) := e2
      rw [runFile_rw _ hro, e3] at h; cases h

theorem wrote_run {x : Ctx} (hN : NamesOk x.o) {F F' : FileS} {p : PathArg} {ns : List Str} {v : Val} {n : Nat} (hw : Wrote x n F p ns v F') :
    ∃ gs t s1 g ob, WroteRun x n F.st F'.st ns v gs t s1 g ob := by
  obtain ⟨hp, hF, hro, ha, hne, h⟩ := hw
  obtain ⟨hi, ht⟩ := reach_keep hp hN hF
  exact wrote_run_at hN hp hi ht hro ha hne h

theorem createObj_done {g q : Nat} {name : Str} {o : Obj} {s s' : St} (h : createObj g name o s = (.ok q, s')) (ho : objLinks o = []) :
    s'.heap[q]? = some o ∧ LinkAt s'.heap g name q ∧ name ≠ [dot] ∧ s'.heap = createHeap s.heap g name o ∧ isGroup s.heap g = true ∧
      aget (linksOf s.heap g) name = none := by
  rcases createObj_run g name o s with ⟨e, h1⟩ | ⟨h1, h2, h3, h4, h5, h6⟩
  · rw [h1] at h; cases h
  · rw [h1] at h; cases h
    refine ⟨?_, ?_, h5, rfl, h4, h6⟩
    · rw [getElem?_createHeap, if_pos rfl]
    · exact (linkAt_createHeap _ _ _ _ h4 h6 ho _ _ _).mpr (Or.inr ⟨rfl, rfl, rfl⟩)

/-- The Dataset is new, or the one that was there was overwritten in place. -/
inductive PutHow (s : St) (g : Nat) (name : Str) (a : Arr) (f : Filters) (q : Nat) : List (Str × AVal) → Filters → Prop
  | made : s.heap.length ≤ q → PutHow s g name a f q [] f.stored
  | inPlace {at' : List (Str × AVal)} {b : Arr} {fb : Filters} : LinkAt s.heap g name q → s.heap[q]? = some ⟨at', .dset b fb⟩ → SameFilters f fb → b.dt = a.dt → b.shape = a.shape →
      PutHow s g name a f q at' fb

theorem putDataset_done {g q : Nat} {name : Str} {a : Arr} {f : Filters} {s s' : St} (hd : name ≠ [dot]) (h : putDataset g name a f s = (.ok q, s')) :
    LinkAt s'.heap g name q ∧ ∃ at' f', s'.heap[q]? = some ⟨at', .dset (h5Store a) f'⟩ ∧ PutHow s g name a f q at' f' := by
  have cr : ∀ s0, s.heap.length ≤ s0.heap.length → createDset g name a f s0 = (.ok q, s') → LinkAt s'.heap g name q ∧ ∃ at' f', s'.heap[q]? = some ⟨at', .dset (h5Store a) f'⟩ ∧ PutHow s g name a f q at' f' := by
    intro s0 hs0 h
    obtain ⟨h1, h2, _⟩ := createObj_done h rfl
    rcases createObj_run g name ⟨[], .dset (h5Store a) f.stored⟩ s0 with ⟨e, h3⟩ | ⟨h3, _⟩
    · rw [createDset, h3] at h; cases h
    · rw [createDset, h3] at h; cases h
      exact ⟨h2, _, _, h1, .made hs0⟩
  have rep : (do unlink g name; createDset g name a f : M Nat) s = (.ok q, s') → LinkAt s'.heap g name q ∧ ∃ at' f', s'.heap[q]? = some ⟨at', .dset (h5Store a) f'⟩ ∧ PutHow s g name a f q at' f' := by
    intro h
    rcases bind_run (unlink g name) (fun _ => createDset g name a f) s with ⟨u, s1, e1, e2⟩ | ⟨e, s1, e1, e2⟩
    · refine cr s1 ?_ (e2 ▸ h)
      unfold unlink at e1
      split at e1
      · cases e1
      split at e1
      · cases e1
      · cases e1; dsimp only; rw [length_update]; exact Nat.le_refl _
    · rw [e2] at h; cases h
  unfold putDataset at h
  rw [run_getSt] at h
  cases hq0 : (if nameOk name = true then hlook s.heap g name else none) with
  | none => rw [hq0] at h; exact cr s (Nat.le_refl _) h
  | some q0 =>
    have hl : LinkAt s.heap g name q0 := by
      split at hq0
      · rwa [hlook_plain _ _ _ hd] at hq0
      · cases hq0
    rw [hq0] at h
    dsimp only at h
    cases hq : s.heap[q0]? with
    | none =>
      rw [hq] at h
      dsimp only at h
      rw [if_neg hd] at h
      exact rep h
    | some ob =>
      obtain ⟨at', b⟩ := ob
      rw [hq] at h
      cases b with
      | group l =>
        dsimp only at h
        rw [if_neg hd] at h
        exact rep h
      | dset b fb =>
        dsimp only at h
        split at h
        · exact rep h
        · rename_i hne
          simp only [not_or, Decidable.not_not] at hne
          obtain ⟨n1, n2, n3, n4, n5⟩ := hne
          cases hf : f.opts with
          | none => rw [hf] at h; exact cr s (Nat.le_refl _) h
          | some op =>
            rw [hf] at h
            dsimp only at h
            split at h
            · exact rep h
            · rename_i hop
              rw [run_modSt, run_pure] at h
              cases h
              refine ⟨?_, at', fb, ?_, .inPlace hl hq ⟨n3, n4, n5, ?_⟩ n1 n2⟩
              · unfold LinkAt
                rw [linksOf_update_body]
                · exact hl
                · intro o ho
                  rw [hq] at ho; cases ho
                  rfl
              · dsimp only
                rw [getElem?_update, if_pos rfl, hq]; rfl
              · rw [hf]
                exact ⟨rfl, by simpa using hop⟩

theorem setAttrs_done {p : Nat} {new : List (Str × AIn)} {d : Bool} {s s' : St} (h : setAttrsM p new d s = (.ok (), s')) :
    ∃ o at', s.heap[p]? = some o ∧ setAttributesAll o.attrs new d = (.ok (), at') ∧ s' = { s with heap := s.heap.set p { o with attrs := at' } } := by
  unfold setAttrsM at h
  cases hp : s.heap[p]? with
  | none => rw [hp] at h; cases h
  | some o =>
    rw [hp] at h
    dsimp only at h
    cases hr : setAttributesAll o.attrs new d with
    | mk r at' =>
      rw [hr] at h
      cases h
      exact ⟨o, at', rfl, by rw [← hr], rfl⟩

theorem linkAt_set_attrs {h : Heap} {p : Nat} {o : Obj} {at' : List (Str × AVal)} (hp : h[p]? = some o) (g : Nat) (k : Str) (q : Nat) :
    LinkAt (h.set p { o with attrs := at' }) g k q ↔ LinkAt h g k q := by
  have : linksOf (h.set p { o with attrs := at' }) g = linksOf h g := by
    have := linksOf_update_body (h := h) (g := p) (f := fun o => { o with attrs := at' }) (fun o _ => by obtain ⟨a, b⟩ := o; cases b <;> rfl) g
    unfold Heap.update at this
    rw [hp] at this
    exact this
  unfold LinkAt
  rw [this]

theorem getElem?_set_attrs {h : Heap} {p : Nat} {o o' : Obj} (hp : h[p]? = some o) : (h.set p o')[p]? = some o' := by
  have := (List.getElem?_eq_some_iff.mp hp).1
  simp [List.getElem?_set, this]

/-- What `writeNp` leaves, whatever was there before. -/
theorem writeNp_done {x : Ctx} {g : Nat} {name : Str} {c : Cont} {a : Arr} {ts : Str} {s s' : St} {ob : Option Nat} (hd : name ≠ [dot])
    (h : writeNp x g name c a ts s = (.ok ob, s')) :
    (ob = none ∧ s' = s ∧ x.o.matlab = true ∧ a.dt.matlabClass = none ∧ x.o.action = .discard) ∨
    ∃ d q at0 f' at', prepare x.o c a = .ok d ∧ ob = some q ∧ LinkAt s'.heap g name q ∧ PutHow s g name d (filtersFor x.o d) q at0 f' ∧
      s'.heap[q]? = some ⟨at', .dset (h5Store d) f'⟩ ∧ setAttributesAll at0 (npAttrs x.o c a.dt a.shape a.isEmpty (h5Store d).dt ts) true = (.ok (), at') ∧
      ¬ (x.o.matlab = true ∧ a.dt.matlabClass = none ∧ x.o.action ≠ .ignore) := by
  unfold writeNp at h
  split at h
  · cases h
  rename_i h1
  split at h
  · rename_i h2
    cases h
    exact Or.inl ⟨rfl, rfl, h2⟩
  · rename_i h2
    right
    cases hp : prepare x.o c a with
    | error e => rw [hp] at h; cases h
    | ok d =>
      rw [hp] at h
      have h : (putDataset g name d (filtersFor x.o d) >>= fun p => setAttrsM p (npAttrs x.o c a.dt a.shape a.isEmpty (h5Store d).dt ts) true >>= fun _ => (pure (some p) : M (Option Nat))) s = (.ok ob, s') := h
      rcases bind_run (putDataset g name d (filtersFor x.o d)) (fun p => setAttrsM p (npAttrs x.o c a.dt a.shape a.isEmpty (h5Store d).dt ts) true >>= fun _ => (pure (some p) : M (Option Nat))) s with ⟨q, s1, e1, e2⟩ | ⟨e, s1, e1, e2⟩
      · rw [e2] at h
        obtain ⟨p1, at0, f', p2, p3⟩ := putDataset_done hd e1
        rcases bind_run (setAttrsM q (npAttrs x.o c a.dt a.shape a.isEmpty (h5Store d).dt ts) true) (fun _ => (pure (some q) : M (Option Nat))) s1 with ⟨u, s2, e3, e4⟩ | ⟨e, s2, e3, e4⟩
        · rw [e4] at h
          cases h
          obtain ⟨o, at', q1, q2, rfl⟩ := setAttrs_done e3
          rw [p2] at q1
          cases q1
          refine ⟨d, q, at0, f', at', rfl, rfl, (linkAt_set_attrs p2 _ _ _).mpr p1, p3, getElem?_set_attrs p2, q2, ?_⟩
          rintro ⟨m1, m2, m3⟩
          cases ha : x.o.action with
          | error => exact h1 ⟨m1, m2, ha⟩
          | discard => exact h2 ⟨m1, m2, ha⟩
          | ignore => exact m3 ha
        · rw [e4] at h; cases h
      · rw [e2] at h; cases h

theorem indexOf_valid {s i : List Nat} (h : IndexOf s i) : ValidIx s i := by
  induction s generalizing i with
  | nil =>
    obtain ⟨h1, _⟩ := h
    cases i with
    | nil => exact .nil
    | cons _ _ => simp at h1
  | cons d s ih =>
    obtain ⟨h1, h2⟩ := h
    cases i with
    | nil => simp at h1
    | cons j i =>
      refine .cons (by simpa using h2 0 (by simp)) (ih ⟨by simpa using h1, ?_⟩)
      intro k hk
      simpa using h2 (k + 1) (by simp; omega)

theorem rowShape_eq (o : COpts) (s : List Nat) : RowShape o s = shape2 o s := by
  unfold RowShape shape2
  split
  · unfold atleast2dShape; rfl
  · rfl

theorem numeric_steps {o : COpts} {c : Cont} {a : Arr} (hn : NumericDT a.dt) : strStep o (c == .scalar) (bytesStep o a) = .ok a := by
  have hb : bytesStep o a = a := by
    unfold bytesStep
    cases hd : a.dt <;> first | rfl | (rw [hd] at hn; simp [NumericDT] at hn)
  rw [hb]
  unfold strStep
  cases hd : a.dt <;> first | rfl | (rw [hd] at hn; simp [NumericDT] at hn)

theorem numeric_isEmpty {a : Arr} (hn : NumericDT a.dt) : a.isEmpty = (prodN a.shape == 0) := by
  unfold Arr.isEmpty Arr.size
  cases hd : a.dt <;> first | (simp [DT.isString]; done) | (rw [hd] at hn; simp [NumericDT] at hn)

/-- The array before complex numbers are encoded. -/
theorem boolStep_dt {o : COpts} {a : Arr} : (boolStep o a).shape = a.shape ∧ (boolStep o a).data = a.data ∧
    (boolStep o a).dt = if o.boolsU8 = true ∧ a.dt = .bool then .u8 else a.dt := by
  unfold boolStep
  split <;> simp_all

theorem reverse2_shape (o : COpts) (a : Arr) : (reverseStep o (atleast2dStep o a)).shape = (if o.reverse then (shape2 o a.shape).reverse else shape2 o a.shape) ∧
    (reverseStep o (atleast2dStep o a)).dt = a.dt ∧
    (reverseStep o (atleast2dStep o a)).data = if o.reverse then transposeData (shape2 o a.shape) a.data else a.data := by
  unfold reverseStep atleast2dStep shape2 Arr.T Arr.atleast2d
  cases o.reverse <;> cases o.atleast2d <;> simp

theorem prepare_shape_from {o : COpts} {c : Cont} {a0 a d : Arr} (hu : strStep o (c == .scalar) (bytesStep o a0) = .ok a) (hs : o.storeShape = true) (he : a0.isEmpty = true)
    (h : prepare o c a0 = .ok d) : HoldsShape o a d ∧ h5Store d = d := by
  unfold prepare at h
  rw [hu] at h
  simp only [bind, Except.bind] at h
  rw [he, hs] at h
  rw [if_pos (by rfl)] at h
  have h1 : (boolStep o (reverseStep o (atleast2dStep o a))).shape = if o.reverse then (shape2 o a.shape).reverse else shape2 o a.shape := by
    rw [boolStep_dt.1, (reverse2_shape o a).1]
  rw [h1] at h
  have h2 : (if o.reverse = true then (if o.reverse = true then (shape2 o a.shape).reverse else shape2 o a.shape).reverse else
      (if o.reverse = true then (shape2 o a.shape).reverse else shape2 o a.shape)) = shape2 o a.shape := by
    cases o.reverse <;> simp
  rw [h2] at h
  have h3 : d = shapeArr (shape2 o a.shape) := by
    simp only [complexStep, shapeArr] at h
    cases h
    rfl
  subst h3
  refine ⟨?_, rfl⟩
  unfold HoldsShape shapeArr
  rw [rowShape_eq]
  rfl

theorem prepare_shape {o : COpts} {c : Cont} {a d : Arr} (hn : NumericDT a.dt) (hs : o.storeShape = true) (he : prodN a.shape = 0) (h : prepare o c a = .ok d) :
    HoldsShape o a d ∧ h5Store d = d :=
  prepare_shape_from (numeric_steps hn) hs (by rw [numeric_isEmpty hn, he]; rfl) h

theorem fieldName_or (s : Str) (k : Nat) : fieldName s k = s ∨ s = [] := by
  unfold fieldName
  cases s with
  | nil => exact Or.inr rfl
  | cons a l => exact Or.inl rfl

/-- The text conversions leave `u`. -/
theorem prepare_from {o : COpts} {c : Cont} {a0 a d : Arr} (hu : strStep o (c == .scalar) (bytesStep o a0) = .ok a)
    (hn : NumericDT a.dt ∨ ∃ n, n ≠ 0 ∧ a.dt = .bytes n) (hl : a.data.length = prodN a.shape)
    (he : ¬ (o.storeShape = true ∧ a0.isEmpty = true)) (h : prepare o c a0 = .ok d) :
    HoldsArray o a (h5Store d) := by
  unfold prepare at h
  rw [hu] at h
  simp only [bind, Except.bind] at h
  rw [if_neg (by simpa using he)] at h
  obtain ⟨b1, b2, b3⟩ := @boolStep_dt o (reverseStep o (atleast2dStep o a))
  obtain ⟨r1, r2, r3⟩ := reverse2_shape o a
  rw [r1] at b1
  rw [r3] at b2
  rw [r2] at b3
  generalize hr : boolStep o (reverseStep o (atleast2dStep o a)) = r at *
  -- only the dtype changes from here on
  have key : StoredDT o a.dt (h5Store d).dt ∧ (h5Store d).shape = r.shape ∧ (h5Store d).data = r.data := by
    unfold complexStep at h
    by_cases hb : a.dt = .bool
    · have : r.dt = if o.boolsU8 then .u8 else .bool := by rw [b3, hb]; simp
      have h0 : d = r ∧ h5Store d = d := by
        cases hu : o.boolsU8 <;> rw [hu] at this
        · have t : r.dt = .bool := by simpa using this
          rw [t] at h; cases h; exact ⟨rfl, by unfold h5Store; rw [t]⟩
        · have t : r.dt = .u8 := by simpa using this
          rw [t] at h; cases h; exact ⟨rfl, by unfold h5Store; rw [t]⟩
      rw [h0.2, h0.1, this, hb]
      exact ⟨.bool, rfl, rfl⟩
    · rw [if_neg (fun h => hb h.2)] at b3
      by_cases hc : a.dt = .c64 ∨ a.dt = .c128
      · have hcr : ∀ dbl, d = { r with dt := .crec (fieldName o.complexNames.1 0) (fieldName o.complexNames.2 1) dbl } →
            (h5Store d).dt = (if fieldName o.complexNames.1 0 = p!"r" ∧ fieldName o.complexNames.2 1 = p!"i" then (if dbl then DT.c128 else .c64)
              else .crec (fieldName o.complexNames.1 0) (fieldName o.complexNames.2 1) dbl) ∧ (h5Store d).shape = r.shape ∧ (h5Store d).data = r.data := by
          intro dbl hd
          subst hd
          unfold h5Store h5Read
          dsimp only
          split <;> simp_all
        rcases hc with hc | hc
        · rw [b3, hc] at h
          unfold encodeComplex at h
          dsimp only at h
          split at h
          · cases h
          · rw [b3, hc] at h
            obtain ⟨k1, k2, k3⟩ := hcr false (by cases h; rfl)
            rw [k1, hc]
            exact ⟨.c64 _ _ (fieldName_or _ _) (fieldName_or _ _), k2, k3⟩
        · rw [b3, hc] at h
          unfold encodeComplex at h
          dsimp only at h
          split at h
          · cases h
          · rw [b3, hc] at h
            obtain ⟨k1, k2, k3⟩ := hcr true (by cases h; rfl)
            rw [k1, hc]
            exact ⟨.c128 _ _ (fieldName_or _ _) (fieldName_or _ _), k2, k3⟩
      · have hd : d = r := by
          rw [b3] at h
          cases hdt : a.dt <;> rw [hdt] at h hc <;> first | (cases h; rfl) | simp at hc
        subst hd
        have hs : h5Store d = d := by
          unfold h5Store
          rw [b3]
          rcases hn with hn | ⟨n, hn0, hn⟩
          · cases hdt : a.dt <;> rw [hdt] at hn <;> first | rfl | simp [NumericDT] at hn
          · rw [hn]
            cases n with
            | zero => exact absurd rfl hn0
            | succ n => rfl
        rw [hs, b3]
        exact ⟨.same _ (by simp only [List.mem_cons, List.not_mem_nil, or_false, not_or]; exact ⟨hb, fun h => hc (Or.inl h), fun h => hc (Or.inr h)⟩), rfl, rfl⟩
  obtain ⟨k1, k2, k3⟩ := key
  refine ⟨k1, by rw [k2, b1, rowShape_eq], ?_, ?_⟩
  · rw [k2, k3, b1, b2]
    cases o.reverse
    · simp [hl, prodN_shape2]
    · simp [length_transposeData, prodN_reverse]
  · intro i hi
    rw [k2, k3, b1, b2, rowShape_eq]
    rw [rowShape_eq] at hi
    have hv := indexOf_valid hi
    cases o.reverse
    · rfl
    · simp only [if_true]
      exact getElem?_transposeData _ _ _ hv (by rw [hl, prodN_shape2])

theorem prepare_array {o : COpts} {c : Cont} {a d : Arr} (hn : NumericDT a.dt) (hl : a.data.length = prodN a.shape)
    (he : ¬ (o.storeShape = true ∧ prodN a.shape = 0)) (h : prepare o c a = .ok d) : HoldsArray o a (h5Store d) :=
  prepare_from (numeric_steps hn) (.inl hn) hl (by rw [numeric_isEmpty hn]; simpa using he) h

end HS
