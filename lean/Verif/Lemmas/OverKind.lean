import Verif.Lemmas.OverDset
import Verif.Lemmas.Progress
/-
What is known of a place after a value was written to it.
-/
namespace HS
open Spec

/-- The keys and values a mapping is written with. -/
inductive DictOf : Val → List Val → List Val → Bool → Prop
  | dict (k : DictKind) (keys vals : List Val) : DictOf (.dict k keys vals) keys vals (k != .counter)
  | record (k : RecKind) (vals : List Val) : DictOf (.record k vals) (k.fieldNames.map Val.str) vals true

/-- The attributes of a Group a mapping was written to.  The types of the keys may be stale if all keys are str. -/
inductive GroupAttrs (o : COpts) (keys : List Val) (struct : Bool) (ts : Str) (at' : List (Str × AVal)) : Prop
  | exact : AttrsOf (dictAttrs o (keyInfos keys) struct ts) at' → GroupAttrs o keys struct ts at'
  | stale (t : Str) (l : List (Str × Nat)) : keyInfos keys = some l → (∀ i ∈ l, i.2 = 116) → t.length ≠ l.length →
      (∀ k v, k ≠ p!"H5PATH" → k ≠ p!"Python.dict.key_str_types" → aget at' k = some v → ∃ i, aget (dictAttrs o (keyInfos keys) struct ts) k = some i ∧ i.stored = .ok v) →
      (∀ v, aget at' p!"Python.dict.key_str_types" = some v → (AIn.string t).stored = .ok v) → GroupAttrs o keys struct ts at'

/-- A Group, or a Dataset of compounds. -/
def GroupOrTable (h : Heap) (q : Nat) : Prop := isGroup h q = true ∨ ∃ at' a f, h[q]? = some ⟨at', .dset a f⟩ ∧ ¬ NC a.dt

/-- What is at a place, after the value was written to it. -/
inductive Kind (o : COpts) (h : Heap) : List Str → Val → Prop
  | dset {ms : List Str} {v : Val} {q : Nat} {at' : List (Str × AVal)} {d : Arr} {f : Filters} {new : List (Str × AIn)} : LPath h ms q →
      h[q]? = some ⟨at', .dset (h5Store d) f⟩ → DsetOf o v d new → AttrsOf new at' → Kind o h ms v
  | group {ms : List Str} {v : Val} {keys vals : List Val} {struct : Bool} {q : Nat} {at' : List (Str × AVal)} {links : List (Str × Nat)} : DictOf v keys vals struct →
      LPath h ms q → h[q]? = some ⟨at', .group links⟩ → GroupAttrs o keys struct (tsOf v) at' →
      (∀ k p, aget links k = some p → k ∈ (dictItems o keys vals).map (·.1)) →
      (∀ k w, (k, w) ∈ dictItems o keys vals → Kind o h (ms ++ [k]) w) → Kind o h ms v
  | struct {ms : List Str} (c : Cont) (shape : List Nat) (names : List Str) (types : List FT) (elems : List Val) {q : Nat} : LPath h ms q →
      (prodN shape ≠ 0 → GroupOrTable h q) → Kind o h ms (.npStruct c shape names types elems)

/-- Reading `q` gives `v` in every file that has these objects. -/
def ReadsAt (x : Ctx) (n : Nat) (h : Heap) (S : Nat → Prop) (q : Nat) (v : Val) : Prop :=
  ∀ (ro : COpts) (V : View) (excl : Option Nat) (m : Nat), ReadableWith x.o ro v → (∀ p, S p → V p = viewOf h p) → (∀ r, excl = some r → ¬ S r) → n ≤ m → readData ro V excl m q = .ok v

/-- The value is at the place. -/
structure OverOut (x : Ctx) (n : Nat) (h : Heap) (ms : List Str) (v : Val) : Prop where
  kind : Kind x.o h ms v
  reads : ∃ (q : Nat) (S : Nat → Prop), LPath h ms q ∧ S q ∧ (∀ p, S p → InOrRefs x.o h ms p) ∧ ReadsAt x n h S q v

/-- Nothing is at the place, or something that can be written over. -/
def OldOk (o : COpts) (h : Heap) (ms : List Str) (v : Val) : Prop := ∀ q, LPath h ms q → ∃ v1, Kind o h ms v1 ∧ Overwrites o v1 v

theorem at_in {o : COpts} {h : Heap} (ht : Tree h) {ms : List Str} {q : Nat} (hq : LPath h ms q) : InOrRefs o h ms q :=
  ⟨lpath_lt ht hq, fun l hl => Or.inl (by rw [hl.unique ht hq]; exact List.prefix_refl _)⟩

/-- What is not changed at a place is not changed below it. -/
theorem away_sub {o : COpts} {ms : List Str} {h h' : Heap} (ht : Tree h) (a : Away o ms h h') (k : Str) : Away o (ms ++ [k]) h h' where
  len := a.len
  old := a.old
  obj p hp := a.obj p ⟨hp.1, fun l hl => by
    rcases hp.2 l hl with h1 | h1
    · exact Or.inl ((List.prefix_append ms [k]).trans h1)
    · exact Or.inr h1⟩
  path r := by
    constructor
    · intro h1
      obtain ⟨g, h2, h3⟩ := lpath_snoc h1
      have h2 := (a.path g).mp h2
      refine .snoc h2 ?_
      rw [LinkAt, linksOf_obj, a.obj g (at_in ht h2)] at h3
      rw [LinkAt, linksOf_obj]; exact h3
    · intro h1
      obtain ⟨g, h2, h3⟩ := lpath_snoc h1
      refine .snoc ((a.path g).mpr h2) ?_
      rw [LinkAt, linksOf_obj, a.obj g (at_in ht h2), ← linksOf_obj]
      exact h3

theorem Kind.away {o : COpts} {ms : List Str} {h h' : Heap} {v : Val} (hk : Kind o h ms v) (ht : Tree h) (a : Away o ms h h') : Kind o h' ms v := by
  induction hk with
  | dset h1 h2 h3 h4 => exact .dset ((a.path _).mpr h1) ((a.obj _ (at_in ht h1)).trans h2) h3 h4
  | group h1 h2 h3 h4 h5 _ ih => exact .group h1 ((a.path _).mpr h2) ((a.obj _ (at_in ht h2)).trans h3) h4 h5 fun k w hm => ih k w hm (away_sub ht a k)
  | struct c sh nm ty el h1 h2 =>
    refine .struct c sh nm ty el ((a.path _).mpr h1) fun h0 => ?_
    have := h2 h0
    unfold GroupOrTable isGroup at this ⊢
    rw [a.obj _ (at_in ht h1)]
    exact this

theorem ReadsAt.view {x : Ctx} {n : Nat} {h h' : Heap} {S : Nat → Prop} {q : Nat} {v : Val} (hr : ReadsAt x n h S q v) (he : ∀ p, S p → viewOf h' p = viewOf h p) :
    ReadsAt x n h' S q v :=
  fun ro V excl m h1 h2 h3 h4 => hr ro V excl m h1 (fun p hp => (h2 p hp).trans (he p hp)) h3 h4

theorem OverOut.away {x : Ctx} {n : Nat} {ms : List Str} {h h' : Heap} {v : Val} (ho : OverOut x n h ms v) (ht : Tree h) (a : Away x.o ms h h') : OverOut x n h' ms v := by
  obtain ⟨h1, q, S, h2, h3, h4, h5⟩ := ho
  refine ⟨h1.away ht a, q, S, (a.path q).mpr h2, h3, fun p hp => a.keep (h4 p hp), h5.view fun p hp => ?_⟩
  unfold viewOf
  rw [a.obj p (h4 p hp)]

theorem OldOk.away {o : COpts} {ms : List Str} {h h' : Heap} {v : Val} (ho : OldOk o h ms v) (ht : Tree h) (a : Away o ms h h') : OldOk o h' ms v := by
  intro q hq
  obtain ⟨v1, h1, h2⟩ := ho q ((a.path q).mp hq)
  exact ⟨v1, h1.away ht a, h2⟩

/-- A change of attributes that does not matter. -/
structure SameBut (h h' : Heap) : Prop where
  obj : ∀ (q : Nat) (at' : List (Str × AVal)) (b : Body), h[q]? = some ⟨at', b⟩ → ∃ at2 : List (Str × AVal), h'[q]? = some ⟨at2, b⟩ ∧ ∀ k, k ≠ p!"H5PATH" → aget at2 k = aget at' k
  len : h'.length = h.length
  link : ∀ g k q, LinkAt h' g k q ↔ LinkAt h g k q
  view : viewOf h' = viewOf h

theorem SameBut.path {h h' : Heap} (a : SameBut h h') (l : List Str) (q : Nat) : LPath h' l q ↔ LPath h l q :=
  ⟨lpath_mono fun _ _ _ h => (a.link _ _ _).mp h, lpath_mono fun _ _ _ h => (a.link _ _ _).mpr h⟩

theorem setH5Path_but {x : Ctx} {s s' : St} {p : Nat} {b : Res Bytes} {res : Res Unit} (h : setH5Path x p b s = (res, s')) : SameBut s.heap s'.heap := by
  have key : ∀ f : List (Str × AVal) → List (Str × AVal), (∀ l k, k ≠ p!"H5PATH" → aget (f l) k = aget l k) → ∀ (q : Nat) (at' : List (Str × AVal)) (b : Body),
      s.heap[q]? = some ⟨at', b⟩ → ∃ at2, (s.heap.update p fun o => { o with attrs := f o.attrs })[q]? = some ⟨at2, b⟩ ∧ ∀ k, k ≠ p!"H5PATH" → aget at2 k = aget at' k := by
    intro f hf q at' b hq
    rw [getElem?_update]
    by_cases hqp : q = p
    · subst hqp
      rw [if_pos rfl, hq]
      exact ⟨_, rfl, hf at'⟩
    · rw [if_neg hqp]
      exact ⟨_, hq, fun _ _ => rfl⟩
  refine ⟨?_, ?_, fun g k q => setH5Path_link h g k q, setH5Path_view p b h⟩
  · unfold setH5Path at h
    by_cases hm : x.o.matlab = true
    · rw [if_pos hm] at h
      cases b with
      | error e => cases h; exact fun q at' b hq => ⟨_, hq, fun _ _ => rfl⟩
      | ok b =>
        change ((Except.ok () : Res Unit), ({ s with heap := s.heap.update p fun o => { o with attrs := aput o.attrs p!"H5PATH" (.bytes b) } } : St)) = _ at h
        cases h
        exact key (fun l => aput l p!"H5PATH" (.bytes b)) fun l k hk => by rw [aget_aput, if_neg hk]
    · rw [if_neg hm] at h
      change ((Except.ok () : Res Unit), ({ s with heap := s.heap.update p fun o => { o with attrs := adel o.attrs p!"H5PATH" } } : St)) = _ at h
      cases h
      exact key (fun l => adel l p!"H5PATH") fun l k hk => by rw [aget_adel, if_neg hk]
  · unfold setH5Path at h
    by_cases hm : x.o.matlab = true
    · rw [if_pos hm] at h
      cases b with
      | error e => cases h; rfl
      | ok b =>
        change ((Except.ok () : Res Unit), ({ s with heap := s.heap.update p fun o => { o with attrs := aput o.attrs p!"H5PATH" (.bytes b) } } : St)) = _ at h
        cases h
        exact length_update _ _ _
    · rw [if_neg hm] at h
      change ((Except.ok () : Res Unit), ({ s with heap := s.heap.update p fun o => { o with attrs := adel o.attrs p!"H5PATH" } } : St)) = _ at h
      cases h
      exact length_update _ _ _

theorem AttrsOf.but {new : List (Str × AIn)} {a b : List (Str × AVal)} (h : AttrsOf new a) (hb : ∀ k, k ≠ p!"H5PATH" → aget b k = aget a k) : AttrsOf new b :=
  fun k v hk hv => h k v hk (by rw [← hb k hk]; exact hv)

theorem GroupAttrs.but {o : COpts} {keys : List Val} {struct : Bool} {ts : Str} {a b : List (Str × AVal)} (h : GroupAttrs o keys struct ts a)
    (hb : ∀ k, k ≠ p!"H5PATH" → aget b k = aget a k) : GroupAttrs o keys struct ts b := by
  cases h with
  | exact h => exact .exact (h.but hb)
  | stale t l h1 h2 h3 h4 h5 => exact .stale t l h1 h2 h3 (fun k v k1 k2 hv => h4 k v k1 k2 (by rw [← hb k k1]; exact hv)) (fun v hv => h5 v (by rw [← hb _ (by decide)]; exact hv))

theorem Kind.but {o : COpts} {ms : List Str} {h h' : Heap} {v : Val} (hk : Kind o h ms v) (a : SameBut h h') : Kind o h' ms v := by
  induction hk with
  | dset h1 h2 h3 h4 =>
    obtain ⟨at2, c1, c2⟩ := a.obj _ _ _ h2
    exact .dset ((a.path _ _).mpr h1) c1 h3 (h4.but c2)
  | group h1 h2 h3 h4 h5 _ ih =>
    obtain ⟨at2, c1, c2⟩ := a.obj _ _ _ h3
    exact .group h1 ((a.path _ _).mpr h2) c1 (h4.but c2) h5 ih
  | struct c sh nm ty el h1 h2 =>
    refine .struct c sh nm ty el ((a.path _ _).mpr h1) fun h0 => ?_
    rcases h2 h0 with hg | ⟨at', b, f, hb, hn⟩
    · obtain ⟨at', l, hg⟩ := isGroup_get hg
      obtain ⟨at2, c1, _⟩ := a.obj _ _ _ hg
      left
      unfold isGroup
      rw [c1]
    · obtain ⟨at2, c1, _⟩ := a.obj _ _ _ hb
      exact Or.inr ⟨at2, b, f, c1, hn⟩

theorem OverOut.but {x : Ctx} {n : Nat} {ms : List Str} {h h' : Heap} {v : Val} (ho : OverOut x n h ms v) (a : SameBut h h') : OverOut x n h' ms v := by
  obtain ⟨h1, q, S, h2, h3, h4, h5⟩ := ho
  exact ⟨h1.but a, q, S, (a.path _ q).mpr h2, h3, fun p hp => ⟨by rw [a.len]; exact (h4 p hp).1, fun l hl => (h4 p hp).2 l ((a.path l p).mp hl)⟩,
    h5.view fun p _ => by rw [a.view]⟩

/-- Work on the references Group. -/
theorem refs_away {x : Ctx} {s s' : St} (ht : Tree s.heap) (st : Step x noA noD s s') {ms : List Str} (hms : OffRefs x.o ms) : Away x.o ms s.heap s'.heap where
  len := st.fr.len
  old l p h1 h2 := st.fr.lpath_old h1 h2
  obj p hi := by
    refine st.fr.same p hi.1 (fun h => h) (fun _ h => h) ?_
    rintro ⟨pre, h1, h2⟩
    rcases hi.2 _ (lpath_resolve (prefix_plain (plainComps x) h1) h2) with h | ⟨h, h3⟩
    · exact hms.head (head_prefix (h.trans h1) hms.ne)
    · exact h3 h1
  path q := by
    -- any name the path does not begin with
    obtain ⟨t, hT⟩ : ∃ t : Str, ¬ [t] <+: ms := by
      cases ms with
      | nil => exact ⟨[], fun h => by have := h.length_le; simp at this⟩
      | cons m r =>
        refine ⟨0 :: m, fun h => ?_⟩
        obtain ⟨u, hu⟩ := h
        simp only [List.singleton_append, List.cons.injEq] at hu
        have := congrArg List.length hu.1
        simp at this
    have f : Fr x (oneA 0 t) (TgtD s 0 t) s s' := (st.mono (A' := oneA 0 t) (D' := TgtD s 0 t) (fun _ _ h => h.elim) (fun _ h => h.elim)).fr
    rw [resolve_iff_lpath hms.plain, resolve_iff_lpath hms.plain, f.resolve_user ht .root (Or.inr hms) hT]

/-- The objects made meanwhile are in the references Group. -/
theorem newObj_refs {x : Ctx} {s s' : St} (ht : Tree s.heap) (st : Step x noA noD s s') (hrf : refsComps x.o ≠ []) {p : Nat} (hp : NewObj x s s' p) :
    ∀ l, LPath s'.heap l p → l.head? = (refsComps x.o).head? ∧ ¬ l <+: refsComps x.o := by
  have f := st.fr
  have key : ∀ l q, LPath s'.heap l q → s.heap.length ≤ q → l.head? = (refsComps x.o).head? ∧ l ≠ [] := by
    intro l q hl
    induction hl with
    | root => intro h; have := isGroup_lt ht.root; omega
    | @snoc l p0 q k h1 h2 ih =>
      intro hq
      by_cases hp0 : p0 < s.heap.length
      · have ho := f.lpath_old h1 hp0
        by_cases hC : ChainKey x s p0 k
        · refine ⟨?_, by simp⟩
          rcases hC with ⟨_, pre, c1, c2⟩ | ⟨c, _⟩
          · rw [ho.unique ht (lpath_resolve (prefix_plain (plainComps x) (prefix_of_snoc c1)) c2)]
            exact head_prefix c1 (by simp)
          · rw [ho.unique ht (lpath_resolve (plainComps x) c), head_append_ne hrf]
        · have := f.links p0 hp0 (fun h => h) k (fun h => h) hC
          rw [LinkAt, this] at h2
          have := ht.wf _ _ _ h2
          omega
      · obtain ⟨h3, h4⟩ := ih (by omega)
        exact ⟨by rw [head_append_ne h4, h3], by simp⟩
  obtain ⟨h1, h2, h3⟩ := hp
  intro l hl
  obtain ⟨h, h4⟩ := key l p hl h1
  exact ⟨h, fun h5 => h3 ⟨l, h5, resolve_lpath (prefix_plain (plainComps x) h5) hl⟩⟩

/-- They are not changed by a write elsewhere. -/
theorem refsNew_keep {x : Ctx} {s s1 s' : St} (ht : Tree s.heap) (st : Step x noA noD s s1) {gl : List Str} {g : Nat} {name : Str} (hg : LPath s.heap gl g)
    (hg1 : LPath s1.heap gl g) (ho : OffRefs x.o (gl ++ [name])) (f : Fr x (oneA g name) (TgtD s1 g name) s1 s') {p : Nat} (hp : NewObj x s s1 p) :
    InOrRefs x.o s'.heap (gl ++ [name]) p ∧ s'.heap[p]? = s1.heap[p]? := by
  have key := newObj_refs ht st ho.refs hp
  refine ⟨⟨Nat.lt_of_lt_of_le hp.2.1 f.len, fun l hl => Or.inr (key l (f.lpath_old hl hp.2.1))⟩, f.same p hp.2.1 ?_ ?_ hp.2.2⟩
  · rintro ⟨q, h1, h2⟩
    obtain ⟨l, hl⟩ := LPath.reach (.snoc hg1 h1) h2
    have := (key _ hl).1
    rw [head_append_ne ho.ne] at this
    exact ho.head this
  · rintro k ⟨rfl, _⟩
    have := lpath_lt ht hg
    have := hp.1
    omega

end HS
