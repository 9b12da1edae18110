import Verif.Model.Write
import Verif.Lemmas.Attrs
import Verif.Spec.Heap
/-
What the writers leave alone.
-/
namespace HS
open Spec

theorem bind_run {α β : Type} (m : M α) (f : α → M β) (s : St) :
    (∃ a s1, m s = (.ok a, s1) ∧ (m >>= f) s = f a s1) ∨ (∃ e s1, m s = (.error e, s1) ∧ (m >>= f) s = (.error e, s1)) := by
  cases hm : m s with
  | mk r s1 =>
    cases r with
    | ok a => exact Or.inl ⟨a, s1, rfl, by show M.bind m f s = _; simp [M.bind, hm]⟩
    | error e => exact Or.inr ⟨e, s1, rfl, by show M.bind m f s = _; simp [M.bind, hm]⟩

theorem run_getSt {β : Type} (f : St → M β) (s : St) : (getSt >>= f) s = f s s := rfl
theorem run_modSt {β : Type} (g : St → St) (f : Unit → M β) (s : St) : (modSt g >>= f) s = f () (g s) := rfl
theorem run_pure {α : Type} (a : α) (s : St) : (pure a : M α) s = (.ok a, s) := rfl
theorem run_raise {α : Type} (e : Exc) (s : St) : (raise e : M α) s = (.error e, s) := rfl
theorem run_pure_bind {α β : Type} (a : α) (f : α → M β) (s : St) : ((pure a : M α) >>= f) s = f a s := rfl
theorem run_bind_ok {α β : Type} {m : M α} {f : α → M β} {s s1 : St} {a : α} (h : m s = (.ok a, s1)) : (m >>= f) s = f a s1 := by
  show M.bind m f s = _; simp [M.bind, h]
theorem run_bind_err {α β : Type} {m : M α} {f : α → M β} {s s1 : St} {e : Exc} (h : m s = (.error e, s1)) : (m >>= f) s = (.error e, s1) := by
  show M.bind m f s = _; simp [M.bind, h]

theorem getElem?_update (h : Heap) (p : Nat) (f : Obj → Obj) (q : Nat) :
    (h.update p f)[q]? = if q = p then (h[p]?).map f else h[q]? := by
  unfold Heap.update
  cases hp : h[p]? with
  | none => by_cases hq : q = p
            · subst hq; simp [hp]
            · simp [hq]
  | some o =>
    by_cases hq : q = p
    · subst hq
      have := (List.getElem?_eq_some_iff.mp hp).1
      simp [this]
    · have : ¬ p = q := fun h => hq h.symm
      simp [hq, this]

theorem length_update (h : Heap) (p : Nat) (f : Obj → Obj) : (h.update p f).length = h.length := by
  unfold Heap.update
  cases h[p]? <;> simp

theorem linksOf_ge (h : Heap) (p : Nat) (hp : h.length ≤ p) : linksOf h p = [] := by
  unfold linksOf; rw [List.getElem?_eq_none hp]

theorem linkAt_lt {h : Heap} {p q : Nat} {k : Str} (hl : LinkAt h p k q) : p < h.length := by
  apply Classical.byContradiction; intro hn
  rw [LinkAt, linksOf_ge h p (by omega)] at hl
  cases hl

theorem refsComps_mem (o : COpts) (c : Str) (h : c ∈ refsComps o) : c ≠ [] ∧ c ≠ [dot] := by
  simp only [refsComps, List.mem_filter] at h
  simpa using h.2

/-- Names on the way to the references Group are ordinary ones. -/
def PlainNames (cs : List Str) : Prop := ∀ c ∈ cs, c ≠ [dot]

theorem hlook_plain (h : Heap) (g : Nat) (k : Str) (hk : k ≠ [dot]) : hlook h g k = aget (linksOf h g) k := by
  unfold hlook; rw [if_neg hk]

theorem resolve_append (h : Heap) (g : Nat) (l r : List Str) :
    resolve h g (l ++ r) = (resolve h g l).bind fun p => resolve h p r := by
  induction l generalizing g with
  | nil => rfl
  | cons c l ih =>
    simp only [List.cons_append, resolve]
    cases hlook h g c with
    | none => rfl
    | some g' => exact ih g'

theorem resolve_snoc (h : Heap) (g : Nat) (l : List Str) (c : Str) (hc : c ≠ [dot]) (p : Nat) :
    resolve h g (l ++ [c]) = some p ↔ ∃ q, resolve h g l = some q ∧ LinkAt h q c p := by
  rw [resolve_append]
  constructor
  · intro hr
    cases hq : resolve h g l with
    | none => rw [hq] at hr; cases hr
    | some q =>
      rw [hq] at hr
      simp only [Option.bind_some, resolve, hlook_plain h q c hc] at hr
      refine ⟨q, rfl, ?_⟩
      unfold LinkAt
      cases ha : aget (linksOf h q) c with
      | none => rw [ha] at hr; cases hr
      | some r => rw [ha] at hr; simpa using hr
  · rintro ⟨q, hq, hl⟩
    rw [hq]
    simp only [Option.bind_some, resolve, hlook_plain h q c hc]
    rw [LinkAt] at hl
    rw [hl]

theorem prefix_plain {cs pre : List Str} (hcs : PlainNames cs) (hp : pre <+: cs) : PlainNames pre :=
  fun c hc => hcs c (hp.subset hc)

theorem prefix_of_snoc {cs pre : List Str} {c : Str} (hp : (pre ++ [c]) <+: cs) : pre <+: cs :=
  (List.prefix_append pre [c]).trans hp

/-- Links whose change is part of the machinery: those on the way to the references Group as long as it is not known, and those of the references
Group itself, except the one to the canonical empty once it is known. -/
def ChainKey (x : Ctx) (s : St) (p : Nat) (k : Str) : Prop :=
  (s.refs = none ∧ ∃ pre, (pre ++ [k]) <+: refsComps x.o ∧ resolve s.heap 0 pre = some p) ∨
    (resolve s.heap 0 (refsComps x.o) = some p ∧ (k = p!"a" → s.canon = none))

/-- Objects of the same kind: two Datasets with the same data and filters, or two Groups. -/
def SameKind : Body → Body → Prop
  | .dset a f, .dset b g => a = b ∧ f = g
  | .group _, .group _ => True
  | _, _ => False

theorem SameKind.refl (b : Body) : SameKind b b := by cases b <;> simp [SameKind]
theorem SameKind.trans {a b c : Body} (h1 : SameKind a b) (h2 : SameKind b c) : SameKind a c := by
  cases a <;> cases b <;> cases c <;> simp_all [SameKind]

/-- New names in the references Group. -/
def NewName (x : Ctx) (s s' : St) (k : Str) : Prop :=
  k = p!"a" ∨ (∃ c, s.counter ≤ c ∧ c < s'.counter ∧ k = hexStr c) ∨ (∃ i, s.rpos ≤ i ∧ i < s'.rpos ∧ k = randName x i)

/-- Going from `s` to `s'` changes links as `A` allows, the objects in `D`, new objects, and what belongs to the references Group; and nothing else. -/
structure Fr (x : Ctx) (A : Nat → Str → Prop) (D : Nat → Prop) (s s' : St) : Prop where
  len : s.heap.length ≤ s'.heap.length
  k1 : ∀ p k q, LinkAt s'.heap p k q → q < s.heap.length → LinkAt s.heap p k q
  k2 : ∀ q p1 k1 p2 k2, s.heap.length ≤ q → LinkAt s'.heap p1 k1 q → LinkAt s'.heap p2 k2 q → p1 = p2 ∧ k1 = k2
  obj : ∀ p o, s.heap[p]? = some o → ¬ D p → ∃ o', s'.heap[p]? = some o' ∧ o'.attrs = o.attrs ∧ SameKind o.body o'.body
  links : ∀ p, p < s.heap.length → ¬ D p → ∀ k, ¬ A p k → ¬ ChainKey x s p k →
    aget (linksOf s'.heap p) k = aget (linksOf s.heap p) k
  same : ∀ p, p < s.heap.length → ¬ D p → (∀ k, ¬ A p k) → ¬ OnRefsPath (refsComps x.o) s.heap p → s'.heap[p]? = s.heap[p]?
  refkeys : ∀ p k q, resolve s'.heap 0 (refsComps x.o) = some p → LinkAt s'.heap p k q →
    LinkAt s.heap p k q ∨ NewName x s s' k ∨ A p k
  counter : s.counter ≤ s'.counter
  rpos : s.rpos ≤ s'.rpos
  refs : ∀ r, s.refs = some r → s'.refs = some r ∧ s'.created = s.created
  canon : ∀ c, s.canon = some c → s'.canon = some c
  crt : s'.created = true → s.created = true ∨ (s.refs = none ∧ ∀ r, s'.refs = some r → s.heap.length ≤ r)
  rnd : s.refs ≠ none → s.created = true → s'.rpos = s.rpos
  cfx : s.refs ≠ none → s.created = false → s'.counter = s.counter

theorem NewName.mono {x : Ctx} {s0 s1 s2 s3 : St} {k : Str} (h : NewName x s1 s2 k) (a : s0.counter ≤ s1.counter) (b : s2.counter ≤ s3.counter)
    (c : s0.rpos ≤ s1.rpos) (d : s2.rpos ≤ s3.rpos) : NewName x s0 s3 k := by
  rcases h with h | ⟨e, h1, h2, h3⟩ | ⟨e, h1, h2, h3⟩
  · exact Or.inl h
  · exact Or.inr (Or.inl ⟨e, by omega, by omega, h3⟩)
  · exact Or.inr (Or.inr ⟨e, by omega, by omega, h3⟩)

theorem Fr.rfl' {x : Ctx} {A : Nat → Str → Prop} {D : Nat → Prop} {s : St} (hwf : ∀ p k q, LinkAt s.heap p k q → q < s.heap.length) :
    Fr x A D s s where
  len := Nat.le_refl _
  k1 := fun _ _ _ h _ => h
  k2 := fun q p1 k1 _ _ hq h _ => by have := hwf _ _ _ h; omega
  obj := fun p o h _ => ⟨o, h, rfl, SameKind.refl _⟩
  links := fun _ _ _ _ _ _ => rfl
  same := fun _ _ _ _ _ => rfl
  refkeys := fun _ _ _ _ h => Or.inl h
  counter := Nat.le_refl _
  rpos := Nat.le_refl _
  refs := fun _ h => ⟨h, rfl⟩
  canon := fun _ h => h
  crt := fun h => Or.inl h
  rnd := fun _ _ => rfl
  cfx := fun _ _ => rfl

theorem Fr.link_old {x : Ctx} {A D} {s s' : St} (f : Fr x A D s s') {p q : Nat} {k : Str} (h : LinkAt s'.heap p k q) (hq : q < s.heap.length) :
    p < s.heap.length ∧ LinkAt s.heap p k q := by
  have := f.k1 p k q h hq
  exact ⟨linkAt_lt this, this⟩

/-- Paths to old objects are old. -/
theorem Fr.resolve_old {x : Ctx} {A D} {s s' : St} (f : Fr x A D s s') (pre : List Str) (hp : PlainNames pre) (p : Nat)
    (h : resolve s'.heap 0 pre = some p) (hlt : p < s.heap.length) : resolve s.heap 0 pre = some p := by
  induction hn : pre.length generalizing pre p with
  | zero =>
    have : pre = [] := List.length_eq_zero_iff.mp hn
    subst this; exact h
  | succ n ih =>
    obtain ⟨l, c, rfl⟩ : ∃ l c, pre = l ++ [c] := by
      refine ⟨pre.dropLast, pre.getLast (by intro h; simp [h] at hn), ?_⟩
      exact (List.dropLast_concat_getLast _).symm
    have hc : c ≠ [dot] := hp c (by simp)
    obtain ⟨q, hq, hl⟩ := (resolve_snoc s'.heap 0 l c hc p).mp h
    obtain ⟨hqlt, hl'⟩ := f.link_old hl hlt
    refine (resolve_snoc s.heap 0 l c hc p).mpr ⟨q, ?_, hl'⟩
    exact ih l (fun d hd => hp d (by simp [hd])) q hq hqlt (by simp at hn; omega)

theorem plainComps (x : Ctx) : PlainNames (refsComps x.o) := fun c hc => (refsComps_mem x.o c hc).2

theorem Fr.onPath_old {x : Ctx} {A D} {s s' : St} (f : Fr x A D s s') (p : Nat) (h : OnRefsPath (refsComps x.o) s'.heap p) (hlt : p < s.heap.length) :
    OnRefsPath (refsComps x.o) s.heap p := by
  obtain ⟨pre, h1, h2⟩ := h
  exact ⟨pre, h1, f.resolve_old pre (prefix_plain (plainComps x) h1) p h2 hlt⟩

theorem Fr.reach_old {x : Ctx} {A D} {s s' : St} (f : Fr x A D s s') {q p : Nat} (h : LReach s'.heap q p) (hlt : p < s.heap.length) :
    q < s.heap.length ∧ LReach s.heap q p := by
  induction h with
  | refl => exact ⟨hlt, .refl⟩
  | @step a b k _ hl ih =>
    obtain ⟨h1, h2⟩ := f.link_old hl hlt
    obtain ⟨h3, h4⟩ := ih h1
    exact ⟨h3, .step h4 h2⟩

theorem ChainKey.onPath {x : Ctx} {s : St} {p : Nat} {k : Str} (h : ChainKey x s p k) : OnRefsPath (refsComps x.o) s.heap p := by
  rcases h with ⟨_, pre, h1, h2⟩ | ⟨h, _⟩
  · exact ⟨pre, prefix_of_snoc h1, h2⟩
  · exact ⟨_, List.prefix_refl _, h⟩

theorem Fr.chainKey_old {x : Ctx} {A D} {s s' : St} (f : Fr x A D s s') {p : Nat} {k : Str} (h : ChainKey x s' p k) (hlt : p < s.heap.length) :
    ChainKey x s p k := by
  rcases h with ⟨h0, pre, h1, h2⟩ | ⟨h, hc⟩
  · refine Or.inl ⟨?_, pre, h1, f.resolve_old pre (prefix_plain (plainComps x) (prefix_of_snoc h1)) p h2 hlt⟩
    cases hr : s.refs with
    | none => rfl
    | some r => rw [(f.refs r hr).1] at h0; cases h0
  · refine Or.inr ⟨f.resolve_old _ (plainComps x) p h hlt, fun hk => ?_⟩
    cases hs : s.canon with
    | none => rfl
    | some c => have := hc hk; rw [f.canon c hs] at this; cases this

/-- Composition. -/
theorem Fr.trans {x : Ctx} {A A1 : Nat → Str → Prop} {D D1 : Nat → Prop} {s s1 s2 : St} (f : Fr x A D s s1) (g : Fr x A1 D1 s1 s2)
    (hcr : s1.created = true → s1.refs ≠ none)
    (hA : ∀ p k, p < s.heap.length → ¬ D p → A1 p k → A p k) (hD : ∀ p, p < s.heap.length → D1 p → D p)
    (hR : ∀ p k q, resolve s2.heap 0 (refsComps x.o) = some p → LinkAt s2.heap p k q → A1 p k → LinkAt s.heap p k q ∨ NewName x s s2 k ∨ A p k) :
    Fr x A D s s2 where
  len := Nat.le_trans f.len g.len
  k1 := fun p k q h hq => f.k1 p k q (g.k1 p k q h (Nat.lt_of_lt_of_le hq f.len)) hq
  k2 := by
    intro q p1 k1 p2 k2 hq h1 h2
    by_cases hq1 : q < s1.heap.length
    · exact f.k2 q p1 k1 p2 k2 hq (g.k1 _ _ _ h1 hq1) (g.k1 _ _ _ h2 hq1)
    · exact g.k2 q p1 k1 p2 k2 (by omega) h1 h2
  obj := by
    intro p o ho hnd
    have hp : p < s.heap.length := (List.getElem?_eq_some_iff.mp ho).1
    obtain ⟨o1, h1, h2, h3⟩ := f.obj p o ho hnd
    obtain ⟨o2, h4, h5, h6⟩ := g.obj p o1 h1 (fun h => hnd (hD p hp h))
    exact ⟨o2, h4, h5.trans h2, h3.trans h6⟩
  links := by
    intro p hp hnd k hna hnc
    rw [g.links p (Nat.lt_of_lt_of_le hp f.len) (fun h => hnd (hD p hp h)) k (fun h => hna (hA p k hp hnd h)) (fun h => hnc (f.chainKey_old h hp)),
      f.links p hp hnd k hna hnc]
  same := by
    intro p hp hnd hna hnm
    rw [g.same p (Nat.lt_of_lt_of_le hp f.len) (fun h => hnd (hD p hp h)) (fun k h => hna k (hA p k hp hnd h)) (fun h => hnm (f.onPath_old p h hp)),
      f.same p hp hnd hna hnm]
  refkeys := by
    intro p k q hr hl
    rcases g.refkeys p k q hr hl with h | h | h
    · have hp := linkAt_lt h
      have hr1 := g.resolve_old _ (plainComps x) p hr hp
      rcases f.refkeys p k q hr1 h with h | h | h
      · exact Or.inl h
      · exact Or.inr (Or.inl (h.mono (Nat.le_refl _) g.counter (Nat.le_refl _) g.rpos))
      · exact Or.inr (Or.inr h)
    · exact Or.inr (Or.inl (h.mono f.counter (Nat.le_refl _) f.rpos (Nat.le_refl _)))
    · exact hR p k q hr hl h
  counter := Nat.le_trans f.counter g.counter
  rpos := Nat.le_trans f.rpos g.rpos
  refs := fun r h => ⟨(g.refs r (f.refs r h).1).1, (g.refs r (f.refs r h).1).2.trans (f.refs r h).2⟩
  canon := fun c h => g.canon c (f.canon c h)
  crt := by
    intro h
    rcases g.crt h with h1 | ⟨h1, h2⟩
    · rcases f.crt h1 with h3 | ⟨h3, h4⟩
      · exact Or.inl h3
      · refine Or.inr ⟨h3, fun r hr => ?_⟩
        cases hs1 : s1.refs with
        | none =>
          rcases g.crt h with h5 | ⟨_, h6⟩
          · exact absurd hs1 (hcr h5)
          · exact Nat.le_trans f.len (h6 r hr)
        | some r1 =>
          rw [(g.refs r1 hs1).1] at hr
          cases hr
          exact h4 r hs1
    · refine Or.inr ⟨?_, fun r hr => Nat.le_trans f.len (h2 r hr)⟩
      cases hs : s.refs with
      | none => rfl
      | some r => rw [(f.refs r hs).1] at h1; cases h1
  rnd := by
    intro h0 h
    cases hs : s.refs with
    | none => exact absurd hs h0
    | some r =>
      have h1 := f.refs r hs
      rw [g.rnd (by rw [h1.1]; simp) (h1.2.trans h), f.rnd h0 h]
  cfx := by
    intro h0 h
    cases hs : s.refs with
    | none => exact absurd hs h0
    | some r =>
      have h1 := f.refs r hs
      rw [g.cfx (by rw [h1.1]; simp) (h1.2.trans h), f.cfx h0 h]

/-- Weakening. -/
theorem Fr.mono {x : Ctx} {A A' : Nat → Str → Prop} {D D' : Nat → Prop} {s s' : St} (f : Fr x A D s s')
    (hA : ∀ p k, A p k → A' p k) (hD : ∀ p, D p → D' p) : Fr x A' D' s s' where
  len := f.len
  k1 := f.k1
  k2 := f.k2
  obj := fun p o h hn => f.obj p o h (fun h => hn (hD p h))
  links := fun p hp hn k ha hc => f.links p hp (fun h => hn (hD p h)) k (fun h => ha (hA p k h)) hc
  same := fun p hp hn ha hc => f.same p hp (fun h => hn (hD p h)) (fun k h => ha k (hA p k h)) hc
  refkeys := fun p k q hr hl => by
    rcases f.refkeys p k q hr hl with h | h | h
    · exact Or.inl h
    · exact Or.inr (Or.inl h)
    · exact Or.inr (Or.inr (hA p k h))
  counter := f.counter
  rpos := f.rpos
  refs := f.refs
  canon := f.canon
  crt := f.crt
  rnd := f.rnd
  cfx := f.cfx


/-- State invariant. -/
structure Inv (x : Ctx) (s : St) : Prop where
  wf : ∀ p k q, LinkAt s.heap p k q → q < s.heap.length
  pos : 0 < s.heap.length
  refs : ∀ r, s.refs = some r → resolve s.heap 0 (refsComps x.o) = some r ∧ isGroup s.heap r = true
  created : s.created = true → s.refs ≠ none
  acyc : ∀ l1 l2 p, l1 <+: refsComps x.o → l2 <+: refsComps x.o → resolve s.heap 0 l1 = some p → resolve s.heap 0 l2 = some p → l1 = l2
  below : ∀ r k q p, resolve s.heap 0 (refsComps x.o) = some r → LinkAt s.heap r k q → LReach s.heap q p → ¬ OnRefsPath (refsComps x.o) s.heap p
  ctr : 11 ≤ s.counter
  cnt : s.created = true → ∀ r c q, s.refs = some r → s.counter ≤ c → ¬ LinkAt s.heap r (hexStr c) q
  can : ∀ c, s.canon = some c → c < s.heap.length

theorem snoc_cases {α : Type} (l : List α) : l = [] ∨ ∃ l' c, l = l' ++ [c] := by
  cases l with
  | nil => exact Or.inl rfl
  | cons a t => exact Or.inr ⟨(a :: t).dropLast, (a :: t).getLast (by simp), (List.dropLast_concat_getLast _).symm⟩

theorem resolve_lt {x : Ctx} {s : St} (hi : Inv x s) (pre : List Str) (hp : PlainNames pre) (p : Nat) (h : resolve s.heap 0 pre = some p) :
    p < s.heap.length := by
  rcases snoc_cases pre with rfl | ⟨l, c, rfl⟩
  · simp only [resolve, Option.some.injEq] at h; have := hi.pos; omega
  · obtain ⟨q, _, hl⟩ := (resolve_snoc s.heap 0 l c (hp c (by simp)) p).mp h
    exact hi.wf _ _ _ hl

theorem onPath_lt {x : Ctx} {s : St} (hi : Inv x s) {p : Nat} (h : OnRefsPath (refsComps x.o) s.heap p) : p < s.heap.length := by
  obtain ⟨pre, h1, h2⟩ := h
  exact resolve_lt hi pre (prefix_plain (plainComps x) h1) p h2

/-- A new object on the way to the references Group was reached through the one link to it. -/
theorem Fr.acyc {x : Ctx} {A D} {s s' : St} (f : Fr x A D s s') (hi : Inv x s) (l1 l2 : List Str) (p : Nat)
    (h1 : l1 <+: refsComps x.o) (h2 : l2 <+: refsComps x.o) (r1 : resolve s'.heap 0 l1 = some p) (r2 : resolve s'.heap 0 l2 = some p) : l1 = l2 := by
  induction hn : l1.length using Nat.strongRecOn generalizing l1 l2 p with
  | ind n ih =>
    have q1 := prefix_plain (plainComps x) h1
    have q2 := prefix_plain (plainComps x) h2
    by_cases hp : p < s.heap.length
    · exact hi.acyc l1 l2 p h1 h2 (f.resolve_old l1 q1 p r1 hp) (f.resolve_old l2 q2 p r2 hp)
    · rcases snoc_cases l1 with rfl | ⟨m1, c1, rfl⟩
      · simp only [resolve, Option.some.injEq] at r1; have := hi.pos; omega
      rcases snoc_cases l2 with rfl | ⟨m2, c2, rfl⟩
      · simp only [resolve, Option.some.injEq] at r2; have := hi.pos; omega
      obtain ⟨a1, ha1, hl1⟩ := (resolve_snoc _ _ m1 c1 (q1 c1 (by simp)) p).mp r1
      obtain ⟨a2, ha2, hl2⟩ := (resolve_snoc _ _ m2 c2 (q2 c2 (by simp)) p).mp r2
      obtain ⟨e1, e2⟩ := f.k2 p a1 c1 a2 c2 (by omega) hl1 hl2
      subst e1; subst e2
      rw [ih m1.length (by simp at hn; omega) m1 m2 a1 (prefix_of_snoc h1) (prefix_of_snoc h2) ha1 ha2 rfl]

/-- Nothing reachable from `q` is on the way to the references Group. -/
def Sep (x : Ctx) (s : St) (q : Nat) : Prop := ∀ p, LReach s.heap q p → ¬ OnRefsPath (refsComps x.o) s.heap p

theorem Spec.LReach.cases_end {h : Heap} {q p : Nat} (hr : LReach h q p) : p = q ∨ ∃ a k, LReach h q a ∧ LinkAt h a k p := by
  cases hr with
  | refl => exact Or.inl rfl
  | step h1 h2 => exact Or.inr ⟨_, _, h1, h2⟩

theorem Spec.LReach.trans {h : Heap} {a b c : Nat} (h1 : LReach h a b) (h2 : LReach h b c) : LReach h a c := by
  induction h2 with
  | refl => exact h1
  | step _ hl ih => exact .step ih hl

theorem Sep.child {x : Ctx} {s : St} {q r : Nat} {k : Str} (h : Sep x s q) (hl : LinkAt s.heap q k r) : Sep x s r :=
  fun p hp => h p ((LReach.step .refl hl).trans hp)

/-- Separation survives. -/
theorem Sep.keep {x : Ctx} {A D} {s s' : St} (f : Fr x A D s s') (hi : Inv x s) {q : Nat} (hq : q < s.heap.length) (h : Sep x s q) : Sep x s' q := by
  intro p hr hon
  obtain ⟨pre, hp, hres⟩ := hon
  induction hn : pre.length generalizing pre p with
  | zero =>
    have : pre = [] := List.length_eq_zero_iff.mp hn
    subst this
    simp only [resolve, Option.some.injEq] at hres
    subst hres
    exact h 0 (f.reach_old hr hi.pos).2 ⟨[], hp, rfl⟩
  | succ n ih =>
    have hpl := prefix_plain (plainComps x) hp
    by_cases hlt : p < s.heap.length
    · exact h p (f.reach_old hr hlt).2 ⟨pre, hp, f.resolve_old pre hpl p hres hlt⟩
    · rcases snoc_cases pre with rfl | ⟨m, c, rfl⟩
      · simp at hn
      obtain ⟨a, ha, hl⟩ := (resolve_snoc _ _ m c (hpl c (by simp)) p).mp hres
      rcases hr.cases_end with rfl | ⟨b, k, hb, hl2⟩
      · exact hlt hq
      · obtain ⟨e1, e2⟩ := f.k2 p b k a c (by omega) hl2 hl
        subst e1
        exact ih b hb m (prefix_of_snoc hp) ha (by simp at hn; omega)

/-- What is below the references Group does not lead back. -/
theorem Fr.below {x : Ctx} {A D} {s s' : St} (f : Fr x A D s s') (hi : Inv x s) (r : Nat) (k : Str) (q p : Nat)
    (hr : resolve s'.heap 0 (refsComps x.o) = some r) (hl : LinkAt s'.heap r k q) (hq : LReach s'.heap q p) : ¬ OnRefsPath (refsComps x.o) s'.heap p := by
  rintro ⟨pre, hp, hres⟩
  induction hn : pre.length generalizing pre p with
  | zero =>
    have : pre = [] := List.length_eq_zero_iff.mp hn
    subst this
    simp only [resolve, Option.some.injEq] at hres
    subst hres
    obtain ⟨h1, h2⟩ := f.reach_old hq hi.pos
    obtain ⟨h3, h4⟩ := f.link_old hl h1
    exact hi.below r k q 0 (f.resolve_old _ (plainComps x) r hr h3) h4 h2 ⟨[], hp, rfl⟩
  | succ n ih =>
    have hpl := prefix_plain (plainComps x) hp
    by_cases hlt : p < s.heap.length
    · obtain ⟨h1, h2⟩ := f.reach_old hq hlt
      obtain ⟨h3, h4⟩ := f.link_old hl h1
      exact hi.below r k q p (f.resolve_old _ (plainComps x) r hr h3) h4 h2 ⟨pre, hp, f.resolve_old pre hpl p hres hlt⟩
    · rcases snoc_cases pre with rfl | ⟨m, c, rfl⟩
      · simp at hn
      obtain ⟨a, ha, hl2⟩ := (resolve_snoc _ _ m c (hpl c (by simp)) p).mp hres
      rcases hq.cases_end with rfl | ⟨b, k', hb, hl3⟩
      · obtain ⟨e1, e2⟩ := f.k2 p r k a c (by omega) hl hl2
        subst e1
        have := f.acyc hi m (refsComps x.o) r (prefix_of_snoc hp) (List.prefix_refl _) ha hr
        have h5 := hp.length_le
        rw [← this] at h5
        simp at h5
        omega
      · obtain ⟨e1, e2⟩ := f.k2 p b k' a c (by omega) hl3 hl2
        subst e1
        exact ih b hb m (prefix_of_snoc hp) ha (by simp at hn; omega)

/-- The links on the way to the references Group are not touched by `A`. -/
def OffA (x : Ctx) (s : St) (A : Nat → Str → Prop) : Prop := ∀ pre c p, (pre ++ [c]) <+: refsComps x.o → resolve s.heap 0 pre = some p → ¬ A p c

theorem isGroup_of_kind {h h' : Heap} {p : Nat} {o o' : Obj} (a : h[p]? = some o) (b : h'[p]? = some o') (k : SameKind o.body o'.body)
    (hg : isGroup h p = true) : isGroup h' p = true := by
  unfold isGroup at hg ⊢
  rw [a] at hg
  rw [b]
  obtain ⟨_, bo⟩ := o
  obtain ⟨_, bo'⟩ := o'
  cases bo <;> cases bo' <;> simp_all [SameKind]

theorem isGroup_get {h : Heap} {p : Nat} (hg : isGroup h p = true) : ∃ at' l, h[p]? = some ⟨at', .group l⟩ := by
  unfold isGroup at hg
  split at hg
  · exact ⟨_, _, by assumption⟩
  · cases hg

theorem linkAt_group {h : Heap} {p q : Nat} {k : Str} (hl : LinkAt h p k q) : isGroup h p = true := by
  unfold LinkAt linksOf at hl
  unfold isGroup
  split at hl
  · rfl
  · cases hl

/-- The way to the references Group, once known, stays. -/
theorem Fr.chain_keep {x : Ctx} {A D} {s s' : St} (f : Fr x A D s s') (hi : Inv x s) {r : Nat} (hr : s.refs = some r) (hA : OffA x s A)
    (hD : ∀ p, OnRefsPath (refsComps x.o) s.heap p → ¬ D p) (pre : List Str) (hp : pre <+: refsComps x.o) (p : Nat)
    (h : resolve s.heap 0 pre = some p) : resolve s'.heap 0 pre = some p := by
  induction hn : pre.length generalizing pre p with
  | zero =>
    have : pre = [] := List.length_eq_zero_iff.mp hn
    subst this; exact h
  | succ n ih =>
    have hpl := prefix_plain (plainComps x) hp
    rcases snoc_cases pre with rfl | ⟨m, c, rfl⟩
    · simp at hn
    obtain ⟨a, ha, hl⟩ := (resolve_snoc _ _ m c (hpl c (by simp)) p).mp h
    refine (resolve_snoc _ _ m c (hpl c (by simp)) p).mpr ⟨a, ih m (prefix_of_snoc hp) a ha (by simp at hn; omega), ?_⟩
    unfold LinkAt
    rw [f.links a (linkAt_lt hl) (hD a ⟨m, prefix_of_snoc hp, ha⟩) c (hA m c a hp ha)]
    · exact hl
    · rintro (⟨h1, _⟩ | ⟨h1, _⟩)
      · rw [hr] at h1; cases h1
      · have := hi.acyc m (refsComps x.o) a (prefix_of_snoc hp) (List.prefix_refl _) ha h1
        have h5 := hp.length_le
        rw [← this] at h5
        simp at h5
        omega

/-- The invariant survives a change that leaves the bookkeeping alone. -/
theorem Fr.inv_keep {x : Ctx} {A D} {s s' : St} (f : Fr x A D s s') (hi : Inv x s) (hwf : ∀ p k q, LinkAt s'.heap p k q → q < s'.heap.length)
    (hrefs : s'.refs = s.refs) (hcr : s'.created = s.created) (hA : s.refs ≠ none → OffA x s A)
    (hD : s.refs ≠ none → ∀ p, OnRefsPath (refsComps x.o) s.heap p → ¬ D p)
    (hN : s.created = true → ∀ r k c, s.refs = some r → A r k → s.counter ≤ c → k ≠ hexStr c)
    (hinj : s.created = true → ∀ c k, s'.counter ≤ c → NewName x s s' k → k ≠ hexStr c)
    (hcn : ∀ c, s'.canon = some c → c < s'.heap.length) : Inv x s' where
  can := hcn
  wf := hwf
  pos := Nat.lt_of_lt_of_le hi.pos f.len
  refs := by
    intro r hr
    rw [hrefs] at hr
    have hne : s.refs ≠ none := by rw [hr]; simp
    obtain ⟨h1, h2⟩ := hi.refs r hr
    refine ⟨f.chain_keep hi hr (hA hne) (hD hne) _ (List.prefix_refl _) r h1, ?_⟩
    obtain ⟨at', l, hg⟩ := isGroup_get h2
    obtain ⟨o', ho, _, hk⟩ := f.obj r _ hg (hD hne r ⟨_, List.prefix_refl _, h1⟩)
    exact isGroup_of_kind hg ho hk h2
  created := by rw [hrefs, hcr]; exact hi.created
  acyc := f.acyc hi
  below := f.below hi
  ctr := Nat.le_trans hi.ctr f.counter
  cnt := by
    intro h
    rw [hcr] at h
    have h0 := hi.cnt h
    intro r c q hr hc hl
    rw [hrefs] at hr
    have hne : s.refs ≠ none := by rw [hr]; simp
    have h1 := f.chain_keep hi hr (hA hne) (hD hne) _ (List.prefix_refl _) r (hi.refs r hr).1
    rcases f.refkeys r _ q h1 hl with h2 | h2 | h2
    · exact h0 r c q hr (Nat.le_trans f.counter hc) h2
    · exact hinj h c _ hc h2 rfl
    · exact hN h r _ c hr h2 (Nat.le_trans f.counter hc) rfl

end HS
