import Verif.Props.Local
/-
C69: what a call of `writes` that raised has done.
-/
namespace HS
open Spec

/-- Several writes of which one fails: those before it are done, those after it have not begun. -/
theorem writeMany_partway {x : Ctx} (hR : RtOpts x.o) {n : Nat} {l : List ((Str × Str) × Val)} {s s' : St} {e : Exc} (hi : Inv x s) (ht : Tree s.heap)
    (ho : ∀ e ∈ l, OffRefs x.o (commonComps e.1.1 ++ [e.1.2]) ∧ ¬ Exists s.heap (commonComps e.1.1 ++ [e.1.2]))
    (hap : l.Pairwise fun a b => Apart (commonComps a.1.1 ++ [a.1.2]) (commonComps b.1.1 ++ [b.1.2]))
    (hr : RandOk x s.rpos s'.rpos) (h : writeMany x n l s = (.error e, s')) :
    ∃ before f after, l = before ++ f :: after ∧ (∀ a ∈ before, Good x.o a.2 → StoredAt x n s'.heap (commonComps a.1.1 ++ [a.1.2]) a.2) ∧
      ∀ b ∈ after, ¬ Exists s'.heap (commonComps b.1.1 ++ [b.1.2]) := by
  have hN := Spec.RtOpts.names hR
  induction l generalizing s with
  | nil => cases h
  | cons a l ih =>
    obtain ⟨⟨gs, t⟩, v⟩ := a
    obtain ⟨o1, o2⟩ := ho ((gs, t), v) (by simp)
    obtain ⟨p1, p2⟩ := List.pairwise_cons.mp hap
    have hfree : ∀ {s1 : St} {res : Res (Option Nat)}, writeOne x n (gs, t) v s = (res, s1) → ∀ b ∈ l, ¬ Exists s1.heap (commonComps b.1.1 ++ [b.1.2]) := by
      intro s1 res e1 b hb
      obtain ⟨q1, q2⟩ := ho b (by simp [hb])
      rintro ⟨q, hq⟩
      exact q2 ⟨q, ((writeOne_away hN hi ht o1 q1 (p1 b hb) e1).path q).mp hq⟩
    rw [writeMany] at h
    rcases bind_run (writeOne x n (gs, t) v) (fun _ => writeMany x n l) s with ⟨ob, s1, e1, e2⟩ | ⟨e, s1, e1, e2⟩
    · rw [e2] at h
      obtain ⟨h1, h2⟩ := writeOne_keep hN hi ht o1 e1
      have hro := writeOne_rpos hN hi ht o1 e1
      have hro2 := writeMany_rpos hN h1 h2 (fun e he => (ho e (by simp [he])).1) h
      obtain ⟨before, f, after, q1, q2, q3⟩ := ih h1 h2 (fun b hb => ⟨(ho b (by simp [hb])).1, hfree e1 b hb⟩) p2 (fun i j a b c => hr i j (by omega) b c) h
      refine ⟨((gs, t), v) :: before, f, after, by rw [q1, List.cons_append], ?_, q3⟩
      intro a ha hg
      rcases List.mem_cons.mp ha with rfl | ha
      · exact (writeOne_stored hR hi ht o1 o2 (fun i j a b c => hr i j a b (by omega)) hg e1).away
          (writeMany_away hN h1 h2 (fun e he => ⟨(ho e (by simp [he])).1, And.symm (p1 e he)⟩) o1 h)
      · exact q2 a ha hg
    · rw [e2] at h; cases h
      exact ⟨[], _, l, rfl, by simp, hfree e1⟩

theorem all2_split {α β : Type} {R : α → β → Prop} {l : List α} {m1 m2 : List β} (h : All2 R l (m1 ++ m2)) : ∃ l1 l2, l = l1 ++ l2 ∧ All2 R l1 m1 ∧ All2 R l2 m2 := by
  induction m1 generalizing l with
  | nil => exact ⟨[], l, rfl, .nil, h⟩
  | cons b m1 ih =>
    cases h with
    | cons a r =>
      obtain ⟨l1, l2, rfl, h1, h2⟩ := ih r
      exact ⟨_ :: l1, l2, rfl, .cons a h1, h2⟩

/-- C69. A call of `writes` for unused places none of which is above or below another one raises.  Then there is one value with which it failed: every value
before it (in the order of the mapping) that may be stored without loss reads back, and at the places of all values after it there is still nothing. -/
theorem C69_partway {x : Ctx} (hR : RtOpts x.o) (hp : RefsPathOk x.o) {n : Nat} {F F' : FileS} (hF : Reach x F) (hrw : F.ro = false) {items : List (PathArg × List Str × Val)}
    (hne : items ≠ []) (ha : ∀ i ∈ items, Addr i.1 i.2.1 ∧ i.2.1 ≠ [] ∧ ¬ Exists F.st.heap i.2.1) (hap : items.Pairwise fun a b => Apart a.2.1 b.2.1) {e : Exc}
    (hd : DistinctDraws x F.st.rpos F'.st.rpos) (h : fileWrites x n (items.map fun i => (i.1, i.2.2)) F = (.error e, F')) :
    ∃ (before : List (PathArg × List Str × Val)) (failed : PathArg × List Str × Val) (after : List (PathArg × List Str × Val)), items = before ++ failed :: after ∧
      (∀ i ∈ before, Good x.o i.2.2 → ReadsBack x n F'.st.heap i.2.1 i.2.2) ∧ ∀ i ∈ after, ¬ Exists F'.st.heap i.2.1 := by
  obtain ⟨hi, ht⟩ := reach_keep hp (Spec.RtOpts.names hR) hF
  have hsame : F' = F → ∃ (before : List (PathArg × List Str × Val)) (failed : PathArg × List Str × Val) (after : List (PathArg × List Str × Val)), items = before ++ failed :: after ∧
      (∀ i ∈ before, Good x.o i.2.2 → ReadsBack x n F'.st.heap i.2.1 i.2.2) ∧ ∀ i ∈ after, ¬ Exists F'.st.heap i.2.1 := by
    rintro rfl
    cases items with
    | nil => exact absurd rfl hne
    | cons i items => exact ⟨[], i, items, rfl, by simp, fun j hj => (ha j (by simp [hj])).2.2⟩
  unfold fileWrites at h
  split at h
  · cases h; exact hsame rfl
  cases hc : checkItems x.o.refsPath (items.map fun i => (i.1, i.2.2)) with
  | error e => rw [hc] at h; cases h; exact hsame rfl
  | ok tw =>
    rw [hc] at h
    dsimp only at h
    split at h
    · cases h; exact hsame rfl
    rw [runFile_rw _ hrw] at h
    have h1 : (writeMany x n tw F.st).1 = .error e := congrArg Prod.fst h
    have h2 : F'.st = (writeMany x n tw F.st).2 := congrArg (fun r => r.2.st) h.symm
    have hm : writeMany x n tw F.st = (.error e, F'.st) := by rw [h2, ← h1]
    have hz : All2 (fun i e => OffRefs x.o i.2.1 ∧ i.2.1 = commonComps e.1.1 ++ [e.1.2] ∧ i.2.2 = e.2) items tw := by
      have := checkItems_mem hc
      clear hm h h2 h1 hd hc hap hsame hne
      induction items generalizing tw with
      | nil => cases this; exact .nil
      | cons i items ih =>
        cases this with
        | cons a b =>
          obtain ⟨a1, a2⟩ := a
          obtain ⟨c1, c2, c3⟩ := checkPath_off hp a1
          obtain ⟨d1, d2, _⟩ := ha i (by simp)
          obtain ⟨o1, o2⟩ := c2 fun hd => d2 (addr_unique d1 (c3 hd))
          have := addr_unique d1 ⟨_, _, c1, o2.symm⟩
          exact .cons ⟨this ▸ o1, this, a2⟩ (ih (fun i hi => ha i (by simp [hi])) _ b)
    obtain ⟨b, f, a, rfl, g1, g2⟩ := writeMany_partway hR hi ht (l := tw) (s' := F'.st) (by
      intro e he
      obtain ⟨i, hi, o1, o2, o3⟩ := all2_right hz e he
      obtain ⟨_, _, d3⟩ := ha i hi
      exact ⟨o2 ▸ o1, o2 ▸ d3⟩) (by
      clear hm h h2 h1 hd hc ha hsame hne
      induction hz with
      | nil => exact .nil
      | cons a b ih =>
        obtain ⟨p1, p2⟩ := List.pairwise_cons.mp hap
        refine List.pairwise_cons.mpr ⟨?_, ih p2⟩
        intro e he
        obtain ⟨i, hi, _, o2, _⟩ := all2_right b e he
        have := p1 i hi
        rw [a.2.1, o2] at this
        exact this) hd hm
    obtain ⟨i1, i2, rfl, z1, z2⟩ := all2_split hz
    cases z2 with
    | @cons i _ i2 _ _ z2 =>
      refine ⟨i1, i, i2, rfl, ?_, ?_⟩
      · intro j hj hg
        obtain ⟨e, he, o1, o2, o3⟩ := all2_left z1 j hj
        have := (g1 e he (o3 ▸ hg)).readsBack hp (o2 ▸ o1)
        rw [o2, o3]
        exact this
      · intro j hj
        obtain ⟨e, he, o1, o2, o3⟩ := all2_left z2 j hj
        rw [o2]
        exact g2 e he

-- Three values, the name of the second one cannot be stored.
example : ∃ (items : List (PathArg × List Str × Val)) (F' : FileS) (e : Exc), items.length = 3 ∧ (∀ i ∈ items, Addr i.1 i.2.1 ∧ i.2.1 ≠ [] ∧ ¬ Exists exF.st.heap i.2.1) ∧
    (items.Pairwise fun a b => Apart a.2.1 b.2.1) ∧ DistinctDraws exX exF.st.rpos F'.st.rpos ∧ fileWrites exX 10 (items.map fun i => (i.1, i.2.2)) exF = (.error e, F') ∧
    (linksOf F'.st.heap 0).length = 3 := by
  refine ⟨[(.str p!"/a", [p!"a"], .seq .list [.int 7, .int 8]), (.str (p!"/b/" ++ [0xD800]), [p!"b", [0xD800]], .int 3), (.str p!"/c", [p!"c"], .int 4)],
    (fileWrites exX 10 [(.str p!"/a", .seq .list [.int 7, .int 8]), (.str (p!"/b/" ++ [0xD800]), .int 3), (.str p!"/c", .int 4)] exF).2, .unicodeError, rfl, ?_, by simp [Apart], ?_, ?_, by decide +kernel⟩
  · intro i hi
    simp only [List.mem_cons, List.not_mem_nil, or_false] at hi
    rcases hi with rfl | rfl | rfl
    · exact ⟨⟨p!"/", p!"a", by decide, by decide⟩, by simp, ex_free _ (by simp)⟩
    · exact ⟨⟨p!"/b", [0xD800], by decide, by decide⟩, by simp, ex_free _ (by simp)⟩
    · exact ⟨⟨p!"/", p!"c", by decide, by decide⟩, by simp, ex_free _ (by simp)⟩
  · have : (fileWrites exX 10 [(.str p!"/a", .seq .list [.int 7, .int 8]), (.str (p!"/b/" ++ [0xD800]), .int 3), (.str p!"/c", .int 4)] exF).2.st.rpos = 0 := by decide +kernel
    intro i j _ _ h3
    rw [this] at h3; omega
  · have : (fileWrites exX 10 [(.str p!"/a", .seq .list [.int 7, .int 8]), (.str (p!"/b/" ++ [0xD800]), .int 3), (.str p!"/c", .int 4)] exF).1 = .error .unicodeError := by decide +kernel
    exact pair_of_fst this

theorem checkItems_append {refs : Str} {a b : List (PathArg × Val)} {ta tb : List ((Str × Str) × Val)} (ha : checkItems refs a = .ok ta) (hb : checkItems refs b = .ok tb) :
    checkItems refs (a ++ b) = .ok (ta ++ tb) := by
  induction a generalizing ta with
  | nil => cases ha; exact hb
  | cons i a ih =>
    obtain ⟨p, v⟩ := i
    rw [checkItems] at ha
    rw [List.cons_append, checkItems]
    cases h1 : checkPath refs p with
    | error e => rw [h1] at ha; cases ha
    | ok gt =>
      cases h2 : checkItems refs a with
      | error e => rw [h1, h2] at ha; cases ha
      | ok l =>
        rw [h1, h2] at ha
        cases ha
        rw [ih h2]
        rfl

theorem writeMany_append (x : Ctx) (n : Nat) (a b : List ((Str × Str) × Val)) (s : St) :
    (∀ s1, writeMany x n a s = (.ok (), s1) → writeMany x n (a ++ b) s = writeMany x n b s1) ∧ ∀ e s1, writeMany x n a s = (.error e, s1) → writeMany x n (a ++ b) s = (.error e, s1) := by
  induction a generalizing s with
  | nil =>
    constructor
    · intro s1 h; cases h; rfl
    · intro e s1 h; cases h
  | cons i a ih =>
    obtain ⟨gt, v⟩ := i
    rw [List.cons_append, writeMany, writeMany]
    rcases bind_run (writeOne x n gt v) (fun _ => writeMany x n a) s with ⟨ob, s1, e1, e2⟩ | ⟨e, s1, e1, e2⟩
    · have e3 : (writeOne x n gt v >>= fun _ => writeMany x n (a ++ b)) s = writeMany x n (a ++ b) s1 := run_bind_ok e1
      constructor
      · intro s2 h; rw [e3]; exact (ih s1).1 s2 (e2.symm.trans h)
      · intro e s2 h; rw [e3]; exact (ih s1).2 e s2 (e2.symm.trans h)
    · have e3 : (writeOne x n gt v >>= fun _ => writeMany x n (a ++ b)) s = (.error e, s1) := run_bind_err e1
      constructor
      · intro s2 h; cases e2.symm.trans h
      · intro e' s2 h; rw [e3]; exact e2.symm.trans h

/-- C69. `writes` writes one value after the other: if the paths are good, a call for several values does what calls for the first ones and for the others do, one
after the other; when the former raises, so does the whole, and nothing more is done. -/
theorem C69_in_turn {x : Ctx} (hp : RefsPathOk x.o) (n : Nat) {a b : List (PathArg × Val)} (hg : ∀ i ∈ a ++ b, GoodPath x.o i.1) {F : FileS} (hrw : F.ro = false) :
    (∀ F1, fileWrites x n a F = (.ok (), F1) → fileWrites x n (a ++ b) F = fileWrites x n b F1) ∧
    ∀ e F1, fileWrites x n a F = (.error e, F1) → fileWrites x n (a ++ b) F = (.error e, F1) := by
  obtain ⟨ta, h1⟩ := checkItems_good (refs := x.o.refsPath) (l := a) fun i hi => good_check hp (hg i (by simp [hi]))
  obtain ⟨tb, h2⟩ := checkItems_good (refs := x.o.refsPath) (l := b) fun i hi => good_check hp (hg i (by simp [hi]))
  have h3 := checkItems_append h1 h2
  unfold fileWrites
  rw [h1, h2, h3]
  dsimp only
  cases hw : F.writable with
  | false => exact ⟨fun F1 h => (nomatch h), fun e F1 h => h⟩
  | true =>
    cases hop : F.isOpen with
    | false => exact ⟨fun F1 h => (nomatch h), fun e F1 h => h⟩
    | true =>
      simp only [Bool.not_true, Bool.false_eq_true, if_false]
      rw [runFile_rw _ hrw, runFile_rw _ hrw]
      obtain ⟨k1, k2⟩ := writeMany_append x n ta tb F.st
      constructor
      · intro F1 h
        have e1 : (writeMany x n ta F.st).1 = .ok () := congrArg Prod.fst h
        have e2 : { F with st := (writeMany x n ta F.st).2 } = F1 := congrArg Prod.snd h
        subst e2
        rw [runFile_rw _ (by exact hrw), k1 (writeMany x n ta F.st).2 (by rw [← e1])]
        simp [hw, hop]
      · intro e F1 h
        have e1 : (writeMany x n ta F.st).1 = .error e := congrArg Prod.fst h
        have e2 : { F with st := (writeMany x n ta F.st).2 } = F1 := congrArg Prod.snd h
        subst e2
        rw [k2 e (writeMany x n ta F.st).2 (by rw [← e1])]

-- Both cases.
example : ∃ (a b : List (PathArg × Val)) (F1 : FileS), a.length = 1 ∧ b.length = 2 ∧ (∀ i ∈ a ++ b, GoodPath exX.o i.1) ∧ fileWrites exX 10 a exF = (.ok (), F1) ∧
    ∃ e F2, fileWrites exX 10 b F1 = (.error e, F2) := by
  refine ⟨[(.str p!"/a", .int 7)], [(.str (p!"/b/" ++ [0xD800]), .int 3), (.str p!"/c", .int 4)], (fileWrites exX 10 [(.str p!"/a", .int 7)] exF).2, rfl, rfl, ?_,
    pair_of_fst (by decide +kernel), .unicodeError, _, pair_of_fst (by decide +kernel)⟩
  intro i hi
  simp only [List.cons_append, List.nil_append, List.mem_cons, List.not_mem_nil, or_false] at hi
  rcases hi with rfl | rfl | rfl
  · exact ⟨[p!"a"], ⟨p!"/", p!"a", by decide, by decide⟩, by decide⟩
  · exact ⟨[p!"b", [0xD800]], ⟨p!"/b", [0xD800], by decide, by decide⟩, by decide⟩
  · exact ⟨[p!"c"], ⟨p!"/", p!"c", by decide, by decide⟩, by decide⟩

end HS
