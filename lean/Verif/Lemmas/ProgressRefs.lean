import Verif.Lemmas.Progress
import Verif.Lemmas.FileInv
/-
Writing succeeds: the references Group.
-/
namespace HS
open Spec

variable {K : Nat → Prop}

/-- The path of the references Group can be used. -/
structure RefsOk (x : Ctx) : Prop where
  ne : refsComps x.o ≠ []
  name : ∀ k ∈ refsComps x.o, nameOk k = true ∧ k ≠ []
  ascii : x.o.matlab = true → Ascii (refsName x.o)

theorem getLink_ok {g : Nat} {name : Str} {s : St} (h : nameOk name = true) : getLink g name s = (.ok (hlook s.heap g name), s) := by
  unfold getLink; rw [if_pos h]

theorem linksOf_new (h : Heap) (g : Nat) (name : Str) (o : Obj) : linksOf (createHeap h g name o) h.length = objLinks o := by
  unfold linksOf
  rw [getElem?_createHeap, if_pos rfl]
  obtain ⟨a, b⟩ := o
  cases b <;> rfl

theorem isGroup_new (h : Heap) (g : Nat) (name : Str) : isGroup (createHeap h g name ⟨[], .group []⟩) h.length = true := by
  unfold isGroup
  rw [getElem?_createHeap, if_pos rfl]

/-- Making Groups in a new Group. -/
theorem createPath_new {cs : List Str} (hne : cs ≠ []) {g : Nat} {s : St} (hn : ∀ k ∈ cs, nameOk k = true ∧ k ≠ [] ∧ k ≠ [dot]) (hg : isGroup s.heap g = true)
    (hl : linksOf s.heap g = []) (ht : TextClasses s.heap) : ∃ r s', createPath g cs s = (.ok r, s') ∧ TextClasses s'.heap := by
  induction cs generalizing g s with
  | nil => exact absurd rfl hne
  | cons c cs ih =>
    obtain ⟨h1, h2, h3⟩ := hn c (by simp)
    have hrun := createObj_runs (o := ⟨[], .group []⟩) (s := s) h1 h2 hg h3 (by rw [hl]; rfl)
    have ht' : TextClasses (createHeap s.heap g c ⟨[], .group []⟩) := txt_create classOk_nil ht
    cases cs with
    | nil => exact ⟨_, _, hrun, ht'⟩
    | cons d cs =>
      rw [createPath]
      · rw [run_bind_ok (getLink_ok h1), hlook_plain _ _ _ h3, hl]
        show ∃ r s', (createGroup g c >>= fun g' => createPath g' (d :: cs)) s = (.ok r, s') ∧ TextClasses s'.heap
        rw [run_bind_ok (show createGroup g c s = _ from hrun)]
        exact ih (by simp) (fun k hk => hn k (List.mem_cons_of_mem _ hk)) (isGroup_new _ _ _) (linksOf_new _ _ _ _) ht'
      · simp

/-- Making the Groups on the way to the references Group. -/
theorem createPath_go {x : Ctx} (hx : RefsOk x) {cs pre : List Str} {g : Nat} {s : St} (hw : Way K x s.heap) (ht : TextClasses s.heap) (hcs : refsComps x.o = pre ++ cs)
    (hne : cs ≠ []) (hg : resolve s.heap 0 pre = some g) (hnone : resolve s.heap 0 (refsComps x.o) = none) :
    ∃ r s', createPath g cs s = (.ok r, s') ∧ TextClasses s'.heap := by
  induction cs generalizing pre g with
  | nil => exact absurd rfl hne
  | cons c cs ih =>
    have hpl := plainComps x
    have hmem : ∀ k ∈ c :: cs, nameOk k = true ∧ k ≠ [] ∧ k ≠ [dot] := fun k hk => by
      have hk' : k ∈ refsComps x.o := by rw [hcs]; exact List.mem_append_right _ hk
      exact ⟨(hx.name k hk').1, (hx.name k hk').2, hpl k hk'⟩
    obtain ⟨h1, h2, h3⟩ := hmem c (by simp)
    have hgg : isGroup s.heap g = true := hw.grp pre c g ⟨cs, by rw [hcs]; simp⟩ hg
    cases hl : aget (linksOf s.heap g) c with
    | none =>
      have hrun := createObj_runs (o := ⟨[], .group []⟩) (s := s) h1 h2 hgg h3 hl
      have ht' : TextClasses (createHeap s.heap g c ⟨[], .group []⟩) := txt_create classOk_nil ht
      cases cs with
      | nil => exact ⟨_, _, hrun, ht'⟩
      | cons d cs =>
        rw [createPath]
        · rw [run_bind_ok (getLink_ok h1), hlook_plain _ _ _ h3, hl]
          show ∃ r s', (createGroup g c >>= fun g' => createPath g' (d :: cs)) s = (.ok r, s') ∧ TextClasses s'.heap
          rw [run_bind_ok (show createGroup g c s = _ from hrun)]
          exact createPath_new (by simp) (fun k hk => hmem k (List.mem_cons_of_mem _ hk)) (isGroup_new _ _ _) (linksOf_new _ _ _ _) ht'
        · simp
    | some g' =>
      have hr' : resolve s.heap 0 (pre ++ [c]) = some g' := (resolve_snoc _ _ _ _ h3 _).mpr ⟨g, hg, hl⟩
      cases cs with
      | nil => rw [hcs, hr'] at hnone; cases hnone
      | cons d cs =>
        rw [createPath]
        · rw [run_bind_ok (getLink_ok h1), hlook_plain _ _ _ h3, hl]
          exact ih (pre := pre ++ [c]) (by rw [hcs]; simp) (by simp) hr'
        · simp

/-- Removing what is in the way of the references Group. -/
theorem unlinkPath_go {x : Ctx} (hx : RefsOk x) {cs pre : List Str} {g r : Nat} {s : St} (hcs : refsComps x.o = pre ++ cs)
    (hne : cs ≠ []) (hg : resolve s.heap 0 pre = some g) (hres : resolve s.heap 0 (refsComps x.o) = some r) :
    ∃ g' c, unlinkPath g cs s = (.ok (), { s with heap := s.heap.update g' (Obj.mapLinks fun l => l.filter fun p => !(p.1 == c)) }) ∧
      ∃ m, refsComps x.o = m ++ [c] ∧ resolve s.heap 0 m = some g' := by
  induction cs generalizing pre g with
  | nil => exact absurd rfl hne
  | cons c cs ih =>
    have hpl := plainComps x
    have hk' : c ∈ refsComps x.o := by rw [hcs]; simp
    have h1 := (hx.name c hk').1
    have h3 := hpl c hk'
    have hl : ∃ q, LinkAt s.heap g c q := by
      have hr' := hres
      rw [hcs, resolve_append, hg] at hr'
      simp only [Option.bind, resolve, hlook_plain _ _ _ h3] at hr'
      cases hq : aget (linksOf s.heap g) c with
      | none => rw [hq] at hr'; cases hr'
      | some q => exact ⟨q, hq⟩
    obtain ⟨q, hq⟩ := hl
    cases cs with
    | nil => exact ⟨g, c, unlink_runs h1 h3 hq, pre, hcs, hg⟩
    | cons d cs =>
      rw [unlinkPath]
      · rw [run_bind_ok (getLink_ok h1), hlook_plain _ _ _ h3, show aget (linksOf s.heap g) c = some q from hq]
        exact ih (pre := pre ++ [c]) (by rw [hcs]; simp) (by simp) ((resolve_snoc _ _ _ _ h3 _).mpr ⟨g, hg, hq⟩)
      · simp

theorem resolve_sub {x : Ctx} {h h' : Heap} (hl : ∀ p k q, LinkAt h' p k q → LinkAt h p k q) {pre : List Str} (hp : pre <+: refsComps x.o) {q : Nat}
    (hr : resolve h' 0 pre = some q) : resolve h 0 pre = some q := by
  have hpl := prefix_plain (plainComps x) hp
  refine resolve_lpath hpl (lpath_mono (h := h') hl (lpath_resolve hpl hr))

/-- No random number is drawn. -/
def Still {α : Type} (m : M α) : Prop := ∀ s, (m s).2.rpos = s.rpos

theorem Still.bind {α β : Type} {m : M α} {f : α → M β} (h : Still m) (hf : ∀ a, Still (f a)) : Still (m >>= f) := by
  intro s
  rcases bind_run m f s with ⟨a, s1, e1, e2⟩ | ⟨e, s1, e1, e2⟩
  · rw [e2, hf a s1]
    have := h s
    rw [e1] at this; exact this
  · rw [e2]
    have := h s
    rw [e1] at this; exact this

theorem getLink_still (g : Nat) (k : Str) : Still (getLink g k) := by
  intro s; unfold getLink; split <;> rfl

theorem createObj_still (g : Nat) (k : Str) (o : Obj) : Still (createObj g k o) := by
  intro s; unfold createObj; split
  · rfl
  · split <;> rfl

theorem unlink_still (g : Nat) (k : Str) : Still (unlink g k) := by
  intro s
  rcases unlink_run g k s with ⟨e, h⟩ | ⟨h, _⟩ <;> rw [h]

theorem createPath_still (cs : List Str) (g : Nat) : Still (createPath g cs) := by
  induction cs generalizing g with
  | nil => intro s; rfl
  | cons c cs ih =>
    cases cs with
    | nil => exact createObj_still _ _ _
    | cons d cs =>
      rw [createPath]
      · refine (getLink_still g c).bind fun a => ?_
        cases a with
        | some g' => exact ih g'
        | none => exact (createObj_still g c _).bind fun a => ih a
      · simp

theorem unlinkPath_still (cs : List Str) (g : Nat) : Still (unlinkPath g cs) := by
  induction cs generalizing g with
  | nil => intro s; rfl
  | cons c cs ih =>
    cases cs with
    | nil => exact unlink_still _ _
    | cons d cs =>
      rw [unlinkPath]
      · refine (getLink_still g c).bind fun a => ?_
        cases a with
        | some g' => exact ih g'
        | none => intro s; rfl
      · simp

theorem ensureRefs_still (x : Ctx) : Still (ensureRefs x) := by
  intro s
  have mk : Still (createPath 0 (refsComps x.o) >>= fun r => modSt (fun s => { s with refs := some r, created := true }) >>= fun _ => (pure r : M Nat)) :=
    (createPath_still _ _).bind fun r s => rfl
  unfold ensureRefs
  rw [run_getSt]
  cases s.refs with
  | some r => rfl
  | none =>
    dsimp only
    cases resolve s.heap 0 (refsComps x.o) with
    | none => exact mk s
    | some r =>
      dsimp only
      by_cases hg : isGroup s.heap r = true
      · rw [if_pos hg]; rfl
      · rw [if_neg hg]; exact ((unlinkPath_still _ _).bind fun _ => mk) s

theorem Go.mine_step {x : Ctx} {s s' : St} {A : Nat → Str → Prop} {D : Nat → Prop} (hs : Go K x s) {r : Nat} (hr : s.refs = some r) (st : Step x A D s s') (k : Nat) (hk : K k) :
    s'.rpos = k ∧ (s'.refs ≠ none → s'.created = true) := by
  obtain ⟨h1, h2⟩ := hs.mine k hk
  have h3 := h2 (by rw [hr]; simp)
  exact ⟨(st.fr.rnd (by rw [hr]; simp) h3).trans h1, fun _ => (st.fr.refs r hr).2.trans h3⟩

/-- Finding or making the references Group succeeds. -/
theorem ensureRefs_go {x : Ctx} (hx : RefsOk x) {s : St} (hs : Go K x s) : ∃ r s', ensureRefs x s = (.ok r, s') ∧ Go K x s' ∧ s'.refs = some r := by
  suffices h : ∃ r s', ensureRefs x s = (.ok r, s') ∧ TextClasses s'.heap ∧ ((∃ k, K k) → s'.created = true) by
    obtain ⟨r, s', h1, h2, h3⟩ := h
    obtain ⟨st, hr⟩ := ensureRefs_spec hs.inv h1
    have hr' := hr r rfl
    exact ⟨r, s', h1, ⟨st.inv, (fun hn => by rw [hr'] at hn; cases hn), h2, fun k hk => ⟨by have := ensureRefs_still x s; rw [h1] at this; exact this.trans (hs.mine k hk).1, fun _ => h3 ⟨k, hk⟩⟩⟩, hr'⟩
  unfold ensureRefs
  rw [run_getSt]
  cases hs' : s.refs with
  | some r => exact ⟨r, s, rfl, hs.txt, fun ⟨k, hk⟩ => (hs.mine k hk).2 (by rw [hs']; simp)⟩
  | none =>
    dsimp only
    have hw := hs.way hs'
    have hmk : ∀ s1 : St, Way K x s1.heap → TextClasses s1.heap → resolve s1.heap 0 (refsComps x.o) = none → ∃ r s',
        (createPath 0 (refsComps x.o) >>= fun r => modSt (fun s => { s with refs := some r, created := true }) >>= fun _ => (pure r : M Nat)) s1 = (.ok r, s') ∧
          TextClasses s'.heap ∧ ((∃ k, K k) → s'.created = true) := by
      intro s1 hw1 ht1 hn1
      obtain ⟨r, s2, h1, h2⟩ := createPath_go hx (cs := refsComps x.o) (pre := []) hw1 ht1 rfl hx.ne rfl hn1
      exact ⟨r, { s2 with refs := some r, created := true }, by rw [run_bind_ok h1]; rfl, h2, fun _ => rfl⟩
    cases hres : resolve s.heap 0 (refsComps x.o) with
    | none => exact hmk s hw hs.txt hres
    | some r =>
      dsimp only
      by_cases hg : isGroup s.heap r = true
      · rw [if_pos hg]
        exact ⟨r, _, rfl, hs.txt, fun hk => by rw [hw.none hk] at hres; cases hres⟩
      · rw [if_neg hg]
        obtain ⟨g', c, h1, m, h2, h3⟩ := unlinkPath_go hx (cs := refsComps x.o) (pre := []) rfl hx.ne rfl hres
        rw [run_bind_ok h1]
        have hf := filter_go (g := g') (keep := fun k => !(k == c)) hs
        refine hmk _ (hf.1 hs') hf.2 ?_
        cases hr2 : resolve (s.heap.update g' (Obj.mapLinks fun l => l.filter fun p => !(p.1 == c))) 0 (refsComps x.o) with
        | none => rfl
        | some q =>
          rw [h2] at hr2
          have hc : c ∈ refsComps x.o := by rw [h2]; simp
          obtain ⟨a, ha, hl⟩ := (resolve_snoc _ _ _ _ (plainComps x c hc) _).mp hr2
          have ha' := resolve_sub (x := x) (fun p k q hl => (linkAt_filter (keep := fun k => !(k == c)) hl).1) ⟨[c], h2.symm⟩ ha
          rw [h3] at ha'
          cases ha'
          have := (linkAt_filter (keep := fun k => !(k == c)) hl).2 rfl
          simp at this

theorem isCanon_ok {ob : Obj} (h : ClassOk ob.attrs) : ∃ b, isCanon ob = .ok b := by
  unfold isCanon
  split
  · exact ⟨_, rfl⟩
  · split
    · exact ⟨_, rfl⟩
    · cases ha : aget ob.attrs p!"MATLAB_class" with
      | none => exact ⟨_, rfl⟩
      | some v =>
        cases v with
        | bytes b =>
          obtain ⟨t, ht⟩ := h b ha
          refine ⟨some t = some p!"canonical empty" && attrIsOne (aget ob.attrs p!"MATLAB_empty"), ?_⟩
          simp only [attrToString, ht]; rfl
        | pyStr s => exact ⟨_, rfl⟩
        | strs l => exact ⟨_, rfl⟩
        | u64s l => exact ⟨_, rfl⟩
        | int d v => exact ⟨_, rfl⟩
        | fields l => exact ⟨_, rfl⟩

theorem classOk_canon : ClassOk canonObj.attrs := by
  intro b hb
  cases hb
  exact ascii_text (by decide)

/-- Finding or making the canonical empty succeeds. -/
theorem ensureCanon_go {x : Ctx} {s : St} (hs : Go K x s) {r : Nat} (hr : s.refs = some r) : ∃ c s', ensureCanon r s = (.ok c, s') ∧ Go K x s' ∧ s'.refs = some r := by
  suffices h : ∃ r' s', ensureCanon r s = (.ok r', s') ∧ TextClasses s'.heap by
    obtain ⟨r', s', h1, h2⟩ := h
    have st := ensureCanon_spec hs.inv hr h1
    have hr' := st.keepRefs hr
    exact ⟨r', s', h1, ⟨st.inv, (fun hn => by rw [hr'] at hn; cases hn), h2, fun k hk => Go.mine_step hs hr st k hk⟩, hr'⟩
  obtain ⟨hres, hgr⟩ := hs.inv.refs r hr
  unfold ensureCanon
  rw [run_getSt]
  cases hc : s.canon with
  | some c => exact ⟨c, s, rfl, hs.txt⟩
  | none =>
    dsimp only
    have hmk : ∀ s1 : St, isGroup s1.heap r = true → TextClasses s1.heap → aget (linksOf s1.heap r) p!"a" = none → ∃ c s',
        (createObj r p!"a" canonObj >>= fun c => modSt (fun s => { s with canon := some c }) >>= fun _ => (pure c : M Nat)) s1 = (.ok c, s') ∧ TextClasses s'.heap := by
      intro s1 hg1 ht1 hn1
      have hrun := createObj_runs (o := canonObj) (s := s1) (by decide) (by decide) hg1 (by decide) hn1
      exact ⟨s1.heap.length, { s1 with heap := createHeap s1.heap r p!"a" canonObj, canon := some s1.heap.length }, by rw [run_bind_ok hrun]; rfl, txt_create classOk_canon ht1⟩
    rw [hlook_plain _ _ _ (by decide)]
    cases hl : aget (linksOf s.heap r) p!"a" with
    | none => exact hmk s hgr hs.txt hl
    | some c =>
      dsimp only
      have hlt := hs.inv.wf r _ c hl
      have ho : s.heap[c]? = some s.heap[c] := List.getElem?_eq_getElem hlt
      generalize s.heap[c] = ob at ho
      rw [ho]
      dsimp only
      obtain ⟨b, hb⟩ := isCanon_ok (txt_iff.mp hs.txt c ob ho)
      rw [run_bind_ok (show (liftRes (isCanon ob) : M Bool) s = (.ok b, s) by rw [hb]; rfl)]
      cases b with
      | true => exact ⟨c, { s with canon := some c }, rfl, hs.txt⟩
      | false =>
        have hrun := unlink_runs (g := r) (name := p!"a") (s := s) (q := c) (by decide) (by decide) hl
        rw [if_neg (by decide), run_bind_ok hrun]
        refine hmk _ ?_ (filter_go (keep := fun k => !(k == p!"a")) hs).2 ?_
        · exact isGroup_update (fun o _ ⟨l, hl⟩ => ⟨_, by unfold Obj.mapLinks; rw [hl]⟩) r hgr
        · cases ha : aget (linksOf (s.heap.update r (Obj.mapLinks fun l => l.filter fun p => !(p.1 == p!"a"))) r) p!"a" with
          | none => rfl
          | some q =>
            have := (linkAt_filter (keep := fun k => !(k == p!"a")) ha).2 rfl
            simp at this

theorem drawName_go {x : Ctx} {r n : Nat} {s : St} : (∃ nm s', drawName x r n s = (.ok nm, s')) ∨
    drawName x r n s = (.error .other, { s with rpos := s.rpos + n }) ∧ ∀ (i : Nat), s.rpos ≤ i → i < s.rpos + n → (hlook s.heap r (randName x i)).isSome = true := by
  induction n generalizing s with
  | zero => exact Or.inr ⟨rfl, fun i h1 h2 => by omega⟩
  | succ n ih =>
    rw [drawName, run_getSt, run_modSt]
    by_cases h : (hlook s.heap r (randName x s.rpos)).isSome = true
    · rw [if_pos h]
      rcases ih (s := { s with rpos := s.rpos + 1 }) with ih | ⟨h1, h2⟩
      · exact Or.inl ih
      · refine Or.inr ⟨?_, fun i h3 h4 => ?_⟩
        · rw [h1]
          have : s.rpos + 1 + n = s.rpos + (n + 1) := by omega
          show (_, ({ s with rpos := s.rpos + 1 + n } : St)) = _
          rw [this]
        · by_cases hi : i = s.rpos
          · rw [hi]; exact h
          · exact h2 i (show s.rpos + 1 ≤ i by omega) (show i < s.rpos + 1 + n by omega)
    · rw [if_neg h]
      exact Or.inl ⟨_, _, rfl⟩

/-- Finding a name for something in the references Group. -/
theorem nextName_go {x : Ctx} (hx : RefsOk x) {s : St} (hs : Go K x s) {r : Nat} (hr : s.refs = some r) : Goes K x (nextName x) s (fun _ s' => Go K x s' ∧ s'.refs = some r) := by
  have fin : ∀ nm s', nextName x s = (.ok nm, s') → TextClasses s'.heap → Go K x s' ∧ s'.refs = some r := by
    intro nm s' h ht
    have st := (nextName_spec hs.inv hr h).1
    have hr' := st.keepRefs hr
    exact ⟨⟨st.inv, (fun hn => by rw [hr'] at hn; cases hn), ht, fun k hk => Go.mine_step hs hr st k hk⟩, hr'⟩
  suffices h : Goes K x (nextName x) s (fun _ s' => TextClasses s'.heap) from h.mono fin
  unfold nextName
  by_cases hc : s.created = true
  · refine Goes.ok (a := hexStr s.counter) (s' := { s with counter := s.counter + 1 }) ?_ hs.txt
    rw [run_getSt, if_pos hc]; rfl
  · obtain ⟨r1, s1, h1, h2, h3⟩ := ensureRefs_go hx hs
    have hr1 := (ensureRefs_spec hs.inv h1).1.keepRefs hr
    rw [h3] at hr1; cases hr1
    obtain ⟨c, s2, h4, h5, h6⟩ := ensureCanon_go h2 h3
    have hrun : ∀ P : Str → St → Prop, Goes K x (drawName x r x.hang) s2 P → Goes K x (do
        let s ← getSt
        if s.created then do
          modSt fun s => { s with counter := s.counter + 1 }
          pure (hexStr s.counter)
        else do
          let r ← ensureRefs x
          let _ ← ensureCanon r
          drawName x r x.hang) s P := by
      intro P hP
      unfold Goes at hP ⊢
      rw [run_getSt, if_neg hc, run_bind_ok h1, run_bind_ok h4]
      exact hP
    refine hrun _ ?_
    rcases drawName_go (x := x) (r := r) (n := x.hang) (s := s2) with ⟨nm, s', h7⟩ | ⟨h7, h8⟩
    · have : s'.heap = s2.heap := by
        have hcr : s2.created = false := by
          have e1 := ((ensureRefs_spec hs.inv h1).1.fr.refs r hr).2
          have e2 := ((ensureCanon_spec h2.inv h3 h4).fr.refs r h3).2
          rw [e2, e1]; simpa using hc
        exact (drawName_spec h5.inv hcr h7).2.1
      exact Goes.ok h7 (by rw [this]; exact h5.txt)
    · refine Or.inr ⟨_, h7, ⟨by show x.hang ≤ s2.rpos + x.hang; omega, ?_⟩, fun ⟨k, hk⟩ => hc ((hs.mine k hk).2 (by rw [hr]; simp))⟩
      intro i h9 h10
      have hh := h8 i (by have : s2.rpos + x.hang - x.hang ≤ i := h9; omega) h10
      rw [hlook_plain _ _ _ (randName_ne_dot x i)] at hh
      obtain ⟨q, hq⟩ := Option.isSome_iff_exists.mp hh
      exact ⟨q, .snoc (lpath_resolve (plainComps x) (h5.inv.refs r h6).1) hq⟩

end HS
