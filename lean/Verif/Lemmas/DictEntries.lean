import Verif.Lemmas.Away
import Verif.Lemmas.RefElems
import Verif.Spec.Dict
import Verif.Lemmas.RecFields
/-
What is in a Group after a dict was written to it.
-/
namespace HS
open Spec

/-- No link of the Group leads back to it. -/
def NoLoop (s : St) (g : Nat) : Prop := ∀ k q, LinkAt s.heap g k q → ¬ LReach s.heap q g

theorem NoLoop.keep {x : Ctx} {A D} {s s' : St} (f : Fr x A D s s') {g : Nat} (hg : g < s.heap.length) (h : NoLoop s g) : NoLoop s' g := by
  intro k q hl hr
  obtain ⟨h1, h2⟩ := f.reach_old hr hg
  exact h k q (f.k1 _ _ _ hl h1) h2

theorem noLoop_of_tree {s : St} (ht : Tree s.heap) {l : List Str} {g : Nat} (hl : LPath s.heap l g) : NoLoop s g := by
  intro k q hk hr
  obtain ⟨m, hm⟩ := LPath.reach (.snoc hl hk) hr
  have := LPath.unique ht hl hm
  simp at this

/-- Writers leave what they have written at the place, or change nothing. -/
structure WrAt (x : Ctx) (wr : Wr) : Prop where
  link : ∀ s g gname name v s' p, Pre x s g name → resolve s.heap 0 (refsComps x.o) ≠ some g → NoLoop s g →
    wr g gname name v s = (.ok (some p), s') → LinkAt s'.heap g name p
  none : ∀ s g gname name v s', name ≠ [dot] → wr g gname name v s = (.ok none, s') → s' = s

theorem putAttrs_link {s s' : St} {ob : Option Nat} {g : Nat} {name : Str} (hd : name ≠ [dot]) (a : Arr) (f : Filters) (at' : List (Str × AIn))
    (h : (putDataset g name a f >>= fun p => setAttrsM p at' true >>= fun _ => (pure (some p) : M (Option Nat))) s = (.ok ob, s')) :
    ∃ p, ob = some p ∧ LinkAt s'.heap g name p := by
  rcases bind_run (putDataset g name a f) (fun p => setAttrsM p at' true >>= fun _ => (pure (some p) : M (Option Nat))) s with ⟨p, s1, e1, e2⟩ | ⟨e, s1, e1, e2⟩
  · have h' := e2.symm.trans h
    obtain ⟨hl, _⟩ := putDataset_done hd e1
    rcases bind_run (setAttrsM p at' true) (fun _ => (pure (some p) : M (Option Nat))) s1 with ⟨u, s2, e3, e4⟩ | ⟨e, s2, e3, e4⟩
    · have h'' := e4.symm.trans h'
      rw [run_pure] at h''
      cases h''
      obtain ⟨o, at2, h1, _, h3⟩ := setAttrs_done e3
      refine ⟨p, rfl, ?_⟩
      rw [h3]
      exact (linkAt_set_attrs h1 _ _ _).mpr hl
    · have h'' := e4.symm.trans h'
      cases h''
  · have h' := e2.symm.trans h
    cases h'

theorem writeNpObj_link {x : Ctx} {wr : Wr} {s s' : St} {ob : Option Nat} {g : Nat} {name : Str} (hd : name ≠ [dot]) (c : Cont)
    (shape : List Nat) (elems : List Val) (ts : Str) (h : writeNpObj x wr g name c shape elems ts s = (.ok ob, s')) :
    ∃ p, ob = some p ∧ LinkAt s'.heap g name p := by
  unfold writeNpObj at h
  generalize (if x.o.reverse = true then _ else elems) = el at h
  generalize (if x.o.reverse = true then (if x.o.atleast2d = true then atleast2dShape shape else shape).reverse else _) = sh' at h
  generalize (if (x.o.storeShape && prodN shape == 0) = true then _ else _ : M Arr) = m at h
  rcases bind_run m _ s with ⟨d, s1, e1, e2⟩ | ⟨e, s1, e1, e2⟩
  · rw [e2] at h
    exact putAttrs_link hd _ _ _ h
  · rw [e2] at h; cases h

/-- Getting the Group: it is at the place, with what was in it. -/
theorem getGroup_done {s s' : St} {g p : Nat} {name : Str} (hd : name ≠ [dot]) (hwf : ∀ p k q, LinkAt s.heap p k q → q < s.heap.length)
    (h : getGroup g name s = (.ok p, s')) :
    LinkAt s'.heap g name p ∧ isGroup s'.heap p = true ∧
      ∀ k q, LinkAt s'.heap p k q ↔ ∃ p0, LinkAt s.heap g name p0 ∧ LinkAt s.heap p0 k q := by
  unfold getGroup at h
  have hnone : ∀ q, isGroup s.heap q = false → ∀ k r, ¬ LinkAt s.heap q k r := by
    intro q hq k r hr
    unfold LinkAt linksOf at hr
    unfold isGroup at hq
    cases ho : s.heap[q]? with
    | none => rw [ho] at hr; cases hr
    | some ob =>
      obtain ⟨a, b⟩ := ob
      rw [ho] at hr hq
      cases b with
      | group l => cases hq
      | dset a f => cases hr
  have hcr : ∀ s0 : St, s0.heap.length = s.heap.length → (∀ k r, ¬ LinkAt s0.heap s.heap.length k r) → (∀ q, LinkAt s.heap g name q → isGroup s.heap q = false) →
      createGroup g name s0 = (.ok p, s') → LinkAt s'.heap g name p ∧ isGroup s'.heap p = true ∧
      ∀ k q, LinkAt s'.heap p k q ↔ ∃ p0, LinkAt s.heap g name p0 ∧ LinkAt s.heap p0 k q := by
    intro s0 hlen _ hng hc
    rcases createObj_run g name ⟨[], .group []⟩ s0 with ⟨e, h3⟩ | ⟨h3, _, _, h4, h5, h6⟩
    · rw [createGroup, h3] at hc; cases hc
    · rw [createGroup, h3] at hc
      cases hc
      refine ⟨(linkAt_createHeap _ _ _ _ h4 h6 rfl _ _ _).mpr (Or.inr ⟨rfl, rfl, rfl⟩), ?_, ?_⟩
      · unfold isGroup
        dsimp only
        rw [getElem?_createHeap, if_pos rfl]
      · intro k q
        constructor
        · intro hk
          unfold LinkAt linksOf at hk
          dsimp only at hk
          rw [getElem?_createHeap, if_pos rfl] at hk
          cases hk
        · rintro ⟨p0, h7, h8⟩
          exact absurd h8 (hnone p0 (hng p0 h7) k q)
  rcases getLink_run g name s with hh | ⟨e, hh⟩
  · rw [run_bind_ok hh, hlook_plain _ _ _ hd] at h
    cases hl : aget (linksOf s.heap g) name with
    | none =>
      rw [hl] at h
      refine hcr s rfl ?_ ?_ h
      · intro k r hr
        have := linkAt_lt hr
        omega
      · intro q hq; unfold LinkAt at hq; rw [hl] at hq; cases hq
    | some q =>
      rw [hl] at h
      dsimp only at h
      rw [run_getSt] at h
      have huniq : ∀ q', LinkAt s.heap g name q' → q' = q := by
        intro q' hq'; unfold LinkAt at hq'; rw [hl] at hq'; cases hq'; rfl
      by_cases hg : isGroup s.heap q = true
      · rw [if_pos hg, run_pure] at h
        cases h
        refine ⟨hl, hg, ?_⟩
        intro k r
        exact ⟨fun h => ⟨p, hl, h⟩, fun ⟨p0, h1, h2⟩ => by rw [huniq p0 h1] at h2; exact h2⟩
      · rw [if_neg hg] at h
        rcases unlink_run g name s with ⟨e, he⟩ | ⟨he, _⟩
        · rw [run_bind_err he] at h; cases h
        · rw [run_bind_ok he] at h
          have hgf : isGroup s.heap q = false := by
            cases hb : isGroup s.heap q with
            | true => exact absurd hb hg
            | false => rfl
          refine hcr _ (length_update _ _ _) ?_ (fun q' hq' => by rw [huniq q' hq']; exact hgf) h
          intro k r hr
          have := linkAt_lt hr
          rw [length_update] at this
          omega
  · rw [run_bind_err hh] at h; cases h

/-- A dict written, taken apart. -/
theorem writeDict_run {x : Ctx} {wr : Wr} {s s' : St} {ob : Option Nat} {g : Nat} {gname name : Str} (keys vals : List Val) (struct : Bool) (ts : Str)
    (h : writeDict x wr g gname name keys vals struct ts s = (.ok ob, s')) :
    ∃ g2 s1 s2 s3, ob = some g2 ∧ getGroup g name s = (.ok g2, s1) ∧ setAttrsM g2 (dictAttrs x.o (keyInfos keys) struct ts) true s1 = (.ok (), s2) ∧
      (if (keyInfos keys).isNone || x.o.deleteUnused then deleteOthers g2 ((dictItems x.o keys vals).map (·.1)) else pure () : M Unit) s2 = (.ok (), s3) ∧
      writeItems x wr g2 (joinName gname name) (dictItems x.o keys vals) s3 = (.ok (), s') := by
  unfold writeDict at h
  dsimp only at h
  change (getGroup g name >>= fun g2 => _) s = _ at h
  rcases bind_run (getGroup g name) _ s with ⟨g2, s1, e1, e2⟩ | ⟨e, s1, e1, e2⟩
  · rw [e2] at h
    rcases bind_run (setAttrsM g2 (dictAttrs x.o (keyInfos keys) struct ts) true) _ s1 with ⟨u, s2, e3, e4⟩ | ⟨e, s2, e3, e4⟩
    · rw [e4] at h
      change ((if (keyInfos keys).isNone || x.o.deleteUnused then deleteOthers g2 ((dictItems x.o keys vals).map (·.1)) else pure () : M Unit) >>= fun _ =>
        ((if x.o.matlab then liftRes (asciiEnc (joinName gname name)) else pure [] : M Bytes) >>= fun _ =>
          (writeItems x wr g2 (joinName gname name) (dictItems x.o keys vals) >>= fun _ => (pure (some g2) : M (Option Nat))))) s2 = _ at h
      rcases bind_run (if (keyInfos keys).isNone || x.o.deleteUnused then deleteOthers g2 ((dictItems x.o keys vals).map (·.1)) else pure () : M Unit) (fun _ =>
        ((if x.o.matlab then liftRes (asciiEnc (joinName gname name)) else pure [] : M Bytes) >>= fun _ =>
          (writeItems x wr g2 (joinName gname name) (dictItems x.o keys vals) >>= fun _ => (pure (some g2) : M (Option Nat))))) s2 with ⟨u', s3, e5, e6⟩ | ⟨e, s3, e5, e6⟩
      · rw [e6] at h
        rcases bind_run (if x.o.matlab then liftRes (asciiEnc (joinName gname name)) else pure [] : M Bytes) (fun _ =>
          (writeItems x wr g2 (joinName gname name) (dictItems x.o keys vals) >>= fun _ => (pure (some g2) : M (Option Nat)))) s3 with ⟨b, s4, e7, e8⟩ | ⟨e, s4, e7, e8⟩
        · rw [e8] at h
          have h34 : s4 = s3 := by
            split at e7
            · cases ha : asciiEnc (joinName gname name) <;> rw [ha] at e7 <;> cases e7; rfl
            · cases e7; rfl
          subst h34
          rcases bind_run (writeItems x wr g2 (joinName gname name) (dictItems x.o keys vals)) (fun _ => (pure (some g2) : M (Option Nat))) s4 with ⟨u2, s5, e9, e10⟩ | ⟨e, s5, e9, e10⟩
          · rw [e10, run_pure] at h
            cases h
            exact ⟨g2, s1, s2, s4, rfl, e1, e3, e5, e9⟩
          · rw [e10] at h; cases h
        · rw [e8] at h; cases h
      · rw [e6] at h; cases h
    · rw [e4] at h; cases h
  · rw [e2] at h; cases h

/-- Attributes do not matter to links. -/
theorem setAttrs_link {p : Nat} {new : List (Str × AIn)} {d : Bool} {s s' : St} (h : setAttrsM p new d s = (.ok (), s')) (g : Nat) (k : Str) (q : Nat) :
    LinkAt s'.heap g k q ↔ LinkAt s.heap g k q := by
  obtain ⟨o, at2, h1, _, h3⟩ := setAttrs_done h
  rw [h3]
  exact linkAt_set_attrs h1 _ _ _

theorem setH5Path_link {x : Ctx} {s s' : St} {res : Res Unit} {p : Nat} {b : Res Bytes} (h : setH5Path x p b s = (res, s')) (g : Nat) (k : Str) (q : Nat) :
    LinkAt s'.heap g k q ↔ LinkAt s.heap g k q := by
  have key : ∀ f : Obj → Obj, (∀ o, linksOf [f o] 0 = linksOf [o] 0) → (LinkAt (s.heap.update p f) g k q ↔ LinkAt s.heap g k q) := by
    intro f hf
    unfold LinkAt
    rw [linksOf_update_body (fun o _ => ?_)]
    exact hf o
  unfold setH5Path at h
  by_cases hm : x.o.matlab = true
  · rw [if_pos hm] at h
    cases b with
    | error e => cases h; exact Iff.rfl
    | ok b =>
      change ((Except.ok () : Res Unit), ({ s with heap := s.heap.update p fun o => { o with attrs := aput o.attrs p!"H5PATH" (.bytes b) } } : St)) = _ at h
      cases h
      exact key _ (fun o => by obtain ⟨a, b⟩ := o; cases b <;> rfl)
  · rw [if_neg hm] at h
    change ((Except.ok () : Res Unit), ({ s with heap := s.heap.update p fun o => { o with attrs := adel o.attrs p!"H5PATH" } } : St)) = _ at h
    cases h
    exact key _ (fun o => by obtain ⟨a, b⟩ := o; cases b <;> rfl)

theorem deleteOthers_link {s : St} (g2 : Nat) (names : List Str) (g : Nat) (k : Str) (q : Nat) :
    LinkAt (s.heap.update g2 (Obj.mapLinks fun l => l.filter fun p => names.contains p.1)) g k q ↔ LinkAt s.heap g k q ∧ (g = g2 → k ∈ names) := by
  unfold LinkAt
  by_cases hp : g = g2
  · subst hp
    rw [linksOf_obj, linksOf_obj, getElem?_update, if_pos rfl]
    cases ho : s.heap[g]? with
    | none => exact ⟨(fun h => by cases h), (fun h => by cases h.1)⟩
    | some o =>
      obtain ⟨at', b⟩ := o
      cases b with
      | dset a f => exact ⟨(fun h => by cases h), (fun h => by cases h.1)⟩
      | group l =>
        change aget (l.filter fun p => names.contains p.1) k = some q ↔ aget l k = some q ∧ _
        rw [aget_filter]
        by_cases hk : k ∈ names
        · rw [if_pos (by simpa using hk)]
          exact ⟨fun h => ⟨h, fun _ => hk⟩, fun h => h.1⟩
        · rw [if_neg (by simpa using hk)]
          exact ⟨(fun h => by cases h), fun h => absurd (h.2 rfl) hk⟩
  · rw [linksOf_update_ne _ _ _ _ hp]
    exact ⟨fun h => ⟨h, fun e => absurd e hp⟩, fun h => h.1⟩

/-- Which links there are after writing items. -/
theorem writeItems_links {x : Ctx} {wr : Wr} (hwr : WrOk x wr) (hat : WrAt x wr) {s s' : St} {g : Nat} {gname : Str} {items : List (Str × Val)} (hi : Inv x s)
    (hg : g < s.heap.length) (hs : Sep x s g) (hnl : NoLoop s g) (hk : ∀ i ∈ items, i.1 ≠ [dot]) (h : writeItems x wr g gname items s = (.ok (), s'))
    (hdis : ∀ s g gname name v s' ob, wr g gname name v s = (.ok ob, s') → (ob = none ↔ Discarded x.o v)) (k : Str) :
    (∃ q, LinkAt s'.heap g k q) ↔ (∃ q, LinkAt s.heap g k q) ∨ ∃ v, (k, v) ∈ items ∧ ¬ Discarded x.o v := by
  induction items generalizing s with
  | nil => cases h; simp
  | cons i items ih =>
    obtain ⟨k0, v⟩ := i
    have hkd0 : k0 ≠ [dot] := hk (k0, v) (by simp)
    have hrest : ∀ i ∈ items, i.1 ≠ [dot] := fun i hi => hk i (by simp [hi])
    rw [writeItems] at h
    rcases bind_run (wr g gname k0 v) _ s with ⟨ob, s1, e1, e2⟩ | ⟨e, s1, e1, e2⟩
    · rw [e2] at h
      have po := hwr s g gname k0 v s1 _ (hs.pre hi hg hkd0) e1
      have st := po.below hi hg hs
      have hg1 : g < s1.heap.length := Nat.lt_of_lt_of_le hg st.fr.len
      have hs1 := hs.keep st.fr hi hg
      have hoff : resolve s.heap 0 (refsComps x.o) ≠ some g := fun hc => hs g .refl ⟨_, List.prefix_refl _, hc⟩
      cases ob with
      | none =>
        dsimp only at h
        have hd := (hdis _ _ _ _ _ _ _ e1).mp rfl
        have he := hat.none _ _ _ _ _ _ hkd0 e1
        subst he
        rw [ih hi hg hs hnl hrest h]
        constructor
        · rintro (h | ⟨w, h1, h2⟩)
          · exact Or.inl h
          · exact Or.inr ⟨w, by simp [h1], h2⟩
        · rintro (h | ⟨w, h1, h2⟩)
          · exact Or.inl h
          · rw [List.mem_cons] at h1
            rcases h1 with h1 | h1
            · cases h1; exact absurd hd h2
            · exact Or.inr ⟨w, h1, h2⟩
      | some p =>
        dsimp only at h
        have hnd : ¬ Discarded x.o v := fun hc => by cases (hdis _ _ _ _ _ _ _ e1).mpr hc
        have hl := hat.link _ _ _ _ _ _ _ (hs.pre hi hg hkd0) hoff hnl e1
        rcases bind_run (setH5Path x p (asciiEnc gname)) _ s1 with ⟨u, s2, e3, e4⟩ | ⟨e, s2, e3, e4⟩
        · rw [e4] at h
          have sth := setH5Path_step st.inv p _ e3
          rw [ih sth.inv (Nat.lt_of_lt_of_le hg1 sth.fr.len) (hs1.keep sth.fr st.inv hg1) ((hnl.keep st.fr hg).keep sth.fr hg1) hrest h]
          have hlk : ∀ k q, LinkAt s2.heap g k q ↔ LinkAt s1.heap g k q := fun k q => setH5Path_link e3 g k q
          by_cases hkk : k = k0
          · subst hkk
            exact ⟨fun _ => Or.inr ⟨v, by simp, hnd⟩, fun _ => Or.inl ⟨p, (hlk _ _).mpr hl⟩⟩
          · have hkeep : ∀ q, LinkAt s1.heap g k q ↔ LinkAt s.heap g k q := by
              intro q
              unfold LinkAt
              rw [po.step.fr.links g hg ?_ k ?_ (fun hc => hs g .refl hc.onPath)]
              · rintro ⟨q', h1, h2⟩; exact hnl k0 q' h1 h2
              · rintro ⟨_, h2⟩; exact hkk h2
            constructor
            · rintro (⟨q, h⟩ | ⟨w, h1, h2⟩)
              · exact Or.inl ⟨q, (hkeep q).mp ((hlk k q).mp h)⟩
              · exact Or.inr ⟨w, by simp [h1], h2⟩
            · rintro (⟨q, h⟩ | ⟨w, h1, h2⟩)
              · exact Or.inl ⟨q, (hlk k q).mpr ((hkeep q).mpr h)⟩
              · rw [List.mem_cons] at h1
                rcases h1 with h1 | h1
                · cases h1; exact absurd rfl hkk
                · exact Or.inr ⟨w, h1, h2⟩
        · rw [e4] at h; cases h
    · rw [e2] at h; cases h

/-- The Group written to is still at the place, and everything in it is as described. -/
theorem writeDict_at {x : Ctx} (hk : x.o.keysName ≠ [dot]) (hv : x.o.valuesName ≠ [dot]) {wr : Wr} (hwr : WrOk x wr) {s s' : St} {ob : Option Nat} {g : Nat}
    {gname name : Str} (hp : Pre x s g name) (hoff : resolve s.heap 0 (refsComps x.o) ≠ some g) (hnl : NoLoop s g) (keys vals : List Val) (struct : Bool) (ts : Str)
    (h : writeDict x wr g gname name keys vals struct ts s = (.ok ob, s')) :
    ∃ g2 s3, ob = some g2 ∧ LinkAt s'.heap g name g2 ∧ isGroup s3.heap g2 = true ∧ Inv x s3 ∧ g2 < s3.heap.length ∧ Sep x s3 g2 ∧ LinkAt s3.heap g name g2 ∧
      writeItems x wr g2 (joinName gname name) (dictItems x.o keys vals) s3 = (.ok (), s') ∧ Post x g name s s3 (fun p => p = g2) ∧
      ∀ k q, LinkAt s3.heap g2 k q ↔ (∃ p0, LinkAt s.heap g name p0 ∧ LinkAt s.heap p0 k q) ∧
        ((keyInfos keys).isNone = true ∨ x.o.deleteUnused = true → k ∈ (dictItems x.o keys vals).map (·.1)) := by
  obtain ⟨g2, s1, s2, s3, e0, e1, e2, e3, e4⟩ := writeDict_run keys vals struct ts h
  obtain ⟨st, hgs⟩ := getGroup_spec hp e1
  obtain ⟨t, hs⟩ := hgs g2 rfl
  obtain ⟨c1, c2, c3⟩ := getGroup_done hp.nd hp.inv.wf e1
  have po : Post x g name s s1 (fun p => p = g2) := ⟨st.mono (fun _ _ h => h) (fun _ h => h.elim), fun p hpp => by rw [hpp]; exact t⟩
  have sa := setAttrsM_step st.inv g2 _ true e2
  have po2 := po.then_obj rfl sa
  have hg2 : g2 < s2.heap.length := (po2.ok g2 rfl).lt
  have hs2 := hs.keep sa.fr st.inv t.lt
  have hne : g ≠ g2 := by
    intro he
    rw [← he] at c1
    exact (hnl.keep st.fr hp.glt) name g c1 .refl
  have hgrp2 : isGroup s2.heap g2 = true := by
    obtain ⟨o, at2, h1, _, h3⟩ := setAttrs_done e2
    unfold isGroup at c2 ⊢
    rw [h3]
    dsimp only
    rw [getElem?_set_attrs h1]
    rw [h1] at c2
    obtain ⟨oa, obd⟩ := o
    cases obd with
    | group l => rfl
    | dset a f => cases c2
  obtain ⟨po3, hs3, hgrp3, hl3, hlg⟩ : Post x g name s s3 (fun p => p = g2) ∧ Sep x s3 g2 ∧ isGroup s3.heap g2 = true ∧
      (∀ k q, LinkAt s3.heap g2 k q ↔ LinkAt s2.heap g2 k q ∧ ((keyInfos keys).isNone = true ∨ x.o.deleteUnused = true → k ∈ (dictItems x.o keys vals).map (·.1))) ∧
      (LinkAt s2.heap g name g2 → LinkAt s3.heap g name g2) := by
    by_cases hc : ((keyInfos keys).isNone || x.o.deleteUnused) = true
    · rw [if_pos hc] at e3
      have sd := deleteOthers_step po2.step.inv g2 hs2 ((dictItems x.o keys vals).map (·.1))
      unfold deleteOthers at e3
      cases e3
      refine ⟨po2.then_obj rfl sd, hs2.keep sd.fr po2.step.inv hg2, ?_, ?_, ?_⟩
      · unfold isGroup at hgrp2 ⊢
        dsimp only
        rw [getElem?_update, if_pos rfl]
        cases ho : s2.heap[g2]? with
        | none => rw [ho] at hgrp2; cases hgrp2
        | some o =>
          obtain ⟨a, b⟩ := o
          rw [ho] at hgrp2
          cases b with
          | group l => rfl
          | dset a f => cases hgrp2
      · intro k q
        rw [deleteOthers_link]
        rw [Bool.or_eq_true] at hc
        exact ⟨fun h => ⟨h.1, fun _ => h.2 rfl⟩, fun h => ⟨h.1, fun _ => h.2 hc⟩⟩
      · intro h
        rw [deleteOthers_link]
        exact ⟨h, fun e => absurd e hne⟩
    · rw [if_neg hc, run_pure] at e3
      cases e3
      refine ⟨po2, hs2, hgrp2, ?_, fun h => h⟩
      intro k q
      rw [Bool.or_eq_true] at hc
      exact ⟨fun h => ⟨h, fun h' => absurd h' hc⟩, fun h => h.1⟩
  have hl := hlg ((setAttrs_link e2 _ _ _).mpr c1)
  have sti := writeItems_step hwr po3.step.inv (po3.ok g2 rfl).lt hs3 (dictItems_ne_dot hk hv keys vals) e4
  have hoff3 : resolve s3.heap 0 (refsComps x.o) ≠ some g := fun hc => hoff (po3.step.fr.resolve_old _ (plainComps x) g hc hp.glt)
  refine ⟨g2, s3, e0, ?_, hgrp3, po3.step.inv, (po3.ok g2 rfl).lt, hs3, hl, e4, po3, ?_⟩
  · unfold LinkAt at hl ⊢
    rw [sti.fr.link_keep (hp.keep po3.step) hoff3 ?_ (fun h => h)]
    · exact hl
    · intro hr
      exact (hnl.keep po3.step.fr hp.glt) name g2 hl hr
  · intro k q
    rw [hl3, setAttrs_link e2, c3]

/-- The Group of a structured array is at the place. -/
theorem writeGroup_link {x : Ctx} {wr : Wr} (hwr : WrOk x wr) {s s' : St} {ob : Option Nat} {g : Nat} {gname name : Str} (hp : Pre x s g name)
    (hoff : resolve s.heap 0 (refsComps x.o) ≠ some g) (hnl : NoLoop s g) {esc : List Str} {others : Bool} {items : List (Str × Val)} {at' : List (Str × AIn)}
    (hdot : ∀ i ∈ items, i.1 ≠ [dot]) (h : writeGroup x wr g gname name esc others items at' s = (.ok ob, s')) :
    ∃ g2, ob = some g2 ∧ LinkAt s'.heap g name g2 := by
  obtain ⟨g2, s1, s3, s4, rfl, e1, e3, e6, e8⟩ := writeGroup_run h
  obtain ⟨st, hgs⟩ := getGroup_spec hp e1
  obtain ⟨t, hs⟩ := hgs g2 rfl
  obtain ⟨c1, _, _⟩ := getGroup_done hp.nd hp.inv.wf e1
  have po : Post x g name s s1 (fun p => p = g2) := ⟨st.mono (fun _ _ h => h) (fun _ h => h.elim), fun p hpp => by rw [hpp]; exact t⟩
  have hne : g ≠ g2 := by
    intro he
    rw [← he] at c1
    exact (hnl.keep st.fr hp.glt) name g c1 .refl
  obtain ⟨po3, hs3, hl3⟩ : Post x g name s s3 (fun p => p = g2) ∧ Sep x s3 g2 ∧ LinkAt s3.heap g name g2 := by
    by_cases hc : x.o.deleteUnused = true
    · rw [if_pos hc] at e3
      have sd := deleteOthers_step po.step.inv g2 hs esc
      unfold deleteOthers at e3
      cases e3
      refine ⟨po.then_obj rfl sd, hs.keep sd.fr po.step.inv t.lt, ?_⟩
      rw [deleteOthers_link]
      exact ⟨c1, fun e => absurd e hne⟩
    · rw [if_neg hc, run_pure] at e3
      cases e3
      exact ⟨po, hs, c1⟩
  have sti := writeFields_step hwr po3.step.inv (po3.ok g2 rfl).lt hs3 hdot e6
  have hoff3 : resolve s3.heap 0 (refsComps x.o) ≠ some g := fun hc => hoff (po3.step.fr.resolve_old _ (plainComps x) g hc hp.glt)
  refine ⟨g2, rfl, (setAttrs_link e8 _ _ _).mpr ?_⟩
  unfold LinkAt at hl3 ⊢
  rw [sti.fr.link_keep (hp.keep po3.step) hoff3 ?_ (fun h => h)]
  · exact hl3
  · intro hr
    exact (hnl.keep po3.step.fr hp.glt) name g2 hl3 hr

/-- What the writers leave at the place. -/
theorem writeData_at {x : Ctx} (hk : x.o.keysName ≠ [dot]) (hv : x.o.valuesName ≠ [dot]) (n : Nat) : WrAt x (writeData x n) := by
  constructor
  · cases n with
    | zero => intro s g gname name v s' p _ _ _ h; cases h
    | succ n =>
      intro s g gname name v s' p hp hoff hnl h
      have hleaf : ∀ w : Val, (match leafOf w with | some (c, a) => writeNp x g name c a (tsOf w) | none => raise .notImplemented) s = (.ok (some p), s') →
          LinkAt s'.heap g name p := by
        intro w h
        cases hl : leafOf w with
        | none => rw [hl] at h; cases h
        | some ca =>
          obtain ⟨c, a⟩ := ca
          rw [hl] at h
          rcases writeNp_done hp.nd h with ⟨h1, _⟩ | ⟨d, q, at0, f', at', _, h2, h3, _⟩
          · cases h1
          · cases h2; exact h3
      have hd : ∀ keys vals struct ts, writeDict x (writeData x n) g gname name keys vals struct ts s = (.ok (some p), s') → LinkAt s'.heap g name p := by
        intro keys vals struct ts h
        obtain ⟨g2, _, h1, h2, _⟩ := writeDict_at hk hv (writeData_post hk hv n) hp hoff hnl keys vals struct ts h
        cases h1; exact h2
      have hobj : ∀ c shape elems ts, writeNpObj x (writeData x n) g name c shape elems ts s = (.ok (some p), s') → LinkAt s'.heap g name p := by
        intro c shape elems ts h
        obtain ⟨q, h1, h2⟩ := writeNpObj_link hp.nd c shape elems ts h
        cases h1; exact h2
      cases v with
      | npObj c shape elems => exact hobj _ _ _ _ h
      | seq k elems => exact hobj _ _ _ _ h
      | dict k keys vals => exact hd _ _ _ _ h
      | record k vals => exact hd _ _ _ _ h
      | npStruct c shape names types elems =>
        rcases writeStruct_cases h with ⟨_, e, h⟩ | ⟨_, _, _, _, h⟩ | ⟨_, esc, he, ⟨_, h⟩ | ⟨_, _, h⟩ | ⟨_, _, _, h⟩⟩
        · cases h
        · cases h
        · obtain ⟨q, h1, h2⟩ := putAttrs_link hp.nd _ _ _ h
          cases h1; exact h2
        · obtain ⟨q, h1, h2⟩ := writeGroup_link (writeData_post hk hv n) hp hoff hnl (structItems_ne_dot he) h
          cases h1; exact h2
        · obtain ⟨q, h1, h2⟩ := putAttrs_link hp.nd _ _ _ h
          cases h1; exact h2
      | none => exact hleaf (.none) h
      | ellipsis => exact hleaf (.ellipsis) h
      | notImplemented => exact hleaf (.notImplemented) h
      | bool b => exact hleaf (.bool b) h
      | int i => exact hleaf (.int i) h
      | float f => exact hleaf (.float f) h
      | complex a b => exact hleaf (.complex a b) h
      | str t => exact hleaf (.str t) h
      | bytes b => exact hleaf (.bytes b) h
      | bytearray b => exact hleaf (.bytearray b) h
      | np c a => exact hleaf (.np c a) h
      | dtypeObj t => exact hleaf (.dtypeObj t) h
      | other => exact hleaf (.other) h
  · intro s g gname name v s' hd h
    cases n with
    | zero => cases h
    | succ n =>
      obtain ⟨_, _, ⟨c, a, rfl, _⟩ | ⟨_, c, shape, names, types, elems, rfl⟩⟩ := (writeData_none h).mp rfl
      · have h' : writeNp x g name c a (tsOf (.np c a)) s = (.ok none, s') := h
        rcases writeNp_done hd h' with ⟨_, h2, _⟩ | ⟨_, _, _, _, _, _, h2, _⟩
        · exact h2
        · cases h2
      · rcases writeStruct_cases h with ⟨_, e, h⟩ | ⟨_, _, _, h, _⟩ | ⟨_, esc, he, ⟨_, h⟩ | ⟨_, _, h⟩ | ⟨_, _, _, h⟩⟩
        · cases h
        · exact h
        · obtain ⟨q, h1, _⟩ := putAttrs_link hd _ _ _ h
          cases h1
        · obtain ⟨g2, s1, s3, s4, h1, _⟩ := writeGroup_run h
          cases h1
        · obtain ⟨q, h1, _⟩ := putAttrs_link hd _ _ _ h
          cases h1

/-- Changing attributes elsewhere. -/
theorem away_update {o : COpts} {ms : List Str} {h : Heap} {p : Nat} {f : Obj → Obj} (hf : ∀ ob, linksOf [f ob] 0 = linksOf [ob] 0) {l : List Str} (hl : LPath h l p)
    (h1 : ¬ ms <+: l) (h2 : l.head? ≠ (refsComps o).head?) : Away o ms h (h.update p f) := by
  have hlk : ∀ g k q, LinkAt (h.update p f) g k q ↔ LinkAt h g k q := by
    intro g k q
    unfold LinkAt
    rw [linksOf_update_body (fun o _ => hf o)]
  have hpa : ∀ l q, LPath (h.update p f) l q ↔ LPath h l q := fun l q =>
    ⟨lpath_mono fun _ _ _ h => (hlk _ _ _).mp h, lpath_mono fun _ _ _ h => (hlk _ _ _).mpr h⟩
  refine ⟨by rw [length_update]; exact Nat.le_refl _, fun l q h _ => (hpa l q).mp h, ?_, fun q => hpa ms q⟩
  intro q hq
  rw [getElem?_update]
  by_cases hqp : q = p
  · subst hqp
    rcases hq.2 l hl with h | ⟨h, _⟩
    · exact absurd h h1
    · exact absurd h h2
  · rw [if_neg hqp]

/-- Deleting other members of a Group. -/
theorem away_delete {o : COpts} {ns : List Str} {k : Str} {s : St} {p : Nat} (ht : Tree s.heap) (names : List Str) (hl : LPath s.heap ns p)
    (h2 : ns.head? ≠ (refsComps o).head?) (hk : k ∈ names) :
    Away o (ns ++ [k]) s.heap (s.heap.update p (Obj.mapLinks fun l => l.filter fun p => names.contains p.1)) := by
  have hold : ∀ l q, LPath (s.heap.update p (Obj.mapLinks fun l => l.filter fun p => names.contains p.1)) l q → LPath s.heap l q :=
    fun l q => lpath_mono fun _ _ _ h => ((deleteOthers_link p names _ _ _).mp h).1
  have hns : ∀ l q, l <+: ns → LPath s.heap l q → LPath (s.heap.update p (Obj.mapLinks fun l => l.filter fun p => names.contains p.1)) l q := by
    intro l q hpre hp
    induction hp with
    | root => exact .root
    | @snoc l a b c hla hlk ih =>
      have hpre' : l <+: ns := (List.prefix_append l [c]).trans hpre
      refine .snoc (ih hpre') ((deleteOthers_link p names _ _ _).mpr ⟨hlk, ?_⟩)
      intro hap
      subst hap
      have := LPath.unique ht hla hl
      subst this
      have := hpre.length_le
      simp only [List.length_append, List.length_singleton] at this
      omega
  refine ⟨by rw [length_update]; exact Nat.le_refl _, fun l q h _ => hold l q h, ?_, ?_⟩
  · intro q hq
    rw [getElem?_update]
    by_cases hqp : q = p
    · subst hqp
      rcases hq.2 ns hl with h | ⟨h, _⟩
      · have := h.length_le
        simp only [List.length_append, List.length_singleton] at this
        omega
      · exact absurd h h2
    · rw [if_neg hqp]
  · intro q
    refine ⟨hold _ q, ?_⟩
    intro hq
    obtain ⟨a, h3, h4⟩ := lpath_snoc hq
    exact .snoc (hns ns a (List.prefix_refl _) h3) ((deleteOthers_link p names _ _ _).mpr ⟨h4, fun _ => hk⟩)

theorem apart_snoc {ns : List Str} {k k0 : Str} (h : k ≠ k0) : Apart (ns ++ [k0]) (ns ++ [k]) := by
  constructor
  · intro hp
    have := hp.eq_of_length_le (by simp)
    simp at this
    exact h this.symm
  · intro hp
    have := hp.eq_of_length_le (by simp)
    simp at this
    exact h this

theorem setH5Path_away {x : Ctx} {s s' : St} {res : Res Unit} {p : Nat} {b : Res Bytes} {ms l : List Str} (hl : LPath s.heap l p) (h1 : ¬ ms <+: l)
    (h2 : l.head? ≠ (refsComps x.o).head?) (h : setH5Path x p b s = (res, s')) : Away x.o ms s.heap s'.heap := by
  unfold setH5Path at h
  by_cases hm : x.o.matlab = true
  · rw [if_pos hm] at h
    cases b with
    | error e => cases h; exact .refl _ _ _
    | ok b =>
      change ((Except.ok () : Res Unit), ({ s with heap := s.heap.update p fun o => { o with attrs := aput o.attrs p!"H5PATH" (.bytes b) } } : St)) = _ at h
      cases h
      exact away_update (fun o => by obtain ⟨a, b⟩ := o; cases b <;> rfl) hl h1 h2
  · rw [if_neg hm] at h
    change ((Except.ok () : Res Unit), ({ s with heap := s.heap.update p fun o => { o with attrs := adel o.attrs p!"H5PATH" } } : St)) = _ at h
    cases h
    exact away_update (fun o => by obtain ⟨a, b⟩ := o; cases b <;> rfl) hl h1 h2

theorem setAttrsM_away {o : COpts} {s s' : St} {p : Nat} {new : List (Str × AIn)} {d : Bool} {ms l : List Str} (hl : LPath s.heap l p) (h1 : ¬ ms <+: l)
    (h2 : l.head? ≠ (refsComps o).head?) (h : setAttrsM p new d s = (.ok (), s')) : Away o ms s.heap s'.heap := by
  obtain ⟨ob, at2, h3, _, h5⟩ := setAttrs_done h
  rw [h5]
  have : s.heap.set p { ob with attrs := at2 } = s.heap.update p (fun o => { o with attrs := at2 }) := by
    unfold Heap.update; rw [h3]
  dsimp only
  rw [this]
  exact away_update (fun o => by obtain ⟨a, b⟩ := o; cases b <;> rfl) hl h1 h2

/-- Writing items: other members of the Group are not changed, nor are those whose value is discarded. -/
theorem writeItems_away {x : Ctx} {wr : Wr} (hwr : WrOk x wr) (hat : WrAt x wr) {s s' : St} {g : Nat} {gname : Str} {items : List (Str × Val)} {ns : List Str} (hi : Inv x s)
    (ht : Tree s.heap) (hl : LPath s.heap ns g) (hns : OffRefs x.o ns) (hk : ∀ i ∈ items, i.1 ≠ [dot]) (h : writeItems x wr g gname items s = (.ok (), s'))
    (hdis : ∀ s g gname name v s' ob, wr g gname name v s = (.ok ob, s') → (ob = none ↔ Discarded x.o v)) {k : Str} (hkd : k ≠ [dot])
    (hkk : ∀ v, (k, v) ∈ items → Discarded x.o v) : Away x.o (ns ++ [k]) s.heap s'.heap := by
  have hoffs : ∀ c : Str, c ≠ [dot] → OffRefs x.o (ns ++ [c]) := by
    intro c hc
    refine ⟨?_, by simp, hns.refs, by rw [head_append_ne hns.ne]; exact hns.head⟩
    intro d hd
    rw [List.mem_append] at hd
    rcases hd with hd | hd
    · exact hns.plain d hd
    · rw [List.mem_singleton.mp hd]; exact hc
  induction items generalizing s with
  | nil => cases h; exact .refl _ _ _
  | cons i items ih =>
    obtain ⟨k0, v⟩ := i
    have hkd0 : k0 ≠ [dot] := hk (k0, v) (by simp)
    have hrest : ∀ i ∈ items, i.1 ≠ [dot] := fun i hi => hk i (by simp [hi])
    have hkk' : ∀ v, (k, v) ∈ items → Discarded x.o v := fun v hv => hkk v (by simp [hv])
    rw [writeItems] at h
    rcases bind_run (wr g gname k0 v) _ s with ⟨ob, s1, e1, e2⟩ | ⟨e, s1, e1, e2⟩
    · rw [e2] at h
      have hp := (hoffs k0 hkd0).pre hi ht hl (lpath_lt ht hl)
      have po := hwr s g gname k0 v s1 _ hp e1
      have ht1 := tree_step ht po.step (tgt_root ht)
      have hl1 : LPath s1.heap ns g := by
        have hpath := po.step.fr.resolve_user ht hl (Or.inr hns) not_prefix_snoc
        rw [resolve_lpath hns.plain hl] at hpath
        exact lpath_resolve hns.plain hpath
      cases ob with
      | none =>
        dsimp only at h
        have he := hat.none _ _ _ _ _ _ hkd0 e1
        subst he
        exact ih hi ht hl hrest h hkk'
      | some p =>
        dsimp only at h
        have hnd : ¬ Discarded x.o v := fun hc => by cases (hdis _ _ _ _ _ _ _ e1).mpr hc
        have hne : k ≠ k0 := by
          rintro rfl
          exact hnd (hkk v (by simp))
        have hoff : resolve s.heap 0 (refsComps x.o) ≠ some g := by
          intro hc
          have := LPath.unique ht hl (lpath_resolve (plainComps x) hc)
          exact hns.head (by rw [this])
        have hlk := hat.link _ _ _ _ _ _ _ hp hoff (noLoop_of_tree ht hl) e1
        rcases bind_run (setH5Path x p (asciiEnc gname)) _ s1 with ⟨u, s2, e3, e4⟩ | ⟨e, s2, e3, e4⟩
        · rw [e4] at h
          have sth := setH5Path_step po.step.inv p _ e3
          have haw := writeAt_away ht hl (hoffs k0 hkd0) (hoffs k hkd) (apart_snoc hne) po.step.fr
          have haw2 : Away x.o (ns ++ [k]) s1.heap s2.heap :=
            setH5Path_away (.snoc hl1 hlk) (apart_snoc (ns := ns) hne).2 (hoffs k0 hkd0).head e3
          have hp0 : p ≠ 0 := by
            rintro rfl
            exact ht1.noRoot _ _ hlk
          have ht2 := tree_step ht1 sth (fun hd => hp0 hd.symm)
          have hl2 : LPath s2.heap ns g := lpath_mono (fun _ _ _ h => (setH5Path_link e3 _ _ _).mpr h) hl1
          exact (haw.trans haw2).trans (ih sth.inv ht2 hl2 hrest h hkk')
        · rw [e4] at h; cases h
    · rw [e2] at h; cases h

/-- What is in the Group after a dict was written through `File`. -/
theorem wroteDict_entries {x : Ctx} (hN : NamesOk x.o) {n m : Nat} {s s' s1 : St} {ns : List Str} {v : Val} {gs t : Str} {g : Nat} {ob : Option Nat}
    (r : WroteRun x n s s' ns v gs t s1 g ob) {keys vals : List Val} {struct : Bool} {ts : Str}
    (h : writeDict x (writeData x m) g (absName (commonComps gs)) t keys vals struct ts s1 = (.ok ob, s')) (k : Str) :
    Exists s'.heap (ns ++ [k]) ↔ (∃ w, (k, w) ∈ dictItems x.o keys vals ∧ ¬ Discarded x.o w) ∨
      (Exists s.heap (ns ++ [k]) ∧ ((keyInfos keys).isNone = true ∨ x.o.deleteUnused = true → k ∈ (dictItems x.o keys vals).map (·.1))) := by
  have hoff : resolve s1.heap 0 (refsComps x.o) ≠ some g := by
    intro hc
    have hh := LPath.unique r.tree r.path1 (lpath_resolve (plainComps x) hc)
    have ho := r.off
    rw [r.names, hh] at ho
    exact ho.head (head_append_ne ho.refs)
  have hnl := noLoop_of_tree r.tree r.path1
  obtain ⟨g2, s3, h1, h2, h3, h4, h5, h6, h7, h8, h9, h10⟩ := writeDict_at hN.keys hN.vals (writeData_post hN.keys hN.vals m) r.pre hoff hnl keys vals struct ts h
  have ht3 := tree_step r.tree h9.step (tgt_root r.tree)
  have hcomps : commonComps gs = [] ∨ OffRefs x.o (commonComps gs) := by
    by_cases hc : commonComps gs = []
    · exact Or.inl hc
    · have ho := r.off
      rw [r.names] at ho
      exact Or.inr (ho.prefix (List.prefix_append _ _) hc)
  have hl3 : LPath s3.heap (commonComps gs) g := by
    have hpath := h9.step.fr.resolve_user r.tree r.path1 hcomps not_prefix_snoc
    rw [resolve_lpath (commonComps_plain gs) r.path1] at hpath
    exact lpath_resolve (commonComps_plain gs) hpath
  have hlg2 : LPath s3.heap ns g2 := by rw [r.names]; exact .snoc hl3 h7
  have key := writeItems_links (writeData_post hN.keys hN.vals m) (writeData_at hN.keys hN.vals m) h4 h5 h6 (noLoop_of_tree ht3 hlg2)
    (dictItems_ne_dot hN.keys hN.vals keys vals) h8 (fun _ _ _ _ _ _ _ h => writeData_none h) k
  have he' : Exists s'.heap (ns ++ [k]) ↔ ∃ q, LinkAt s'.heap g2 k q := by
    have hp' : LPath s'.heap ns g2 := by rw [r.names]; exact .snoc r.path h2
    constructor
    · rintro ⟨q, hq⟩
      obtain ⟨a, q1, q2⟩ := lpath_snoc hq
      rw [lpath_fun q1 hp'] at q2
      exact ⟨q, q2⟩
    · rintro ⟨q, hq⟩
      exact ⟨q, .snoc hp' hq⟩
  have he : Exists s.heap (ns ++ [k]) ↔ ∃ q p0, LinkAt s1.heap g t p0 ∧ LinkAt s1.heap p0 k q := by
    constructor
    · rintro ⟨q, hq⟩
      have hq1 := lpath_mono r.reqG.mono hq
      obtain ⟨a, q1, q2⟩ := lpath_snoc hq1
      rw [r.names] at q1
      obtain ⟨b, q3, q4⟩ := lpath_snoc q1
      rw [lpath_fun q3 r.path1] at q4
      exact ⟨q, a, q4, q2⟩
    · rintro ⟨q, p0, q1, q2⟩
      have hq : LPath s1.heap (ns ++ [k]) q := by rw [r.names]; exact .snoc (.snoc r.path1 q1) q2
      rcases r.reqG.only _ _ hq with h | h
      · exact ⟨q, h⟩
      · have := h.length_le
        rw [r.names] at this
        simp only [List.length_append, List.length_singleton] at this
        omega
  rw [he', key, he]
  constructor
  · rintro (⟨q, hq⟩ | h)
    · obtain ⟨⟨p0, a, b⟩, c⟩ := (h10 k q).mp hq
      exact Or.inr ⟨⟨q, p0, a, b⟩, c⟩
    · exact Or.inl h
  · rintro (h | ⟨⟨q, p0, a, b⟩, c⟩)
    · exact Or.inr h
    · exact Or.inl ⟨q, (h10 k q).mpr ⟨⟨p0, a, b⟩, c⟩⟩

/-- A member that is neither written nor deleted is not changed. -/
theorem wroteDict_away {x : Ctx} (hN : NamesOk x.o) {n m : Nat} {s s' s1 : St} {ns : List Str} {v : Val} {gs t : Str} {g : Nat} {ob : Option Nat}
    (r : WroteRun x n s s' ns v gs t s1 g ob) {keys vals : List Val} {struct : Bool} {ts : Str}
    (h : writeDict x (writeData x m) g (absName (commonComps gs)) t keys vals struct ts s1 = (.ok ob, s')) {k : Str} (hkd : k ≠ [dot])
    (hex : Exists s.heap (ns ++ [k])) (hdel : (keyInfos keys).isNone = true ∨ x.o.deleteUnused = true → k ∈ (dictItems x.o keys vals).map (·.1))
    (hkk : ∀ w, (k, w) ∈ dictItems x.o keys vals → Discarded x.o w) : Away x.o (ns ++ [k]) s.heap s'.heap := by
  obtain ⟨q, hq⟩ := hex
  obtain ⟨g0, q1, q2⟩ := lpath_snoc hq
  rw [r.names] at q1
  obtain ⟨gg, q3, q4⟩ := lpath_snoc q1
  have hgg : gg = g := lpath_fun (lpath_mono r.reqG.mono q3) r.path1
  subst hgg
  have hs1 : s1 = s := by
    obtain ⟨_, _, h3, _⟩ := r.reqG.ok gg rfl
    rcases h3 with h | h
    · exact h
    · have := r.reqG.mono _ _ _ q4
      unfold LinkAt at this
      rw [h] at this; cases this
  subst hs1
  have hgrp : isGroup s1.heap g0 = true := by
    unfold isGroup
    unfold LinkAt linksOf at q2
    cases ho : s1.heap[g0]? with
    | none => rw [ho] at q2; cases q2
    | some o =>
      obtain ⟨a, b⟩ := o
      rw [ho] at q2
      cases b with
      | group l => rfl
      | dset a f => cases q2
  obtain ⟨g2, sa, s2, s3, e0, e1, e2, e3, e4⟩ := writeDict_run keys vals struct ts h
  have e1' : getGroup gg t s1 = (.ok g0, s1) := by
    unfold getGroup
    rcases getLink_run gg t s1 with hh | ⟨e, hh⟩
    · rw [run_bind_ok hh, hlook_plain _ _ _ r.dot, show aget (linksOf s1.heap gg) t = some g0 from q4]
      dsimp only
      rw [run_getSt, if_pos hgrp, run_pure]
    · unfold getGroup at e1
      rw [run_bind_err hh] at e1; cases e1
  rw [e1'] at e1
  cases e1
  have hlg : LPath s1.heap ns g0 := by rw [r.names]; exact q1
  have sta := setAttrsM_step r.inv g0 _ true e2
  have hg0 : g0 ≠ 0 := by
    rintro rfl
    exact r.tree.noRoot _ _ q4
  have ht2 := tree_step r.tree sta (fun hd => hg0 hd.symm)
  have hl2 : LPath s2.heap ns g0 := lpath_mono (fun _ _ _ h => (setAttrs_link e2 _ _ _).mpr h) hlg
  have aw1 : Away x.o (ns ++ [k]) s1.heap s2.heap := setAttrsM_away hlg not_prefix_snoc r.off.head e2
  have hsep : Sep x s2 g0 := (r.pre.sep g0 q4).keep sta.fr r.inv (r.tree.wf _ _ _ q4)
  obtain ⟨st3, aw2, hl3⟩ : Step x noA (oneD g0) s2 s3 ∧ Away x.o (ns ++ [k]) s2.heap s3.heap ∧ LPath s3.heap ns g0 := by
    by_cases hc : ((keyInfos keys).isNone || x.o.deleteUnused) = true
    · rw [if_pos hc] at e3
      have sd := deleteOthers_step sta.inv g0 hsep ((dictItems x.o keys vals).map (·.1))
      unfold deleteOthers at e3
      cases e3
      rw [Bool.or_eq_true] at hc
      have aw := away_delete (o := x.o) ht2 ((dictItems x.o keys vals).map (·.1)) hl2 r.off.head (hdel hc)
      refine ⟨sd, aw, ?_⟩
      have ht3 := tree_step ht2 sd (fun hd => hg0 hd.symm)
      obtain ⟨q', hq'⟩ : Exists s2.heap (ns ++ [k]) := ⟨q, (aw1.path q).mpr hq⟩
      obtain ⟨b, b1, b2⟩ := lpath_snoc ((aw.path q').mpr hq')
      have := lpath_fun (aw.old _ _ b1 (by
        have := lpath_lt ht3 b1
        have hlen : s2.heap.length = ({ s2 with heap := s2.heap.update g0 (Obj.mapLinks fun l => l.filter fun p => ((dictItems x.o keys vals).map (·.1)).contains p.1) } : St).heap.length := by
          dsimp only; rw [length_update]
        omega)) hl2
      rw [this] at b1
      exact b1
    · rw [if_neg hc, run_pure] at e3
      cases e3
      exact ⟨Step.refl sta.inv, .refl _ _ _, hl2⟩
  have ht3 := tree_step ht2 st3 (fun hd => hg0 hd.symm)
  exact (aw1.trans aw2).trans (writeItems_away (writeData_post hN.keys hN.vals m) (writeData_at hN.keys hN.vals m) st3.inv ht3 hl3 r.off
    (dictItems_ne_dot hN.keys hN.vals keys vals) e4 (fun _ _ _ _ _ _ _ h => writeData_none h) hkd hkk)

end HS

namespace HS
open Spec

theorem zip_names {names texts : List Str} (h : All2 (fun k t => escapePath t = .ok k) names texts) (vals : List Val) (k : Str) (w : Val) :
    (k, w) ∈ names.zip vals ↔ ∃ t, (t, w) ∈ texts.zip vals ∧ escapePath t = .ok k := by
  induction h generalizing vals with
  | nil => simp
  | @cons k0 t0 names texts h1 _ ih =>
    cases vals with
    | nil => simp
    | cons v vals =>
      simp only [List.zip_cons_cons, List.mem_cons, Prod.mk.injEq, ih vals]
      constructor
      · rintro (⟨rfl, rfl⟩ | ⟨t, h2, h3⟩)
        · exact ⟨t0, Or.inl ⟨rfl, rfl⟩, h1⟩
        · exact ⟨t, Or.inr h2, h3⟩
      · rintro ⟨t, ⟨rfl, rfl⟩ | h2, h3⟩
        · rw [h1] at h3; cases h3; exact Or.inl ⟨rfl, rfl⟩
        · exact Or.inr ⟨t, h2, h3⟩

theorem mem_names {names texts : List Str} (h : All2 (fun k t => escapePath t = .ok k) names texts) (k : Str) : k ∈ names ↔ FieldName texts k := by
  unfold FieldName
  induction h with
  | nil => simp
  | @cons k0 t0 names texts h1 _ ih =>
    simp only [List.mem_cons, ih]
    constructor
    · rintro (rfl | ⟨t, h2, h3⟩)
      · exact ⟨t0, Or.inl rfl, h1⟩
      · exact ⟨t, Or.inr h2, h3⟩
    · rintro ⟨t, rfl | h2, h3⟩
      · rw [h1] at h3; cases h3; exact Or.inl rfl
      · exact Or.inr ⟨t, h2, h3⟩

/-- How a dict with string keys is written. -/
theorem fields_run {x : Ctx} {n : Nat} {v : Val} {texts : List Str} {vals : List Val} (hf : HasFields v texts vals) {g : Nat} {gname name : Str} {s s' : St}
    {ob : Option Nat} (h : writeData x n g gname name v s = (.ok ob, s')) :
    ∃ m keys struct ts, writeDict x (writeData x m) g gname name keys vals struct ts s = (.ok ob, s') ∧ (keyInfos keys).isNone = false ∧
      (∀ k w, (k, w) ∈ dictItems x.o keys vals ↔ ∃ t, (t, w) ∈ texts.zip vals ∧ escapePath t = .ok k) ∧
      ∀ k, k ∈ (dictItems x.o keys vals).map (·.1) ↔ FieldName texts k := by
  have key : ∀ keys, All2 KeyText keys texts → vals.length = keys.length → (keyInfos keys).isNone = false ∧
      (∀ k w, (k, w) ∈ dictItems x.o keys vals ↔ ∃ t, (t, w) ∈ texts.zip vals ∧ escapePath t = .ok k) ∧
      ∀ k, k ∈ (dictItems x.o keys vals).map (·.1) ↔ FieldName texts k := by
    intro keys ht hl
    obtain ⟨l, h1, h2, _, h4, _⟩ := keyInfos_text ht
    have hdi : dictItems x.o keys vals = (l.map (·.1)).zip vals := by unfold dictItems; rw [h1]
    refine ⟨by rw [h1]; rfl, ?_, ?_⟩
    · intro k w; rw [hdi]; exact zip_names h4 vals k w
    · intro k
      rw [hdi, map_fst_zip _ _ (by simp [h2, hl])]
      exact mem_names h4 k
  cases n with
  | zero => cases h
  | succ n =>
    cases hf with
    | dict k keys vals texts h1 h2 => exact ⟨n, keys, _, _, h, key keys h1 h2⟩
    | record k vals h1 =>
      rw [recordFields_eq] at h1 ⊢
      exact ⟨n, k.fieldNames.map Val.str, _, _, h, key _ (recordFields_eq k ▸ allKeyText_str _) (by simpa using h1)⟩

theorem other_run {x : Ctx} {n : Nat} {dk : DictKind} {keys vals : List Val} (hf : ∃ k ∈ keys, NotTextKey k) {g : Nat} {gname name : Str} {s s' : St}
    {ob : Option Nat} (h : writeData x n g gname name (.dict dk keys vals) s = (.ok ob, s')) :
    ∃ m struct ts, writeDict x (writeData x m) g gname name keys vals struct ts s = (.ok ob, s') ∧ (keyInfos keys).isNone = true ∧
      dictItems x.o keys vals = [(x.o.keysName, .seq .tuple keys), (x.o.valuesName, .seq .tuple vals)] := by
  have hl := keyInfos_notText hf
  cases n with
  | zero => cases h
  | succ n => exact ⟨n, _, _, h, by rw [hl]; rfl, by unfold dictItems; rw [hl]⟩

theorem wrote_open {x : Ctx} {n : Nat} {F F' : FileS} {p : PathArg} {ns : List Str} {v : Val} (hw : Wrote x n F p ns v F') : F.isOpen = true ∧ F'.isOpen = true := by
  have h := hw.ok
  unfold fileWrite fileWrites at h
  split at h
  · cases h
  cases hc : checkItems x.o.refsPath [(p, v)] with
  | error e => rw [hc] at h; cases h
  | ok tw =>
    rw [hc] at h
    dsimp only at h
    by_cases ho : F.isOpen = true
    · rw [ho] at h
      rw [if_neg (by decide), runFile_rw _ hw.rw] at h
      have h2 := congrArg Prod.snd h
      dsimp only at h2
      rw [← h2]
      exact ⟨ho, ho⟩
    · rw [if_pos (by simpa using ho)] at h; cases h

/-- What is not changed reads the same. -/
theorem away_same {x : Ctx} {n : Nat} {F F' : FileS} {p : PathArg} {ns : List Str} {v : Val} (hw : Wrote x n F p ns v F') {ms : List Str} (hms : OffRefs x.o ms)
    (aw : Away x.o ms F.st.heap F'.st.heap) (hs : SelfContained x.o F.st.heap ms) (hex : Exists F.st.heap ms) : ReadsSame x F F' ms := by
  intro q m hq
  obtain ⟨a, ha⟩ := hex
  rcases snoc_cases ms with rfl | ⟨l, t, rfl⟩
  · exact absurd rfl hms.ne
  obtain ⟨gs, c1, rfl⟩ := addr_check hw.refs hms hq
  have hd : t ≠ [dot] := hms.plain t (by simp)
  obtain ⟨h1, h2⟩ := wrote_open hw
  rw [fileRead_eq, fileRead_eq, c1]
  dsimp only
  rw [h1, h2, readOne_at hd ha, readOne_at hd ((aw.path a).mpr ha), away_reads aw hms hs ha]

end HS
