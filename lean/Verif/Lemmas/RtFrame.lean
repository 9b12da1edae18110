import Verif.Lemmas.WriteFrame
import Verif.Lemmas.Conv
import Verif.Model.Read
import Verif.Spec.Values
/-
Round trip through the heap: new objects, and what keeps them as they are.
-/
namespace HS
open Spec

theorem all2_mono {α β : Type} {R S : α → β → Prop} (h : ∀ a b, R a b → S a b) {l : List α} {r : List β} (hr : All2 R l r) : All2 S l r := by
  induction hr with
  | nil => exact .nil
  | cons h1 _ ih => exact .cons (h _ _ h1) ih

theorem all2_mem {α β : Type} {R : α → β → Prop} {l : List α} {r : List β} (hr : All2 R l r) : All2 (fun a b => a ∈ l ∧ R a b) l r := by
  induction hr with
  | nil => exact .nil
  | cons h _ ih => exact .cons ⟨List.mem_cons_self, h⟩ (all2_mono (fun a b hab => ⟨List.mem_cons_of_mem _ hab.1, hab.2⟩) ih)

/-- Parts of a value are readable with the options with which the value is. -/
theorem readable_part {o ro : COpts} {v w : Val} (h : ReadableWith o ro v) (hp : HasStruct w → HasStruct v) : ReadableWith o ro w :=
  ⟨h.order, fun h1 h2 h3 => h.structs h1 h2 (hp h3)⟩

theorem readable_elem {o ro : COpts} {c : Cont} {s : List Nat} {l : List Val} {e : Val} (h : ReadableWith o ro (.npObj c s l)) (he : e ∈ l) : ReadableWith o ro e :=
  readable_part h (HasStruct.npObj c s l e he)

theorem readable_seq {o ro : COpts} {k : SeqKind} {c : Cont} {s : List Nat} {l : List Val} (h : ReadableWith o ro (.seq k l)) : ReadableWith o ro (.npObj c s l) :=
  readable_part h fun h => by
    cases h with
    | npObj _ _ _ e he h => exact .seq k l e he h

/-- A list of values all of which are readable. -/
theorem readable_list {o ro : COpts} {k : SeqKind} {l : List Val} (h0 : ro.reverse = o.reverse ∨ (o.matlab = true ∧ o.action ≠ .ignore))
    (h : ∀ e ∈ l, ReadableWith o ro e) : ReadableWith o ro (.seq k l) where
  order := h0
  structs := by
    intro h1 h2 h3
    cases h3 with
    | seq _ _ e he h4 => exact (h e he).structs h1 h2 h4

theorem readable_val {o ro : COpts} {k : DictKind} {keys vals : List Val} {e : Val} (h : ReadableWith o ro (.dict k keys vals)) (he : e ∈ vals) : ReadableWith o ro e :=
  readable_part h (HasStruct.val k keys vals e he)

theorem readable_key {o ro : COpts} {k : DictKind} {keys vals : List Val} {e : Val} (h : ReadableWith o ro (.dict k keys vals)) (he : e ∈ keys) : ReadableWith o ro e :=
  readable_part h (HasStruct.key k keys vals e he)

/-- A dict all of whose parts are readable. -/
theorem readable_dict {o ro : COpts} {k : DictKind} {keys vals : List Val} (h0 : ro.reverse = o.reverse ∨ (o.matlab = true ∧ o.action ≠ .ignore))
    (hk : ∀ e ∈ keys, ReadableWith o ro e) (hv : ∀ e ∈ vals, ReadableWith o ro e) : ReadableWith o ro (.dict k keys vals) where
  order := h0
  structs := by
    intro h1 h2 h3
    cases h3 with
    | key _ _ _ e he h4 => exact (hk e he).structs h1 h2 h4
    | val _ _ _ e he h4 => exact (hv e he).structs h1 h2 h4

theorem all2_right {α β : Type} {R : α → β → Prop} {l : List α} {r : List β} (hr : All2 R l r) : ∀ b ∈ r, ∃ a, a ∈ l ∧ R a b := by
  induction hr with
  | nil => intro b hb; cases hb
  | cons h1 _ ih =>
    intro b hb
    rcases List.mem_cons.mp hb with rfl | hb
    · exact ⟨_, by simp, h1⟩
    · obtain ⟨a, h2, h3⟩ := ih b hb
      exact ⟨a, by simp [h2], h3⟩

theorem all2_length {α β : Type} {R : α → β → Prop} {l : List α} {r : List β} (hr : All2 R l r) : l.length = r.length := by
  induction hr with
  | nil => rfl
  | cons _ _ ih => simp [ih]

/-- With the options that turn structured arrays into dicts on reading there are none among the values expected to survive. -/
theorem good_noStruct {o : COpts} (hm : o.matlab = true) (hs : o.structsAsDicts = true) {v : Val} (h : Good o v) : ¬ HasStruct v := by
  induction h with
  | npObj _ _ _ _ _ _ ih => intro hh; cases hh with | npObj _ _ _ e he h => exact ih e he h
  | seq _ _ _ _ ih => intro hh; cases hh with | seq _ _ e he h => exact ih e he h
  | dictText _ _ _ _ hk _ _ _ ih =>
    intro hh
    cases hh with
    | key _ _ _ e he h =>
      have key : ∀ {l : List Val} {t : List Str}, All2 KeyText l t → ∀ e ∈ l, ¬ HasStruct e := by
        intro l t hl
        induction hl with
        | nil => intro e he; cases he
        | cons h1 _ ih =>
          intro e he
          rcases List.mem_cons.mp he with rfl | he
          · cases h1 <;> intro hh <;> cases hh
          · exact ih e he
      exact key hk e he h
    | val _ _ _ e he h => exact ih e he h
  | dictAny _ _ _ _ _ _ _ _ ihk ihv =>
    intro hh
    cases hh with
    | key _ _ _ e he h => exact ihk e he h
    | val _ _ _ e he h => exact ihv e he h
  | record _ _ _ _ ih => intro hh; cases hh with | record _ _ e he h => exact ih e he h
  | npStruct _ _ _ _ _ hg _ _ => have := hg.read hm; rw [hs] at this; cases this
  | npTable _ _ _ _ _ hg => have := hg.read hm; rw [hs] at this; cases this
  | _ => intro hh; cases hh

/-- Reading with the options of writing. -/
theorem readable_same {o : COpts} {v : Val} (h : Good o v) : ReadableWith o o v := ⟨Or.inl rfl, fun hm hs => good_noStruct hm hs h⟩

/-- Nothing is at the place. -/
def Fresh (s : St) (g : Nat) (name : Str) : Prop := ∀ q, ¬ LinkAt s.heap g name q

/-- The random numbers drawn between `a` and `B` are different. -/
def RandOk (x : Ctx) (a B : Nat) : Prop := ∀ i j, a ≤ i → i < j → j < B → x.rng i % 2 ^ 64 ≠ x.rng j % 2 ^ 64

theorem RandOk.mono {x : Ctx} {a a' B : Nat} (h : RandOk x a B) (ha : a ≤ a') : RandOk x a' B :=
  fun i j h1 h2 h3 => h i j (Nat.le_trans ha h1) h2 h3

/-- If the place is in the references Group its name is not going to be used for something else. -/
def Slot (x : Ctx) (B : Nat) (s : St) (g : Nat) (name : Str) : Prop :=
  resolve s.heap 0 (refsComps x.o) = some g → s.refs = some g ∧ name ≠ p!"a" ∧
    (s.created = false → ∀ i, s.rpos ≤ i → i < B → name ≠ randName x i)

theorem Slot.keep {x : Ctx} {A D} {B : Nat} {s s1 : St} (f : Fr x A D s s1) {g : Nat} {name : Str} (hg : g < s.heap.length) (h : Slot x B s g name) :
    Slot x B s1 g name := by
  intro hr
  obtain ⟨h1, h2, h3⟩ := h (f.resolve_old _ (plainComps x) g hr hg)
  exact ⟨(f.refs g h1).1, h2, fun hc i hi hB => h3 ((f.refs g h1).2.symm.trans hc) i (Nat.le_trans f.rpos hi) hB⟩

/-- An unused place stays unused while only the references Group is worked on. -/
theorem Fresh.keep {x : Ctx} {B : Nat} {s s1 : St} (st : Step x noA noD s s1) {g : Nat} {name : Str} (hp : Pre x s g name) (hs : Slot x B s g name)
    (hB : s1.rpos ≤ B) (hf : Fresh s g name) : Fresh s1 g name := by
  intro q hl
  by_cases hr : resolve s.heap 0 (refsComps x.o) = some g
  · obtain ⟨h1, h2, h3⟩ := hs hr
    have hr1 := (st.inv.refs g (st.fr.refs g h1).1).1
    rcases st.fr.refkeys g name q hr1 hl with h | h | h
    · exact hf q h
    · have hne : s.refs ≠ none := by rw [h1]; simp
      rcases h with h | ⟨c, c1, c2, c3⟩ | ⟨i, c1, c2, c3⟩
      · exact h2 h
      · cases hc : s.created with
        | true => exact hp.res hc h1 c c1 c3
        | false => have := st.fr.cfx hne hc; omega
      · cases hc : s.created with
        | true => have := st.fr.rnd hne hc; omega
        | false => exact h3 hc i c1 (by omega) c3
    · exact h
  · have : aget (linksOf s1.heap g) name = aget (linksOf s.heap g) name := by
      refine st.fr.links g hp.glt (fun h => h) name (fun h => h) ?_
      rintro (⟨_, pre, c1, c2⟩ | c)
      · exact hp.off pre c1 c2
      · exact hr c.1
    unfold LinkAt at hl
    rw [this] at hl
    exact hf q hl

theorem fresh_noTgt {s : St} {g : Nat} {name : Str} (hf : Fresh s g name) (p : Nat) : ¬ TgtD s g name p := by
  rintro ⟨q, hq, _⟩
  exact hf q hq

theorem Post.fresh {x : Ctx} {g : Nat} {name : Str} {s s' : St} {P : Nat → Prop} (h : Post x g name s s' P) (hf : Fresh s g name) :
    Step x (oneA g name) noD s s' := h.step.mono (fun _ _ h => h) (fun p hp => (fresh_noTgt hf p hp).elim)

/-- Objects made between `s` and `s'` that are not on the way to the references Group. -/
def NewObj (x : Ctx) (s s' : St) (p : Nat) : Prop := s.heap.length ≤ p ∧ p < s'.heap.length ∧ ¬ OnRefsPath (refsComps x.o) s'.heap p

theorem NewObj.later {x : Ctx} {A D} {s0 s1 s2 s3 : St} {p : Nat} (h : NewObj x s1 s2 p) (hl : s0.heap.length ≤ s1.heap.length) (f : Fr x A D s2 s3) :
    NewObj x s0 s3 p :=
  ⟨Nat.le_trans hl h.1, Nat.lt_of_lt_of_le h.2.1 f.len, fun hn => h.2.2 (f.onPath_old p hn h.2.1)⟩

/-- Reading `oid` gives `v` in every file that has the new objects as they are in `s'`. -/
def Reads (x : Ctx) (n : Nat) (s s' : St) (oid : Nat) (v : Val) : Prop :=
  ∀ (ro : COpts) (V : View) (excl : Option Nat) (m : Nat), ReadableWith x.o ro v → (∀ p, NewObj x s s' p → V p = viewOf s'.heap p) → (∀ q, excl = some q → ¬ NewObj x s s' q) → n ≤ m →
    readData ro V excl m oid = .ok v

theorem Reads.later {x : Ctx} {A D} {n : Nat} {s0 s1 s2 s3 : St} {oid : Nat} {v : Val} (h : Reads x n s1 s2 oid v)
    (hl : s0.heap.length ≤ s1.heap.length) (f : Fr x A D s2 s3) (hv : ∀ p, NewObj x s1 s2 p → viewOf s3.heap p = viewOf s2.heap p) :
    Reads x n s0 s3 oid v := by
  intro ro V excl m hro h1 h2 h3
  refine h ro V excl m hro ?_ ?_ h3
  · intro p hp
    rw [h1 p (hp.later hl f), hv p hp]
  · intro q hq hn
    exact h2 q hq (hn.later hl f)

/-- The object has a type string. -/
def TypedAt (s : St) (q : Nat) : Prop := ∃ ob, viewOf s.heap q = some ob ∧ aget ob.attrs p!"Python.Type" ≠ none

theorem TypedAt.of_view {s s' : St} {q : Nat} (h : TypedAt s q) (hv : viewOf s'.heap q = viewOf s.heap q) : TypedAt s' q := by
  obtain ⟨ob, h1, h2⟩ := h
  exact ⟨ob, hv.trans h1, h2⟩

/-- Objects that are not touched look the same. -/
theorem Fr.view {x : Ctx} {A D} {s s' : St} (f : Fr x A D s s') {p : Nat} (hp : p < s.heap.length) (hD : ¬ D p) (hA : ∀ k, ¬ A p k)
    (hn : ¬ OnRefsPath (refsComps x.o) s.heap p) : viewOf s'.heap p = viewOf s.heap p := by
  unfold viewOf
  rw [f.same p hp hD hA hn]

theorem Reads.step {x : Ctx} {n : Nat} {s0 s1 s2 s3 : St} {oid : Nat} {v : Val} (h : Reads x n s1 s2 oid v)
    (hl : s0.heap.length ≤ s1.heap.length) (st : Step x noA noD s2 s3) : Reads x n s0 s3 oid v :=
  h.later hl st.fr (fun _ hp => st.fr.view hp.2.1 (fun h => h) (fun _ h => h) hp.2.2)

theorem Reads.stepAt {x : Ctx} {n : Nat} {s0 s1 s2 s3 : St} {oid g : Nat} {A : Nat → Str → Prop} {v : Val} (h : Reads x n s1 s2 oid v)
    (hl : s0.heap.length ≤ s1.heap.length) (st : Step x A noD s2 s3) (hA : ∀ p k, A p k → p = g) (hg : g < s1.heap.length) : Reads x n s0 s3 oid v :=
  h.later hl st.fr (fun p hp => st.fr.view hp.2.1 (fun h => h) (fun k hk => by
    have := hA p k hk
    have := hp.1
    omega) hp.2.2)

/-- Setting or deleting the H5PATH attribute is not seen. -/
theorem setH5Path_view {x : Ctx} {s s' : St} {res : Res Unit} (p : Nat) (b : Res Bytes) (h : setH5Path x p b s = (res, s')) :
    viewOf s'.heap = viewOf s.heap := by
  have key : ∀ f : Obj → Obj, (∀ o, (f o).view = o.view) → viewOf (s.heap.update p f) = viewOf s.heap := by
    intro f hf
    funext q
    unfold viewOf
    rw [getElem?_update]
    split
    · rename_i hq
      subst hq
      cases s.heap[q]? with
      | none => rfl
      | some o => simp [hf]
    · rfl
  unfold setH5Path at h
  by_cases hm : x.o.matlab = true
  · rw [if_pos hm] at h
    cases b with
    | error e => cases h; rfl
    | ok b =>
      change ((Except.ok () : Res Unit), ({ s with heap := s.heap.update p fun o => { o with attrs := aput o.attrs p!"H5PATH" (.bytes b) } } : St)) = _ at h
      cases h
      apply key
      intro o
      simp only [Obj.view, aput, adel, List.filter_append, List.filter_filter]
      simp
  · rw [if_neg hm] at h
    change ((Except.ok () : Res Unit), ({ s with heap := s.heap.update p fun o => { o with attrs := adel o.attrs p!"H5PATH" } } : St)) = _ at h
    cases h
    apply key
    intro o
    simp only [Obj.view, adel, List.filter_filter]
    simp

/-- What has been written to an unused place. -/
structure RTOut (x : Ctx) (n : Nat) (s s' : St) (g : Nat) (name : Str) (v : Val) (oid : Nat) : Prop where
  new : NewObj x s s' oid
  link : resolve s.heap 0 (refsComps x.o) ≠ some g → LinkAt s'.heap g name oid
  typed : ∃ ob, viewOf s'.heap oid = some ob ∧ aget ob.attrs p!"Python.Type" ≠ none
  reads : Reads x n s s' oid v

theorem ts_typed {V : View} {oid : Nat} {ob : Obj} {ts : Str} (hv : V oid = some ob) (h : attrToString (aget ob.attrs p!"Python.Type") = .ok (some ts)) :
    ∃ ob, V oid = some ob ∧ aget ob.attrs p!"Python.Type" ≠ none :=
  ⟨ob, hv, fun hn => by rw [hn] at h; cases h⟩

/-- A writer whose output reads back. -/
def WrRT (x : Ctx) (n : Nat) (wr : Wr) : Prop := ∀ s g gname name v s' ob B, Pre x s g name → Fresh s g name → Slot x B s g name → RandOk x s.rpos B →
  s'.rpos ≤ B → Good x.o v → wr g gname name v s = (.ok ob, s') → ∃ oid, ob = some oid ∧ RTOut x n s s' g name v oid

theorem writeElems_rpos {x : Ctx} {wr : Wr} (hwr : WrOk x wr) {s s' : St} {r c : Nat} {vs : List Val} {res : Res (List Nat)} (hi : Inv x s)
    (hr : s.refs = some r) (h : writeElems x wr r c vs s = (res, s')) : s.rpos ≤ s'.rpos := (writeElems_step hwr hi hr h).fr.rpos

/-- The elements of an object array. -/
theorem writeElems_rt {x : Ctx} {n B : Nat} {wr : Wr} (hwr : WrOk x wr) (hrt : WrRT x n wr) {s s' : St} {r c : Nat} {vs : List Val} {l : List Nat} (hi : Inv x s)
    (hr : s.refs = some r) (hg : ∀ v ∈ vs, Good x.o v) (hR : RandOk x s.rpos B) (hB : s'.rpos ≤ B) (h : writeElems x wr r c vs s = (.ok l, s')) :
    All2 (fun v q => NewObj x s s' q ∧ Reads x n s s' q v) vs l ∧ l.Pairwise (· < ·) := by
  induction vs generalizing s l with
  | nil => cases h; exact ⟨.nil, .nil⟩
  | cons v vs ih =>
    rw [writeElems] at h
    rcases bind_run (nextName x) _ s with ⟨nm, s1, e1, e2⟩ | ⟨e, s1, e1, e2⟩
    · rw [e2] at h
      obtain ⟨stn, hn⟩ := nextName_spec hi hr e1
      obtain ⟨n1, n2, n3, n4⟩ := hn nm rfl
      rcases bind_run (wr r (refsName x.o) nm v) _ s1 with ⟨ob, s2, e3, e4⟩ | ⟨e, s2, e3, e4⟩
      · rw [e4] at h
        obtain ⟨st, hpre, hfr, _⟩ := elem_step hwr hi hr e1 e3
        have hr2 := st.keepRefs hr
        have hr1 := stn.keepRefs hr
        -- where the rest ends
        have hs2 : s2.rpos ≤ s'.rpos := by
          cases ob with
          | none =>
            dsimp only at h
            rcases bind_run (writeElems x wr r c vs) (fun rest => (pure (c :: rest) : M (List Nat))) s2 with ⟨a, s3, e5, e6⟩ | ⟨e, s3, e5, e6⟩
            · rw [e6, run_pure] at h; cases h
              exact writeElems_rpos hwr st.inv hr2 e5
            · rw [e6] at h; cases h
          | some p =>
            dsimp only at h
            rcases bind_run (setH5Path x p (asciiEnc (refsName x.o))) _ s2 with ⟨u, s3, e5, e6⟩ | ⟨e, s3, e5, e6⟩
            · rw [e6] at h
              have sth := setH5Path_step st.inv p _ e5
              rcases bind_run (writeElems x wr r c vs) (fun rest => (pure (p :: rest) : M (List Nat))) s3 with ⟨a, s4, e7, e8⟩ | ⟨e, s4, e7, e8⟩
              · rw [e8, run_pure] at h; cases h
                exact Nat.le_trans sth.fr.rpos (writeElems_rpos hwr sth.inv (sth.keepRefs hr2) e7)
              · rw [e8] at h; cases h
            · rw [e6] at h; cases h
        have hslot : Slot x B s1 r nm := by
          intro _
          refine ⟨hr1, ?_, ?_⟩
          · rcases n4 with ⟨_, h1, _⟩ | ⟨_, i, _, _, h1⟩
            · intro ha
              rw [h1] at ha
              have := hexStr_a ha.symm
              have := hi.ctr
              omega
            · rw [h1]; exact randName_ne_a x i
          · intro hc1 j hj hjB
            rcases n4 with ⟨hc, _⟩ | ⟨_, i, h1, h2, h3⟩
            · rw [(stn.fr.refs r hr).2, hc] at hc1; cases hc1
            · rw [h3]
              intro hh
              exact hR i j h1 (by omega) hjB (randName_inj x hh)
        obtain ⟨oid, rfl, out⟩ := hrt s1 r _ nm v s2 ob B hpre hfr hslot (hR.mono stn.fr.rpos) (by omega) (hg v (by simp)) e3
        dsimp only at h
        rcases bind_run (setH5Path x oid (asciiEnc (refsName x.o))) _ s2 with ⟨u, s3, e5, e6⟩ | ⟨e, s3, e5, e6⟩
        · rw [e6] at h
          have sth := setH5Path_step st.inv oid _ e5
          have hvw := setH5Path_view oid _ e5
          have hr3 := sth.keepRefs hr2
          rcases bind_run (writeElems x wr r c vs) (fun rest => (pure (oid :: rest) : M (List Nat))) s3 with ⟨a, s4, e7, e8⟩ | ⟨e, s4, e7, e8⟩
          · rw [e8, run_pure] at h; cases h
            have str := writeElems_step hwr sth.inv hr3 e7
            have h03 : s.rpos ≤ s3.rpos := Nat.le_trans st.fr.rpos sth.fr.rpos
            have hl3 : s.heap.length ≤ s3.heap.length := Nat.le_trans st.fr.len sth.fr.len
            obtain ⟨ih1, ih2⟩ := ih sth.inv hr3 (fun v hv => hg v (by simp [hv])) (hR.mono h03) e7
            refine ⟨.cons ⟨?_, ?_⟩ ?_, .cons ?_ ih2⟩
            · exact (out.new.later stn.fr.len sth.fr).later (Nat.le_refl _) str.fr
            · exact (out.reads.later stn.fr.len sth.fr (fun p _ => by rw [hvw])).step (Nat.le_refl _) str
            · refine all2_mono ?_ ih1
              rintro v q ⟨h1, h2⟩
              refine ⟨?_, ?_⟩
              · exact ⟨Nat.le_trans hl3 h1.1, h1.2⟩
              · exact h2.later hl3 (Fr.rfl' (A := noA) (D := noD) str.inv.wf) (fun _ _ => rfl)
            · intro q hq
              obtain ⟨v, _, h1, _⟩ := all2_right ih1 q hq
              have := h1.1
              have := out.new.2.1
              have := sth.fr.len
              omega
          · rw [e8] at h; cases h
        · rw [e6] at h; cases h
      · rw [e4] at h; cases h
    · rw [e2] at h; cases h

end HS
