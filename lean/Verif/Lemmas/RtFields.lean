import Verif.Lemmas.RtRead
/-
Round trip of structured arrays: the Group and what is in it.
-/
namespace HS
open Spec

/-- What every reader sees in every file that has the new objects as they are in `s'`. -/
def Sees (x : Ctx) (s s' : St) (Q : COpts → View → Option Nat → Nat → Prop) : Prop :=
  ∀ (ro : COpts) (V : View) (excl : Option Nat) (m : Nat), (∀ p, NewObj x s s' p → V p = viewOf s'.heap p) → (∀ q, excl = some q → ¬ NewObj x s s' q) → Q ro V excl m

theorem Sees.later {x : Ctx} {A D} {s0 s1 s2 s3 : St} {Q : COpts → View → Option Nat → Nat → Prop} (h : Sees x s1 s2 Q)
    (hl : s0.heap.length ≤ s1.heap.length) (f : Fr x A D s2 s3) (hv : ∀ p, NewObj x s1 s2 p → viewOf s3.heap p = viewOf s2.heap p) : Sees x s0 s3 Q := by
  intro ro V excl m h1 h2
  refine h ro V excl m ?_ ?_
  · intro p hp
    rw [h1 p (hp.later hl f), hv p hp]
  · intro q hq hn
    exact h2 q hq (hn.later hl f)

theorem Sees.stepAt {x : Ctx} {s0 s1 s2 s3 : St} {g : Nat} {A : Nat → Str → Prop} {Q : COpts → View → Option Nat → Nat → Prop} (h : Sees x s1 s2 Q)
    (hl : s0.heap.length ≤ s1.heap.length) (st : Step x A noD s2 s3) (hA : ∀ p k, A p k → p = g) (hg : g < s1.heap.length) : Sees x s0 s3 Q :=
  h.later hl st.fr (fun p hp => st.fr.view hp.2.1 (fun h => h) (fun k hk => by
    have := hA p k hk
    have := hp.1
    omega) hp.2.2)

theorem setAttrsM_ok {p : Nat} {new : List (Str × AIn)} {d : Bool} {s s' : St} (h : setAttrsM p new d s = (.ok (), s')) :
    ∃ o at', s.heap[p]? = some o ∧ setAttributesAll o.attrs new d = (.ok (), at') ∧ s' = { s with heap := s.heap.set p { o with attrs := at' } } := by
  unfold setAttrsM at h
  cases hp : s.heap[p]? with
  | none => rw [hp] at h; cases h
  | some o =>
    rw [hp] at h
    dsimp only at h
    cases hr : setAttributesAll o.attrs new d with
    | mk r at' =>
      rw [hr] at h
      dsimp only at h
      cases h
      exact ⟨o, at', rfl, hr, rfl⟩

/-- The attribute given to the parts of a structured array. -/
abbrev pathAttr (o : COpts) (gname : Str) : List (Str × AIn) := if o.matlab then [(p!"H5PATH", .string gname)] else []

theorem setPath_attrs {o : COpts} {gname : Str} {d : Bool} {old at' : List (Str × AVal)} (h : setAttributesAll old (pathAttr o gname) d = (.ok (), at')) :
    adel at' p!"H5PATH" = if d then [] else adel old p!"H5PATH" := by
  unfold setAttributesAll pathAttr at h
  have key : ∀ v, adel (aput old p!"H5PATH" v) p!"H5PATH" = adel old p!"H5PATH" := by
    intro v
    simp only [aput, adel, List.filter_append, List.filter_filter]
    simp
  cases hm : o.matlab with
  | false =>
    rw [hm] at h
    simp only [Bool.false_eq_true, if_false, setAttrsLoop] at h
    cases d with
    | false => cases h; rfl
    | true =>
      have := congrArg Prod.snd h
      simp only [if_true] at this
      rw [← this]
      simp [adel, akeys]
  | true =>
    rw [hm] at h
    simp only [if_true, setAttrsLoop] at h
    cases hs : setAttrOne p!"H5PATH" (aget old p!"H5PATH") (.string gname) with
    | error e => rw [hs] at h; cases h
    | ok v =>
      rw [hs] at h
      dsimp only at h
      have h2 := congrArg Prod.snd h
      dsimp only at h2
      rw [← h2]
      cases d with
      | false => exact key v
      | true =>
        simp only [if_true, akeys, List.map_cons, List.map_nil, adel, List.filter_filter]
        apply List.filter_eq_nil_iff.mpr
        intro a _
        by_cases hc : a.1 = p!"H5PATH" <;> simp [hc]

/-- Setting the attributes of a part: what readers see of it. -/
theorem setPath_view {x : Ctx} {gname : Str} {d : Bool} {p : Nat} {s s' : St} (h : setAttrsM p (pathAttr x.o gname) d s = (.ok (), s')) :
    (∀ q, q ≠ p → viewOf s'.heap q = viewOf s.heap q) ∧
    ∃ o, s.heap[p]? = some o ∧ viewOf s'.heap p = some (if d then ⟨[], o.body⟩ else o.view) := by
  obtain ⟨o, at', h1, h2, h3⟩ := setAttrsM_ok h
  have hlt : p < s.heap.length := by
    rcases Nat.lt_or_ge p s.heap.length with h | h
    · exact h
    · rw [List.getElem?_eq_none h] at h1; cases h1
  subst h3
  refine ⟨?_, o, h1, ?_⟩
  · intro q hq
    unfold viewOf
    dsimp only
    rw [List.getElem?_set_ne (Ne.symm hq)]
  · unfold viewOf
    dsimp only
    rw [List.getElem?_set_self hlt]
    show some (Obj.mk (adel at' p!"H5PATH") o.body) = _
    rw [setPath_attrs h2]
    cases d <;> rfl

theorem setAttrsM_links {p : Nat} {new : List (Str × AIn)} {d : Bool} {s s' : St} (h : setAttrsM p new d s = (.ok (), s')) (g : Nat) :
    linksOf s'.heap g = linksOf s.heap g := by
  obtain ⟨o, at', h1, _, rfl⟩ := setAttrsM_ok h
  rw [linksOf_obj, linksOf_obj]
  dsimp only
  by_cases hg : p = g
  · subst hg
    have hlt : p < s.heap.length := by
      rcases Nat.lt_or_ge p s.heap.length with h | h
      · exact h
      · rw [List.getElem?_eq_none h] at h1; cases h1
    rw [List.getElem?_set_self hlt, h1]
    cases o with
    | mk a b => cases b <;> rfl
  · rw [List.getElem?_set_ne hg]

/-- Writing a part of a structured array and giving it its attributes: what readers see of it. -/
def ItemRT (x : Ctx) (wr : Wr) (B : Nat) (others : Bool) (P : Val → COpts → View → Option Nat → Nat → Nat → Prop) (v : Val) : Prop :=
  ∀ s g gname name s1 s2 ob, Pre x s g name → Fresh s g name → resolve s.heap 0 (refsComps x.o) ≠ some g → RandOk x s.rpos B → s1.rpos ≤ B →
    wr g gname name v s = (.ok ob, s1) →
    ∃ oid, ob = some oid ∧ NewObj x s s1 oid ∧ LinkAt s1.heap g name oid ∧
      (setAttrsM oid (pathAttr x.o gname) others s1 = (.ok (), s2) → Sees x s s2 (fun ro V excl m => P v ro V excl m oid))

theorem writeFields_rpos {x : Ctx} {wr : Wr} (hwr : WrOk x wr) {s s' : St} {g : Nat} {gname : Str} {others : Bool} {items : List (Str × Val)} {res : Res Unit}
    (hp : ∀ i ∈ items, Pre x s g i.1) (h : writeFields x wr g gname others items s = (res, s')) : s.rpos ≤ s'.rpos := by
  induction items generalizing s res with
  | nil => cases h; exact Nat.le_refl _
  | cons i items ih =>
    obtain ⟨k, v⟩ := i
    rw [writeFields] at h
    rcases bind_run (wr g gname k v) _ s with ⟨ob, s1, e1, e2⟩ | ⟨e, s1, e1, e2⟩
    · rw [e2] at h
      have po := hwr s g gname k v s1 _ (hp (k, v) (by simp)) e1
      cases ob with
      | none =>
        dsimp only at h
        exact Nat.le_trans po.step.fr.rpos (ih (fun i hi => (hp i (by simp [hi])).keep po.step) h)
      | some p =>
        dsimp only at h
        rcases bind_run (setAttrsM p (pathAttr x.o gname) others) _ s1 with ⟨u, s2, e3, e4⟩ | ⟨e, s2, e3, e4⟩
        · rw [e4] at h
          have sth := setAttrsM_step po.step.inv p _ _ e3
          exact Nat.le_trans (Nat.le_trans po.step.fr.rpos sth.fr.rpos) (ih (fun i hi => ((hp i (by simp [hi])).keep po.step).keep sth) h)
        · rw [e4] at h; cases h
          exact Nat.le_trans po.step.fr.rpos (setAttrsM_step po.step.inv p _ _ e3).fr.rpos
    · rw [e2] at h; cases h
      exact (hwr s g gname k v _ _ (hp (k, v) (by simp)) e1).step.fr.rpos

/-- Writing the parts of a structured array to unused names of a Group. -/
theorem writeFields_rt {x : Ctx} {B : Nat} {wr : Wr} (hwr : WrOk x wr) {others : Bool} {P : Val → COpts → View → Option Nat → Nat → Nat → Prop} {s s' : St} {g : Nat}
    {gname : Str} {items : List (Str × Val)} (hi : Inv x s) (hoff : resolve s.heap 0 (refsComps x.o) ≠ some g) (hp : ∀ i ∈ items, Pre x s g i.1)
    (hf : ∀ i ∈ items, Fresh s g i.1) (hnd : (items.map (·.1)).Nodup) (hgd : ∀ i ∈ items, ItemRT x wr B others P i.2) (hR : RandOk x s.rpos B) (hB : s'.rpos ≤ B)
    (h : writeFields x wr g gname others items s = (.ok (), s')) :
    Step x (itemsA g items) noD s s' ∧
      ∃ oids, All2 (fun i q => NewObj x s s' q ∧ LinkAt s'.heap g i.1 q ∧ Sees x s s' (fun ro V excl m => P i.2 ro V excl m q)) items oids := by
  induction items generalizing s with
  | nil => cases h; exact ⟨Step.refl hi, [], .nil⟩
  | cons i items ih =>
    obtain ⟨k, v⟩ := i
    have hr0 := writeFields_rpos hwr hp h
    rw [writeFields] at h
    have hpk := hp (k, v) (by simp)
    have hfk := hf (k, v) (by simp)
    rcases bind_run (wr g gname k v) _ s with ⟨ob, s1, e1, e2⟩ | ⟨e, s1, e1, e2⟩
    · rw [e2] at h
      have po := hwr s g gname k v s1 _ hpk e1
      have st1 := po.fresh hfk
      have hg : g < s.heap.length := hpk.glt
      have hB1 : s1.rpos ≤ B := by
        cases ob with
        | none =>
          dsimp only at h
          exact Nat.le_trans (writeFields_rpos hwr (fun i hi => (hp i (by simp [hi])).keep st1) h) hB
        | some p =>
          dsimp only at h
          rcases bind_run (setAttrsM p (pathAttr x.o gname) others) _ s1 with ⟨u, s2, e3, e4⟩ | ⟨e, s2, e3, e4⟩
          · rw [e4] at h
            have sth := setAttrsM_step po.step.inv p _ _ e3
            exact Nat.le_trans sth.fr.rpos (Nat.le_trans (writeFields_rpos hwr (fun i hi => ((hp i (by simp [hi])).keep st1).keep sth) h) hB)
          · rw [e4] at h; cases h
      obtain ⟨oid, rfl, onew, olink, osee⟩ := hgd (k, v) (by simp) s g gname k s1 (setAttrsM (ob.getD 0) (pathAttr x.o gname) others s1).2 ob hpk hfk hoff hR hB1 e1
      dsimp only at h
      rcases bind_run (setAttrsM oid (pathAttr x.o gname) others) _ s1 with ⟨u, s2, e3, e4⟩ | ⟨e, s2, e3, e4⟩
      · rw [e4] at h
        have osee : Sees x s s2 (fun ro V excl m => P v ro V excl m oid) := by
          have := osee
          rw [Option.getD_some, e3] at this
          exact this rfl
        have sth := setAttrsM_step st1.inv oid _ _ e3
        have st2 : Step x (oneA g k) noD s s2 := st1.trans sth (fun _ _ h => h.elim) (fun p hp' hd => by
          have := onew.1
          rw [show p = oid from hd] at hp'
          omega)
        have hoff2 : resolve s2.heap 0 (refsComps x.o) ≠ some g := fun hc => hoff (st2.fr.resolve_old _ (plainComps x) g hc hg)
        have hkn : k ∉ items.map (·.1) := (List.nodup_cons.mp hnd).1
        have hp2 : ∀ i ∈ items, Pre x s2 g i.1 := fun i hi => (hp i (by simp [hi])).keep st2
        have hne : ∀ i ∈ items, i.1 ≠ k := by
          intro i hi hh
          exact hkn (List.mem_map.mpr ⟨i, hi, hh⟩)
        have hf2 : ∀ i ∈ items, Fresh s2 g i.1 := by
          intro i hi q hq
          unfold LinkAt at hq
          rw [st2.fr.link_keep (hp i (by simp [hi])) hoff (fun h => h) (fun hA => hne i hi hA.2)] at hq
          exact hf i (by simp [hi]) q hq
        obtain ⟨str, oids, ha⟩ := ih st2.inv hoff2 hp2 hf2 (List.nodup_cons.mp hnd).2 (fun i hi => hgd i (by simp [hi])) (hR.mono st2.fr.rpos) h
        refine ⟨?_, oid :: oids, .cons ⟨?_, ?_, ?_⟩ ?_⟩
        · refine (st2.mono (A' := itemsA g ((k, v) :: items)) (D' := noD) ?_ (fun _ h => h)).trans str ?_ (fun _ _ h => h)
          · rintro p c ⟨h1, h2⟩; exact ⟨h1, by simp [h2]⟩
          · rintro p c ⟨h1, h2⟩; exact ⟨h1, by rw [List.map_cons]; exact List.mem_cons_of_mem _ h2⟩
        · exact (onew.later (Nat.le_refl _) sth.fr).later (Nat.le_refl _) str.fr
        · unfold LinkAt at olink ⊢
          dsimp only
          rw [str.fr.link_keep (hpk.keep st2) hoff2 (fun h => h) (fun hA => hkn hA.2), setAttrsM_links e3]
          exact olink
        · exact osee.stepAt (Nat.le_refl _) str (fun p c hA => hA.1) hg
        · refine all2_mono ?_ ha
          rintro i q ⟨h1, h2, h3⟩
          exact ⟨⟨Nat.le_trans st2.fr.len h1.1, h1.2⟩, h2, h3.later st2.fr.len (Fr.rfl' (A := noA) (D := noD) str.inv.wf) (fun _ _ => rfl)⟩
      · rw [e4] at h; cases h
    · rw [e2] at h; cases h

/-- Writing the Group of a structured array to an unused place. -/
theorem writeGroup_fresh {x : Ctx} {B : Nat} {wr : Wr} (hwr : WrOk x wr) {others : Bool} {P : Val → COpts → View → Option Nat → Nat → Nat → Prop} {s s' : St}
    {ob : Option Nat} {g : Nat} {gname name : Str} (hp : Pre x s g name) (hf : Fresh s g name) (hR : RandOk x s.rpos B) (hB : s'.rpos ≤ B) {esc : List Str}
    {items : List (Str × Val)} {at' : List (Str × AIn)} (hdot : ∀ i ∈ items, i.1 ≠ [dot]) (hnd : (items.map (·.1)).Nodup)
    (hgd : ∀ i ∈ items, ItemRT x wr B others P i.2) (h : writeGroup x wr g gname name esc others items at' s = (.ok ob, s')) :
    ∃ oid links attrs oids, ob = some oid ∧ NewObj x s s' oid ∧ (resolve s.heap 0 (refsComps x.o) ≠ some g → LinkAt s'.heap g name oid) ∧
      s'.heap[oid]? = some ⟨attrs, .group links⟩ ∧ setAttributesAll [] at' true = (.ok (), attrs) ∧
      (∀ k q, aget links k = some q → k ∈ items.map (·.1)) ∧
      All2 (fun i q => NewObj x s s' q ∧ aget links i.1 = some q ∧ Sees x s s' (fun ro V excl m => P i.2 ro V excl m q)) items oids := by
  have po := writeGroup_post hwr hp hdot h
  obtain ⟨g2, s1, s3, s4, rfl, e1, e3, e5, e7⟩ := writeGroup_run h
  -- the new Group
  have hcr : createObj g name ⟨[], .group []⟩ s = (.ok g2, s1) := by
    unfold getGroup at e1
    rcases getLink_run g name s with hh | ⟨e, hh⟩
    · rw [run_bind_ok hh, hlook_plain _ _ _ hp.nd] at e1
      cases hl : aget (linksOf s.heap g) name with
      | none => rw [hl] at e1; exact e1
      | some q => exact absurd hl (hf q)
    · rw [run_bind_err hh] at e1; cases e1
  obtain ⟨st1, hcr2⟩ := create_at hp _ rfl hcr
  obtain ⟨t, hsep, c1, c2, _, c4, _, _⟩ := hcr2 g2 rfl
  obtain ⟨st3, hob3, hs3⟩ : Step x noA (oneD g2) s1 s3 ∧ s3.heap[g2]? = some ⟨[], .group []⟩ ∧ Sep x s3 g2 := by
    split at e3
    · have sd := deleteOthers_step st1.inv g2 hsep esc
      change ((Except.ok () : Res Unit), ({ s1 with heap := s1.heap.update g2 (Obj.mapLinks fun l => l.filter fun p => esc.contains p.1) } : St)) = _ at e3
      cases e3
      refine ⟨sd, ?_, hsep.keep sd.fr st1.inv t.lt⟩
      dsimp only
      rw [getElem?_update, if_pos rfl, c2]
      rfl
    · cases e3; exact ⟨Step.refl st1.inv, c2, hsep⟩
  have hg3 : g2 < s3.heap.length := Nat.lt_of_lt_of_le t.lt st3.fr.len
  have hlinks3 : linksOf s3.heap g2 = [] := by rw [linksOf_obj, hob3]; rfl
  have hoff3 : resolve s3.heap 0 (refsComps x.o) ≠ some g2 := fun hc => hs3 g2 .refl ⟨_, List.prefix_refl _, hc⟩
  have h03 : s.rpos ≤ s3.rpos := Nat.le_trans st1.fr.rpos st3.fr.rpos
  have hl03 : s.heap.length ≤ s3.heap.length := Nat.le_trans st1.fr.len st3.fr.len
  have hpre3 : ∀ i ∈ items, Pre x s3 g2 i.1 := fun i hi => hs3.pre st3.inv hg3 (hdot i hi)
  have hB4 : s4.rpos ≤ B := by
    obtain ⟨_, _, _, _, rfl⟩ := setAttrsM_ok e7
    exact hB
  obtain ⟨sti, oids, ha⟩ := writeFields_rt hwr st3.inv hoff3 hpre3
    (fun i _ q hq => by unfold LinkAt at hq; rw [hlinks3] at hq; cases hq) hnd hgd (hR.mono h03) hB4 e5
  -- the Group after the parts have been written
  obtain ⟨o', ho1, ho2, ho3⟩ := sti.fr.obj g2 _ hob3 (fun h => h)
  obtain ⟨oa, obd⟩ := o'
  cases obd with
  | dset a f => exact ho3.elim
  | group links =>
    dsimp only at ho2
    subst ho2
    have hlk : linksOf s4.heap g2 = links := by rw [linksOf_obj, ho1]; rfl
    have tt := po.ok g2 rfl
    have hgg : g < s1.heap.length := Nat.lt_of_lt_of_le hp.glt st1.fr.len
    have hne : g ≠ g2 := by have := hp.glt; omega
    have sta := setAttrsM_step sti.inv g2 _ _ e7
    obtain ⟨o5, attrs, hs1, hs2, hs3'⟩ := setAttrsM_ok e7
    rw [ho1] at hs1
    cases hs1
    have hg4 : g2 < s4.heap.length := Nat.lt_of_lt_of_le hg3 sti.fr.len
    refine ⟨g2, links, attrs, oids, rfl, ⟨by omega, tt.lt, tt.off⟩, ?_, ?_, hs2, ?_, ?_⟩
    · intro hoff
      have hoff1 : resolve s1.heap 0 (refsComps x.o) ≠ some g := fun hc => hoff (st1.fr.resolve_old _ (plainComps x) g hc hp.glt)
      have hoffs : resolve s3.heap 0 (refsComps x.o) ≠ some g := fun hc => hoff1 (st3.fr.resolve_old _ (plainComps x) g hc hgg)
      unfold LinkAt at c4 ⊢
      rw [setAttrsM_links e7, sti.fr.link_keep ((hp.keep st1).keep st3) hoffs (fun h => h) (fun hA => hne hA.1),
        st3.fr.link_keep (hp.keep st1) hoff1 (fun hd => hne hd) (fun h => h)]
      exact c4
    · rw [hs3']
      dsimp only
      rw [List.getElem?_set_self hg4]
    · intro k q hq
      apply Classical.byContradiction
      intro hn
      have := sti.fr.links g2 hg3 (fun h => h) k (fun hA => hn hA.2) (fun hc => hs3 g2 .refl hc.onPath)
      rw [hlk, hlinks3, hq] at this
      cases this
    · refine all2_mono ?_ ha
      rintro i q ⟨h1, h2, h3⟩
      refine ⟨h1.later hl03 sta.fr, ?_, h3.later hl03 sta.fr (fun p hp' => ?_)⟩
      · unfold LinkAt at h2
        rw [hlk] at h2
        exact h2
      · have : p ≠ g2 := by have := hp'.1; omega
        unfold viewOf
        rw [hs3']
        dsimp only
        rw [List.getElem?_set_ne (Ne.symm this)]

/-- Writing an object array with elements to an unused place: the Dataset, and that it was made after what its elements refer to. -/
def WrRaw (x : Ctx) (n : Nat) (wr : Wr) : Prop := ∀ s g gname name shape elems s' ob B, Pre x s g name → Fresh s g name → Slot x B s g name → RandOk x s.rpos B →
  s'.rpos ≤ B → prodN shape ≠ 0 → elems.length = prodN shape → (∀ e ∈ elems, Good x.o e) → wr g gname name (.npObj .ndarray shape elems) s = (.ok ob, s') →
  ∃ oid s1 refs attrs f, ob = some oid ∧ NewObj x s s' oid ∧ LinkAt s'.heap g name oid ∧ s1.heap.length ≤ oid ∧ Step x noA noD s s1 ∧ Step x (oneA g name) noD s1 s' ∧
    s'.heap[oid]? = some ⟨attrs, .dset ⟨.ref, if x.o.reverse then (shape2d x.o shape).reverse else shape2d x.o shape, refs.map El.ref⟩ f⟩ ∧
    All2 (fun v q => Reads x n s s1 q v) (if x.o.reverse then transposeData (shape2d x.o shape) elems else elems) refs

theorem writeNpObj_raw {x : Ctx} {n B : Nat} {wr : Wr} (hwr : WrOk x wr) (hrt : WrRT x n wr) {s s' : St} {ob : Option Nat}
    {g : Nat} {name : Str} (hp : Pre x s g name) (hf : Fresh s g name) (hsl : Slot x B s g name) (hR : RandOk x s.rpos B) (hB : s'.rpos ≤ B) (c : Cont)
    (shape : List Nat) (elems : List Val) (ts : Str) (h0 : prodN shape ≠ 0) (hl : elems.length = prodN shape)
    (hg : ∀ e ∈ elems, Good x.o e) (h : writeNpObj x wr g name c shape elems ts s = (.ok ob, s')) :
    ∃ oid s1 refs attrs f, ob = some oid ∧ NewObj x s s' oid ∧ LinkAt s'.heap g name oid ∧ s1.heap.length ≤ oid ∧ Step x noA noD s s1 ∧ Step x (oneA g name) noD s1 s' ∧
    s'.heap[oid]? = some ⟨attrs, .dset ⟨.ref, if x.o.reverse then (shape2d x.o shape).reverse else shape2d x.o shape, refs.map El.ref⟩ f⟩ ∧
    All2 (fun v q => Reads x n s s1 q v) (if x.o.reverse then transposeData (shape2d x.o shape) elems else elems) refs := by
  have po := writeNpObj_post hwr hp c shape elems ts h
  unfold writeNpObj at h
  have hemp : (x.o.storeShape && prodN shape == 0) = false := by simp [h0]
  rw [hemp] at h
  simp only [Bool.false_eq_true, if_false] at h
  change (((writeObjectArray x wr (if x.o.reverse then transposeData (shape2d x.o shape) elems else elems)) >>= fun refs =>
    (pure ⟨.ref, (if x.o.reverse then (shape2d x.o shape).reverse else shape2d x.o shape), refs.map El.ref⟩ : M Arr)) >>= fun d =>
    (putDataset g name d (filtersFor x.o d) >>= fun p => setAttrsM p (npAttrs x.o c .object shape (prodN shape == 0) d.dt ts) true >>= fun _ => (pure (some p) : M (Option Nat)))) s = _ at h
  have hsub : ∀ e ∈ (if x.o.reverse = true then transposeData (shape2d x.o shape) elems else elems), Good x.o e := by
    intro e he
    split at he
    · refine hg e (mem_transposeData _ _ ?_ e he)
      rw [hl]
      unfold shape2d
      split
      · rw [prodN_atleast2d]
      · rfl
    · exact hg e he
  generalize (if x.o.reverse = true then transposeData (shape2d x.o shape) elems else elems) = el at h hsub ⊢
  generalize (if x.o.reverse = true then (shape2d x.o shape).reverse else shape2d x.o shape) = sh' at h ⊢
  rcases bind_run (writeObjectArray x wr el >>= fun refs => (pure ⟨.ref, sh', refs.map El.ref⟩ : M Arr)) _ s with ⟨d, s1, e1, e2⟩ | ⟨e, s1, e1, e2⟩
  · rw [e2] at h
    rcases bind_run (writeObjectArray x wr el) (fun refs => (pure ⟨.ref, sh', refs.map El.ref⟩ : M Arr)) s with ⟨l, s2, e3, e4⟩ | ⟨e, s2, e3, e4⟩
    · rw [e4, run_pure] at e1; cases e1
      have st := writeObjectArray_step hwr hp.inv e3
      have hB1 : s1.rpos ≤ B := by
        have := (putAttrs_post (hp.keep st) _ _ _ h).step.fr.rpos
        omega
      have hp1 := hp.keep st
      have hf1 := hf.keep st hp hsl hB1
      have po1 := putAttrs_post hp1 _ _ _ h
      obtain ⟨h1, h2, h3, _, attrs, h4, h5⟩ := putAttrs_fresh hp1 hf1 _ _ _ h
      subst h1
      have t := po.ok _ rfl
      obtain ⟨a1, _⟩ := writeObjectArray_rt hwr hrt hp.inv hsub hR hB1 e3
      exact ⟨_, s1, l, attrs, _, rfl, ⟨st.fr.len, t.lt, t.off⟩, h3, Nat.le_refl _, st, po1.fresh hf1, h5, all2_mono (fun _ _ hq => hq.2) a1⟩
    · rw [e4] at e1; cases e1
  · rw [e2] at h; cases h

theorem writeData_raw {x : Ctx} {n : Nat} (hwr : WrOk x (writeData x n)) (hrt : WrRT x n (writeData x n)) : WrRaw x n (writeData x (n + 1)) := by
  intro s g gname name shape elems s' ob B hp hf hsl hR hB h0 hl hg h
  exact writeNpObj_raw hwr hrt hp hf hsl hR hB .ndarray shape elems _ h0 hl hg h

theorem readDset_allRefs {rd : Rd} {vs : List Val} {l : List Nat} (sh : List Nat) (h : All2 (fun v q => rd q = .ok v) vs l) :
    readDset rd ⟨.ref, sh, l.map El.ref⟩ = .ok (.obj sh vs) := by
  unfold readDset
  rw [if_pos rfl]
  have := mapM_refs h
  dsimp only
  exact (congrArg (fun r : Res (List Val) => r >>= fun e => Except.ok (NData.obj sh e)) this)

/-- The value a field's Dataset is read as: what was written, or the references if they tell of many. -/
def rawOf (o : COpts) (multi : Bool) (v : Val) : Val :=
  if multi then
    match v with
    | .npObj _ sh e => .npObj .ndarray (if o.reverse then (shape2d o sh).reverse else shape2d o sh) (if o.reverse then transposeData (shape2d o sh) e else e)
    | v => v
  else v

/-- What readers see of a field. -/
def FieldSeen (x : Ctx) (n : Nat) (multi : Bool) (v : Val) (ro : COpts) (V : View) (excl : Option Nat) (m q : Nat) : Prop :=
  looksMulti V q = multi ∧ (ReadableWith x.o ro v → n ≤ m → readData ro V excl m q = .ok (rawOf x.o multi v))

theorem item_single {x : Ctx} {n B : Nat} {wr : Wr} (hrt : WrRT x n wr) {v : Val} (hg : Good x.o v) : ItemRT x wr B false (FieldSeen x n false) v := by
  intro s g gname name s1 s2 ob hp hf hoff hR hB h
  obtain ⟨oid, rfl, out⟩ := hrt s g gname name v s1 ob B hp hf (fun hc => absurd hc hoff) hR hB hg h
  refine ⟨oid, rfl, out.new, out.link hoff, ?_⟩
  intro ha
  obtain ⟨v1, o, v2, v3⟩ := setPath_view ha
  have hlen : s2.heap.length = s1.heap.length := by
    obtain ⟨_, _, _, _, rfl⟩ := setAttrsM_ok ha
    simp
  have hvw : ∀ q, viewOf s2.heap q = viewOf s1.heap q := by
    intro q
    by_cases hq : q = oid
    · subst hq
      rw [v3]
      unfold viewOf
      rw [v2]
      rfl
    · exact v1 q hq
  have hpath : ∀ p, NewObj x s s1 p → NewObj x s s2 p := by
    intro p hp'
    refine ⟨hp'.1, (by have := hp'.2.1; omega), fun hn => hp'.2.2 ?_⟩
    obtain ⟨pre, w1, w2⟩ := hn
    refine ⟨pre, w1, ?_⟩
    rw [← w2]
    have hlk : ∀ g, linksOf s2.heap g = linksOf s1.heap g := fun g => setAttrsM_links ha g
    have hres : ∀ (l : List Str) (a : Nat), resolve s1.heap a l = resolve s2.heap a l := by
      intro l
      induction l with
      | nil => intro a; rfl
      | cons c l ih =>
        intro a
        unfold resolve
        have : hlook s1.heap a c = hlook s2.heap a c := by
          unfold hlook
          rw [hlk]
        rw [this]
        cases hlook s2.heap a c with
        | none => rfl
        | some b => exact ih b
    exact hres _ _
  intro ro V excl m hV hE
  refine ⟨?_, fun hro hm => out.reads ro V excl m hro (fun p hp' => by rw [hV p (hpath p hp'), hvw]) (fun q hq hn => hE q hq (hpath q hn)) hm⟩
  obtain ⟨ob', t1, t2⟩ := out.typed
  unfold looksMulti
  rw [hV oid (hpath oid out.new), hvw, t1]
  obtain ⟨at0, bd⟩ := ob'
  cases bd with
  | group l => rfl
  | dset a f =>
    show (a.dt == .ref && fieldMarks.all fun k => (aget at0 k).isNone) = false
    have : (aget at0 p!"Python.Type").isNone = false := by
      cases hh : aget at0 p!"Python.Type" with
      | none => exact absurd hh t2
      | some _ => rfl
    have h2 : (fieldMarks.all fun k => (aget at0 k).isNone) = false := by
      rw [List.all_eq_false]
      exact ⟨p!"Python.Type", by decide, by rw [this]; decide⟩
    rw [h2, Bool.and_false]

theorem item_multi {x : Ctx} {n B : Nat} {wr : Wr} (hwr : WrOk x wr) (hraw : WrRaw x n wr) {shape : List Nat} {elems : List Val} (h0 : prodN shape ≠ 0)
    (hl : elems.length = prodN shape) (hg : ∀ e ∈ elems, Good x.o e) : ItemRT x wr B true (FieldSeen x (n + 1) true) (.npObj .ndarray shape elems) := by
  intro s g gname name s1 s2 ob hp hf hoff hR hB h
  obtain ⟨oid, s0, refs, attrs, f, rfl, r1, r2, r3, r4, r5, r6, r7⟩ := hraw s g gname name shape elems s1 ob B hp hf (fun hc => absurd hc hoff) hR hB h0 hl hg h
  refine ⟨oid, rfl, r1, r2, ?_⟩
  intro ha
  obtain ⟨v1, o, v2, v3⟩ := setPath_view ha
  rw [r6] at v2
  cases v2
  have sta := setAttrsM_step r5.inv oid _ _ ha
  intro ro V excl m hV hE
  have hvo : V oid = some ⟨[], .dset ⟨.ref, if x.o.reverse then (shape2d x.o shape).reverse else shape2d x.o shape, refs.map El.ref⟩ f⟩ := by
    rw [hV oid (r1.later (Nat.le_refl _) sta.fr)]
    exact v3
  refine ⟨?_, ?_⟩
  · unfold looksMulti
    rw [hvo]
    rfl
  · intro hro hm
    obtain ⟨m', rfl⟩ : ∃ m', m = m' + 1 := ⟨m - 1, by omega⟩
    have hmem : ∀ e ∈ (if x.o.reverse = true then transposeData (shape2d x.o shape) elems else elems), e ∈ elems := by
      intro e he
      split at he
      · refine mem_transposeData _ _ ?_ e he
        rw [hl]
        unfold shape2d
        split
        · rw [prodN_atleast2d]
        · rfl
      · exact he
    have st2 : Step x (oneA g name) noD s0 s2 := r5.trans sta (fun _ _ h => h.elim) (fun p hp' hd => by
      rw [show p = oid from hd] at hp'
      omega)
    have hall := (all2_mono (S := fun v q => readData ro V excl m' q = .ok v) (fun v q hq =>
      (hq.2.stepAt (Nat.le_refl _) st2 (fun p k hk => hk.1) hp.glt) ro V excl m' (readable_elem hro (hmem v hq.1)) hV hE (by omega)) (all2_mem r7))
    unfold readData
    rw [hvo]
    have hd : readDset (readData ro V excl m') ⟨.ref, if x.o.reverse then (shape2d x.o shape).reverse else shape2d x.o shape, refs.map El.ref⟩ =
        .ok (.obj (if x.o.reverse then (shape2d x.o shape).reverse else shape2d x.o shape)
          (if x.o.reverse then transposeData (shape2d x.o shape) elems else elems)) := by
      exact readDset_allRefs _ hall
    show (readDset (readData ro V excl m') _ >>= fun d => Except.ok (d.toVal .ndarray)) = _
    rw [hd]
    rfl

end HS
