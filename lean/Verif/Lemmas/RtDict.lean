import Verif.Lemmas.RtObj
/-
Round trip of dicts.
-/
namespace HS
open Spec

theorem writeItems_rpos {x : Ctx} {wr : Wr} (hwr : WrOk x wr) {s s' : St} {g : Nat} {gname : Str} {items : List (Str × Val)} {res : Res Unit}
    (hp : ∀ i ∈ items, Pre x s g i.1) (h : writeItems x wr g gname items s = (res, s')) : s.rpos ≤ s'.rpos := by
  induction items generalizing s res with
  | nil => cases h; exact Nat.le_refl _
  | cons i items ih =>
    obtain ⟨k, v⟩ := i
    rw [writeItems] at h
    rcases bind_run (wr g gname k v) _ s with ⟨ob, s1, e1, e2⟩ | ⟨e, s1, e1, e2⟩
    · rw [e2] at h
      have po := hwr s g gname k v s1 _ (hp (k, v) (by simp)) e1
      cases ob with
      | none =>
        dsimp only at h
        exact Nat.le_trans po.step.fr.rpos (ih (fun i hi => (hp i (by simp [hi])).keep po.step) h)
      | some p =>
        dsimp only at h
        rcases bind_run (setH5Path x p (asciiEnc gname)) _ s1 with ⟨u, s2, e3, e4⟩ | ⟨e, s2, e3, e4⟩
        · rw [e4] at h
          have sth := setH5Path_step po.step.inv p _ e3
          exact Nat.le_trans (Nat.le_trans po.step.fr.rpos sth.fr.rpos) (ih (fun i hi => ((hp i (by simp [hi])).keep po.step).keep sth) h)
        · rw [e4] at h; cases h
          exact Nat.le_trans po.step.fr.rpos (setH5Path_step po.step.inv p _ e3).fr.rpos
    · rw [e2] at h; cases h
      exact (hwr s g gname k v _ _ (hp (k, v) (by simp)) e1).step.fr.rpos

/-- A link of a Group off the machinery that is not written to stays. -/
theorem Fr.link_keep {x : Ctx} {A D} {s s' : St} (f : Fr x A D s s') {g : Nat} {k : Str} (hp : Pre x s g k) (hoff : resolve s.heap 0 (refsComps x.o) ≠ some g)
    (hD : ¬ D g) (hA : ¬ A g k) : aget (linksOf s'.heap g) k = aget (linksOf s.heap g) k := by
  refine f.links g hp.glt hD k hA ?_
  rintro (⟨_, pre, c1, c2⟩ | c)
  · exact hp.off pre c1 c2
  · exact hoff c.1

/-- The links a list of items is written to. -/
abbrev itemsA (g : Nat) (items : List (Str × Val)) : Nat → Str → Prop := fun p k => p = g ∧ k ∈ items.map (·.1)

/-- Writing items to unused names of a Group. -/
theorem writeItems_rt {x : Ctx} {n B : Nat} {wr : Wr} (hwr : WrOk x wr) (hrt : WrRT x n wr) {s s' : St} {g : Nat} {gname : Str} {items : List (Str × Val)}
    (hi : Inv x s) (hoff : resolve s.heap 0 (refsComps x.o) ≠ some g) (hp : ∀ i ∈ items, Pre x s g i.1) (hf : ∀ i ∈ items, Fresh s g i.1)
    (hnd : (items.map (·.1)).Nodup) (hgd : ∀ i ∈ items, Good x.o i.2) (hR : RandOk x s.rpos B) (hB : s'.rpos ≤ B)
    (h : writeItems x wr g gname items s = (.ok (), s')) :
    Step x (itemsA g items) noD s s' ∧
      ∃ oids, All2 (fun i q => NewObj x s s' q ∧ LinkAt s'.heap g i.1 q ∧ Reads x n s s' q i.2 ∧ TypedAt s' q) items oids := by
  induction items generalizing s with
  | nil => cases h; exact ⟨Step.refl hi, [], .nil⟩
  | cons i items ih =>
    obtain ⟨k, v⟩ := i
    have hr0 := writeItems_rpos hwr hp h
    rw [writeItems] at h
    have hpk := hp (k, v) (by simp)
    have hfk := hf (k, v) (by simp)
    rcases bind_run (wr g gname k v) _ s with ⟨ob, s1, e1, e2⟩ | ⟨e, s1, e1, e2⟩
    · rw [e2] at h
      have po := hwr s g gname k v s1 _ hpk e1
      have st1 := po.fresh hfk
      have hg : g < s.heap.length := hpk.glt
      have hB1 : s1.rpos ≤ B := by
        cases ob with
        | none =>
          dsimp only at h
          exact Nat.le_trans (writeItems_rpos hwr (fun i hi => (hp i (by simp [hi])).keep st1) h) hB
        | some p =>
          dsimp only at h
          rcases bind_run (setH5Path x p (asciiEnc gname)) _ s1 with ⟨u, s2, e3, e4⟩ | ⟨e, s2, e3, e4⟩
          · rw [e4] at h
            have sth := setH5Path_step po.step.inv p _ e3
            exact Nat.le_trans sth.fr.rpos (Nat.le_trans (writeItems_rpos hwr (fun i hi => ((hp i (by simp [hi])).keep st1).keep sth) h) hB)
          · rw [e4] at h; cases h
      obtain ⟨oid, rfl, out⟩ := hrt s g gname k v s1 ob B hpk hfk (fun hr => absurd hr hoff) hR hB1 (hgd (k, v) (by simp)) e1
      dsimp only at h
      rcases bind_run (setH5Path x oid (asciiEnc gname)) _ s1 with ⟨u, s2, e3, e4⟩ | ⟨e, s2, e3, e4⟩
      · rw [e4] at h
        have sth := setH5Path_step st1.inv oid _ e3
        have hvw := setH5Path_view oid _ e3
        have st2 : Step x (oneA g k) noD s s2 := st1.trans sth (fun _ _ h => h.elim) (fun p hp' hd => by
          have := out.new.1
          rw [show p = oid from hd] at hp'
          omega)
        have hoff2 : resolve s2.heap 0 (refsComps x.o) ≠ some g := fun hc => hoff (st2.fr.resolve_old _ (plainComps x) g hc hg)
        have hkn : k ∉ items.map (·.1) := (List.nodup_cons.mp hnd).1
        have hp2 : ∀ i ∈ items, Pre x s2 g i.1 := fun i hi => (hp i (by simp [hi])).keep st2
        have hne : ∀ i ∈ items, i.1 ≠ k := by
          intro i hi hh
          exact hkn (List.mem_map.mpr ⟨i, hi, hh⟩)
        have hf2 : ∀ i ∈ items, Fresh s2 g i.1 := by
          intro i hi q hq
          unfold LinkAt at hq
          rw [st2.fr.link_keep (hp i (by simp [hi])) hoff (fun h => h) (fun hA => hne i hi hA.2)] at hq
          exact hf i (by simp [hi]) q hq
        obtain ⟨str, oids, ha⟩ := ih st2.inv hoff2 hp2 hf2 (List.nodup_cons.mp hnd).2 (fun i hi => hgd i (by simp [hi])) (hR.mono st2.fr.rpos) h
        refine ⟨?_, oid :: oids, .cons ⟨?_, ?_, ?_, ?_⟩ ?_⟩
        · refine (st2.mono (A' := itemsA g ((k, v) :: items)) (D' := noD) ?_ (fun _ h => h)).trans str ?_ (fun _ _ h => h)
          · rintro p c ⟨h1, h2⟩; exact ⟨h1, by simp [h2]⟩
          · rintro p c ⟨h1, h2⟩; exact ⟨h1, by rw [List.map_cons]; exact List.mem_cons_of_mem _ h2⟩
        · exact (out.new.later (Nat.le_refl _) sth.fr).later (Nat.le_refl _) str.fr
        · have h1 := out.link hoff
          unfold LinkAt at h1 ⊢
          dsimp only
          rw [str.fr.link_keep (hpk.keep st2) hoff2 (fun h => h) (fun hA => hkn hA.2)]
          rw [sth.fr.links g (Nat.lt_of_lt_of_le hg st1.fr.len) ?_ k (fun h => h) ?_]
          · exact h1
          · intro hd
            have := out.new.1
            rw [show g = oid from hd] at hg
            omega
          · rintro (⟨_, pre, c1, c2⟩ | c)
            · exact (hpk.keep st1).off pre c1 c2
            · exact hoff (st1.fr.resolve_old _ (plainComps x) g c.1 hg)
        · exact (out.reads.later (Nat.le_refl _) sth.fr (fun p _ => by rw [hvw])).stepAt (Nat.le_refl _) str (fun p c hA => hA.1) hg
        · have ht : TypedAt s2 oid := TypedAt.of_view out.typed (by rw [hvw])
          have hn2 := out.new.later (Nat.le_refl _) sth.fr
          refine ht.of_view (str.fr.view hn2.2.1 (fun h => h) (fun k hk => ?_) hn2.2.2)
          have := hk.1
          have := hn2.1
          omega
        · refine all2_mono ?_ ha
          rintro i q ⟨h1, h2, h3, h4⟩
          exact ⟨⟨Nat.le_trans st2.fr.len h1.1, h1.2⟩, h2, h3.later st2.fr.len (Fr.rfl' (A := noA) (D := noD) str.inv.wf) (fun _ _ => rfl), h4⟩
      · rw [e4] at h; cases h
    · rw [e2] at h; cases h

/-- Writing a dict to an unused place. -/
theorem writeDict_fresh {x : Ctx} (hk : x.o.keysName ≠ [dot]) (hv : x.o.valuesName ≠ [dot]) {n B : Nat} {wr : Wr} (hwr : WrOk x wr) (hrt : WrRT x n wr) {s s' : St}
    {ob : Option Nat} {g : Nat} {gname name : Str} (hp : Pre x s g name) (hf : Fresh s g name) (hR : RandOk x s.rpos B) (hB : s'.rpos ≤ B)
    (keys vals : List Val) (struct : Bool) (ts : Str) (hnd : ((dictItems x.o keys vals).map (·.1)).Nodup) (hgd : ∀ i ∈ dictItems x.o keys vals, Good x.o i.2)
    (h : writeDict x wr g gname name keys vals struct ts s = (.ok ob, s')) :
    ∃ oid links attrs oids, ob = some oid ∧ NewObj x s s' oid ∧ (resolve s.heap 0 (refsComps x.o) ≠ some g → LinkAt s'.heap g name oid) ∧
      s'.heap[oid]? = some ⟨attrs, .group links⟩ ∧ setAttributesAll [] (dictAttrs x.o (keyInfos keys) struct ts) true = (.ok (), attrs) ∧
      (∀ k q, aget links k = some q → k ∈ (dictItems x.o keys vals).map (·.1)) ∧
      All2 (fun i q => NewObj x s s' q ∧ aget links i.1 = some q ∧ Reads x n s s' q i.2 ∧ TypedAt s' q) (dictItems x.o keys vals) oids := by
  have po := writeDict_post hk hv hwr hp keys vals struct ts h
  unfold writeDict at h
  dsimp only at h
  change (getGroup g name >>= fun g2 => _) s = _ at h
  rcases bind_run (getGroup g name) _ s with ⟨g2, s1, e1, e2⟩ | ⟨e, s1, e1, e2⟩
  · rw [e2] at h
    -- the new Group
    have hcr : createObj g name ⟨[], .group []⟩ s = (.ok g2, s1) := by
      unfold getGroup at e1
      rcases getLink_run g name s with hh | ⟨e, hh⟩
      · rw [run_bind_ok hh, hlook_plain _ _ _ hp.nd] at e1
        cases hl : aget (linksOf s.heap g) name with
        | none => rw [hl] at e1; exact e1
        | some q => exact absurd hl (hf q)
      · rw [run_bind_err hh] at e1; cases e1
    obtain ⟨st1, hcr2⟩ := create_at hp _ rfl hcr
    obtain ⟨t, hsep, c1, c2, _, c4, _, _⟩ := hcr2 g2 rfl
    rcases bind_run (setAttrsM g2 (dictAttrs x.o (keyInfos keys) struct ts) true) _ s1 with ⟨u, s2, e3, e4⟩ | ⟨e, s2, e3, e4⟩
    · rw [e4] at h
      have sa := setAttrsM_step st1.inv g2 _ true e3
      have hs2 := hsep.keep sa.fr st1.inv t.lt
      obtain ⟨attrs, hat, hob2⟩ : ∃ attrs, setAttributesAll [] (dictAttrs x.o (keyInfos keys) struct ts) true = (.ok (), attrs) ∧
          s2.heap[g2]? = some ⟨attrs, .group []⟩ := by
        unfold setAttrsM at e3
        rw [c2] at e3
        dsimp only at e3
        cases hs : setAttributesAll [] (dictAttrs x.o (keyInfos keys) struct ts) true with
        | mk r attrs =>
          rw [hs] at e3
          cases e3
          exact ⟨attrs, rfl, by dsimp only; rw [List.getElem?_set_self t.lt]⟩
      have hg2 : g2 < s2.heap.length := Nat.lt_of_lt_of_le t.lt sa.fr.len
      change ((if (keyInfos keys).isNone || x.o.deleteUnused then deleteOthers g2 ((dictItems x.o keys vals).map (·.1)) else pure () : M Unit) >>= fun _ =>
        ((if x.o.matlab then liftRes (asciiEnc (joinName gname name)) else pure [] : M Bytes) >>= fun _ =>
          (writeItems x wr g2 (joinName gname name) (dictItems x.o keys vals) >>= fun _ => (pure (some g2) : M (Option Nat))))) s2 = _ at h
      obtain ⟨s3, e5, st3, hob3, hs3⟩ : ∃ s3, (if (keyInfos keys).isNone || x.o.deleteUnused then deleteOthers g2 ((dictItems x.o keys vals).map (·.1)) else pure () : M Unit) s2 = (.ok (), s3) ∧
          Step x noA (oneD g2) s2 s3 ∧ s3.heap[g2]? = some ⟨attrs, .group []⟩ ∧ Sep x s3 g2 := by
        split
        · have sd := deleteOthers_step sa.inv g2 hs2 ((dictItems x.o keys vals).map (·.1))
          refine ⟨_, rfl, sd, ?_, hs2.keep sd.fr sa.inv hg2⟩
          dsimp only
          rw [getElem?_update, if_pos rfl, hob2]
          rfl
        · exact ⟨s2, rfl, Step.refl sa.inv, hob2, hs2⟩
      rw [run_bind_ok e5] at h
      rcases bind_run (if x.o.matlab then liftRes (asciiEnc (joinName gname name)) else pure [] : M Bytes) (fun _ =>
          (writeItems x wr g2 (joinName gname name) (dictItems x.o keys vals) >>= fun _ => (pure (some g2) : M (Option Nat)))) s3 with ⟨b, s4, e6, e7⟩ | ⟨e, s4, e6, e7⟩
      · rw [e7] at h
        have h34 : s4 = s3 := by
          split at e6
          · cases ha : asciiEnc (joinName gname name) <;> rw [ha] at e6 <;> cases e6; rfl
          · cases e6; rfl
        subst h34
        have hdot := dictItems_ne_dot hk hv keys vals
        have st13 : Step x noA (oneD g2) s1 s4 := sa.trans st3 (fun _ _ h => h) (fun _ _ h => h)
        have hg4 : g2 < s4.heap.length := Nat.lt_of_lt_of_le t.lt st13.fr.len
        have hlinks4 : linksOf s4.heap g2 = [] := by rw [linksOf_obj, hob3]; rfl
        rcases bind_run (writeItems x wr g2 (joinName gname name) (dictItems x.o keys vals)) (fun _ => (pure (some g2) : M (Option Nat))) s4 with ⟨u, s5, e8, e9⟩ | ⟨e, s5, e8, e9⟩
        · rw [e9, run_pure] at h; cases h
          have hoff4 : resolve s4.heap 0 (refsComps x.o) ≠ some g2 := fun hc => hs3 g2 .refl ⟨_, List.prefix_refl _, hc⟩
          have h04 : s.rpos ≤ s4.rpos := Nat.le_trans st1.fr.rpos st13.fr.rpos
          have hl04 : s.heap.length ≤ s4.heap.length := Nat.le_trans st1.fr.len st13.fr.len
          obtain ⟨sti, oids, ha⟩ := writeItems_rt hwr hrt st13.inv hoff4 (fun i hi => hs3.pre st13.inv hg4 (hdot i hi))
            (fun i _ q hq => by unfold LinkAt at hq; rw [hlinks4] at hq; cases hq) hnd hgd (hR.mono h04) hB e8
          -- the Group at the end
          obtain ⟨o', ho1, ho2, ho3⟩ := sti.fr.obj g2 _ hob3 (fun h => h)
          obtain ⟨oa, obd⟩ := o'
          cases obd with
          | dset a f => exact ho3.elim
          | group links =>
            dsimp only at ho2
            subst ho2
            have hlk : linksOf s'.heap g2 = links := by rw [linksOf_obj, ho1]; rfl
            have tt := po.ok g2 rfl
            have hgg : g < s1.heap.length := Nat.lt_of_lt_of_le hp.glt st1.fr.len
            have hne : g ≠ g2 := by have := hp.glt; omega
            refine ⟨g2, links, oa, oids, rfl, ⟨by omega, tt.lt, tt.off⟩, ?_, ho1, hat, ?_, ?_⟩
            · intro hoff
              have hoff1 : resolve s1.heap 0 (refsComps x.o) ≠ some g := fun hc => hoff (st1.fr.resolve_old _ (plainComps x) g hc hp.glt)
              have hoffs : resolve s4.heap 0 (refsComps x.o) ≠ some g := fun hc => hoff1 (st13.fr.resolve_old _ (plainComps x) g hc hgg)
              unfold LinkAt at c4 ⊢
              rw [sti.fr.link_keep ((hp.keep st1).keep st13) hoffs (fun h => h) (fun hA => hne hA.1),
                st13.fr.link_keep (hp.keep st1) hoff1 (fun hd => hne hd) (fun h => h)]
              exact c4
            · intro k q hq
              apply Classical.byContradiction
              intro hn
              have := sti.fr.links g2 hg4 (fun h => h) k (fun hA => hn hA.2) (fun hc => hs3 g2 .refl hc.onPath)
              rw [hlk, hlinks4, hq] at this
              cases this
            · refine all2_mono ?_ ha
              rintro i q ⟨h1, h2, h3, h5⟩
              refine ⟨⟨Nat.le_trans hl04 h1.1, h1.2⟩, ?_, h3.later hl04 (Fr.rfl' (A := noA) (D := noD) sti.inv.wf) (fun _ _ => rfl), h5⟩
              unfold LinkAt at h2
              rw [hlk] at h2
              exact h2
        · rw [e9] at h; cases h
      · rw [e7] at h; cases h
    · rw [e4] at h; cases h
  · rw [e2] at h; cases h

end HS
