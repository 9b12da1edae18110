import Verif.Lemmas.LayoutWrite
import Verif.Lemmas.RtAll
/-
The layout of a value in the file: dicts, records and structured arrays in Groups.
-/
namespace HS
open Spec

/-- A new Group. -/
theorem getGroup_made {x : Ctx} {g g2 : Nat} {name : Str} {s s1 : St} (hp : Pre x s g name) (hf : Fresh s g name) (h : getGroup g name s = (.ok g2, s1)) :
    g2 = s.heap.length ∧ name ≠ [] ∧ s1.heap[g2]? = some ⟨[], .group []⟩ := by
  refine ⟨?_, ?_, (getGroup_new hp.nd hf h).1⟩ <;>
  · unfold getGroup at h
    rcases getLink_run g name s with hh | ⟨e, hh⟩
    · rw [run_bind_ok hh, hlook_plain _ _ _ hp.nd] at h
      cases hl : aget (linksOf s.heap g) name with
      | none =>
        rw [hl] at h
        rcases createObj_run g name ⟨[], .group []⟩ s with ⟨e, he⟩ | ⟨he, _, h3, _⟩
        · have h : createObj g name ⟨[], .group []⟩ s = _ := h
          rw [he] at h; cases h
        · have h : createObj g name ⟨[], .group []⟩ s = _ := h
          rw [he] at h
          cases h
          first | rfl | exact h3
      | some q => exact absurd hl (hf q)
    · rw [run_bind_err hh] at h; cases h

/-- The new Group after what is not in the list is deleted. -/
theorem deleteOthers_empty {c : Prop} [Decidable c] {g2 : Nat} {names : List Str} {s s' : St} {at' : List (Str × AVal)} (ha : s.heap[g2]? = some ⟨at', .group []⟩)
    (h : (if c then deleteOthers g2 names else pure () : M Unit) s = (.ok (), s')) : s'.heap[g2]? = some ⟨at', .group []⟩ := by
  by_cases hc : c
  · rw [if_pos hc] at h
    unfold deleteOthers at h
    cases h
    dsimp only
    rw [getElem?_update, if_pos rfl, ha]
    rfl
  · rw [if_neg hc] at h
    cases h
    exact ha

theorem grp_delete {x : Ctx} {L : Nat → Prop} {B : Nat} {g : Nat} {name : Str} {s s1 s2 : St} {g2 : Nat} {c : Prop} [Decidable c] {names : List Str} (hp : Pl x B s g name) (G : Grp x L g name s s1 g2)
    (h : (if c then deleteOthers g2 names else pure () : M Unit) s1 = (.ok (), s2)) : Grp x L g name s s2 g2 := by
  by_cases hc : c
  · rw [if_pos hc] at h
    cases h
    exact G.then hp (oneD_below (deleteOthers_step G.po.step.inv g2 G.sep names)) (deleteOthers_ri G.ou.ri g2 (G.ou.ne g2 rfl) G.sep _)
  · rw [if_neg hc] at h
    cases h
    exact G

theorem noLoop_empty {s : St} {q : Nat} {at' : List (Str × AVal)} (h : s.heap[q]? = some ⟨at', .group []⟩) : NoLoop s q := by
  intro k p hl
  unfold LinkAt linksOf at hl
  rw [h] at hl
  cases hl

theorem writeDict_laid {x : Ctx} (hk : x.o.keysName ≠ [dot]) (hv : x.o.valuesName ≠ [dot]) {B : Nat} {wr : Wr} (hw : WrAll x wr) {s s' : St} {q : Nat} {g : Nat} {name : Str} {ns : List Str}
    (hR : RI x noL s) (hp : Pl x B s g name) (hf : Fresh s g name) (hB : RandOk x s.rpos B) (hle : s'.rpos ≤ B) (hns : ∀ n ∈ ns, n ≠ []) (keys vals : List Val) (struct : Bool) (ts : Str)
    {v : Val} (hnd : ((dictItems x.o keys vals).map (·.1)).Nodup) (hrg : ∀ i ∈ dictItems x.o keys vals, Regular x.o i.2)
    (hdoc : ∀ (l : List (Str × Nat)) (at' : List (Str × AVal)), setAttributesAll [] (dictAttrs x.o (keyInfos keys) struct ts) true = (.ok (), at') →
      ∀ k a, aget at' k = some a ↔ DocAttr x.o (.group l) v k a)
    (hGF : GroupFor x.o v) (hFO : FieldsOf x.o v ((dictItems x.o keys vals).map (·.1)) ((dictItems x.o keys vals).map fun i => .value i.2)) (hpf : ∀ P, PartFor v P → P = .value v)
    (h : writeDict x wr g (absName ns) name keys vals struct ts s = (.ok (some q), s')) : LOut x s s' (ns ++ [name]) q v := by
  have po := writeDict_post hk hv hw.ok hp.pre keys vals struct ts h
  obtain ⟨g2, s1, s2, s3, e0, e1, e2, e3, e4⟩ := writeDict_run keys vals struct ts h
  cases e0
  have t := po.ok q rfl
  obtain ⟨hq, hne, hob1⟩ := getGroup_made hp.pre hf e1
  have G1 := getGroup_grp hR hp e1
  have G2 := G1.then hp (oneD_below (setAttrsM_step G1.po.step.inv q _ true e2)) (setAttrs_ri G1.ou.ri (G1.ou.notA q rfl) (G1.ou.ne q rfl) e2)
  have G3 := grp_delete hp G2 e3
  obtain ⟨o, at', h1, h2, h3⟩ := setAttrsM_ok e2
  rw [hob1] at h1
  cases h1
  have hlt1 : q < s1.heap.length := (G1.po.ok q rfl).lt
  have hob2 : s2.heap[q]? = some ⟨at', .group []⟩ := by
    rw [h3]
    dsimp only
    rw [List.getElem?_set_self hlt1]
  have hob3 := deleteOthers_empty hob2 e3
  have hdot := dictItems_ne_dot hk hv keys vals
  obtain ⟨l, hl⟩ := writeItems_attrs hw.ok hw.at' G3.po.step.inv (G3.po.ok q rfl).lt G3.sep (noLoop_empty hob3) hdot ⟨[], hob3⟩ e4
  rw [joinName_abs hns hp.pre.nd, writeItems_loop, ← groupName_eq (ns ++ [name])] at e4
  have hns' : ∀ n ∈ ns ++ [name], n ≠ [] := by
    intro n hn
    rcases List.mem_append.mp hn with hn | hn
    · exact hns n hn
    · rw [List.mem_singleton.mp hn]; exact hne
  rw [groupName_eq] at e4
  have e4' : itemLoop wr (fun p => setH5Path x p (asciiEnc (groupName (ns ++ [name])))) q (absName (ns ++ [name])) (dictItems x.o keys vals) s3 = (.ok (), s') := by
    rw [groupName_eq]; exact e4
  exact group_laid (setH5Path_fin (path := groupName (ns ++ [name]))) hw ⟨Nat.le_of_eq hq.symm, t.lt, t.off⟩ G3.ou.ri G3.po.step.fr.len (G3.po.ok q rfl).lt G3.sep hob3 hdot hnd hrg
    (fun hc => by cases hc) hns' (hB.mono G3.po.step.fr.rpos) hle e4' (Fr.rfl' (A := noA) (D := noD) po.step.inv.wf) .refl (fun _ _ => rfl) rfl hl (hdoc l at' h2) hGF hFO hpf

theorem writeGroup_laid {x : Ctx} {B : Nat} {wr : Wr} (hw : WrAll x wr) {s s' : St} {q : Nat} {g : Nat} {name : Str} {ns : List Str}
    (hR : RI x noL s) (hp : Pl x B s g name) (hf : Fresh s g name) (hB : RandOk x s.rpos B) (hle : s'.rpos ≤ B) (hns : ∀ n ∈ ns, n ≠ []) {esc : List Str} {col : Bool}
    {items : List (Str × Val)} {new : List (Str × AIn)} {v : Val} (hdot : ∀ i ∈ items, i.1 ≠ [dot]) (hnd : (items.map (·.1)).Nodup) (hrg : ∀ i ∈ items, Regular x.o i.2)
    (hcol : col = true → ∀ i ∈ items, ∃ sh e, i.2 = .npObj .ndarray sh e)
    (hdoc : ∀ (l : List (Str × Nat)) (at' : List (Str × AVal)), setAttributesAll [] new true = (.ok (), at') → ∀ k a, aget at' k = some a ↔ DocAttr x.o (.group l) v k a)
    (hGF : GroupFor x.o v) (hFO : FieldsOf x.o v (items.map (·.1)) (items.map fun i => partFor col i.2)) (hpf : ∀ P, PartFor v P → P = .value v)
    (h : writeGroup x wr g (absName ns) name esc col items new s = (.ok (some q), s')) : LOut x s s' (ns ++ [name]) q v := by
  have po := writeGroup_post hw.ok hp.pre hdot h
  obtain ⟨g2, s1, s3, s4, e0, e1, e3, e6, e8⟩ := writeGroup_run h
  cases e0
  have t := po.ok q rfl
  obtain ⟨hq, hne, hob1⟩ := getGroup_made hp.pre hf e1
  have G1 := getGroup_grp hR hp e1
  have G3 := grp_delete hp G1 e3
  have hob3 := deleteOthers_empty hob1 e3
  have st4 := writeFields_step hw.ok G3.po.step.inv (G3.po.ok q rfl).lt G3.sep hdot e6
  have sta := setAttrsM_step st4.inv q new true e8
  have hle4 := Nat.le_trans sta.fr.rpos hle
  have G4 := G3.then hp st4 (writeFields_ri hw.ok hw.ref G3.ou.ri (G3.po.ok q rfl).lt G3.sep hdot (fun i hi => regular_noRef (hrg i hi)) (hB.mono G3.po.step.fr.rpos) hle4 e6)
  obtain ⟨_, hk4⟩ := setAttrs_ri G4.ou.ri (G4.ou.notA q rfl) (G4.ou.ne q rfl) e8
  have ha4 := writeFields_attrs hw.ok hw.at' G3.po.step.inv (G3.po.ok q rfl).lt G3.sep (noLoop_empty hob3) hdot ⟨[], hob3⟩ e6
  obtain ⟨at', h2, l, hl⟩ := setAttrs_hasAttrs ha4 e8
  have hns' : ∀ n ∈ ns ++ [name], n ≠ [] := by
    intro n hn
    rcases List.mem_append.mp hn with hn | hn
    · exact hns n hn
    · rw [List.mem_singleton.mp hn]; exact hne
  have e6' : itemLoop wr (fun p => setAttrsM p (pathAttr x.o (groupName (ns ++ [name]))) col) q (absName (ns ++ [name])) items s3 = (.ok (), s4) := by
    rw [joinName_abs hns hp.pre.nd, writeFields_loop] at e6
    rw [groupName_eq]
    exact e6
  refine group_laid (setPath_fin (path := groupName (ns ++ [name])) col) hw ⟨Nat.le_of_eq hq.symm, t.lt, t.off⟩ G3.ou.ri G3.po.step.fr.len (G3.po.ok q rfl).lt G3.sep hob3 hdot hnd hrg
    hcol hns' (hB.mono G3.po.step.fr.rpos) hle4 e6' sta.fr hk4 ?_ (setAttrsM_links e8 q) hl (hdoc l at' h2) hGF hFO hpf
  intro p hne'
  obtain ⟨o, at'', h1, _, h3⟩ := setAttrsM_ok e8
  rw [h3]
  dsimp only
  rw [List.getElem?_set_ne (Ne.symm hne')]

end HS
