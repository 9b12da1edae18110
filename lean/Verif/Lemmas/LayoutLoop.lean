import Verif.Lemmas.Layout
/-
The layout of a value in the file: elements of object arrays, and fields.
-/
namespace HS
open Spec

theorem keyText_noRef {k : Val} {t : Str} (h : KeyText k t) : ¬ HasRefArray k := by
  cases h <;> intro hh <;> cases hh
  all_goals (rename_i h2; cases h2)

theorem regular_noRef {o : COpts} {v : Val} (h : Regular o v) : ¬ HasRefArray v := by
  induction h with
  | @plain v c dt sh t ha hd =>
    intro hh
    cases ha <;> cases hh
    rename_i h; rw [h] at hd; cases hd
  | discarded c a h =>
    intro hh
    cases hh with
    | np _ _ hr =>
      obtain ⟨_, _, ⟨c', a', e, h⟩ | ⟨_, _, _, _, _, _, e⟩⟩ := h
      · cases e
        rcases h with h | ⟨_, _, _, h⟩ | ⟨_, _, _, _, h⟩ <;> (rw [hr] at h; cases h)
      · cases e
  | npObj _ _ _ _ _ _ ih => intro hh; cases hh with | npObj _ _ _ e he h => exact ih e he h
  | seq _ _ _ ih => intro hh; cases hh with | seq _ _ e he h => exact ih e he h
  | @fields v texts vals hf _ _ ih =>
    intro hh
    cases hf with
    | dict k keys vals texts hk hl =>
      cases hh with
      | key _ _ _ e he h =>
        have key : ∀ {l : List Val} {t : List Str}, All2 KeyText l t → ∀ e ∈ l, ¬ HasRefArray e := by
          intro l t hl
          induction hl with
          | nil => intro e he; cases he
          | cons h1 _ ih =>
            intro e he
            rcases List.mem_cons.mp he with rfl | he
            · exact keyText_noRef h1
            · exact ih e he
        exact key hk e he h
      | val _ _ _ e he h => exact ih e he h
    | record k vals hl => cases hh with | record _ _ e he h => exact ih e he h
  | dict _ _ _ _ _ _ _ ihk ihv =>
    intro hh
    cases hh with
    | key _ _ _ e he h => exact ihk e he h
    | val _ _ _ e he h => exact ihv e he h
  | npStruct _ _ _ _ _ _ _ _ _ ih => intro hh; cases hh with | npStruct _ _ _ _ _ e he h => exact ih e he h

/-- Nothing is of interest. -/
abbrev noL : Nat → Prop := fun _ => False

/-- A recursive writer lays out what it writes. -/
def WrLaid (x : Ctx) (wr : Wr) : Prop := ∀ s g ns name v s' q B, RI x noL s → Pl x B s g name → Fresh s g name → RandOk x s.rpos B → s'.rpos ≤ B → Regular x.o v →
  (∀ n ∈ ns, n ≠ []) → wr g (absName ns) name v s = (.ok (some q), s') → LOut x s s' (ns ++ [name]) q v

/-- What is known of a recursive writer. -/
structure WrAll (x : Ctx) (wr : Wr) : Prop where
  ok : WrOk x wr
  ref : WrRef x noL wr
  at' : WrAt x wr
  none : ∀ {g : Nat} {gname name : Str} {v : Val} {s s' : St} {ob : Option Nat}, wr g gname name v s = (.ok ob, s') → (ob = none ↔ Discarded x.o v)
  laid : WrLaid x wr

theorem step_new {x : Ctx} {s1 s2 s3 : St} (st : Step x noA noD s2 s3) : ∀ p : Nat, NewObj x s1 s2 p → s3.heap[p]? = s2.heap[p]? :=
  fun p hp => st.fr.same p hp.2.1 (fun h => h) (fun _ h => h) hp.2.2

/-- An element of an object array, and the reference to it. -/
structure ElemLaid (x : Ctx) (s s' : St) (r : Nat) (w : Val) (p : Nat × Str) : Prop where
  left : Discarded x.o w → LinkAt s'.heap r p!"a" p.1
  link : ¬ Discarded x.o w → LinkAt s'.heap r p.2 p.1
  done : ¬ Discarded x.o w → LDone x s s' (refsComps x.o ++ [p.2]) (some (groupName (refsComps x.o))) p.1 (.value w)

theorem writeElems_laid {x : Ctx} {B : Nat} {wr : Wr} (hw : WrAll x wr) (hne : refsComps x.o ≠ []) {s s' : St} {r c : Nat} {vs : List Val} {l : List Nat} (hR : RI x noL s)
    (hr : s.refs = some r) (hc : LinkAt s.heap r p!"a" c) (hv : ∀ v ∈ vs, Regular x.o v) (hB : RandOk x s.rpos B) (hle : s'.rpos ≤ B)
    (h : writeElems x wr r c vs s = (.ok l, s')) :
    ∃ ps : List (Nat × Str), l = ps.map (·.1) ∧ All2 (ElemLaid x s s' r) vs ps := by
  induction vs generalizing s l with
  | nil => cases h; exact ⟨[], rfl, .nil⟩
  | cons v vs ih =>
    have hi := hR.inv
    have hvs : ∀ v ∈ vs, Regular x.o v := fun v hh => hv v (by simp [hh])
    have hnr : ∀ v ∈ vs, ¬ HasRefArray v := fun v hh => regular_noRef (hvs v hh)
    rw [writeElems] at h
    rcases bind_run (nextName x) _ s with ⟨nm, s1, e1, e2⟩ | ⟨e, s1, e1, e2⟩
    · rw [e2] at h
      have stn := (nextName_spec hi hr e1).1
      obtain ⟨hR1, hk1⟩ := nextName_ri hR hr e1
      have hslot := elem_slot hi hr e1 hB
      rcases bind_run (wr r (refsName x.o) nm v) _ s1 with ⟨ob, s2, e3, e4⟩ | ⟨e, s2, e3, e4⟩
      · rw [e4] at h
        obtain ⟨st, hpre, hfr, hob⟩ := elem_step hw.ok hi hr e1 e3
        have hr2 := st.keepRefs hr
        have hres := (hi.refs r hr).1
        have hres1 := (hR1.inv.refs r (stn.keepRefs hr)).1
        have hres2 := (st.inv.refs r hr2).1
        have hpl : Pl x B s1 r nm := ⟨hpre, fun _ => hfr, hslot⟩
        have ou : s2.rpos ≤ B → ROut x noL r nm s1 s2 (fun p => (Except.ok ob : Res (Option Nat)) = .ok (some p)) := fun hb =>
          hw.ref s1 r _ nm v s2 _ B hR1 hpl (hB.mono stn.fr.rpos) hb (regular_noRef (hv v (by simp))) e3
        have hdis := hw.none e3
        cases ob with
        | none =>
          dsimp only at h
          rcases bind_run (writeElems x wr r c vs) (fun rest => (pure (c :: rest) : M (List Nat))) s2 with ⟨l', s3, e5, e6⟩ | ⟨e, s3, e5, e6⟩
          · rw [e6, run_pure] at h; cases h
            have str := writeElems_step hw.ok st.inv hr2 e5
            have ou := ou (Nat.le_trans str.fr.rpos hle)
            have hk2 := hk1.trans ou.keep
            have hc2 := (hk2 r _ c hres hc).2
            obtain ⟨ps, hp1, hp2⟩ := ih ou.ri hr2 hc2 hvs (hB.mono st.fr.rpos) e5
            obtain ⟨a1, a2, a3⟩ := writeElems_ri hw.ok hw.ref ou.ri hr2 ⟨r, _, hres2, hc2⟩ hnr (hB.mono st.fr.rpos) hle e5
            refine ⟨(c, []) :: ps, by rw [hp1]; rfl, .cons ⟨?_, ?_, ?_⟩ ?_⟩
            · intro _; exact (a2 r _ c hres2 hc2).2
            · intro hn; exact absurd (hdis.mp rfl) hn
            · intro hn; exact absurd (hdis.mp rfl) hn
            · exact all2_mono (fun w p hq => ⟨hq.left, hq.link, fun hd => (hq.done hd).later st.fr.len (Fr.rfl' (A := noA) (D := noD) str.inv.wf) (fun _ _ => rfl) .refl⟩) hp2
          · rw [e6] at h; cases h
        | some p =>
          dsimp only at h
          rcases bind_run (setH5Path x p (asciiEnc (refsName x.o))) _ s2 with ⟨u, s3, e5, e6⟩ | ⟨e, s3, e5, e6⟩
          · rw [e6] at h
            have sth := setH5Path_step st.inv p _ e5
            have hr3 := sth.keepRefs hr2
            rcases bind_run (writeElems x wr r c vs) (fun rest => (pure (p :: rest) : M (List Nat))) s3 with ⟨l', s4, e7, e8⟩ | ⟨e, s4, e7, e8⟩
            · rw [e8, run_pure] at h; cases h
              have str := writeElems_step hw.ok sth.inv hr3 e7
              have hle3 := Nat.le_trans str.fr.rpos hle
              have hle2 := Nat.le_trans sth.fr.rpos hle3
              have ou := ou hle2
              obtain ⟨b1, b2⟩ := setH5Path_ri ou.ri (ou.notA p rfl) (ou.ne p rfl) e5
              have hk3 := (hk1.trans ou.keep).trans b2
              have hc3 := (hk3 r _ c hres hc).2
              have hres3 := (sth.inv.refs r hr3).1
              have hB3 := hB.mono (Nat.le_trans st.fr.rpos sth.fr.rpos)
              obtain ⟨ps, hp1, hp2⟩ := ih b1 hr3 hc3 hvs hB3 e7
              obtain ⟨a1, a2, a3⟩ := writeElems_ri hw.ok hw.ref b1 hr3 ⟨r, _, hres3, hc3⟩ hnr hB3 hle e7
              have hnd : ¬ Discarded x.o v := fun hd => by cases hdis.mpr hd
              refine ⟨(p, nm) :: ps, by rw [hp1]; rfl, .cons ⟨?_, ?_, ?_⟩ ?_⟩
              · intro hd; exact absurd hd hnd
              · intro _; exact (a2 r _ p hres3 (b2 r _ p hres2 (ou.link hres1 p rfl)).2).2
              · intro _
                rw [refsName_eq hne, groupName_eq] at e3
                have out := hw.laid s1 r _ nm v s2 p B hR1 hpl hfr (hB.mono stn.fr.rpos) hle2 (hv v (by simp)) (fun n hn => (refsComps_mem x.o n hn).1) e3
                have ld : LDone x s1 s3 _ _ p (.value v) := out.fin (setH5Path_fin (path := groupName (refsComps x.o))) st.inv b2 (by rw [if_neg (by simp)]) (by
                  rw [refsName_eq hne] at e5
                  exact e5)
                exact ld.later stn.fr.len str.fr (step_new str) a2
              · exact all2_mono (fun w p hq => ⟨hq.left, hq.link, fun hd => (hq.done hd).later (Nat.le_trans st.fr.len sth.fr.len) (Fr.rfl' (A := noA) (D := noD) str.inv.wf) (fun _ _ => rfl) .refl⟩) hp2
            · rw [e8] at h; cases h
          · rw [e6] at h; cases h
      · rw [e4] at h; cases h
    · rw [e2] at h; cases h

theorem ensureCanon_a {x : Ctx} {L : Nat → Prop} {s s' : St} {r c : Nat} (hR : RI x L s) (hr : s.refs = some r) (h : ensureCanon r s = (.ok c, s')) : LinkAt s'.heap r p!"a" c := by
  have hst := ensureCanon_spec hR.inv hr h
  have hR' := (ensureCanon_ri hR hr h).1
  have hr' := hst.keepRefs hr
  have hc : s'.canon = some c := by
    unfold ensureCanon at h
    change (match s.canon with | some c => (pure c : M Nat) | none => _) s = _ at h
    cases hc : s.canon with
    | some c' => rw [hc] at h; cases h; exact hc
    | none =>
      rw [hc] at h
      have hmake : (createObj r p!"a" canonObj >>= fun c => modSt (fun s => { s with canon := some c }) >>= fun _ => (pure c : M Nat)) s = (.ok c, s') → s'.canon = some c := by
        intro hrun
        rcases createObj_run r p!"a" canonObj s with ⟨e, he⟩ | ⟨he, _, _, h3, _, h5⟩
        · rw [run_bind_err he] at hrun; cases hrun
        · rw [run_bind_ok he] at hrun
          change ((Except.ok s.heap.length : Res Nat), ({ s with heap := createHeap s.heap r p!"a" canonObj, canon := some s.heap.length } : St)) = _ at hrun
          cases hrun
          rfl
      cases hl : hlook s.heap r p!"a" with
      | none => rw [hl] at h; exact hmake h
      | some c' =>
        rw [hl] at h
        dsimp only at h
        have hla : LinkAt s.heap r p!"a" c' := by rw [hlook_plain _ _ _ a_ne_dot] at hl; exact hl
        obtain ⟨ob, ho, hb⟩ := hR.canA r c' (hR.inv.refs r hr).1 hla
        rw [ho] at h
        dsimp only at h
        have : (liftRes (isCanon ob) : M Bool) s = (.ok true, s) := by rw [hb]; rfl
        rw [run_bind_ok this] at h
        change ((Except.ok c' : Res Nat), ({ s with canon := some c' } : St)) = _ at h
        cases h
        rfl
  obtain ⟨rg, h1, h2⟩ := hR'.can c hc
  rw [hr'] at h1
  cases h1
  exact h2

theorem writeObjectArray_laid {x : Ctx} {B : Nat} {wr : Wr} (hw : WrAll x wr) (hne : refsComps x.o ≠ []) {s s' : St} {vs : List Val} {l : List Nat} (hR : RI x noL s)
    (hv : ∀ v ∈ vs, Regular x.o v) (hB : RandOk x s.rpos B) (hle : s'.rpos ≤ B) (h : writeObjectArray x wr vs s = (.ok l, s')) :
    ∃ (r : Nat) (ps : List (Nat × Str)), resolve s'.heap 0 (refsComps x.o) = some r ∧ l = ps.map (·.1) ∧ All2 (ElemLaid x s s' r) vs ps := by
  unfold writeObjectArray at h
  rcases bind_run (ensureRefs x) _ s with ⟨r, s1, e1, e2⟩ | ⟨e, s1, e1, e2⟩
  · rw [e2] at h
    obtain ⟨st, hr⟩ := ensureRefs_spec hR.inv e1
    obtain ⟨hR1, hk1⟩ := ensureRefs_ri hR e1
    have hr1 := hr r rfl
    rcases bind_run (ensureCanon r) _ s1 with ⟨c, s2, e3, e4⟩ | ⟨e, s2, e3, e4⟩
    · rw [e4] at h
      have st2 := ensureCanon_spec st.inv hr1 e3
      obtain ⟨hR2, hk2, hc⟩ := ensureCanon_ri hR1 hr1 e3
      have hr2 := st2.keepRefs hr1
      obtain ⟨ps, h1, h2⟩ := writeElems_laid hw hne hR2 hr2 (ensureCanon_a hR1 hr1 e3) hv (hB.mono (Nat.le_trans st.fr.rpos st2.fr.rpos)) hle h
      have st3 := writeElems_step hw.ok st2.inv hr2 h
      refine ⟨r, ps, (st3.inv.refs r (st3.keepRefs hr2)).1, h1, ?_⟩
      exact all2_mono (fun w p hq => ⟨hq.left, hq.link, fun hd => (hq.done hd).later (Nat.le_trans st.fr.len st2.fr.len) (Fr.rfl' (A := noA) (D := noD) st3.inv.wf) (fun _ _ => rfl) .refl⟩) h2
    · rw [e4] at h; cases h
  · rw [e2] at h; cases h

/-- The loops that write the fields of a dict or of a structured array. -/
def itemLoop (wr : Wr) (fin : Nat → M Unit) (g : Nat) (gname : Str) : List (Str × Val) → M Unit
  | [] => pure ()
  | (k, v) :: r => do
    match ← wr g gname k v with
    | none => itemLoop wr fin g gname r
    | some p => do
      fin p
      itemLoop wr fin g gname r

theorem writeItems_loop (x : Ctx) (wr : Wr) (g : Nat) (gname : Str) (items : List (Str × Val)) :
    writeItems x wr g gname items = itemLoop wr (fun p => setH5Path x p (asciiEnc gname)) g gname items := by
  induction items with
  | nil => rfl
  | cons i items ih =>
    obtain ⟨k, v⟩ := i
    rw [writeItems, itemLoop, ih]
    rfl

theorem writeFields_loop (x : Ctx) (wr : Wr) (g : Nat) (gname : Str) (others : Bool) (items : List (Str × Val)) :
    writeFields x wr g gname others items = itemLoop wr (fun p => setAttrsM p (pathAttr x.o gname) others) g gname items := by
  induction items with
  | nil => rfl
  | cons i items ih =>
    obtain ⟨k, v⟩ := i
    rw [writeFields, itemLoop, ih]
    rfl

/-- The part a field is for. -/
def partFor (col : Bool) (v : Val) : Part :=
  match col, v with
  | true, .npObj .ndarray sh e => .column sh e
  | _, v => .value v

/-- A field. -/
structure FieldLaid (x : Ctx) (s s' : St) (g : Nat) (ns : List Str) (col : Bool) (i : Str × Val) : Prop where
  left : Discarded x.o i.2 → Fresh s' g i.1
  done : ¬ Discarded x.o i.2 → ∃ q, LinkAt s'.heap g i.1 q ∧ LDone x s s' (ns ++ [i.1]) (some (groupName ns)) q (partFor col i.2)

theorem itemLoop_rpos {x : Ctx} {path : Str} {col : Bool} {fin : Nat → M Unit} (hfin : FinOk x path col fin) {wr : Wr} (hwr : WrOk x wr) {s s' : St} {g : Nat} {gname : Str}
    {items : List (Str × Val)} {res : Res Unit} (hp : ∀ i ∈ items, Pre x s g i.1) (h : itemLoop wr fin g gname items s = (res, s')) : s.rpos ≤ s'.rpos := by
  induction items generalizing s res with
  | nil => cases h; exact Nat.le_refl _
  | cons i items ih =>
    obtain ⟨k, v⟩ := i
    rw [itemLoop] at h
    rcases bind_run (wr g gname k v) _ s with ⟨ob, s1, e1, e2⟩ | ⟨e, s1, e1, e2⟩
    · rw [e2] at h
      have po := hwr s g gname k v s1 _ (hp (k, v) (by simp)) e1
      cases ob with
      | none =>
        dsimp only at h
        exact Nat.le_trans po.step.fr.rpos (ih (fun i hi => (hp i (by simp [hi])).keep po.step) h)
      | some p =>
        dsimp only at h
        rcases bind_run (fin p) _ s1 with ⟨u, s2, e3, e4⟩ | ⟨e, s2, e3, e4⟩
        · rw [e4] at h
          have sth := hfin.step po.step.inv e3
          exact Nat.le_trans (Nat.le_trans po.step.fr.rpos sth.fr.rpos) (ih (fun i hi => ((hp i (by simp [hi])).keep po.step).keep sth) h)
        · rw [e4] at h; cases h
          exact Nat.le_trans po.step.fr.rpos (hfin.step po.step.inv e3).fr.rpos
    · rw [e2] at h; cases h
      exact (hwr s g gname k v _ _ (hp (k, v) (by simp)) e1).step.fr.rpos

theorem itemLoop_laid {x : Ctx} {ns : List Str} {col : Bool} {fin : Nat → M Unit} (hfin : FinOk x (groupName ns) col fin) {B : Nat} {wr : Wr} (hw : WrAll x wr) {s s' : St} {g : Nat}
    {items : List (Str × Val)} (hR : RI x noL s) (hg : g < s.heap.length) (hs : Sep x s g) (hnl : NoLoop s g) (hk : ∀ i ∈ items, i.1 ≠ [dot]) (hf : ∀ i ∈ items, Fresh s g i.1)
    (hnd : (items.map (·.1)).Nodup) (hrg : ∀ i ∈ items, Regular x.o i.2) (hcol : col = true → ∀ i ∈ items, ∃ sh e, i.2 = .npObj .ndarray sh e) (hns : ∀ n ∈ ns, n ≠ [])
    (hB : RandOk x s.rpos B) (hle : s'.rpos ≤ B) (h : itemLoop wr fin g (absName ns) items s = (.ok (), s')) :
    Step x (itemsA g items) noD s s' ∧ RI x noL s' ∧ KeepRefs x s s' ∧ ∀ i ∈ items, FieldLaid x s s' g ns col i := by
  induction items generalizing s with
  | nil => cases h; exact ⟨Step.refl hR.inv, hR, .refl, fun i hi => by cases hi⟩
  | cons i items ih =>
    obtain ⟨k, v⟩ := i
    have hi := hR.inv
    have hkd : k ≠ [dot] := hk (k, v) (by simp)
    have hpk : Pre x s g k := hs.pre hi hg hkd
    have hfk := hf (k, v) (by simp)
    have hoff : resolve s.heap 0 (refsComps x.o) ≠ some g := fun hc => hs g .refl ⟨_, List.prefix_refl _, hc⟩
    have hkn : k ∉ items.map (·.1) := (List.nodup_cons.mp hnd).1
    have hnek : ∀ i ∈ items, i.1 ≠ k := fun i hi hh => hkn (List.mem_map.mpr ⟨i, hi, hh⟩)
    have hnd' := (List.nodup_cons.mp hnd).2
    rw [itemLoop] at h
    rcases bind_run (wr g (absName ns) k v) _ s with ⟨ob, s1, e1, e2⟩ | ⟨e, s1, e1, e2⟩
    · rw [e2] at h
      have po := hw.ok s g _ k v s1 _ hpk e1
      have st1 := po.fresh hfk
      have hg1 : g < s1.heap.length := Nat.lt_of_lt_of_le hg st1.fr.len
      have hs1 := hs.keep st1.fr hi hg
      have hdis := hw.none e1
      have ou : s1.rpos ≤ B → ROut x noL g k s s1 (fun p => (Except.ok ob : Res (Option Nat)) = .ok (some p)) := fun hb =>
        hw.ref s g _ k v s1 _ B hR (hs.pl hi hg hkd B) hB hb (regular_noRef (hrg (k, v) (by simp))) e1
      -- the rest, after something is done to the place only
      have hrest : ∀ s2, Step x (oneA g k) noD s s2 → RI x noL s2 → KeepRefs x s s2 → itemLoop wr fin g (absName ns) items s2 = (.ok (), s') →
          Step x (itemsA g ((k, v) :: items)) noD s s' ∧ RI x noL s' ∧ KeepRefs x s2 s' ∧ Step x (itemsA g items) noD s2 s' ∧
          (∀ i ∈ items, FieldLaid x s s' g ns col i) ∧ aget (linksOf s'.heap g) k = aget (linksOf s2.heap g) k := by
        intro s2 st2 hR2 hk2 h2
        have hg2 := Nat.lt_of_lt_of_le hg st2.fr.len
        have hs2 := hs.keep st2.fr hi hg
        have hoff2 : resolve s2.heap 0 (refsComps x.o) ≠ some g := fun hc => hs2 g .refl ⟨_, List.prefix_refl _, hc⟩
        have hf2 : ∀ i ∈ items, Fresh s2 g i.1 := by
          intro i hi' q hq
          unfold LinkAt at hq
          rw [st2.fr.link_keep (hs.pre hi hg (hk i (by simp [hi']))) hoff (fun h => h) (fun hA => hnek i hi' hA.2)] at hq
          exact hf i (by simp [hi']) q hq
        obtain ⟨a1, a2, a3, a4⟩ := ih hR2 hg2 hs2 (hnl.keep st2.fr hg) (fun i hi => hk i (by simp [hi])) hf2 hnd' (fun i hi => hrg i (by simp [hi]))
          (fun hc i hi => hcol hc i (by simp [hi])) (hB.mono st2.fr.rpos) h2
        refine ⟨?_, a2, a3, a1, ?_, a1.fr.link_keep (hpk.keep st2) hoff2 (fun h => h) (fun hA => hkn hA.2)⟩
        · refine (st2.mono (A' := itemsA g ((k, v) :: items)) (D' := noD) ?_ (fun _ h => h)).trans a1 ?_ (fun _ _ h => h)
          · rintro p c ⟨h1, h2⟩; exact ⟨h1, by simp [h2]⟩
          · rintro p c ⟨h1, h2⟩; exact ⟨h1, by rw [List.map_cons]; exact List.mem_cons_of_mem _ h2⟩
        · intro i hi'
          refine ⟨(a4 i hi').left, fun hd => ?_⟩
          obtain ⟨q, q1, q2⟩ := (a4 i hi').done hd
          exact ⟨q, q1, q2.later st2.fr.len (Fr.rfl' (A := noA) (D := noD) a1.inv.wf) (fun _ _ => rfl) .refl⟩
      cases ob with
      | none =>
        dsimp only at h
        have h01 := hw.at'.none s g _ k v s1 hkd e1
        subst h01
        obtain ⟨b1, b2, b3, b4, b5, b6⟩ := hrest s1 (Step.refl hi) hR .refl h
        refine ⟨b1, b2, b3, ?_⟩
        intro i hi'
        rcases List.mem_cons.mp hi' with rfl | hi'
        · refine ⟨fun _ q hq => ?_, fun hd => absurd (hdis.mp rfl) hd⟩
          unfold LinkAt at hq
          dsimp only at hq
          rw [b6] at hq
          exact hfk q hq
        · exact b5 i hi'
      | some p =>
        dsimp only at h
        rcases bind_run (fin p) _ s1 with ⟨u, s2, e3, e4⟩ | ⟨e, s2, e3, e4⟩
        · rw [e4] at h
          have sth := hfin.step st1.inv e3
          have hpre1 : ∀ i ∈ items, Pre x s1 g i.1 := fun i hi' => hs1.pre st1.inv hg1 (hk i (by simp [hi']))
          have hle2 := Nat.le_trans (itemLoop_rpos hfin hw.ok (fun i hi' => (hpre1 i hi').keep sth) h) hle
          have hle1 := Nat.le_trans sth.fr.rpos hle2
          have ou := ou hle1
          have out := hw.laid s g ns k v s1 p B hR (hs.pl hi hg hkd B) hfk hB hle1 (hrg (k, v) (by simp)) hns e1
          obtain ⟨c1, c2⟩ := hfin.ri ou.ri (ou.notA p rfl) (ou.ne p rfl) e3
          have st2 : Step x (oneA g k) noD s s2 := st1.trans sth (fun _ _ h => h.elim) (fun p' hp' hd => by
            have := out.new.1
            rw [show p' = p from hd] at hp'
            omega)
          obtain ⟨b1, b2, b3, b4, b5, b6⟩ := hrest s2 st2 c1 (ou.keep.trans c2) h
          refine ⟨b1, b2, (ou.keep.trans c2).trans b3, ?_⟩
          intro i hi'
          rcases List.mem_cons.mp hi' with rfl | hi'
          · refine ⟨fun hd => ?_, fun _ => ⟨p, ?_, ?_⟩⟩
            · have := hdis.mpr hd
              cases this
            · have hl := hw.at'.link s g _ k v s1 p hpk hoff hnl e1
              have hl2 := (hfin.links e3 g k p).mpr hl
              unfold LinkAt at hl2 ⊢
              dsimp only
              rw [b6]
              exact hl2
            · have ld : LDone x s s2 (ns ++ [k]) (some (groupName ns)) p (partFor col v) := by
                refine out.fin hfin st1.inv c2 ?_ e3
                cases col with
                | false => rw [if_neg (by simp)]; rfl
                | true =>
                  rw [if_pos rfl]
                  obtain ⟨sh, e, he⟩ := hcol rfl (k, v) (by simp)
                  dsimp only at he
                  subst he
                  exact ⟨sh, e, rfl, rfl⟩
              exact ld.later (Nat.le_refl _) b4.fr (fun p' hp' => b4.fr.same p' hp'.2.1 (fun h => h) (fun c hA => by
                have := hp'.1
                have h1 := hA.1
                omega) hp'.2.2) b3
          · exact b5 i hi'
        · rw [e4] at h; cases h
    · rw [e2] at h; cases h

end HS
