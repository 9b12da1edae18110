import Verif.Lemmas.RefsMake
import Verif.Lemmas.ProgressAll
/-
References stay valid: the recursive writers.
-/
namespace HS
open Spec

/-- A recursive writer keeps references valid. -/
def WrRef (x : Ctx) (L : Nat → Prop) (wr : Wr) : Prop := ∀ s g gname name v s' res B, RI x L s → Pl x B s g name → RandOk x s.rpos B → s'.rpos ≤ B → ¬ HasRefArray v →
  wr g gname name v s = (res, s') → ROut x L g name s s' (fun p => res = .ok (some p))

/-- The place of an element of an object array. -/
theorem elem_slot {x : Ctx} {B : Nat} {s s1 : St} {r : Nat} {nm : Str} (hi : Inv x s) (hr : s.refs = some r) (h : nextName x s = (.ok nm, s1)) (hR : RandOk x s.rpos B) :
    Slot x B s1 r nm := by
  obtain ⟨stn, hn⟩ := nextName_spec hi hr h
  obtain ⟨n1, n2, n3, n4⟩ := hn nm rfl
  intro _
  refine ⟨stn.keepRefs hr, ?_, ?_⟩
  · rcases n4 with ⟨_, h1, _⟩ | ⟨_, i, _, _, h1⟩
    · intro ha
      rw [h1] at ha
      have := hexStr_a ha.symm
      have := hi.ctr
      omega
    · rw [h1]; exact randName_ne_a x i
  · intro hc1 j hj hjB
    rcases n4 with ⟨hc, _⟩ | ⟨_, i, h1, h2, h3⟩
    · rw [(stn.fr.refs r hr).2, hc] at hc1; cases hc1
    · rw [h3]
      intro hh
      exact hR i j h1 (by omega) hjB (randName_inj x hh)

theorem writeElems_ri {x : Ctx} {L : Nat → Prop} {B : Nat} {wr : Wr} (hwr : WrOk x wr) (hrt : WrRef x L wr) {s s' : St} {r c : Nat} {vs : List Val} {res : Res (List Nat)} (hR : RI x L s)
    (hr : s.refs = some r) (hc : RefTo x s c) (hv : ∀ v ∈ vs, ¬ HasRefArray v) (hB : RandOk x s.rpos B) (hle : s'.rpos ≤ B) (h : writeElems x wr r c vs s = (res, s')) :
    RI x L s' ∧ KeepRefs x s s' ∧ ∀ l, res = .ok l → ∀ q ∈ l, RefTo x s' q := by
  induction vs generalizing s s' res with
  | nil => cases h; exact ⟨hR, .refl, fun l h q hq => by cases h; cases hq⟩
  | cons v vs ih =>
    have hi := hR.inv
    have hvs : ∀ v ∈ vs, ¬ HasRefArray v := fun v hh => hv v (by simp [hh])
    rw [writeElems] at h
    rcases bind_run (nextName x) _ s with ⟨nm, s1, e1, e2⟩ | ⟨e, s1, e1, e2⟩
    · rw [e2] at h
      have stn := (nextName_spec hi hr e1).1
      obtain ⟨hR1, hk1⟩ := nextName_ri hR hr e1
      have hslot := elem_slot hi hr e1 hB
      rcases bind_run (wr r (refsName x.o) nm v) _ s1 with ⟨ob, s2, e3, e4⟩ | ⟨e, s2, e3, e4⟩
      · rw [e4] at h
        obtain ⟨st, hpre, hfr, hob⟩ := elem_step hwr hi hr e1 e3
        have hr2 := st.keepRefs hr
        have hres1 := (hR1.inv.refs r (stn.keepRefs hr)).1
        have ou : s2.rpos ≤ B → ROut x L r nm s1 s2 (fun p => (Except.ok ob : Res (Option Nat)) = .ok (some p)) := fun hb =>
          hrt s1 r _ nm v s2 _ B hR1 ⟨hpre, fun _ => hfr, hslot⟩ (hB.mono stn.fr.rpos) hb (hv v (by simp)) e3
        cases ob with
        | none =>
          dsimp only at h
          have rest : ∀ (l : Res (List Nat)) (s3 : St), writeElems x wr r c vs s2 = (l, s3) → s3.rpos ≤ B →
              RI x L s3 ∧ KeepRefs x s s3 ∧ ∀ l', l = .ok l' → ∀ q ∈ l', RefTo x s3 q := by
            intro l s3 e5 hb
            have ou := ou (Nat.le_trans (writeElems_step hwr st.inv hr2 e5).fr.rpos hb)
            obtain ⟨a1, a2, a3⟩ := ih ou.ri hr2 ((hk1.trans ou.keep).to hc) hvs (hB.mono st.fr.rpos) hb e5
            exact ⟨a1, (hk1.trans ou.keep).trans a2, a3⟩
          rcases bind_run (writeElems x wr r c vs) (fun rest => (pure (c :: rest) : M (List Nat))) s2 with ⟨l, s3, e5, e6⟩ | ⟨e, s3, e5, e6⟩
          · rw [e6, run_pure] at h; cases h
            obtain ⟨a1, a2, a3⟩ := rest _ _ e5 hle
            refine ⟨a1, a2, ?_⟩
            intro l' hl q hq
            cases hl
            rcases List.mem_cons.mp hq with rfl | hq
            · exact a2.to hc
            · exact a3 _ rfl q hq
          · rw [e6] at h; cases h
            obtain ⟨a1, a2, a3⟩ := rest _ _ e5 hle
            exact ⟨a1, a2, fun l h => by cases h⟩
        | some p =>
          dsimp only at h
          rcases bind_run (setH5Path x p (asciiEnc (refsName x.o))) _ s2 with ⟨u, s3, e5, e6⟩ | ⟨e, s3, e5, e6⟩
          · rw [e6] at h
            have sth := setH5Path_step st.inv p _ e5
            have hr3 := sth.keepRefs hr2
            have rest : ∀ (l : Res (List Nat)) (s4 : St), writeElems x wr r c vs s3 = (l, s4) → s4.rpos ≤ B →
                RI x L s4 ∧ KeepRefs x s s4 ∧ RefTo x s4 p ∧ ∀ l', l = .ok l' → ∀ q ∈ l', RefTo x s4 q := by
              intro l s4 e7 hb
              have h34 := (writeElems_step hwr sth.inv hr3 e7).fr.rpos
              have ou := ou (Nat.le_trans sth.fr.rpos (Nat.le_trans h34 hb))
              obtain ⟨b1, b2⟩ := setH5Path_ri ou.ri (ou.notA p rfl) (ou.ne p rfl) e5
              have hk3 := (hk1.trans ou.keep).trans b2
              obtain ⟨a1, a2, a3⟩ := ih b1 hr3 (hk3.to hc) hvs (hB.mono (Nat.le_trans st.fr.rpos sth.fr.rpos)) hb e7
              refine ⟨a1, hk3.trans a2, (b2.trans a2).to ⟨r, nm, ?_, ou.link hres1 p rfl⟩, a3⟩
              exact (st.inv.refs r hr2).1
            rcases bind_run (writeElems x wr r c vs) (fun rest => (pure (p :: rest) : M (List Nat))) s3 with ⟨l, s4, e7, e8⟩ | ⟨e, s4, e7, e8⟩
            · rw [e8, run_pure] at h; cases h
              obtain ⟨a1, a2, a4, a3⟩ := rest _ _ e7 hle
              refine ⟨a1, a2, ?_⟩
              intro l' hl q hq
              cases hl
              rcases List.mem_cons.mp hq with rfl | hq
              · exact a4
              · exact a3 _ rfl q hq
            · rw [e8] at h; cases h
              obtain ⟨a1, a2, a4, a3⟩ := rest _ _ e7 hle
              exact ⟨a1, a2, fun l h => by cases h⟩
          · rw [e6] at h; cases h
            have sth := setH5Path_step st.inv p _ e5
            have ou := ou (Nat.le_trans sth.fr.rpos hle)
            obtain ⟨b1, b2⟩ := setH5Path_ri ou.ri (ou.notA p rfl) (ou.ne p rfl) e5
            exact ⟨b1, (hk1.trans ou.keep).trans b2, fun l h => by cases h⟩
      · rw [e4] at h; cases h
        obtain ⟨st, hpre, hfr, _⟩ := elem_step hwr hi hr e1 e3
        have ou := hrt s1 r _ nm v _ _ B hR1 ⟨hpre, fun _ => hfr, hslot⟩ (hB.mono stn.fr.rpos) hle (hv v (by simp)) e3
        exact ⟨ou.ri, hk1.trans ou.keep, fun l h => by cases h⟩
    · rw [e2] at h; cases h
      obtain ⟨hR1, hk1⟩ := nextName_ri hR hr e1
      exact ⟨hR1, hk1, fun l h => by cases h⟩

theorem writeObjectArray_ri {x : Ctx} {L : Nat → Prop} {B : Nat} {wr : Wr} (hwr : WrOk x wr) (hrt : WrRef x L wr) {s s' : St} {vs : List Val} {res : Res (List Nat)} (hR : RI x L s)
    (hv : ∀ v ∈ vs, ¬ HasRefArray v) (hB : RandOk x s.rpos B) (hle : s'.rpos ≤ B) (h : writeObjectArray x wr vs s = (res, s')) :
    RI x L s' ∧ KeepRefs x s s' ∧ ∀ l, res = .ok l → ∀ q ∈ l, RefTo x s' q := by
  unfold writeObjectArray at h
  rcases bind_run (ensureRefs x) _ s with ⟨r, s1, e1, e2⟩ | ⟨e, s1, e1, e2⟩
  · rw [e2] at h
    obtain ⟨st, hr⟩ := ensureRefs_spec hR.inv e1
    obtain ⟨hR1, hk1⟩ := ensureRefs_ri hR e1
    have hr1 := hr r rfl
    rcases bind_run (ensureCanon r) _ s1 with ⟨c, s2, e3, e4⟩ | ⟨e, s2, e3, e4⟩
    · rw [e4] at h
      have st2 := ensureCanon_spec st.inv hr1 e3
      obtain ⟨hR2, hk2, hc⟩ := ensureCanon_ri hR1 hr1 e3
      obtain ⟨a1, a2, a3⟩ := writeElems_ri hwr hrt hR2 (st2.keepRefs hr1) (hc c rfl) hv (hB.mono (Nat.le_trans st.fr.rpos st2.fr.rpos)) hle h
      exact ⟨a1, (hk1.trans hk2).trans a2, a3⟩
    · rw [e4] at h; cases h
      obtain ⟨hR2, hk2, hc⟩ := ensureCanon_ri hR1 hr1 e3
      exact ⟨hR2, hk1.trans hk2, fun l h => by cases h⟩
  · rw [e2] at h; cases h
    obtain ⟨hR1, hk1⟩ := ensureRefs_ri hR e1
    exact ⟨hR1, hk1, fun l h => by cases h⟩

theorem ROut.after {x : Ctx} {L : Nat → Prop} {B : Nat} {g : Nat} {name : Str} {s s1 s2 : St} {P : Nat → Prop} (hp : Pl x B s g name) (st : Step x noA noD s s1) (hk : KeepRefs x s s1)
    (h : ROut x L g name s1 s2 P) : ROut x L g name s s2 P :=
  ⟨h.ri, hk.trans h.keep, fun hr => h.link (hp.refs st hr), h.notA, h.ne⟩

theorem noRef_default : ¬ HasRefArray (default : Val) := fun h => by cases h

theorem noRef_transpose (s : List Nat) {l : List Val} (h : ∀ v ∈ l, ¬ HasRefArray v) : ∀ v ∈ transposeData s l, ¬ HasRefArray v := by
  intro v hv
  simp only [transposeData, List.mem_map] at hv
  obtain ⟨i, _, rfl⟩ := hv
  rw [List.getD_eq_getElem?_getD]
  cases ho : l[ravelN s i.reverse]? with
  | none => exact noRef_default
  | some w => exact h w (List.mem_of_getElem? ho)

theorem writeNpObj_rout {x : Ctx} {L : Nat → Prop} {B : Nat} {wr : Wr} (hwr : WrOk x wr) (hrt : WrRef x L wr) {s s' : St} {res : Res (Option Nat)} {g : Nat} {name : Str}
    (hR : RI x L s) (hp : Pl x B s g name) (hB : RandOk x s.rpos B) (hle : s'.rpos ≤ B) (c : Cont)
    (shape : List Nat) (elems : List Val) (hv : ∀ v ∈ elems, ¬ HasRefArray v) (ts : Str) (h : writeNpObj x wr g name c shape elems ts s = (res, s')) :
    ROut x L g name s s' (fun p => res = .ok (some p)) := by
  unfold writeNpObj at h
  have hel : ∀ v ∈ (if x.o.reverse = true then transposeData (if x.o.atleast2d = true then atleast2dShape shape else shape) elems else elems), ¬ HasRefArray v := by
    split
    · exact noRef_transpose _ hv
    · exact hv
  generalize (if x.o.reverse = true then _ else elems) = el at h hel
  generalize (if x.o.reverse = true then (if x.o.atleast2d = true then atleast2dShape shape else shape).reverse else _) = sh' at h
  split at h
  · rw [run_pure_bind] at h
    exact putAttrs_rout hR hp _ _ (fun h => by cases h) _ h
  · rcases bind_run (writeObjectArray x wr el >>= fun refs => (pure ⟨.ref, sh', refs.map El.ref⟩ : M Arr)) _ s with ⟨d, s1, e1, e2⟩ | ⟨e, s1, e1, e2⟩
    · rw [e2] at h
      rcases bind_run (writeObjectArray x wr el) (fun refs => (pure ⟨.ref, sh', refs.map El.ref⟩ : M Arr)) s with ⟨l, s2, e3, e4⟩ | ⟨e, s2, e3, e4⟩
      · rw [e4, run_pure] at e1; cases e1
        have st := writeObjectArray_step hwr hp.pre.inv e3
        have h12 := (putAttrs_post (hp.pre.keep st) _ _ _ h).step.fr.rpos
        have hb1 := Nat.le_trans h12 hle
        obtain ⟨a1, a2, a3⟩ := writeObjectArray_ri hwr hrt hR hel hB hb1 e3
        refine ROut.after hp st a2 (putAttrs_rout a1 (hp.keep st hb1) _ _ ?_ _ h)
        intro _ r hr
        change El.ref r ∈ l.map El.ref at hr
        rw [List.mem_map] at hr
        obtain ⟨q, h1, h2⟩ := hr
        cases h2
        exact a3 l rfl r h1
      · rw [e4] at e1; cases e1
    · rw [e2] at h; cases h
      rcases bind_run (writeObjectArray x wr el) (fun refs => (pure ⟨.ref, sh', refs.map El.ref⟩ : M Arr)) s with ⟨l, s2, e3, e4⟩ | ⟨e, s2, e3, e4⟩
      · rw [e4, run_pure] at e1; cases e1
      · rw [e4] at e1; cases e1
        obtain ⟨a1, a2, a3⟩ := writeObjectArray_ri hwr hrt hR hel hB hle e3
        exact ⟨a1, a2, fun _ p h => (by cases h), fun p h => (by cases h), fun p h => (by cases h)⟩

/-- Places below a Group that does not lead to the references Group. -/
theorem Sep.pl {x : Ctx} {s : St} (hi : Inv x s) {g : Nat} (hg : g < s.heap.length) (hs : Sep x s g) {k : Str} (hk : k ≠ [dot]) (B : Nat) : Pl x B s g k where
  pre := hs.pre hi hg hk
  fresh := fun hr => absurd ⟨_, List.prefix_refl _, hr⟩ (hs g .refl)
  slot := fun hr => absurd ⟨_, List.prefix_refl _, hr⟩ (hs g .refl)

theorem writeItems_ri {x : Ctx} {L : Nat → Prop} {B : Nat} {wr : Wr} (hwr : WrOk x wr) (hrt : WrRef x L wr) {s s' : St} {g : Nat} {gname : Str} {items : List (Str × Val)} {res : Res Unit}
    (hR : RI x L s) (hg : g < s.heap.length) (hs : Sep x s g) (hk : ∀ i ∈ items, i.1 ≠ [dot]) (hv : ∀ i ∈ items, ¬ HasRefArray i.2) (hB : RandOk x s.rpos B) (hle : s'.rpos ≤ B)
    (h : writeItems x wr g gname items s = (res, s')) : RI x L s' ∧ KeepRefs x s s' := by
  induction items generalizing s res with
  | nil => cases h; exact ⟨hR, .refl⟩
  | cons i items ih =>
    obtain ⟨k, v⟩ := i
    have hi := hR.inv
    have hkd : k ≠ [dot] := hk (k, v) (by simp)
    have hrest : ∀ i ∈ items, i.1 ≠ [dot] := fun i hi => hk i (by simp [hi])
    have hvr : ∀ i ∈ items, ¬ HasRefArray i.2 := fun i hi => hv i (by simp [hi])
    rw [writeItems] at h
    rcases bind_run (wr g gname k v) _ s with ⟨ob, s1, e1, e2⟩ | ⟨e, s1, e1, e2⟩
    · rw [e2] at h
      have po := hwr s g gname k v s1 _ (hs.pre hi hg hkd) e1
      have st := po.below hi hg hs
      have hg1 : g < s1.heap.length := Nat.lt_of_lt_of_le hg st.fr.len
      have hs1 := hs.keep st.fr hi hg
      have ou : s1.rpos ≤ B → ROut x L g k s s1 (fun p => (Except.ok ob : Res (Option Nat)) = .ok (some p)) := fun hb =>
        hrt s g _ k v s1 _ B hR (hs.pl hi hg hkd B) hB hb (hv (k, v) (by simp)) e1
      cases ob with
      | none =>
        dsimp only at h
        have ou := ou (Nat.le_trans (writeItems_step hwr st.inv hg1 hs1 hrest h).fr.rpos hle)
        obtain ⟨a1, a2⟩ := ih ou.ri hg1 hs1 hrest hvr (hB.mono st.fr.rpos) h
        exact ⟨a1, ou.keep.trans a2⟩
      | some p =>
        dsimp only at h
        rcases bind_run (setH5Path x p (asciiEnc gname)) _ s1 with ⟨u, s2, e3, e4⟩ | ⟨e, s2, e3, e4⟩
        · rw [e4] at h
          have sth := setH5Path_step st.inv p _ e3
          have hg2 := Nat.lt_of_lt_of_le hg1 sth.fr.len
          have hs2 := hs1.keep sth.fr st.inv hg1
          have ou := ou (Nat.le_trans sth.fr.rpos (Nat.le_trans (writeItems_step hwr sth.inv hg2 hs2 hrest h).fr.rpos hle))
          obtain ⟨b1, b2⟩ := setH5Path_ri ou.ri (ou.notA p rfl) (ou.ne p rfl) e3
          obtain ⟨a1, a2⟩ := ih b1 hg2 hs2 hrest hvr (hB.mono (Nat.le_trans st.fr.rpos sth.fr.rpos)) h
          exact ⟨a1, (ou.keep.trans b2).trans a2⟩
        · rw [e4] at h; cases h
          have sth := setH5Path_step st.inv p _ e3
          have ou := ou (Nat.le_trans sth.fr.rpos hle)
          obtain ⟨b1, b2⟩ := setH5Path_ri ou.ri (ou.notA p rfl) (ou.ne p rfl) e3
          exact ⟨b1, ou.keep.trans b2⟩
    · rw [e2] at h; cases h
      have ou := hrt s g _ k v _ _ B hR (hs.pl hi hg hkd B) hB hle (hv (k, v) (by simp)) e1
      exact ⟨ou.ri, ou.keep⟩

theorem writeFields_ri {x : Ctx} {L : Nat → Prop} {B : Nat} {wr : Wr} (hwr : WrOk x wr) (hrt : WrRef x L wr) {s s' : St} {g : Nat} {gname : Str} {others : Bool} {items : List (Str × Val)}
    {res : Res Unit} (hR : RI x L s) (hg : g < s.heap.length) (hs : Sep x s g) (hk : ∀ i ∈ items, i.1 ≠ [dot]) (hv : ∀ i ∈ items, ¬ HasRefArray i.2) (hB : RandOk x s.rpos B) (hle : s'.rpos ≤ B)
    (h : writeFields x wr g gname others items s = (res, s')) : RI x L s' ∧ KeepRefs x s s' := by
  induction items generalizing s res with
  | nil => cases h; exact ⟨hR, .refl⟩
  | cons i items ih =>
    obtain ⟨k, v⟩ := i
    have hi := hR.inv
    have hkd : k ≠ [dot] := hk (k, v) (by simp)
    have hrest : ∀ i ∈ items, i.1 ≠ [dot] := fun i hi => hk i (by simp [hi])
    have hvr : ∀ i ∈ items, ¬ HasRefArray i.2 := fun i hi => hv i (by simp [hi])
    rw [writeFields] at h
    rcases bind_run (wr g gname k v) _ s with ⟨ob, s1, e1, e2⟩ | ⟨e, s1, e1, e2⟩
    · rw [e2] at h
      have po := hwr s g gname k v s1 _ (hs.pre hi hg hkd) e1
      have st := po.below hi hg hs
      have hg1 : g < s1.heap.length := Nat.lt_of_lt_of_le hg st.fr.len
      have hs1 := hs.keep st.fr hi hg
      have ou : s1.rpos ≤ B → ROut x L g k s s1 (fun p => (Except.ok ob : Res (Option Nat)) = .ok (some p)) := fun hb =>
        hrt s g _ k v s1 _ B hR (hs.pl hi hg hkd B) hB hb (hv (k, v) (by simp)) e1
      cases ob with
      | none =>
        dsimp only at h
        have ou := ou (Nat.le_trans (writeFields_step hwr st.inv hg1 hs1 hrest h).fr.rpos hle)
        obtain ⟨a1, a2⟩ := ih ou.ri hg1 hs1 hrest hvr (hB.mono st.fr.rpos) h
        exact ⟨a1, ou.keep.trans a2⟩
      | some p =>
        dsimp only at h
        rcases bind_run (setAttrsM p (if x.o.matlab then [(p!"H5PATH", .string gname)] else []) others) _ s1 with ⟨u, s2, e3, e4⟩ | ⟨e, s2, e3, e4⟩
        · rw [e4] at h
          have sth := setAttrsM_step st.inv p _ _ e3
          have hg2 := Nat.lt_of_lt_of_le hg1 sth.fr.len
          have hs2 := hs1.keep sth.fr st.inv hg1
          have ou := ou (Nat.le_trans sth.fr.rpos (Nat.le_trans (writeFields_step hwr sth.inv hg2 hs2 hrest h).fr.rpos hle))
          obtain ⟨b1, b2⟩ := setAttrs_ri ou.ri (ou.notA p rfl) (ou.ne p rfl) e3
          obtain ⟨a1, a2⟩ := ih b1 hg2 hs2 hrest hvr (hB.mono (Nat.le_trans st.fr.rpos sth.fr.rpos)) h
          exact ⟨a1, (ou.keep.trans b2).trans a2⟩
        · rw [e4] at h; cases h
          have sth := setAttrsM_step st.inv p _ _ e3
          have ou := ou (Nat.le_trans sth.fr.rpos hle)
          obtain ⟨b1, b2⟩ := setAttrs_ri ou.ri (ou.notA p rfl) (ou.ne p rfl) e3
          exact ⟨b1, ou.keep.trans b2⟩
    · rw [e2] at h; cases h
      have ou := hrt s g _ k v _ _ B hR (hs.pl hi hg hkd B) hB hle (hv (k, v) (by simp)) e1
      exact ⟨ou.ri, ou.keep⟩

/-- Getting the Group. -/
theorem getGroup_rout {x : Ctx} {L : Nat → Prop} {B : Nat} {s s' : St} {res : Res Nat} {g : Nat} {name : Str} (hR : RI x L s) (hp : Pl x B s g name) (h : getGroup g name s = (res, s')) :
    ROut x L g name s s' (fun p => res = .ok p) := by
  obtain ⟨stg, _⟩ := getGroup_spec hp.pre h
  have key : RI x L s' ∧ KeepRefs x s s' ∧ ∀ p, res = .ok p → LinkAt s'.heap g name p := by
    unfold getGroup at h
    rcases getLink_run g name s with hh | ⟨e, hh⟩
    · rw [run_bind_ok hh, hlook_plain _ _ _ hp.pre.nd] at h
      cases hl : aget (linksOf s.heap g) name with
      | none =>
        rw [hl] at h
        exact create_ri hR hp rfl (fun a f r h => by cases h) h
      | some q =>
        rw [hl] at h
        dsimp only at h
        rw [run_getSt] at h
        split at h
        · cases h
          exact ⟨hR, .refl, fun p hpp => by cases hpp; exact hl⟩
        · exact replace_ri hR hp rfl (fun a f r h => by cases h) h
    · rw [run_bind_err hh] at h; cases h
      exact ⟨hR, .refl, fun p h => by cases h⟩
  obtain ⟨h1, h2, h3⟩ := key
  exact ⟨h1, h2, fun _ p hpp => h3 p hpp, fun p hpp => notA_link hp stg.fr h1.tree (h3 p hpp), fun p hpp h0 => by
    have := h3 p hpp
    rw [h0] at this
    exact h1.tree.noRoot _ _ this⟩

theorem deleteOthers_ri {x : Ctx} {L : Nat → Prop} {s : St} (hR : RI x L s) (g : Nat) (h0 : g ≠ 0) (hs : Sep x s g) (names : List Str) :
    RI x L { s with heap := s.heap.update g (Obj.mapLinks fun l => l.filter fun p => names.contains p.1) } ∧
      KeepRefs x s { s with heap := s.heap.update g (Obj.mapLinks fun l => l.filter fun p => names.contains p.1) } :=
  hR.filter (keep := fun k => names.contains k) (deleteOthers_step hR.inv g hs names) (fun h => h0 h.symm)
    (fun _ _ pre h1 h2 => hs g .refl ⟨pre, prefix_of_snoc h1, h2⟩) (fun _ _ _ _ hr => hs g .refl ⟨_, List.prefix_refl _, hr⟩)

/-- A Group has been written to the place. -/
structure Grp (x : Ctx) (L : Nat → Prop) (g : Nat) (name : Str) (s s1 : St) (g2 : Nat) : Prop where
  po : Post x g name s s1 (fun p => p = g2)
  ou : ROut x L g name s s1 (fun p => p = g2)
  sep : Sep x s1 g2

theorem Grp.then {x : Ctx} {L : Nat → Prop} {B : Nat} {g : Nat} {name : Str} {s s1 s2 : St} {g2 : Nat} (hp : Pl x B s g name) (h : Grp x L g name s s1 g2) (st : Step x noA (LReach s1.heap g2) s1 s2)
    (hr : RI x L s2 ∧ KeepRefs x s1 s2) : Grp x L g name s s2 g2 :=
  ⟨h.po.then_below rfl st, h.ou.then hr.1 hr.2 st (hp.refs h.po.step) (fun q hq => by rw [hq]; exact (h.po.ok g2 rfl).lt),
    h.sep.keep st.fr h.po.step.inv (h.po.ok g2 rfl).lt⟩

theorem oneD_below {x : Ctx} {s s' : St} {p : Nat} (st : Step x noA (oneD p) s s') : Step x noA (LReach s.heap p) s s' :=
  st.mono (fun _ _ h => h) (fun q hq => by rw [show q = p from hq]; exact .refl)

theorem getGroup_grp {x : Ctx} {L : Nat → Prop} {B : Nat} {s s' : St} {g2 : Nat} {g : Nat} {name : Str} (hR : RI x L s) (hp : Pl x B s g name) (h : getGroup g name s = (.ok g2, s')) :
    Grp x L g name s s' g2 := by
  obtain ⟨st, hg⟩ := getGroup_spec hp.pre h
  obtain ⟨t, hs⟩ := hg g2 rfl
  exact ⟨⟨st.mono (fun _ _ h => h) (fun _ h => h.elim), fun p hpp => by rw [hpp]; exact t⟩, (getGroup_rout hR hp h).weaken (fun p hpp => by rw [hpp]), hs⟩

theorem noRef_dictItems {o : COpts} {keys vals : List Val} (hk : ∀ v ∈ keys, ¬ HasRefArray v) (hv : ∀ v ∈ vals, ¬ HasRefArray v) : ∀ i ∈ dictItems o keys vals, ¬ HasRefArray i.2 := by
  intro i hi
  unfold dictItems at hi
  split at hi
  · simp only [List.mem_cons, List.not_mem_nil, or_false] at hi
    rcases hi with rfl | rfl
    · intro h; cases h with | seq _ _ e he h => exact hk e he h
    · intro h; cases h with | seq _ _ e he h => exact hv e he h
  · obtain ⟨a, b⟩ := i
    exact hv b (List.of_mem_zip hi).2

theorem writeDict_rout {x : Ctx} {L : Nat → Prop} {B : Nat} (hk : x.o.keysName ≠ [dot]) (hv : x.o.valuesName ≠ [dot]) {wr : Wr} (hwr : WrOk x wr) (hrt : WrRef x L wr) {s s' : St}
    {res : Res (Option Nat)} {g : Nat} {gname name : Str} (hR : RI x L s) (hp : Pl x B s g name) (hB : RandOk x s.rpos B) (hle : s'.rpos ≤ B) (keys vals : List Val)
    (hkr : ∀ v ∈ keys, ¬ HasRefArray v) (hvr : ∀ v ∈ vals, ¬ HasRefArray v) (struct : Bool) (ts : Str)
    (h : writeDict x wr g gname name keys vals struct ts s = (res, s')) : ROut x L g name s s' (fun p => res = .ok (some p)) := by
  unfold writeDict at h
  dsimp only at h
  change (getGroup g name >>= fun g2 => _) s = _ at h
  rcases bind_run (getGroup g name) _ s with ⟨g2, s1, e1, e2⟩ | ⟨e, s1, e1, e2⟩
  · rw [e2] at h
    have G1 := getGroup_grp hR hp e1
    have h0 := G1.ou.ne g2 rfl
    have hattr : ∀ (s2 : St) (r2 : Res Unit), setAttrsM g2 (dictAttrs x.o (keyInfos keys) struct ts) true s1 = (r2, s2) → Grp x L g name s s2 g2 := fun s2 r2 e3 =>
      G1.then hp (oneD_below (setAttrsM_step G1.po.step.inv g2 _ true e3)) (setAttrs_ri G1.ou.ri (G1.ou.notA g2 rfl) h0 e3)
    rcases bind_run (setAttrsM g2 (dictAttrs x.o (keyInfos keys) struct ts) true) _ s1 with ⟨u, s2, e3, e4⟩ | ⟨e, s2, e3, e4⟩
    · rw [e4] at h
      have G2 := hattr _ _ e3
      change ((if (keyInfos keys).isNone || x.o.deleteUnused then deleteOthers g2 ((dictItems x.o keys vals).map (·.1)) else pure () : M Unit) >>= fun _ =>
        ((if x.o.matlab then liftRes (asciiEnc (joinName gname name)) else pure [] : M Bytes) >>= fun _ =>
          (writeItems x wr g2 (joinName gname name) (dictItems x.o keys vals) >>= fun _ => (pure (some g2) : M (Option Nat))))) s2 = _ at h
      obtain ⟨s3, e5, G3⟩ : ∃ s3, (if (keyInfos keys).isNone || x.o.deleteUnused then deleteOthers g2 ((dictItems x.o keys vals).map (·.1)) else pure () : M Unit) s2 = (.ok (), s3) ∧
          Grp x L g name s s3 g2 := by
        split
        · exact ⟨_, rfl, G2.then hp (oneD_below (deleteOthers_step G2.po.step.inv g2 G2.sep ((dictItems x.o keys vals).map (·.1)))) (deleteOthers_ri G2.ou.ri g2 h0 G2.sep _)⟩
        · exact ⟨s2, rfl, G2⟩
      rw [run_bind_ok e5] at h
      rcases bind_run (if x.o.matlab then liftRes (asciiEnc (joinName gname name)) else pure [] : M Bytes) (fun _ =>
          (writeItems x wr g2 (joinName gname name) (dictItems x.o keys vals) >>= fun _ => (pure (some g2) : M (Option Nat)))) s3 with ⟨b, s4, e6, e7⟩ | ⟨e, s4, e6, e7⟩
      · rw [e7] at h
        have h34 : s4 = s3 := by
          split at e6
          · cases ha : asciiEnc (joinName gname name) <;> rw [ha] at e6 <;> cases e6; rfl
          · cases e6; rfl
        subst h34
        have hdot := dictItems_ne_dot hk hv keys vals
        have hit : ∀ (s5 : St) (r5 : Res Unit), writeItems x wr g2 (joinName gname name) (dictItems x.o keys vals) s4 = (r5, s5) → s5.rpos ≤ B → Grp x L g name s s5 g2 := fun s5 r5 e8 hb =>
          G3.then hp (writeItems_step hwr G3.po.step.inv (G3.po.ok g2 rfl).lt G3.sep hdot e8)
            (writeItems_ri hwr hrt G3.ou.ri (G3.po.ok g2 rfl).lt G3.sep hdot (noRef_dictItems hkr hvr) (hB.mono G3.po.step.fr.rpos) hb e8)
        rcases bind_run (writeItems x wr g2 (joinName gname name) (dictItems x.o keys vals)) (fun _ => (pure (some g2) : M (Option Nat))) s4 with ⟨u, s5, e8, e9⟩ | ⟨e, s5, e8, e9⟩
        · rw [e9, run_pure] at h; cases h
          exact (hit _ _ e8 hle).ou.weaken (fun p hpp => by cases hpp; rfl)
        · rw [e9] at h; cases h
          exact (hit _ _ e8 hle).ou.weaken (fun p hpp => by cases hpp)
      · rw [e7] at h
        have h34 : s4 = s3 := by
          split at e6
          · cases ha : asciiEnc (joinName gname name) <;> rw [ha] at e6 <;> cases e6; rfl
          · cases e6
        subst h34
        cases h
        exact G3.ou.weaken (fun p hpp => by cases hpp)
    · rw [e4] at h; cases h
      exact (hattr _ _ e3).ou.weaken (fun p hpp => by cases hpp)
  · rw [e2] at h; cases h
    exact (getGroup_rout hR hp e1).weaken (fun p hpp => by cases hpp)

theorem writeGroup_rout {x : Ctx} {L : Nat → Prop} {B : Nat} {wr : Wr} (hwr : WrOk x wr) (hrt : WrRef x L wr) {s s' : St} {res : Res (Option Nat)} {g : Nat} {gname name : Str}
    (hR : RI x L s) (hp : Pl x B s g name) (hB : RandOk x s.rpos B) (hle : s'.rpos ≤ B)
    {esc : List Str} {others : Bool} {items : List (Str × Val)} {at' : List (Str × AIn)} (hdot : ∀ i ∈ items, i.1 ≠ [dot]) (hv : ∀ i ∈ items, ¬ HasRefArray i.2)
    (h : writeGroup x wr g gname name esc others items at' s = (res, s')) : ROut x L g name s s' (fun p => res = .ok (some p)) := by
  unfold writeGroup at h
  rcases bind_run (getGroup g name) _ s with ⟨g2, s1, e1, e2⟩ | ⟨e, s1, e1, e2⟩
  · rw [e2] at h
    have G1 := getGroup_grp hR hp e1
    have h0 := G1.ou.ne g2 rfl
    obtain ⟨s3, e5, G3⟩ : ∃ s3, (if x.o.deleteUnused then deleteOthers g2 esc else pure () : M Unit) s1 = (.ok (), s3) ∧ Grp x L g name s s3 g2 := by
      split
      · exact ⟨_, rfl, G1.then hp (oneD_below (deleteOthers_step G1.po.step.inv g2 G1.sep esc)) (deleteOthers_ri G1.ou.ri g2 h0 G1.sep _)⟩
      · exact ⟨s1, rfl, G1⟩
    rw [run_bind_ok e5] at h
    have hfl : ∀ (s4 : St) (r4 : Res Unit), writeFields x wr g2 (joinName gname name) others items s3 = (r4, s4) → s4.rpos ≤ B → Grp x L g name s s4 g2 := fun s4 r4 e6 hb =>
      G3.then hp (writeFields_step hwr G3.po.step.inv (G3.po.ok g2 rfl).lt G3.sep hdot e6)
        (writeFields_ri hwr hrt G3.ou.ri (G3.po.ok g2 rfl).lt G3.sep hdot hv (hB.mono G3.po.step.fr.rpos) hb e6)
    rcases bind_run (writeFields x wr g2 (joinName gname name) others items) (fun _ => setAttrsM g2 at' true >>= fun _ => (pure (some g2) : M (Option Nat))) s3
      with ⟨u, s4, e6, e7⟩ | ⟨e, s4, e6, e7⟩
    · have h1 := e7.symm.trans h
      have st4 := (writeFields_step hwr G3.po.step.inv (G3.po.ok g2 rfl).lt G3.sep hdot e6)
      have hattr : ∀ (s5 : St) (r5 : Res Unit), setAttrsM g2 at' true s4 = (r5, s5) → s5.rpos ≤ B → Grp x L g name s s5 g2 := by
        intro s5 r5 e8 hb
        have sta := setAttrsM_step st4.inv g2 at' true e8
        have G4 := hfl _ _ e6 (Nat.le_trans sta.fr.rpos hb)
        exact G4.then hp (oneD_below sta) (setAttrs_ri G4.ou.ri (G4.ou.notA g2 rfl) h0 e8)
      rcases bind_run (setAttrsM g2 at' true) (fun _ => (pure (some g2) : M (Option Nat))) s4 with ⟨u, s5, e8, e9⟩ | ⟨e, s5, e8, e9⟩
      · have h2 := e9.symm.trans h1
        rw [run_pure] at h2; cases h2
        exact (hattr _ _ e8 hle).ou.weaken (fun p hpp => by cases hpp; rfl)
      · have h2 := e9.symm.trans h1
        cases h2
        exact (hattr _ _ e8 hle).ou.weaken (fun p hpp => by cases hpp)
    · have h1 := e7.symm.trans h
      cases h1
      exact (hfl _ _ e6 hle).ou.weaken (fun p hpp => by cases hpp)
  · rw [e2] at h; cases h
    exact (getGroup_rout hR hp e1).weaken (fun p hpp => by cases hpp)

theorem noRef_structItems {o : COpts} {shape : List Nat} {esc : List Str} {elems : List Val} (h : ∀ v ∈ elems, ¬ HasRefArray v) : ∀ i ∈ structItems o shape esc elems, ¬ HasRefArray i.2 := by
  rintro ⟨a, b⟩ hi
  have hb := (List.of_mem_zip hi).2
  rw [List.mem_map] at hb
  obtain ⟨col, h1, h2⟩ := hb
  have hc : ∀ e ∈ col, ¬ HasRefArray e := fun e he => h e (splitCols_mem h1 e he)
  show ¬ HasRefArray b
  rw [← h2]
  unfold fieldValue
  split
  · cases col with
    | nil => exact fun h => by cases h
    | cons e r => exact hc e (by simp)
  · intro hh
    cases hh with
    | npObj _ _ _ e he h => exact hc e he h

theorem writeStruct_rout {x : Ctx} {L : Nat → Prop} {B : Nat} {wr : Wr} (hwr : WrOk x wr) (hrt : WrRef x L wr) {s s' : St} {res : Res (Option Nat)} {g : Nat} {gname name : Str}
    (hR : RI x L s) (hp : Pl x B s g name) (hB : RandOk x s.rpos B) (hle : s'.rpos ≤ B) {c : Cont}
    {shape : List Nat} {names : List Str} {types : List FT} {elems : List Val} {ts : Str} (hv : ∀ v ∈ elems, ¬ HasRefArray v)
    (h : writeStruct x wr g gname name c shape names types elems ts s = (res, s')) : ROut x L g name s s' (fun p => res = .ok (some p)) := by
  rcases writeStruct_cases h with ⟨rfl | rfl, e, rfl⟩ | ⟨_, _, _, rfl, rfl⟩ | ⟨_, esc, he, ⟨_, h⟩ | ⟨_, _, h⟩ | ⟨_, _, _, h⟩⟩
  · exact ROut.refl hR (fun p h => by cases h)
  · obtain ⟨h1, h2, _⟩ := unlink_ri hR hp rfl
    exact ⟨h1, h2, fun _ p h => (by cases h), fun p h => (by cases h), fun p h => (by cases h)⟩
  · exact ROut.refl hR (fun p h => by cases h)
  · exact putAttrs_rout hR hp _ _ (fun h => by cases h) _ h
  · exact writeGroup_rout hwr hrt hR hp hB hle (structItems_ne_dot he) (noRef_structItems hv) h
  · exact putAttrs_rout hR hp _ _ (fun h => by cases h) _ h

theorem leafOf_not_ref {v : Val} {c : Cont} {a : Arr} (hv : ¬ HasRefArray v) (h : leafOf v = some (c, a)) : a.dt ≠ .ref := by
  cases v with
  | np c' a' => cases h; exact fun hd => hv (.np c a hd)
  | int i => rw [leafOf] at h; split at h <;> cases h <;> exact fun hd => by cases hd
  | dtypeObj t => rw [leafOf] at h; split at h <;> cases h; exact fun hd => by cases hd
  | _ => cases h <;> exact fun hd => by cases hd

/-- Writing keeps references valid, whether it succeeds or fails. -/
theorem writeData_ref {x : Ctx} {L : Nat → Prop} (hk : x.o.keysName ≠ [dot]) (hv : x.o.valuesName ≠ [dot]) (n : Nat) : WrRef x L (writeData x n) := by
  induction n with
  | zero =>
    intro s g gname name v s' res B hR hp hB hle hn h
    cases h
    exact ROut.refl hR (fun p h => by cases h)
  | succ n ih =>
    intro s g gname name v s' res B hR hp hB hle hn h
    have hwr := writeData_post hk hv n (x := x)
    have hleaf : ∀ w : Val, ¬ HasRefArray w → (match leafOf w with | some (c, a) => writeNp x g name c a (tsOf w) | none => raise .notImplemented) s = (res, s') →
        ROut x L g name s s' (fun p => res = .ok (some p)) := by
      intro w hw h
      cases hl : leafOf w with
      | none => rw [hl] at h; cases h; exact ROut.refl hR (fun p h => by cases h)
      | some ca =>
        obtain ⟨c, a⟩ := ca
        rw [hl] at h
        exact writeNp_rout hR hp c a _ (leafOf_not_ref hw hl) h
    cases v with
    | npObj c shape elems => exact writeNpObj_rout hwr ih hR hp hB hle c shape elems (fun e he hh => hn (.npObj c shape elems e he hh)) _ h
    | seq k elems => exact writeNpObj_rout hwr ih hR hp hB hle .ndarray _ elems (fun e he hh => hn (.seq k elems e he hh)) _ h
    | dict k keys vals => exact writeDict_rout hk hv hwr ih hR hp hB hle keys vals (fun e he hh => hn (.key k keys vals e he hh)) (fun e he hh => hn (.val k keys vals e he hh)) _ _ h
    | record k vals =>
      have hkr : ∀ e ∈ k.fieldNames.map Val.str, ¬ HasRefArray e := by
        intro e he hh
        rw [List.mem_map] at he
        obtain ⟨t, _, rfl⟩ := he
        cases hh
      exact writeDict_rout hk hv hwr ih hR hp hB hle _ vals hkr (fun e he hh => hn (.record k vals e he hh)) _ _ h
    | npStruct c shape names types elems => exact writeStruct_rout hwr ih hR hp hB hle (fun e he hh => hn (.npStruct c shape names types elems e he hh)) h
    | none => exact hleaf (.none) hn h
    | ellipsis => exact hleaf (.ellipsis) hn h
    | notImplemented => exact hleaf (.notImplemented) hn h
    | bool b => exact hleaf (.bool b) hn h
    | int i => exact hleaf (.int i) hn h
    | float f => exact hleaf (.float f) hn h
    | complex a b => exact hleaf (.complex a b) hn h
    | str t => exact hleaf (.str t) hn h
    | bytes b => exact hleaf (.bytes b) hn h
    | bytearray b => exact hleaf (.bytearray b) hn h
    | np c a => exact hleaf (.np c a) hn h
    | dtypeObj t => exact hleaf (.dtypeObj t) hn h
    | other => exact hleaf (.other) hn h

end HS
