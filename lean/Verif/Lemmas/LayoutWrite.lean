import Verif.Lemmas.LayoutLoop
import Verif.Lemmas.RtTable
/-
The layout of a value in the file: the writers.
-/
namespace HS
open Spec

theorem rowShape_2d (o : COpts) (s : List Nat) : RowShape o s = shape2d o s := by
  rw [rowShape_eq]
  rfl

theorem storedShape_eq (o : COpts) (s : List Nat) : StoredShape o s = if o.reverse then (shape2d o s).reverse else shape2d o s := by
  unfold StoredShape
  rw [rowShape_2d]

theorem inOrder_of {o : COpts} {sh : List Nat} {e : List Val} (hl : e.length = prodN sh) : InOrder o sh e (if o.reverse then transposeData (shape2d o sh) e else e) where
  count := by
    split
    · rw [length_transposeData, prodN_shape2d]
    · exact hl
  elems := by
    intro i hi
    rw [storedShape_eq, rowShape_2d] at *
    cases hr : o.reverse with
    | false => simp
    | true =>
      simp only [if_true]
      exact getElem?_transposeData _ _ _ (indexOf_valid hi) (by rw [prodN_shape2d]; exact hl)

theorem notDiscarded_npObj {o : COpts} {c : Cont} {sh : List Nat} {e : List Val} : ¬ Discarded o (.npObj c sh e) := by
  rintro ⟨_, _, ⟨_, _, h, _⟩ | ⟨_, _, _, _, _, _, h⟩⟩ <;> cases h

/-- All elements of the object array. -/
theorem all2_elems {x : Ctx} {s s' : St} {r : Nat} {el : List Val} {ps : List (Nat × Str)} (h : All2 (ElemLaid x s s' r) el ps) {i : Nat} {w : Val} {p : Nat × Str}
    (h1 : el[i]? = some w) (h2 : ps[i]? = some p) : ElemLaid x s s' r w p := by
  induction h generalizing i with
  | nil => simp at h1
  | cons h0 _ ih =>
    cases i with
    | zero => simp at h1 h2; subst h1; subst h2; exact h0
    | succ i => simp at h1 h2; exact ih h1 h2

theorem writeNpObj_laid {x : Ctx} {B : Nat} {wr : Wr} (hw : WrAll x wr) (hne : refsComps x.o ≠ []) {s s' : St} {q : Nat} {g : Nat} {name : Str} {ns : List Str}
    (hR : RI x noL s) (hp : Pl x B s g name) (hf : Fresh s g name) (hB : RandOk x s.rpos B) (hle : s'.rpos ≤ B) (c : Cont) (shape : List Nat) (elems : List Val) (ts : Str) {v : Val}
    (hv : ∀ w ∈ elems, Regular x.o w) (hl : elems.length = prodN shape) (hE : ∀ P, PartFor v P → Elements P shape elems)
    (hdoc : ∀ (d : Arr) (f : Filters) (at' : List (Str × AVal)), (d.dt = if x.o.storeShape && prodN shape == 0 then .u64 else .ref) →
      setAttributesAll [] (npAttrs x.o c .object shape (prodN shape == 0) d.dt ts) true = (.ok (), at') → ∀ k a, aget at' k = some a ↔ DocAttr x.o (.dset (h5Store d) f) v k a)
    (h : writeNpObj x wr g name c shape elems ts s = (.ok (some q), s')) : LOut x s s' ns q v := by
  have po := writeNpObj_post hw.ok hp.pre c shape elems ts h
  have t := po.ok q rfl
  unfold writeNpObj at h
  by_cases h0 : (x.o.storeShape && prodN shape == 0) = true
  · rw [if_pos h0] at hdoc
    simp only [h0, if_true] at h
    rw [run_pure_bind] at h
    obtain ⟨h1, h2, h3, _, attrs, h4, h5⟩ := putAttrs_fresh hp.pre hf _ _ _ h
    cases h1
    have hd := hdoc _ (filtersFor x.o (shapeArr (if x.o.reverse then (if x.o.reverse then (shape2d x.o shape).reverse else shape2d x.o shape).reverse else (if x.o.reverse then (shape2d x.o shape).reverse else shape2d x.o shape)))).stored attrs rfl h4
    rw [Bool.and_eq_true, beq_iff_eq] at h0
    have harr : shapeArr (if x.o.reverse then (if x.o.reverse then (shape2d x.o shape).reverse else shape2d x.o shape).reverse else (if x.o.reverse then (shape2d x.o shape).reverse else shape2d x.o shape)) =
        ⟨.u64, [(RowShape x.o shape).length], (RowShape x.o shape).map fun d => .num (Int.ofNat d)⟩ := by
      rw [rowShape_2d]
      cases x.o.reverse <;> simp [shapeArr]
    refine ⟨⟨Nat.le_refl _, t.lt, t.off⟩, attrs, _, h5, hd, ?_⟩
    intro h' at' path P hK ho ha hL hP
    exact .shape hL ho ha (.inl ⟨elems, hE P hP⟩) h0.1 (prodN_zero.mp h0.2) harr
  · rw [if_neg h0] at hdoc
    rw [if_neg h0] at h
    change (((writeObjectArray x wr (if x.o.reverse then transposeData (shape2d x.o shape) elems else elems)) >>= fun refs =>
      (pure ⟨.ref, (if x.o.reverse then (shape2d x.o shape).reverse else shape2d x.o shape), refs.map El.ref⟩ : M Arr)) >>= fun d =>
      (putDataset g name d (filtersFor x.o d) >>= fun p => setAttrsM p (npAttrs x.o c .object shape (prodN shape == 0) d.dt ts) true >>= fun _ => (pure (some p) : M (Option Nat)))) s = _ at h
    have hsub : ∀ e ∈ (if x.o.reverse = true then transposeData (shape2d x.o shape) elems else elems), Regular x.o e := by
      intro e he
      split at he
      · exact hv e (mem_transposeData _ _ (by rw [hl, prodN_shape2d]) e he)
      · exact hv e he
    have hio := inOrder_of (o := x.o) hl
    have hsh := storedShape_eq x.o shape
    generalize (if x.o.reverse = true then transposeData (shape2d x.o shape) elems else elems) = el at h hsub hio
    generalize (if x.o.reverse = true then (shape2d x.o shape).reverse else shape2d x.o shape) = sh' at h hsh
    subst hsh
    rcases bind_run (writeObjectArray x wr el >>= fun refs => (pure ⟨.ref, StoredShape x.o shape, refs.map El.ref⟩ : M Arr)) _ s with ⟨d, s1, e1, e2⟩ | ⟨e, s1, e1, e2⟩
    · rw [e2] at h
      rcases bind_run (writeObjectArray x wr el) (fun refs => (pure ⟨.ref, StoredShape x.o shape, refs.map El.ref⟩ : M Arr)) s with ⟨l, s2, e3, e4⟩ | ⟨e, s2, e3, e4⟩
      · rw [e4, run_pure] at e1; cases e1
        have st := writeObjectArray_step hw.ok hp.pre.inv e3
        have po1 := putAttrs_post (hp.pre.keep st) _ _ _ h
        have hb1 : s1.rpos ≤ B := Nat.le_trans po1.step.fr.rpos hle
        have hp1 := hp.keep st hb1
        have hf1 := hf.keep st hp.pre hp.slot hb1
        have st1 := po1.fresh hf1
        obtain ⟨r, ps, hr, hl1, hall⟩ := writeObjectArray_laid hw hne hR hsub hB hb1 e3
        obtain ⟨a1, a2, a3⟩ := writeObjectArray_ri hw.ok hw.ref hR (fun w hw' => regular_noRef (hsub w hw')) hB hb1 e3
        have ou := putAttrs_rout a1 hp1 _ _ (by
          intro _ r hr
          change El.ref r ∈ l.map El.ref at hr
          rw [List.mem_map] at hr
          obtain ⟨q, h1, h2⟩ := hr
          cases h2
          exact a3 l rfl r h1) _ h
        obtain ⟨h1, h2, h3, _, attrs, h4, h5⟩ := putAttrs_fresh hp1.pre hf1 _ _ _ h
        cases h1
        have hd := hdoc _ (filtersFor x.o ⟨.ref, StoredShape x.o shape, l.map El.ref⟩).stored attrs rfl h4
        refine ⟨⟨st.fr.len, t.lt, t.off⟩, attrs, _, h5, hd, ?_⟩
        intro h' at' path P hK ho ha hL hP
        have hlen : el.length = ps.length := all2_length hall
        have hkept : Kept x s s1 h' := by
          refine ⟨fun p hpn => ?_, hK.refs.before ou.keep⟩
          have hne' : p ≠ s1.heap.length := by have := hpn.2.1; omega
          rw [hK.objs p (hpn.later (Nat.le_refl _) st1.fr) hne']
          refine st1.fr.same p hpn.2.1 (fun h => h) (fun k hA => ?_) hpn.2.2
          have h1 := hA.1
          have := hpn.1
          have := hp.pre.glt
          omega
        refine .refs (ids := l) (nms := ps.map (·.2)) hL ho ha (hE P hP) (fun hc => h0 (by simp [hc.1, prodN_zero.mpr hc.2])) hio (by rw [hl1, List.length_map, hlen]) (by rw [List.length_map, hlen]) ?_ ?_
        · intro i w r' h1 h2 hdis
          rw [hl1, List.getElem?_map] at h2
          cases hpi : ps[i]? with
          | none => rw [hpi] at h2; cases h2
          | some p =>
            rw [hpi] at h2
            cases h2
            exact hkept.refs r _ _ hr ((all2_elems hall h1 hpi).left hdis)
        · intro i w r' nm h1 h2 hnm hdis
          rw [hl1, List.getElem?_map] at h2
          rw [List.getElem?_map] at hnm
          cases hpi : ps[i]? with
          | none => rw [hpi] at h2; cases h2
          | some p =>
            rw [hpi] at h2 hnm
            cases h2
            cases hnm
            have he := all2_elems hall h1 hpi
            exact (he.done hdis).laid h' hkept (hkept.refs r _ _ hr (he.link hdis))
      · rw [e4] at e1; cases e1
    · rw [e2] at h; cases h

theorem leftOut_part {o : COpts} {col : Bool} {v : Val} (hcol : col = true → ∃ sh e, v = .npObj .ndarray sh e) : LeftOut o (partFor col v) ↔ Discarded o v := by
  cases col with
  | false =>
    constructor
    · rintro ⟨w, hw, h⟩
      have : w = v := by injection (show Part.value w = Part.value v from hw.symm)
      rw [← this]; exact h
    · intro h; exact ⟨v, rfl, h⟩
  | true =>
    obtain ⟨sh, e, rfl⟩ := hcol rfl
    constructor
    · rintro ⟨w, hw, h⟩; cases hw
    · intro h; exact absurd h notDiscarded_npObj

theorem group_laid {x : Ctx} {ns : List Str} {col : Bool} {fin : Nat → M Unit} (hfin : FinOk x (groupName ns) col fin) {B : Nat} {wr : Wr} (hw : WrAll x wr) {s s3 s4 s' : St} {g2 : Nat}
    {items : List (Str × Val)} {v : Val} (hnew : NewObj x s s' g2) (hR : RI x noL s3) (hl03 : s.heap.length ≤ s3.heap.length) (hg : g2 < s3.heap.length) (hs : Sep x s3 g2)
    {at3 : List (Str × AVal)} (hob3 : s3.heap[g2]? = some ⟨at3, .group []⟩) (hk : ∀ i ∈ items, i.1 ≠ [dot]) (hnd : (items.map (·.1)).Nodup) (hrg : ∀ i ∈ items, Regular x.o i.2)
    (hcol : col = true → ∀ i ∈ items, ∃ sh e, i.2 = .npObj .ndarray sh e) (hns : ∀ n ∈ ns, n ≠ []) (hB : RandOk x s3.rpos B) (hle : s4.rpos ≤ B)
    (h : itemLoop wr fin g2 (absName ns) items s3 = (.ok (), s4)) {A D} (hfr : Fr x A D s4 s') (hk4 : KeepRefs x s4 s') (hoth : ∀ p : Nat, p ≠ g2 → s'.heap[p]? = s4.heap[p]?)
    (hlnk : linksOf s'.heap g2 = linksOf s4.heap g2) {at' : List (Str × AVal)} {links : List (Str × Nat)} (hob : s'.heap[g2]? = some ⟨at', .group links⟩)
    (hdoc : ∀ k a, aget at' k = some a ↔ DocAttr x.o (.group links) v k a) (hGF : GroupFor x.o v) (hFO : FieldsOf x.o v (items.map (·.1)) (items.map fun i => partFor col i.2))
    (hpf : ∀ P, PartFor v P → P = .value v) : LOut x s s' ns g2 v := by
  have hlinks3 : linksOf s3.heap g2 = [] := by rw [linksOf_obj, hob3]; rfl
  have hlinks : linksOf s4.heap g2 = links := by rw [← hlnk, linksOf_obj, hob]; rfl
  have hnl : NoLoop s3 g2 := by
    intro k p hl
    unfold LinkAt at hl
    rw [hlinks3] at hl
    cases hl
  obtain ⟨st, hR4, hk34, hfl⟩ := itemLoop_laid hfin hw hR hg hs hnl hk (fun i _ q hq => by unfold LinkAt at hq; rw [hlinks3] at hq; cases hq) hnd hrg hcol hns hB hle h
  have honly : ∀ k r, aget links k = some r → k ∈ items.map (·.1) := by
    intro k q hq
    apply Classical.byContradiction
    intro hn
    have := st.fr.links g2 hg (fun h => h) k (fun hA => hn hA.2) (fun hc => hs g2 .refl hc.onPath)
    rw [hlinks, hlinks3, hq] at this
    cases this
  refine ⟨hnew, at', _, hob, hdoc, ?_⟩
  intro h' at'' path P hK ho ha hL hP
  have hPv := hpf P hP
  subst hPv
  have hkept : Kept x s3 s4 h' := by
    refine ⟨fun p hpn => ?_, hK.refs.before hk4⟩
    have hne : p ≠ g2 := by have := hpn.1; omega
    rw [hK.objs p (hpn.later hl03 hfr) hne, hoth p hne]
  have hget : ∀ {i : Nat} {k : Str} {P : Part}, (items.map (·.1))[i]? = some k → (items.map fun i => partFor col i.2)[i]? = some P → ∃ w, (k, w) ∈ items ∧ P = partFor col w := by
    intro i k P h1 h2
    rw [List.getElem?_map] at h1 h2
    cases hi : items[i]? with
    | none => rw [hi] at h1; cases h1
    | some it =>
      rw [hi] at h1 h2
      cases h1
      cases h2
      exact ⟨it.2, List.mem_of_getElem? hi, rfl⟩
  refine .group hL ho ha hGF hFO (by simp) ?_ ?_
  · intro k
    constructor
    · rintro ⟨r, hr⟩
      obtain ⟨it, h1, h2⟩ := List.mem_map.mp (honly k r hr)
      obtain ⟨i, hi⟩ := List.mem_iff_getElem?.mp h1
      refine ⟨i, partFor col it.2, by rw [List.getElem?_map, hi, ← h2]; rfl, by rw [List.getElem?_map, hi]; rfl, ?_⟩
      rw [leftOut_part (fun hc => hcol hc it h1)]
      intro hd
      refine (hfl it h1).left hd r ?_
      unfold LinkAt
      rw [hlinks, h2]
      exact hr
    · rintro ⟨i, P, h1, h2, h3⟩
      obtain ⟨w, h4, rfl⟩ := hget h1 h2
      rw [leftOut_part (fun hc => hcol hc (k, w) h4)] at h3
      obtain ⟨q, h5, _⟩ := (hfl (k, w) h4).done h3
      unfold LinkAt at h5
      rw [hlinks] at h5
      exact ⟨q, h5⟩
  · intro i k P r h1 h2 hr
    obtain ⟨w, h4, rfl⟩ := hget h1 h2
    by_cases hd : Discarded x.o w
    · have hnl := (hfl (k, w) h4).left hd r
      unfold LinkAt at hnl
      rw [hlinks] at hnl
      exact absurd hr hnl
    · obtain ⟨q, h5, h6⟩ := (hfl (k, w) h4).done hd
      unfold LinkAt at h5
      rw [hlinks, hr] at h5
      cases h5
      refine h6.laid h' hkept (.snoc hL ?_)
      unfold LinkAt
      rw [linksOf_obj, ho]
      exact hr

end HS
