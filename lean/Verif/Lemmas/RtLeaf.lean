import Verif.Lemmas.RtFrame
import Verif.Lemmas.Leaf
import Verif.Props.Attrs
/-
Round trip of data written as one Dataset: the new object and how it is read.
-/
namespace HS
open Spec

/-- A newly made Dataset. -/
theorem putAttrs_fresh {x : Ctx} {s s' : St} {ob : Option Nat} {g : Nat} {name : Str} (hp : Pre x s g name) (hf : Fresh s g name) (a : Arr) (f : Filters)
    (new : List (Str × AIn)) (h : (putDataset g name a f >>= fun p => setAttrsM p new true >>= fun _ => (pure (some p) : M (Option Nat))) s = (.ok ob, s')) :
    ob = some s.heap.length ∧ s'.heap.length = s.heap.length + 1 ∧ LinkAt s'.heap g name s.heap.length ∧ s'.rpos = s.rpos ∧
      ∃ attrs, setAttributesAll [] new true = (.ok (), attrs) ∧ s'.heap[s.heap.length]? = some ⟨attrs, .dset (h5Store a) f.stored⟩ := by
  rcases bind_run (putDataset g name a f) (fun p => setAttrsM p new true >>= fun _ => (pure (some p) : M (Option Nat))) s with ⟨p, s1, e1, e2⟩ | ⟨e, s1, e1, e2⟩
  · have h' := e2.symm.trans h
    unfold putDataset at e1
    rw [run_getSt] at e1
    have hl : (if nameOk name = true then hlook s.heap g name else none) = none := by
      split
      · rw [hlook_plain _ _ _ hp.nd]
        cases ha : aget (linksOf s.heap g) name with
        | none => rfl
        | some q => exact absurd ha (hf q)
      · rfl
    rw [hl] at e1
    obtain ⟨_, h2⟩ := create_at hp _ rfl e1
    obtain ⟨_, _, c1, c2, c3, c4, c5, c6⟩ := h2 p rfl
    subst c1
    rcases bind_run (setAttrsM s.heap.length new true) (fun _ => (pure (some s.heap.length) : M (Option Nat))) s1 with ⟨u, s2, e3, e4⟩ | ⟨e, s2, e3, e4⟩
    · have h'' := e4.symm.trans h'
      rw [run_pure] at h''
      cases h''
      unfold setAttrsM at e3
      rw [c2] at e3
      dsimp only at e3
      cases hs : setAttributesAll [] new true with
      | mk r attrs =>
        rw [hs] at e3
        cases e3
        have hlen : s1.heap.length = s.heap.length + 1 := by rw [c3]; exact createHeap_length _ _ _ _
        refine ⟨rfl, ?_, ?_, ?_, attrs, rfl, ?_⟩
        · simp [hlen]
        · unfold LinkAt at c4 ⊢
          rw [linksOf_obj] at c4 ⊢
          dsimp only
          have hne : s.heap.length ≠ g := by have := hp.glt; omega
          rw [List.getElem?_set_ne hne]
          exact c4
        · rw [c3]
        · rw [List.getElem?_set_self (by omega)]
    · have h'' := e4.symm.trans h'
      cases h''
  · have h' := e2.symm.trans h
    cases h'

/-- Attributes of a newly made object. -/
theorem fresh_attr {new : List (Str × AIn)} {attrs : List (Str × AVal)} (hnd : (akeys new).Nodup) (h : setAttributesAll [] new true = (.ok (), attrs)) (k : Str) :
    aget attrs k = (aget new k).bind fun i => i.stored.toOption := by
  have hC := C16_fresh new true attrs hnd h
  cases hk : aget new k with
  | none =>
    refine hC.2 k ?_
    intro i hm
    have : k ∈ akeys new := List.mem_map.mpr ⟨_, hm, rfl⟩
    exact (aget_none_iff new k).mp hk this
  | some i =>
    obtain ⟨v, hd, hv⟩ := hC.1 k i (aget_mem new k i hk)
    rw [hv]
    -- the value that is stored
    have hloop : ∃ w, i.stored = .ok w := by
      unfold setAttributesAll at h
      split at h
      · rename_i cur hcur
        have := setAttrsLoop_ok [] new [] cur hnd hcur k
        rw [hk] at this
        obtain ⟨w, hw, _⟩ := this
        unfold setAttrOne at hw
        cases hs : i.stored with
        | ok v => exact ⟨v, rfl⟩
        | error e => rw [hs] at hw; cases hw
      · cases h
    obtain ⟨w, hw⟩ := hloop
    have := denotes_unique i w v (stored_denotes i w hw) hd
    subst this
    simp [hw, Except.toOption]

/-- Every attribute given could be stored. -/
theorem fresh_stored {new : List (Str × AIn)} {attrs : List (Str × AVal)} (hnd : (akeys new).Nodup) (h : setAttributesAll [] new true = (.ok (), attrs)) {k : Str} {i : AIn}
    (hk : aget new k = some i) : ∃ v, i.stored = .ok v ∧ aget attrs k = some v := by
  have := fresh_attr hnd h k
  rw [hk] at this
  have hC := (C16_fresh new true attrs hnd h).1 k i (aget_mem new k i hk)
  obtain ⟨v, _, hv⟩ := hC
  rw [hv, Option.bind_some] at this
  cases hs : i.stored with
  | error e => rw [hs] at this; cases this
  | ok w => rw [hs] at this; cases this; exact ⟨v, rfl, hv⟩

theorem utf8Dec_ascii (u : List Nat) (h : ∀ x ∈ u, x < 128) : utf8Dec u = .ok u := utf8Dec_enc u u (utf8Enc_ascii u h)

theorem stored_string {s : Str} {v : AVal} (h : AIn.stored (.string s) = .ok v) : v = .bytes s ∧ ∀ c ∈ s, c < 128 := by
  rw [AIn.stored, asciiEnc] at h
  by_cases ha : s.all (· < 128) = true
  · rw [if_pos ha] at h
    cases h
    exact ⟨rfl, by simpa using ha⟩
  · rw [if_neg ha] at h
    cases h

/-- A string attribute of a newly made object reads back. -/
theorem fresh_string {new : List (Str × AIn)} {attrs : List (Str × AVal)} (hnd : (akeys new).Nodup) (h : setAttributesAll [] new true = (.ok (), attrs)) {k s : Str}
    (hk : aget new k = some (.string s)) : attrToString (aget attrs k) = .ok (some s) := by
  obtain ⟨v, h1, h2⟩ := fresh_stored hnd h hk
  obtain ⟨rfl, ha⟩ := stored_string h1
  rw [h2]
  show (utf8Dec s >>= fun t => Except.ok (some t)) = _
  rw [utf8Dec_ascii s ha]
  rfl

theorem fresh_none {new : List (Str × AIn)} {attrs : List (Str × AVal)} (hnd : (akeys new).Nodup) (h : setAttributesAll [] new true = (.ok (), attrs)) {k : Str}
    (hk : aget new k = none) : aget attrs k = none := by
  rw [fresh_attr hnd h, hk]; rfl

theorem fresh_value {new : List (Str × AIn)} {attrs : List (Str × AVal)} (hnd : (akeys new).Nodup) (h : setAttributesAll [] new true = (.ok (), attrs)) {k : Str} {v : AVal}
    (hk : aget new k = some (.value v)) : aget attrs k = some v := by
  rw [fresh_attr hnd h, hk]; rfl

theorem fresh_strings {new : List (Str × AIn)} {attrs : List (Str × AVal)} (hnd : (akeys new).Nodup) (h : setAttributesAll [] new true = (.ok (), attrs)) {k : Str} {l : List Str}
    (hk : aget new k = some (.stringArray l)) : aget attrs k = some (.strs l) := by
  obtain ⟨v, h1, h2⟩ := fresh_stored hnd h hk
  rw [AIn.stored] at h1
  split at h1
  · cases h1; exact h2
  · cases h1

/-- H5PATH does not hide other attributes. -/
theorem aget_view (o : Obj) (k : Str) (hk : k ≠ p!"H5PATH") : aget o.view.attrs k = aget o.attrs k := by
  unfold Obj.view
  rw [aget_adel, if_neg hk]

/-- The attributes of numpy data are different. -/
theorem npAttrs_nodup (o : COpts) (c : Cont) (dt : DT) (shape : List Nat) (e : Bool) (st : DT) (ts : Str) : (akeys (npAttrs o c dt shape e st ts)).Nodup := by
  unfold npAttrs
  cases o.pyMeta <;> cases e <;> cases o.matlab <;> cases dt.matlabClass <;> cases (dt.isString || dt == .bool) <;> exact of_decide_eq_true rfl

theorem npAttrs_get (o : COpts) (hm : o.pyMeta = true) (c : Cont) (dt : DT) (shape : List Nat) (e : Bool) (st : DT) (ts : Str) :
    aget (npAttrs o c dt shape e st ts) p!"Python.Type" = some (.string ts) ∧
    aget (npAttrs o c dt shape e st ts) p!"Python.Shape" = some (.value (.u64s shape)) ∧
    aget (npAttrs o c dt shape e st ts) p!"Python.numpy.UnderlyingType" = some (.string dt.name) ∧
    aget (npAttrs o c dt shape e st ts) p!"Python.numpy.Container" = some (.string c.name) ∧
    aget (npAttrs o c dt shape e st ts) p!"Python.Fields" = none ∧
    aget (npAttrs o c dt shape e st ts) p!"MATLAB_fields" = none ∧
    aget (npAttrs o c dt shape e st ts) p!"Python.Empty" = (if e then some (.value (.int .u8 1)) else none) ∧
    aget (npAttrs o c dt shape e st ts) p!"MATLAB_class" = (if o.matlab then dt.matlabClass.map AIn.string else none) := by
  unfold npAttrs
  rw [hm]
  cases e <;> cases o.matlab <;> cases dt.matlabClass <;> cases (dt.isString || dt == .bool) <;> exact ⟨rfl, rfl, rfl, rfl, rfl, rfl, rfl, rfl⟩

/-- Reading a Dataset with the Python metadata and no names of fields. -/
theorem readNp_dset {ob : Obj} {a : Arr} {f : Filters} {ts u : Str} {shape : List Nat} {cont mc : Option Str} {e : Bool} (hb : ob.body = .dset a f)
    (h1 : attrToString (aget ob.attrs p!"Python.Type") = .ok (some ts)) (h2 : attrToString (aget ob.attrs p!"Python.numpy.UnderlyingType") = .ok (some u))
    (h3 : attrToString (aget ob.attrs p!"Python.numpy.Container") = .ok cont) (h4 : aget ob.attrs p!"Python.Fields" = none)
    (h5 : attrToString (aget ob.attrs p!"MATLAB_class") = .ok mc) (h6 : aget ob.attrs p!"MATLAB_fields" = none)
    (h7 : aget ob.attrs p!"Python.Shape" = some (.u64s shape)) (h8 : attrIsOne (aget ob.attrs p!"Python.Empty") = e) (mu : Nat → Bool) (rd : Rd) (ro : COpts)
    (excl : Option Nat) : readNp mu rd ro excl ob = (readDset rd a >>= fun d => npFinish ro ts u shape cont e mc d) := by
  unfold readNp finish
  rw [hb, h1, h2, h3, h4, h5, h6, h7, h8]
  rfl

/-- Reading the attributes of a new Dataset and its data. -/
theorem readNp_fresh {o : COpts} (hm : o.pyMeta = true) {c : Cont} {dt : DT} {shape : List Nat} {e : Bool} {st : DT} {ts : Str} {attrs : List (Str × AVal)}
    (h : setAttributesAll [] (npAttrs o c dt shape e st ts) true = (.ok (), attrs)) (a : Arr) (f : Filters) (ro : COpts) (mu : Nat → Bool) (rd : Rd) (excl : Option Nat) :
    attrToString (aget (Obj.view ⟨attrs, .dset a f⟩).attrs p!"Python.Type") = .ok (some ts) ∧
    attrToString (aget (Obj.view ⟨attrs, .dset a f⟩).attrs p!"MATLAB_class") = .ok (mcOf o dt) ∧
    readNp mu rd ro excl (Obj.view ⟨attrs, .dset a f⟩) = (readDset rd a >>= fun d => npFinish ro ts dt.name shape (some c.name) e (mcOf o dt) d) := by
  have hnd := npAttrs_nodup o c dt shape e st ts
  obtain ⟨g1, g2, g3, g4, g5, g6, g7, g8⟩ := npAttrs_get o hm c dt shape e st ts
  have v : ∀ k, k ≠ p!"H5PATH" → aget (Obj.view ⟨attrs, .dset a f⟩).attrs k = aget attrs k := fun k hk => aget_view _ k hk
  have hts := fresh_string hnd h g1
  have hmc : attrToString (aget attrs p!"MATLAB_class") = .ok (mcOf o dt) := by
    unfold mcOf
    cases ho : o.matlab with
    | false =>
      rw [ho] at g8
      rw [fresh_none hnd h g8]; rfl
    | true =>
      rw [ho] at g8
      cases hd : dt.matlabClass with
      | none => rw [hd] at g8; rw [fresh_none hnd h g8]; rfl
      | some cl => rw [hd] at g8; rw [fresh_string hnd h g8]; rfl
  have hem : attrIsOne (aget attrs p!"Python.Empty") = e := by
    cases e with
    | false => rw [fresh_none hnd h g7]; rfl
    | true => rw [fresh_value hnd h g7]; rfl
  refine ⟨by rw [v _ (by decide)]; exact hts, by rw [v _ (by decide)]; exact hmc, ?_⟩
  exact readNp_dset rfl (by rw [v _ (by decide)]; exact hts) (by rw [v _ (by decide)]; exact fresh_string hnd h g3) (by rw [v _ (by decide)]; exact fresh_string hnd h g4)
    (by rw [v _ (by decide)]; exact fresh_none hnd h g5) (by rw [v _ (by decide)]; exact hmc) (by rw [v _ (by decide)]; exact fresh_none hnd h g6)
    (by rw [v _ (by decide)]; exact fresh_value hnd h g2) (by rw [v _ (by decide)]; exact hem) mu rd ro excl

end HS
