import Verif.Lemmas.DictEntries
import Verif.Lemmas.RtAll
import Verif.Lemmas.MatStruct
import Verif.Spec.Overwrite
/-
Attributes set on an object that has some already.
-/
namespace HS
open Spec

/-- Nothing old is in the way. -/
def FitsOld (old : List (Str × AVal)) (new : List (Str × AIn)) : Prop := ∀ k i, aget new k = some i → setAttrOne k (aget old k) i = i.stored

theorem setAttrOne_none (k : Str) (i : AIn) : setAttrOne k none i = i.stored := by
  unfold setAttrOne
  cases hs : i.stored with
  | error e => rfl
  | ok v => cases i <;> rfl

theorem setAttrsLoop_run (ex : List (Str × AVal)) (new : List (Str × AIn)) (cur : List (Str × AVal)) (h : ∀ k i, (k, i) ∈ new → ∃ v, setAttrOne k (aget ex k) i = .ok v) :
    ∃ cur', setAttrsLoop ex new cur = (.ok (), cur') := by
  induction new generalizing cur with
  | nil => exact ⟨_, rfl⟩
  | cons p r ih =>
    obtain ⟨k, i⟩ := p
    obtain ⟨v, hv⟩ := h k i (by simp)
    rw [setAttrsLoop, hv]
    exact ih _ fun k i hm => h k i (by simp [hm])

/-- The attributes are what they are on a new object. -/
theorem setAttrs_fits {old : List (Str × AVal)} {new : List (Str × AIn)} {a : List (Str × AVal)} (hnd : (akeys new).Nodup) (hf : FitsOld old new)
    (h : setAttributesAll old new true = (.ok (), a)) : ∃ b, setAttributesAll [] new true = (.ok (), b) ∧ ∀ k, aget a k = aget b k := by
  unfold setAttributesAll at h
  cases hl : setAttrsLoop old new old with
  | mk r cur =>
    rw [hl] at h
    cases r with
    | error e => cases h
    | ok u =>
      cases h
      have h1 := setAttrsLoop_ok old new old cur hnd hl
      have hmem : ∀ k i, (k, i) ∈ new → aget new k = some i := fun k i hm => (aget_iff_mem hnd).mpr hm
      obtain ⟨cur', hl'⟩ := setAttrsLoop_run [] new [] (by
        intro k i hm
        have hk := hmem k i hm
        have := h1 k
        rw [hk] at this
        obtain ⟨v, hv, _⟩ := this
        exact ⟨v, by rw [show aget ([] : List (Str × AVal)) k = none from rfl, setAttrOne_none, ← hf k i hk, hv]⟩)
      have h2 := setAttrsLoop_ok [] new [] cur' hnd hl'
      refine ⟨_, by unfold setAttributesAll; rw [hl'], ?_⟩
      intro k
      simp only [if_true]
      rw [aget_filter, aget_filter]
      by_cases hk : (akeys new).contains k = true
      · rw [if_pos hk, if_pos hk]
        have hk' : k ∈ akeys new := by simpa using hk
        obtain ⟨i, hi⟩ := Option.isSome_iff_exists.mp ((aget_isSome_iff new k).mpr hk')
        have a1 := h1 k
        have a2 := h2 k
        rw [hi] at a1 a2
        obtain ⟨v, v1, v2⟩ := a1
        obtain ⟨w, w1, w2⟩ := a2
        rw [show aget ([] : List (Str × AVal)) k = none from rfl, setAttrOne_none, ← hf k i hi, v1] at w1
        cases w1
        rw [v2, w2]
      · rw [if_neg hk, if_neg hk]

/-- The same but for one attribute. -/
theorem setAttrs_but {old : List (Str × AVal)} {new : List (Str × AIn)} {a : List (Str × AVal)} (hnd : (akeys new).Nodup) (k0 : Str)
    (hf : ∀ k i, k ≠ k0 → aget new k = some i → setAttrOne k (aget old k) i = i.stored) (h : setAttributesAll old new true = (.ok (), a)) :
    ∃ b, setAttributesAll [] new true = (.ok (), b) ∧ (∀ k, k ≠ k0 → aget a k = aget b k) ∧ (aget new k0 = none → aget a k0 = none ∧ aget b k0 = none) ∧
      ∀ i, aget new k0 = some i → ∃ v w, setAttrOne k0 (aget old k0) i = .ok v ∧ aget a k0 = some v ∧ i.stored = .ok w ∧ aget b k0 = some w := by
  unfold setAttributesAll at h
  cases hl : setAttrsLoop old new old with
  | mk r cur =>
    rw [hl] at h
    cases r with
    | error e => cases h
    | ok u =>
      cases h
      have h1 := setAttrsLoop_ok old new old cur hnd hl
      have hmem : ∀ k i, (k, i) ∈ new → aget new k = some i := fun k i hm => (aget_iff_mem hnd).mpr hm
      have hst : ∀ k i, aget new k = some i → ∃ v, i.stored = .ok v := by
        intro k i hk
        have := h1 k
        rw [hk] at this
        obtain ⟨v, hv, _⟩ := this
        unfold setAttrOne at hv
        cases hs : i.stored with
        | error e => rw [hs] at hv; cases hv
        | ok w => exact ⟨w, rfl⟩
      obtain ⟨cur', hl'⟩ := setAttrsLoop_run [] new [] (by
        intro k i hm
        obtain ⟨v, hv⟩ := hst k i (hmem k i hm)
        exact ⟨v, by rw [show aget ([] : List (Str × AVal)) k = none from rfl, setAttrOne_none, hv]⟩)
      have h2 := setAttrsLoop_ok [] new [] cur' hnd hl'
      refine ⟨_, by unfold setAttributesAll; rw [hl'], ?_, ?_, ?_⟩
      · intro k hne
        simp only [if_true]
        rw [aget_filter, aget_filter]
        by_cases hk : (akeys new).contains k = true
        · rw [if_pos hk, if_pos hk]
          have hk' : k ∈ akeys new := by simpa using hk
          obtain ⟨i, hi⟩ := Option.isSome_iff_exists.mp ((aget_isSome_iff new k).mpr hk')
          have a1 := h1 k
          have a2 := h2 k
          rw [hi] at a1 a2
          obtain ⟨v, v1, v2⟩ := a1
          obtain ⟨w, w1, w2⟩ := a2
          rw [show aget ([] : List (Str × AVal)) k = none from rfl, setAttrOne_none, ← hf k i hne hi, v1] at w1
          cases w1
          rw [v2, w2]
        · rw [if_neg hk, if_neg hk]
      · intro hn
        simp only [if_true]
        rw [aget_filter, aget_filter]
        have hk : ¬ (akeys new).contains k0 = true := by
          intro hk
          have hk' : k0 ∈ akeys new := by simpa using hk
          have := (aget_isSome_iff new k0).mpr hk'
          rw [hn] at this
          cases this
        rw [if_neg hk, if_neg hk]
        exact ⟨rfl, rfl⟩
      · intro i hi
        simp only [if_true]
        rw [aget_filter, aget_filter]
        have hk : (akeys new).contains k0 = true := by
          have := (aget_isSome_iff new k0).mp (by rw [hi]; rfl)
          simpa using this
        rw [if_pos hk, if_pos hk]
        have a1 := h1 k0
        have a2 := h2 k0
        rw [hi] at a1 a2
        obtain ⟨v, v1, v2⟩ := a1
        obtain ⟨w, w1, w2⟩ := a2
        rw [show aget ([] : List (Str × AVal)) k0 = none from rfl, setAttrOne_none] at w1
        exact ⟨v, w, v1, v2, w1, w2⟩

/-- An attribute that had the value `i` before can be given the value `j`. -/
def AFits (k : Str) (i j : AIn) : Prop := ∀ w, i.stored = .ok w → setAttrOne k (some w) j = j.stored

/-- The same for all of them. -/
def FitsNew (old new : List (Str × AIn)) : Prop := ∀ k i j, aget old k = some i → aget new k = some j → AFits k i j

/-- The attributes of an object are some of these. -/
def AttrsOf (new : List (Str × AIn)) (attrs : List (Str × AVal)) : Prop :=
  ∀ k v, k ≠ p!"H5PATH" → aget attrs k = some v → ∃ i, aget new k = some i ∧ i.stored = .ok v

theorem fitsOld_of {old new : List (Str × AIn)} {attrs : List (Str × AVal)} (h0 : aget new p!"H5PATH" = none) (h : FitsNew old new) (ha : AttrsOf old attrs) : FitsOld attrs new := by
  intro k i hk
  cases hv : aget attrs k with
  | none => exact setAttrOne_none k i
  | some v =>
    have hne : k ≠ p!"H5PATH" := by rintro rfl; rw [h0] at hk; cases hk
    obtain ⟨j, j1, j2⟩ := ha k v hne hv
    exact h k j i j1 hk v j2

theorem fitsOld_nil (new : List (Str × AIn)) : FitsOld [] new := fun k i _ => setAttrOne_none k i

/-- What the attributes are then. -/
theorem attrsOf_fresh {new : List (Str × AIn)} {a b : List (Str × AVal)} (hnd : (akeys new).Nodup) (h : setAttributesAll [] new true = (.ok (), b)) (he : ∀ k, aget a k = aget b k) :
    AttrsOf new a := by
  intro k v _ hv
  rw [he, fresh_attr hnd h] at hv
  cases hk : aget new k with
  | none => rw [hk] at hv; cases hv
  | some i =>
    rw [hk] at hv
    refine ⟨i, rfl, ?_⟩
    cases hs : i.stored with
    | error e => rw [Option.bind_some, hs] at hv; cases hv
    | ok w => rw [Option.bind_some, hs] at hv; cases hv; rfl

theorem aFits_sig {k : Str} {i j : AIn} (h : ∀ v w, i.stored = .ok v → j.stored = .ok w → v.sig = w.sig) : AFits k i j := by
  intro v hv
  unfold setAttrOne
  cases hw : j.stored with
  | error e => rfl
  | ok w =>
    have hs := h v w hv hw
    have : (if k = p!"MATLAB_fields" then Except.ok w else match w.sig, v.sig with
        | some a, some b => if a = b then .ok w else .ok v
        | _, _ => .ok w : Res AVal) = .ok w := by
      split
      · rfl
      · rw [hs]
        cases w.sig with
        | none => rfl
        | some a => simp
    cases j with
    | stringArray l => rfl
    | pyInt n => rfl
    | string s => exact this
    | value u => exact this

theorem aFits_string {k s t : Str} (h : s.length = t.length) : AFits k (.string s) (.string t) := by
  refine aFits_sig ?_
  intro v w hv hw
  obtain ⟨rfl, _⟩ := stored_string hv
  obtain ⟨rfl, _⟩ := stored_string hw
  simp [AVal.sig, h]

theorem aFits_strings {k : Str} {i : AIn} {l : List Str} : AFits k i (.stringArray l) := by
  intro v hv
  unfold setAttrOne
  cases hw : (AIn.stringArray l).stored with
  | error e => rfl
  | ok w => rfl

theorem aFits_fields {i j : AIn} : AFits p!"MATLAB_fields" i j := by
  intro v hv
  unfold setAttrOne
  cases hw : j.stored with
  | error e => rfl
  | ok w => cases j <;> rfl

/-- Which attributes numpy data has. -/
theorem npAttrs_cases {o : COpts} {c : Cont} {dt : DT} {shape : List Nat} {e : Bool} {st : DT} {ts : Str} {k : Str} {i : AIn}
    (h : aget (npAttrs o c dt shape e st ts) k = some i) :
    (k = p!"Python.Shape" ∧ i = .value (.u64s shape)) ∨ (k = p!"Python.numpy.UnderlyingType" ∧ i = .string dt.name) ∨
    (k = p!"Python.numpy.Container" ∧ i = .string c.name) ∨ ((k = p!"Python.Empty" ∨ k = p!"MATLAB_empty") ∧ i = .value (.int .u8 1)) ∨
    (k = p!"MATLAB_class" ∧ ∃ cl, dt.matlabClass = some cl ∧ i = .string cl) ∨
    (k = p!"MATLAB_int_decode" ∧ ∃ v, i.stored = .ok (.int .i64 v)) ∨ (k = p!"Python.Type" ∧ i = .string ts) := by
  have hm := aget_mem _ _ _ h
  unfold npAttrs at hm
  simp only [List.mem_append, or_assoc] at hm
  rcases hm with hm | hm | hm | hm | hm
  · split at hm
    · simp only [List.mem_cons, List.not_mem_nil, or_false, Prod.mk.injEq] at hm
      rcases hm with hm | hm | hm
      · exact Or.inl hm
      · exact Or.inr (Or.inl hm)
      · exact Or.inr (Or.inr (Or.inl hm))
    · cases hm
  · split at hm
    · simp only [List.mem_cons, List.not_mem_nil, or_false, Prod.mk.injEq] at hm
      exact Or.inr (Or.inr (Or.inr (Or.inl ⟨Or.inl hm.1, hm.2⟩)))
    · cases hm
  · split at hm
    · simp only [List.mem_cons, List.not_mem_nil, or_false, Prod.mk.injEq] at hm
      exact Or.inr (Or.inr (Or.inr (Or.inl ⟨Or.inr hm.1, hm.2⟩)))
    · cases hm
  · split at hm
    · cases hcl : dt.matlabClass with
      | none => rw [hcl] at hm; cases hm
      | some cl =>
        rw [hcl] at hm
        simp only [List.mem_cons, Prod.mk.injEq] at hm
        rcases hm with hm | hm
        · exact Or.inr (Or.inr (Or.inr (Or.inr (Or.inl ⟨hm.1, cl, rfl, hm.2⟩))))
        · split at hm
          · simp only [List.mem_cons, List.not_mem_nil, or_false, Prod.mk.injEq] at hm
            refine Or.inr (Or.inr (Or.inr (Or.inr (Or.inr (Or.inl ⟨hm.1, ?_⟩)))))
            rw [hm.2]
            cases st <;> exact ⟨_, rfl⟩
          · cases hm
    · cases hm
  · split at hm
    · simp only [List.mem_cons, List.not_mem_nil, or_false, Prod.mk.injEq] at hm
      exact Or.inr (Or.inr (Or.inr (Or.inr (Or.inr (Or.inr hm)))))
    · cases hm

theorem npAttrs_h5path (o : COpts) (c : Cont) (dt : DT) (shape : List Nat) (e : Bool) (st : DT) (ts : Str) : aget (npAttrs o c dt shape e st ts) p!"H5PATH" = none := by
  cases h : aget (npAttrs o c dt shape e st ts) p!"H5PATH" with
  | none => rfl
  | some i =>
    rcases npAttrs_cases h with ⟨h, _⟩ | ⟨h, _⟩ | ⟨h, _⟩ | ⟨h | h, _⟩ | ⟨h, _⟩ | ⟨h, _⟩ | ⟨h, _⟩ <;> exact absurd h (by decide)

theorem npAttrs_fits {o : COpts} {c c' : Cont} {dt dt' : DT} {shape shape' : List Nat} {e e' : Bool} {st st' : DT} {ts ts' : Str}
    (h1 : shape.length = shape'.length) (h2 : dt.name.length = dt'.name.length) (h3 : c.name.length = c'.name.length) (h4 : ts.length = ts'.length)
    (h5 : ∀ a b, dt.matlabClass = some a → dt'.matlabClass = some b → a.length = b.length) :
    FitsNew (npAttrs o c dt shape e st ts) (npAttrs o c' dt' shape' e' st' ts') := by
  intro k i j hi hj
  rcases npAttrs_cases hi with ⟨rfl, rfl⟩ | ⟨rfl, rfl⟩ | ⟨rfl, rfl⟩ | ⟨rfl | rfl, rfl⟩ | ⟨rfl, cl, hcl, rfl⟩ | ⟨rfl, v, hv⟩ | ⟨rfl, rfl⟩ <;>
    rcases npAttrs_cases hj with ⟨hk, hj⟩ | ⟨hk, hj⟩ | ⟨hk, hj⟩ | ⟨hk | hk, hj⟩ | ⟨hk, cl', hcl', hj⟩ | ⟨hk, v', hj⟩ | ⟨hk, hj⟩ <;>
    first
    | exact absurd hk (by decide)
    | (subst hj; exact aFits_string h2)
    | (subst hj; exact aFits_string h3)
    | (subst hj; exact aFits_string h4)
    | (subst hj; exact aFits_string (h5 _ _ hcl hcl'))
    | (subst hj
       exact aFits_sig fun a b ha hb => by cases ha; cases hb; simp [AVal.sig, h1])
    | exact aFits_sig fun a b ha hb => by rw [hv] at ha; rw [hj] at hb; cases ha; cases hb; rfl

/-- Readers look at attributes only by name. -/
theorem readNp_attrs {mu : Nat → Bool} {rd : Rd} {o : COpts} {ex : Option Nat} {a b : Obj} (h : ∀ k, aget a.attrs k = aget b.attrs k) (hb : a.body = b.body) :
    readNp mu rd o ex a = readNp mu rd o ex b := by
  unfold readNp finish
  simp only [h, hb]

theorem readDictItems_attrs {rd : Rd} {o : COpts} {ex : Option Nat} {a b : Obj} (h : ∀ k, aget a.attrs k = aget b.attrs k) (hb : a.body = b.body) :
    readDictItems rd o ex a = readDictItems rd o ex b := by
  unfold readDictItems
  simp only [h, hb]

theorem readTyped_attrs {mu : Nat → Bool} {rd : Rd} {o : COpts} {ex : Option Nat} {a b : Obj} (h : ∀ k, aget a.attrs k = aget b.attrs k) (hb : a.body = b.body) (ts : Str) :
    readTyped mu rd o ex a ts = readTyped mu rd o ex b ts := by
  unfold readTyped
  rw [readNp_attrs h hb, readDictItems_attrs h hb]

theorem view_attrs {a b : List (Str × AVal)} (h : ∀ k, aget a k = aget b k) (bd : Body) (k : Str) : aget (Obj.view ⟨a, bd⟩).attrs k = aget (Obj.view ⟨b, bd⟩).attrs k := by
  unfold Obj.view
  dsimp only
  rw [aget_adel, aget_adel, h]

/-- Reading an object whose attributes are those of a new one. -/
theorem readData_attrs {o : COpts} {V : View} {excl : Option Nat} {m oid : Nat} {a b : List (Str × AVal)} {bd : Body} {ts : Str} (hV : V oid = some (Obj.view ⟨a, bd⟩))
    (h : ∀ k, aget a k = aget b k) (hts : attrToString (aget (Obj.view ⟨b, bd⟩).attrs p!"Python.Type") = .ok (some ts))
    (hmc : ∃ mc, attrToString (aget (Obj.view ⟨b, bd⟩).attrs p!"MATLAB_class") = .ok mc) :
    readData o V excl (m + 1) oid = readTyped (looksMulti V) (readData o V excl m) o excl (Obj.view ⟨b, bd⟩) ts := by
  have hv := view_attrs h bd
  rw [readData_ts hV (by rw [hv]; exact hts) (by rw [hv]; exact hmc)]
  exact readTyped_attrs hv rfl ts

end HS
