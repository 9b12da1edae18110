import Verif.Lemmas.Attrs
import Verif.Lemmas.Unicode
/-
C16: `set_attributes_all`.
-/
namespace HS

/-- What the caller asks to be stored, described independently of the update logic. -/
inductive Spec.Denotes : AIn → AVal → Prop
  | strings (l : List Str) : Spec.Denotes (.stringArray l) (.strs l)
  | string (s : Str) : Spec.Denotes (.string s) (.bytes s)
  | value (v : AVal) : Spec.Denotes (.value v) v
  | int (v : Int) : Spec.Denotes (.pyInt v) (.int .i64 v)

/-- Attribute values of the same numpy dtype and shape (what the in-place update requires). -/
def Spec.SameType : AVal → AVal → Prop
  | .bytes a, .bytes b => a.length = b.length
  | .strs a, .strs b => a.length = b.length
  | .strs a, .fields b => a.length = b.length
  | .fields a, .strs b => a.length = b.length
  | .fields a, .fields b => a.length = b.length
  | .u64s a, .u64s b => a.length = b.length
  | .int d _, .int e _ => d = e
  | .pyStr _, _ => True
  | _, .pyStr _ => True
  | _, _ => False

theorem stored_denotes (i : AIn) (v : AVal) (h : i.stored = .ok v) : Spec.Denotes i v := by
  cases i with
  | stringArray l => simp only [AIn.stored] at h; split at h <;> cases h; exact .strings l
  | string s =>
    simp only [AIn.stored, asciiEnc] at h
    split at h
    · cases h; exact .string s
    · cases h
  | value v => cases h; exact .value v
  | pyInt v => cases h; exact .int v

theorem denotes_unique (i : AIn) (v w : AVal) (h : Spec.Denotes i v) (h' : Spec.Denotes i w) : v = w := by
  cases h <;> cases h' <;> rfl

/-- The value set for an attribute is the one asked for, unless an attribute of another dtype or shape is in the way. -/
theorem setAttrOne_value (k : Str) (old : Option AVal) (i : AIn) (v w : AVal) (h : setAttrOne k old i = .ok w) (hd : Spec.Denotes i v)
    (hc : ∀ o, old = some o → k = p!"MATLAB_fields" ∨ (∃ l, i = .stringArray l) ∨ (∃ n, i = .pyInt n) ∨ Spec.SameType v o) : w = v := by
  unfold setAttrOne at h
  cases hs : i.stored with
  | error e => rw [hs] at h; cases h
  | ok u =>
    have hu := denotes_unique i u v (stored_denotes i u hs) hd
    subst hu
    rw [hs] at h
    cases i with
    | stringArray l => cases h; rfl
    | pyInt n => cases h; rfl
    | string s =>
      cases old with
      | none => cases h; rfl
      | some o =>
        rcases hc o rfl with hk | ⟨l, hl⟩ | ⟨n, hn⟩ | hst
        · change (if k = _ then _ else _) = _ at h
          rw [if_pos hk] at h; cases h; rfl
        · cases hl
        · cases hn
        · change (if k = _ then _ else _) = _ at h
          split at h
          · cases h; rfl
          · split at h
            · rename_i a b ha hb
              split at h
              · cases h; rfl
              · rename_i hne
                exfalso; apply hne
                cases hd
                cases o <;> simp_all [Spec.SameType, AVal.sig]
                all_goals (obtain ⟨rfl, rfl⟩ := ha; obtain ⟨rfl, rfl⟩ := hb; simp_all)
            · cases h; rfl
    | value x =>
      cases old with
      | none => cases h; rfl
      | some o =>
        rcases hc o rfl with hk | ⟨l, hl⟩ | ⟨n, hn⟩ | hst
        · change (if k = _ then _ else _) = _ at h
          rw [if_pos hk] at h; cases h; rfl
        · cases hl
        · cases hn
        · change (if k = _ then _ else _) = _ at h
          split at h
          · cases h; rfl
          · split at h
            · rename_i a b ha hb
              split at h
              · cases h; rfl
              · rename_i hne
                exfalso; apply hne
                have : some a = some b := by
                  rw [← ha, ← hb]
                  cases u <;> cases o <;> simp_all [Spec.SameType, AVal.sig]
                injection this
            · cases h; rfl

/-- C16.  When `set_attributes_all` returns, every given attribute has exactly the given value unless it existed before with another dtype or
shape (then it is left stale: `C16_counterexample`, F3); with `discard_others` no other attribute is left, without it the others are unchanged. -/
theorem C16_set_attributes_partial (old : List (Str × AVal)) (new : List (Str × AIn)) (discard : Bool) (res : List (Str × AVal))
    (hnd : (akeys new).Nodup) (h : setAttributesAll old new discard = (.ok (), res)) :
    (∀ k i, (k, i) ∈ new → ∃ v, Spec.Denotes i v ∧
      ((∀ o, aget old k = some o → k = p!"MATLAB_fields" ∨ (∃ l, i = .stringArray l) ∨ (∃ n, i = .pyInt n) ∨ Spec.SameType v o) →
        aget res k = some v)) ∧
    (∀ k, (∀ i, (k, i) ∉ new) → aget res k = if discard then none else aget old k) := by
  unfold setAttributesAll at h
  split at h
  · rename_i cur hcur
    have key := setAttrsLoop_ok old new old cur hnd hcur
    have hres : ∀ k, k ∈ akeys new ∨ discard = false → aget res k = aget cur k := by
      intro k hk
      cases discard with
      | false => cases h; rfl
      | true =>
        cases h
        rw [if_pos rfl, aget_filter cur (fun x => (akeys new).contains x) k]
        simp at hk
        simp [hk]
    constructor
    · intro k i hm
      have hk : k ∈ akeys new := List.mem_map.mpr ⟨_, hm, rfl⟩
      have hg : aget new k = some i := by
        clear key hres h hcur
        induction new with
        | nil => cases hm
        | cons p r ih =>
          obtain ⟨k', i'⟩ := p
          simp only [akeys, List.map_cons, List.nodup_cons] at hnd
          simp only [aget]
          rcases List.mem_cons.mp hm with he | hr
          · cases he; simp
          · have : k' ≠ k := fun e => hnd.1 (e ▸ List.mem_map.mpr ⟨_, hr, rfl⟩)
            rw [if_neg this]
            exact ih hnd.2 hr (List.mem_map.mpr ⟨_, hr, rfl⟩)
      have := key k
      rw [hg] at this
      obtain ⟨w, hw, hc⟩ := this
      have hs : ∃ v, i.stored = .ok v := by
        unfold setAttrOne at hw
        cases hs : i.stored with
        | ok v => exact ⟨v, rfl⟩
        | error e => rw [hs] at hw; cases hw
      obtain ⟨v, hv⟩ := hs
      have hd := stored_denotes i v hv
      refine ⟨v, hd, fun hcond => ?_⟩
      rw [hres k (Or.inl hk), hc, setAttrOne_value k _ i v w hw hd hcond]
    · intro k hk
      have hn : aget new k = none := by
        rw [aget_none_iff]
        intro hm
        obtain ⟨p, hp, rfl⟩ := List.mem_map.mp hm
        exact hk p.2 hp
      have := key k
      rw [hn] at this
      simp only at this
      cases discard with
      | false => rw [hres k (Or.inr rfl), this]; rfl
      | true =>
        cases h
        rw [if_pos rfl, aget_filter cur (fun x => (akeys new).contains x) k]
        have : k ∉ akeys new := (aget_none_iff new k).mp hn
        simp [this]
  · cases h

/-- C16 on an object without attributes, the case of every newly created Dataset and Group: exactly the given attributes. -/
theorem C16_fresh (new : List (Str × AIn)) (discard : Bool) (res : List (Str × AVal))
    (hnd : (akeys new).Nodup) (h : setAttributesAll [] new discard = (.ok (), res)) :
    (∀ k i, (k, i) ∈ new → ∃ v, Spec.Denotes i v ∧ aget res k = some v) ∧ ∀ k, (∀ i, (k, i) ∉ new) → aget res k = none := by
  have := C16_set_attributes_partial [] new discard res hnd h
  constructor
  · intro k i hm
    obtain ⟨v, hd, hv⟩ := this.1 k i hm
    exact ⟨v, hd, hv (by intro o ho; cases ho)⟩
  · intro k hk
    rw [this.2 k hk]
    cases discard <;> rfl

/-- C16 never fails for strings of ASCII characters and string arrays of Unicode scalars. -/
theorem C16_total (old : List (Str × AVal)) (new : List (Str × AIn)) (discard : Bool)
    (hs : ∀ k s, (k, AIn.string s) ∈ new → ∀ c ∈ s, c < 128)
    (ha : ∀ k l, (k, AIn.stringArray l) ∈ new → ∀ s ∈ l, ∀ c ∈ s, (c < 0xD800 ∨ 0xDFFF < c) ∧ c ≤ 0x10FFFF) :
    ∃ res, setAttributesAll old new discard = (.ok (), res) := by
  have hone : ∀ k i, (k, i) ∈ new → ∀ o, ∃ v, setAttrOne k o i = .ok v := by
    intro k i hm o
    have hst : ∃ v, i.stored = .ok v := by
      cases i with
      | stringArray l =>
        refine ⟨.strs l, ?_⟩
        rw [AIn.stored, if_pos]
        simp only [List.all_eq_true]
        intro s hs' c hc
        have := ha k l hm s hs' c hc
        exact (isScalar_iff c).mpr this
      | string s =>
        refine ⟨.bytes s, ?_⟩
        have : s.all (· < 128) = true := by simpa using hs k s hm
        simp [AIn.stored, asciiEnc, this]; rfl
      | value v => exact ⟨v, rfl⟩
      | pyInt v => exact ⟨_, rfl⟩
    obtain ⟨v, hv⟩ := hst
    unfold setAttrOne
    rw [hv]
    cases i with
    | stringArray l => exact ⟨v, rfl⟩
    | pyInt n => exact ⟨v, rfl⟩
    | string s =>
      cases o with
      | none => exact ⟨v, rfl⟩
      | some o =>
        change ∃ v', (if k = _ then _ else _) = _
        split
        · exact ⟨v, rfl⟩
        · split
          · split
            · exact ⟨v, rfl⟩
            · exact ⟨o, rfl⟩
          · exact ⟨v, rfl⟩
    | value x =>
      cases o with
      | none => exact ⟨v, rfl⟩
      | some o =>
        change ∃ v', (if k = _ then _ else _) = _
        split
        · exact ⟨v, rfl⟩
        · split
          · split
            · exact ⟨v, rfl⟩
            · exact ⟨o, rfl⟩
          · exact ⟨v, rfl⟩
  have hloop : ∀ (new : List (Str × AIn)) cur, (∀ k i, (k, i) ∈ new → ∀ o, ∃ v, setAttrOne k o i = .ok v) →
      ∃ c, setAttrsLoop old new cur = (.ok (), c) := by
    intro new
    induction new with
    | nil => intro cur _; exact ⟨cur, rfl⟩
    | cons p r ih =>
      obtain ⟨k, i⟩ := p
      intro cur hall
      obtain ⟨v, hv⟩ := hall k i (by simp) (aget old k)
      rw [setAttrsLoop, hv]
      exact ih _ (fun k' i' hm => hall k' i' (by simp [hm]))
  obtain ⟨c, hc⟩ := hloop new old hone
  rw [setAttributesAll, hc]
  exact ⟨_, rfl⟩

/-- C16 is false in general (F3): the type attribute of a list overwritten by a tuple keeps saying 'list'. -/
theorem C16_counterexample :
    setAttributesAll [(p!"Python.Type", .bytes p!"list")] [(p!"Python.Type", .string p!"tuple")] true =
      (.ok (), [(p!"Python.Type", .bytes p!"list")]) := by decide +kernel

example : setAttributesAll [(p!"x", .bytes p!"old"), (p!"Python.Type", .bytes p!"dict"), (p!"Python.Shape", .u64s [1, 2])]
    [(p!"Python.Type", .string p!"list"), (p!"Python.Shape", .value (.u64s [3, 4])), (p!"Python.Fields", .stringArray [p!"a"])] true =
      (.ok (), [(p!"Python.Type", .bytes p!"list"), (p!"Python.Shape", .u64s [3, 4]), (p!"Python.Fields", .strs [p!"a"])]) := by
  decide +kernel
example : (akeys [(p!"Python.Type", AIn.string p!"list"), (p!"Python.Shape", .value (.u64s [3, 4]))]).Nodup := by decide

end HS
