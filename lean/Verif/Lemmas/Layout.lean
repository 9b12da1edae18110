import Verif.Lemmas.RefsFile
import Verif.Lemmas.AttrTable
import Verif.Lemmas.OverAttrs
import Verif.Spec.Layout
/-
The layout of a value in the file: what stays when other things are written.
-/
namespace HS
open Spec

theorem groupName_eq (ns : List Str) : groupName ns = absName ns := by
  unfold groupName absName
  rfl

theorem refsName_eq {o : COpts} (h : refsComps o ≠ []) : refsName o = groupName (refsComps o) := by
  rw [groupName_eq]
  unfold refsName absName
  rw [if_neg h]

theorem absName_ne_root {ns : List Str} (hp : ∀ n ∈ ns, n ≠ []) (h : ns ≠ []) : absName ns ≠ [slash] := by
  unfold absName
  rw [if_neg h]
  cases ns with
  | nil => exact absurd rfl h
  | cons a l =>
    cases a with
    | nil => exact absurd rfl (hp [] (by simp))
    | cons c a => intro hc; simp at hc

theorem joinName_abs {ns : List Str} {name : Str} (hp : ∀ n ∈ ns, n ≠ []) (hd : name ≠ [dot]) : joinName (absName ns) name = absName (ns ++ [name]) := by
  unfold joinName
  rw [if_neg hd]
  by_cases h : ns = []
  · subst h
    rw [if_pos (show absName [] = [slash] from rfl)]
    simp [absName]
  · rw [if_neg (absName_ne_root hp h)]
    simp [absName, h]

/-- What is in the references Group is there in `h'`. -/
def RefsIn (x : Ctx) (s : St) (h' : Heap) : Prop := ∀ rg nm p, resolve s.heap 0 (refsComps x.o) = some rg → LinkAt s.heap rg nm p → LPath h' (refsComps x.o ++ [nm]) p

theorem RefsIn.before {x : Ctx} {s s' : St} {h' : Heap} (h : RefsIn x s' h') (hk : KeepRefs x s s') : RefsIn x s h' := fun rg nm p h1 h2 =>
  h rg nm p (hk rg nm p h1 h2).1 (hk rg nm p h1 h2).2

theorem RefsIn.self {x : Ctx} {s : St} : RefsIn x s s.heap := fun _ _ _ h1 h2 => .snoc (lpath_resolve (plainComps x) h1) h2

/-- `h'` has the new objects, but for `q`, as they are in `s'`, and what is in the references Group. -/
structure KeptBut (x : Ctx) (s s' : St) (q : Nat) (h' : Heap) : Prop where
  objs : ∀ p : Nat, NewObj x s s' p → p ≠ q → h'[p]? = s'.heap[p]?
  refs : RefsIn x s' h'

/-- `h'` has the new objects as they are in `s'`, and what is in the references Group. -/
structure Kept (x : Ctx) (s s' : St) (h' : Heap) : Prop where
  objs : ∀ p : Nat, NewObj x s s' p → h'[p]? = s'.heap[p]?
  refs : RefsIn x s' h'

theorem Kept.before {x : Ctx} {A D} {s0 s1 s2 s3 : St} {h' : Heap} (h : Kept x s0 s3 h') (hl : s0.heap.length ≤ s1.heap.length) (f : Fr x A D s2 s3)
    (hv : ∀ p : Nat, NewObj x s1 s2 p → s3.heap[p]? = s2.heap[p]?) (hk : KeepRefs x s2 s3) : Kept x s1 s2 h' where
  objs := fun p hp => (h.objs p (hp.later hl f)).trans (hv p hp)
  refs := h.refs.before hk

/-- A value, or the column that is stored like an object array. -/
inductive PartFor : Val → Part → Prop
  | self (v : Val) : PartFor v (.value v)
  | column (sh : List Nat) (e : List Val) : PartFor (.npObj .ndarray sh e) (.column sh e)

/-- What has been written: a new object with the documented attributes, which with any H5PATH is the layout of the value. -/
structure LOut (x : Ctx) (s s' : St) (ns : List Str) (q : Nat) (v : Val) : Prop where
  new : NewObj x s s' q
  has : ∃ (at0 : List (Str × AVal)) (b : Body), s'.heap[q]? = some ⟨at0, b⟩ ∧ (∀ k a, aget at0 k = some a ↔ DocAttr x.o b v k a) ∧
    ∀ (h' : Heap) (at' : List (Str × AVal)) (path : Option Str) (P : Part), KeptBut x s s' q h' → h'[q]? = some ⟨at', b⟩ → AttrsAre x.o b path P at' → LPath h' ns q →
      PartFor v P → Laid x.o h' ns path q P

/-- The object is the layout of the part, in every file that has what was made. -/
structure LDone (x : Ctx) (s s' : St) (ns : List Str) (path : Option Str) (q : Nat) (P : Part) : Prop where
  new : NewObj x s s' q
  laid : ∀ h', Kept x s s' h' → LPath h' ns q → Laid x.o h' ns path q P

theorem LDone.later {x : Ctx} {A D} {s0 s1 s2 s3 : St} {ns : List Str} {path : Option Str} {q : Nat} {P : Part} (h : LDone x s1 s2 ns path q P)
    (hl : s0.heap.length ≤ s1.heap.length) (f : Fr x A D s2 s3) (hv : ∀ p : Nat, NewObj x s1 s2 p → s3.heap[p]? = s2.heap[p]?) (hk : KeepRefs x s2 s3) :
    LDone x s0 s3 ns path q P :=
  ⟨h.new.later hl f, fun h' hK => h.laid h' (hK.before hl f hv hk)⟩

theorem docAttr_path {o : COpts} {b : Body} {v : Val} {k : Str} {a : AVal} (h : DocAttr o b v k a) : k ≠ p!"H5PATH" := by
  cases h <;> decide

/-- Without H5PATH. -/
theorem LOut.whole {x : Ctx} {s s' : St} {ns : List Str} {q : Nat} {v : Val} (h : LOut x s s' ns q v) (hl : LPath s'.heap ns q) : Laid x.o s'.heap ns none q (.value v) := by
  obtain ⟨at0, b, h1, h2, h3⟩ := h.has
  refine h3 s'.heap at0 none (.value v) ⟨fun _ _ _ => rfl, .self⟩ h1 ?_ hl (.self v)
  intro k a
  rw [h2]
  constructor
  · intro h; exact .inl ⟨v, rfl, h⟩
  · rintro (⟨w, hw, h⟩ | ⟨_, _, n, hn, _⟩)
    · cases hw; exact h
    · cases hn

/-- What is done to a part after it has been written: its H5PATH is set, and if the part is a column nothing else is left. -/
structure FinOk (x : Ctx) (path : Str) (col : Bool) (fin : Nat → M Unit) : Prop where
  step : ∀ {s s' : St} {res : Res Unit} {p : Nat}, Inv x s → fin p s = (res, s') → Step x noA (oneD p) s s'
  ri : ∀ {L : Nat → Prop} {s s' : St} {res : Res Unit} {p : Nat}, RI x L s → NotA x s p → p ≠ 0 → fin p s = (res, s') → RI x L s' ∧ KeepRefs x s s'
  links : ∀ {s s' : St} {p : Nat}, fin p s = (.ok (), s') → ∀ g k q, LinkAt s'.heap g k q ↔ LinkAt s.heap g k q
  other : ∀ {s s' : St} {p : Nat}, fin p s = (.ok (), s') → ∀ q : Nat, q ≠ p → s'.heap[q]? = s.heap[q]?
  attrs : ∀ {s s' : St} {p : Nat}, fin p s = (.ok (), s') → ∀ (at0 : List (Str × AVal)) (b : Body) (v : Val) (P : Part), s.heap[p]? = some ⟨at0, b⟩ →
    (∀ k a, aget at0 k = some a ↔ DocAttr x.o b v k a) → (if col = true then ∃ sh e, P = .column sh e else P = .value v) →
    ∃ at', s'.heap[p]? = some ⟨at', b⟩ ∧ AttrsAre x.o b (some path) P at'

theorem setH5Path_fin {x : Ctx} {path : Str} : FinOk x path false (fun p => setH5Path x p (asciiEnc path)) where
  step := fun hi h => setH5Path_step hi _ _ h
  ri := fun hR hn h0 h => setH5Path_ri hR hn h0 h
  links := fun h g k q => setH5Path_link h g k q
  other := by
    intro s s' p h q hq
    unfold setH5Path at h
    by_cases hm : x.o.matlab = true
    · rw [if_pos hm] at h
      cases ha : asciiEnc path with
      | error e => rw [ha] at h; cases h
      | ok b =>
        rw [ha] at h
        change ((Except.ok () : Res Unit), ({ s with heap := s.heap.update p fun o => { o with attrs := aput o.attrs p!"H5PATH" (.bytes b) } } : St)) = _ at h
        cases h
        dsimp only
        rw [getElem?_update, if_neg hq]
    · rw [if_neg hm] at h
      change ((Except.ok () : Res Unit), ({ s with heap := s.heap.update p fun o => { o with attrs := adel o.attrs p!"H5PATH" } } : St)) = _ at h
      cases h
      dsimp only
      rw [getElem?_update, if_neg hq]
  attrs := by
    intro s s' p h at0 b v P h0 hd hP
    rw [if_neg (by simp)] at hP
    subst hP
    have hn0 : aget at0 p!"H5PATH" = none := by
      cases hc : aget at0 p!"H5PATH" with
      | none => rfl
      | some a => exact absurd rfl (docAttr_path ((hd _ _).mp hc))
    unfold setH5Path at h
    by_cases hm : x.o.matlab = true
    · rw [if_pos hm] at h
      cases ha : asciiEnc path with
      | error e => rw [ha] at h; cases h
      | ok c =>
        have hc : c = path := by
          unfold asciiEnc at ha
          split at ha <;> cases ha
          rfl
        subst hc
        rw [ha] at h
        change ((Except.ok () : Res Unit), ({ s with heap := s.heap.update p fun o => { o with attrs := aput o.attrs p!"H5PATH" (.bytes c) } } : St)) = _ at h
        cases h
        refine ⟨aput at0 p!"H5PATH" (.bytes c), ?_, ?_⟩
        · dsimp only
          rw [getElem?_update, if_pos rfl, h0]
          rfl
        · intro k a
          rw [aget_aput]
          by_cases hk : k = p!"H5PATH"
          · rw [if_pos hk]
            constructor
            · intro h; cases h; exact .inr ⟨hm, hk, c, rfl, rfl⟩
            · rintro (⟨w, _, h⟩ | ⟨_, _, n, hn, h⟩)
              · exact absurd hk (docAttr_path h)
              · cases hn; rw [h]
          · rw [if_neg hk, hd]
            constructor
            · intro h; exact .inl ⟨v, rfl, h⟩
            · rintro (⟨w, hw, h⟩ | ⟨_, h, _⟩)
              · cases hw; exact h
              · exact absurd h hk
    · rw [if_neg hm] at h
      change ((Except.ok () : Res Unit), ({ s with heap := s.heap.update p fun o => { o with attrs := adel o.attrs p!"H5PATH" } } : St)) = _ at h
      cases h
      refine ⟨adel at0 p!"H5PATH", ?_, ?_⟩
      · dsimp only
        rw [getElem?_update, if_pos rfl, h0]
        rfl
      · intro k a
        rw [aget_adel]
        by_cases hk : k = p!"H5PATH"
        · rw [if_pos hk]
          constructor
          · intro h; cases h
          · rintro (⟨w, _, h⟩ | ⟨h, _⟩)
            · exact absurd hk (docAttr_path h)
            · exact absurd h hm
        · rw [if_neg hk, hd]
          constructor
          · intro h; exact .inl ⟨v, rfl, h⟩
          · rintro (⟨w, hw, h⟩ | ⟨_, h, _⟩)
            · cases hw; exact h
            · exact absurd h hk

theorem setPath_fin {x : Ctx} {path : Str} (col : Bool) : FinOk x path col (fun p => setAttrsM p (pathAttr x.o path) col) where
  step := fun hi h => setAttrsM_step hi _ _ _ h
  ri := fun hR hn h0 h => setAttrs_ri hR hn h0 h
  links := fun h g k q => setAttrs_link h g k q
  other := by
    intro s s' p h q hq
    obtain ⟨o, at', h1, h2, h3⟩ := setAttrsM_ok h
    subst h3
    dsimp only
    rw [List.getElem?_set_ne (Ne.symm hq)]
  attrs := by
    intro s s' p h at0 b v P h0 hd hP
    obtain ⟨o, at', h1, h2, h3⟩ := setAttrsM_ok h
    rw [h0] at h1
    cases h1
    have hlt : p < s.heap.length := by
      rcases Nat.lt_or_ge p s.heap.length with h | h
      · exact h
      · rw [List.getElem?_eq_none h] at h0; cases h0
    subst h3
    refine ⟨at', by dsimp only; rw [List.getElem?_set_self hlt], ?_⟩
    have hn0 : aget at0 p!"H5PATH" = none := by
      cases hc : aget at0 p!"H5PATH" with
      | none => rfl
      | some a => exact absurd rfl (docAttr_path ((hd _ _).mp hc))
    have hadel := setPath_attrs h2
    have hpath : aget at' p!"H5PATH" = if x.o.matlab = true then some (.bytes path) else none := by
      dsimp only at h2
      unfold setAttributesAll pathAttr at h2
      cases hm : x.o.matlab with
      | false =>
        rw [hm] at h2
        simp only [Bool.false_eq_true, if_false, setAttrsLoop] at h2
        cases col with
        | false => cases h2; exact hn0
        | true =>
          have := congrArg Prod.snd h2
          simp only [if_true] at this
          rw [← this]
          rw [List.filter_eq_nil_iff.mpr (by simp [akeys])]
          rfl
      | true =>
        rw [hm] at h2
        simp only [if_true, setAttrsLoop] at h2
        rw [hn0, setAttrOne_none] at h2
        cases ha : asciiEnc path with
        | error e => simp [AIn.stored, ha] at h2; cases h2
        | ok c =>
          have hc : c = path := by
            unfold asciiEnc at ha
            split at ha <;> cases ha
            rfl
          subst hc
          have hst : (AIn.string c).stored = .ok (.bytes c) := by
            show (do Except.ok (AVal.bytes (← asciiEnc c)) : Res AVal) = _
            rw [ha]
            rfl
          rw [hst] at h2
          dsimp only at h2
          have h3 := congrArg Prod.snd h2
          dsimp only at h3
          rw [← h3]
          simp only [if_true]
          cases col with
          | false => simp [aget_aput]
          | true =>
            simp only [if_true, akeys, List.map_cons, List.map_nil]
            rw [aget_filter]
            simp [aget_aput]
    intro k a
    by_cases hk : k = p!"H5PATH"
    · rw [hk, hpath]
      by_cases hm : x.o.matlab = true
      · rw [if_pos hm]
        constructor
        · intro h; cases h; exact .inr ⟨hm, rfl, path, rfl, rfl⟩
        · rintro (⟨w, _, h⟩ | ⟨_, _, n, hn, h⟩)
          · exact absurd rfl (docAttr_path h)
          · cases hn; rw [h]
      · rw [if_neg hm]
        constructor
        · intro h; cases h
        · rintro (⟨w, _, h⟩ | ⟨h, _⟩)
          · exact absurd rfl (docAttr_path h)
          · exact absurd h hm
    · have h4 : aget at' k = aget (adel at' p!"H5PATH") k := by rw [aget_adel, if_neg hk]
      rw [h4, hadel]
      cases col with
      | false =>
        rw [if_neg (by simp)] at hP ⊢
        subst hP
        rw [aget_adel, if_neg hk, hd]
        constructor
        · intro h; exact .inl ⟨v, rfl, h⟩
        · rintro (⟨w, hw, h⟩ | ⟨_, h, _⟩)
          · cases hw; exact h
          · exact absurd h hk
      | true =>
        rw [if_pos rfl] at hP ⊢
        obtain ⟨sh, e, rfl⟩ := hP
        constructor
        · intro h; cases h
        · rintro (⟨w, hw, h⟩ | ⟨_, h, _⟩)
          · cases hw
          · exact absurd h hk

/-- The part is done. -/
theorem LOut.fin {x : Ctx} {path : Str} {col : Bool} {fin : Nat → M Unit} (hf : FinOk x path col fin) {s s1 s2 : St} {ns : List Str} {q : Nat} {v : Val} {P : Part}
    (h : LOut x s s1 ns q v) (hi : Inv x s1) (hk : KeepRefs x s1 s2) (hP : if col = true then ∃ sh e, v = .npObj .ndarray sh e ∧ P = .column sh e else P = .value v)
    (hr : fin q s1 = (.ok (), s2)) : LDone x s s2 ns (some path) q P := by
  obtain ⟨at0, b, h1, h2, h3⟩ := h.has
  have st := hf.step hi hr
  have hPF : PartFor v P := by
    cases col with
    | false => rw [if_neg (by simp)] at hP; subst hP; exact .self v
    | true =>
      rw [if_pos rfl] at hP
      obtain ⟨sh, e, rfl, rfl⟩ := hP
      exact .column sh e
  have hP' : if col = true then ∃ sh e, P = .column sh e else P = .value v := by
    cases col with
    | false => exact hP
    | true =>
      rw [if_pos rfl] at hP ⊢
      obtain ⟨sh, e, _, h⟩ := hP
      exact ⟨sh, e, h⟩
  obtain ⟨at', h4, h5⟩ := hf.attrs hr at0 b v P h1 h2 hP'
  have hnew := h.new.later (Nat.le_refl _) st.fr
  refine ⟨hnew, fun h' hK hl => h3 h' at' _ P ⟨?_, hK.refs.before hk⟩ ?_ h5 hl hPF⟩
  · intro p hp hne
    rw [hK.objs p (hp.later (Nat.le_refl _) st.fr), hf.other hr p hne]
  · rw [hK.objs q hnew, h4]

end HS
