import Verif.Lemmas.Pres
import Verif.Lemmas.ProgressTree
import Verif.Lemmas.RtStruct
import Verif.Spec.MatFile
/-
Files written with `matlab_compatible` are as MATLAB expects them.
-/
namespace HS
open Spec

/-- What `matlab_compatible` forces, as far as it matters, and an action other than 'ignore'. -/
structure MatO (o : COpts) : Prop where
  matlab : o.matlab = true
  action : o.action ≠ .ignore
  asStruct : o.structAsStruct = true
  atleast2d : o.atleast2d = true
  bytes16 : o.bytes16 = true
  boolsU8 : o.boolsU8 = true
  storeShape : o.storeShape = true
  cplx : o.complexNames = (p!"real", p!"imag")

/-- The attributes MATLAB looks at. -/
def SameMat (a b : List (Str × AVal)) : Prop :=
  aget a p!"MATLAB_class" = aget b p!"MATLAB_class" ∧ aget a p!"MATLAB_empty" = aget b p!"MATLAB_empty" ∧ aget a p!"MATLAB_int_decode" = aget b p!"MATLAB_int_decode"

theorem matObj_same {a b : List (Str × AVal)} {bd : Body} (h : SameMat a b) (hm : MatObj ⟨a, bd⟩) : MatObj ⟨b, bd⟩ := by
  obtain ⟨h1, h2, h3⟩ := h
  cases bd with
  | group l => simpa only [MatObj, ← h1] using hm
  | dset arr f =>
    rcases hm with e | e
    · exact Or.inl ⟨h2 ▸ e.marked, e.dims, by have := e.cls; rwa [h1] at this, by have := e.decode; unfold DecodeOk at this ⊢; rwa [h3] at this⟩
    · exact Or.inr ⟨e.rank, e.dims, h2 ▸ e.marked, by have := e.cls; rwa [h1] at this, by have := e.decode; unfold DecodeOk at this ⊢; rwa [h3] at this⟩

theorem MatObj.group (at' : List (Str × AVal)) (l l' : List (Str × Nat)) (h : MatObj ⟨at', .group l⟩) : MatObj ⟨at', .group l'⟩ := h

theorem matObj_mapLinks {ob : Obj} {f : List (Str × Nat) → List (Str × Nat)} (h : MatObj ob) : MatObj (ob.mapLinks f) := by
  obtain ⟨a, b⟩ := ob
  cases b with
  | group l => exact h
  | dset d fl => exact h

theorem matFile_update {h : Heap} {p : Nat} {f : Obj → Obj} (hm : MatFile h) (hf : ∀ ob, h[p]? = some ob → MatObj ob → MatObj (f ob)) : MatFile (h.update p f) := by
  intro q ob hq
  rw [getElem?_update] at hq
  split at hq
  · cases hp : h[p]? with
    | none => rw [hp] at hq; cases hq
    | some o =>
      rw [hp] at hq
      cases hq
      exact hf o hp (hm p o hp)
  · exact hm q ob hq

theorem matFile_create {h : Heap} {g : Nat} {name : Str} {ob : Obj} (hm : MatFile h) (ho : MatObj ob) : MatFile (createHeap h g name ob) := by
  intro q o hq
  rw [getElem?_createHeap] at hq
  split at hq
  · cases hq; exact ho
  split at hq
  · cases hg : h[g]? with
    | none => rw [hg] at hq; cases hq
    | some o' =>
      rw [hg] at hq
      cases hq
      exact matObj_mapLinks (hm g o' hg)
  · exact hm q o hq

theorem matObj_canon : MatObj canonObj := by
  refine Or.inl ⟨rfl, ⟨[0, 0], by decide, by decide, rfl⟩, ⟨_, rfl, Or.inr (Or.inr rfl)⟩, ?_⟩
  intro v hv
  have e : aget canonObj.attrs p!"MATLAB_int_decode" = none := by decide
  rw [e] at hv
  cases hv

theorem matObj_emptyGroup : MatObj ⟨[], .group []⟩ := Or.inl rfl

/-- Making Groups, deleting links and making the canonical empty. -/
theorem mat_base : Base MatFile where
  create := by
    intro h g name ob hm _ _ ho
    refine matFile_create hm ?_
    rcases ho with rfl | rfl
    · exact matObj_emptyGroup
    · exact matObj_canon
  filter := fun h g f hm => matFile_update hm fun _ _ h => matObj_mapLinks h

/-! ### Setting attributes -/

theorem setAttrsLoop_any {ex : List (Str × AVal)} {new : List (Str × AIn)} {cur : List (Str × AVal)} (k : Str) (v : AVal)
    (h : aget (setAttrsLoop ex new cur).2 k = some v) : aget cur k = some v ∨ aget ex k = some v ∨ ∃ i, (k, i) ∈ new ∧ i.stored = .ok v := by
  induction new generalizing cur with
  | nil => exact Or.inl h
  | cons e r ih =>
    obtain ⟨k0, i⟩ := e
    rw [setAttrsLoop] at h
    cases hs : setAttrOne k0 (aget ex k0) i with
    | error e => rw [hs] at h; exact Or.inl h
    | ok w =>
      rw [hs] at h
      dsimp only at h
      rcases ih h with h1 | h1 | ⟨j, h1, h2⟩
      · rw [aget_aput] at h1
        split at h1
        · rename_i hk
          cases h1
          subst hk
          cases hi : i.stored with
          | error e =>
            unfold setAttrOne at hs
            rw [hi] at hs
            cases hs
          | ok u =>
            obtain ⟨w', h3, h4⟩ := setAttrOne_ok (k := k) (old := aget ex k) ⟨u, hi⟩
            rw [hs] at h3
            cases h3
            rcases h4 with h4 | h4
            · exact Or.inr (Or.inr ⟨i, by simp, h4⟩)
            · exact Or.inr (Or.inl h4)
        · exact Or.inl h1
      · exact Or.inr (Or.inl h1)
      · exact Or.inr (Or.inr ⟨j, by simp [h1], h2⟩)

/-- Whatever happens, an attribute has its old value or the given one. -/
theorem setAll_any {old : List (Str × AVal)} {new : List (Str × AIn)} {d : Bool} (k : Str) (v : AVal) (h : aget (setAttributesAll old new d).2 k = some v) :
    aget old k = some v ∨ ∃ i, (k, i) ∈ new ∧ i.stored = .ok v := by
  have key : aget (setAttrsLoop old new old).2 k = some v := by
    unfold setAttributesAll at h
    cases hl : setAttrsLoop old new old with
    | mk r cur =>
      rw [hl] at h
      cases r with
      | error e => exact h
      | ok u =>
        dsimp only at h ⊢
        split at h
        · rw [aget_filter cur (fun k => (akeys new).contains k)] at h
          split at h
          · exact h
          · cases h
        · exact h
  rcases setAttrsLoop_any k v key with h | h | h
  · exact Or.inl h
  · exact Or.inl h
  · exact Or.inr h

/-- If all can be stored, exactly the given attributes are there. -/
theorem setAll_get {old : List (Str × AVal)} {new : List (Str × AIn)} (hnd : (akeys new).Nodup) (hs : ∀ e ∈ new, ∃ v, e.2.stored = .ok v) :
    (setAttributesAll old new true).1 = .ok () ∧ (∀ k, aget new k = none → aget (setAttributesAll old new true).2 k = none) ∧
    ∀ k i, aget new k = some i → ∃ v, aget (setAttributesAll old new true).2 k = some v ∧ (i.stored = .ok v ∨ aget old k = some v) := by
  have hrun : ∃ cur, setAttrsLoop old new old = (.ok (), cur) := by
    have : ∀ (l : List (Str × AIn)) (cur : List (Str × AVal)), (∀ e ∈ l, ∃ v, e.2.stored = .ok v) → ∃ cur', setAttrsLoop old l cur = (.ok (), cur') := by
      intro l
      induction l with
      | nil => intro cur _; exact ⟨cur, rfl⟩
      | cons e r ih =>
        intro cur h
        obtain ⟨k0, i⟩ := e
        obtain ⟨v, hv, _⟩ := setAttrOne_ok (k := k0) (old := aget old k0) (h (k0, i) (by simp))
        rw [setAttrsLoop, hv]
        exact ih _ fun e he => h e (by simp [he])
    exact this new old hs
  obtain ⟨cur, hc⟩ := hrun
  have hk := setAttrsLoop_ok old new old cur hnd hc
  have e : setAttributesAll old new true = (.ok (), cur.filter (fun p => (akeys new).contains p.1)) := by
    unfold setAttributesAll
    rw [hc]
    rfl
  rw [e]
  refine ⟨rfl, ?_, ?_⟩
  · intro k h
    dsimp only
    rw [aget_filter cur (fun k => (akeys new).contains k), if_neg]
    rw [aget_none_iff] at h
    simpa using h
  · intro k i h
    have h1 := hk k
    rw [h] at h1
    obtain ⟨v, h2, h3⟩ := h1
    obtain ⟨v', h4, h5⟩ := setAttrOne_ok (k := k) (old := aget old k) (hs (k, i) (aget_mem _ _ _ h))
    rw [h2] at h4
    cases h4
    refine ⟨v, ?_, h5⟩
    dsimp only
    rw [aget_filter cur (fun k => (akeys new).contains k), if_pos]
    · exact h3
    · have := aget_mem _ _ _ h
      simp only [List.contains_eq_mem, decide_eq_true_eq, akeys]
      exact List.mem_map.mpr ⟨_, this, rfl⟩

theorem setAttrsM_heap (p : Nat) (new : List (Str × AIn)) (d : Bool) (s : St) :
    (setAttrsM p new d s).2.heap = s.heap.update p fun o => { o with attrs := (setAttributesAll o.attrs new d).2 } := by
  unfold setAttrsM Heap.update
  cases s.heap[p]? <;> rfl

theorem setAttrsM_ran {p : Nat} {new : List (Str × AIn)} {d : Bool} {s : St} {ob : Obj} (hp : s.heap[p]? = some ob) (h : (setAttributesAll ob.attrs new d).1 = .ok ()) :
    setAttrsM p new d s = (.ok (), { s with heap := s.heap.update p fun o => { o with attrs := (setAttributesAll o.attrs new d).2 } }) := by
  unfold setAttrsM Heap.update
  rw [hp]
  dsimp only
  rw [h]

/-- The attributes of a Group stay as MATLAB expects them. -/
theorem group_attrs {at' : List (Str × AVal)} {l : List (Str × Nat)} {new : List (Str × AIn)} {d : Bool} (h : MatObj ⟨at', .group l⟩)
    (hn : ∀ i, (p!"MATLAB_class", i) ∈ new → i = .string p!"struct") : MatObj ⟨(setAttributesAll at' new d).2, .group l⟩ := by
  show aget _ _ = _ ∨ aget _ _ = _
  cases hv : aget (setAttributesAll at' new d).2 p!"MATLAB_class" with
  | none => exact Or.inl rfl
  | some v =>
    right
    rcases setAll_any _ _ hv with h1 | ⟨i, h1, h2⟩
    · have h' : aget at' p!"MATLAB_class" = none ∨ aget at' p!"MATLAB_class" = some (.bytes p!"struct") := h
      rcases h' with h' | h'
      · rw [h'] at h1; cases h1
      · rw [h'] at h1; exact h1.symm
    · rw [hn i h1] at h2
      cases h2
      rfl

theorem pres_groupAttrs {p : Nat} {new : List (Str × AIn)} {d : Bool} (hn : ∀ i, (p!"MATLAB_class", i) ∈ new → i = .string p!"struct") {s : St} (hm : MatFile s.heap)
    (hg : isGroup s.heap p = true) : MatFile (setAttrsM p new d s).2.heap := by
  rw [setAttrsM_heap]
  refine matFile_update hm ?_
  intro ob hp ho
  obtain ⟨a, b⟩ := ob
  cases b with
  | group l => exact group_attrs ho hn
  | dset _ _ => unfold isGroup at hg; rw [hp] at hg; cases hg

/-- Attributes MATLAB does not look at. -/
theorem pres_otherAttrs {p : Nat} {new : List (Str × AIn)} (hn : ∀ k i, (k, i) ∈ new → k = p!"H5PATH") : Pres MatFile (setAttrsM p new false) := by
  intro s hm
  rw [setAttrsM_heap]
  refine matFile_update hm ?_
  intro ob hp ho
  obtain ⟨a, b⟩ := ob
  have key : ∀ k, k ≠ p!"H5PATH" → aget (setAttributesAll a new false).2 k = aget a k := by
    intro k hk
    have : ∀ (l : List (Str × AIn)) (cur : List (Str × AVal)), (∀ k i, (k, i) ∈ l → k = p!"H5PATH") → aget (setAttrsLoop a l cur).2 k = aget cur k := by
      intro l
      induction l with
      | nil => intro cur _; rfl
      | cons e r ih =>
        intro cur h
        obtain ⟨k0, i⟩ := e
        rw [setAttrsLoop]
        cases setAttrOne k0 (aget a k0) i with
        | error e => rfl
        | ok v =>
          dsimp only
          rw [ih _ fun k i hi => h k i (by simp [hi]), aget_aput, if_neg]
          rintro rfl
          exact hk (h _ i (by simp))
    have h2 := this new a hn
    unfold setAttributesAll
    cases hl : setAttrsLoop a new a with
    | mk r cur =>
      rw [hl] at h2
      cases r <;> exact h2
  exact matObj_same ⟨(key _ (by decide)).symm, (key _ (by decide)).symm, (key _ (by decide)).symm⟩ ho

theorem pres_setH5Path {x : Ctx} {p : Nat} {b : Res Bytes} : Pres MatFile (setH5Path x p b) := by
  unfold setH5Path
  split
  · refine Pres.bind (Pres.lift _) fun b => ?_
    intro s hm
    refine matFile_update hm ?_
    intro ob hp ho
    obtain ⟨a, bd⟩ := ob
    refine matObj_same ⟨?_, ?_, ?_⟩ ho <;> (rw [aget_aput, if_neg (by decide)])
  · intro s hm
    refine matFile_update hm ?_
    intro ob hp ho
    obtain ⟨a, bd⟩ := ob
    refine matObj_same ⟨?_, ?_, ?_⟩ ho <;> (rw [aget_adel, if_neg (by decide)])

/-! ### Writing Datasets -/

/-- The attributes the Dataset had before it was overwritten. -/
def Before (a : Arr) (at' : List (Str × AVal)) : Prop := at' = [] ∨ ∃ b fb, MatObj ⟨at', .dset b fb⟩ ∧ b.dt = a.dt ∧ b.shape = a.shape

theorem createObj_mat {g : Nat} {name : Str} {ob : Obj} {s : St} (hm : MatFile s.heap) :
    (∃ e, createObj g name ob s = (.error e, s)) ∨ ∃ s', createObj g name ob s = (.ok s.heap.length, s') ∧ s'.heap[s.heap.length]? = some ob ∧
      ∀ (p : Nat) o, s'.heap[p]? = some o → p ≠ s.heap.length → MatObj o := by
  rcases createObj_run g name ob s with ⟨e, h⟩ | ⟨h, _⟩
  · exact Or.inl ⟨e, h⟩
  · refine Or.inr ⟨_, h, ?_, ?_⟩
    · show (createHeap s.heap g name ob)[s.heap.length]? = _
      rw [getElem?_createHeap, if_pos rfl]
    · intro p o hp hne
      have hp' : (createHeap s.heap g name ob)[p]? = some o := hp
      rw [getElem?_createHeap, if_neg hne] at hp'
      split at hp'
      · cases hg : s.heap[g]? with
        | none => rw [hg] at hp'; cases hp'
        | some o' =>
          rw [hg] at hp'
          cases hp'
          exact matObj_mapLinks (hm g o' hg)
      · exact hm p o hp'

theorem putDataset_mat {g : Nat} {name : Str} {a : Arr} {f : Filters} {s : St} (hm : MatFile s.heap) :
    (∃ e s', putDataset g name a f s = (.error e, s') ∧ MatFile s'.heap) ∨
    ∃ q s' at' f', putDataset g name a f s = (.ok q, s') ∧ s'.heap[q]? = some ⟨at', .dset (h5Store a) f'⟩ ∧ Before a at' ∧
      ∀ (p : Nat) o, s'.heap[p]? = some o → p ≠ q → MatObj o := by
  have cr : ∀ s0 : St, MatFile s0.heap → (∃ e s', createDset g name a f s0 = (.error e, s') ∧ MatFile s'.heap) ∨
      ∃ q s' at' f', createDset g name a f s0 = (.ok q, s') ∧ s'.heap[q]? = some ⟨at', .dset (h5Store a) f'⟩ ∧ Before a at' ∧
      ∀ (p : Nat) o, s'.heap[p]? = some o → p ≠ q → MatObj o := by
    intro s0 h0
    rcases createObj_mat (g := g) (name := name) (ob := ⟨[], .dset (h5Store a) f.stored⟩) h0 with ⟨e, h⟩ | ⟨s', h1, h2, h3⟩
    · exact Or.inl ⟨e, s0, h, h0⟩
    · exact Or.inr ⟨_, s', _, _, h1, h2, Or.inl rfl, h3⟩
  have rep : (∃ e s', (do unlink g name; createDset g name a f : M Nat) s = (.error e, s') ∧ MatFile s'.heap) ∨
      ∃ q s' at' f', (do unlink g name; createDset g name a f : M Nat) s = (.ok q, s') ∧ s'.heap[q]? = some ⟨at', .dset (h5Store a) f'⟩ ∧ Before a at' ∧
      ∀ (p : Nat) o, s'.heap[p]? = some o → p ≠ q → MatObj o := by
    have hu := Base.unlink mat_base (g := g) (name := name) s hm
    rcases bind_run (unlink g name) (fun _ => createDset g name a f) s with ⟨u, s1, e1, e2⟩ | ⟨e, s1, e1, e2⟩
    · rw [e1] at hu
      rw [e2]
      exact cr s1 hu
    · rw [e1] at hu
      exact Or.inl ⟨e, s1, e2, hu⟩
  unfold putDataset
  rw [run_getSt]
  cases hq0 : (if nameOk name = true then hlook s.heap g name else none) with
  | none => exact cr s hm
  | some q0 =>
    dsimp only
    cases hq : s.heap[q0]? with
    | none =>
      dsimp only
      split
      · exact cr s hm
      · exact rep
    | some ob =>
      obtain ⟨at', b⟩ := ob
      cases b with
      | group l =>
        dsimp only
        split
        · exact cr s hm
        · exact rep
      | dset b fb =>
        dsimp only
        split
        · exact rep
        · rename_i hne
          simp only [not_or, Decidable.not_not] at hne
          obtain ⟨n1, n2, _⟩ := hne
          cases hf : f.opts with
          | none => exact cr s hm
          | some op =>
            dsimp only
            split
            · exact rep
            · refine Or.inr ⟨q0, _, at', fb, rfl, ?_, Or.inr ⟨b, fb, hm q0 _ hq, n1, n2⟩, ?_⟩
              · show (s.heap.update q0 fun ob => { ob with body := .dset (h5Store a) fb })[q0]? = _
                rw [getElem?_update, if_pos rfl, hq]
                rfl
              · intro p o hp hpq
                have hp' : (s.heap.update q0 fun ob => { ob with body := .dset (h5Store a) fb })[p]? = some o := hp
                rw [getElem?_update, if_neg hpq] at hp'
                exact hm p o hp'

/-- A Dataset is written together with its attributes. -/
theorem putAttrs_mat {g : Nat} {name : Str} {a : Arr} {f : Filters} {new : List (Str × AIn)} (hnd : (akeys new).Nodup) (hs : ∀ e ∈ new, ∃ v, e.2.stored = .ok v)
    (hn : ∀ at' f', Before a at' → MatObj ⟨(setAttributesAll at' new true).2, .dset (h5Store a) f'⟩) {s : St} (hm : MatFile s.heap) :
    (∃ e s', (putDataset g name a f >>= fun p => setAttrsM p new true >>= fun _ => (pure (some p) : M (Option Nat))) s = (.error e, s') ∧ MatFile s'.heap) ∨
    ∃ q s' at' f', (putDataset g name a f >>= fun p => setAttrsM p new true >>= fun _ => (pure (some p) : M (Option Nat))) s = (.ok (some q), s') ∧ MatFile s'.heap ∧
      s'.heap[q]? = some ⟨at', .dset (h5Store a) f'⟩ := by
  rcases putDataset_mat (g := g) (name := name) (a := a) (f := f) hm with ⟨e, s1, h1, h2⟩ | ⟨q, s1, at', f', h1, h2, h3, h4⟩
  · exact Or.inl ⟨e, s1, run_bind_err h1, h2⟩
  · right
    have ran := setAttrsM_ran (new := new) (d := true) h2 (setAll_get hnd hs).1
    refine ⟨q, _, (setAttributesAll at' new true).2, f', by rw [run_bind_ok h1, run_bind_ok ran]; rfl, ?_, ?_⟩
    · intro p o hp
      have hp' : (s1.heap.update q fun o => { o with attrs := (setAttributesAll o.attrs new true).2 })[p]? = some o := hp
      rw [getElem?_update] at hp'
      split at hp'
      · rw [h2] at hp'
        cases hp'
        exact hn at' f' h3
      · rename_i hne
        exact h4 p o hp' hne
    · show (s1.heap.update q fun o => { o with attrs := (setAttributesAll o.attrs new true).2 })[q]? = _
      rw [getElem?_update, if_pos rfl, h2]
      rfl


/-- The Dataset with its attributes is as MATLAB expects it. -/
structure NewOk (a : Arr) (new : List (Str × AIn)) (empty : Bool) (c : Str) : Prop where
  cls : aget new p!"MATLAB_class" = some (.string c)
  ascii : Ascii c
  marked : aget new p!"MATLAB_empty" = if empty then some (.value (.int .u8 1)) else none
  decode : ∀ i v, aget new p!"MATLAB_int_decode" = some i → i.stored = .ok v → v = .int .i64 (unitSize a.dt)
  full : empty = false → 2 ≤ a.shape.length ∧ 0 ∉ a.shape ∧ ClassFits a.dt c
  nil : empty = true → (∃ ds : List Nat, 2 ≤ ds.length ∧ 0 ∈ ds ∧ a = shapeArr ds) ∧ ((∃ dt, ClassFits dt c) ∨ c = p!"struct" ∨ c = p!"canonical empty")

theorem classFits_h5 {a : Arr} {c : Str} (h : ClassFits a.dt c) : h5Store a = a := by
  obtain ⟨dt, sh, d⟩ := a
  cases h <;> rfl

theorem classFits_ascii {dt : DT} {c : Str} (h : ClassFits dt c) : Ascii c := by cases h <;> exact ascii_all rfl

theorem newOk_matObj {a : Arr} {new : List (Str × AIn)} {e : Bool} {c : Str} (h : NewOk a new e c) (hnd : (akeys new).Nodup) (hs : ∀ i ∈ new, ∃ v, i.2.stored = .ok v)
    (at' : List (Str × AVal)) (f' : Filters) (hb : Before a at') : MatObj ⟨(setAttributesAll at' new true).2, .dset (h5Store a) f'⟩ := by
  obtain ⟨_, hnone, hsome⟩ := setAll_get (old := at') hnd hs
  obtain ⟨cv, hc1, hc2⟩ := hsome _ _ h.cls
  have hstr : (AIn.string c).stored = .ok (.bytes c) := by
    show (do .ok (.bytes (← asciiEnc c)) : Res AVal) = _
    rw [asciiEnc_ok h.ascii]
    rfl
  have hc2' : cv = .bytes c ∨ aget at' p!"MATLAB_class" = some cv := by
    rcases hc2 with hc2 | hc2
    · rw [hstr] at hc2; cases hc2; exact Or.inl rfl
    · exact Or.inr hc2
  have hdec : ∀ (hold : DecodeOk at' a.dt), DecodeOk (setAttributesAll at' new true).2 a.dt := by
    intro hold v hv
    cases hd : aget new p!"MATLAB_int_decode" with
    | none => rw [hnone _ hd] at hv; cases hv
    | some i =>
      obtain ⟨w, h1, h2⟩ := hsome _ _ hd
      rw [h1] at hv
      cases hv
      rcases h2 with h2 | h2
      · exact h.decode i v hd h2
      · exact hold v h2
  cases e with
  | true =>
    obtain ⟨⟨ds, d1, d2, rfl⟩, hcl⟩ := h.nil rfl
    left
    have hold : at' = [] ∨ ∃ b, EmptyOk at' b ∧ b.dt = .u64 := by
      rcases hb with rfl | ⟨b, fb, h1, h2, h3⟩
      · exact Or.inl rfl
      · rcases h1 with h1 | h1
        · exact Or.inr ⟨b, h1, h2⟩
        · have h4 : 2 ≤ b.shape.length := h1.rank
          rw [h3] at h4
          exact absurd h4 (by simp [shapeArr])
    refine ⟨?_, ⟨ds, d1, d2, rfl⟩, ?_, ?_⟩
    · have hm := h.marked
      rw [if_pos rfl] at hm
      obtain ⟨v, h1, h2⟩ := hsome _ _ hm
      rcases h2 with h2 | h2
      · cases h2; exact h1
      · rcases hold with rfl | ⟨b, hb, _⟩
        · cases h2
        · rw [hb.marked] at h2; cases h2; exact h1
    · rcases hc2' with rfl | hc2'
      · exact ⟨c, hc1, hcl⟩
      · rcases hold with rfl | ⟨b, hb, _⟩
        · cases hc2'
        · obtain ⟨c', h1, h2⟩ := hb.cls
          rw [h1] at hc2'
          cases hc2'
          exact ⟨c', hc1, h2⟩
    · refine hdec ?_
      rcases hold with rfl | ⟨b, hb, hbd⟩
      · intro v hv; cases hv
      · have := hb.decode
        rw [hbd] at this
        exact this
  | false =>
    obtain ⟨d1, d2, d3⟩ := h.full rfl
    rw [classFits_h5 d3]
    right
    have hold : at' = [] ∨ ∃ b, FullOk at' b ∧ b.dt = a.dt := by
      rcases hb with rfl | ⟨b, fb, h1, h2, h3⟩
      · exact Or.inl rfl
      · rcases h1 with h1 | h1
        · exfalso
          obtain ⟨ds, _, _, h4⟩ := h1.dims
          have h5 : a.shape = [ds.length] := by rw [← h3, h4]
          rw [h5] at d1
          exact absurd d1 (by simp)
        · exact Or.inr ⟨b, h1, h2⟩
    refine ⟨d1, d2, hnone _ (by rw [h.marked]; rfl), ?_, ?_⟩
    · left
      rcases hc2' with rfl | hc2'
      · exact ⟨c, hc1, d3⟩
      · rcases hold with rfl | ⟨b, hb, hbd⟩
        · cases hc2'
        · rcases hb.cls with ⟨c', h1, h2⟩ | ⟨_, h1⟩
          · rw [h1] at hc2'
            cases hc2'
            exact ⟨c', hc1, hbd ▸ h2⟩
          · rw [h1] at hc2'; cases hc2'
    · refine hdec ?_
      rcases hold with rfl | ⟨b, hb, hbd⟩
      · intro v hv; cases hv
      · have := hb.decode
        rw [hbd] at this
        exact this

/-! ### Arrays -/

theorem zero_mem_prod {s : List Nat} : 0 ∈ s ↔ prodN s = 0 := by
  induction s with
  | nil => simp [prodN]
  | cons a r ih => simp [prodN, ih, Nat.mul_eq_zero, eq_comm]

theorem rank2 (s : List Nat) : 2 ≤ (atleast2dShape s).length := by
  match s with
  | [] => simp [atleast2dShape]
  | [_] => simp [atleast2dShape]
  | _ :: _ :: _ => simp [atleast2dShape]

theorem npAttrs_mat {o : COpts} (hm : o.matlab = true) (c : Cont) {dt : DT} {cl : Str} (hcl : dt.matlabClass = some cl) (shape : List Nat) (e : Bool) (st : DT) (ts : Str) :
    aget (npAttrs o c dt shape e st ts) p!"MATLAB_class" = some (.string cl) ∧
    aget (npAttrs o c dt shape e st ts) p!"MATLAB_empty" = (if e then some (.value (.int .u8 1)) else none) ∧
    ∀ i v, aget (npAttrs o c dt shape e st ts) p!"MATLAB_int_decode" = some i → i.stored = .ok v → v = .int .i64 (unitSize st) := by
  unfold npAttrs
  rw [hm, hcl]
  refine ⟨?_, ?_, ?_⟩
  · cases o.pyMeta <;> cases e <;> rfl
  · cases o.pyMeta <;> cases e <;> cases (dt.isString || dt == .bool) <;> rfl
  · intro i v hi hv
    have key : ∀ i, aget [((p!"MATLAB_int_decode" : Str), (match st with | .bytes _ => .pyInt 1 | _ => .value (.int .i64 st.itemsize) : AIn))] p!"MATLAB_int_decode" = some i →
        i.stored = .ok v → v = .int .i64 (unitSize st) := by
      intro i hi hv
      cases st <;> cases hi <;> cases hv <;> rfl
    refine key i ?_ hv
    rw [← hi]
    revert hi
    cases o.pyMeta <;> cases e <;> cases (dt.isString || dt == .bool) <;> intro hi <;> first | rfl | cases hi


/-- The type of the elements after the conversion of text. -/
def TextDT (dt dt' : DT) : Prop :=
  match dt with
  | .bytes _ => dt' = .u16 ∨ ∃ n, dt' = .bytes (n + 1)
  | .str _ => dt' = .u16 ∨ dt' = .u32
  | dt => dt' = dt

theorem bytesStep_mat {o : COpts} (hb : o.bytes16 = true) (a : Arr) : (prodN (bytesStep o a).shape = 0 ↔ prodN a.shape = 0 ∨ (∃ n, a.dt = .bytes n) ∧ a.nbytes = 0) ∧
    (∀ n, a.dt = .bytes n → a.nbytes ≠ 0 → (bytesStep o a).dt = .u16 ∨ ∃ n, (bytesStep o a).dt = .bytes (n + 1)) ∧
    (∀ n, a.dt = .bytes n → ∀ m, (bytesStep o a).dt ≠ .str m) ∧ ((∀ n, a.dt ≠ .bytes n) → bytesStep o a = a) := by
  obtain ⟨dt, sh, data⟩ := a
  by_cases hd : ∃ n, dt = .bytes n
  · obtain ⟨n, rfl⟩ := hd
    unfold bytesStep
    dsimp only
    rw [if_pos hb]
    by_cases hz : (⟨.bytes n, sh, data⟩ : Arr).nbytes = 0
    · rw [if_pos hz]
      refine ⟨?_, ?_, ?_, ?_⟩
      · simp [npZeros, prodN, hz]
      · intro m _ h; exact absurd hz h
      · intro m _ k h; cases h
      · intro h; exact absurd rfl (h n)
    · rw [if_neg hz]
      have hz' : prodN sh * n ≠ 0 := hz
      have hn : n ≠ 0 := fun h => hz' (by rw [h, Nat.mul_zero])
      have hs : prodN sh ≠ 0 := fun h => hz' (by rw [h, Nat.zero_mul])
      have ha : atleast1dShape sh ≠ [] := by cases sh <;> simp [atleast1dShape]
      split
      · refine ⟨?_, ?_, ?_, ?_⟩
        · dsimp only
          rw [prodN_mulLast _ _ ha, prodN_atleast1d]
          exact ⟨fun h => absurd h hz', fun h => h.elim (fun h => absurd h hs) (fun h => absurd h.2 hz)⟩
        · intro m _ _; exact Or.inl rfl
        · intro m _ k h; cases h
        · intro h; exact absurd rfl (h n)
      · refine ⟨?_, ?_, ?_, ?_⟩
        · exact ⟨fun h => absurd h hs, fun h => h.elim (fun h => absurd h hs) (fun h => absurd h.2 hz)⟩
        · intro m _ _
          obtain ⟨k, rfl⟩ := Nat.exists_eq_succ_of_ne_zero hn
          exact Or.inr ⟨k, rfl⟩
        · intro m _ k h; cases h
        · intro h; exact absurd rfl (h n)
  · have e : bytesStep o ⟨dt, sh, data⟩ = ⟨dt, sh, data⟩ := by
      unfold bytesStep
      cases dt <;> first | rfl | exact absurd ⟨_, rfl⟩ hd
    rw [e]
    refine ⟨?_, ?_, ?_, fun _ => rfl⟩
    · exact ⟨fun h => Or.inl h, fun h => h.elim id (fun h => absurd h.1 hd)⟩
    · intro n h; exact absurd ⟨n, h⟩ hd
    · intro n h; exact absurd ⟨n, h⟩ hd

theorem u32_prod {a : Arr} {n : Nat} (hn : a.dt = .str n) : prodN (convertNumpyStrToUint32 a).shape = 0 ↔ a.nbytes = 0 := by
  unfold convertNumpyStrToUint32
  split
  · rename_i h
    simp [npZeros, prodN, h]
  · rename_i h
    have ha : atleast1dShape a.shape ≠ [] := by cases a.shape <;> simp [atleast1dShape]
    dsimp only
    rw [prodN_mulLast _ _ ha, prodN_atleast1d]
    unfold Arr.nbytes at h ⊢
    rw [hn] at h ⊢
    have e : DT.itemsize (.str n) = 4 * n := rfl
    rw [e] at h ⊢
    rw [Nat.mul_div_cancel_left n (by decide)]
    refine ⟨fun h' => ?_, fun h' => absurd h' h⟩
    rw [Nat.mul_left_comm, h', Nat.mul_zero]

theorem mul_last_prod {s : List Nat} (h : prodN s ≠ 0) (hs : s ≠ []) : s.getLastD 0 ≠ 0 := by
  intro h0
  apply h
  rw [← zero_mem_prod, ← h0]
  cases s with
  | nil => exact absurd rfl hs
  | cons a r => exact List.mem_of_mem_getLast? (by simp [List.getLast?_cons, List.getLastD_eq_getLast?])

theorem strStep_mat {o : COpts} {sc : Bool} {a d : Arr} {n : Nat} (hn : a.dt = .str n) (hsc : sc = true → a.shape = []) (h : strStep o sc a = .ok d) :
    (prodN d.shape = 0 ↔ a.nbytes = 0) ∧ (d.dt = .u16 ∨ d.dt = .u32) := by
  have h32 : d = convertNumpyStrToUint32 a → (prodN d.shape = 0 ↔ a.nbytes = 0) ∧ (d.dt = .u16 ∨ d.dt = .u32) := by
    rintro rfl
    exact ⟨u32_prod hn, Or.inr (u32_dt a)⟩
  unfold strStep at h
  rw [hn] at h
  dsimp only at h
  cases hc : (if o.str16 = true then (convertNumpyStrToUint16 a).toOption else none) with
  | none =>
    rw [hc] at h
    cases h
    exact h32 rfl
  | some b =>
    rw [hc] at h
    dsimp only at h
    have hb : convertNumpyStrToUint16 a = .ok b := by
      split at hc
      · cases hx : convertNumpyStrToUint16 a with
        | error e => rw [hx] at hc; cases hc
        | ok y => rw [hx] at hc; cases hc; rfl
      · cases hc
    have hw : a.nbytes ≠ 0 → ∃ w, b.shape = mulLast w (atleast1dShape a.shape) := by
      intro hz
      unfold convertNumpyStrToUint16 at hb
      rw [if_neg hz] at hb
      obtain ⟨e, _, h2⟩ := res_bind_ok.mp hb
      cases h2
      exact ⟨_, rfl⟩
    have h0 : a.nbytes = 0 → prodN b.shape = 0 := by
      intro hz
      unfold convertNumpyStrToUint16 at hb
      rw [if_pos hz] at hb
      cases hb
      rfl
    have nb : a.nbytes = prodN a.shape * (4 * n) := by unfold Arr.nbytes; rw [hn]; rfl
    have h16 : d = b → (a.nbytes ≠ 0 → prodN b.shape ≠ 0) → (prodN d.shape = 0 ↔ a.nbytes = 0) ∧ (d.dt = .u16 ∨ d.dt = .u32) := by
      rintro rfl hne
      exact ⟨⟨fun h' => Decidable.byContradiction fun hz => hne hz h', h0⟩, Or.inl (u16_dt hb)⟩
    split at h
    · rename_i hs
      split at h
      · cases h; exact h32 rfl
      · rename_i hnn
        simp only [ne_eq, Decidable.not_not] at hnn
        cases h
        refine h16 rfl fun hz => ?_
        obtain ⟨w, hw⟩ := hw hz
        rw [hsc hs] at hw
        rw [hw] at hnn ⊢
        have e : (mulLast w (atleast1dShape [])) = [1 * w] := rfl
        rw [e] at hnn ⊢
        have e2 : ([1 * w] : List Nat).headD 0 = 1 * w := rfl
        rw [e2] at hnn
        rw [nb] at hz
        intro h'
        apply hz
        rw [hnn]
        have e3 : prodN [1 * w] = 1 * w * 1 := rfl
        rw [e3, Nat.mul_one] at h'
        rw [h', Nat.mul_zero]
    · split at h
      · cases h
      · rename_i hs hne
        split at h
        · cases h; exact h32 rfl
        · rename_i hnn
          simp only [ne_eq, Decidable.not_not] at hnn
          cases h
          refine h16 rfl fun hz => ?_
          obtain ⟨w, hw⟩ := hw hz
          have hsne : a.shape ≠ [] := by
            intro h'; rw [h'] at hne; exact hne rfl
          have h1 : atleast1dShape a.shape = a.shape := by
            cases hsh : a.shape with
            | nil => exact absurd hsh hsne
            | cons x r => rfl
          rw [h1] at hw
          rw [hw, getLastD_mulLast _ _ hsne] at hnn
          rw [hw, prodN_mulLast _ _ hsne]
          rw [nb] at hz
          have hp : prodN a.shape ≠ 0 := fun h' => hz (by rw [h', Nat.zero_mul])
          have hl := mul_last_prod hp hsne
          have hwn : w = n := Nat.eq_of_mul_eq_mul_left (Nat.pos_of_ne_zero hl) hnn
          rw [hwn]
          intro h'
          apply hz
          rw [Nat.mul_left_comm, h', Nat.mul_zero]

theorem strStep_id {o : COpts} {sc : Bool} {a : Arr} (h : ∀ n, a.dt ≠ .str n) : strStep o sc a = .ok a := by
  unfold strStep
  cases hd : a.dt <;> first | rfl | exact absurd hd (h _)


/-- The type of the stored elements. -/
def StoredDT (dt dt' : DT) : Prop :=
  match dt with
  | .bytes _ => dt' = .u16 ∨ ∃ n, dt' = .bytes (n + 1)
  | .str _ => dt' = .u16 ∨ dt' = .u32
  | .bool => dt' = .u8
  | .c64 => dt' = .crec p!"real" p!"imag" false
  | .c128 => dt' = .crec p!"real" p!"imag" true
  | dt => dt' = dt

theorem storedDT_fits {dt dt' : DT} {cl : Str} (h : StoredDT dt dt') (hcl : dt.matlabClass = some cl) (hno : dt ≠ .object) : ClassFits dt' cl := by
  cases dt <;> simp only [StoredDT] at h <;> first
    | (subst h; cases hcl; constructor; done)
    | exact absurd rfl hno
    | (rcases h with rfl | ⟨n, rfl⟩ <;> cases hcl <;> constructor)
    | (rcases h with rfl | rfl <;> cases hcl <;> constructor)
    | cases hcl

theorem text_steps {o : COpts} (hb : o.bytes16 = true) {sc : Bool} {a d : Arr} (hsc : sc = true → a.shape = []) (h : strStep o sc (bytesStep o a) = .ok d) :
    (prodN d.shape = 0 ↔ a.isEmpty = true) ∧ (a.isEmpty = false → TextDT a.dt d.dt) := by
  obtain ⟨b1, b2, b3, b4⟩ := bytesStep_mat hb a
  have hie : a.isEmpty = true ↔ prodN a.shape = 0 ∨ a.dt.isString = true ∧ a.nbytes = 0 := by
    unfold Arr.isEmpty Arr.size
    simp
  by_cases hx : ∃ n, a.dt = .bytes n
  · obtain ⟨n, hn⟩ := hx
    rw [strStep_id (b3 n hn)] at h
    cases h
    have hstr : a.dt.isString = true := by rw [hn]; rfl
    refine ⟨?_, ?_⟩
    · rw [b1, hie]
      exact ⟨fun h => h.elim Or.inl fun h => Or.inr ⟨hstr, h.2⟩, fun h => h.elim Or.inl fun h => Or.inr ⟨⟨n, hn⟩, h.2⟩⟩
    · intro he
      have hz : a.nbytes ≠ 0 := fun h => by
        have := hie.mpr (Or.inr ⟨hstr, h⟩)
        rw [he] at this
        cases this
      rw [hn]
      exact b2 n hn hz
  · have hx' : ∀ n, a.dt ≠ .bytes n := fun n h => hx ⟨n, h⟩
    rw [b4 hx'] at h
    by_cases hy : ∃ n, a.dt = .str n
    · obtain ⟨n, hn⟩ := hy
      obtain ⟨h1, h2⟩ := strStep_mat hn hsc h
      have hstr : a.dt.isString = true := by rw [hn]; rfl
      refine ⟨?_, ?_⟩
      · rw [h1, hie]
        refine ⟨fun h => Or.inr ⟨hstr, h⟩, fun h => h.elim (fun h => ?_) (fun h => h.2)⟩
        unfold Arr.nbytes
        rw [h, Nat.zero_mul]
      · intro _
        rw [hn]
        exact h2
    · have hy' : ∀ n, a.dt ≠ .str n := fun n h => hy ⟨n, h⟩
      rw [strStep_id hy'] at h
      cases h
      have hstr : a.dt.isString = false := by
        cases hd : a.dt <;> first | rfl | exact absurd hd (hx' _) | exact absurd hd (hy' _)
      refine ⟨?_, ?_⟩
      · rw [hie, hstr]
        simp
      · intro _
        cases hd : a.dt <;> first | rfl | exact absurd hd (hx' _) | exact absurd hd (hy' _)

theorem complexStep_mat {o : COpts} (hc : o.complexNames = (p!"real", p!"imag")) {a d : Arr} (h : complexStep o a = .ok d) : d.shape = a.shape ∧ d.data = a.data ∧
    (a.dt = .c64 → d.dt = .crec p!"real" p!"imag" false) ∧ (a.dt = .c128 → d.dt = .crec p!"real" p!"imag" true) ∧ (a.dt ≠ .c64 → a.dt ≠ .c128 → d = a) := by
  obtain ⟨dt, sh, data⟩ := a
  unfold complexStep at h
  rw [hc] at h
  cases dt <;> cases h <;> (refine ⟨rfl, rfl, ?_, ?_, ?_⟩ <;> intros <;> first | rfl | contradiction)

theorem shape_steps {o : COpts} (h2 : o.atleast2d = true) (a : Arr) : (boolStep o (reverseStep o (atleast2dStep o a))).shape = (if o.reverse then (atleast2dShape a.shape).reverse else atleast2dShape a.shape) := by
  have hb : ∀ b : Arr, (boolStep o b).shape = b.shape := by intro b; unfold boolStep; split <;> rfl
  rw [hb]
  unfold atleast2dStep
  rw [if_pos h2]
  unfold reverseStep
  split <;> rfl

theorem dt_steps {o : COpts} (hbo : o.boolsU8 = true) (a : Arr) : (boolStep o (reverseStep o (atleast2dStep o a))).dt = if a.dt = .bool then .u8 else a.dt := by
  have e : (reverseStep o (atleast2dStep o a)).dt = a.dt := by
    unfold reverseStep atleast2dStep
    split <;> split <;> rfl
  unfold boolStep
  rw [e]
  by_cases hd : a.dt = .bool
  · rw [if_pos ⟨hbo, hd⟩, if_pos hd]
  · rw [if_neg (fun h => hd h.2), if_neg hd, e]

theorem prepare_mat {o : COpts} (hO : MatO o) {c : Cont} {a d : Arr} {cl : Str} (hcl : a.dt.matlabClass = some cl) (hno : a.dt ≠ .object) (hsc : c = .scalar → a.shape = [])
    (h : prepare o c a = .ok d) : (a.isEmpty = false → 2 ≤ d.shape.length ∧ 0 ∉ d.shape ∧ ClassFits d.dt cl) ∧
    (a.isEmpty = true → ∃ ds : List Nat, 2 ≤ ds.length ∧ 0 ∈ ds ∧ d = shapeArr ds) := by
  unfold prepare at h
  obtain ⟨t, h1, h⟩ := res_bind_ok.mp h
  dsimp only at h
  obtain ⟨t1, t2⟩ := text_steps hO.bytes16 (fun h' => hsc (by simpa using h')) h1
  have hsh := shape_steps hO.atleast2d t
  have hdt := dt_steps hO.boolsU8 t
  have hlen : ∀ l : List Nat, (if o.reverse = true then l.reverse else l).length = l.length := by intro l; split <;> simp
  have hmem : ∀ l : List Nat, 0 ∈ (if o.reverse = true then l.reverse else l) ↔ 0 ∈ l := by intro l; split <;> simp
  have hz : 0 ∈ atleast2dShape t.shape ↔ a.isEmpty = true := by rw [zero_mem_prod, prodN_atleast2d, t1]
  refine ⟨?_, ?_⟩
  · intro he
    rw [he, Bool.and_false, if_neg (by decide)] at h
    obtain ⟨c1, _, c3, c4, c5⟩ := complexStep_mat hO.cplx h
    refine ⟨?_, ?_, ?_⟩
    · rw [c1, hsh, hlen]; exact rank2 _
    · rw [c1, hsh, hmem, hz, he]; decide
    · refine storedDT_fits ?_ hcl hno
      have ht := t2 he
      generalize hb : boolStep o (reverseStep o (atleast2dStep o t)) = b at *
      by_cases hn : ∃ dt, dt = a.dt ∧ (dt = .c64 ∨ dt = .c128 ∨ dt = .bool)
      · obtain ⟨_, rfl, hn⟩ := hn
        rcases hn with hn | hn | hn <;> rw [hn] at ht ⊢
        · have : t.dt = .c64 := ht
          rw [this, if_neg (by decide)] at hdt
          exact c3 hdt
        · have : t.dt = .c128 := ht
          rw [this, if_neg (by decide)] at hdt
          exact c4 hdt
        · have : t.dt = .bool := ht
          rw [this, if_pos rfl] at hdt
          have := c5 (by rw [hdt]; decide) (by rw [hdt]; decide)
          rw [this]
          exact hdt
      · have n1 : a.dt ≠ .c64 := fun h => hn ⟨_, rfl, Or.inl h⟩
        have n2 : a.dt ≠ .c128 := fun h => hn ⟨_, rfl, Or.inr (Or.inl h)⟩
        have n3 : a.dt ≠ .bool := fun h => hn ⟨_, rfl, Or.inr (Or.inr h)⟩
        have k : t.dt ≠ .c64 ∧ t.dt ≠ .c128 ∧ t.dt ≠ .bool ∧ StoredDT a.dt t.dt := by
          cases hd : a.dt <;> rw [hd] at ht n1 n2 n3 <;> simp only [TextDT] at ht <;> first
            | contradiction
            | (rw [ht]; exact ⟨by simp, by simp, by simp, rfl⟩)
            | (rcases ht with ht | ⟨n, ht⟩ <;> rw [ht] <;> simp [StoredDT])
            | (rcases ht with ht | ht <;> rw [ht] <;> simp [StoredDT])
        rw [if_neg k.2.2.1] at hdt
        rw [c5 (hdt ▸ k.1) (hdt ▸ k.2.1), hdt]
        exact k.2.2.2
  · intro he
    rw [he, hO.storeShape, Bool.and_self, if_pos rfl] at h
    obtain ⟨_, _, _, _, c5⟩ := complexStep_mat hO.cplx h
    refine ⟨_, ?_, ?_, c5 (by simp [shapeArr]) (by simp [shapeArr])⟩
    · rw [hlen, hsh, hlen]; exact rank2 _
    · rw [hmem, hsh, hmem, hz]; exact he

end HS
