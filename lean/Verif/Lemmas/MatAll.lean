import Verif.Lemmas.MatLeaf
import Verif.Lemmas.Local
/-
Reading what has been stored without Python metadata: whole values.
-/
namespace HS
open Spec

/-- Parts of values MATLAB has a class for. -/
def MatPart (o : COpts) (d : Bool) : Part → Prop
  | .value v => MatGood o d v
  | .column sh e => 0 ∉ sh ∧ e.length = prodN sh ∧ ∀ w ∈ e, MatGood o d w

/-- Elements that can be read one by one can be read together. -/
theorem read_collect {rd : Nat → Nat → Res Val} (ids : List Nat) (R : Nat → Val → Prop)
    (h : ∀ (i r : Nat), ids[i]? = some r → ∃ w N, R i w ∧ ∀ n, N ≤ n → rd n r = .ok w) :
    ∃ ws N, (∀ n, N ≤ n → All2 (fun r w => rd n r = .ok w) ids ws) ∧ ws.length = ids.length ∧ ∀ (i : Nat) (w : Val), ws[i]? = some w → R i w := by
  induction ids generalizing R with
  | nil => exact ⟨[], 0, fun _ _ => .nil, rfl, fun i w h => by simp at h⟩
  | cons r ids ih =>
    obtain ⟨w, N, h1, h2⟩ := h 0 r rfl
    obtain ⟨ws, M, g1, g2, g3⟩ := ih (fun i => R (i + 1)) (fun i r hr => h (i + 1) r (by simpa using hr))
    refine ⟨w :: ws, max N M, fun n hn => .cons (h2 n (by omega)) (g1 n (by omega)), by simp [g2], ?_⟩
    intro i w' hw
    cases i with
    | zero => cases hw; exact h1
    | succ i => exact g3 i w' (by simpa using hw)

/-- The element at a position of the array, and where it is in the Dataset. -/
theorem inOrder_at {o : COpts} (hr : o.reverse = true) {sh : List Nat} {e el : List Val} (hi : InOrder o sh e el) (k : Nat) (hk : k < prodN sh) :
    ∃ j : Nat, e[k]? = el[j]? ∧ ∀ {vs es : List Val}, ReversedElems (StoredShape o sh) vs es → es[k]? = vs[j]? := by
  have hk' : k < (indicesN (RowShape o sh)).length := by rw [length_indicesN, prodN_rowShape]; exact hk
  have hg : (indicesN (RowShape o sh))[k]? = some ((indicesN (RowShape o sh))[k]) := List.getElem?_eq_getElem hk'
  generalize (indicesN (RowShape o sh))[k] = i at hg
  have hv : ValidIx (RowShape o sh) i := (mem_indicesN _ i).mp (List.mem_of_getElem? hg)
  have hR := ravelN_of_getElem _ k i hg
  have h1 := hi.elems i (valid_indexOf hv)
  rw [if_pos hr, hR] at h1
  refine ⟨_, h1.symm, ?_⟩
  intro vs es hes
  have hs : StoredShape o sh = (RowShape o sh).reverse := by rw [StoredShape, if_pos hr]
  rw [hs] at hes
  have := hes.2.2 i.reverse (valid_indexOf (validIx_reverse hv))
  rw [List.reverse_reverse, List.reverse_reverse, hR] at this
  rw [this, hs]

/-- The elements in the Dataset are those of the array. -/
theorem inOrder_mem {o : COpts} (hr : o.reverse = true) {sh : List Nat} {e el : List Val} (hi : InOrder o sh e el) : ∀ w ∈ el, w ∈ e := by
  intro w hw
  obtain ⟨k, hk, hke⟩ := List.mem_iff_getElem.mp hw
  have hs : StoredShape o sh = (RowShape o sh).reverse := by rw [StoredShape, if_pos hr]
  have hk' : k < (indicesN (StoredShape o sh)).length := by rw [length_indicesN, hs, prodN_reverse, prodN_rowShape, ← hi.count]; exact hk
  have hg : (indicesN (StoredShape o sh))[k]? = some ((indicesN (StoredShape o sh))[k]) := List.getElem?_eq_getElem hk'
  generalize (indicesN (StoredShape o sh))[k] = i at hg
  have hv : ValidIx (StoredShape o sh) i := (mem_indicesN _ i).mp (List.mem_of_getElem? hg)
  have hv' : ValidIx (RowShape o sh) i.reverse := by
    have := validIx_reverse hv
    rwa [hs, List.reverse_reverse] at this
  have h1 := hi.elems i.reverse (valid_indexOf hv')
  rw [if_pos hr, List.reverse_reverse, ravelN_of_getElem _ k i hg, List.getElem?_eq_getElem hk, hke] at h1
  exact List.mem_of_getElem? h1.symm

theorem storedNames_not {P : Part} {sh : List Nat} {e : List Val} (he : Elements P sh e) {v : Val} (hP : P = .value v) (b : Body) (names : List Str) :
    ¬ StoredNames b v names := by
  intro hs
  cases he with
  | column => cases hP
  | npObj =>
    cases hP
    cases hs with
    | fields hf _ => cases hf
  | seq =>
    cases hP
    cases hs with
    | fields hf _ => cases hf

theorem cellClass {sh : List Nat} {e : List Val} {v : Val} (he : Elements (.value v) sh e) : ClassOf v p!"cell" := by
  cases he with
  | npObj c sh e => exact .table (.npObj c sh e)
  | seq k e => exact .table (.seq k e)

theorem elements_empty {sh : List Nat} {e : List Val} {v : Val} (he : Elements (.value v) sh e) : NoElements v ↔ 0 ∈ sh := by
  constructor
  · intro h
    cases h with
    | shape hs h0 => cases he <;> cases hs <;> first | exact h0 | (rename_i h; cases h)
    | text h _ => cases he <;> cases h
  · intro h0
    cases he with
    | npObj c sh e => exact .shape (.npObj c sh e) h0
    | seq k e => exact .shape (.seq k e) h0

/-- Lists and the like of values MATLAB has a class for. -/
theorem elements_good {o : COpts} {d : Bool} {P : Part} {sh : List Nat} {e : List Val} (he : Elements P sh e) (hg : MatPart o d P) : e.length = prodN sh ∧ ∀ w ∈ e, MatGood o d w := by
  cases he with
  | column => exact hg.2
  | npObj c sh e =>
    generalize hv : Val.npObj c sh e = v at hg
    cases (show MatGood o d v from hg) with
    | npObj _ _ _ _ h1 h2 => cases hv; exact ⟨h1, h2⟩
    | seq => cases hv
    | npStruct => cases hv
    | emptyStruct => cases hv
    | dict => cases hv
    | number h => subst hv; cases h
    | empty h => subst hv; rcases h with h | ⟨h, _⟩
                 · cases h
                 · obtain ⟨_, _, _, _, h, _⟩ := textData_class h; cases h
    | chars h => subst hv; obtain ⟨_, h, _⟩ := h.rows; obtain ⟨_, _, _, _, h, _⟩ := textData_class h; cases h
    | bytes h => subst hv; obtain ⟨_, _, _, _, h, _⟩ := textData_class h; cases h
    | fields h => subst hv; cases h
  | seq k e =>
    generalize hv : Val.seq k e = v at hg
    cases (show MatGood o d v from hg) with
    | seq _ _ h2 => cases hv; exact ⟨by simp [prodN], h2⟩
    | npObj => cases hv
    | npStruct => cases hv
    | emptyStruct => cases hv
    | dict => cases hv
    | number h => subst hv; cases h
    | empty h => subst hv; rcases h with h | ⟨h, _⟩
                 · cases h
                 · obtain ⟨_, _, _, _, h, _⟩ := textData_class h; cases h
    | chars h => subst hv; obtain ⟨_, h, _⟩ := h.rows; obtain ⟨_, _, _, _, h, _⟩ := textData_class h; cases h
    | bytes h => subst hv; obtain ⟨_, _, _, _, h, _⟩ := textData_class h; cases h
    | fields h => subst hv; cases h

theorem keyText_fun {k : Val} {t t' : Str} (h : KeyText k t) (h' : KeyText k t') : t = t' := by
  obtain ⟨e, c, h1, _, h2, _⟩ := keyInfo_text h
  obtain ⟨e', c', h1', _, h2', _⟩ := keyInfo_text h'
  rw [h1] at h1'
  cases h1'
  rw [h2] at h2'
  exact Except.ok.inj h2'

theorem hasFields_same {v : Val} {t t' : List Str} {w w' : List Val} (h : HasFields v t w) (h' : HasFields v t' w') : t = t' ∧ w = w' := by
  cases h with
  | dict k keys vals texts h1 h2 =>
    cases h' with
    | dict _ _ _ texts' h1' h3 =>
      refine ⟨?_, rfl⟩
      clear h2 h3
      induction h1 generalizing t' with
      | nil => cases h1'; rfl
      | cons hk _ ih =>
        cases h1' with
        | cons hk' h1' => rw [keyText_fun hk hk', ih h1']
  | record => cases h'; exact ⟨rfl, rfl⟩


theorem notText_hasFields {v : Val} {k : DictKind} {keys vals vals' : List Val} {texts : List Str} (hv : v = .dict k keys vals) (hn : ∃ k ∈ keys, NotTextKey k)
    (hf : HasFields v texts vals') : False := by
  subst hv
  cases hf with
  | dict _ _ _ _ h =>
    obtain ⟨l, h1, _⟩ := keyInfos_text h
    rw [keyInfos_notText hn] at h1
    cases h1

theorem good_fields {o : COpts} {d : Bool} {v : Val} {texts : List Str} {vals : List Val} (hg : MatGood o d v) (hf : HasFields v texts vals) :
    ClassOf v p!"struct" ∧ texts.Nodup ∧ Named d texts ∧ ∀ w ∈ vals, MatGood o d w := by
  cases hg with
  | fields h1 h2 h3 h3' h4 =>
    obtain ⟨rfl, rfl⟩ := hasFields_same hf h1
    refine ⟨?_, h3, h3', h4⟩
    cases h2 with
    | dtypeObj => cases hf
    | table h => cases hf <;> cases h <;> first | exact .table (.dict ..) | exact .table (.orderedDict ..) | exact .table (.record ..)
  | dict _ _ _ _ _ _ hn => exact (notText_hasFields rfl hn hf).elim
  | number h => cases hf <;> cases h
  | empty h =>
    rcases h with h | ⟨h, _⟩
    · cases hf <;> cases h
    · obtain ⟨_, _, _, _, h, _⟩ := textData_class h; cases hf <;> cases h
  | chars h => obtain ⟨_, h, _⟩ := h.rows; obtain ⟨_, _, _, _, h, _⟩ := textData_class h; cases hf <;> cases h
  | bytes h => obtain ⟨_, _, _, _, h, _⟩ := textData_class h; cases hf <;> cases h
  | npObj => cases hf
  | seq => cases hf
  | npStruct => cases hf
  | emptyStruct => cases hf

theorem good_dict {o : COpts} {d : Bool} {k : DictKind} {keys vals : List Val} (hg : MatGood o d (.dict k keys vals)) (hn : ∃ k ∈ keys, NotTextKey k) :
    ClassOf (.dict k keys vals) p!"struct" ∧ (∃ kn vn, Shown [o.keysName, o.valuesName] [kn, vn] ∧ kn ≠ vn ∧ Named d [kn, vn]) ∧ (∀ w ∈ keys, MatGood o d w) ∧ ∀ w ∈ vals, MatGood o d w := by
  generalize hv : Val.dict k keys vals = v at hg
  cases hg with
  | dict k keys vals kn vn h1 _ h2 h3 h3' h4 h5 =>
    cases hv
    refine ⟨?_, ⟨kn, vn, h2, h3, h3'⟩, h4, h5⟩
    cases k with
    | dict => exact .table (.dict ..)
    | orderedDict => exact .table (.orderedDict ..)
    | counter => exact absurd rfl h1
  | fields h => exact (notText_hasFields hv.symm hn h).elim
  | number h => subst hv; cases h
  | empty h =>
    subst hv
    rcases h with h | ⟨h, _⟩
    · cases h
    · obtain ⟨_, _, _, _, h, _⟩ := textData_class h; cases h
  | chars h => subst hv; obtain ⟨_, h, _⟩ := h.rows; obtain ⟨_, _, _, _, h, _⟩ := textData_class h; cases h
  | bytes h => subst hv; obtain ⟨_, _, _, _, h, _⟩ := textData_class h; cases h
  | npObj => cases hv
  | seq => cases hv
  | npStruct => cases hv
  | emptyStruct => cases hv

/-- Structured arrays. -/
theorem good_struct {o : COpts} {d : Bool} {c : Cont} {sh : List Nat} {n : List Str} {ty : List FT} {e : List Val} (hg : MatGood o d (.npStruct c sh n ty e)) :
    n.Nodup ∧ ((0 ∉ sh ∧ Named d n ∧ e.length = n.length * prodN sh ∧ ∀ w ∈ e, MatGood o d w) ∨
      (0 ∈ sh ∧ n ≠ [] ∧ [] ∉ n ∧ ∀ t ∈ n, ∀ k, escapePath t = .ok k → ∀ c ∈ k, c < 128)) := by
  generalize hv : Val.npStruct c sh n ty e = v at hg
  cases hg with
  | npStruct _ _ _ _ _ h1 h2 h2' h3 h4 h5 => cases hv; exact ⟨h2, .inl ⟨h1, h2', h3, h5⟩⟩
  | emptyStruct _ _ _ _ h1 h2 h3 h5 h6 =>
    cases hv
    rcases h3 with h | ⟨h3, h4⟩
    · cases h
    · exact ⟨h2, .inr ⟨h1, h3, h4, h6⟩⟩
  | fields h => subst hv; cases h
  | dict => cases hv
  | number h => subst hv; cases h
  | empty h =>
    subst hv
    rcases h with h | ⟨h, _⟩
    · cases h
    · obtain ⟨_, _, _, _, h, _⟩ := textData_class h; cases h
  | chars h => subst hv; obtain ⟨_, h, _⟩ := h.rows; obtain ⟨_, _, _, _, h, _⟩ := textData_class h; cases h
  | bytes h => subst hv; obtain ⟨_, _, _, _, h, _⟩ := textData_class h; cases h
  | npObj => cases hv
  | seq => cases hv

theorem shown_of_escaped {texts names : List Str} (h : All2 (fun t k => escapePath t = .ok k) texts names) : Shown names texts := by
  unfold Shown
  induction h with
  | nil => exact .nil
  | @cons t k _ _ h _ ih =>
    refine .cons ?_ ih
    obtain ⟨e, h1, h2⟩ := C01_unescape_escape t
    rw [h] at h1
    cases h1
    exact h2

theorem noElements_fields {v : Val} {texts : List Str} {vals : List Val} (hf : HasFields v texts vals) : ¬ NoElements v := by
  intro h
  cases h with
  | shape hs _ => cases hf <;> (cases hs; rename_i h; cases h)
  | text h _ => cases hf <;> cases h

theorem noElements_struct {c : Cont} {sh : List Nat} {n : List Str} {ty : List FT} {e : List Val} : NoElements (.npStruct c sh n ty e) ↔ 0 ∈ sh := by
  constructor
  · intro h
    cases h with
    | shape hs h0 => cases hs with
      | npStruct => exact h0
      | plain h => cases h
    | text h _ => cases h
  · exact fun h => .shape (.npStruct ..) h

/-- Values that are stored as Groups. -/
theorem group_good {o : COpts} {d : Bool} {v : Val} {names : List Str} {parts : List Part} (hg : MatGood o d v) (hf : FieldsOf o v names parts) (hG : GroupFor o v) (hs : o.storeShape = true) :
    ClassOf v p!"struct" ∧ ¬ NoElements v ∧ (∀ P ∈ parts, MatPart o d P) ∧ ∃ shown, Shown names shown ∧ shown.Nodup ∧ Named d shown := by
  cases hf with
  | fields h1 h2 =>
    obtain ⟨a, b, b', c⟩ := good_fields hg h1
    refine ⟨a, noElements_fields h1, ?_, _, shown_of_escaped h2, b, b'⟩
    intro P hP
    obtain ⟨w, hw, rfl⟩ := List.mem_map.mp hP
    exact c w hw
  | keysValues k keys vals hn =>
    obtain ⟨a, ⟨kn, vn, b, c, c'⟩, g, e⟩ := good_dict hg hn
    refine ⟨a, ?_, ?_, _, b, by simp [c], c'⟩
    · intro h
      cases h with
      | shape hs _ => cases hs; rename_i h; cases h
      | text h _ => cases h
    · intro P hP
      simp only [List.mem_cons, List.not_mem_nil, or_false] at hP
      rcases hP with rfl | rfl
      · exact .seq _ _ g
      · exact .seq _ _ e
  | one c sh n ty e _ h1 h2 =>
    obtain ⟨a, b⟩ := good_struct hg
    have h0 : 0 ∉ sh := fun h => hG.2 ⟨hs, h⟩
    rcases b with ⟨_, b', b, d⟩ | ⟨b, _⟩
    · refine ⟨.table (.npStruct ..), fun h => h0 (noElements_struct.mp h), ?_, _, shown_of_escaped h2, a, b'⟩
      intro P hP
      obtain ⟨w, hw, rfl⟩ := List.mem_map.mp hP
      exact d w hw
    · exact absurd b h0
  | many c sh n ty e _ cols h1 h2 h3 h4 =>
    obtain ⟨a, b⟩ := good_struct hg
    have h0 : 0 ∉ sh := fun h => hG.2 ⟨hs, h⟩
    rcases b with ⟨_, b', b, d⟩ | ⟨b, _⟩
    · refine ⟨.table (.npStruct ..), fun h => h0 (noElements_struct.mp h), ?_, _, shown_of_escaped h2, a, b'⟩
      intro P hP
      obtain ⟨col, hw, rfl⟩ := List.mem_map.mp hP
      refine ⟨fun h => h0 (rowShape_zero.mp h), by rw [prodN_rowShape]; exact h3 col hw, ?_⟩
      intro w hw'
      exact d w (h4 ▸ List.mem_flatten.mpr ⟨col, hw, hw'⟩)
    · exact absurd b h0

theorem matGood_class {o : COpts} {d : Bool} {v : Val} (h : MatGood o d v) : (∃ cl, ClassOf v cl) := by
  cases h with
  | number _ _ h => exact ⟨_, h⟩
  | empty _ h => exact ⟨_, h⟩
  | chars h => obtain ⟨_, h, _⟩ := h.rows; exact ⟨_, (textData_class h).1⟩
  | bytes h => exact ⟨_, (textData_class h).1⟩
  | npObj c sh e => exact ⟨_, .table (.npObj c sh e)⟩
  | seq k e => exact ⟨_, .table (.seq k e)⟩
  | fields _ h => exact ⟨_, h⟩
  | dict k keys vals kn vn h =>
    cases k with
    | dict => exact ⟨_, .table (.dict ..)⟩
    | orderedDict => exact ⟨_, .table (.orderedDict ..)⟩
    | counter => exact absurd rfl h
  | npStruct c sh n ty e => exact ⟨_, .table (.npStruct ..)⟩
  | emptyStruct c sh n ty => exact ⟨_, .table (.npStruct ..)⟩

/-- Values MATLAB has a class for are stored. -/
theorem matGood_kept {o : COpts} {d : Bool} (hO : MatO o) {v : Val} (h : MatGood o d v) : ¬ Discarded o v := by
  obtain ⟨cl, h⟩ := matGood_class h
  cases h with
  | table h => exact docClass_kept hO h
  | dtypeObj s =>
    rintro ⟨_, _, ⟨c, a, h, _⟩ | ⟨h1, _⟩⟩
    · cases h
    · rw [hO.asStruct] at h1; cases h1

theorem all2_at {α β : Type} {R : α → β → Prop} {l : List α} {m : List β} (h : All2 R l m) {i : Nat} {a : α} {b : β} (ha : l[i]? = some a) (hb : m[i]? = some b) : R a b := by
  obtain ⟨b', h1, h2⟩ := (all2_get h).2 i a ha
  rw [hb] at h1
  cases h1
  exact h2

theorem shown_at {names shown : List Str} (h : Shown names shown) : names.length = shown.length ∧
    ∀ (i : Nat) (k t : Str), names[i]? = some k → shown[i]? = some t → unescapePath k = .ok t := by
  unfold Shown at h
  induction h with
  | nil => exact ⟨rfl, fun i k t h => by simp at h⟩
  | cons h _ ih =>
    refine ⟨by simp [ih.1], ?_⟩
    intro i k t h1 h2
    cases i with
    | zero => cases h1; cases h2; exact h
    | succ i => exact ih.2 i k t (by simpa using h1) (by simpa using h2)

theorem nodup_at {l : List Str} (h : l.Nodup) {i j : Nat} {t : Str} (hi : l[i]? = some t) (hj : l[j]? = some t) : i = j := by
  obtain ⟨h1, _⟩ := List.getElem?_eq_some_iff.mp hi
  exact (List.getElem?_inj h1 h).mp (hi.trans hj.symm)

theorem shown_escaped_all {n : List Str} : ∃ names, All2 (fun t k => escapePath t = .ok k) n names := by
  induction n with
  | nil => exact ⟨[], .nil⟩
  | cons t n ih =>
    obtain ⟨names, h⟩ := ih
    obtain ⟨e, h1, _⟩ := C01_unescape_escape t
    exact ⟨e :: names, .cons h1 h⟩

theorem escaped_same {n : List Str} {a b : List Str} (h : All2 (fun t k => escapePath t = .ok k) n a) (h' : All2 (fun t k => escapePath t = .ok k) n b) : a = b := by
  induction h generalizing b with
  | nil => cases h'; rfl
  | cons h _ ih =>
    cases h' with
    | cons h1 h2 =>
      rw [h] at h1
      cases h1
      rw [ih h2]

/-- The names of the fields in the attribute are those in the Group. -/
theorem storedNames_fields {o : COpts} {v : Val} {names bs : List Str} {parts : List Part} {b : Body} (hf : FieldsOf o v names parts) (h : StoredNames b v bs) : bs = names := by
  cases hf with
  | fields h1 h2 =>
    cases h with
    | fields h1' h2' =>
      obtain ⟨rfl, _⟩ := hasFields_same h1 h1'
      exact escaped_same h2' h2
    | group => cases h1
    | empty => cases h1
  | keysValues k keys vals hn =>
    cases h with
    | fields h1' h2' => exact (notText_hasFields rfl hn h1').elim
  | one c sh n ty e _ h1 h2 =>
    cases h with
    | fields h1' => cases h1'
    | group _ _ _ _ _ _ _ _ h' => exact escaped_same h' h2
    | empty _ _ _ _ _ _ _ h' => exact escaped_same h' h2
  | many c sh n ty e _ cols h1 h2 h3 h4 =>
    cases h with
    | fields h1' => cases h1'
    | group _ _ _ _ _ _ _ _ h' => exact escaped_same h' h2
    | empty _ _ _ _ _ _ _ h' => exact escaped_same h' h2

/-- A Group as MATLAB would have written it, with these names of fields. -/
structure Prep (ob : Obj) (links : List (Str × Nat)) (order names shown : List Str) (parts : List Part) : Prop where
  mat : MatStruct ob links order
  order : (aget ob.attrs p!"MATLAB_fields" = none ∧ order = []) ∨ order = shown
  len : names.length = parts.length
  slen : names.length = shown.length
  sat : ∀ (i : Nat) (k t : Str), names[i]? = some k → shown[i]? = some t → unescapePath k = .ok t
  nodup : shown.Nodup
  idx : ∀ m ∈ links, ∃ (i : Nat) (P : Part) (t : Str), names[i]? = some m.1 ∧ parts[i]? = some P ∧ shown[i]? = some t ∧ unescapePath m.1 = .ok t
  uniq : ∀ m ∈ links, ∀ (i : Nat) (t : Str), shown[i]? = some t → unescapePath m.1 = .ok t → names[i]? = some m.1
  back : ∀ (i : Nat) (t : Str), shown[i]? = some t → ∃ (k : Str) (r : Nat) (P : Part), names[i]? = some k ∧ parts[i]? = some P ∧ aget links k = some r ∧ (k, r) ∈ links
  proper : ProperNames links

theorem prep_of {ob : Obj} {links : List (Str × Nat)} {order : List Str} {names shown : List Str} {parts : List Part} (hm : MatStruct ob links order)
    (hord : (aget ob.attrs p!"MATLAB_fields" = none ∧ order = []) ∨ order = shown) (hlen : names.length = parts.length)
    (hs : Shown names shown) (hsn : shown.Nodup) (hl : ∀ k, (∃ r, aget links k = some r) ↔ ∃ (i : Nat) (P : Part), names[i]? = some k ∧ parts[i]? = some P) :
    Prep ob links order names shown parts := by
  have hnd := hm.names
  obtain ⟨sl, sat⟩ := shown_at hs
  have idx : ∀ m ∈ links, ∃ (i : Nat) (P : Part) (t : Str), names[i]? = some m.1 ∧ parts[i]? = some P ∧ shown[i]? = some t ∧ unescapePath m.1 = .ok t := by
    rintro ⟨k, r⟩ hmem
    obtain ⟨i, P, g1, g2⟩ := (hl k).mp ⟨r, (aget_iff_mem hnd).mpr hmem⟩
    obtain ⟨hi, _⟩ := List.getElem?_eq_some_iff.mp g1
    have : shown[i]? = some (shown[i]'(sl ▸ hi)) := List.getElem?_eq_getElem _
    exact ⟨i, P, _, g1, g2, this, sat i k _ g1 this⟩
  have uniq : ∀ m ∈ links, ∀ (i : Nat) (t : Str), shown[i]? = some t → unescapePath m.1 = .ok t → names[i]? = some m.1 := by
    intro m hmem i t hi ht
    obtain ⟨j, P, t', g1, g2, g3, g4⟩ := idx m hmem
    rw [ht] at g4
    cases g4
    rw [nodup_at hsn hi g3]
    exact g1
  refine ⟨hm, hord, hlen, sl, sat, hsn, idx, uniq, ?_, ?_, ?_⟩
  · intro i t hi
    obtain ⟨hi', _⟩ := List.getElem?_eq_some_iff.mp hi
    have hk : names[i]? = some (names[i]'(sl ▸ hi')) := List.getElem?_eq_getElem _
    have hP : parts[i]? = some (parts[i]'(hlen ▸ sl ▸ hi')) := List.getElem?_eq_getElem _
    obtain ⟨r, hr⟩ := (hl _).mpr ⟨i, _, hk, hP⟩
    exact ⟨_, r, _, hk, hP, hr, (aget_iff_mem hnd).mp hr⟩
  · intro m hm
    obtain ⟨i, P, t, _, _, _, h⟩ := idx m hm
    exact ⟨t, h⟩
  · intro m hm m' hm' e
    obtain ⟨i, P, t, g1, g2, g3, g4⟩ := idx m hm
    have := uniq m' hm' i t g3 (e ▸ g4)
    rw [g1] at this
    exact Option.some.inj this

theorem group_prep {o : COpts} (hR : MatR o) {attrs : List (Str × AVal)} {links : List (Str × Nat)}
    {path : Option Str} {v : Val} {names shown : List Str} {parts : List Part} (hnd : (links.map (·.1)).Nodup)
    (ha : AttrsAre o (.group links) path (.value v) attrs) (hc : ClassOf v p!"struct") (hne : ¬ NoElements v) (hf : FieldsOf o v names parts) (hlen : names.length = parts.length)
    (hs : Shown names shown) (hsn : shown.Nodup) (hl : ∀ k, (∃ r, aget links k = some r) ↔ ∃ (i : Nat) (P : Part), names[i]? = some k ∧ parts[i]? = some P) :
    ∃ order, Prep ⟨attrs, .group links⟩ links order names shown parts := by
  obtain ⟨h1, h2, h3, h4, h5⟩ := attrs_py hR.noPy ha
  have hord : ∃ order, ((aget attrs p!"MATLAB_fields" = none ∧ order = []) ∨
      ∃ bs, aget attrs p!"MATLAB_fields" = some (.fields bs) ∧ (∀ b ∈ bs, ∀ c ∈ b, c < 128) ∧ All2 (fun b nm => unescapePath b = .ok nm) bs order) ∧
      ((aget attrs p!"MATLAB_fields" = none ∧ order = []) ∨ order = shown) := by
    rcases attrs_fields ha with ⟨h, _⟩ | ⟨bs, h1, h2, h3⟩
    · exact ⟨[], .inl ⟨h, rfl⟩, .inl ⟨h, rfl⟩⟩
    · have := storedNames_fields hf h2
      subst this
      exact ⟨shown, .inr ⟨_, h1, h3, hs⟩, .inr rfl⟩
  obtain ⟨order, hord, hord'⟩ := hord
  have hm : MatStruct ⟨attrs, .group links⟩ links order :=
    ⟨rfl, hnd, attrs_class hR.matlab ha hc, h1, h2, h3, h4, h5, fun h => hne ((attrs_empty hR.matlab ha).mp h), hord⟩
  exact ⟨order, prep_of hm hord' hlen hs hsn hl⟩

/-- All members can be read with the same recursion limit. -/
theorem links_bound {rd : Nat → Nat → Res Val} (links : List (Str × Nat)) (h : ∀ m ∈ links, ∃ w N, ∀ n, N ≤ n → rd n m.2 = .ok w) :
    ∃ N, ∀ m ∈ links, ∃ w, ∀ n, N ≤ n → rd n m.2 = .ok w := by
  induction links with
  | nil => exact ⟨0, fun m hm => by cases hm⟩
  | cons m links ih =>
    obtain ⟨w, N, h1⟩ := h m (by simp)
    obtain ⟨M, h2⟩ := ih (fun m hm => h m (by simp [hm]))
    refine ⟨max N M, ?_⟩
    intro m' hm'
    rcases List.mem_cons.mp hm' with rfl | hm'
    · exact ⟨w, fun n hn => h1 n (by omega)⟩
    · obtain ⟨w', h3⟩ := h2 m' hm'
      exact ⟨w', fun n hn => h3 n (by omega)⟩

/-- With a larger recursion limit the Group is read as the same. -/
theorem group_stable {y : COpts} {V : View} {excl : Option Nat} {q : Nat} {ob : Obj} {links : List (Str × Nat)} {order : List Str} (hV : V q = some ob) (hm : MatStruct ob links order)
    (h : ∀ m ∈ links, ∃ w N, ∀ n, N ≤ n → readData y V excl n m.2 = .ok w) : ∃ N, ∀ n m, N ≤ n → N ≤ m → readData y V excl (n + 1) q = readData y V excl (m + 1) q := by
  obtain ⟨N, hN⟩ := links_bound (rd := fun n r => readData y V excl n r) links h
  refine ⟨N, ?_⟩
  intro n m hn hm'
  rw [read_matStruct hV hm, read_matStruct hV hm]
  have := readFields_congr (rd := readData y V excl m) (rd' := readData y V excl n) (ex := excl) (ex' := excl) (l := sortedLinks links) (by
    intro k r hkr
    obtain ⟨w, e⟩ := hN (k, r) ((aget_iff_mem hm.names).mp (mem_sortedLinks hkr))
    exact ⟨(e n hn).trans (e m hm').symm, Iff.rfl⟩) []
  rw [this]

theorem from_stable {y : COpts} {V : View} {excl : Option Nat} {q N M : Nat} {w : Val} (hN : ∀ n m, N ≤ n → N ≤ m → readData y V excl (n + 1) q = readData y V excl (m + 1) q)
    (hM : N ≤ M) (hw : readData y V excl (M + 1) q = .ok w) : ∀ n, M + 1 ≤ n → readData y V excl n q = .ok w := by
  intro n hn
  obtain ⟨n, rfl⟩ : ∃ m, n = m + 1 := ⟨n - 1, by omega⟩
  rw [hN n M (by omega) hM, hw]

theorem all2_bound {α β : Type} {R : α → β → Prop} {S : Nat → α → β → Prop} {l : List α} {m : List β} (h : All2 (fun a b => R a b ∧ ∃ N, ∀ n, N ≤ n → S n a b) l m) :
    All2 R l m ∧ ∃ N, ∀ n, N ≤ n → All2 (S n) l m := by
  induction h with
  | nil => exact ⟨.nil, 0, fun _ _ => .nil⟩
  | cons h _ ih =>
    obtain ⟨h1, N, h2⟩ := h
    obtain ⟨h3, M, h4⟩ := ih
    exact ⟨.cons h1 h3, max N M, fun n hn => .cons (h2 n (by omega)) (h4 n (by omega))⟩

/-- Groups as dicts. -/
theorem group_dict {o y : COpts} {d : Bool} (hd : d = true) (hy : y.structsAsDicts = true) {V : View} {excl : Option Nat} {q : Nat} {ob : Obj} {links : List (Str × Nat)}
    {v : Val} {order names shown : List Str} {parts : List Part} (hV : V q = some ob) (hp : Prep ob links order names shown parts) (hf : FieldsOf o v names parts) (hpl : parts.length = names.length)
    (hs : Shown names shown) (hx : ∀ k r, aget links k = some r → excl ≠ some r)
    (ih : ∀ (i : Nat) (k : Str) (P : Part) (r : Nat), names[i]? = some k → parts[i]? = some P → aget links k = some r →
      ∃ w N, AsMatlab o d P w ∧ ∀ n, N ≤ n → readData y V excl n r = .ok w) :
    ∃ w N, AsMatlab o d (.value v) w ∧ ∀ n, N ≤ n → readData y V excl n q = .ok w := by
  have hnd := hp.mat.names
  have ihm : ∀ m ∈ links, ∃ w N, ∀ n, N ≤ n → readData y V excl n m.2 = .ok w := by
    intro m hm
    obtain ⟨i, P, t, e1, e2, e3, e4⟩ := hp.idx m hm
    obtain ⟨w, N, _, h⟩ := ih i m.1 P m.2 e1 e2 ((aget_iff_mem hnd).mpr hm)
    exact ⟨w, N, h⟩
  obtain ⟨N1, hN1⟩ := group_stable hV hp.mat ihm
  obtain ⟨N2, hN2⟩ := links_bound (rd := fun n r => readData y V excl n r) links ihm
  obtain ⟨items, r1, r2, r3⟩ := C55_as_dict y V excl (max N1 N2) q _ links order hV hp.mat hp.proper hy
  have rdAt : ∀ {r : Nat} {w : Val} {k : Str} {N : Nat}, (k, r) ∈ links → (∀ n, N ≤ n → readData y V excl n r = .ok w) → readData y V excl (max N1 N2) r = .ok w := by
    intro r w k N hm h
    obtain ⟨w', e⟩ := hN2 (k, r) hm
    have e1 := e (max N1 N2) (by omega)
    have e2 := e (max (max N1 N2) N) (by omega)
    have e3 := h (max (max N1 N2) N) (by omega)
    dsimp only at e1 e2
    rw [e2] at e3
    rw [e1, e3]
  refine ⟨.dict .dict ((items.map (·.1)).map .str) (items.map (·.2)), max N1 N2 + 1, ?_, from_stable hN1 (by omega) (by rw [r1, List.map_map]; rfl)⟩
  refine .dict hd hf hpl hs r2 ?_ (by simp) ?_
  · intro t
    constructor
    · intro ht
      obtain ⟨⟨t', w⟩, hm, rfl⟩ := List.mem_map.mp ht
      obtain ⟨r, ⟨e, f1, f2⟩, f3, f4⟩ := (r3 t' w).mp hm
      obtain ⟨i, P, t'', e1, e2, e3, e4⟩ := hp.idx _ f1
      rw [f2] at e4
      cases e4
      exact List.mem_of_getElem? e3
    · intro ht
      obtain ⟨i, hi, e⟩ := List.mem_iff_getElem.mp ht
      have e1 : shown[i]? = some t := by rw [List.getElem?_eq_getElem hi, e]
      obtain ⟨k, r, P, b1, b2, b3, b4⟩ := hp.back i t e1
      obtain ⟨w, N, _, h⟩ := ih i k P r b1 b2 b3
      exact List.mem_map.mpr ⟨(t, w), (r3 t w).mpr ⟨r, ⟨k, b4, hp.sat i k t b1 e1⟩, hx k r b3, rdAt b4 h⟩, rfl⟩
  · intro i j t P w e1 e2 e3 e4
    rw [List.getElem?_map] at e3 e4
    cases hj : items[j]? with
    | none => rw [hj] at e3; cases e3
    | some it =>
      rw [hj] at e3 e4
      cases e3; cases e4
      obtain ⟨r, ⟨e, f1, f2⟩, f3, f4⟩ := (r3 it.1 it.2).mp (List.mem_of_getElem? hj)
      have b1 := hp.uniq _ f1 i it.1 e1 f2
      obtain ⟨w', N, h1, h2⟩ := ih i e P r b1 e2 ((aget_iff_mem hnd).mpr f1)
      rw [rdAt f1 h2] at f4
      cases f4
      exact h1

/-- The names of the fields of the structured array. -/
theorem prep_names {ob : Obj} {links : List (Str × Nat)} {order names shown : List Str} {parts : List Part} (hp : Prep ob links order names shown parts) (hn : shown ≠ [] ∧ [] ∉ shown) :
    ∃ keys, FieldNames links order keys ∧ ∀ t, t ∈ keys ↔ t ∈ shown := by
  have hall : ∀ nm, nm ∈ shown ↔ ∃ q, Field links nm q := by
    intro nm
    constructor
    · intro h
      obtain ⟨i, hi, e⟩ := List.mem_iff_getElem.mp h
      have e1 : shown[i]? = some nm := by rw [List.getElem?_eq_getElem hi, e]
      obtain ⟨k, r, P, b1, b2, b3, b4⟩ := hp.back i nm e1
      exact ⟨r, k, b4, hp.sat i k nm b1 e1⟩
    · rintro ⟨q, e, h1, h2⟩
      obtain ⟨i, P, t, _, _, e3, e4⟩ := hp.idx _ h1
      rw [h2] at e4
      cases e4
      exact List.mem_of_getElem? e3
  rcases hp.order with ⟨_, h⟩ | h
  · have hperm := sortStr_perm shown
    have hmem : ∀ t, t ∈ sortStr shown ↔ t ∈ shown := fun t => hperm.mem_iff
    have hnd := sortStr_nodup hp.nodup
    refine ⟨sortStr shown, ⟨fun nm => (hmem nm).trans (hall nm), ⟨sortStr shown, by rw [h]; rfl, ?_⟩, hnd, ?_, fun hh => hn.2 ((hmem _).mp hh)⟩, hmem⟩
    · refine List.Pairwise.imp ?_ ((sortStr_sorted shown).and hnd)
      rintro a b ⟨h1, h2⟩
      cases h3 : strLt a b with
      | true => rfl
      | false =>
        rcases sLt_total a b with h | h | h
        · rw [h] at h3; cases h3
        · exact absurd h h2
        · rw [h] at h1; cases h1
    · intro e
      rw [e] at hperm
      exact hn.1 hperm.symm.eq_nil
  · exact ⟨shown, ⟨hall, ⟨[], by rw [h, List.append_nil], .nil⟩, hp.nodup, hn.1, hn.2⟩, fun _ => Iff.rfl⟩

/-- What is read is of its size. -/
theorem asMatlab_sized {o : COpts} (hR : MatR o) {d : Bool} {v w : Val} (h : AsMatlab o d (.value v) w) : Sized w := by
  intro c a' hw
  cases h with
  | @number _ a _ h1 h2 =>
    cases hw
    refine ⟨?_, ?_⟩
    · show a.data.length = prodN (RowShape o a.shape)
      rw [prodN_rowShape, numericOf_count h1]
    · intro n hn
      have := numericOf_dt h1
      rcases hn with hn | hn <;> (rw [show a.dt = _ from hn] at this; simp [NumericDT] at this)
  | @empty _ a cl dt h1 h2 =>
    cases hw
    refine ⟨?_, fun n _ e he => by cases he⟩
    show 0 = prodN (RowShape o a.shape)
    rw [prodN_rowShape]
    have h0 : 0 ∈ a.shape := by
      rcases h1 with h1 | h1
      · exact (numeric_empty h1).mp h2
      · rw [textData_empty hR h1 h2]; simp
    exact (prodN_zero.mpr h0).symm
  | chars h1 h2 h3 =>
    cases hw
    refine ⟨by rw [h3.data, List.length_map]; exact h3.size, ?_⟩
    intro n _ e he
    rw [h3.data] at he
    obtain ⟨s, _, rfl⟩ := List.mem_map.mp he
    exact ⟨_, rfl⟩
  | @bytes _ a n h1 h2 h3 =>
    cases hw
    refine ⟨?_, ?_⟩
    · show a.data.length = prodN (RowShape o a.shape)
      rw [prodN_rowShape]
      cases h1 with
      | utf16 => cases h2
      | utf32 => cases h2
      | empty => split at h2 <;> cases h2
      | bytes16 => cases h2
      | empty16 => cases h2
      | bytes h => simpa using bytesOf_count h
      | width0 h => simpa using bytesOf_count h
    · intro _ _ e he
      have he : e ∈ a.data := he
      cases h1 with
      | utf16 => cases h2
      | utf32 => cases h2
      | empty => split at h2 <;> cases h2
      | bytes16 => cases h2
      | empty16 => cases h2
      | bytes h => obtain ⟨s, _, rfl⟩ := List.mem_map.mp he; exact ⟨_, rfl⟩
      | width0 h => obtain ⟨s, _, rfl⟩ := List.mem_map.mp he; exact ⟨_, rfl⟩
  | cells => cases hw
  | dict => cases hw
  | one => cases hw
  | several => cases hw
  | emptyStruct => cases hw

/-- The Dataset of a column and what the elements are read as. -/
def ColAt (o y : COpts) (d : Bool) (V : View) (excl : Option Nat) (q : Nat) (sh : List Nat) (e : List Val) : Prop :=
  ∃ (el vs : List Val) (ids : List Nat) (N : Nat), InOrder o sh e el ∧ RefColumn V q (StoredShape o sh) ids ∧ vs.length = el.length ∧
    (∀ n, N ≤ n → All2 (fun i v => readData y V excl n i = .ok v) ids vs) ∧ ∀ (i : Nat) (w w' : Val), el[i]? = some w → vs[i]? = some w' → AsMatlab o d (.value w) w'

/-- What the object of a part is. -/
def PartAt (o y : COpts) (d : Bool) (V : View) (excl : Option Nat) (q : Nat) : Part → Prop
  | .value _ => HoldsValue V q
  | .column sh e => ColAt o y d V excl q sh e

/-- Groups as structured arrays of one element. -/
theorem group_one {o y : COpts} (hR : MatR o) {d : Bool} (hd : d = false) (hy : y.structsAsDicts = false) {V : View} {excl : Option Nat} {q : Nat} {ob : Obj} {links : List (Str × Nat)}
    {v : Val} {order names shown : List Str} {fields : List Val} (hV : V q = some ob) (hp : Prep ob links order names shown (fields.map .value)) (hf : FieldsOf o v names (fields.map .value)) (hpl : fields.length = names.length)
    (hs : Shown names shown) (hn : shown ≠ [] ∧ [] ∉ shown) (hx : ∀ k r, aget links k = some r → excl ≠ some r)
    (ih : ∀ (i : Nat) (k : Str) (w0 : Val) (r : Nat), names[i]? = some k → fields[i]? = some w0 → aget links k = some r →
      HoldsValue V r ∧ ∃ w N, AsMatlab o d (.value w0) w ∧ ∀ n, N ≤ n → readData y V excl n r = .ok w) :
    ∃ w N, AsMatlab o d (.value v) w ∧ ∀ n, N ≤ n → readData y V excl n q = .ok w := by
  have hnd := hp.mat.names
  have field : ∀ {i : Nat} {P : Part}, (fields.map Part.value)[i]? = some P → ∃ w0, P = .value w0 ∧ fields[i]? = some w0 := by
    intro i P h
    rw [List.getElem?_map] at h
    cases hw : fields[i]? with
    | none => rw [hw] at h; cases h
    | some w0 => rw [hw] at h; exact ⟨w0, (Option.some.inj h).symm, rfl⟩
  have ihm : ∀ m ∈ links, ∃ w N, ∀ n, N ≤ n → readData y V excl n m.2 = .ok w := by
    intro m hm
    obtain ⟨i, P, t, e1, e2, e3, e4⟩ := hp.idx m hm
    obtain ⟨w0, rfl, e5⟩ := field e2
    obtain ⟨_, w, N, _, h⟩ := ih i m.1 w0 m.2 e1 e5 ((aget_iff_mem hnd).mpr hm)
    exact ⟨w, N, h⟩
  obtain ⟨N1, hN1⟩ := group_stable hV hp.mat ihm
  obtain ⟨keys, hk1, hk2⟩ := prep_names hp hn
  obtain ⟨vals, hvals⟩ := all2_exists (l := keys)
    (R := fun t w => ((∃ w0, AsMatlab o d (.value w0) w) ∧ ∀ (i : Nat) (w0 : Val), shown[i]? = some t → fields[i]? = some w0 → AsMatlab o d (.value w0) w) ∧
      ∃ N, ∀ n, N ≤ n → ∃ r, Field links t r ∧ readData y V excl n r = .ok w) (by
    intro t ht
    obtain ⟨i, hi, e⟩ := List.mem_iff_getElem.mp ((hk2 t).mp ht)
    have e1 : shown[i]? = some t := by rw [List.getElem?_eq_getElem hi, e]
    obtain ⟨k, r, P, b1, b2, b3, b4⟩ := hp.back i t e1
    obtain ⟨w0, rfl, e5⟩ := field b2
    obtain ⟨_, w, N, h1, h2⟩ := ih i k w0 r b1 e5 b3
    refine ⟨w, ⟨⟨w0, h1⟩, ?_⟩, N, fun n hn => ⟨r, ⟨k, b4, hp.sat i k t b1 e1⟩, h2 n hn⟩⟩
    intro j w1 g1 g2
    rw [nodup_at hp.nodup g1 e1, e5] at g2
    cases g2
    exact h1)
  obtain ⟨hA, N2, hB⟩ := all2_bound hvals
  have hone : ∃ m ∈ links, HoldsValue V m.2 := by
    obtain ⟨t, ht⟩ := List.exists_mem_of_ne_nil _ hn.1
    obtain ⟨i, hi, e⟩ := List.mem_iff_getElem.mp ht
    have e1 : shown[i]? = some t := by rw [List.getElem?_eq_getElem hi, e]
    obtain ⟨k, r, P, b1, b2, b3, b4⟩ := hp.back i t e1
    obtain ⟨w0, rfl, e5⟩ := field b2
    exact ⟨(k, r), b4, (ih i k w0 r b1 e5 b3).1⟩
  obtain ⟨types, ws, r1, r2, r3, r4, r5⟩ := C55_one y V excl (max N1 N2) q ob links order keys vals hV hp.mat hp.proper hy
    (fun m hm => hx m.1 m.2 ((aget_iff_mem hnd).mpr hm)) hk1 hone (hB _ (by omega)) (by
      intro w hw
      obtain ⟨t, _, ⟨w0, h⟩, _⟩ := all2_right hA w hw
      exact asMatlab_sized hR h)
  refine ⟨_, max N1 N2 + 1, ?_, from_stable hN1 (by omega) r1⟩
  refine .one hd hf hpl hs hk1.some hk1.named hk1.nodup hk2 (all2_length hA).symm r3 r4 ?_ ?_ ?_ (vals := vals)
  · intro i j t w w' e1 e2 e3 e4
    exact (all2_at hA e3 e4).2 i w e1 e2
  · intro j w' ft e1 e2
    exact all2_at r2 e1 e2
  · exact fun j w' u ft e1 e2 e3 => r5 j w' ft u e1 e2 e3

theorem rowShape_idem (o : COpts) (sh : List Nat) : RowShape o (RowShape o sh) = RowShape o sh := by
  unfold RowShape
  split
  · match sh with
    | [] => rfl
    | [n] => rfl
    | a :: b :: l => rfl
  · rfl

theorem reversed_inOrder {o : COpts} (hr : o.reverse = true) {sh : List Nat} {es vs : List Val} (h : ReversedElems (StoredShape o sh) vs es) : InOrder o sh es vs := by
  have hs : StoredShape o sh = (RowShape o sh).reverse := by rw [StoredShape, if_pos hr]
  refine ⟨by rw [h.1, hs, prodN_reverse, prodN_rowShape], ?_⟩
  intro i hi
  rw [if_pos hr]
  have hv : IndexOf (StoredShape o sh) i.reverse := by rw [hs]; exact valid_indexOf (validIx_reverse (indexOf_valid hi))
  have := h.2.2 i.reverse hv
  rw [List.reverse_reverse] at this
  rw [← this, hs, List.reverse_reverse]

theorem fieldTypeOf_mem {a b : List Val} {t : FT} (h : FieldTypeOf a t) (hab : ∀ w, w ∈ a ↔ w ∈ b) : FieldTypeOf b t := by
  have hn : a = [] ↔ b = [] := by
    constructor
    · intro e
      exact List.eq_nil_iff_forall_not_mem.mpr fun w hw => by rw [e] at hab; exact absurd ((hab w).mpr hw) (by simp)
    · intro e
      exact List.eq_nil_iff_forall_not_mem.mpr fun w hw => by rw [e] at hab; exact absurd ((hab w).mp hw) (by simp)
  rcases h with ⟨h1, h2⟩ | ⟨h1, h2⟩
  · exact .inl ⟨fun e => h1 (hn.mpr e), fun w hw => h2 w ((hab w).mpr hw)⟩
  · refine .inr ⟨h1, h2.imp hn.mp ?_⟩
    rintro h ⟨u, hu⟩
    exact h ⟨u, fun w hw => hu w ((hab w).mp hw)⟩

/-- Groups as structured arrays of several elements. -/
theorem group_several {o y : COpts} (hR : MatR o) {d : Bool} (hd : d = false) (hy : y.structsAsDicts = false) {V : View} {excl : Option Nat} {q : Nat} {ob : Obj} {links : List (Str × Nat)}
    {v : Val} {order names shown : List Str} {sh : List Nat} {cols : List (List Val)} (hV : V q = some ob) (hp : Prep ob links order names shown (cols.map (.column (RowShape o sh))))
    (hf : FieldsOf o v names (cols.map (.column (RowShape o sh)))) (hpl : cols.length = names.length) (hc : ∀ col ∈ cols, col.length = prodN sh) (hz : 0 ∉ sh)
    (hs : Shown names shown) (hn : shown ≠ [] ∧ [] ∉ shown) (hx : ∀ k r, aget links k = some r → excl ≠ some r)
    (ih : ∀ (i : Nat) (k : Str) (col : List Val) (r : Nat), names[i]? = some k → cols[i]? = some col → aget links k = some r →
      ColAt o y d V excl r (RowShape o sh) col ∧ ∃ w N, ∀ n, N ≤ n → readData y V excl n r = .ok w) :
    ∃ w N, AsMatlab o d (.value v) w ∧ ∀ n, N ≤ n → readData y V excl n q = .ok w := by
  have hnd := hp.mat.names
  have hSt : StoredShape o (RowShape o sh) = (RowShape o sh).reverse := by rw [StoredShape, if_pos hR.reverse, rowShape_idem]
  have field : ∀ {i : Nat} {P : Part}, (cols.map (Part.column (RowShape o sh)))[i]? = some P → ∃ col, P = .column (RowShape o sh) col ∧ cols[i]? = some col := by
    intro i P h
    rw [List.getElem?_map] at h
    cases hw : cols[i]? with
    | none => rw [hw] at h; cases h
    | some w0 => rw [hw] at h; exact ⟨w0, (Option.some.inj h).symm, rfl⟩
  have ihm : ∀ m ∈ links, ∃ w N, ∀ n, N ≤ n → readData y V excl n m.2 = .ok w := by
    intro m hm
    obtain ⟨i, P, t, e1, e2, e3, e4⟩ := hp.idx m hm
    obtain ⟨col, rfl, e5⟩ := field e2
    exact (ih i m.1 col m.2 e1 e5 ((aget_iff_mem hnd).mpr hm)).2
  obtain ⟨N1, hN1⟩ := group_stable hV hp.mat ihm
  obtain ⟨keys, hk1, hk2⟩ := prep_names hp hn
  obtain ⟨columns, hcols⟩ := all2_exists (l := keys)
    (R := fun t (vs : List Val) => (vs.length = prodN sh ∧ (∀ w ∈ vs, Sized w) ∧ ∀ (i : Nat) (col : List Val), shown[i]? = some t → cols[i]? = some col →
        ∃ el, InOrder o (RowShape o sh) col el ∧ ∀ (k : Nat) (w w' : Val), el[k]? = some w → vs[k]? = some w' → AsMatlab o d (.value w) w') ∧
      ∃ N, ∀ n, N ≤ n → ∃ r oids, Field links t r ∧ RefColumn V r (RowShape o sh).reverse oids ∧ All2 (fun i v => readData y V excl n i = .ok v) oids vs) (by
    intro t ht
    obtain ⟨i, hi, e⟩ := List.mem_iff_getElem.mp ((hk2 t).mp ht)
    have e1 : shown[i]? = some t := by rw [List.getElem?_eq_getElem hi, e]
    obtain ⟨k, r, P, b1, b2, b3, b4⟩ := hp.back i t e1
    obtain ⟨col, rfl, e5⟩ := field b2
    obtain ⟨⟨el, vs, ids, N, c1, c2, c3, c4, c5⟩, _⟩ := ih i k col r b1 e5 b3
    rw [hSt] at c2
    have hl : vs.length = prodN sh := by rw [c3, c1.count, prodN_rowShape]
    refine ⟨vs, ⟨hl, ?_, ?_⟩, N, fun n hn => ⟨r, ids, ⟨k, b4, hp.sat i k t b1 e1⟩, c2, c4 n hn⟩⟩
    · intro w hw
      obtain ⟨j, hj, e⟩ := List.mem_iff_getElem.mp hw
      have h1 : vs[j]? = some w := by rw [List.getElem?_eq_getElem hj, e]
      have h2 : el[j]? = some (el[j]'(c3 ▸ hj)) := List.getElem?_eq_getElem _
      exact asMatlab_sized hR (c5 j _ w h2 h1)
    · intro j col' g1 g2
      rw [nodup_at hp.nodup g1 e1, e5] at g2
      cases g2
      exact ⟨el, c1, c5⟩)
  obtain ⟨hA, N2, hB⟩ := all2_bound hcols
  obtain ⟨types, us, r1, r2, r3, r4⟩ := C55_several y V excl (max N1 N2) q ob links order keys (RowShape o sh).reverse columns hV hp.mat hp.proper hy
    (fun m hm => hx m.1 m.2 ((aget_iff_mem hnd).mpr hm)) hk1 (hB _ (by omega)) (by
      intro vs hvs
      obtain ⟨t, _, h⟩ := all2_right hA vs hvs
      exact h.2.1)
  rw [List.reverse_reverse] at r1
  -- the columns in the order of the array
  obtain ⟨ess, hess⟩ := all2_exists (l := columns) (R := fun (vs es : List Val) => vs.length = prodN sh → ReversedElems (RowShape o sh).reverse vs es) (fun vs _ => by
    refine ⟨transposeData (RowShape o sh).reverse vs, fun hl => reversedElems_T ?_⟩
    rw [hl, prodN_reverse, prodN_rowShape])
  have hrev : ∀ {j : Nat} {vs es : List Val}, columns[j]? = some vs → ess[j]? = some es → ReversedElems (RowShape o sh).reverse vs es := by
    intro j vs es h1 h2
    obtain ⟨t, _, h⟩ := all2_right hA vs (List.mem_of_getElem? h1)
    exact all2_at hess h1 h2 h.1
  have back : ∀ {j : Nat} {es : List Val}, ess[j]? = some es → ∃ vs, columns[j]? = some vs := by
    intro j es h
    obtain ⟨hj, _⟩ := List.getElem?_eq_some_iff.mp h
    exact ⟨columns[j]'((all2_length hess).symm ▸ hj), List.getElem?_eq_getElem _⟩
  have hlen : ∀ {vs es : List Val}, ReversedElems (RowShape o sh).reverse vs es → es.length = prodN sh := by
    intro vs es h
    rw [h.2.1, List.reverse_reverse, prodN_rowShape]
  have tl : types.length = keys.length := by rw [← all2_length r2, ← all2_length hA]
  refine ⟨_, max N1 N2 + 2, ?_, from_stable hN1 (by omega) r1⟩
  refine .several (ess := ess) hd hf hpl hc hz hs hk1.some hk1.named hk1.nodup hk2 (by rw [← all2_length hess, ← all2_length hA]) tl r3 ?_ ?_ ?_ ?_ ?_
  · intro es hes
    obtain ⟨j, hj, e⟩ := List.mem_iff_getElem.mp hes
    have h1 : ess[j]? = some es := by rw [List.getElem?_eq_getElem hj, e]
    obtain ⟨vs, h2⟩ := back h1
    exact hlen (hrev h2 h1)
  · intro u hu
    obtain ⟨j, hj, e⟩ := List.mem_iff_getElem.mp hu
    have h1 : us[j]? = some u := by rw [List.getElem?_eq_getElem hj, e]
    have hj' : j < keys.length := r3 ▸ hj
    have h2 : columns[j]? = some (columns[j]'(all2_length hA ▸ hj')) := List.getElem?_eq_getElem _
    have h3 : types[j]? = some (types[j]'(tl ▸ hj')) := List.getElem?_eq_getElem _
    obtain ⟨ws, _, h⟩ := r4 j _ _ _ h2 h3 h1
    rw [h.2.1, List.reverse_reverse, prodN_rowShape]
  · intro i j k t col es w w' e1 e2 e3 e4 e5 e6
    obtain ⟨vs, h2⟩ := back e4
    obtain ⟨_, _, h⟩ := all2_at hA e3 h2
    obtain ⟨el, c1, c2⟩ := h i col e1 e2
    obtain ⟨hk, _⟩ := List.getElem?_eq_some_iff.mp e5
    rw [hc col (List.mem_of_getElem? e2)] at hk
    obtain ⟨m, g1, g2⟩ := inOrder_at hR.reverse c1 k (by rw [prodN_rowShape]; exact hk)
    rw [g1] at e5
    rw [g2 (hSt ▸ hrev h2 e4)] at e6
    exact c2 m w w' e5 e6
  · intro j es ft e1 e2
    obtain ⟨vs, h2⟩ := back e1
    have hr := hrev h2 e1
    have hio := reversed_inOrder (sh := RowShape o sh) hR.reverse (hSt ▸ hr)
    refine fieldTypeOf_mem (all2_at r2 h2 e2) fun w => ⟨inOrder_mem hR.reverse hio w, ?_⟩
    intro hw
    obtain ⟨k, hk, e⟩ := List.mem_iff_getElem.mp hw
    have h1 : es[k]? = some w := by rw [List.getElem?_eq_getElem hk, e]
    obtain ⟨m, g1, _⟩ := inOrder_at hR.reverse hio k (by rw [prodN_rowShape, ← hlen hr]; exact hk)
    rw [h1] at g1
    exact List.mem_of_getElem? g1.symm
  · intro j k es col ft w' u e1 e2 e3 e4 e5
    obtain ⟨vs, h2⟩ := back e1
    have hr := hrev h2 e1
    obtain ⟨ws, h3, h4⟩ := r4 j vs ft col h2 e2 e3
    have hio := reversed_inOrder (sh := RowShape o sh) hR.reverse (hSt ▸ hr)
    obtain ⟨hk, _⟩ := List.getElem?_eq_some_iff.mp e4
    obtain ⟨m, g1, g2⟩ := inOrder_at hR.reverse hio k (by rw [prodN_rowShape, ← hlen hr]; exact hk)
    rw [g1] at e4
    rw [g2 (hSt ▸ h4)] at e5
    exact all2_at h3 e4 e5

theorem docAttr_notPath {o : COpts} {b : Body} {v : Val} {k : Str} {a : AVal} (h : DocAttr o b v k a) : k ≠ p!"H5PATH" := by
  cases h <;> decide

/-- The attributes as the readers see them. -/
theorem attrs_view {o : COpts} {b : Body} {path : Option Str} {P : Part} {attrs : List (Str × AVal)} (ha : AttrsAre o b path P attrs) :
    AttrsAre o b none P (adel attrs p!"H5PATH") := by
  intro k a
  rw [aget_adel]
  by_cases hk : k = p!"H5PATH"
  · rw [if_pos hk]
    constructor
    · intro h; cases h
    · rintro (⟨v, rfl, h⟩ | ⟨_, _, n, h, _⟩)
      · exact absurd hk (docAttr_notPath h)
      · cases h
  · rw [if_neg hk]
    rw [ha k a]
    constructor
    · rintro (h | ⟨_, h, _⟩)
      · exact .inl h
      · exact absurd h hk
    · rintro (h | ⟨_, h, _⟩)
      · exact .inl h
      · exact absurd h hk

theorem view_at {h : Heap} {q : Nat} {attrs : List (Str × AVal)} {b : Body} (hq : h[q]? = some ⟨attrs, b⟩) : viewOf h q = some ⟨adel attrs p!"H5PATH", b⟩ := by
  unfold viewOf
  rw [hq]
  rfl

/-- Values without parts. -/
theorem leaf_read {o y : COpts} {d : Bool} (hR : MatR o) {V : View} {excl : Option Nat} {q : Nat} {attrs : List (Str × AVal)} {b : Arr} {f : Filters} {path : Option Str} {v : Val}
    (hV : V q = some ⟨attrs, .dset b f⟩) (ha : AttrsAre o (.dset b f) path (.value v) attrs) (hd : DataFor o v b) {c : Cont} {dt : DT} {sh : List Nat} (hn : AsNumpy v c dt sh)
    (hg : MatGood o d v) : ∃ w N, AsMatlab o d (.value v) w ∧ ∀ n, N ≤ n → readData y V excl n q = .ok w := by
  have fin : ∀ {w : Val}, AsMatlab o d (.value v) w → (∀ n, readData y V excl (n + 1) q = .ok w) → ∃ w N, AsMatlab o d (.value v) w ∧ ∀ n, N ≤ n → readData y V excl n q = .ok w := by
    intro w h1 h2
    refine ⟨w, 1, h1, ?_⟩
    intro n hn
    obtain ⟨n, rfl⟩ : ∃ m, n = m + 1 := ⟨n - 1, by omega⟩
    exact h2 n
  cases hg with
  | number h1 h2 h3 h4 =>
    have := (hd _ (.inl h1)).2 (fun h => h4 ((numeric_empty h1).mp h.2))
    exact fin (.number h1 h4 h3 h2) (number_read hR hV ha h1 h2 h3 h4 this)
  | empty h1 h2 h3 =>
    have hh := (hd _ h1).1 ⟨hR.storeShape, h3⟩
    have h1' := h1.imp id (fun h => h.1)
    obtain ⟨dt, e1, _⟩ := empty_read (y := y) (excl := excl) hR hV ha h1' h2 h3 hh 0
    refine fin (.empty h1' h3 h2 e1) ?_
    intro n
    obtain ⟨dt', e1', e2'⟩ := empty_read (y := y) (excl := excl) hR hV ha h1' h2 h3 hh n
    have : some dt = some dt' := by rw [← knownClass_dt e1, ← knownClass_dt e1']
    cases this
    exact e2'
  | chars h1 h2 =>
    obtain ⟨⟨a, h3, h4⟩, h5, h6⟩ := h1
    have hh := (hd _ (.inr ⟨h3, h6⟩)).2 (fun h => h2 h.2)
    obtain ⟨r, m, e1, e2, e3, e4, e5⟩ := chars_read (y := y) (excl := excl) hR hV ha h3 h4 h5 h2 hh
    exact fin (.chars ⟨⟨a, h3, h4⟩, h5, h6⟩ h2 e2 e3 e4 e5) e1
  | bytes h1 h2 h3 =>
    have hh := (hd _ (.inr ⟨h1, bytes_documented h1 h2⟩)).2 (fun h => h3 h.2)
    exact fin (.bytes h1 h2 h3) (bytes_read hR hV ha h1 h2 h3 hh)
  | npObj => cases hn
  | seq => cases hn
  | fields h => cases h <;> cases hn
  | dict => cases hn
  | npStruct => cases hn
  | emptyStruct => cases hn

/-- Lists and the like. -/
theorem cells_read {o y : COpts} {d : Bool} (hR : MatR o) {V : View} {excl : Option Nat} {q : Nat} {attrs : List (Str × AVal)} {f : Filters} {path : Option Str} {v : Val} {sh : List Nat}
    {e el : List Val} {ids : List Nat} (hV : V q = some ⟨attrs, .dset ⟨.ref, StoredShape o sh, ids.map .ref⟩ f⟩)
    (ha : AttrsAre o (.dset ⟨.ref, StoredShape o sh, ids.map .ref⟩ f) path (.value v) attrs) (he : Elements (.value v) sh e) (h0 : 0 ∉ sh) (hi : InOrder o sh e el)
    (hlen : ids.length = el.length) (hcount : e.length = prodN sh)
    (ih : ∀ (i r : Nat) (w : Val), ids[i]? = some r → el[i]? = some w → ∃ w' N, AsMatlab o d (.value w) w' ∧ ∀ n, N ≤ n → readData y V excl n r = .ok w') :
    ∃ w N, AsMatlab o d (.value v) w ∧ ∀ n, N ≤ n → readData y V excl n q = .ok w := by
  have hm := matlabOnly_of hR ha (cellClass he) (fun names => storedNames_not he rfl _ names)
  have hne : ¬ SaysEmpty ⟨attrs, .dset ⟨.ref, StoredShape o sh, ids.map .ref⟩ f⟩ := fun h => h0 ((elements_empty he).mp ((attrs_empty hR.matlab ha).mp h))
  have hsh : StoredShape o sh = (RowShape o sh).reverse := by rw [StoredShape, if_pos hR.reverse]
  obtain ⟨vs, N, g1, g2, g3⟩ := read_collect (rd := fun n r => readData y V excl n r) ids (fun i w' => ∀ w, el[i]? = some w → AsMatlab o d (.value w) w') (by
    intro i r hr
    obtain ⟨hi', _⟩ := List.getElem?_eq_some_iff.mp hr
    have hw : el[i]? = some (el[i]'(hlen ▸ hi')) := List.getElem?_eq_getElem _
    obtain ⟨w', N, e1, e2⟩ := ih i r _ hr hw
    refine ⟨w', N, ?_, e2⟩
    intro w hw'
    rw [hw] at hw'
    cases hw'
    exact e1)
  have hcnt : (ids.map El.ref).length = prodN (StoredShape o sh) := by rw [List.length_map, hlen, hi.count, hsh, prodN_reverse, prodN_rowShape]
  have rd : ∀ n, N ≤ n → readData y V excl (n + 1) q = .ok (.npObj .ndarray (RowShape o sh) (transposeData (StoredShape o sh) vs)) ∧
      ReversedElems (StoredShape o sh) vs (transposeData (StoredShape o sh) vs) := by
    intro n hn
    obtain ⟨es, e1, e2⟩ := C50_cell y V excl n q _ p!"cell" (.inl rfl) ⟨.ref, StoredShape o sh, ids.map .ref⟩ ids vs hV hm ⟨f, rfl⟩ hne hcnt rfl rfl (g1 n hn)
    have e3 : es = transposeData (StoredShape o sh) vs := reversedElems_eq e2
    have e4 : (⟨.ref, StoredShape o sh, ids.map .ref⟩ : Arr).shape.reverse = RowShape o sh := by rw [hsh, List.reverse_reverse]
    rw [e4, e3] at e1
    exact ⟨e1, e3 ▸ e2⟩
  refine ⟨_, N + 1, .cells he hcount (es := transposeData (StoredShape o sh) vs) ?_ ?_, ?_⟩
  · rw [(rd N (Nat.le_refl _)).2.2.1, hsh, List.reverse_reverse, prodN_rowShape, hcount]
  · intro k w w' hw hw'
    obtain ⟨hk, _⟩ := List.getElem?_eq_some_iff.mp hw
    obtain ⟨j, h1, h2⟩ := inOrder_at hR.reverse hi k (hcount ▸ hk)
    rw [h2 (rd N (Nat.le_refl _)).2] at hw'
    rw [h1] at hw
    exact g3 j w' hw' w hw
  · intro n hn
    obtain ⟨n, rfl⟩ : ∃ m, n = m + 1 := ⟨n - 1, by omega⟩
    exact (rd n (by omega)).1

/-- Columns. -/
theorem column_read {o y : COpts} {d : Bool} {V : View} {excl : Option Nat} {q : Nat} {attrs : List (Str × AVal)} {f : Filters} {path : Option Str} {sh : List Nat}
    (hR : MatR o) {e el : List Val} {ids : List Nat} (hV : V q = some ⟨attrs, .dset ⟨.ref, StoredShape o sh, ids.map .ref⟩ f⟩)
    (ha : AttrsAre o (.dset ⟨.ref, StoredShape o sh, ids.map .ref⟩ f) path (.column sh e) attrs) (hi : InOrder o sh e el) (hlen : ids.length = el.length)
    (ih : ∀ (i r : Nat) (w : Val), ids[i]? = some r → el[i]? = some w → ∃ w' N, AsMatlab o d (.value w) w' ∧ ∀ n, N ≤ n → readData y V excl n r = .ok w') :
    ColAt o y d V excl q sh e ∧ ∃ w N, AsMatlab o d (.column sh e) w ∧ ∀ n, N ≤ n → readData y V excl n q = .ok w := by
  have hsh : StoredShape o sh = (RowShape o sh).reverse := by rw [StoredShape, if_pos hR.reverse]
  obtain ⟨vs, N, g1, g2, g3⟩ := read_collect (rd := fun n r => readData y V excl n r) ids (fun i w' => ∀ w, el[i]? = some w → AsMatlab o d (.value w) w') (by
    intro i r hr
    obtain ⟨hi', _⟩ := List.getElem?_eq_some_iff.mp hr
    have hw : el[i]? = some (el[i]'(hlen ▸ hi')) := List.getElem?_eq_getElem _
    obtain ⟨w', N, e1, e2⟩ := ih i r _ hr hw
    refine ⟨w', N, ?_, e2⟩
    intro w hw'
    rw [hw] at hw'
    cases hw'
    exact e1)
  have hcol : RefColumn V q (StoredShape o sh) ids := by
    refine ⟨attrs, f, hV, by rw [hlen, hi.count, hsh, prodN_reverse, prodN_rowShape], ?_⟩
    intro k hk
    refine attrs_column ha ?_
    rintro rfl
    exact absurd hk (by decide)
  have hAs : ∀ (i : Nat) (w w' : Val), el[i]? = some w → vs[i]? = some w' → AsMatlab o d (.value w) w' := fun i w w' h1 h2 => g3 i w' h2 w h1
  refine ⟨⟨el, vs, ids, N, hi, hcol, by rw [g2, hlen], g1, hAs⟩, _, N + 1, .column hi (es := vs) (by rw [g2, hlen]) hAs, ?_⟩
  intro n hn
  obtain ⟨n, rfl⟩ : ∃ m, n = m + 1 := ⟨n - 1, by omega⟩
  exact (read_refColumn hcol (g1 n (by omega))).1

/-- Only the shape is stored. -/
theorem shape_read {o y : COpts} {d : Bool} (hR : MatR o) {V : View} {excl : Option Nat} {q : Nat} {attrs : List (Str × AVal)} {a : Arr} {f : Filters} {path : Option Str} {P : Part} {sh : List Nat}
    (hV : V q = some ⟨attrs, .dset a f⟩) (ha : AttrsAre o (.dset a f) path P attrs) (hs : (∃ e, Elements P sh e) ∨ ∃ c n ty e, P = .value (.npStruct c sh n ty e)) (h0 : 0 ∈ sh)
    (hd : a = ⟨.u64, [(RowShape o sh).length], (RowShape o sh).map fun d => .num (Int.ofNat d)⟩) (hg : MatPart o d P) :
    ∃ w N, AsMatlab o d P w ∧ ∀ n, N ≤ n → readData y V excl n q = .ok w := by
  have fin : ∀ {w : Val}, AsMatlab o d P w → (∀ n, readData y V excl (n + 1) q = .ok w) → ∃ w N, AsMatlab o d P w ∧ ∀ n, N ≤ n → readData y V excl n q = .ok w := by
    intro w h1 h2
    refine ⟨w, 1, h1, ?_⟩
    intro n hn
    obtain ⟨n, rfl⟩ : ∃ m, n = m + 1 := ⟨n - 1, by omega⟩
    exact h2 n
  rcases hs with ⟨e, he⟩ | ⟨c, n, ty, e, rfl⟩
  · cases P with
    | column sh' e' => cases he; exact absurd h0 hg.1
    | value v =>
      obtain ⟨hcount, _⟩ := elements_good he hg
      have hnil : e = [] := List.length_eq_zero_iff.mp (by rw [hcount]; exact prodN_zero.mpr h0)
      subst hnil
      have hm := matlabOnly_of hR ha (cellClass he) (fun names => storedNames_not he rfl _ names)
      have hse : SaysEmpty ⟨attrs, .dset a f⟩ := (attrs_empty hR.matlab ha).mpr ((elements_empty he).mpr h0)
      refine fin (.cells he hcount (es := []) rfl (fun i w w' h => by simp at h)) ?_
      intro n
      exact C50_empty y V excl n q _ p!"cell" .object a (RowShape o sh) hV hm ⟨f, rfl⟩ hse .cell (by rw [hd]; simp) (by rw [hd]) (by rw [hd]; rfl) (rowShape_zero.mpr h0)
  · obtain ⟨h1, h2 | ⟨_, h2, h3, h4⟩⟩ := good_struct hg
    · exact absurd h0 h2.1
    · obtain ⟨p1, p2, p3, p4, p5⟩ := attrs_py hR.noPy ha
      obtain ⟨names, hn⟩ := shown_escaped_all (n := n)
      have hS : StoredNames (.dset a f) (.npStruct c sh n ty e) names := .empty _ _ _ _ _ _ h0 hn
      have hascii : ∀ k ∈ names, ∀ c ∈ k, c < 128 := by
        intro k hk
        obtain ⟨t, ht, hk'⟩ := all2_right hn k hk
        exact h4 t ht k hk'
      have hF : ∃ bs, aget attrs p!"MATLAB_fields" = some (.fields bs) ∧ (∀ b ∈ bs, ∀ c ∈ b, c < 128) ∧ All2 (fun b nm => unescapePath b = .ok nm) bs n := by
        exact ⟨names, (ha _ _).mpr (.inl ⟨_, rfl, .matFields hR.matlab hS hascii⟩), hascii, shown_of_escaped hn⟩
      refine fin (.emptyStruct c sh n ty e h0) ?_
      intro m
      refine C55_empty y V excl m q _ (RowShape o sh) n hV ⟨⟨a, f, rfl, by rw [hd]; simp, by rw [hd], by rw [hd]; rfl⟩, rowShape_zero.mpr h0,
        attrs_class hR.matlab ha (.table (.npStruct ..)), p1, p2, p3, p4, p5, (attrs_empty hR.matlab ha).mpr (noElements_struct.mpr h0), hF⟩ h2 h3 h1

/-- Datasets of values hold them themselves. -/
theorem holds_value {o : COpts} {d : Bool} (hR : MatR o) {V : View} {q : Nat} {attrs : List (Str × AVal)} {a : Arr} {f : Filters} {path : Option Str} {v : Val}
    (hV : V q = some ⟨attrs, .dset a f⟩) (ha : AttrsAre o (.dset a f) path (.value v) attrs) (hg : MatGood o d v) : HoldsValue V q := by
  obtain ⟨cl, hc⟩ := matGood_class hg
  refine ⟨_, hV, .inr ⟨a, f, rfl, .inr ⟨p!"MATLAB_class", by simp [DataAttrs], ?_⟩⟩⟩
  rw [show aget attrs p!"MATLAB_class" = _ from attrs_class hR.matlab ha hc]
  nofun

/-- Groups. -/
theorem group_read {o y : COpts} (hR : MatR o) {d : Bool} (hy : y.structsAsDicts = d) {V : View} {excl : Option Nat} {q : Nat} {attrs : List (Str × AVal)} {links : List (Str × Nat)}
    {path : Option Str} {v : Val} {names shown : List Str} {parts : List Part} (hV : V q = some ⟨attrs, .group links⟩) (hnd : (links.map (·.1)).Nodup)
    (ha : AttrsAre o (.group links) path (.value v) attrs) (hc : ClassOf v p!"struct") (hne : ¬ NoElements v) (hf : FieldsOf o v names parts) (hlen : names.length = parts.length)
    (hs : Shown names shown) (hsn : shown.Nodup) (hN : Named d shown) (hl : ∀ k, (∃ r, aget links k = some r) ↔ ∃ (i : Nat) (P : Part), names[i]? = some k ∧ parts[i]? = some P)
    (hx : ∀ k r, aget links k = some r → excl ≠ some r)
    (ih : ∀ (i : Nat) (k : Str) (P : Part) (r : Nat), names[i]? = some k → parts[i]? = some P → aget links k = some r →
      PartAt o y d V excl r P ∧ ∃ w N, AsMatlab o d P w ∧ ∀ n, N ≤ n → readData y V excl n r = .ok w) :
    ∃ w N, AsMatlab o d (.value v) w ∧ ∀ n, N ≤ n → readData y V excl n q = .ok w := by
  obtain ⟨order, hp⟩ := group_prep hR hnd ha hc hne hf hlen hs hsn hl
  cases hd : d with
  | true =>
    subst hd
    exact group_dict rfl hy hV hp hf hlen.symm hs hx fun i k P r h1 h2 h3 => (ih i k P r h1 h2 h3).2
  | false =>
    subst hd
    have hN' : shown ≠ [] ∧ [] ∉ shown := hN.resolve_left (by simp)
    have key : (∃ fields : List Val, parts = fields.map .value) ∨ ∃ (sh : List Nat) (cols : List (List Val)), parts = cols.map (.column (RowShape o sh)) ∧ (∀ col ∈ cols, col.length = prodN sh) ∧ 0 ∉ sh := by
      cases hf with
      | fields => exact .inl ⟨_, rfl⟩
      | keysValues k keys vals => exact .inl ⟨[.seq .tuple keys, .seq .tuple vals], rfl⟩
      | one => exact .inl ⟨_, rfl⟩
      | many _ _ _ _ _ _ _ _ _ h => exact .inr ⟨_, _, rfl, h, fun h0 => hne (noElements_struct.mpr h0)⟩
    rcases key with ⟨fields, rfl⟩ | ⟨sh, cols, rfl, hcol, hz⟩
    · refine group_one hR rfl hy hV hp hf (by simpa using hlen.symm) hs hN' hx ?_
      intro i k w0 r h1 h2 h3
      exact ih i k (.value w0) r h1 (by rw [List.getElem?_map, h2]; rfl) h3
    · refine group_several hR rfl hy hV hp hf (by simpa using hlen.symm) hcol hz hs hN' hx ?_
      intro i k col r h1 h2 h3
      obtain ⟨g1, w, N, _, g2⟩ := ih i k (.column (RowShape o sh) col) r h1 (by rw [List.getElem?_map, h2]; rfl) h3
      exact ⟨g1, w, N, g2⟩

/-- Everything. -/
theorem laid_read {o y : COpts} {d : Bool} (hR : MatR o) (hy : y.structsAsDicts = d) {h : Heap} (ht : Tree h) (hk : DistinctNames h) (hp : PlainNames (hdf5Names o.refsPath))
    (hr : y.refsPath = o.refsPath) {ns : List Str} {path : Option Str} {q : Nat} {P : Part} (hl : Laid o h ns path q P) (hoff : ¬ ns <+: hdf5Names o.refsPath) (hg : MatPart o d P) :
    PartAt o y d (viewOf h) (exclOf y h) q P ∧ ∃ w N, AsMatlab o d P w ∧ ∀ n, N ≤ n → readData y (viewOf h) (exclOf y h) n q = .ok w := by
  induction hl with
  | data _ hq ha hn hd => exact ⟨holds_value hR (view_at hq) (attrs_view ha) hg, leaf_read hR (view_at hq) (attrs_view ha) hd hn hg⟩
  | table _ _ _ h1 h2 => exact absurd ⟨.inl hR.asStruct, h1⟩ h2
  | @shape ns path q P _ _ _ _ _ hq ha hs _ h0 hd =>
    refine ⟨?_, shape_read hR (view_at hq) (attrs_view ha) hs h0 hd hg⟩
    cases P with
    | value v => exact holds_value hR (view_at hq) (attrs_view ha) hg
    | column sh' e' =>
      rcases hs with ⟨e, he⟩ | ⟨c, n, ty, e, he⟩
      · cases he; exact absurd h0 hg.1
      · cases he
  | @refs ns path q P attrs f sh e el ids nms _ hq ha he h0 hi hlen hnlen hdis _ ih =>
    have h0' : 0 ∉ sh := fun h => h0 ⟨hR.storeShape, h⟩
    obtain ⟨hcount, hgood⟩ := elements_good he hg
    have ih' : ∀ (i r : Nat) (w : Val), ids[i]? = some r → el[i]? = some w → ∃ w' N, AsMatlab o d (.value w) w' ∧ ∀ n, N ≤ n → readData y (viewOf h) (exclOf y h) n r = .ok w' := by
      intro i r w h1 h2
      have hgw := hgood w (inOrder_mem hR.reverse hi w (List.mem_of_getElem? h2))
      obtain ⟨hi', _⟩ := List.getElem?_eq_some_iff.mp h2
      have hn : nms[i]? = some (nms[i]'(hnlen ▸ hi')) := List.getElem?_eq_getElem _
      refine (ih i w r _ h2 h1 hn (matGood_kept hR.toMatO hgw) ?_ hgw).2
      intro hpre
      have := hpre.length_le
      simp at this
      omega
    cases P with
    | value v => exact ⟨holds_value hR (view_at hq) (attrs_view ha) hg, cells_read hR (view_at hq) (attrs_view ha) he h0' hi hlen hcount ih'⟩
    | column sh' e' => cases he; exact column_read hR (view_at hq) (attrs_view ha) hi hlen ih'
  | @group ns path q v attrs links names parts hpath hq ha hG hf hlen hlinks hlaid ih =>
    obtain ⟨hc, hne, hparts, shown, hs, hsn, hN⟩ := group_good hg hf hG hR.storeShape
    have hkept : ∀ P ∈ parts, ¬ LeftOut o P := by
      rintro P hP ⟨v, rfl, hd⟩
      exact matGood_kept hR.toMatO (hparts _ hP) hd
    have hlk : linksOf h q = links := by unfold linksOf; rw [hq]
    have hoff' : ∀ k, ¬ ns ++ [k] <+: hdf5Names o.refsPath := fun k hpre => hoff ((List.prefix_append ns [k]).trans hpre)
    refine ⟨⟨_, view_at hq, .inl ⟨links, rfl⟩⟩, group_read hR hy (view_at hq) ?_ (attrs_view ha) hc hne hf hlen hs hsn hN ?_ ?_ ?_⟩
    · have := hk q
      rwa [hlk] at this
    · intro k
      rw [hlinks k]
      constructor
      · rintro ⟨i, P, h1, h2, _⟩; exact ⟨i, P, h1, h2⟩
      · rintro ⟨i, P, h1, h2⟩; exact ⟨i, P, h1, h2, hkept P (List.mem_of_getElem? h2)⟩
    · intro k r hkr hex
      unfold exclOf at hex
      rw [hr] at hex
      have h1 := lpath_resolve (l := hdf5Names o.refsPath) hp hex
      have h2 : LPath h (ns ++ [k]) r := .snoc hpath (by unfold LinkAt; rw [hlk]; exact hkr)
      exact hoff' k (LPath.unique ht h2 h1 ▸ List.prefix_refl _)
    · intro i k P r h1 h2 h3
      exact ih i k P r h1 h2 h3 (hoff' k) (hparts P (List.mem_of_getElem? h2))

end HS
