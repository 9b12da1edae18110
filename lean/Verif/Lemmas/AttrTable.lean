import Verif.Lemmas.AttrsNew
import Verif.Lemmas.RtTable
import Verif.Lemmas.MatStruct
import Verif.Spec.AttrTable
/-
The attributes of new objects against the documented ones.
-/
namespace HS
open Spec

theorem dec_value_pos {s : Str} (hd : ∀ c ∈ s, 48 ≤ c ∧ c ≤ 57) (h : s ≠ []) (h0 : s.head? ≠ some 48) (a : Nat) :
    0 < s.foldl (fun a c => 10 * a + (c - 48)) a := by
  cases s with
  | nil => exact absurd rfl h
  | cons c s =>
    have hc := hd c (by simp)
    have hne : c ≠ 48 := fun e => h0 (by simp [e])
    have key : ∀ (l : Str) (a : Nat), 0 < a → 0 < l.foldl (fun a c => 10 * a + (c - 48)) a := by
      intro l
      induction l with
      | nil => exact fun a h => h
      | cons c l ih => exact fun a h => ih (10 * a + (c - 48)) (by omega)
    exact key s (10 * a + (c - 48)) (by omega)

theorem decimal_decGo (f n : Nat) (h : n ≤ f) : IsDecimal (decGo f n) n := by
  obtain ⟨h1, h2, h3⟩ := decGo_spec f n h
  refine ⟨h3, ⟨h2, ?_⟩, h1⟩
  clear h1 h2 h3
  induction f generalizing n with
  | zero =>
    have : n = 0 := by omega
    subst this
    intro _; rfl
  | succ f ih =>
    rw [decGo]
    by_cases hn : n < 10
    · rw [if_pos hn]
      intro h
      simpa using h
    · rw [if_neg hn]
      obtain ⟨g1, g2, g3⟩ := decGo_spec f (n / 10) (by omega)
      intro h0
      have := ih (n / 10) (by omega) (by
        cases hd : decGo f (n / 10) with
        | nil => exact absurd hd g2
        | cons c l => rw [hd] at h0; simpa using h0)
      rw [this] at g1
      simp at g1
      omega

theorem decimal_decDigits (n : Nat) : IsDecimal (decDigits n) n := decimal_decGo n n (Nat.le_refl n)

theorem decimal_eq {f n : Nat} (h : n ≤ f) {s : Str} (hs : IsDecimal s n) : s = decGo f n := by
  induction f generalizing n s with
  | zero =>
    have hn : n = 0 := by omega
    subst hn
    by_cases h0 : s.head? = some 48
    · rw [hs.first.2 h0]; rfl
    · have := dec_value_pos hs.digits hs.first.1 h0 0
      rw [hs.value] at this
      omega
  | succ f ih =>
    obtain ⟨t, c, rfl⟩ : ∃ t c, s = t ++ [c] := ⟨s.dropLast, s.getLast hs.first.1, (List.dropLast_concat_getLast hs.first.1).symm⟩
    have hc := hs.digits c (by simp)
    have hv := hs.value
    rw [foldl_dec_append] at hv
    simp only [List.foldl_cons, List.foldl_nil] at hv
    rw [decGo]
    cases t with
    | nil =>
      simp only [List.foldl_nil] at hv
      rw [if_pos (by omega)]
      simp only [List.nil_append, List.cons.injEq, and_true]
      omega
    | cons a t =>
      have h0 : (a :: t).head? ≠ some 48 := by
        intro e
        have := hs.first.2 (by simpa using e)
        simp at this
      have hd : ∀ e ∈ a :: t, 48 ≤ e ∧ e ≤ 57 := fun e he => hs.digits e (List.mem_append_left _ he)
      have hp := dec_value_pos hd (by simp) h0 0
      have e1 : (a :: t).foldl (fun a c => 10 * a + (c - 48)) 0 = n / 10 := by omega
      have e2 := ih (n := n / 10) (by omega) (s := a :: t) ⟨hd, ⟨by simp, fun e => absurd e h0⟩, e1⟩
      rw [if_neg (by omega), ← e2]
      congr 2
      omega

theorem decimal_iff {s : Str} {n : Nat} : IsDecimal s n ↔ s = decDigits n :=
  ⟨fun h => decimal_eq (Nat.le_refl n) h, fun h => h ▸ decimal_decDigits n⟩

theorem dtName_iff {dt : DT} {t t' : Str} (h' : DtName dt t') : DtName dt t ↔ t = dt.name := by
  have key : ∀ {t : Str}, DtName dt t → t = dt.name := by
    intro t h
    cases h with
    | bytes n d h0 h1 => rw [decimal_iff.mp h1, name_bytes_succ n (by omega)]
    | str n d h0 h1 => rw [decimal_iff.mp h1, name_str_succ n (by omega)]
    | _ => rfl
  exact ⟨key, fun h => by rw [h, ← key h']; exact h'⟩

theorem contType_eq {c : Cont} {t : Str} (h : contType c = some t) (dt : DT) : npTypeString c dt = t := by
  cases c <;> cases h <;> rfl

theorem pyType_eq {v : Val} {t : Str} (h : PyType v t) : t = tsOf v := by
  cases h with
  | scalar a t h =>
    show t = npTypeString .scalar a.dt
    generalize a.dt = dt at h
    cases h <;> rfl
  | array c a t h => exact (contType_eq h _).symm
  | objects c sh e t h => exact (contType_eq h _).symm
  | structured c sh n ty e t h => cases c <;> cases h <;> rfl
  | _ => rfl

theorem asNumpy_leaf {v : Val} {c : Cont} {dt : DT} {sh : List Nat} (h : AsNumpy v c dt sh) : ∃ a, leafOf v = some (c, a) ∧ a.dt = dt ∧ a.shape = sh := by
  cases h with
  | int i h1 h2 => exact ⟨_, by rw [leafOf, if_pos ⟨h1, by omega⟩], rfl, rfl⟩
  | bigInt i d h1 h2 =>
    refine ⟨_, by rw [leafOf, if_neg (by omega)], ?_, rfl⟩
    show DT.bytes (intDec i).length = _
    rw [decimal_iff.mp h2, intDec, if_neg (by omega)]
  | bigNegInt i d h1 h2 =>
    refine ⟨_, by rw [leafOf, if_neg (by omega)], ?_, rfl⟩
    show DT.bytes (intDec i).length = _
    rw [decimal_iff.mp h2, intDec, if_pos (by omega)]
    rfl
  | dtypeObj s b h1 => exact ⟨npBytes b, by rw [leafOf, h1], rfl, rfl⟩
  | _ => exact ⟨_, rfl, rfl, rfl⟩

theorem leaf_asNumpy {v : Val} {c : Cont} {a : Arr} (h : leafOf v = some (c, a)) : AsNumpy v c a.dt a.shape := by
  cases v with
  | none => cases h; exact .none
  | ellipsis => cases h; exact .ellipsis
  | notImplemented => cases h; exact .notImplemented
  | bool b => cases h; exact .bool b
  | int i =>
    rw [leafOf] at h
    split at h
    · rename_i hi
      cases h; exact .int i hi.1 (by omega)
    · rename_i hi
      cases h
      show AsNumpy _ _ (.bytes (intDec i).length) _
      rw [intDec]
      split
      · exact .bigNegInt i _ (by omega) (decimal_decDigits _)
      · exact .bigInt i _ (by omega) (decimal_decDigits _)
  | float f => cases h; exact .float f
  | complex a b => cases h; exact .complex a b
  | str s => cases h; exact .str s
  | bytes s => cases h; exact .bytes s
  | bytearray s => cases h; exact .bytearray s
  | np c a => cases h; exact .np c a
  | dtypeObj s =>
    rw [leafOf] at h
    cases hs : utf8Enc s with
    | error e => rw [hs] at h; cases h
    | ok b => rw [hs] at h; cases h; exact .dtypeObj s b hs
  | _ => rw [leafOf] at h <;> first | cases h | nofun

theorem contName_eq (c : Cont) : contName c = c.name := by cases c <;> rfl

/-- What is known about a value stored as numpy data that is not structured. -/
structure NpFacts (v : Val) (c : Cont) (dt : DT) (sh : List Nat) (e : Bool) : Prop where
  type : ∀ t, PyType v t ↔ t = tsOf v
  under : ∀ t, Underlying v t ↔ t = dt.name
  shape : ∀ c' sh', ShapeOf v c' sh' ↔ c' = c ∧ sh' = sh
  empty : NoElements v ↔ e = true
  cls : ∀ cl, ClassOf v cl ↔ dt.matlabClass = some cl
  dec : Decodes v ↔ (dt.isString || dt == .bool) = true
  noFields : ∀ b l, ¬ StoredNames b v l
  noHas : ∀ t l, ¬ HasFields v t l
  noDict : ∀ k a b, v ≠ .dict k a b

/-- Writing the attribute gives the object this value. -/
def Puts (new : List (Str × AIn)) (k : Str) (a : AVal) : Prop := ∃ i, (k, i) ∈ new ∧ ∀ b, i.stored = .ok b → b = a

theorem puts_string {new : List (Str × AIn)} {k t : Str} (h : (k, AIn.string t) ∈ new) : Puts new k (.bytes t) :=
  ⟨_, h, fun _ hb => (stored_string hb).1⟩

theorem puts_value {new : List (Str × AIn)} {k : Str} {a : AVal} (h : (k, AIn.value a) ∈ new) : Puts new k a :=
  ⟨_, h, fun _ hb => by cases hb; rfl⟩

theorem puts_strings {new : List (Str × AIn)} {k : Str} {l : List Str} (h : (k, AIn.stringArray l) ∈ new) : Puts new k (.strs l) :=
  ⟨_, h, fun _ hb => by
    rw [AIn.stored] at hb
    split at hb <;> cases hb
    rfl⟩

theorem strings_stored {l : List Str} {a : AVal} (h : (AIn.stringArray l).stored = .ok a) : a = .strs l := by
  rw [AIn.stored] at h
  split at h <;> cases h
  rfl

/-- The attributes `new` that were given are the documented ones. -/
structure AsDoc (o : COpts) (v : Val) (b : Body) (new : List (Str × AIn)) : Prop where
  only : ∀ k i a, (k, i) ∈ new → i.stored = .ok a → DocAttr o b v k a
  all : ∀ k a, DocAttr o b v k a → Puts new k a

theorem npAttrs_doc {o : COpts} {v : Val} {c : Cont} {dt : DT} {sh : List Nat} {e : Bool} (hf : NpFacts v c dt sh e) (a : Arr) (f : Filters) {st : DT}
    (hst : (dt.isString || dt == .bool) = true → st = a.dt) : AsDoc o v (.dset a f) (npAttrs o c dt sh e st (tsOf v)) := by
  have hS : ShapeOf v c sh := (hf.shape c sh).mpr ⟨rfl, rfl⟩
  constructor
  · intro k i y hm hy
    unfold npAttrs at hm
    simp only [List.mem_append, or_assoc] at hm
    rcases hm with hm | hm | hm | hm | hm
    · split at hm
      · rename_i hp
        simp only [List.mem_cons, List.not_mem_nil, or_false, Prod.mk.injEq] at hm
        rcases hm with ⟨rfl, rfl⟩ | ⟨rfl, rfl⟩ | ⟨rfl, rfl⟩
        · cases hy; exact .shape hp hS
        · rw [(stored_string hy).1]; exact .underlying hp ((hf.under _).mpr rfl)
        · rw [(stored_string hy).1, ← contName_eq]; exact .container hp hS
      · cases hm
    · split at hm
      · rename_i hp
        rw [Bool.and_eq_true] at hp
        simp only [List.mem_cons, List.not_mem_nil, or_false, Prod.mk.injEq] at hm
        obtain ⟨rfl, rfl⟩ := hm
        cases hy; exact .empty hp.2 (hf.empty.mpr hp.1)
      · cases hm
    · split at hm
      · rename_i hp
        rw [Bool.and_eq_true] at hp
        simp only [List.mem_cons, List.not_mem_nil, or_false, Prod.mk.injEq] at hm
        obtain ⟨rfl, rfl⟩ := hm
        cases hy; exact .matEmpty hp.2 (hf.empty.mpr hp.1)
      · cases hm
    · split at hm
      · rename_i hp
        split at hm
        · rename_i cl hcl
          rw [List.mem_cons] at hm
          rcases hm with hm | hm
          · cases hm
            rw [(stored_string hy).1]; exact .cls hp ((hf.cls _).mpr hcl)
          · split at hm
            · rename_i hd
              simp only [List.mem_cons, List.not_mem_nil, or_false, Prod.mk.injEq] at hm
              obtain ⟨rfl, rfl⟩ := hm
              have e1 : y = .int .i64 (unitSize a.dt) := by
                rw [← hst hd]
                cases st <;> cases hy <;> rfl
              rw [e1]
              exact .decode hp (hf.dec.mpr hd) rfl
            · cases hm
        · cases hm
      · cases hm
    · split at hm
      · rename_i hp
        simp only [List.mem_cons, List.not_mem_nil, or_false, Prod.mk.injEq] at hm
        obtain ⟨rfl, rfl⟩ := hm
        rw [(stored_string hy).1]; exact .type hp ((hf.type _).mpr rfl)
      · cases hm
  · intro k y h
    cases h with
    | type hp h => rw [(hf.type _).mp h]; exact puts_string (by simp [npAttrs, hp])
    | underlying hp h => rw [(hf.under _).mp h]; exact puts_string (by simp [npAttrs, hp])
    | shape hp h => rw [((hf.shape _ _).mp h).2]; exact puts_value (by simp [npAttrs, hp])
    | container hp h => rw [((hf.shape _ _).mp h).1, contName_eq]; exact puts_string (by simp [npAttrs, hp])
    | empty hp h => exact puts_value (by simp [npAttrs, hp, hf.empty.mp h])
    | matEmpty hp h => exact puts_value (by simp [npAttrs, hp, hf.empty.mp h])
    | fields hp h => exact absurd h (hf.noFields _ _)
    | matFields hp h => exact absurd h (hf.noFields _ _)
    | individually hp h => exact absurd h (hf.noHas _ _)
    | keyTypes hp h => exact absurd h (hf.noHas _ _)
    | keysValues hp h => exact absurd h (hf.noDict _ _ _)
    | keysValuesNames hp h => exact absurd h (hf.noDict _ _ _)
    | cls hp h => exact puts_string (by simp [npAttrs, hp, (hf.cls _).mp h])
    | @decode a' f' hp h hb =>
      cases hb
      have hd := hf.dec.mp h
      have hcl : ∃ cl, dt.matlabClass = some cl := by
        cases dt <;> first | exact ⟨_, rfl⟩ | cases hd
      obtain ⟨cl, hcl⟩ := hcl
      refine ⟨_, (by simp only [npAttrs, hp, hcl, hd, if_true, List.mem_append, List.mem_cons]; exact Or.inl (Or.inr (Or.inr (Or.inl rfl)))), ?_⟩
      intro b hb
      rw [← hst hd]
      cases st <;> cases hb <;> rfl

theorem leaf_not {v : Val} {c : Cont} {a : Arr} (h : leafOf v = some (c, a)) : (∀ k e, v ≠ .seq k e) ∧ (∀ c s e, v ≠ .npObj c s e) ∧ (∀ k a b, v ≠ .dict k a b) ∧
    (∀ k l, v ≠ .record k l) ∧ (∀ c s n t e, v ≠ .npStruct c s n t e) := by
  refine ⟨?_, ?_, ?_, ?_, ?_⟩ <;> intros <;> rintro rfl <;> rw [leafOf] at h <;> first | cases h | nofun

theorem leaf_type {v : Val} {c : Cont} {a : Arr} (h : leafOf v = some (c, a)) {n : Str} (hd : DtName a.dt n) : PyType v (tsOf v) := by
  cases v with
  | none => exact .none
  | ellipsis => exact .ellipsis
  | notImplemented => exact .notImplemented
  | bool b => exact .bool b
  | int i => exact .int i
  | float f => exact .float f
  | complex a b => exact .complex a b
  | str s => exact .str s
  | bytes s => exact .bytes s
  | bytearray s => exact .bytearray s
  | dtypeObj s => exact .dtypeObj s
  | np c' a' =>
    cases h
    cases c with
    | scalar =>
      refine .scalar _ _ ?_
      show ScalarType a.dt (npTypeString .scalar a.dt)
      generalize a.dt = dt at hd
      cases hd <;> constructor
    | _ => exact .array _ _ _ rfl
  | _ => rw [leafOf] at h <;> first | cases h | nofun

theorem prodN_zero {l : List Nat} : prodN l = 0 ↔ 0 ∈ l := by
  induction l with
  | nil => simp [prodN]
  | cons a l ih =>
    rw [show prodN (a :: l) = a * prodN l by simp [prodN], Nat.mul_eq_zero, ih, List.mem_cons]
    exact ⟨fun h => h.elim (fun e => Or.inl e.symm) Or.inr, fun h => h.elim (fun e => Or.inl e.symm) Or.inr⟩

theorem leaf_empty {v : Val} {c : Cont} {a : Arr} (h : leafOf v = some (c, a)) : NoElements v ↔ a.isEmpty = true := by
  obtain ⟨h1, h2, h3, h4, h5⟩ := leaf_not h
  have hA : ∀ {c' dt sh}, AsNumpy v c' dt sh → c' = c ∧ dt = a.dt ∧ sh = a.shape := by
    intro c' dt sh hn
    obtain ⟨a', e1, e2, e3⟩ := asNumpy_leaf hn
    rw [h] at e1
    cases e1
    exact ⟨rfl, e2.symm, e3.symm⟩
  have hB := leaf_asNumpy h
  have hS : ∀ c' sh', ShapeOf v c' sh' ↔ c' = c ∧ sh' = a.shape := by
    intro c' sh'
    constructor
    · intro hs
      cases hs with
      | plain hn => exact ⟨(hA hn).1, (hA hn).2.2⟩
      | npObj _ _ e => exact absurd rfl (h2 _ _ _)
      | seq k e => exact absurd rfl (h1 _ _)
      | npStruct _ _ n ty e => exact absurd rfl (h5 _ _ _ _ _)
    · rintro ⟨rfl, rfl⟩
      exact .plain hB
  unfold Arr.isEmpty
  rw [Bool.or_eq_true, Bool.and_eq_true, beq_iff_eq, beq_iff_eq]
  have hnb : a.nbytes = 0 ↔ prodN a.shape = 0 ∨ a.dt.itemsize = 0 := by unfold Arr.nbytes; exact Nat.mul_eq_zero
  constructor
  · intro he
    cases he with
    | shape hs h0 =>
      rw [((hS _ _).mp hs).2] at h0
      exact Or.inl (prodN_zero.mpr h0)
    | text hn h0 =>
      rw [(hA hn).2.1] at h0
      refine Or.inr ?_
      rcases h0 with h0 | h0 <;> rw [hnb, h0] <;> exact ⟨rfl, Or.inr rfl⟩
  · rintro (h0 | ⟨h0, h6⟩)
    · exact .shape ((hS c a.shape).mpr ⟨rfl, rfl⟩) (prodN_zero.mp h0)
    · rcases hnb.mp h6 with h7 | h7
      · exact .shape ((hS c a.shape).mpr ⟨rfl, rfl⟩) (prodN_zero.mp h7)
      · refine .text hB ?_
        generalize a.dt = dt at h0 h7
        cases dt with
        | bytes n => exact Or.inl (by rw [show n = 0 from h7])
        | str n => exact Or.inr (by rw [show n = 0 from (by have h7 : 4 * n = 0 := h7; omega)])
        | _ => cases h0

theorem leaf_facts {v : Val} {c : Cont} {a : Arr} (h : leafOf v = some (c, a)) {n : Str} (hd : DtName a.dt n) : NpFacts v c a.dt a.shape a.isEmpty := by
  obtain ⟨h1, h2, h3, h4, h5⟩ := leaf_not h
  have hA : ∀ {c' dt sh}, AsNumpy v c' dt sh → c' = c ∧ dt = a.dt ∧ sh = a.shape := by
    intro c' dt sh hn
    obtain ⟨a', e1, e2, e3⟩ := asNumpy_leaf hn
    rw [h] at e1
    cases e1
    exact ⟨rfl, e2.symm, e3.symm⟩
  have hB := leaf_asNumpy h
  have hS : ∀ c' sh', ShapeOf v c' sh' ↔ c' = c ∧ sh' = a.shape := by
    intro c' sh'
    constructor
    · intro hs
      cases hs with
      | plain hn => exact ⟨(hA hn).1, (hA hn).2.2⟩
      | npObj _ _ e => exact absurd rfl (h2 _ _ _)
      | seq k e => exact absurd rfl (h1 _ _)
      | npStruct _ _ n ty e => exact absurd rfl (h5 _ _ _ _ _)
    · rintro ⟨rfl, rfl⟩
      exact .plain hB
  have hH : ∀ t l, ¬ HasFields v t l := by
    intro t l hh
    cases hh with
    | dict => exact absurd rfl (h3 _ _ _)
    | record => exact absurd rfl (h4 _ _)
  refine ⟨fun t => ⟨pyType_eq, fun e => e ▸ leaf_type h hd⟩, ?_, hS, ?_, ?_, ?_, ?_, hH, h3⟩
  · intro t
    constructor
    · intro hu
      cases hu with
      | plain hn hx =>
        rw [(hA hn).2.1] at hx
        exact (dtName_iff hd).mp hx
      | npObj => exact absurd rfl (h2 _ _ _)
      | seq => exact absurd rfl (h1 _ _)
      | _ => exact absurd rfl (h5 _ _ _ _ _)
    · intro e
      exact .plain hB ((dtName_iff hd).mpr e)
  · exact leaf_empty h
  · intro cl
    constructor
    · intro hc
      cases hc with
      | table hc => exact leafClass hc h
      | dtypeObj s =>
        rw [leafOf] at h
        cases hs : utf8Enc s with
        | error e => rw [hs] at h; cases h
        | ok b => rw [hs] at h; cases h; rfl
    · intro hc
      have hdc : ∀ {dt : DT}, dt.matlabClass = some cl → (∃ n, DtName dt n) → DtClass dt cl := by
        intro dt hc hn
        obtain ⟨n, hn⟩ := hn
        cases hn <;> cases hc <;> constructor
      cases v with
      | none => cases h; cases hc; exact .table .none
      | ellipsis => cases h; cases hc; exact .table .ellipsis
      | notImplemented => cases h; cases hc; exact .table .notImplemented
      | bool b => cases h; cases hc; exact .table (.bool b)
      | int i =>
        rw [leafOf] at h
        split at h
        · cases h; cases hc; exact .table (.int i (by omega) (by omega))
        · cases h; cases hc; exact .table (.bigInt i (by omega))
      | float f => cases h; cases hc; exact .table (.float f)
      | complex a b => cases h; cases hc; exact .table (.complex a b)
      | str s => cases h; cases hc; exact .table (.str s)
      | bytes s => cases h; cases hc; exact .table (.bytes s)
      | bytearray s => cases h; cases hc; exact .table (.bytearray s)
      | np c a => cases h; exact .table (.np _ _ _ (hdc hc ⟨_, hd⟩))
      | dtypeObj s =>
        rw [leafOf] at h
        cases hs : utf8Enc s with
        | error e => rw [hs] at h; cases h
        | ok b => rw [hs] at h; cases h; cases hc; exact .dtypeObj s
      | _ => rw [leafOf] at h <;> first | cases h | nofun
  · constructor
    · intro he
      cases he with
      | mk hn h0 =>
        rw [(hA hn).2.1] at h0
        rcases h0 with h0 | ⟨k, h0⟩ | ⟨k, h0⟩ <;> rw [h0] <;> rfl
    · intro h0
      refine .mk hB ?_
      generalize a.dt = dt at h0
      cases dt with
      | bool => exact Or.inl rfl
      | bytes n => exact Or.inr (Or.inl ⟨n, rfl⟩)
      | str n => exact Or.inr (Or.inr ⟨n, rfl⟩)
      | _ => cases h0
  · intro b l hl
    cases hl with
    | fields hh => exact hH _ _ hh
    | group => exact absurd rfl (h5 _ _ _ _ _)
    | empty => exact absurd rfl (h5 _ _ _ _ _)

theorem objs_facts {v : Val} {c : Cont} {sh : List Nat} (hv : (∃ e, v = .npObj c sh e ∧ c ≠ .scalar) ∨ ∃ k e, v = .seq k e ∧ c = .ndarray ∧ sh = [e.length]) :
    NpFacts v c .object sh (prodN sh == 0) := by
  have hn : ∀ {c' dt sh'}, ¬ AsNumpy v c' dt sh' := by
    intro c' dt sh' h
    rcases hv with ⟨e, rfl, _⟩ | ⟨k, e, rfl, _⟩ <;> cases h
  have hst : ∀ c s n t e, v ≠ .npStruct c s n t e := by
    intro c s n t e
    rcases hv with ⟨e, rfl, _⟩ | ⟨k, e, rfl, _⟩ <;> nofun
  have hH : ∀ t l, ¬ HasFields v t l := by
    intro t l hh
    rcases hv with ⟨e, rfl, _⟩ | ⟨k, e, rfl, _⟩ <;> cases hh
  have hS : ∀ c' sh', ShapeOf v c' sh' ↔ c' = c ∧ sh' = sh := by
    intro c' sh'
    constructor
    · intro hs
      rcases hv with ⟨e, rfl, _⟩ | ⟨k, e, rfl, rfl, rfl⟩
      · cases hs with
        | plain h => exact absurd h hn
        | npObj => exact ⟨rfl, rfl⟩
      · cases hs with
        | plain h => exact absurd h hn
        | seq => exact ⟨rfl, rfl⟩
    · rintro ⟨rfl, rfl⟩
      rcases hv with ⟨e, rfl, _⟩ | ⟨k, e, rfl, rfl, rfl⟩
      · exact .npObj _ _ _
      · exact .seq _ _
  refine ⟨?_, ?_, hS, ?_, ?_, ?_, ?_, hH, ?_⟩
  · intro t
    refine ⟨pyType_eq, ?_⟩
    rintro rfl
    rcases hv with ⟨e, rfl, h0⟩ | ⟨k, e, rfl, rfl, rfl⟩
    · cases c with
      | scalar => exact absurd rfl h0
      | _ => exact .objects _ _ _ _ rfl
    · cases k <;> constructor
  · intro t
    constructor
    · intro hu
      cases hu with
      | plain h => exact absurd h hn
      | npObj => rfl
      | seq => rfl
      | _ => exact absurd rfl (hst _ _ _ _ _)
    · rintro rfl
      rcases hv with ⟨e, rfl, _⟩ | ⟨k, e, rfl, rfl, rfl⟩
      · exact .npObj _ _ _
      · exact .seq _ _
  · rw [beq_iff_eq]
    constructor
    · intro he
      cases he with
      | shape hs h0 => rw [((hS _ _).mp hs).2] at h0; exact prodN_zero.mpr h0
      | text h => exact absurd h hn
    · intro h0
      exact .shape ((hS c sh).mpr ⟨rfl, rfl⟩) (prodN_zero.mp h0)
  · intro cl
    constructor
    · intro hc
      cases hc with
      | table hc =>
        rcases hv with ⟨e, rfl, _⟩ | ⟨k, e, rfl, rfl, rfl⟩ <;> cases hc <;> rfl
      | dtypeObj s => rcases hv with ⟨e, h, _⟩ | ⟨k, e, h, _⟩ <;> cases h
    · intro h
      cases h
      rcases hv with ⟨e, rfl, _⟩ | ⟨k, e, rfl, rfl, rfl⟩
      · exact .table (.npObj _ _ _)
      · exact .table (.seq _ _)
  · constructor
    · intro h
      cases h with
      | mk h => exact absurd h hn
    · intro h; cases h
  · intro b l hl
    cases hl with
    | fields hh => exact hH _ _ hh
    | group => exact absurd rfl (hst _ _ _ _ _)
    | empty => exact absurd rfl (hst _ _ _ _ _)
  · intro k a b
    rcases hv with ⟨e, rfl, _⟩ | ⟨k, e, rfl, _⟩ <;> nofun

/-- What is known about a dict or record. -/
structure DictFacts (v : Val) (info : Option (List (Str × Nat))) (struct : Bool) : Prop where
  type : ∀ t, PyType v t ↔ t = tsOf v
  noNum : ∀ c dt sh, ¬ AsNumpy v c dt sh
  noObj : ∀ c sh e, v ≠ .npObj c sh e
  noSeq : ∀ k e, v ≠ .seq k e
  noStruct : ∀ c s n t e, v ≠ .npStruct c s n t e
  cls : ∀ cl, ClassOf v cl ↔ struct = true ∧ cl = p!"struct"
  has : ∀ l, info = some l → ∃ t w, HasFields v t w
  names : ∀ b l, info = some l → (∀ ns, StoredNames b v ns ↔ ns = l.map (·.1))
  letters : ∀ l, info = some l → ∀ cs, KeyLetters v cs ↔ cs = l.map (·.2)
  some : ∀ t w, HasFields v t w → info.isSome = true
  any : info = none → ∃ k keys vals, v = .dict k keys vals ∧ ∃ k ∈ keys, NotTextKey k
  none : ∀ k keys vals, v = .dict k keys vals → (∃ k ∈ keys, NotTextKey k) → info = none

theorem DictFacts.noShape {v : Val} {info : Option (List (Str × Nat))} {st : Bool} (hf : DictFacts v info st) (c : Cont) (sh : List Nat) : ¬ ShapeOf v c sh := by
  intro h
  cases h with
  | plain h => exact hf.noNum _ _ _ h
  | npObj => exact hf.noObj _ _ _ rfl
  | seq => exact hf.noSeq _ _ rfl
  | npStruct => exact hf.noStruct _ _ _ _ _ rfl

theorem DictFacts.noUnder {v : Val} {info : Option (List (Str × Nat))} {st : Bool} (hf : DictFacts v info st) (t : Str) : ¬ Underlying v t := by
  intro h
  cases h with
  | plain h => exact hf.noNum _ _ _ h
  | npObj => exact hf.noObj _ _ _ rfl
  | seq => exact hf.noSeq _ _ rfl
  | _ => exact hf.noStruct _ _ _ _ _ rfl

theorem DictFacts.noEmpty {v : Val} {info : Option (List (Str × Nat))} {st : Bool} (hf : DictFacts v info st) : ¬ NoElements v := by
  intro h
  cases h with
  | shape h => exact hf.noShape _ _ h
  | text h => exact hf.noNum _ _ _ h

theorem names_has {b : Body} {v : Val} {l : List Str} (hs : ∀ c s n t e, v ≠ .npStruct c s n t e) (h : StoredNames b v l) : ∃ t w, HasFields v t w := by
  cases h with
  | fields h => exact ⟨_, _, h⟩
  | group => exact absurd rfl (hs _ _ _ _ _)
  | empty => exact absurd rfl (hs _ _ _ _ _)

theorem dictAttrs_doc {o : COpts} {v : Val} {info : Option (List (Str × Nat))} {st : Bool} (hf : DictFacts v info st) (l : List (Str × Nat)) :
    AsDoc o v (.group l) (dictAttrs o info st (tsOf v)) := by
  constructor
  · intro k i y hm hy
    unfold dictAttrs at hm
    simp only [List.mem_append, or_assoc] at hm
    rcases hm with hm | hm | hm | hm
    · split at hm
      · rename_i hp
        cases info with
        | none =>
          obtain ⟨k, keys, vals, e1, e2⟩ := hf.any rfl
          simp only [List.mem_cons, List.not_mem_nil, or_false, Prod.mk.injEq] at hm
          rcases hm with ⟨rfl, rfl⟩ | ⟨rfl, rfl⟩
          · rw [(stored_string hy).1]; exact .keysValues hp e1 e2
          · rw [strings_stored hy]; exact .keysValuesNames hp e1 e2
        | some m =>
          obtain ⟨t, w, hh⟩ := hf.has m rfl
          simp only [List.mem_cons, List.not_mem_nil, or_false, Prod.mk.injEq] at hm
          rcases hm with ⟨rfl, rfl⟩ | ⟨rfl, rfl⟩ | ⟨rfl, rfl⟩
          · rw [(stored_string hy).1]; exact .individually hp hh
          · rw [strings_stored hy]; exact .fields hp ((hf.names _ m rfl _).mpr rfl)
          · rw [(stored_string hy).1]; exact .keyTypes hp hh ((hf.letters m rfl _).mpr rfl)
      · cases hm
    · cases info with
      | none => cases hm
      | some m =>
        dsimp only at hm
        split at hm
        · rename_i hp
          rw [Bool.and_eq_true] at hp
          simp only [List.mem_cons, List.not_mem_nil, or_false, Prod.mk.injEq] at hm
          obtain ⟨rfl, rfl⟩ := hm
          cases hy
          refine .matFields hp.1 ((hf.names _ m rfl _).mpr rfl) ?_
          intro k hk c hc
          obtain ⟨j, hj, rfl⟩ := List.mem_map.mp hk
          have := List.all_eq_true.mp (List.all_eq_true.mp hp.2 j hj) c hc
          exact of_decide_eq_true this
        · cases hm
    · split at hm
      · rename_i hp
        rw [Bool.and_eq_true] at hp
        simp only [List.mem_cons, List.not_mem_nil, or_false, Prod.mk.injEq] at hm
        obtain ⟨rfl, rfl⟩ := hm
        rw [(stored_string hy).1]; exact .cls hp.1 ((hf.cls _).mpr ⟨hp.2, rfl⟩)
      · cases hm
    · split at hm
      · rename_i hp
        simp only [List.mem_cons, List.not_mem_nil, or_false, Prod.mk.injEq] at hm
        obtain ⟨rfl, rfl⟩ := hm
        rw [(stored_string hy).1]; exact .type hp ((hf.type _).mpr rfl)
      · cases hm
  · intro k y h
    cases h with
    | type hp h => rw [(hf.type _).mp h]; exact puts_string (by simp [dictAttrs, hp])
    | underlying hp h => exact absurd h (hf.noUnder _)
    | shape hp h => exact absurd h (hf.noShape _ _)
    | container hp h => exact absurd h (hf.noShape _ _)
    | empty hp h => exact absurd h hf.noEmpty
    | matEmpty hp h => exact absurd h hf.noEmpty
    | fields hp h =>
      obtain ⟨t, w, hh⟩ := names_has hf.noStruct h
      obtain ⟨m, rfl⟩ := Option.isSome_iff_exists.mp (hf.some t w hh)
      rw [(hf.names _ m rfl _).mp h]; exact puts_strings (by simp [dictAttrs, hp])
    | matFields hp h ha =>
      obtain ⟨t, w, hh⟩ := names_has hf.noStruct h
      obtain ⟨m, rfl⟩ := Option.isSome_iff_exists.mp (hf.some t w hh)
      rw [(hf.names _ m rfl _).mp h] at ha ⊢
      have hall : (m.all fun i => i.1.all (· < 128)) = true := by
        rw [List.all_eq_true]
        intro j hj
        rw [List.all_eq_true]
        intro c hc
        exact decide_eq_true (ha j.1 (List.mem_map.mpr ⟨j, hj, rfl⟩) c hc)
      exact puts_value (by unfold dictAttrs; dsimp only; rw [hp, hall]; simp)
    | individually hp hh =>
      obtain ⟨m, rfl⟩ := Option.isSome_iff_exists.mp (hf.some _ _ hh)
      exact puts_string (by simp [dictAttrs, hp])
    | keyTypes hp hh h =>
      obtain ⟨m, rfl⟩ := Option.isSome_iff_exists.mp (hf.some _ _ hh)
      rw [(hf.letters m rfl _).mp h]
      exact puts_string (by simp [dictAttrs, hp])
    | keysValues hp h1 h2 =>
      have := hf.none _ _ _ h1 h2
      subst this
      exact puts_string (by simp [dictAttrs, hp])
    | keysValuesNames hp h1 h2 =>
      have := hf.none _ _ _ h1 h2
      subst this
      exact puts_strings (by simp [dictAttrs, hp])
    | cls hp h =>
      obtain ⟨h1, rfl⟩ := (hf.cls _).mp h
      exact puts_string (by simp [dictAttrs, hp, h1])
    | decode hp h hb => cases hb

theorem keyInfo_letter {k : Val} {e : Str} {c : Nat} (h : keyInfo k = some (e, c)) : KeyLetter k c := by
  unfold keyInfo at h
  split at h
  · cases hx : (escapePath _).toOption with
    | none => rw [hx] at h; cases h
    | some y => rw [hx] at h; cases h; exact .str _
  · rename_i b
    cases hx : (utf8Dec b >>= escapePath).toOption with
    | none => rw [hx] at h; cases h
    | some y => rw [hx] at h; cases h; exact .bytes _
  · rename_i a
    split at h
    · rename_i n hn
      obtain ⟨x, hx, h⟩ := Option.map_eq_some_iff.mp h
      cases h; exact .npStr _ _ hn
    · rename_i n hn
      obtain ⟨x, hx, h⟩ := Option.map_eq_some_iff.mp h
      cases h; exact .npBytes _ _ hn
    · cases h
  · cases h

theorem keyLetter_unique {k : Val} {c d : Nat} (h1 : KeyLetter k c) (h2 : KeyLetter k d) : c = d := by
  cases h1 with
  | str => cases h2; rfl
  | bytes => cases h2; rfl
  | npStr a n ha =>
    cases h2 with
    | npStr => rfl
    | npBytes _ m hb => rw [ha] at hb; cases hb
  | npBytes a n ha =>
    cases h2 with
    | npBytes => rfl
    | npStr _ m hb => rw [ha] at hb; cases hb

theorem keyInfos_letters {keys : List Val} {l : List (Str × Nat)} (h : keyInfos keys = some l) : All2 KeyLetter keys (l.map (·.2)) := by
  induction keys generalizing l with
  | nil => cases h; exact .nil
  | cons k keys ih =>
    rw [keyInfos] at h
    split at h
    · rename_i i m h1 h2
      cases h
      exact .cons (keyInfo_letter h1) (ih h2)
    · cases h

theorem all2_unique {α β : Type} {R : α → β → Prop} (hR : ∀ a b c, R a b → R a c → b = c) {l : List α} {m n : List β} (h1 : All2 R l m) (h2 : All2 R l n) : m = n := by
  induction h1 generalizing n with
  | nil => cases h2; rfl
  | cons a _ ih =>
    cases h2 with
    | cons b r => rw [hR _ _ _ a b, ih r]

theorem escaped_unique (a b c : Str) (h1 : escapePath a = .ok b) (h2 : escapePath a = .ok c) : b = c := by
  rw [h1] at h2; cases h2; rfl

theorem fieldNames_text {b : Body} {v : Val} {keys : List Val} {ns : List Str} {l : List (Str × Nat)} (hl : keyInfos keys = some l) (hs : ∀ c s n t e, v ≠ .npStruct c s n t e)
    (hk : ∀ t w, HasFields v t w → All2 KeyText keys t) (h : StoredNames b v ns) : ns = l.map (·.1) := by
  cases h with
  | fields h1 h2 =>
    obtain ⟨l', e1, _, _, e4, _⟩ := keyInfos_text (hk _ _ h1)
    rw [hl] at e1
    cases e1
    exact all2_unique escaped_unique h2 (all2_flip e4)
  | group => exact absurd rfl (hs _ _ _ _ _)
  | empty => exact absurd rfl (hs _ _ _ _ _)

theorem dict_facts (k : DictKind) (keys vals : List Val) (hd : Documented (.dict k keys vals)) : DictFacts (.dict k keys vals) (keyInfos keys) (k != .counter) := by
  have hk : ∀ t w, HasFields (.dict k keys vals) t w → All2 KeyText keys t := by
    intro t w h
    cases h with
    | dict _ _ _ _ h => exact h
  have hcase : (∃ t, HasFields (.dict k keys vals) t vals ∧ ∃ l, keyInfos keys = some l) ∨ (keyInfos keys = none ∧ ∃ k ∈ keys, NotTextKey k) := by
    cases hd with
    | plain h => cases h
    | fields h =>
      cases h with
      | dict _ _ _ _ h1 h2 =>
        obtain ⟨l, hl, _⟩ := keyInfos_text h1
        exact Or.inl ⟨_, .dict _ _ _ _ h1 h2, l, hl⟩
    | dict _ _ _ h => exact Or.inr ⟨keyInfos_notText h, h⟩
  have hst : ∀ c s n t e, (Val.dict k keys vals) ≠ .npStruct c s n t e := nofun
  refine ⟨?_, nofun, nofun, nofun, nofun, ?_, ?_, ?_, ?_, ?_, ?_, ?_⟩
  · intro t
    refine ⟨pyType_eq, ?_⟩
    rintro rfl
    cases k <;> constructor
  · intro cl
    constructor
    · intro h
      cases h with
      | table h => cases h <;> exact ⟨rfl, rfl⟩
    · rintro ⟨h, rfl⟩
      cases k with
      | dict => exact .table (.dict _ _)
      | orderedDict => exact .table (.orderedDict _ _)
      | counter => cases h
  · intro l hl
    rcases hcase with ⟨t, h, _⟩ | ⟨h, _⟩
    · exact ⟨_, _, h⟩
    · rw [h] at hl; cases hl
  · intro b l hl ns
    refine ⟨fieldNames_text hl hst hk, ?_⟩
    rintro rfl
    rcases hcase with ⟨t, h, _⟩ | ⟨h, _⟩
    · obtain ⟨l', e1, _, _, e4, _⟩ := keyInfos_text (hk _ _ h)
      rw [hl] at e1
      cases e1
      exact .fields h (all2_flip e4)
    · rw [h] at hl; cases hl
  · intro l hl cs
    constructor
    · intro h
      cases h with
      | dict _ _ _ _ h => exact all2_unique (R := KeyLetter) (fun _ _ _ h1 h2 => keyLetter_unique h1 h2) h (keyInfos_letters hl)
    · rintro rfl
      exact .dict _ _ _ _ (keyInfos_letters hl)
  · intro t w h
    obtain ⟨l, hl, _⟩ := keyInfos_text (hk _ _ h)
    rw [hl]; rfl
  · intro h0
    rcases hcase with ⟨t, h, l, hl⟩ | ⟨_, h⟩
    · rw [h0] at hl; cases hl
    · exact ⟨_, _, _, rfl, h⟩
  · intro k' keys' vals' e h
    cases e
    exact keyInfos_notText h

theorem record_facts (k : RecKind) (vals : List Val) (hd : Documented (.record k vals)) :
    DictFacts (.record k vals) (keyInfos (k.fieldNames.map Val.str)) true := by
  have hH : HasFields (.record k vals) k.fieldNames vals := by
    cases hd with
    | plain h => cases h
    | fields h => cases h with | record _ _ h => rw [← recordFields_eq]; exact .record _ _ h
  have hkt := allKeyText_str k.fieldNames
  obtain ⟨l, hl, hlen, _, e4, _⟩ := keyInfos_text hkt
  have hk : ∀ t w, HasFields (.record k vals) t w → All2 KeyText (k.fieldNames.map Val.str) t := by
    intro t w h
    cases h with
    | record => rw [recordFields_eq]; exact hkt
  have hlet : l.map (·.2) = k.fieldNames.map fun _ => 116 := by
    refine all2_unique (R := KeyLetter) (fun _ _ _ h1 h2 => keyLetter_unique h1 h2) (keyInfos_letters hl) ?_
    generalize k.fieldNames = ns
    induction ns with
    | nil => exact .nil
    | cons a r ih => exact .cons (.str a) ih
  have hst : ∀ c s n t e, (Val.record k vals) ≠ .npStruct c s n t e := nofun
  refine ⟨?_, nofun, nofun, nofun, nofun, ?_, ?_, ?_, ?_, ?_, ?_, ?_⟩
  · intro t
    refine ⟨pyType_eq, ?_⟩
    rintro rfl
    cases k <;> constructor
  · intro cl
    constructor
    · intro h
      cases h with
      | table h => cases h; exact ⟨rfl, rfl⟩
    · rintro ⟨_, rfl⟩
      exact .table (.record _ _)
  · intro _ _; exact ⟨_, _, hH⟩
  · intro b m hm ns
    rw [hl] at hm; cases hm
    refine ⟨fieldNames_text hl hst hk, ?_⟩
    rintro rfl
    exact .fields hH (all2_flip e4)
  · intro m hm cs
    rw [hl] at hm; cases hm
    rw [hlet, ← recordFields_eq]
    constructor
    · intro h; cases h; rfl
    · rintro rfl; exact .record _ _
  · intro _ _ _; rw [hl]; rfl
  · intro h; rw [hl] at h; cases h
  · nofun

mutual
theorem fieldBytes_iff : ∀ (t : FT) (n : Nat), FieldBytes t n ↔ n = FT.size t
  | .base dt sp, n => ⟨fun h => by cases h; rfl, fun h => by rw [h]; exact .base dt sp⟩
  | .struct names types sp, n => ⟨fun h => by
      cases h with
      | struct _ _ _ m hm => rw [(rowBytes_iff types m).mp hm, FT.size], fun h => by
      rw [h, FT.size]; exact .struct _ _ _ _ ((rowBytes_iff types _).mpr rfl)⟩
theorem rowBytes_iff : ∀ (t : List FT) (n : Nat), RowBytes t n ↔ n = FT.sizeL t
  | [], n => ⟨fun h => by cases h; rfl, fun h => by rw [h]; exact .nil⟩
  | t :: r, n => ⟨fun h => by
      cases h with
      | cons _ _ a b ha hb => rw [(fieldBytes_iff t a).mp ha, (rowBytes_iff r b).mp hb, FT.sizeL], fun h => by
      rw [h, FT.sizeL]; exact .cons _ _ _ _ ((fieldBytes_iff t _).mpr rfl) ((rowBytes_iff r _).mpr rfl)⟩
end

theorem struct_under (c : Cont) (sh : List Nat) (n : List Str) (ty : List FT) (e : List Val) (t : Str) : Underlying (.npStruct c sh n ty e) t ↔ t = structName c ty := by
  unfold structName
  constructor
  · intro h
    cases h with
    | plain h => cases h
    | void _ _ _ _ _ k d h1 h2 h3 h4 => rw [if_neg h1, if_neg ((rowBytes_iff _ _).mp h2 ▸ h3), ← (rowBytes_iff _ _).mp h2, decimal_iff.mp h4]
    | record _ _ _ _ k d h2 h3 h4 => rw [if_pos rfl, if_neg ((rowBytes_iff _ _).mp h2 ▸ h3), ← (rowBytes_iff _ _).mp h2, decimal_iff.mp h4]
    | void0 _ _ _ _ _ h1 h2 => rw [if_neg h1, if_pos ((rowBytes_iff _ _).mp h2).symm]; rfl
    | record0 _ _ _ _ h2 => rw [if_pos rfl, if_pos ((rowBytes_iff _ _).mp h2).symm]; rfl
  · rintro rfl
    by_cases hc : c = .recarray <;> by_cases h0 : FT.sizeL ty = 0
    · subst hc
      rw [if_pos rfl, if_pos h0]
      exact .record0 _ _ _ _ ((rowBytes_iff _ _).mpr h0.symm)
    · subst hc
      rw [if_pos rfl, if_neg h0]
      exact .record _ _ _ _ _ _ ((rowBytes_iff _ _).mpr rfl) h0 (decimal_decDigits _)
    · rw [if_neg hc, if_pos h0]
      exact .void0 _ _ _ _ _ hc ((rowBytes_iff _ _).mpr h0.symm)
    · rw [if_neg hc, if_neg h0]
      exact .void _ _ _ _ _ _ _ hc ((rowBytes_iff _ _).mpr rfl) h0 (decimal_decDigits _)

theorem struct_type (c : Cont) (sh : List Nat) (n : List Str) (ty : List FT) (e : List Val) (t : Str) : PyType (.npStruct c sh n ty e) t ↔ t = structTypeString c := by
  refine ⟨pyType_eq, ?_⟩
  rintro rfl
  cases c with
  | scalar => exact .void _ _ _ _
  | _ => exact .structured _ _ _ _ _ _ rfl

theorem struct_shape (c : Cont) (sh : List Nat) (n : List Str) (ty : List FT) (e : List Val) (c' : Cont) (sh' : List Nat) :
    ShapeOf (.npStruct c sh n ty e) c' sh' ↔ c' = c ∧ sh' = sh := by
  constructor
  · intro h
    cases h with
    | plain h => cases h
    | npStruct => exact ⟨rfl, rfl⟩
  · rintro ⟨rfl, rfl⟩; exact .npStruct _ _ _ _ _

theorem struct_empty (c : Cont) (sh : List Nat) (n : List Str) (ty : List FT) (e : List Val) : NoElements (.npStruct c sh n ty e) ↔ prodN sh = 0 := by
  constructor
  · intro h
    cases h with
    | shape h h0 => rw [((struct_shape _ _ _ _ _ _ _).mp h).2] at h0; exact prodN_zero.mpr h0
    | text h => cases h
  · intro h
    exact .shape (.npStruct _ _ _ _ _) (prodN_zero.mp h)

theorem mapM_all2 {l m : List Str} (h : l.mapM escapePath = .ok m) : All2 (fun t k => escapePath t = .ok k) l m := by
  induction l generalizing m with
  | nil => cases h; exact .nil
  | cons a l ih =>
    rw [List.mapM_cons] at h
    cases ha : escapePath a with
    | error e => rw [ha] at h; cases h
    | ok b =>
      rw [ha] at h
      cases hl : l.mapM escapePath with
      | error e => rw [hl] at h; cases h
      | ok r => rw [hl] at h; cases h; exact .cons ha (ih hl)

theorem structAttrs_doc {o : COpts} (hS : o.matlab = true → o.structAsStruct = true) (c : Cont) (sh : List Nat) (n : List Str) (ty : List FT) (e : List Val) {esc : List Str}
    (he : n.mapM escapePath = .ok esc) (b : Body) (group : Bool) (hb : (∃ l, b = .group l) ∨ prodN sh = 0) :
    AsDoc o (.npStruct c sh n ty e) b (structAttrs o c ty sh group esc (structTypeString c)) := by
  have h2 := mapM_all2 he
  have hF : StoredNames b (.npStruct c sh n ty e) esc := by
    rcases hb with ⟨l, rfl⟩ | h0
    · exact .group _ _ _ _ _ _ _ rfl h2
    · exact .empty _ _ _ _ _ _ (prodN_zero.mp h0) h2
  have hU : ∀ ns, StoredNames b (.npStruct c sh n ty e) ns → ns = esc := by
    intro ns h
    cases h with
    | fields h => cases h
    | group _ _ _ _ _ _ _ _ h => exact all2_unique escaped_unique h h2
    | empty _ _ _ _ _ _ _ h => exact all2_unique escaped_unique h h2
  constructor
  · intro k i y hm hy
    unfold structAttrs at hm
    simp only [List.mem_append, or_assoc] at hm
    rcases hm with hm | hm | hm | hm | hm | hm
    · split at hm
      · rename_i hp
        simp only [List.mem_cons, List.not_mem_nil, or_false, Prod.mk.injEq] at hm
        rcases hm with ⟨rfl, rfl⟩ | ⟨rfl, rfl⟩ | ⟨rfl, rfl⟩ | ⟨rfl, rfl⟩
        · cases hy; exact .shape hp (.npStruct _ _ _ _ _)
        · rw [(stored_string hy).1]; exact .underlying hp ((struct_under _ _ _ _ _ _).mpr rfl)
        · rw [(stored_string hy).1, ← contName_eq]; exact .container hp (.npStruct _ _ _ _ _)
        · rw [strings_stored hy]; exact .fields hp hF
      · cases hm
    · split at hm
      · rename_i hp
        rw [Bool.and_eq_true] at hp
        simp only [List.mem_cons, List.not_mem_nil, or_false, Prod.mk.injEq] at hm
        obtain ⟨rfl, rfl⟩ := hm
        cases hy
        refine .matFields hp.1 hF ?_
        intro k hk c hc
        exact of_decide_eq_true (List.all_eq_true.mp (List.all_eq_true.mp hp.2 k hk) c hc)
      · cases hm
    · split at hm
      · rename_i hp
        rw [Bool.and_eq_true, beq_iff_eq] at hp
        simp only [List.mem_cons, List.not_mem_nil, or_false, Prod.mk.injEq] at hm
        obtain ⟨rfl, rfl⟩ := hm
        cases hy
        exact .empty hp.2 ((struct_empty _ _ _ _ _).mpr hp.1)
      · cases hm
    · split at hm
      · rename_i hp
        rw [Bool.and_eq_true, beq_iff_eq] at hp
        simp only [List.mem_cons, List.not_mem_nil, or_false, Prod.mk.injEq] at hm
        obtain ⟨rfl, rfl⟩ := hm
        cases hy
        exact .matEmpty hp.2 ((struct_empty _ _ _ _ _).mpr hp.1)
      · cases hm
    · split at hm
      · rename_i hp
        rw [if_pos (hS hp)] at hm
        simp only [List.mem_cons, List.not_mem_nil, or_false, Prod.mk.injEq] at hm
        obtain ⟨rfl, rfl⟩ := hm
        rw [(stored_string hy).1]; exact .cls hp (.table (.npStruct _ _ _ _ _))
      · cases hm
    · split at hm
      · rename_i hp
        simp only [List.mem_cons, List.not_mem_nil, or_false, Prod.mk.injEq] at hm
        obtain ⟨rfl, rfl⟩ := hm
        rw [(stored_string hy).1]; exact .type hp ((struct_type _ _ _ _ _ _).mpr rfl)
      · cases hm
  · intro k y h
    cases h with
    | type hp h => rw [(struct_type _ _ _ _ _ _).mp h]; exact puts_string (by simp [structAttrs, hp])
    | underlying hp h => rw [(struct_under _ _ _ _ _ _).mp h]; exact puts_string (by simp [structAttrs, hp])
    | shape hp h => rw [((struct_shape _ _ _ _ _ _ _).mp h).2]; exact puts_value (by simp [structAttrs, hp])
    | container hp h => rw [((struct_shape _ _ _ _ _ _ _).mp h).1, contName_eq]; exact puts_string (by simp [structAttrs, hp])
    | empty hp h => exact puts_value (by simp [structAttrs, hp, (struct_empty _ _ _ _ _).mp h])
    | matEmpty hp h => exact puts_value (by simp [structAttrs, hp, (struct_empty _ _ _ _ _).mp h])
    | fields hp h => rw [hU _ h]; exact puts_strings (by simp [structAttrs, hp])
    | matFields hp h ha =>
      rw [hU _ h] at ha ⊢
      have hall : (esc.all fun i => i.all (· < 128)) = true := by
        rw [List.all_eq_true]
        intro j hj
        rw [List.all_eq_true]
        intro c hc
        exact decide_eq_true (ha j hj c hc)
      exact puts_value (by unfold structAttrs; rw [hp, hall]; simp)
    | individually hp hh => cases hh
    | keyTypes hp hh h => cases hh
    | keysValues hp h1 h2 => cases h1
    | keysValuesNames hp h1 h2 => cases h1
    | cls hp h =>
      cases h with
      | table h => cases h; exact puts_string (by simp [structAttrs, hp, hS hp])
    | decode hp h hb =>
      cases h with
      | mk h => cases h

theorem tableAttrs_doc {o : COpts} (hm : o.matlab = false) (c : Cont) (sh : List Nat) (n : List Str) (ty : List FT) (e : List Val) {esc : List Str}
    (he : n.mapM escapePath = .ok esc) (a : Arr) (f : Filters) :
    AsDoc o (.npStruct c sh n ty e) (.dset a f) (tableAttrs o c ty sh esc (structTypeString c)) := by
  unfold tableAttrs
  by_cases h0 : prodN sh = 0
  · rw [if_pos h0]
    exact structAttrs_doc (fun h => by rw [hm] at h; cases h) c sh n ty e he _ _ (Or.inr h0)
  rw [if_neg h0]
  constructor
  · intro k i y hx hy
    split at hx
    · rename_i hp
      simp only [List.mem_cons, List.not_mem_nil, or_false, Prod.mk.injEq] at hx
      rcases hx with ⟨rfl, rfl⟩ | ⟨rfl, rfl⟩ | ⟨rfl, rfl⟩ | ⟨rfl, rfl⟩
      · cases hy; exact .shape hp (.npStruct _ _ _ _ _)
      · rw [(stored_string hy).1]; exact .underlying hp ((struct_under _ _ _ _ _ _).mpr rfl)
      · rw [(stored_string hy).1, ← contName_eq]; exact .container hp (.npStruct _ _ _ _ _)
      · rw [(stored_string hy).1]; exact .type hp ((struct_type _ _ _ _ _ _).mpr rfl)
    · cases hx
  · have hN : ∀ ns, ¬ StoredNames (.dset a f) (.npStruct c sh n ty e) ns := by
      intro ns h
      cases h with
      | fields h => cases h
      | group _ _ _ _ _ _ _ h => cases h
      | empty _ _ _ _ _ _ h => exact h0 (prodN_zero.mpr h)
    intro k y h
    cases h with
    | type hp h => rw [(struct_type _ _ _ _ _ _).mp h]; exact puts_string (by simp [hp])
    | underlying hp h => rw [(struct_under _ _ _ _ _ _).mp h]; exact puts_string (by simp [hp])
    | shape hp h => rw [((struct_shape _ _ _ _ _ _ _).mp h).2]; exact puts_value (by simp [hp])
    | container hp h => rw [((struct_shape _ _ _ _ _ _ _).mp h).1, contName_eq]; exact puts_string (by simp [hp])
    | empty hp h => exact absurd ((struct_empty _ _ _ _ _).mp h) h0
    | matEmpty hp h => exact absurd ((struct_empty _ _ _ _ _).mp h) h0
    | fields hp h => exact absurd h (hN _)
    | matFields hp h ha => exact absurd h (hN _)
    | individually hp hh => cases hh
    | keyTypes hp hh h => cases hh
    | keysValues hp h1 h2 => cases h1
    | keysValuesNames hp h1 h2 => cases h1
    | cls hp h => rw [hm] at hp; cases hp
    | decode hp h hb => rw [hm] at hp; cases hp

/-- What is written to an unused place is given the documented attributes. -/
theorem newAttrs_doc {o : COpts} (hS : o.matlab = true → o.structAsStruct = true) {v : Val} (hd : Documented v) {b : Body} {new : List (Str × AIn)} (h : NewAttrs o v b new) :
    AsDoc o v b new ∧ (akeys new).Nodup := by
  cases h with
  | leaf _ c a d f hl _ _ =>
    have hn : ∃ n, DtName a.dt n := by
      obtain ⟨h1, h2, h3, h4, h5⟩ := leaf_not hl
      cases hd with
      | plain hn hx =>
        obtain ⟨a', e1, e2, _⟩ := asNumpy_leaf hn
        rw [hl] at e1
        cases e1
        exact ⟨_, e2 ▸ hx⟩
      | npObj => exact absurd rfl (h2 _ _ _)
      | seq => exact absurd rfl (h1 _ _)
      | fields h =>
        cases h with
        | dict => exact absurd rfl (h3 _ _ _)
        | record => exact absurd rfl (h4 _ _)
      | dict => exact absurd rfl (h3 _ _ _)
      | npStruct => exact absurd rfl (h5 _ _ _ _ _)
    obtain ⟨n, hn⟩ := hn
    exact ⟨npAttrs_doc (leaf_facts hl hn) _ _ (fun _ => rfl), npAttrs_nodup _ _ _ _ _ _ _⟩
  | npObj c shape elems d f _ =>
    have hc : c ≠ .scalar := by
      cases hd with
      | plain h => cases h
      | npObj _ _ _ h => exact h
      | fields h => cases h
    exact ⟨npAttrs_doc (objs_facts (Or.inl ⟨_, rfl, hc⟩)) _ _ (fun h => by cases h), npAttrs_nodup _ _ _ _ _ _ _⟩
  | seq k elems d f _ => exact ⟨npAttrs_doc (objs_facts (Or.inr ⟨_, _, rfl, rfl, rfl⟩)) _ _ (fun h => by cases h), npAttrs_nodup _ _ _ _ _ _ _⟩
  | dict k keys vals l => exact ⟨dictAttrs_doc (dict_facts k keys vals hd) l, dictAttrs_nodup _ _ _ _⟩
  | record k vals l => exact ⟨dictAttrs_doc (record_facts k vals hd) l, dictAttrs_nodup _ _ _ _⟩
  | structEmpty c shape names types elems esc f he h0 =>
    rw [Bool.and_eq_true, beq_iff_eq] at h0
    exact ⟨structAttrs_doc hS _ _ _ _ _ he _ _ (Or.inr h0.2), structAttrs_nodup _ _ _ _ _ _ _⟩
  | struct c shape names types elems esc l he _ _ => exact ⟨structAttrs_doc hS _ _ _ _ _ he _ _ (Or.inl ⟨l, rfl⟩), structAttrs_nodup _ _ _ _ _ _ _⟩
  | table c shape names types elems esc f he _ hg _ =>
    have hm : o.matlab = false := by
      cases hm : o.matlab with
      | false => rfl
      | true =>
        unfold structAsGroup at hg
        rw [hS hm] at hg
        simp at hg
    refine ⟨tableAttrs_doc hm _ _ _ _ _ he _ _, ?_⟩
    unfold tableAttrs
    split
    · exact structAttrs_nodup _ _ _ _ _ _ _
    · split
      · exact of_decide_eq_true rfl
      · exact of_decide_eq_true rfl

theorem stored_doc {o : COpts} {v : Val} {b : Body} {new : List (Str × AIn)} {attrs : List (Str × AVal)} (h : AsDoc o v b new) (hnd : (akeys new).Nodup)
    (hs : setAttributesAll [] new true = (.ok (), attrs)) (k : Str) (a : AVal) : aget attrs k = some a ↔ DocAttr o b v k a := by
  constructor
  · intro hk
    rw [fresh_attr hnd hs k] at hk
    cases hg : aget new k with
    | none => rw [hg] at hk; cases hk
    | some i =>
      rw [hg, Option.bind_some] at hk
      refine h.only k i a (aget_mem _ _ _ hg) ?_
      cases hi : i.stored with
      | error e => rw [hi] at hk; cases hk
      | ok c => rw [hi] at hk; cases hk; rfl
  · intro hk
    obtain ⟨i, h1, h2⟩ := h.all k a hk
    obtain ⟨c, h3, h4⟩ := fresh_stored hnd hs ((aget_iff_mem hnd).mpr h1)
    rw [h4, h2 c h3]

end HS
