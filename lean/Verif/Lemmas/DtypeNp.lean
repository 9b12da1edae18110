import Verif.Lemmas.DtypeStr
/-
`np.dtype` of what numpy writes for a dtype.
-/
namespace HS
open Spec

theorem sizeOr_dec (d n : Nat) : sizeOr d (decDigits n) = some n := by
  unfold sizeOr
  rw [if_neg (decDigits_ne_nil n), natOfDec_decDigits]; rfl

theorem unitOf_str (u : Option Str) : unitOf (unitStr u) = some u := by
  cases u with
  | none => rfl
  | some u =>
    show unitOf (91 :: (u ++ [93])) = _
    rw [unitOf, if_pos ⟨rfl, by simp⟩]
    simp

theorem nameOf_none {c : Nat} {r : Str} (h : c ∉ [98, 111, 100, 116, 105, 117, 102, 99]) : nameOf (c :: r) = none := by
  simp only [List.mem_cons, List.not_mem_nil, or_false, not_or] at h
  unfold nameOf
  rw [if_neg (by intro e; injection e; omega), if_neg (by intro e; injection e; omega), if_neg (by simp [List.isPrefixOf]; omega), if_neg (by simp [List.isPrefixOf]; omega)]
  rw [List.find?_eq_none]
  intro k hk e
  have : ∀ k ∈ ([105, 117, 102, 99].flatMap fun k => (numSizes k).map fun n => SK.num k n false), (SK.text k).head? ∈ [some 105, some 117, some 102, some 99] := by decide
  have h1 := this k hk
  rw [beq_iff_eq.mp e] at h1
  simp at h1
  omega

theorem numSizes_kind {k n : Nat} (h : n ∈ numSizes k) : k = 105 ∨ k = 117 ∨ k = 102 ∨ k = 99 := by
  unfold numSizes at h
  split at h
  · omega
  split at h
  · omega
  split at h
  · omega
  · cases h

theorem number_size {k n : Nat} (h : ∃ name, (k, n, name) ∈ numberTypes) : n ∈ numSizes k := by
  obtain ⟨name, h⟩ := h
  exact (by decide : ∀ t ∈ numberTypes, t.2.1 ∈ numSizes t.1) _ h

theorem num_all {P : SK → Prop} (h : ∀ k ∈ ([105, 117, 102, 99].flatMap fun k => (numSizes k).flatMap fun n => if n = 1 then [SK.num k n false] else [SK.num k n false, SK.num k n true]), P k)
    {k n : Nat} {b : Bool} (hs : ScalarDt (.num k n b)) : P (.num k n b) := by
  apply h
  rw [List.mem_flatMap]
  refine ⟨k, ?_, ?_⟩
  · have := numSizes_kind (number_size hs.1)
    simp; omega
  · rw [List.mem_flatMap]
    refine ⟨n, number_size hs.1, ?_⟩
    split
    · rw [hs.2 ‹_›]; simp
    · cases b <;> simp

theorem skOf_code {k : SK} (h : ScalarDt k) : skOf k.code = some k := by
  cases k with
  | bool => decide
  | object => decide
  | num k n b => exact num_all (P := fun k => skOf k.code = some k) (by decide) h
  | bytes n =>
    rw [SK.code]
    split
    · rename_i e; subst e; decide
    · show skOf (83 :: decDigits n) = _
      have : skOf (83 :: decDigits n) = (match nameOf (83 :: decDigits n) with | some k => some k | none => codeOf false (83 :: decDigits n)) := rfl
      rw [this, nameOf_none (by decide)]
      show (sizeOr 0 (decDigits n)).map SK.bytes = _
      rw [sizeOr_dec]; rfl
  | str n b =>
    rw [SK.code]
    split
    · rename_i e; subst e; cases b <;> decide
    cases b with
    | false =>
      show (sizeOr 0 (decDigits n)).map (fun n => SK.str n false) = _
      rw [sizeOr_dec]; rfl
    | true =>
      show (sizeOr 0 (decDigits n)).map (fun n => SK.str n true) = _
      rw [sizeOr_dec]; rfl
  | void n =>
    rw [SK.code]
    split
    · rename_i e; subst e; decide
    show skOf (86 :: decDigits n) = _
    have : skOf (86 :: decDigits n) = (match nameOf (86 :: decDigits n) with | some k => some k | none => codeOf false (86 :: decDigits n)) := rfl
    rw [this, nameOf_none (by decide)]
    show (sizeOr 0 (decDigits n)).map SK.void = _
    rw [sizeOr_dec]; rfl
  | time d u b =>
    rw [SK.code]
    cases b <;> cases d
    · show (unitOf (unitStr u)).map (fun u => SK.time false u false) = _
      rw [unitOf_str]; rfl
    · show (unitOf (unitStr u)).map (fun u => SK.time true u false) = _
      rw [unitOf_str]; rfl
    · show (unitOf (unitStr u)).map (fun u => SK.time false u true) = _
      rw [unitOf_str]; rfl
    · show (unitOf (unitStr u)).map (fun u => SK.time true u true) = _
      rw [unitOf_str]; rfl

theorem skOf_text {k : SK} (h : ScalarDt k) : skOf k.text = some k := by
  cases k with
  | bool => decide
  | object => decide
  | num k n b => exact num_all (P := fun k => skOf k.text = some k) (by decide) h
  | bytes n =>
    show (sizeOr 0 (decDigits n)).map SK.bytes = _
    rw [sizeOr_dec]; rfl
  | str n b =>
    cases b with
    | false =>
      show (sizeOr 0 (decDigits n)).map (fun n => SK.str n false) = _
      rw [sizeOr_dec]; rfl
    | true =>
      show (sizeOr 0 (decDigits n)).map (fun n => SK.str n true) = _
      rw [sizeOr_dec]; rfl
  | void n =>
    show (sizeOr 0 (decDigits n)).map SK.void = _
    rw [sizeOr_dec]; rfl
  | time d u b =>
    cases b with
    | true =>
      cases d
      · show (unitOf (unitStr u)).map (fun u => SK.time false u true) = _
        rw [unitOf_str]; rfl
      · show (unitOf (unitStr u)).map (fun u => SK.time true u true) = _
        rw [unitOf_str]; rfl
    | false =>
      cases d
      · have : nameOf (p!"datetime64" ++ unitStr u) = some (.time false u false) := by
          unfold nameOf
          rw [if_neg (by intro e; injection e; contradiction), if_neg (by intro e; injection e; contradiction), if_pos (by rfl)]
          show (unitOf (unitStr u)).map (fun u => SK.time false u false) = _
          rw [unitOf_str]; rfl
        have e : skOf (p!"datetime64" ++ unitStr u) = (match nameOf (p!"datetime64" ++ unitStr u) with | some k => some k | none => codeOf false (p!"datetime64" ++ unitStr u)) := rfl
        show skOf (p!"datetime64" ++ unitStr u) = _
        rw [e, this]
      · have : nameOf (p!"timedelta64" ++ unitStr u) = some (.time true u false) := by
          unfold nameOf
          rw [if_neg (by intro e; injection e; contradiction), if_neg (by intro e; injection e; contradiction), if_neg (by simp [List.isPrefixOf]), if_pos (by rfl)]
          show (unitOf (unitStr u)).map (fun u => SK.time true u false) = _
          rw [unitOf_str]; rfl
        have e : skOf (p!"timedelta64" ++ unitStr u) = (match nameOf (p!"timedelta64" ++ unitStr u) with | some k => some k | none => codeOf false (p!"timedelta64" ++ unitStr u)) := rfl
        show skOf (p!"timedelta64" ++ unitStr u) = _
        rw [e, this]


/-- Characters of type codes and names: printable ASCII without quotes and backslashes. -/
def CodeChar (c : Nat) : Prop := 33 ≤ c ∧ c ≤ 124 ∧ c ≠ 39 ∧ c ≠ 92 ∧ c ≠ 34

instance : DecidablePred CodeChar := fun c => inferInstanceAs (Decidable (33 ≤ c ∧ c ≤ 124 ∧ c ≠ 39 ∧ c ≠ 92 ∧ c ≠ 34))

theorem dec_chars (n : Nat) : ∀ c ∈ decDigits n, CodeChar c := by
  intro c hc
  have := decDigits_range n c hc
  exact ⟨by omega, by omega, by omega, by omega, by omega⟩

theorem unit_chars {d b : Bool} {u : Option Str} (h : ScalarDt (.time d u b)) : ∀ c ∈ unitStr u, CodeChar c := by
  cases u with
  | none => intro c hc; cases hc
  | some u =>
    intro c hc
    simp only [unitStr, List.cons_append, List.nil_append, List.mem_cons, List.mem_append, List.not_mem_nil, or_false] at hc
    rcases hc with rfl | hc | rfl
    · decide
    · have := h c hc
      exact ⟨by omega, by omega, by omega, by omega, by omega⟩
    · decide

theorem order_char (b : Bool) : CodeChar (orderChar b) := by cases b <;> decide

theorem code_chars {k : SK} (h : ScalarDt k) : ∀ c ∈ k.code, CodeChar c := by
  cases k with
  | bool => decide
  | object => decide
  | num k n b => exact num_all (P := fun k => ∀ c ∈ k.code, CodeChar c) (by decide) h
  | bytes n =>
    rw [SK.code]
    split
    · decide
    · intro c hc
      rcases List.mem_append.mp hc with hc | hc
      · exact (by decide : ∀ c ∈ p!"S", CodeChar c) c hc
      · exact dec_chars n c hc
  | str n b =>
    rw [SK.code]
    split
    · cases b <;> decide
    · intro c hc
      rcases List.mem_append.mp hc with hc | hc
      · cases b
        · exact (by decide : ∀ c ∈ [orderChar false] ++ p!"U", CodeChar c) c hc
        · exact (by decide : ∀ c ∈ [orderChar true] ++ p!"U", CodeChar c) c hc
      · exact dec_chars n c hc
  | void n =>
    rw [SK.code]
    split
    · decide
    · intro c hc
      rcases List.mem_append.mp hc with hc | hc
      · exact (by decide : ∀ c ∈ p!"V", CodeChar c) c hc
      · exact dec_chars n c hc
  | time d u b =>
    rw [SK.code]
    intro c hc
    rcases List.mem_append.mp hc with hc' | hc
    · clear hc
      revert c
      cases b <;> cases d <;> decide
    · exact unit_chars h c hc

theorem text_chars {k : SK} (h : ScalarDt k) : ∀ c ∈ k.text, CodeChar c := by
  cases k with
  | bool => decide
  | object => decide
  | num k n b => exact num_all (P := fun k => ∀ c ∈ k.text, CodeChar c) (by decide) h
  | bytes n =>
    rw [SK.text]
    intro c hc
    rcases List.mem_append.mp hc with hc | hc
    · exact (by decide : ∀ c ∈ p!"|S", CodeChar c) c hc
    · exact dec_chars n c hc
  | str n b =>
    rw [SK.text]
    intro c hc
    rcases List.mem_append.mp hc with hc | hc
    · cases b
      · exact (by decide : ∀ c ∈ [orderChar false] ++ p!"U", CodeChar c) c hc
      · exact (by decide : ∀ c ∈ [orderChar true] ++ p!"U", CodeChar c) c hc
    · exact dec_chars n c hc
  | void n =>
    rw [SK.text]
    intro c hc
    rcases List.mem_append.mp hc with hc | hc
    · exact (by decide : ∀ c ∈ p!"|V", CodeChar c) c hc
    · exact dec_chars n c hc
  | time d u b =>
    rw [SK.text]
    intro c hc
    split at hc <;> (
    rcases List.mem_append.mp hc with hc' | hc
    · clear hc
      revert c
      cases b <;> cases d <;> decide
    · exact unit_chars h c hc)

theorem text_head {k : SK} (h : ScalarDt k) : k.text.headD 0 ∉ p!"([{" := by
  cases k with
  | bool => decide
  | object => decide
  | num k n b => exact num_all (P := fun k => k.text.headD 0 ∉ p!"([{") (by decide) h
  | bytes n => exact (by decide : (124 : Nat) ∉ p!"([{")
  | str n b => cases b; exact (by decide : (60 : Nat) ∉ p!"([{"); exact (by decide : (62 : Nat) ∉ p!"([{")
  | void n => exact (by decide : (124 : Nat) ∉ p!"([{")
  | time d u b =>
    cases b <;> cases d
    · exact (by decide : (100 : Nat) ∉ p!"([{")
    · exact (by decide : (116 : Nat) ∉ p!"([{")
    · exact (by decide : (62 : Nat) ∉ p!"([{")
    · exact (by decide : (62 : Nat) ∉ p!"([{")

theorem chars_text {s : Str} (h : ∀ c ∈ s, CodeChar c) : FieldText s := fun c hc => by have := (h c hc).2.1; omega

/-- Between quotes such text is its own `repr`. -/
theorem repr_code (pr : Nat → Bool) {s : Str} (h : ∀ c ∈ s, CodeChar c) : pyRepr pr s = p!"'" ++ s ++ p!"'" := by
  have e : ∀ q, q = 39 → s.flatMap (reprChar pr q) = s := by
    intro q hq
    subst hq
    induction s with
    | nil => rfl
    | cons c s ih =>
      have hc := h c (by simp)
      unfold CodeChar at hc
      rw [List.flatMap_cons, ih fun d hd => h d (by simp [hd])]
      unfold reprChar
      rw [if_neg (by omega), if_neg (by omega), if_neg (by omega), if_neg (by omega), if_neg (by omega), if_pos (by omega)]
      rfl
  unfold pyRepr
  dsimp only
  rw [if_neg (fun hh => (h 39 hh.1).2.2.1 rfl), e 39 rfl]

mutual
/-- What numpy writes is an expression of strings, numbers and brackets. -/
theorem lit_plain : (dt : NDt) → PlainDt dt → dt.lit.Plain
  | .sc k, h => by
    rw [PlainDt] at h
    rw [NDt.lit, Lit.Plain]
    exact chars_text (code_chars h)
  | .sub b sh, h => by
    rw [PlainDt] at h
    rw [NDt.lit, Lit.Plain, Lits.Plain, Lits.Plain]
    refine ⟨lit_plain b h.1, ?_, trivial⟩
    rw [Lit.Plain]
    clear h
    induction sh with
    | nil => trivial
    | cons n r ih => exact ⟨trivial, ih⟩
  | .st isRec fs n, h => by
    rw [PlainDt] at h
    rw [NDt.lit]
    rw [if_neg (by rw [h.1]; decide)]
    split
    · rw [Lit.Plain]
      exact items_plain fs h.2.1
    · rw [Lit.Plain]
      have hp : ∀ s : Str, (∀ c ∈ s, CodeChar c) → FieldText s := fun s => chars_text
      refine ⟨hp _ (by decide), ?_, hp _ (by decide), formats_plain fs h.2.1, hp _ (by decide), ?_, hp _ (by decide), trivial, trivial⟩
      · have : ∀ fs : NFs, PlainFs fs → fs.nameLits.Plain := by
          intro fs hf
          exact names_plain fs hf
        exact this fs h.2.1
      · exact offs_plain fs
/-- The list of fields. -/
theorem items_plain : (fs : NFs) → PlainFs fs → fs.items.Plain
  | .nil, h => trivial
  | .cons n t dt o r, h => by
    rw [PlainFs] at h
    rw [NFs.items, Lits.Plain, Lit.Plain, Lits.Plain]
    have hd := lit_plain dt h.2.2.2.1
    refine ⟨⟨?_, ?_⟩, items_plain r h.2.2.2.2⟩
    · cases t with
      | none => exact h.2.1
      | some s => exact ⟨h.2.2.1 s rfl, h.2.1, trivial⟩
    · unfold fieldTail
      split
      · rename_i e; rw [e] at hd; exact hd
      · exact ⟨hd, trivial⟩
/-- The dtypes. -/
theorem formats_plain : (fs : NFs) → PlainFs fs → fs.formats.Plain
  | .nil, h => trivial
  | .cons n t dt o r, h => by
    rw [PlainFs] at h
    rw [NFs.formats, Lits.Plain]
    exact ⟨lit_plain dt h.2.2.2.1, formats_plain r h.2.2.2.2⟩
/-- The names. -/
theorem names_plain : (fs : NFs) → PlainFs fs → fs.nameLits.Plain
  | .nil, h => trivial
  | .cons n t dt o r, h => by
    rw [PlainFs] at h
    exact ⟨h.2.1, names_plain r h.2.2.2.2⟩
/-- The offsets. -/
theorem offs_plain : (fs : NFs) → fs.offLits.Plain
  | .nil => trivial
  | .cons n t dt o r => ⟨trivial, offs_plain r⟩
end

theorem natsOf_lits (sh : List Nat) : natsOf (natLits sh) = some sh := by
  induction sh with
  | nil => rfl
  | cons n r ih => rw [natLits, natsOf, ih]; rfl

theorem titleOf_lit (n : Str) (t : Option Str) : titleOf (titleLit n t) = some (n, t) := by
  cases t <;> rfl

/-- The names. -/
def NFs.names : NFs → List Str
  | .nil => []
  | .cons n _ _ _ r => n :: r.names
/-- The dtypes. -/
def NFs.dts : NFs → List NDt
  | .nil => []
  | .cons _ _ d _ r => d :: r.dts
/-- The offsets. -/
def NFs.offs : NFs → List Nat
  | .nil => []
  | .cons _ _ _ o r => o :: r.offs

theorem strsOf_names : (fs : NFs) → strsOf fs.nameLits = some fs.names
  | .nil => rfl
  | .cons n t d o r => by rw [NFs.nameLits, strsOf, strsOf_names r]; rfl
theorem natsOf_offs : (fs : NFs) → natsOf fs.offLits = some fs.offs
  | .nil => rfl
  | .cons n t d o r => by rw [NFs.offLits, natsOf, natsOf_offs r]; rfl
theorem zip_fields : (fs : NFs) → NoTitles fs → zipFields fs.names fs.dts fs.offs = some fs
  | .nil, _ => rfl
  | .cons n t d o r, h => by
    rw [NoTitles] at h
    rw [NFs.names, NFs.dts, NFs.offs, zipFields, zip_fields r h.2, h.1]; rfl

theorem fieldTail_other {dt : NDt} {l : Lit} (h : ∀ b sh, dt ≠ .sub b sh) : fieldTail dt l = .cons l .nil := by
  cases dt with
  | sc k => rfl
  | sub b sh => exact absurd rfl (h b sh)
  | st _ _ _ => rfl

mutual
/-- `np.dtype` of what numpy writes is the dtype. -/
theorem npDtype_lit : (dt : NDt) → PlainDt dt → npDtype dt.lit = some dt
  | .sc k, h => by
    rw [PlainDt] at h
    rw [NDt.lit, npDtype, skOf_code h]; rfl
  | .sub b sh, h => by
    rw [PlainDt] at h
    rw [NDt.lit, npDtype, npDtype_lit b h.1, natsOf_lits]
  | .st isRec fs n, h => by
    rw [PlainDt] at h
    rw [NDt.lit]
    rw [if_neg (by rw [h.1]; decide)]
    split
    · rename_i hp
      rw [npDtype, npFields_items fs h.2.1 0 n hp, h.1]; rfl
    · rename_i hp
      rw [npDtype, if_pos ⟨rfl, rfl, rfl, rfl⟩, strsOf_names, natsOf_offs, npDtypes_formats fs h.2.1]
      dsimp only
      rw [zip_fields fs (h.2.2 (by simpa using hp)), h.1]; rfl
/-- The list of fields. -/
theorem npFields_items : (fs : NFs) → PlainFs fs → ∀ off n, packedFrom off fs n = true → npFields off fs.items = some (fs, n)
  | .nil, h, off, n, hp => by
    rw [packedFrom] at hp
    rw [NFs.items, npFields, beq_iff_eq.mp hp]
  | .cons nm t (.sub b sh) o r, h, off, n, hp => by
    rw [PlainFs, PlainDt] at h
    rw [packedFrom, Bool.and_eq_true] at hp
    rw [NFs.items, NDt.lit, fieldTail, npFields, titleOf_lit, npDtype_lit b h.2.2.2.1.1, natsOf_lits]
    dsimp only
    rw [npFields_items r h.2.2.2.2 _ n hp.2, beq_iff_eq.mp hp.1]; rfl
  | .cons nm t (.sc k) o r, h, off, n, hp => by
    rw [PlainFs] at h
    rw [packedFrom, Bool.and_eq_true] at hp
    rw [NFs.items, fieldTail_other (by intro b sh e; cases e), npFields, titleOf_lit, npDtype_lit (.sc k) h.2.2.2.1]
    dsimp only
    rw [npFields_items r h.2.2.2.2 _ n hp.2, beq_iff_eq.mp hp.1]; rfl
  | .cons nm t (.st isRec fs m) o r, h, off, n, hp => by
    rw [PlainFs] at h
    rw [packedFrom, Bool.and_eq_true] at hp
    rw [NFs.items, fieldTail_other (by intro b sh e; cases e), npFields, titleOf_lit, npDtype_lit (.st isRec fs m) h.2.2.2.1]
    dsimp only
    rw [npFields_items r h.2.2.2.2 _ n hp.2, beq_iff_eq.mp hp.1]; rfl
/-- The dtypes. -/
theorem npDtypes_formats : (fs : NFs) → PlainFs fs → npDtypes fs.formats = some fs.dts
  | .nil, h => rfl
  | .cons n t dt o r, h => by
    rw [PlainFs] at h
    rw [NFs.formats, npDtypes, npDtype_lit dt h.2.2.2.1, npDtypes_formats r h.2.2.2.2]; rfl
end

/-- Text that begins with a bracket. -/
theorem struct_text (pr : Nat → Bool) {dt : NDt} (h : PlainDt dt) (hd : ∀ k, dt ≠ .sc k) :
    convertDtypeToStr pr dt = dt.lit.repr pr := by
  have key : ∀ c t, dt.text pr = c :: t → c ∈ p!"([{" → convertDtypeToStr pr dt = dt.text pr := by
    intro c t e hc
    unfold convertDtypeToStr
    dsimp only
    rw [if_neg (by rw [e]; exact fun hh => hh hc)]
  cases dt with
  | sc k => exact absurd rfl (hd k)
  | sub b sh =>
    have e : ∃ t, (NDt.sub b sh).lit.repr pr = 40 :: t := ⟨_, by rw [NDt.lit, Lit.repr]; rfl⟩
    obtain ⟨t, e⟩ := e
    exact key 40 t e (by decide)
  | st isRec fs n =>
    rw [PlainDt] at h
    have e : (NDt.st isRec fs n).lit.repr pr = (if packedFrom 0 fs n then Lit.list fs.items
      else Lit.dict (.cons p!"names" (.list fs.nameLits) (.cons p!"formats" (.list fs.formats) (.cons p!"offsets" (.list fs.offLits) (.cons p!"itemsize" (.int n) .nil))))).repr pr := by
      rw [NDt.lit]
      rw [if_neg (by rw [h.1]; decide)]
    by_cases hp : packedFrom 0 fs n = true
    · rw [if_pos hp, Lit.repr] at e
      exact key 91 _ e (by decide)
    · rw [if_neg hp, Lit.repr] at e
      exact key 123 _ e (by decide)

theorem dtype_text (pr : Nat → Bool) {dt : NDt} (h : PlainDt dt) : dtypeOfText (convertDtypeToStr pr dt) = .ok dt := by
  have key : ∀ l : Lit, l.Plain → npDtype l = some dt → convertDtypeToStr pr dt = l.repr pr → dtypeOfText (convertDtypeToStr pr dt) = .ok dt := by
    intro l hl hn e
    rw [e, dtypeOfText, literalEval_repr pr hl]
    show (match npDtype l with | some d => Except.ok d | none => .error Exc.typeError : Res NDt) = _
    rw [hn]
  by_cases hd : ∃ k, dt = .sc k
  · obtain ⟨k, rfl⟩ := hd
    rw [PlainDt] at h
    refine key (.str k.text) (chars_text (text_chars h)) (by rw [npDtype, skOf_text h]; rfl) ?_
    rw [Lit.repr, repr_code pr (text_chars h), convertDtypeToStr, NDt.text]
    exact if_pos (text_head h)
  · exact key dt.lit (lit_plain dt h) (npDtype_lit dt h) (struct_text pr h fun k e => hd ⟨k, e⟩)


/-- A character that can be stored. -/
def TextChar (c : Nat) : Prop := c ≠ 0 ∧ (c < 0xD800 ∨ 0xDFFF < c) ∧ c ≤ 0x10FFFF

theorem code_text {c : Nat} (h : CodeChar c) : TextChar c := by
  unfold CodeChar at h
  exact ⟨by omega, by omega, by omega⟩

theorem hex_text (w v : Nat) : ∀ c ∈ hexFixed w v, TextChar c := by
  intro c hc
  obtain ⟨d, hd, rfl⟩ := hexFixed_mem w v c hc
  have : ∀ d : Fin 16, hexDigit d.val ≠ 0 ∧ hexDigit d.val < 128 := by decide
  have : hexDigit d ≠ 0 ∧ hexDigit d < 128 := this ⟨d, hd⟩
  exact ⟨this.1, by omega, by omega⟩

theorem reprChar_text {pr : Nat → Bool} (hp : PrintOk pr) {q c : Nat} (hq : q = 39 ∨ q = 34) : ∀ d ∈ reprChar pr q c, TextChar d := by
  have lit : ∀ (s t : Str), (∀ d ∈ s, d ≠ 0 ∧ d < 128) → (∀ d ∈ t, TextChar d) → ∀ d ∈ s ++ t, TextChar d := by
    intro s t h1 h2 d hd
    rcases List.mem_append.mp hd with hd | hd
    · have := h1 d hd
      exact ⟨this.1, by omega, by omega⟩
    · exact h2 d hd
  have lit0 : ∀ (s : Str), (∀ d ∈ s, d ≠ 0 ∧ d < 128) → ∀ d ∈ s, TextChar d := by
    intro s h d hd
    have := h d hd
    exact ⟨this.1, by omega, by omega⟩
  have one : TextChar c → ∀ d ∈ [c], TextChar d := by
    intro h d hd
    rw [List.mem_singleton.mp hd]; exact h
  unfold reprChar
  split
  · apply lit0
    intro d hd
    simp at hd
    omega
  split
  · exact lit0 _ (by decide)
  split
  · exact lit0 _ (by decide)
  split
  · exact lit0 _ (by decide)
  split
  · exact lit _ _ (by decide) (hex_text _ _)
  split
  · exact one ⟨by omega, by omega, by omega⟩
  split
  · rename_i h
    have := hp c h
    exact one ⟨by omega, this⟩
  split
  · exact lit _ _ (by decide) (hex_text _ _)
  split
  · exact lit _ _ (by decide) (hex_text _ _)
  · exact lit _ _ (by decide) (hex_text _ _)

theorem pyRepr_text {pr : Nat → Bool} (hp : PrintOk pr) (s : Str) : ∀ d ∈ pyRepr pr s, TextChar d := by
  have key : ∀ q, (q = 39 ∨ q = 34) → ∀ d ∈ [q] ++ s.flatMap (reprChar pr q) ++ [q], TextChar d := by
    intro q hq d hd
    have h1 : TextChar q := ⟨by omega, by omega, by omega⟩
    simp only [List.cons_append, List.nil_append, List.mem_cons, List.mem_append, List.not_mem_nil, or_false] at hd
    rcases hd with rfl | hd | rfl
    · exact h1
    · obtain ⟨c, _, hc⟩ := List.mem_flatMap.mp hd
      exact reprChar_text hp hq d hc
    · exact h1
  unfold pyRepr
  dsimp only
  split
  · exact key 34 (Or.inr rfl)
  · exact key 39 (Or.inl rfl)

theorem all_append {P : Nat → Prop} {a b : Str} (h1 : ∀ d ∈ a, P d) (h2 : ∀ d ∈ b, P d) : ∀ d ∈ a ++ b, P d := by
  intro d hd
  rcases List.mem_append.mp hd with hd | hd
  · exact h1 d hd
  · exact h2 d hd

theorem ascii_chars {s : Str} (h : ∀ d ∈ s, d ≠ 0 ∧ d < 128) : ∀ d ∈ s, TextChar d := by
  intro d hd
  have := h d hd
  exact ⟨this.1, by omega, by omega⟩

mutual
theorem repr_text {pr : Nat → Bool} (hp : PrintOk pr) : (a : Lit) → a.Plain → ∀ d ∈ a.repr pr, TextChar d
  | .str s, h => by rw [Lit.repr]; exact pyRepr_text hp s
  | .int n, h => by rw [Lit.repr]; exact fun d hd => code_text (dec_chars n d hd)
  | .name s, h => absurd h (by rw [Lit.Plain]; exact id)
  | .tup l, h => by
    rw [Lit.repr]
    have : ∀ d ∈ oneComma l, TextChar d := by
      unfold oneComma
      split
      · exact ascii_chars (by decide)
      · intro d hd; cases hd
    exact all_append (all_append (all_append (ascii_chars (by decide)) (reprs_text hp l h)) this) (ascii_chars (by decide))
  | .list l, h => by
    rw [Lit.repr]
    exact all_append (all_append (ascii_chars (by decide)) (reprs_text hp l h)) (ascii_chars (by decide))
  | .dict l, h => by
    rw [Lit.repr]
    exact all_append (all_append (ascii_chars (by decide)) (pairs_text hp l h)) (ascii_chars (by decide))
theorem reprs_text {pr : Nat → Bool} (hp : PrintOk pr) : (l : Lits) → l.Plain → ∀ d ∈ l.repr pr, TextChar d
  | .nil, h => by rw [Lits.repr]; intro d hd; cases hd
  | .cons a r, h => by
    rw [Lits.Plain] at h
    rw [Lits.repr]
    exact all_append (repr_text hp a h.1) (more_text hp r h.2)
theorem more_text {pr : Nat → Bool} (hp : PrintOk pr) : (l : Lits) → l.Plain → ∀ d ∈ l.more pr, TextChar d
  | .nil, h => by rw [Lits.more]; intro d hd; cases hd
  | .cons a r, h => by
    rw [Lits.Plain] at h
    rw [Lits.more]
    exact all_append (all_append (ascii_chars (by decide)) (repr_text hp a h.1)) (more_text hp r h.2)
theorem pairs_text {pr : Nat → Bool} (hp : PrintOk pr) : (l : Pairs) → l.Plain → ∀ d ∈ l.repr pr, TextChar d
  | .nil, h => by rw [Pairs.repr]; intro d hd; cases hd
  | .cons k v r, h => by
    rw [Pairs.Plain] at h
    rw [Pairs.repr]
    exact all_append (all_append (all_append (pyRepr_text hp k) (ascii_chars (by decide))) (repr_text hp v h.2.1)) (pairsMore_text hp r h.2.2)
theorem pairsMore_text {pr : Nat → Bool} (hp : PrintOk pr) : (l : Pairs) → l.Plain → ∀ d ∈ l.more pr, TextChar d
  | .nil, h => by rw [Pairs.more]; intro d hd; cases hd
  | .cons k v r, h => by
    rw [Pairs.Plain] at h
    rw [Pairs.more]
    exact all_append (all_append (all_append (all_append (ascii_chars (by decide)) (pyRepr_text hp k)) (ascii_chars (by decide))) (repr_text hp v h.2.1)) (pairsMore_text hp r h.2.2)
end

/-- The text can be stored and ends in no NUL. -/
theorem dtype_chars {pr : Nat → Bool} (hp : PrintOk pr) {dt : NDt} (h : PlainDt dt) : ∀ c ∈ convertDtypeToStr pr dt, TextChar c := by
  by_cases hd : ∃ k, dt = .sc k
  · obtain ⟨k, rfl⟩ := hd
    rw [PlainDt] at h
    rw [show convertDtypeToStr pr (.sc k) = p!"'" ++ k.text ++ p!"'" from if_pos (text_head h)]
    exact all_append (all_append (ascii_chars (by decide)) fun c hc => code_text (text_chars h c hc)) (ascii_chars (by decide))
  · rw [struct_text pr h fun k e => hd ⟨k, e⟩]
    exact repr_text hp dt.lit (lit_plain dt h)

end HS
