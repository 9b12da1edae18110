import Verif.Lemmas.Conv
/-
C19, C20: string conversions.
-/
namespace HS

theorem mulLast_ne_nil (k : Nat) (s : List Nat) (h : s ≠ []) : mulLast k s ≠ [] := by
  cases s with
  | nil => exact absurd rfl h
  | cons a b => cases b <;> simp [mulLast]

theorem isEmpty_mulLast (k : Nat) (s : List Nat) (h : s ≠ []) : (mulLast k s).isEmpty = false := by
  have := mulLast_ne_nil k s h
  cases hm : mulLast k s with
  | nil => exact absurd hm this
  | cons _ _ => rfl

/-- C19 (uint32).  For every non-empty array of numpy strings of width `n` (of any rank, at least one-dimensional) with storable values, converting
to uint32 and back with `length=n` gives an array of the same shape and values; it is the very same array if one string has the full width.
Missing for the full property: strings whose last code point is a multiple of 256 (`C19_counterexample`, F5). -/
theorem C19_uint32_partial (a : Arr) (n : Nat) (ss : List Str) (ha : Spec.IsStrArray a n ss) (hn : 0 < n) (hsh : a.shape ≠ [])
    (hne : 0 < prodN a.shape) (hst : ∀ s ∈ ss, Spec.Storable s) :
    ∃ r m, convertToNumpyStr (.np false (convertNumpyStrToUint32 a)) (some n) = .ok (false, r) ∧
      Spec.IsStrArray r m ss ∧ r.shape = a.shape ∧ ((n = 1 ∨ ∃ s ∈ ss, s.length = n) → r = a) := by
  have h := str_uint32_roundtrip a n ss ha hn hne hst
  rw [atleast1d_of_ne hsh] at h
  refine ⟨mkStrArr a.shape ss, _, ?_, isStrArray_mk _ _ ha.size, rfl, fun ht => mkStrArr_tight a n ss ha hn ht⟩
  have hb : a.nbytes ≠ 0 := by
    simp only [Arr.nbytes, ha.dt, DT.itemsize]
    exact Nat.pos_iff_ne_zero.mp (Nat.mul_pos hne (by omega))
  have hdt : (convertNumpyStrToUint32 a).dt = .u32 := by rw [convertNumpyStrToUint32, if_neg hb]
  have hse : (convertNumpyStrToUint32 a).shape.isEmpty = false := by
    rw [convertNumpyStrToUint32, if_neg hb, atleast1d_of_ne hsh]
    exact isEmpty_mulLast _ _ hsh
  simp only [convertToNumpyStr, hdt, hse, Bool.or_self, Bool.false_eq_true, if_false, h]
  rfl

/-- C19 (uint16).  The same for uint16, whenever the conversion grew the last axis exactly by the width (the condition under which the writer
uses it). -/
theorem C19_uint16_partial (a b : Arr) (n : Nat) (ss : List Str) (ha : Spec.IsStrArray a n ss) (hn : 0 < n) (hsh : a.shape ≠ [])
    (hne : 0 < prodN a.shape) (hst : ∀ s ∈ ss, Spec.Storable s)
    (hb : convertNumpyStrToUint16 a = .ok b) (hw : b.shape = a.shape.dropLast ++ [a.shape.getLastD 0 * n]) :
    ∃ r m, convertToNumpyStr (.np false b) (some n) = .ok (false, r) ∧
      Spec.IsStrArray r m ss ∧ r.shape = a.shape ∧ ((n = 1 ∨ ∃ s ∈ ss, s.length = n) → r = a) := by
  rw [← mulLast_ne hsh] at hw
  have h := str_uint16_roundtrip a b n ss ha hn hne hst hb (by rw [atleast1d_of_ne hsh]; exact hw)
  rw [atleast1d_of_ne hsh] at h
  refine ⟨mkStrArr a.shape ss, _, ?_, isStrArray_mk _ _ ha.size, rfl, fun ht => mkStrArr_tight a n ss ha hn ht⟩
  have hbn : a.nbytes ≠ 0 := by
    simp only [Arr.nbytes, ha.dt, DT.itemsize]
    exact Nat.pos_iff_ne_zero.mp (Nat.mul_pos hne (by omega))
  have hdt : b.dt = .u16 := by
    rw [convertNumpyStrToUint16, if_neg hbn] at hb
    obtain ⟨enc, _, hb⟩ := res_bind_ok.mp hb
    cases hb; rfl
  have hse : b.shape.isEmpty = false := by rw [hw]; exact isEmpty_mulLast _ _ hsh
  simp only [convertToNumpyStr, hdt, hse, Bool.or_self, Bool.false_eq_true, if_false, h]
  rfl

/-- C19, a single string: uint16 is possible for every string of storable BMP characters, and both conversions read back as it. -/
theorem C19_single_partial (s : Str) (hs : s ≠ []) (hst : Spec.Storable s) :
    convertToNumpyStr (.np false (convertNumpyStrToUint32 (npStr s))) (some s.length) = .ok (false, mkStrArr [1] [s]) ∧
    ∀ b, convertNumpyStrToUint16 (npStr s) = .ok b → b.shape = [s.length] →
      convertToNumpyStr (.np false b) (some s.length) = .ok (false, mkStrArr [1] [s]) := by
  have hn : 0 < s.length := List.length_pos_iff.mpr hs
  have ha : Spec.IsStrArray (npStr s) s.length [s] := ⟨rfl, rfl, by simp [npStr], by simp⟩
  have hp : 0 < prodN (npStr s).shape := by simp [npStr, prodN]
  have hb : (npStr s).nbytes ≠ 0 := by
    simp only [Arr.nbytes, ha.dt, DT.itemsize]
    exact Nat.pos_iff_ne_zero.mp (Nat.mul_pos hp (by omega))
  constructor
  · have h := str_uint32_roundtrip _ _ _ ha hn hp (by simpa using hst)
    have hdt : (convertNumpyStrToUint32 (npStr s)).dt = .u32 := by rw [convertNumpyStrToUint32, if_neg hb]
    have hse : (convertNumpyStrToUint32 (npStr s)).shape.isEmpty = false := by
      rw [convertNumpyStrToUint32, if_neg hb]; rfl
    simp only [convertToNumpyStr, hdt, hse, Bool.or_self, Bool.false_eq_true, if_false, h]
    rfl
  · intro b h1 h2
    have h := str_uint16_roundtrip _ b _ _ ha hn hp (by simpa using hst) h1 (by rw [h2]; simp [npStr, atleast1dShape, mulLast])
    have hdt : b.dt = .u16 := by
      rw [convertNumpyStrToUint16, if_neg hb] at h1
      obtain ⟨enc, _, hb⟩ := res_bind_ok.mp h1
      cases hb; rfl
    simp only [convertToNumpyStr, hdt, h2, List.isEmpty_cons, Bool.or_self, Bool.false_eq_true, if_false, h]
    rfl

/-- C19 is false in general (F5): the one-character string U+4E00 cannot be converted back from either form. -/
theorem C19_counterexample :
    (convertToNumpyStr (.np false (convertNumpyStrToUint32 (npStr [0x4E00]))) (some 1)) = .error .unicodeError ∧
    (do let b ← convertNumpyStrToUint16 (npStr [0x4E00]); convertToNumpyStr (.np false b) (some 1)) = .error .unicodeError := by
  decide +kernel

-- a 2x2 array of 3-character strings, one with an astral character, meets the hypotheses
example : convertToNumpyStr (.np false (convertNumpyStrToUint32
      ⟨.str 3, [2, 2], [.units [97, 98, 99], .units [100, 0, 0], .units [0x1F601, 0, 0], .units [0, 0, 0]]⟩)) (some 3) =
    .ok (false, ⟨.str 3, [2, 2], [.units [97, 98, 99], .units [100, 0, 0], .units [0x1F601, 0, 0], .units [0, 0, 0]]⟩) := by
  decide +kernel
example : (do let b ← convertNumpyStrToUint16
                ⟨.str 3, [2, 2], [.units [97, 98, 99], .units [100, 0, 0], .units [0x1F601, 0, 0], .units [0, 0, 0]]⟩
              convertToNumpyStr (.np false b) (some 3)) =
    .ok (false, ⟨.str 3, [2, 2], [.units [97, 98, 99], .units [100, 0, 0], .units [0x1F601, 0, 0], .units [0, 0, 0]]⟩) := by
  decide +kernel
example : Spec.IsStrArray ⟨.str 3, [2, 2], [.units [97, 98, 99], .units [100, 0, 0], .units [0x1F601, 0, 0], .units [0, 0, 0]]⟩ 3
    [[97, 98, 99], [100], [0x1F601], []] := ⟨rfl, rfl, rfl, by decide⟩

/-! C20 -/

/-- C20 (bytes, uint8, numpy bytes).  `convert_to_str` gives back every string from its UTF-8 encoding held in bytes, a uint8 array or numpy bytes,
and conversely only data that is the encoding of the result is accepted. -/
theorem C20_utf8 (s : Str) (b : Bytes) (hb : utf8Enc s = .ok b) (shape : List Nat) :
    convertToStr (.bytes b) = .ok s ∧
    convertToStr (.np false ⟨.u8, shape, b.map fun (x : Nat) => El.num x⟩) = .ok s ∧
    convertToStr (.np true (npBytes b)) = .ok s ∧ convertToStr (.str s) = .ok s := by
  have hd := utf8Dec_enc s b hb
  refine ⟨hd, ?_, ?_, rfl⟩
  · have : (b.map fun (x : Nat) => El.num x).map El.toNat = b := by
      rw [List.map_map]; conv => rhs; rw [← List.map_id b]
      apply List.map_congr_left; intro x _; simp [El.toNat]
    simp only [convertToStr, this, hd]
  · cases b with
    | nil =>
      simp [utf8Dec] at hd
      subst hd; rfl
    | cons x y =>
      simp only [convertToStr, npBytes, mkBytesArr, List.length_cons, List.map_cons, List.map_nil, List.flatMap_cons, List.flatMap_nil,
        El.toUnits, List.append_nil]
      rw [List.take_of_length_le (by simp)]
      simpa using hd

/-- Every string of Unicode scalar values has such an encoding. -/
theorem C20_utf8_total (s : Str) (hs : Spec.Scalars s) : ∃ b, utf8Enc s = .ok b := utf8Enc_isOk s hs

/-- Conversely only the UTF-8 encoding of a string converts to it. -/
theorem C20_utf8_only (s : Str) (b : Bytes) (h : convertToStr (.bytes b) = .ok s) : utf8Enc s = .ok b := utf8Enc_dec b s h

/-- C20 (uint16, uint32, numpy str).  The same from UTF-16 words, UTF-32 words and numpy strings, unless the string starts with a byte order
mark (U+FEFF; for uint16 also U+FFFE), which the code's codecs consume (`C20_counterexample`, F6). -/
theorem C20_utf16_utf32_partial (s : Str) (hs : Spec.Scalars s) (h1 : s.head? ≠ some 0xFEFF) (shape : List Nat) :
    (s.head? ≠ some 0xFFFE → ∃ u, utf16Enc s = .ok u ∧ convertToStr (.np false ⟨.u16, shape, u.map fun (x : Nat) => El.num x⟩) = .ok s) ∧
    convertToStr (.np false ⟨.u32, shape, s.map fun (x : Nat) => El.num x⟩) = .ok s ∧
    convertToStr (.np true (npStr s)) = .ok s := by
  have hmap : ∀ l : List Nat, (l.map fun (x : Nat) => El.num x).map El.toNat = l := by
    intro l
    rw [List.map_map]; conv => rhs; rw [← List.map_id l]
    apply List.map_congr_left; intro x _; simp [El.toNat]
  have h32 : utf32BomDec s = .ok s := by
    cases s with
    | nil => rfl
    | cons c r =>
      have hc := hs c (by simp)
      have e1 : ¬ c = 0xFEFF := by simpa using h1
      have e2 : ¬ c = 0xFFFE0000 := by omega
      rw [utf32BomDec, if_neg e1, if_neg e2]
      exact utf32Dec_scalars _ hs
  refine ⟨fun h2 => ?_, ?_, ?_⟩
  · obtain ⟨u, hu⟩ := utf16Enc_isOk s hs
    refine ⟨u, hu, ?_⟩
    have hd := utf16Dec_enc s u hu
    simp only [convertToStr, hmap]
    cases u with
    | nil => simpa [utf16BomDec, utf16Dec] using hd
    | cons x y =>
      have hx : ¬ x = 0xFEFF ∧ ¬ x = 0xFFFE := by
        cases s with
        | nil => cases hu
        | cons c r =>
          have hc := hs c (by simp)
          rw [utf16Enc] at hu
          have hsur : isSurr c = false := by simp [isSurr]; omega
          rw [hsur] at hu
          simp only [Bool.false_eq_true, if_false] at hu
          simp only [List.head?_cons, ne_eq, Option.some.injEq] at h1 h2
          split at hu
          · obtain ⟨_, _, hu⟩ := res_bind_ok.mp hu
            simp only [Except.ok.injEq, List.cons.injEq] at hu
            omega
          · rw [if_pos hc.2] at hu
            obtain ⟨_, _, hu⟩ := res_bind_ok.mp hu
            simp only [Except.ok.injEq, List.cons.injEq] at hu
            have : (c - 65536) / 1024 < 1024 := by rw [Nat.div_lt_iff_lt_mul (by omega)]; omega
            omega
      rw [utf16BomDec, if_neg hx.1, if_neg hx.2]
      exact hd
  · simp only [convertToStr, hmap, h32]
  · cases s with
    | nil => rfl
    | cons c r =>
      simp only [convertToStr, npStr, List.length_cons, List.flatMap_cons, List.flatMap_nil, El.toUnits, List.append_nil]
      exact h32

theorem swap32_bytes {a b c d x : Nat} (h1 : a < 256) (h2 : b < 256) (h3 : c < 256) (h4 : d < 256) (hx : x = ((d * 256 + c) * 256 + b) * 256 + a) :
    swap32 x = ((a * 256 + b) * 256 + c) * 256 + d := by
  unfold swap32
  have e1 : x % 256 = a := by omega
  have e2 : x / 256 % 256 = b := by omega
  have e3 : x / 65536 % 256 = c := by omega
  have e4 : x / 16777216 = d := by omega
  rw [e1, e2, e3, e4]
  omega

/-- C20 (byte order marks).  UTF-16 and UTF-32 words after a byte order mark are decoded in the byte order it shows: in the native one, and with the bytes of
all words swapped. -/
theorem C20_byte_order (s : Str) (hs : Spec.Scalars s) (shape : List Nat) :
    (∃ u, utf16Enc s = .ok u ∧ convertToStr (.np false ⟨.u16, shape, (0xFEFF :: u).map fun (x : Nat) => El.num x⟩) = .ok s ∧
      ∀ u', Spec.Swapped16 u u' → convertToStr (.np false ⟨.u16, shape, (0xFFFE :: u').map fun (x : Nat) => El.num x⟩) = .ok s) ∧
    convertToStr (.np false ⟨.u32, shape, (0xFEFF :: s).map fun (x : Nat) => El.num x⟩) = .ok s ∧
    ∀ s', Spec.Swapped32 s s' → convertToStr (.np false ⟨.u32, shape, (0xFFFE0000 :: s').map fun (x : Nat) => El.num x⟩) = .ok s := by
  have hmap : ∀ l : List Nat, (l.map fun (x : Nat) => El.num x).map El.toNat = l := by
    intro l
    rw [List.map_map]; conv => rhs; rw [← List.map_id l]
    apply List.map_congr_left; intro x _; simp [El.toNat]
  refine ⟨?_, ?_, ?_⟩
  · obtain ⟨u, hu⟩ := utf16Enc_isOk s hs
    have hd := utf16Dec_enc s u hu
    refine ⟨u, hu, ?_, fun u' h => ?_⟩
    · simp only [convertToStr, hmap]
      exact hd
    · simp only [convertToStr, hmap]
      have e : u'.map swap16 = u := by
        clear hd hu
        induction h with
        | nil => rfl
        | cons h _ ih =>
          obtain ⟨a, b, h1, h2, rfl, rfl⟩ := h
          rw [List.map_cons, ih]
          exact congrArg (· :: _) (by unfold swap16; omega)
      show utf16Dec (u'.map swap16) = _
      rw [e, hd]
  · simp only [convertToStr, hmap]
    exact utf32Dec_scalars s hs
  · intro s' h
    simp only [convertToStr, hmap]
    have e : s'.map swap32 = s := by
      clear hs
      induction h with
      | nil => rfl
      | cons h _ ih =>
        obtain ⟨a, b, c, d, h1, h2, h3, h4, rfl, rfl⟩ := h
        rw [List.map_cons, ih]
        exact congrArg (· :: _) (swap32_bytes h1 h2 h3 h4 rfl)
    show utf32Dec (s'.map swap32) = _
    rw [e]
    exact utf32Dec_scalars s hs

/-- Such data. -/
example : Spec.Scalars [0x1F601] ∧ utf16Enc [0x1F601] = .ok [0xD83D, 0xDE01] ∧ Spec.Swapped16 [0xD83D, 0xDE01] [0x3DD8, 0x01DE] ∧ Spec.Swapped32 [0x1F601] [0x01F60100] :=
  ⟨by unfold Spec.Scalars; decide, by decide, .cons ⟨0xD8, 0x3D, by decide, by decide, by decide, by decide⟩ (.cons ⟨0xDE, 1, by decide, by decide, by decide, by decide⟩ .nil),
    .cons ⟨0, 1, 0xF6, 1, by decide, by decide, by decide, by decide, by decide, by decide⟩ .nil⟩

/-- C20 is false for strings starting with U+FEFF (F6), and for uint16 data starting with U+FFFE. -/
theorem C20_counterexample :
    convertToStr (.np true (npStr [0xFEFF, 97])) = .ok [97] ∧
    convertToStr (.np false ⟨.u32, [2], [.num 0xFEFF, .num 97]⟩) = .ok [97] ∧
    convertToStr (.np false ⟨.u16, [2], [.num 0xFEFF, .num 97]⟩) = .ok [97] ∧
    convertToStr (.np false ⟨.u16, [2], [.num 0xFFFE, .num 97]⟩) = .ok [0x6100] := by decide +kernel

example : utf8Enc [0x41, 0xE9, 0x20AC, 0x1F601] = .ok [0x41, 0xC3, 0xA9, 0xE2, 0x82, 0xAC, 0xF0, 0x9F, 0x98, 0x81] := by decide +kernel
example : convertToStr (.np false ⟨.u16, [3], [.num 0x41, .num 0xD83D, .num 0xDE01]⟩) = .ok [0x41, 0x1F601] := by decide +kernel

end HS
