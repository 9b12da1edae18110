import Verif.Lemmas.Leaf
import Verif.Spec.Progress
/-
C80: `convert_to_numpy_bytes`.
-/
namespace HS

theorem utf8EncChar_length {c : Nat} {b : Bytes} (h : utf8EncChar c = some b) : b.length ≤ 4 := by
  unfold utf8EncChar at h
  repeat' split at h
  all_goals first
    | (injection h with h; subst h; simp)
    | exact absurd h (by simp)

theorem utf8Enc_length (s : Str) : ∀ b : Bytes, utf8Enc s = .ok b → b.length ≤ 4 * s.length := by
  induction s with
  | nil => intro b h; cases h; simp
  | cons c r ih =>
    intro b h
    rw [utf8Enc] at h
    cases hc : utf8EncChar c with
    | none => rw [hc] at h; exact absurd h (by simp)
    | some bc =>
      rw [hc] at h
      obtain ⟨b', hb', h'⟩ := res_bind_ok.mp h
      cases h'
      have := ih b' hb'
      have := utf8EncChar_length hc
      simp; omega

theorem utf8Enc_last (s : Str) : ∀ b : Bytes, utf8Enc s = .ok b → s.getLast? ≠ some 0 → b.getLast? ≠ some 0 := by
  intro b h hl hb
  have key : ∀ (s : Str) (b : Bytes), utf8Enc s = .ok b → b.getLast? = some 0 → s.getLast? = some 0 := by
    intro s
    induction s with
    | nil => intro b h hb; cases h; simp at hb
    | cons c r ih =>
      intro b h hb
      rw [utf8Enc] at h
      cases hc : utf8EncChar c with
      | none => rw [hc] at h; exact absurd h (by simp)
      | some bc =>
        rw [hc] at h
        obtain ⟨b', hb', h'⟩ := res_bind_ok.mp h
        cases h'
        cases r with
        | nil =>
          cases hb'
          unfold utf8EncChar at hc
          repeat' split at hc
          all_goals first
            | (injection hc with hc; subst hc; simp at hb; try omega)
            | exact absurd hc (by simp)
          all_goals (subst hb; rfl)
        | cons d t =>
          have hne : b' ≠ [] := by
            intro h0
            subst h0
            have := utf8Dec_enc _ _ hb'
            simp [utf8Dec] at this
          have : b'.getLast? = some 0 := by
            rw [List.getLast?_append] at hb
            cases hx : b'.getLast? with
            | none => exact absurd (List.getLast?_eq_none_iff.mp hx) hne
            | some y => rw [hx] at hb; simpa using hb
          have := ih b' hb' this
          simpa using this
  exact hl (key s b h hb)

theorem utf32BomDec_ascii (u : List Nat) (h : ∀ x ∈ u, x < 128) : utf32BomDec u = .ok u := by
  cases u with
  | nil => rfl
  | cons c r =>
    have := h c (by simp)
    rw [utf32BomDec, if_neg (by omega), if_neg (by omega)]
    exact utf32Dec_scalars _ fun x hx => by have := h x hx; omega

/-- C80 (arrays of str): every element becomes bytes that `convert_to_str` turns back into the string, at the same place. Nothing is cut. -/
theorem C80_array (a : Arr) (n : Nat) (ss : List Str) (ha : Spec.IsStrArray a n ss) (hs : ∀ s ∈ ss, Spec.Scalars s) (hz : ∀ s ∈ ss, s.getLast? ≠ some 0) (l : Option Nat) :
    ∃ r bs, convertToNumpyBytes (.np false a) l = .ok (false, r) ∧ r.shape = a.shape ∧ r.dt = .bytes (4 * n) ∧
      r.data.map (fun e => stripNul e.toUnits) = bs ∧ All2 (fun s b => convertToStr (.bytes b) = .ok s) ss bs := by
  have hm : ∀ ss : List Str, (∀ s ∈ ss, Spec.Scalars s) → (∀ s ∈ ss, s.getLast? ≠ some 0) → (∀ s ∈ ss, s.length ≤ n) →
      ∃ bs : List Bytes, (ss.map fun s => El.units (s ++ List.replicate (n - s.length) 0)).mapM (fun e => utf8Enc (stripNul e.toUnits)) = .ok bs ∧
        (mkBytesArr (4 * n) a.shape bs).data.map (fun e => stripNul e.toUnits) = bs ∧ All2 (fun s b => convertToStr (.bytes b) = .ok s) ss bs := by
    intro ss
    induction ss with
    | nil => intro _ _ _; exact ⟨[], rfl, rfl, .nil⟩
    | cons s t ih =>
      intro h1 h2 h3
      obtain ⟨bs, i1, i2, i3⟩ := ih (fun x hx => h1 x (by simp [hx])) (fun x hx => h2 x (by simp [hx])) (fun x hx => h3 x (by simp [hx]))
      obtain ⟨b, hb⟩ := utf8Enc_isOk s (h1 s (by simp))
      have hz := h2 s (by simp)
      have hl := utf8Enc_length s b hb
      have hw := h3 s (by simp)
      refine ⟨b :: bs, ?_, ?_, .cons (utf8Dec_enc s b hb) i3⟩
      · rw [List.map_cons, List.mapM_cons, i1]
        simp only [El.toUnits, stripNul_append_zeros s _ hz, hb]
        rfl
      · simp only [mkBytesArr, List.map_cons] at i2 ⊢
        rw [i2]
        simp only [El.toUnits]
        rw [List.take_of_length_le (by omega), stripNul_append_zeros b _ (utf8Enc_last s b hb hz)]
  obtain ⟨bs, h1, h2, h3⟩ := hm ss hs hz ha.width
  refine ⟨mkBytesArr (4 * n) a.shape bs, bs, ?_, rfl, rfl, h2, h3⟩
  simp only [convertToNumpyBytes, ha.dt, Bool.false_eq_true, if_false, ha.data, h1, DT.itemsize]
  rfl

example : ∃ r bs, convertToNumpyBytes (.np false ⟨.str 2, [2], [.units [233, 0], .units [0x1F600, 0x20AC]]⟩) none = .ok (false, r) ∧ r.shape = [2] ∧ r.dt = .bytes (4 * 2) ∧
    r.data.map (fun e => stripNul e.toUnits) = bs ∧ All2 (fun s b => convertToStr (.bytes b) = .ok s) [[233], [0x1F600, 0x20AC]] bs :=
  C80_array ⟨.str 2, [2], [.units [233, 0], .units [0x1F600, 0x20AC]]⟩ 2 [[233], [0x1F600, 0x20AC]] ⟨rfl, rfl, rfl, by decide⟩ (by unfold Spec.Scalars; decide) (by decide) none

/-- C80 (single strings): a `str` or a numpy str becomes bytes that `convert_to_str` turns back into it. -/
theorem C80_single (s : Str) (hs : Spec.Scalars s) (l : Option Nat) :
    ∃ r, convertToNumpyBytes (.str s) l = .ok (true, r) ∧ convertToNumpyBytes (.np true (npStr s)) l = .ok (true, r) ∧ r.shape = [] ∧ convertToStr (.np true r) = .ok s := by
  obtain ⟨b, hb⟩ := utf8Enc_isOk s hs
  refine ⟨npBytes b, ?_, ?_, rfl, ?_⟩
  · simp only [convertToNumpyBytes, hb]; rfl
  · simp only [convertToNumpyBytes, npStr, if_true, List.flatMap_cons, List.flatMap_nil, El.toUnits, List.append_nil, hb]; rfl
  · have hd := utf8Dec_enc s b hb
    cases b with
    | nil =>
      simp [utf8Dec] at hd
      subst hd; rfl
    | cons x y =>
      simp only [convertToStr, npBytes, mkBytesArr, List.length_cons, List.map_cons, List.map_nil, List.flatMap_cons, List.flatMap_nil, El.toUnits, List.append_nil]
      rw [List.take_of_length_le (by simp)]
      simpa using hd

example : Spec.Scalars [233, 0x1F600] := by unfold Spec.Scalars; decide

/-- C80 (unsigned integers of 16 or 32 bits): texts of `n` characters each lying side by side in the last dimension become the bytes of those texts, if they are ASCII.
Missing for the full property: other characters (`C80_counterexample`, F64). -/
theorem C80_uints_partial (dt : DT) (hdt : dt = .u16 ∨ dt = .u32) (n : Nat) (hn : 0 < n) (shape : List Nat) (hsh : shape ≠ []) (ss : List Str) (hlen : ss.length = prodN shape)
    (hw : ∀ s ∈ ss, s.length = n) (hasc : ∀ s ∈ ss, Spec.Ascii s) :
    convertToNumpyBytes (.np false ⟨dt, mulLast n shape, ss.flatten.map fun (x : Nat) => El.num x⟩) (some n) = .ok (false, ⟨.bytes n, shape, ss.map El.units⟩) := by
  have hp := prodN_mulLast n shape hsh
  have hmap : ∀ l : List Nat, (l.map fun (x : Nat) => El.num x).map El.toNat = l := by
    intro l
    rw [List.map_map]; conv => rhs; rw [← List.map_id l]
    apply List.map_congr_left; intro x _; simp [El.toNat]
  have hemp : (mulLast n shape).isEmpty = false := by
    cases shape with
    | nil => exact absurd rfl hsh
    | cons d r => cases r <;> rfl
  have hdiv := divLast_mulLast n shape hn
  have hch := chunksN_flatten n ss hw
  have key : ∀ ch ∈ ss, (do utf8Enc (← convertToStr (.np false ⟨dt, [ch.length], ch.map fun (x : Nat) => El.num x⟩))) = .ok ch := by
    intro ch hc
    have h1 := hasc ch hc
    have h2 : convertToStr (.np false ⟨dt, [ch.length], ch.map fun (x : Nat) => El.num x⟩) = .ok ch := by
      rcases hdt with rfl | rfl
      · simp only [convertToStr, hmap, utf16BomDec_ascii ch h1]
      · simp only [convertToStr, hmap, utf32BomDec_ascii ch h1]
    rw [h2]
    exact utf8Enc_ascii ch h1
  have hM := mapM_res_map (fun ch : List Nat => do utf8Enc (← convertToStr (.np false ⟨dt, [ch.length], ch.map fun (x : Nat) => El.num x⟩))) id id ss key
  simp only [List.map_id] at hM
  have hfin : (mkBytesArr n shape ss) = ⟨.bytes n, shape, ss.map El.units⟩ := by
    simp only [mkBytesArr]
    congr 1
    apply List.map_congr_left
    intro s hs
    have := hw s hs
    rw [List.take_of_length_le (by omega), this, Nat.sub_self]
    simp
  rcases hdt with rfl | rfl <;>
  · simp only [convertToNumpyBytes, hemp, Bool.or_false, Bool.false_eq_true, if_false, Option.getD_some, Option.isNone_some, Bool.false_and, hmap, hdiv, ← hlen, hch]
    rw [if_neg (by omega)]
    rw [hM]
    rw [← hfin]
    rfl

example : convertToNumpyBytes (.np false ⟨.u16, mulLast 2 [2], [p!"ab", [99, 0]].flatten.map fun (x : Nat) => El.num x⟩) (some 2) = .ok (false, ⟨.bytes 2, [2], [p!"ab", [99, 0]].map El.units⟩) :=
  C80_uints_partial .u16 (.inl rfl) 2 (by decide) [2] (by decide) [p!"ab", [99, 0]] rfl (by decide) (by unfold Spec.Ascii; decide)

/-- The bytes are cut to as many as there are characters: the text é (one uint16 or uint32) becomes the first half of its encoding, which is the encoding of nothing (finding F64);
the same text as a str array is converted in full. -/
theorem C80_counterexample :
    convertToNumpyBytes (.np false ⟨.u16, [1], [.num 233]⟩) none = .ok (false, ⟨.bytes 1, [1], [.units [0xC3]]⟩) ∧
    convertToNumpyBytes (.np false ⟨.u32, [1], [.num 233]⟩) none = .ok (false, ⟨.bytes 1, [1], [.units [0xC3]]⟩) ∧
    convertToStr (.bytes [0xC3]) = .error .unicodeError ∧
    convertToNumpyBytes (.np false ⟨.str 1, [1], [.units [233]]⟩) none = .ok (false, ⟨.bytes 4, [1], [.units [0xC3, 0xA9, 0, 0]]⟩) := by
  refine ⟨?_, ?_, ?_, ?_⟩ <;> decide +kernel

end HS
