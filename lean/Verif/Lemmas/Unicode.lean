import Verif.Model.Conv
import Verif.Spec.Strings
import Verif.Lemmas.Array
/-
Codec round trips.
-/
namespace HS

theorem isScalar_iff (c : Nat) : isScalar c = true ↔ (c < 0xD800 ∨ 0xDFFF < c) ∧ c ≤ 0x10FFFF := by
  simp only [isScalar, isSurr, Bool.and_eq_true, decide_eq_true_eq, Bool.not_eq_true', Bool.and_eq_false_imp]
  constructor
  · rintro ⟨h1, h2⟩
    refine ⟨?_, h1⟩
    by_cases h : 55296 ≤ c
    · have := h2 h; simp at this; omega
    · omega
  · rintro ⟨h1, h2⟩
    refine ⟨h2, fun h => ?_⟩
    simp; omega

theorem res_bind_ok {α β : Type} {x : Res α} {f : α → Res β} {b : β} :
    (x >>= f) = .ok b ↔ ∃ a, x = .ok a ∧ f a = .ok b := by
  cases x with
  | error e => constructor
               · intro h; cases h
               · rintro ⟨a, h, _⟩; cases h
  | ok a => constructor
            · intro h; exact ⟨a, rfl, h⟩
            · rintro ⟨_, h, h2⟩; cases h; exact h2

theorem utf16Enc_isOk (s : Str) (hs : Spec.Scalars s) : ∃ u, utf16Enc s = .ok u := by
  induction s with
  | nil => exact ⟨[], rfl⟩
  | cons c r ih =>
    obtain ⟨u, hu⟩ := ih (fun x hx => hs x (by simp [hx]))
    have hc := hs c (by simp)
    have : isSurr c = false := by
      simp [isSurr]; omega
    rw [utf16Enc]
    simp only [this, Bool.false_eq_true, ite_false, hu]
    by_cases h : c < 65536
    · exact ⟨c :: u, by rw [if_pos h]; rfl⟩
    · rw [if_neg h, if_pos hc.2]; exact ⟨_, rfl⟩

theorem utf16Enc_scalars (s : Str) (u : List Nat) (h : utf16Enc s = .ok u) : Spec.Scalars s := by
  induction s generalizing u with
  | nil => intro c hc; simp at hc
  | cons c r ih =>
    rw [utf16Enc] at h
    split at h
    · cases h
    · rename_i hsu
      have hsu' : c < 55296 ∨ 57343 < c := by
        simp [isSurr] at hsu; omega
      intro x hx
      split at h
      · rename_i h2
        obtain ⟨u', hu', _⟩ := res_bind_ok.mp h
        rcases List.mem_cons.mp hx with rfl | hx
        · exact ⟨hsu', by omega⟩
        · exact ih u' hu' x hx
      · split at h
        · rename_i h3
          obtain ⟨u', hu', _⟩ := res_bind_ok.mp h
          rcases List.mem_cons.mp hx with rfl | hx
          · exact ⟨hsu', h3⟩
          · exact ih u' hu' x hx
        · cases h

theorem utf16Dec_enc (s : Str) (u : List Nat) (h : utf16Enc s = .ok u) : utf16Dec u = .ok s := by
  induction s generalizing u with
  | nil => simp [utf16Enc] at h; subst h; rfl
  | cons c r ih =>
    rw [utf16Enc] at h
    split at h
    · cases h
    · rename_i hsu
      have hsu' : c < 55296 ∨ 57343 < c := by simp [isSurr] at hsu; omega
      split at h
      · rename_i h2
        obtain ⟨u', hu', h'⟩ := res_bind_ok.mp h
        cases h'
        have h3 : (decide (0xD800 ≤ c) && decide (c ≤ 0xDBFF)) = false := by simp; omega
        have h4 : (decide (0xDC00 ≤ c) && decide (c ≤ 0xDFFF)) = false := by simp; omega
        rw [utf16Dec.eq_def]
        simp only [h3, h4, Bool.false_eq_true, ite_false, ih u' hu']
        rfl
      · split at h
        · rename_i h2 h3
          obtain ⟨u', hu', h'⟩ := res_bind_ok.mp h
          cases h'
          generalize hA : (c - 65536) / 1024 = A
          generalize hB : (c - 65536) % 1024 = B
          have hdm := Nat.div_add_mod (c - 65536) 1024
          rw [hA, hB] at hdm
          have hB' : B < 1024 := by rw [← hB]; exact Nat.mod_lt _ (by omega)
          have hA' : A < 1024 := by omega
          have e1 : (decide (0xD800 ≤ 0xD800 + A) && decide (0xD800 + A ≤ 0xDBFF)) = true := by simp; omega
          have e2 : (decide (0xDC00 ≤ 0xDC00 + B) && decide (0xDC00 + B ≤ 0xDFFF)) = true := by simp; omega
          have e3 : 0x10000 + (0xD800 + A - 0xD800) * 1024 + (0xDC00 + B - 0xDC00) = c := by omega
          rw [utf16Dec.eq_def]
          simp only [e1, e2, ite_true, ih u' hu', e3]
          rfl
        · cases h

/-- All words are 16 bit; the low byte of the last word is that of the last character. -/
theorem utf16Enc_words (s : Str) (u : List Nat) (h : utf16Enc s = .ok u) :
    (∀ x ∈ u, x < 65536) ∧ (u = [] ↔ s = []) ∧
      (∀ x c, u.getLast? = some x → s.getLast? = some c → x % 256 = c % 256) ∧ s.length ≤ u.length := by
  induction s generalizing u with
  | nil => simp [utf16Enc] at h; subst h; simp
  | cons c r ih =>
    rw [utf16Enc] at h
    split at h
    · cases h
    · split at h
      · rename_i h2
        obtain ⟨u', hu', h'⟩ := res_bind_ok.mp h
        cases h'
        obtain ⟨i1, i2, i3, i4⟩ := ih u' hu'
        refine ⟨?_, by simp, ?_, by simp; omega⟩
        · intro x hx; rcases List.mem_cons.mp hx with rfl | hx
          · exact h2
          · exact i1 x hx
        · intro x d hx hd
          cases r with
          | nil =>
            have : u' = [] := i2.mpr rfl
            subst this
            simp at hx hd; omega
          | cons r0 r1 =>
            cases u' with
            | nil => simp at i2
            | cons a b =>
              rw [List.getLast?_cons_cons] at hx hd
              exact i3 x d hx hd
      · split at h
        · rename_i h2 h3
          obtain ⟨u', hu', h'⟩ := res_bind_ok.mp h
          cases h'
          obtain ⟨i1, i2, i3, i4⟩ := ih u' hu'
          refine ⟨?_, by simp, ?_, by simp; omega⟩
          · intro x hx
            rcases List.mem_cons.mp hx with hx | hx
            · have : (c - 65536) / 1024 < 1024 := by rw [Nat.div_lt_iff_lt_mul (by omega)]; omega
              omega
            · rcases List.mem_cons.mp hx with hx | hx
              · have := Nat.mod_lt (c - 65536) (show 1024 > 0 by omega)
                omega
              · exact i1 x hx
          · intro x d hx hd
            cases r with
            | nil =>
              have : u' = [] := i2.mpr rfl
              subst this
              simp at hx hd; omega
            | cons r0 r1 =>
              cases u' with
              | nil => simp at i2
              | cons a b =>
                rw [List.getLast?_cons_cons, List.getLast?_cons_cons] at hx
                rw [List.getLast?_cons_cons] at hd
                exact i3 x d hx hd
        · cases h

theorem utf16Enc_bmp (s : Str) (u : List Nat) (h : utf16Enc s = .ok u) (hl : u.length = s.length) : u = s := by
  induction s generalizing u with
  | nil => simpa using hl
  | cons c r ih =>
    rw [utf16Enc] at h
    split at h
    · cases h
    · split at h
      · obtain ⟨u', hu', h'⟩ := res_bind_ok.mp h
        cases h'
        rw [ih u' hu' (by simpa using hl)]
      · split at h
        · obtain ⟨u', hu', h'⟩ := res_bind_ok.mp h
          cases h'
          have := (utf16Enc_words r u' hu').2.2.2
          simp at hl; omega
        · cases h

theorem utf32Dec_scalars (s : Str) (hs : Spec.Scalars s) : utf32Dec s = .ok s := by
  induction s with
  | nil => rfl
  | cons c r ih =>
    have hc := (isScalar_iff c).mpr (hs c (by simp))
    rw [utf32Dec, if_pos hc, ih (fun x hx => hs x (by simp [hx]))]
    rfl

theorem stripNul_append_zeros (s : List Nat) (k : Nat) (h : s.getLast? ≠ some 0) : stripNul (s ++ List.replicate k 0) = s := by
  unfold stripNul
  rw [List.reverse_append, List.reverse_replicate]
  have : ∀ (k : Nat) (l : List Nat), l.head? ≠ some 0 → (List.replicate k 0 ++ l).dropWhile (· == 0) = l := by
    intro k l hl
    induction k with
    | zero =>
      cases l with
      | nil => rfl
      | cons a b =>
        simp only [List.head?_cons, ne_eq, Option.some.injEq] at hl
        simp [hl]
    | succ k ih => simp only [List.replicate_succ, List.cons_append]; rw [List.dropWhile_cons]; simpa using ih
  rw [this k _ (by rw [List.head?_reverse]; exact h)]
  simp

theorem stripNul_self (s : List Nat) (h : s.getLast? ≠ some 0) : stripNul s = s := by
  have := stripNul_append_zeros s 0 h; simpa using this

theorem stripNul_decomp (raw : List Nat) : ∃ k, raw = stripNul raw ++ List.replicate k 0 := by
  unfold stripNul
  have : ∀ l : List Nat, ∃ k, l = List.replicate k 0 ++ l.dropWhile (· == 0) := by
    intro l
    induction l with
    | nil => exact ⟨0, rfl⟩
    | cons a b ih =>
      obtain ⟨k, hk⟩ := ih
      by_cases ha : a = 0
      · subst ha
        refine ⟨k + 1, ?_⟩
        rw [List.dropWhile_cons]
        simp only [BEq.rfl, if_true, List.replicate_succ, List.cons_append]
        rw [← hk]
      · exact ⟨0, by rw [List.dropWhile_cons]; simp [ha]⟩
  obtain ⟨k, hk⟩ := this raw.reverse
  refine ⟨k, ?_⟩
  have := congrArg List.reverse hk
  simpa using this

theorem stripNul_last (raw : List Nat) : (stripNul raw).getLast? ≠ some 0 := by
  unfold stripNul
  rw [List.getLast?_reverse]
  have : ∀ l : List Nat, (l.dropWhile (· == 0)).head? ≠ some 0 := by
    intro l
    induction l with
    | nil => simp
    | cons a b ih =>
      rw [List.dropWhile_cons]
      by_cases ha : a = 0
      · subst ha; simpa using ih
      · simp [ha]
  exact this _

theorem fromBe16_flatMap (u : List Nat) (h : ∀ x ∈ u, x < 65536) : fromBe16 (u.flatMap be16) = .ok u := by
  induction u with
  | nil => rfl
  | cons a b ih =>
    have ih' := ih (fun x hx => h x (by simp [hx]))
    have ha := h a (by simp)
    simp only [List.flatMap_cons, be16, List.cons_append, List.nil_append]
    have e : a / 256 * 256 + a % 256 = a := by omega
    rw [fromBe16, ih', e]
    rfl

theorem fromBe32_flatMap (u : List Nat) (h : ∀ x ∈ u, x < 4294967296) : fromBe32 (u.flatMap be32) = .ok u := by
  induction u with
  | nil => rfl
  | cons a b ih =>
    have ih' := ih (fun x hx => h x (by simp [hx]))
    have ha := h a (by simp)
    simp only [List.flatMap_cons, be32, List.cons_append, List.nil_append]
    have e : a / 16777216 * 16777216 + a / 65536 % 256 * 65536 + a / 256 % 256 * 256 + a % 256 = a := by omega
    rw [fromBe32, ih', e]
    rfl

theorem getLast?_flatMap_be16 (u : List Nat) : (u.flatMap be16).getLast? = u.getLast?.map (· % 256) := by
  induction u with
  | nil => rfl
  | cons a b ih =>
    cases b with
    | nil => simp [be16]
    | cons c d =>
      rw [List.getLast?_cons_cons, ← ih]
      simp [be16]

theorem getLast?_flatMap_be32 (u : List Nat) : (u.flatMap be32).getLast? = u.getLast?.map (· % 256) := by
  induction u with
  | nil => rfl
  | cons a b ih =>
    cases b with
    | nil => simp [be32]
    | cons c d =>
      rw [List.getLast?_cons_cons, ← ih]
      simp [be32]

theorem flatMap_replicate_zero16 (k : Nat) : (List.replicate k 0).flatMap be16 = List.replicate (2 * k) 0 := by
  induction k with
  | zero => rfl
  | succ n ih => rw [List.replicate_succ, List.flatMap_cons, ih, show 2 * (n + 1) = 2 * n + 1 + 1 by omega]; rfl

theorem flatMap_replicate_zero32 (k : Nat) : (List.replicate k 0).flatMap be32 = List.replicate (4 * k) 0 := by
  induction k with
  | zero => rfl
  | succ n ih => rw [List.replicate_succ, List.flatMap_cons, ih, show 4 * (n + 1) = 4 * n + 1 + 1 + 1 + 1 by omega]; rfl

/-- A NUL padded chunk of UTF-16 words decodes to the string it encodes, if the low byte of its last word is not zero. -/
theorem decodeChunk_u16 (s : Str) (u : List Nat) (k : Nat) (h : utf16Enc s = .ok u) (hl : ∀ c, s.getLast? = some c → c % 256 ≠ 0) :
    decodeChunk .u16 (u ++ List.replicate k 0) = .ok s := by
  obtain ⟨hw, he, hlast, _⟩ := utf16Enc_words s u h
  have h0 : (u.flatMap be16).getLast? ≠ some 0 := by
    rw [getLast?_flatMap_be16]
    intro hc
    simp only [Option.map_eq_some_iff] at hc
    obtain ⟨x, hx, hx0⟩ := hc
    cases hs : s.getLast? with
    | none =>
      have : s = [] := by simpa using hs
      rw [he.mpr this] at hx; simp at hx
    | some c => have := hlast x c hx hs; have := hl c hs; omega
  simp only [decodeChunk, List.flatMap_append, flatMap_replicate_zero16, stripNul_append_zeros _ _ h0, decU16BE, fromBe16_flatMap u hw]
  exact utf16Dec_enc s u h

theorem decodeChunk_u32 (s : Str) (k : Nat) (h : Spec.Storable s) :
    decodeChunk .u32 (s ++ List.replicate k 0) = .ok s := by
  have h0 : (s.flatMap be32).getLast? ≠ some 0 := by
    rw [getLast?_flatMap_be32]
    intro hc
    simp only [Option.map_eq_some_iff] at hc
    obtain ⟨x, hx, hx0⟩ := hc
    exact h.2 x hx hx0
  have hw : ∀ x ∈ s, x < 4294967296 := fun x hx => by have := (h.1 x hx).2; omega
  simp only [decodeChunk, List.flatMap_append, flatMap_replicate_zero32, stripNul_append_zeros _ _ h0, decU32BE, fromBe32_flatMap s hw]
  exact utf32Dec_scalars s h.1

theorem mapM_res_map {α β γ : Type} (f : β → Res γ) (g : α → β) (k : α → γ) (l : List α) (h : ∀ a ∈ l, f (g a) = .ok (k a)) :
    (l.map g).mapM f = .ok (l.map k) := by
  induction l with
  | nil => rfl
  | cons a r ih =>
    simp only [List.map_cons, List.mapM_cons, h a (by simp), ih (fun x hx => h x (by simp [hx]))]
    rfl

theorem le_foldl_max (l : List Nat) (a x : Nat) (h : x ∈ l ∨ x ≤ a) : x ≤ l.foldl max a := by
  induction l generalizing a with
  | nil => rcases h with h | h
           · simp at h
           · exact h
  | cons b r ih =>
    simp only [List.foldl_cons]
    apply ih
    rcases h with h | h
    · rcases List.mem_cons.mp h with rfl | h
      · exact Or.inr (Nat.le_max_right _ _)
      · exact Or.inl h
    · exact Or.inr (Nat.le_trans h (Nat.le_max_left _ _))

theorem foldl_max_le (l : List Nat) (a m : Nat) (ha : a ≤ m) (h : ∀ x ∈ l, x ≤ m) : l.foldl max a ≤ m := by
  induction l generalizing a with
  | nil => exact ha
  | cons b r ih => exact ih _ (Nat.max_le.mpr ⟨ha, h b (by simp)⟩) (fun x hx => h x (by simp [hx]))

theorem foldl_max_eq (l : List Nat) (m : Nat) (h1 : m ∈ l) (h : ∀ x ∈ l, x ≤ m) : l.foldl max 0 = m :=
  Nat.le_antisymm (foldl_max_le l 0 m (Nat.zero_le _) h) (le_foldl_max l 0 m (Or.inl h1))

/-! UTF-8 -/

theorem utf8EncChar_dec (c : Nat) (b r : Bytes) (h : utf8EncChar c = some b) :
    utf8Dec (b ++ r) = (do .ok (c :: (← utf8Dec r))) := by
  unfold utf8EncChar at h
  split at h
  · rename_i h1
    cases h
    simp only [List.cons_append, List.nil_append]
    rw [utf8Dec.eq_def]; simp only [if_pos h1]
  · split at h
    · rename_i h1 h2
      cases h
      simp only [List.cons_append, List.nil_append]
      have a1 : ¬ (0xC0 + c / 64 < 0x80) := by omega
      have a2 : (decide (0xC2 ≤ 0xC0 + c / 64) && decide (0xC0 + c / 64 ≤ 0xDF)) = true := by
        simp; omega
      have a3 : isCont (0x80 + c % 64) = true := by
        have := Nat.mod_lt c (show 64 > 0 by omega)
        simp [isCont]; omega
      rw [utf8Dec.eq_def]
      simp only [a1, a2, a3, if_true, if_false]
      have : (0xC0 + c / 64 - 0xC0) * 64 + (0x80 + c % 64 - 0x80) = c := by omega
      rw [this]
    · split at h
      · cases h
      · rename_i h1 h2 h3
        have hns : c < 55296 ∨ 57343 < c := by simp [isSurr] at h3; omega
        split at h
        · rename_i h4
          cases h
          simp only [List.cons_append, List.nil_append]
          have a1 : ¬ (0xE0 + c / 4096 < 0x80) := by omega
          have a2 : (decide (0xC2 ≤ 0xE0 + c / 4096) && decide (0xE0 + c / 4096 ≤ 0xDF)) = false := by
            simp; omega
          have a3 : (decide (0xE0 ≤ 0xE0 + c / 4096) && decide (0xE0 + c / 4096 ≤ 0xEF)) = true := by
            simp; omega
          have c1 : isCont (0x80 + c / 64 % 64) = true := by
            have := Nat.mod_lt (c / 64) (show 64 > 0 by omega)
            simp [isCont]; omega
          have c2 : isCont (0x80 + c % 64) = true := by
            have := Nat.mod_lt c (show 64 > 0 by omega)
            simp [isCont]; omega
          have hv : (0xE0 + c / 4096 - 0xE0) * 4096 + (0x80 + c / 64 % 64 - 0x80) * 64 + (0x80 + c % 64 - 0x80) = c := by omega
          have hs : isSurr c = false := by simpa using h3
          have hge : decide (0x800 ≤ c) = true := by simp; omega
          rw [utf8Dec.eq_def]
          simp only [a1, a2, a3, if_true, if_false, Bool.false_eq_true, hv, c1, c2, hs, hge, Bool.and_true, Bool.not_false]
        · split at h
          · rename_i h4 h5
            cases h
            simp only [List.cons_append, List.nil_append]
            have a1 : ¬ (0xF0 + c / 262144 < 0x80) := by omega
            have a2 : (decide (0xC2 ≤ 0xF0 + c / 262144) && decide (0xF0 + c / 262144 ≤ 0xDF)) = false := by
              simp; omega
            have a3 : (decide (0xE0 ≤ 0xF0 + c / 262144) && decide (0xF0 + c / 262144 ≤ 0xEF)) = false := by
              simp; omega
            have a4 : (decide (0xF0 ≤ 0xF0 + c / 262144) && decide (0xF0 + c / 262144 ≤ 0xF4)) = true := by
              simp; omega
            have c0 : isCont (0x80 + c / 4096 % 64) = true := by
              have := Nat.mod_lt (c / 4096) (show 64 > 0 by omega)
              simp [isCont]; omega
            have c1 : isCont (0x80 + c / 64 % 64) = true := by
              have := Nat.mod_lt (c / 64) (show 64 > 0 by omega)
              simp [isCont]; omega
            have c2 : isCont (0x80 + c % 64) = true := by
              have := Nat.mod_lt c (show 64 > 0 by omega)
              simp [isCont]; omega
            have hv : (0xF0 + c / 262144 - 0xF0) * 262144 + (0x80 + c / 4096 % 64 - 0x80) * 4096 + (0x80 + c / 64 % 64 - 0x80) * 64
                + (0x80 + c % 64 - 0x80) = c := by omega
            have hge : decide (0x10000 ≤ c) = true := by simp; omega
            have hle : decide (c ≤ 0x10FFFF) = true := by simp; omega
            rw [utf8Dec.eq_def]
            simp only [a1, a2, a3, a4, if_true, if_false, Bool.false_eq_true, hv, c0, c1, c2, hge, hle, Bool.and_true]
          · cases h

theorem utf8Dec_enc (s : Str) (b : Bytes) (h : utf8Enc s = .ok b) : utf8Dec b = .ok s := by
  induction s generalizing b with
  | nil => simp [utf8Enc] at h; subst h; rfl
  | cons c r ih =>
    rw [utf8Enc] at h
    cases hc : utf8EncChar c with
    | none => rw [hc] at h; cases h
    | some bc =>
      rw [hc] at h
      obtain ⟨b', hb', h'⟩ := res_bind_ok.mp h
      cases h'
      rw [utf8EncChar_dec c bc b' hc, ih b' hb']
      rfl

theorem utf8Enc_isOk (s : Str) (hs : Spec.Scalars s) : ∃ b, utf8Enc s = .ok b := by
  induction s with
  | nil => exact ⟨[], rfl⟩
  | cons c r ih =>
    obtain ⟨b, hb⟩ := ih (fun x hx => hs x (by simp [hx]))
    have hc := hs c (by simp)
    have : ∃ bc, utf8EncChar c = some bc := by
      unfold utf8EncChar
      split
      · exact ⟨_, rfl⟩
      · split
        · exact ⟨_, rfl⟩
        · have : isSurr c = false := by simp [isSurr]; omega
          rw [this]
          simp only [Bool.false_eq_true, ite_false]
          split
          · exact ⟨_, rfl⟩
          · rw [if_pos hc.2]; exact ⟨_, rfl⟩
    obtain ⟨bc, hbc⟩ := this
    rw [utf8Enc, hbc, hb]
    exact ⟨_, rfl⟩


theorem utf8Enc_cons {c : Nat} {bc r : Bytes} {s : Str} (h : utf8EncChar c = some bc) (hr : utf8Enc s = .ok r) :
    utf8Enc (c :: s) = .ok (bc ++ r) := by
  rw [utf8Enc, h, hr]; rfl

/-- UTF-8 has only one encoding per string: re-encoding decoded bytes gives the same bytes. -/
theorem utf8Enc_dec (b : Bytes) (s : Str) (h : utf8Dec b = .ok s) : utf8Enc s = .ok b := by
  induction hn : b.length using Nat.strongRecOn generalizing b s with
  | ind n ih =>
    subst hn
    cases b with
    | nil => simp [utf8Dec] at h; subst h; rfl
    | cons a r =>
      rw [utf8Dec.eq_def] at h
      simp only at h
      split at h
      · rename_i h1
        obtain ⟨s', hs', h'⟩ := res_bind_ok.mp h
        cases h'
        have := ih r.length (by simp) r s' hs' rfl
        exact utf8Enc_cons (bc := [a]) (by simp [utf8EncChar, h1]) this
      · split at h
        · rename_i h1 h2
          simp only [Bool.and_eq_true, decide_eq_true_eq] at h2
          split at h
          · rename_i b0 r0
            split at h
            · rename_i hc
              simp only [isCont, Bool.and_eq_true, decide_eq_true_eq] at hc
              obtain ⟨s', hs', h'⟩ := res_bind_ok.mp h
              cases h'
              have := ih r0.length (by simp; omega) r0 s' hs' rfl
              refine utf8Enc_cons (bc := [a, b0]) ?_ this
              have v1 : ¬ ((a - 0xC0) * 64 + (b0 - 0x80) < 0x80) := by omega
              have v2 : (a - 0xC0) * 64 + (b0 - 0x80) < 0x800 := by omega
              have v3 : 0xC0 + ((a - 0xC0) * 64 + (b0 - 0x80)) / 64 = a := by omega
              have v4 : 0x80 + ((a - 0xC0) * 64 + (b0 - 0x80)) % 64 = b0 := by omega
              simp only [utf8EncChar, if_neg v1, if_pos v2, v3, v4]
            · cases h
          · cases h
        · split at h
          · rename_i h1 h2 h3
            simp only [Bool.and_eq_true, decide_eq_true_eq] at h3
            split at h
            · rename_i b0 c0 r0
              split at h
              · rename_i hc
                simp only [isCont, isSurr, Bool.and_eq_true, Bool.not_eq_true', decide_eq_true_eq] at hc
                obtain ⟨s', hs', h'⟩ := res_bind_ok.mp h
                cases h'
                have := ih r0.length (by simp; omega) r0 s' hs' rfl
                refine utf8Enc_cons (bc := [a, b0, c0]) ?_ this
                generalize hv : (a - 0xE0) * 4096 + (b0 - 0x80) * 64 + (c0 - 0x80) = v at hc
                have v1 : ¬ (v < 0x80) := by omega
                have v2 : ¬ (v < 0x800) := by omega
                have vs : isSurr v = false := by simpa [isSurr] using hc.2
                have v3 : v < 0x10000 := by omega
                have e1 : 0xE0 + v / 4096 = a := by omega
                have e2 : 0x80 + v / 64 % 64 = b0 := by omega
                have e3 : 0x80 + v % 64 = c0 := by omega
                simp only [utf8EncChar, if_neg v1, if_neg v2, vs, if_pos v3, e1, e2, e3, Bool.false_eq_true, if_false]
              · cases h
            · cases h
          · split at h
            · rename_i h1 h2 h3 h4
              simp only [Bool.and_eq_true, decide_eq_true_eq] at h4
              split at h
              · rename_i b0 c0 d0 r0
                split at h
                · rename_i hc
                  simp only [isCont, Bool.and_eq_true, decide_eq_true_eq] at hc
                  obtain ⟨s', hs', h'⟩ := res_bind_ok.mp h
                  cases h'
                  have := ih r0.length (by simp; omega) r0 s' hs' rfl
                  refine utf8Enc_cons (bc := [a, b0, c0, d0]) ?_ this
                  generalize hv : (a - 0xF0) * 262144 + (b0 - 0x80) * 4096 + (c0 - 0x80) * 64 + (d0 - 0x80) = v at hc
                  have v1 : ¬ (v < 0x80) := by omega
                  have v2 : ¬ (v < 0x800) := by omega
                  have vs : isSurr v = false := by simp [isSurr]; omega
                  have v3 : ¬ (v < 0x10000) := by omega
                  have v4 : v ≤ 0x10FFFF := by omega
                  have e1 : 0xF0 + v / 262144 = a := by omega
                  have e2 : 0x80 + v / 4096 % 64 = b0 := by omega
                  have e3 : 0x80 + v / 64 % 64 = c0 := by omega
                  have e4 : 0x80 + v % 64 = d0 := by omega
                  simp only [utf8EncChar, if_neg v1, if_neg v2, vs, if_neg v3, if_pos v4, e1, e2, e3, e4, Bool.false_eq_true, if_false]
                · cases h
              · cases h
            · cases h

end HS
