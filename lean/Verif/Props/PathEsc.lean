import Verif.Lemmas.PathEsc
/-
C01–C04: path escaping.
-/
namespace HS
open Spec

/-- C01. Escaping never raises and unescaping the result gives the original, for every `str`
(any code points, NULs and lone surrogates included). -/
theorem C01_unescape_escape (p : Str) :
    ∃ e, escapePath p = .ok e ∧ unescapePath e = .ok p := by
  refine ⟨_, escapePath_eq p, ?_⟩
  obtain ⟨ts, h1, h2, h3, h4⟩ := tokenize_escape p _ (escapePath_eq p)
  rw [unescapePath_exact, h1]
  simp only [h3, if_true]
  rw [collapse_render _ (tokenize_lit_ne _ _ h1) h4, h2]

-- A dot-leading name with slash, NUL, backslash and a lone surrogate.
example : escapePath [46, 46, 47, 0, 92, 0xD800, 46] =
    .ok (p!"\\x2e\\x2e\\x2f\\x00\\\\" ++ [0xD800, 46]) := by decide

/-- C02. The escaped name has no slash and no NUL, does not start with a full stop, and is empty
only for the empty string: it is one ordinary link name. -/
theorem C02_escaped_cannot_navigate (p e : Str) (h : escapePath p = .ok e) :
    47 ∉ e ∧ 0 ∉ e ∧ e.head? ≠ some 46 ∧ (e = [] ↔ p = []) := by
  rw [escapePath_eq] at h
  injection h with h
  subst h
  have htd : p.takeWhile (· == dot) ++ p.dropWhile (· == dot) = p := List.takeWhile_append_dropWhile
  have hesc : ∀ c x, x ∈ escChar c → x ≠ 47 ∧ x ≠ 0 := by
    intro c x hx
    simp only [escChar] at hx
    split at hx
    · simp at hx; omega
    split at hx
    · simp at hx; omega
    split at hx
    · simp at hx; omega
    · simp at hx; subst hx; rename_i h1 h2 h3; exact ⟨h2, h1⟩
  have hne : ∀ c, escChar c ≠ [] := by
    intro c; simp only [escChar]; split; · simp
    split; · simp
    split <;> simp
  have hmem : ∀ x, x ∈ (p.takeWhile (· == dot)).flatMap (fun _ => p!"\\x2e") ++
      (p.dropWhile (· == dot)).flatMap escChar → x ≠ 47 ∧ x ≠ 0 := by
    intro x hx
    rcases List.mem_append.mp hx with hx | hx
    · obtain ⟨_, _, hx⟩ := List.mem_flatMap.mp hx
      simp at hx; omega
    · obtain ⟨c, _, hx⟩ := List.mem_flatMap.mp hx
      exact hesc c x hx
  refine ⟨fun hx => (hmem _ hx).1 rfl, fun hx => (hmem _ hx).2 rfl, ?_, ?_⟩
  · cases p with
    | nil => simp
    | cons c r =>
      by_cases hc : c = dot
      · subst hc; simp
      · have : (c == dot) = false := by simpa using hc
        simp only [List.takeWhile_cons, List.dropWhile_cons, this]
        simp only [Bool.false_eq_true, if_false, List.flatMap_nil, List.nil_append, List.flatMap_cons]
        simp only [escChar]
        split; · simp
        split; · simp
        split; · simp
        · simpa using hc
  · constructor
    · intro h
      rw [List.append_eq_nil_iff, List.flatMap_eq_nil_iff, List.flatMap_eq_nil_iff] at h
      rw [← htd]
      rw [List.append_eq_nil_iff]
      constructor
      · cases hh : p.takeWhile (· == dot) with
        | nil => rfl
        | cons a l => exact absurd (h.1 a (by simp [hh])) (by simp)
      · cases hh : p.dropWhile (· == dot) with
        | nil => rfl
        | cons a l => exact absurd (h.2 a (by simp [hh])) (hne a)
    · rintro rfl; rfl

-- The hypothesis is met by every string: escaping never fails (`C01`); e.g. the name `..`.
example : escapePath p!".." = .ok p!"\\x2e\\x2e" := by decide

/-- C03. Escaping is injective. -/
theorem C03_escape_injective (p q : Str) (h : escapePath p = escapePath q) : p = q := by
  obtain ⟨e, h1, h2⟩ := C01_unescape_escape p
  obtain ⟨e', h1', h2'⟩ := C01_unescape_escape q
  rw [h1, h1'] at h
  injection h with h
  subst h
  rw [h2] at h2'
  exact Except.ok.inj h2'

/-- C04 (partial). `unescape_path` is the documented grammar on every string in which no hex escape
decodes to a backslash; every error is `ValueError`.  Missing: strings with an escape such as `\x5c`
(`C04_counterexample`, finding F1). -/
theorem C04_unescape_grammar_partial (s : Str)
    (h : ∀ ts, tokenize s = some ts → Tok.hex 92 ∉ ts) : unescapePath s = Spec.unescape s := by
  rw [unescapePath_exact, Spec.unescape]
  cases hs : tokenize s with
  | none => rfl
  | some ts => dsimp only; rw [collapse_render _ (tokenize_lit_ne _ _ hs) (h ts hs)]

example : ∀ ts, tokenize p!"a\\\\b\\x41\\u00e9" = some ts → Tok.hex 92 ∉ ts := by
  intro ts h
  have h' : tokenize p!"a\\\\b\\x41\\u00e9" =
    some [.lit 97, .dbl, .lit 98, .hex 65, .hex 233] := by decide
  rw [h'] at h; injection h with h; subst h; decide

/-- C04, invalid input: for every string, also those with escaped backslashes, `unescape_path` raises
`ValueError` exactly when the grammar rejects it, and never raises anything else. -/
theorem C04_unescape_errors (s : Str) :
    (∃ t, unescapePath s = .ok t) ↔ ∃ t, Spec.unescape s = .ok t := by
  rw [unescapePath_exact, Spec.unescape]
  cases tokenize s with
  | none => simp
  | some ts => dsimp only; split <;> simp

theorem C04_only_valueError (s : Str) (e : Exc) (h : unescapePath s = .error e) : e = .valueError := by
  rw [unescapePath_exact] at h
  split at h
  · injection h with h; exact h.symm
  · split at h
    · cases h
    · injection h with h; exact h.symm

example : unescapePath p!"\\x4" = .error .valueError := by decide

/-- C04. What `tokenize` takes for hexadecimal digits are the digits and letters a to f in both cases, and the numbers are those written in base 16. -/
theorem C04_hexadecimal (c : Nat) : (isHex c = true ↔ ∃ d, HexDigit c d) ∧ intHex [] = 0 ∧ ∀ (s : Str) (d : Nat), HexDigit c d → intHex (s ++ [c]) = 16 * intHex s + d := by
  have key : ∀ d, HexDigit c d → isHex c = true ∧ hexVal c = d := by
    intro d hd
    have hlt : d < 16 := by
      rcases hd with hd | hd
      · exact (List.getElem?_eq_some_iff.mp hd).1
      · exact (List.getElem?_eq_some_iff.mp hd).1
    have : ∀ d, d < 16 → ∀ c, (p!"0123456789abcdef"[d]? = some c ∨ p!"0123456789ABCDEF"[d]? = some c) → isHex c = true ∧ hexVal c = d := by
      intro d hd c hc
      have h1 : ∀ d : Fin 16, (p!"0123456789abcdef"[d.val]?).any (fun c => isHex c && hexVal c == d.val) = true ∧
        (p!"0123456789ABCDEF"[d.val]?).any (fun c => isHex c && hexVal c == d.val) = true := by decide
      have h2 := h1 ⟨d, hd⟩
      dsimp only at h2
      rcases hc with hc | hc
      · rw [hc] at h2; simpa using h2.1
      · rw [hc] at h2; simpa using h2.2
    exact this d hlt c hd
  refine ⟨⟨?_, fun ⟨d, hd⟩ => (key d hd).1⟩, rfl, ?_⟩
  · intro h
    have h1 : c < 103 := by
      simp only [isHex, Bool.or_eq_true, Bool.and_eq_true, decide_eq_true_eq] at h
      omega
    have h2 : ∀ c : Fin 103, isHex c.val = true → HexDigit c.val (hexVal c.val) := by unfold HexDigit; decide
    exact ⟨_, h2 ⟨c, h1⟩ h⟩
  · intro s d hd
    unfold intHex
    rw [List.foldl_append, List.foldl_cons, List.foldl_nil, (key d hd).2]

-- Upper and lower case.
example : HexDigit 66 11 ∧ HexDigit 98 11 ∧ intHex p!"1b" = 27 ∧ intHex p!"1B" = 27 := by unfold HexDigit; decide

/-- F1: two escaped backslashes come out as one, so the full C04 is false of the code. -/
theorem C04_counterexample :
    unescapePath p!"\\x5c\\x5c" = .ok [92] ∧ Spec.unescape p!"\\x5c\\x5c" = .ok [92, 92] := by
  decide

end HS
