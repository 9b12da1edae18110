import Verif.Model.Heap
/-
Hexadecimal names.
-/
namespace HS

/-- Value of a lower case hexadecimal digit. -/
def hexDigVal (c : Nat) : Nat := if c < 87 then c - 48 else c - 87

theorem hexDigVal_hexDigit (n : Nat) (h : n < 16) : hexDigVal (hexDigit n) = n := by
  unfold hexDigVal hexDigit
  by_cases h1 : n < 10
  · rw [if_pos h1, if_pos (by omega)]; omega
  · rw [if_neg h1, if_neg (by omega)]; omega

theorem hexDigit_ne (n : Nat) (h : n < 16) : hexDigit n ≠ dot ∧ hexDigit n ≠ slash ∧ hexDigit n < 128 := by
  unfold hexDigit dot slash
  by_cases h1 : n < 10
  · rw [if_pos h1]; omega
  · rw [if_neg h1]; omega

/-- Value of a hexadecimal text. -/
def hexOf (s : Str) : Nat := s.foldl (fun a c => 16 * a + hexDigVal c) 0

theorem hexOf_snoc (s : Str) (c : Nat) : hexOf (s ++ [c]) = 16 * hexOf s + hexDigVal c := by
  simp [hexOf, List.foldl_append]

theorem hexOf_go (f n : Nat) (h : n ≤ f) : hexOf (hexGo f n) = n := by
  induction f generalizing n with
  | zero =>
    have : n = 0 := by omega
    subst this; rfl
  | succ f ih =>
    rw [hexGo]
    by_cases hn : n < 16
    · rw [if_pos hn]
      show 16 * 0 + hexDigVal (hexDigit n) = n
      rw [hexDigVal_hexDigit n hn]; omega
    · rw [if_neg hn, hexOf_snoc, ih (n / 16) (by omega), hexDigVal_hexDigit _ (by omega)]; omega

theorem hexOf_hexStr (n : Nat) : hexOf (hexStr n) = n := hexOf_go n n (Nat.le_refl n)

theorem hexStr_inj {a b : Nat} (h : hexStr a = hexStr b) : a = b := by
  rw [← hexOf_hexStr a, ← hexOf_hexStr b, h]

theorem hexOf_fixed (w v : Nat) (h : v < 16 ^ w) : hexOf (hexFixed w v) = v := by
  induction w generalizing v with
  | zero => simp at h; subst h; rfl
  | succ w ih =>
    rw [hexFixed, hexOf_snoc, ih (v / 16) (by rw [Nat.pow_succ] at h; omega), hexDigVal_hexDigit _ (by omega)]; omega

theorem hexFixed_length (w v : Nat) : (hexFixed w v).length = w := by
  induction w generalizing v with
  | zero => rfl
  | succ w ih => rw [hexFixed, List.length_append, ih]; rfl

theorem hexGo_mem (f n : Nat) : ∀ c ∈ hexGo f n, ∃ d, d < 16 ∧ c = hexDigit d := by
  induction f generalizing n with
  | zero => intro c hc; simp [hexGo] at hc; exact ⟨n % 16, by omega, hc⟩
  | succ f ih =>
    intro c hc
    rw [hexGo] at hc
    split at hc
    · simp at hc; exact ⟨n, by assumption, hc⟩
    · rw [List.mem_append] at hc
      rcases hc with hc | hc
      · exact ih _ c hc
      · simp at hc; exact ⟨n % 16, by omega, hc⟩

theorem hexFixed_mem (w v : Nat) : ∀ c ∈ hexFixed w v, ∃ d, d < 16 ∧ c = hexDigit d := by
  induction w generalizing v with
  | zero => intro c hc; simp [hexFixed] at hc
  | succ w ih =>
    intro c hc
    rw [hexFixed, List.mem_append] at hc
    rcases hc with hc | hc
    · exact ih _ c hc
    · simp at hc; exact ⟨v % 16, by omega, hc⟩

theorem hexStr_ne_nil (n : Nat) : hexStr n ≠ [] := by
  unfold hexStr
  cases n with
  | zero => simp [hexGo]
  | succ n => rw [hexGo]; split <;> simp

theorem hexStr_ne_dot (n : Nat) : hexStr n ≠ [dot] := by
  intro h
  obtain ⟨d, hd, he⟩ := hexGo_mem n n dot (by show dot ∈ hexStr n; rw [h]; simp)
  exact (hexDigit_ne d hd).1 he.symm

theorem hexStr_a {c : Nat} (h : p!"a" = hexStr c) : c = 10 := by
  have : hexStr 10 = p!"a" := by decide +kernel
  exact hexStr_inj (h.symm.trans this.symm)

theorem randName_ne_dot (x : Ctx) (i : Nat) : randName x i ≠ [dot] := by
  intro h
  have := hexFixed_length 16 (x.rng i % 2 ^ 64)
  rw [show hexFixed 16 (x.rng i % 2 ^ 64) = [dot] from h] at this
  simp at this

theorem randName_ne_a (x : Ctx) (i : Nat) : randName x i ≠ p!"a" := by
  intro h
  have := hexFixed_length 16 (x.rng i % 2 ^ 64)
  rw [show hexFixed 16 (x.rng i % 2 ^ 64) = p!"a" from h] at this
  simp at this

theorem randName_inj (x : Ctx) {i j : Nat} (h : randName x i = randName x j) : x.rng i % 2 ^ 64 = x.rng j % 2 ^ 64 := by
  have hi := hexOf_fixed 16 (x.rng i % 2 ^ 64) (Nat.mod_lt _ (by decide))
  have hj := hexOf_fixed 16 (x.rng j % 2 ^ 64) (Nat.mod_lt _ (by decide))
  rw [← hi, ← hj]
  exact congrArg hexOf h

end HS
