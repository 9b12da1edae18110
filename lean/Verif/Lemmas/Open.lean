import Verif.Spec.Open
import Verif.Lemmas.Dec
import Verif.Lemmas.Leaf
/-
The search for the superblock, overwriting the userblock, and the header's text.
-/
namespace HS
open Spec

theorem place_next {n m : Nat} (hn : SuperblockPlace n) (hm : SuperblockPlace m) (h : n < m) : (if n = 0 then 512 else 2 * n) ≤ m := by
  rcases hm with rfl | ⟨k, rfl⟩
  · omega
  have hk : 1 ≤ 2 ^ k := Nat.one_le_two_pow
  rcases hn with rfl | ⟨j, rfl⟩
  · simp; omega
  · have hj : 1 ≤ 2 ^ j := Nat.one_le_two_pow
    rw [if_neg (by omega)]
    have : j < k := by
      apply Decidable.byContradiction
      intro hc
      have : 2 ^ k ≤ 2 ^ j := Nat.pow_le_pow_right (by omega) (by omega)
      omega
    have : 2 ^ (j + 1) ≤ 2 ^ k := Nat.pow_le_pow_right (by omega) (by omega)
    rw [Nat.pow_succ] at this
    omega

theorem place_step {n : Nat} (hn : SuperblockPlace n) : SuperblockPlace (if n = 0 then 512 else 2 * n) := by
  rcases hn with rfl | ⟨j, rfl⟩
  · exact Or.inr ⟨0, by simp⟩
  · have hj : 1 ≤ 2 ^ j := Nat.one_le_two_pow
    rw [if_neg (by omega)]
    exact Or.inr ⟨j + 1, by rw [Nat.pow_succ]; omega⟩

theorem nosig_beyond {b : Bytes} {m : Nat} (h : b.length ≤ m) : (b.drop m).take 8 ≠ h5sig := by
  rw [List.drop_eq_nil_of_le h]
  simp [h5sig]

theorem findSig_iff {b : Bytes} (f n : Nat) (hn : SuperblockPlace n) (hf : b.length < f + n) (hs : ∀ m, SuperblockPlace m → m < n → (b.drop m).take 8 ≠ h5sig) (r : Nat) :
    findSig b f n = some r ↔ HasUserblock b r := by
  induction f generalizing n with
  | zero =>
    rw [findSig]
    constructor
    · intro h; cases h
    · rintro ⟨h1, h2, _⟩
      by_cases hr : r < n
      · exact absurd h2 (hs r h1 hr)
      · exact absurd h2 (nosig_beyond (by omega))
  | succ f ih =>
    rw [findSig]
    by_cases h : (b.drop n).take 8 = h5sig
    · rw [if_pos h]
      constructor
      · intro hr; cases hr; exact ⟨hn, h, hs⟩
      · rintro ⟨h1, h2, h3⟩
        congr 1
        apply Decidable.byContradiction
        intro hne
        rcases Nat.lt_or_gt_of_ne hne with hlt | hgt
        · exact h3 n hn hlt h
        · exact hs r h1 hgt h2
    · rw [if_neg h]
      by_cases hl : b.length ≤ n
      · rw [if_pos hl]
        constructor
        · intro h; cases h
        · rintro ⟨h1, h2, _⟩
          by_cases hr : r < n
          · exact absurd h2 (hs r h1 hr)
          · exact absurd h2 (nosig_beyond (by omega))
      · rw [if_neg hl]
        apply ih _ (place_step hn)
        · split <;> omega
        · intro m hm hlt
          by_cases h1 : m < n
          · exact hs m hm h1
          · by_cases h2 : m = n
            · subst h2; exact h
            · have := place_next hn hm (by omega)
              omega

theorem userblockSize_iff {b : Bytes} {n : Nat} : userblockSize b = some n ↔ HasUserblock b n :=
  findSig_iff _ _ (Or.inl rfl) (by omega) (by intro m _ h; omega) n

theorem userblock_unique {b : Bytes} {n m : Nat} (h1 : HasUserblock b n) (h2 : HasUserblock b m) : n = m := by
  have a := userblockSize_iff.mpr h1
  rw [userblockSize_iff.mpr h2] at a
  cases a; rfl

theorem userblock_len {b : Bytes} {n : Nat} (h : HasUserblock b n) : n < b.length := by
  apply Decidable.byContradiction
  intro hn
  exact nosig_beyond (by omega) h.2.1

theorem place_ge {n : Nat} (h : SuperblockPlace n) (h0 : n ≠ 0) : 512 ≤ n := by
  rcases h with rfl | ⟨j, rfl⟩
  · exact absurd rfl h0
  · have hj : 1 ≤ 2 ^ j := Nat.one_le_two_pow
    omega

theorem overwrite_length {b p : Bytes} (h : p.length ≤ b.length) : (overwrite b p).length = b.length := by
  unfold overwrite
  simp; omega

theorem overwrite_drop {b p : Bytes} {m : Nat} (h : p.length ≤ m) : (overwrite b p).drop m = b.drop m := by
  unfold overwrite
  rw [List.drop_append, List.drop_eq_nil_of_le h, List.nil_append, List.drop_drop]
  congr 1; omega

/-- Writing part of a header in the userblock does not affect the HDF5 file. -/
theorem overwrite_userblock {b p : Bytes} {n : Nat} (hb : HasUserblock b n) (hn : 128 ≤ n) (hp : p.length ≤ 128) (hM : ∀ c, p.head? = some c → c = 77) (m : Nat) :
    HasUserblock (overwrite b p) m ↔ HasUserblock b m := by
  have h0 : (b.drop 0).take 8 ≠ h5sig := hb.2.2 0 (Or.inl rfl) (by omega)
  have h0' : ((overwrite b p).drop 0).take 8 ≠ h5sig := by
    cases p with
    | nil => exact h0
    | cons c p =>
      have := hM c rfl
      subst this
      unfold overwrite h5sig
      simp
  have hsig : ∀ k, SuperblockPlace k → (((overwrite b p).drop k).take 8 = h5sig ↔ (b.drop k).take 8 = h5sig) := by
    intro k hk
    by_cases hk0 : k = 0
    · subst hk0
      exact ⟨fun h => absurd h h0', fun h => absurd h h0⟩
    · rw [overwrite_drop (by have := place_ge hk hk0; omega)]
  constructor
  · rintro ⟨h1, h2, h3⟩
    exact ⟨h1, (hsig m h1).mp h2, fun k hk hkm h => h3 k hk hkm ((hsig k hk).mpr h)⟩
  · rintro ⟨h1, h2, h3⟩
    exact ⟨h1, (hsig m h1).mpr h2, fun k hk hkm h => h3 k hk hkm ((hsig k hk).mp h)⟩

theorem decGo_length (k : Nat) : ∀ f n, n ≤ f → (k = 0 ∨ 10 ^ k ≤ n) → n < 10 ^ (k + 1) → (decGo f n).length = k + 1 := by
  induction k with
  | zero =>
    intro f n h1 _ h3
    cases f with
    | zero => rfl
    | succ f =>
      rw [decGo, if_pos (by simpa using h3)]; rfl
  | succ k ih =>
    intro f n h1 h2 h3
    have hk : 1 ≤ 10 ^ k := Nat.one_le_pow _ _ (by omega)
    rw [Nat.pow_succ] at h2
    have h2 : 10 ^ k * 10 ≤ n := h2.resolve_left (by omega)
    rw [Nat.pow_succ] at h3
    cases f with
    | zero => omega
    | succ f =>
      rw [decGo, if_neg (by omega), List.length_append, ih f (n / 10) (by omega) (Or.inr (by omega)) (by omega)]
      rfl

theorem decDigits_length4 {n : Nat} (h1 : 1000 ≤ n) (h2 : n ≤ 9999) : (decDigits n).length = 4 :=
  decGo_length 3 n n (Nat.le_refl _) (Or.inr (by simpa using h1)) (by simp; omega)

theorem dig2_value {n : Nat} (h : n < 100) : natOfDec (dig2 n) = .ok n := by
  unfold dig2 natOfDec
  have a1 : n / 10 % 10 ≤ 9 := by omega
  have a2 : n % 10 ≤ 9 := by omega
  have : (([48 + n / 10 % 10, 48 + n % 10] : Str).isEmpty || !([48 + n / 10 % 10, 48 + n % 10] : Str).all (fun c => 48 ≤ c && c ≤ 57)) = false := by
    simp
    omega
  rw [if_neg (by rw [this]; simp)]
  simp
  omega

theorem dig2_ascii {n : Nat} : ∀ c ∈ dig2 n, 32 ≤ c ∧ c < 127 := by
  intro c hc
  unfold dig2 at hc
  simp at hc
  omega

theorem weekday_text {i : Nat} (h : i < 7) : ∃ w, tupleGet weekdays i = .ok w ∧ dayNames[i]? = some w ∧ w.length = 3 ∧ ∀ c ∈ w, 32 ≤ c ∧ c < 127 := by
  match i, h with
  | 0, _ => exact ⟨_, rfl, rfl, rfl, by decide⟩
  | 1, _ => exact ⟨_, rfl, rfl, rfl, by decide⟩
  | 2, _ => exact ⟨_, rfl, rfl, rfl, by decide⟩
  | 3, _ => exact ⟨_, rfl, rfl, rfl, by decide⟩
  | 4, _ => exact ⟨_, rfl, rfl, rfl, by decide⟩
  | 5, _ => exact ⟨_, rfl, rfl, rfl, by decide⟩
  | 6, _ => exact ⟨_, rfl, rfl, rfl, by decide⟩

theorem month_text {i : Nat} (h : i < 12) : ∃ w, tupleGet months i = .ok w ∧ monthNames[i]? = some w ∧ w.length = 3 ∧ ∀ c ∈ w, 32 ≤ c ∧ c < 127 := by
  match i, h with
  | 0, _ => exact ⟨_, rfl, rfl, rfl, by decide⟩
  | 1, _ => exact ⟨_, rfl, rfl, rfl, by decide⟩
  | 2, _ => exact ⟨_, rfl, rfl, rfl, by decide⟩
  | 3, _ => exact ⟨_, rfl, rfl, rfl, by decide⟩
  | 4, _ => exact ⟨_, rfl, rfl, rfl, by decide⟩
  | 5, _ => exact ⟨_, rfl, rfl, rfl, by decide⟩
  | 6, _ => exact ⟨_, rfl, rfl, rfl, by decide⟩
  | 7, _ => exact ⟨_, rfl, rfl, rfl, by decide⟩
  | 8, _ => exact ⟨_, rfl, rfl, rfl, by decide⟩
  | 9, _ => exact ⟨_, rfl, rfl, rfl, by decide⟩
  | 10, _ => exact ⟨_, rfl, rfl, rfl, by decide⟩
  | 11, _ => exact ⟨_, rfl, rfl, rfl, by decide⟩

end HS
