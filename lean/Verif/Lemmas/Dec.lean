import Verif.Model.Read
import Verif.Lemmas.Unicode
/-
Decimal texts and dtype names.
-/
namespace HS

theorem foldl_dec_append (l r : Str) (a : Nat) :
    (l ++ r).foldl (fun a c => 10 * a + (c - 48)) a = r.foldl (fun a c => 10 * a + (c - 48)) (l.foldl (fun a c => 10 * a + (c - 48)) a) := by
  rw [List.foldl_append]

theorem decGo_spec (f n : Nat) (h : n ≤ f) : (decGo f n).foldl (fun a c => 10 * a + (c - 48)) 0 = n ∧ (decGo f n) ≠ [] ∧
    ∀ c ∈ decGo f n, 48 ≤ c ∧ c ≤ 57 := by
  induction f generalizing n with
  | zero =>
    have : n = 0 := by omega
    subst this
    exact ⟨rfl, by simp [decGo], by simp [decGo]⟩
  | succ f ih =>
    rw [decGo]
    by_cases hn : n < 10
    · rw [if_pos hn]
      refine ⟨by simp, by simp, ?_⟩
      intro c hc; simp at hc; omega
    · rw [if_neg hn]
      obtain ⟨h1, h2, h3⟩ := ih (n / 10) (by omega)
      refine ⟨?_, by simp, ?_⟩
      · rw [foldl_dec_append, h1]; simp; omega
      · intro c hc
        rw [List.mem_append] at hc
        rcases hc with hc | hc
        · exact h3 c hc
        · simp at hc; omega

theorem natOfDec_decDigits (n : Nat) : natOfDec (decDigits n) = .ok n := by
  obtain ⟨h1, h2, h3⟩ := decGo_spec n n (Nat.le_refl n)
  have hc : ((decDigits n).isEmpty || !(decDigits n).all (fun c => 48 ≤ c && c ≤ 57)) = false := by
    have ha : (decDigits n).all (fun c => 48 ≤ c && c ≤ 57) = true := by
      rw [List.all_eq_true]; intro c hc
      have := h3 c hc
      simp [this]
    have he : (decDigits n).isEmpty = false := by
      cases hd : decDigits n with
      | nil => exact absurd hd h2
      | cons _ _ => rfl
    rw [ha, he]; rfl
  rw [natOfDec, hc]
  simp only [Bool.false_eq_true, if_false]
  rw [show decDigits n = decGo n n from rfl, h1]

theorem startsWith_append (p s : Str) : startsWith (p ++ s) p = true := by
  simp [startsWith]

theorem name_bytes_succ (n : Nat) (h : 0 < n) : (DT.bytes n).name = p!"bytes" ++ decDigits (8 * n) := by
  cases n with
  | zero => omega
  | succ n => rfl
theorem name_str_succ (n : Nat) (h : 0 < n) : (DT.str n).name = p!"str" ++ decDigits (32 * n) := by
  cases n with
  | zero => omega
  | succ n => rfl

theorem decDigits_ne_nil (n : Nat) : decDigits n ≠ [] := (decGo_spec n n (Nat.le_refl n)).2.1
theorem decDigits_range (n : Nat) : ∀ c ∈ decDigits n, 48 ≤ c ∧ c ≤ 57 := (decGo_spec n n (Nat.le_refl n)).2.2

theorem intOfDec_intDec (v : Int) : intOfDec (intDec v) = .ok v := by
  unfold intDec
  by_cases hv : v < 0
  · rw [if_pos hv, intOfDec, natOfDec_decDigits]
    show Except.ok (-(v.natAbs : Int)) = _
    congr 1; omega
  · rw [if_neg hv]
    have hne := decDigits_ne_nil v.natAbs
    have hr := decDigits_range v.natAbs
    have hn := natOfDec_decDigits v.natAbs
    cases hd : decDigits v.natAbs with
    | nil => exact absurd hd hne
    | cons c r =>
      rw [hd] at hr hn
      have hc := hr c (by simp)
      have : c ≠ 45 := by omega
      rw [intOfDec.eq_def]
      split
      · rename_i heq; simp at heq; omega
      · rw [hn]
        show Except.ok (v.natAbs : Int) = _
        congr 1; omega

end HS
