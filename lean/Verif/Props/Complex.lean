import Verif.Model.Complex
import Verif.Spec.Opts
/-
C21: complex encode/decode.
-/
namespace HS

/-- Complex data: complex dtype, complex elements. -/
def Spec.IsComplex (a : Arr) : Prop := (a.dt = .c64 ∨ a.dt = .c128) ∧ ∀ e ∈ a.data, ∃ r i, e = El.cplx r i

theorem mem_realFields (s : Str) : lowerAscii s ∈ realFields ↔ Spec.RealName s := by simp [realFields, Spec.RealName]
theorem mem_imagFields (s : Str) : lowerAscii s ∈ imagFields ↔ Spec.ImagName s := by simp [imagFields, Spec.ImagName]

theorem real_not_imag (s : Str) (h : Spec.RealName s) : ¬ Spec.ImagName s := by
  unfold Spec.RealName at h; unfold Spec.ImagName
  rcases h with h | h | h <;> rw [h] <;> decide

theorem map_parts_id (l : List El) (h : ∀ e ∈ l, ∃ r i, e = El.cplx r i) :
    l.map (fun e => El.cplx (e.part false) (e.part true)) = l := by
  conv => rhs; rw [← List.map_id l]
  apply List.map_congr_left
  intro e he
  obtain ⟨r, i, rfl⟩ := h e he
  simp [El.part]

theorem fieldName_of_ne (s : Str) (p : Nat) (h : lowerAscii s ≠ []) : fieldName s p = s := by
  cases s with
  | nil => exact absurd rfl h
  | cons _ _ => rfl

theorem realName_ne (s : Str) (h : Spec.RealName s) : lowerAscii s ≠ [] := by
  rcases h with h | h | h <;> rw [h] <;> decide
theorem imagName_ne (s : Str) (h : Spec.ImagName s) : lowerAscii s ≠ [] := by
  rcases h with h | h | h | h <;> rw [h] <;> decide

/-- Decoding what was encoded with admissible names, in memory or through a file. -/
theorem decode_encode (z : Arr) (hz : Spec.IsComplex z) (re im : Str) (hr : Spec.RealName re) (hi : Spec.ImagName im) :
    ∃ e, encodeComplex z (re, im) = .ok e ∧ decodeComplex e = z ∧ decodeComplex (h5Read e) = z := by
  have hne : re ≠ im := fun h => real_not_imag re hr (h ▸ hi)
  have hni : ¬ Spec.RealName im := fun h => real_not_imag im h hi
  have f0 := fieldName_of_ne re 0 (realName_ne re hr)
  have f1 := fieldName_of_ne im 1 (imagName_ne im hi)
  have pick : pickComplexNames [re, im] = (some re, some im) := by
    have h1 := (mem_realFields re).mpr hr
    have h2 := mt (mem_realFields im).mp hni
    have h3 := (mem_imagFields im).mpr hi
    simp only [pickComplexNames, List.foldl_cons, List.foldl_nil, if_pos h1, if_neg h2, if_pos h3]
  have b1 : (re == im) = false := by simpa using hne
  have b2 : (im == re) = false := by simpa using fun h => hne h.symm
  have dec : ∀ dbl, decodeComplex { z with dt := .crec re im dbl } = { z with dt := if dbl then .c128 else .c64 } := by
    intro dbl
    simp only [decodeComplex, pick, b1, b2, Bool.false_and, BEq.rfl, Bool.not_false, Bool.and_self]
    rw [map_parts_id z.data hz.2]
  have key : ∀ dbl, z.dt = (if dbl then .c128 else .c64) →
      decodeComplex { z with dt := .crec re im dbl } = z ∧ decodeComplex (h5Read { z with dt := .crec re im dbl }) = z := by
    intro dbl hd
    have e1 : ({ z with dt := if dbl then .c128 else .c64 } : Arr) = z := by cases z; simp_all
    refine ⟨by rw [dec, e1], ?_⟩
    simp only [h5Read]
    split
    · rw [e1]
      rcases hz.1 with h | h <;> rw [decodeComplex, h]
    · rw [dec, e1]
  rcases hz.1 with h | h
  · refine ⟨{ z with dt := .crec re im false }, ?_, key false h⟩
    simp [encodeComplex, f0, f1, hne, h]
  · refine ⟨{ z with dt := .crec re im true }, ?_, key true h⟩
    simp [encodeComplex, f0, f1, hne, h]

/-- C21.  For complex data of any shape and names out of (r, re, real) and (i, im, imag, imaginary) in any case, `decode_complex` inverts
`encode_complex`, also when the encoded data went through an HDF5 file in between.  Other names are accepted by the option but not decoded
(`C21_counterexample`, F12). -/
theorem C21_roundtrip_partial (z : Arr) (hz : Spec.IsComplex z) (re im : Str) (hr : Spec.RealName re) (hi : Spec.ImagName im) :
    ∃ e, encodeComplex z (re, im) = .ok e ∧ decodeComplex e = z ∧ decodeComplex (h5Read e) = z :=
  decode_encode z hz re im hr hi

/-- C21, second part: data that is not a compound of one real-named and one imaginary-named field is returned unchanged. -/
theorem C21_unchanged (a : Arr)
    (h : ∀ n0 n1 d, a.dt = .crec n0 n1 d → ¬ ((Spec.RealName n0 ∧ Spec.ImagName n1) ∨ (Spec.ImagName n0 ∧ Spec.RealName n1))) :
    decodeComplex a = a := by
  unfold decodeComplex
  split
  · rename_i n0 n1 dbl heq
    have hh := h n0 n1 dbl heq
    split
    · rename_i re im hp
      exfalso
      rw [← mem_realFields, ← mem_realFields, ← mem_imagFields, ← mem_imagFields] at hh
      simp only [pickComplexNames, List.foldl_cons, List.foldl_nil] at hp
      by_cases r0 : lowerAscii n0 ∈ realFields <;> by_cases i0 : lowerAscii n0 ∈ imagFields <;>
        by_cases r1 : lowerAscii n1 ∈ realFields <;>
        by_cases i1 : lowerAscii n1 ∈ imagFields <;> simp [r0, i0, r1, i1] at hp hh
    · rfl
  · rfl

/-- C21: the names the MATLAB setting forces are admissible. -/
theorem C21_matlab_names : Spec.RealName p!"real" ∧ Spec.ImagName p!"imag" := by
  constructor
  · exact Or.inr (Or.inr (by decide))
  · exact Or.inr (Or.inr (Or.inl (by decide)))

/-- C21 is false for other names the option accepts (F12): ('i', 'r') swaps the parts, ('x', 'y') is not decoded, ('a', 'a') cannot be written. -/
theorem C21_counterexample :
    (encodeComplex ⟨.c128, [], [.cplx 1 2]⟩ (p!"i", p!"r")).map decodeComplex = .ok ⟨.c128, [], [.cplx 2 1]⟩ ∧
    (encodeComplex ⟨.c128, [], [.cplx 1 2]⟩ (p!"x", p!"y")).map decodeComplex = .ok ⟨.crec p!"x" p!"y" true, [], [.cplx 1 2]⟩ ∧
    encodeComplex ⟨.c128, [], [.cplx 1 2]⟩ (p!"a", p!"a") = .error .valueError := by decide +kernel

example : Spec.IsComplex ⟨.c64, [2], [.cplx 1 2, .cplx 3 (-1)]⟩ ∧ Spec.RealName p!"Re" ∧ Spec.ImagName p!"IMAG" := by
  refine ⟨⟨Or.inl rfl, ?_⟩, Or.inr (Or.inl (by decide)), Or.inr (Or.inr (Or.inl (by decide)))⟩
  intro e he
  simp only [List.mem_cons, List.not_mem_nil, or_false] at he
  rcases he with rfl | rfl
  · exact ⟨1, 2, rfl⟩
  · exact ⟨3, -1, rfl⟩

end HS
