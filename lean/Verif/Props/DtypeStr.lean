import Verif.Lemmas.DtypeNp
import Verif.Props.RoundTrip
/-
C65: `np.dtype` objects.
-/
namespace HS
open Spec

/-- C65 (partial). The text `convert_dtype_to_str` gives for a dtype, passed through `ast.literal_eval`, recreates it: any nesting of structures (with or without gaps
between the fields, fields in any order) and subarrays, any names.  Missing: dtypes of the scalar type `np.record` (finding F55, see `C65_counterexample`); dtypes made with
`align=True` and titles of fields with gaps between them are not modelled. -/
theorem C65_recreated_partial (pr : Nat → Bool) {dt : NDt} (h : PlainDt dt) : dtypeOfText (convertDtypeToStr pr dt) = .ok dt := dtype_text pr h

/-- C65 (partial). A `np.dtype` written to an unused place reads back as the same dtype: the text reads back, and recreates the dtype.  Missing: as above. -/
theorem C65_file_partial {pr : Nat → Bool} (hp : PrintOk pr) {dt : NDt} (h : PlainDt dt) {x : Ctx} (ho : RtOpts x.o) {n : Nat} {F F' : FileS} {p : PathArg} {ns : List Str}
    (hw : WroteNew x n F p ns (.dtypeObj (convertDtypeToStr pr dt)) F') :
    ∃ s, ReadsBack x n F'.st.heap ns (.dtypeObj s) ∧ dtypeOfText s = .ok dt := by
  refine ⟨_, file_rt ho hw (.dtypeObj _ (fun c hc => (dtype_chars hp h c hc).2) fun e => ?_), dtype_text pr h⟩
  exact (dtype_chars hp h 0 (List.mem_of_getLast? e)).1 rfl

/-- C65. Different dtypes have different texts. -/
theorem C65_injective (pr : Nat → Bool) {dt dt' : NDt} (h : PlainDt dt) (h' : PlainDt dt') (e : convertDtypeToStr pr dt = convertDtypeToStr pr dt') : dt = dt' := by
  have h1 := dtype_text pr h
  rw [e, dtype_text pr h'] at h1
  injection h1 with h1
  exact h1.symm

/-- C65. The texts of the number types are their names in quotes, or the code with the byte order if it is not the native one, and each is recreated from its text. -/
theorem C65_numbers (pr : Nat → Bool) : ∀ t ∈ numberTypes, ∃ b, (b = true ↔ t.2.1 ≠ 1) ∧
    convertDtypeToStr pr (.sc (.num t.1 t.2.1 false)) = p!"'" ++ t.2.2 ++ p!"'" ∧ (NDt.sc (.num t.1 t.2.1 false)).size = t.2.1 ∧
    dtypeOfText (p!"'" ++ t.2.2 ++ p!"'") = .ok (.sc (.num t.1 t.2.1 false)) ∧
    (b = true → convertDtypeToStr pr (.sc (.num t.1 t.2.1 true)) = p!"'>" ++ [t.1] ++ decDigits t.2.1 ++ p!"'" ∧
      dtypeOfText (p!"'>" ++ [t.1] ++ decDigits t.2.1 ++ p!"'") = .ok (.sc (.num t.1 t.2.1 true))) := by
  intro t ht
  have hp : PlainDt (.sc (.num t.1 t.2.1 false)) := ⟨⟨t.2.2, ht⟩, fun _ => rfl⟩
  have h1 : convertDtypeToStr pr (.sc (.num t.1 t.2.1 false)) = p!"'" ++ t.2.2 ++ p!"'" :=
    (by decide +kernel : ∀ t ∈ numberTypes, convertDtypeToStr (fun _ => false) (.sc (.num t.1 t.2.1 false)) = p!"'" ++ t.2.2 ++ p!"'") t ht
  refine ⟨t.2.1 != 1, by simp, h1, rfl, by rw [← h1]; exact C65_recreated_partial pr hp, fun hb => ?_⟩
  have h2 : convertDtypeToStr pr (.sc (.num t.1 t.2.1 true)) = p!"'>" ++ [t.1] ++ decDigits t.2.1 ++ p!"'" :=
    (by decide +kernel : ∀ t ∈ numberTypes, convertDtypeToStr (fun _ => false) (.sc (.num t.1 t.2.1 true)) = p!"'>" ++ [t.1] ++ decDigits t.2.1 ++ p!"'") t ht
  refine ⟨h2, ?_⟩
  rw [← h2]
  refine C65_recreated_partial pr ⟨⟨t.2.2, ht⟩, fun h => ?_⟩
  rw [h] at hb
  cases hb

/-- C65. So are those of `bool`, `object`, bytes and text; the sizes are those numpy has for them. -/
theorem C65_others (pr : Nat → Bool) (n : Nat) : convertDtypeToStr pr (.sc .bool) = p!"'bool'" ∧ (NDt.sc .bool).size = 1 ∧ convertDtypeToStr pr (.sc .object) = p!"'object'" ∧
    (NDt.sc .object).size = 8 ∧ convertDtypeToStr pr (.sc (.bytes n)) = p!"'|S" ++ decDigits n ++ p!"'" ∧ (NDt.sc (.bytes n)).size = n ∧
    convertDtypeToStr pr (.sc (.str n false)) = p!"'<U" ++ decDigits n ++ p!"'" ∧ (NDt.sc (.str n false)).size = 4 * n ∧
    convertDtypeToStr pr (.sc (.void n)) = p!"'|V" ++ decDigits n ++ p!"'" ∧ (NDt.sc (.void n)).size = n :=
  ⟨rfl, rfl, rfl, rfl, rfl, rfl, rfl, rfl, rfl, rfl⟩

/-- C65. The name of a field is written in single quotes, in double quotes if there is a single but no double quote in it (printable ASCII without backslashes). -/
theorem C65_names (pr : Nat → Bool) {s : Str} (h : ∀ c ∈ s, 32 ≤ c ∧ c < 127 ∧ c ≠ 92) :
    (39 ∉ s → convertDtypeToStr pr (.st false (.cons s none (.sc .bool) 0 .nil) 1) = p!"[('" ++ s ++ p!"', '?')]") ∧
    (39 ∈ s → 34 ∉ s → convertDtypeToStr pr (.st false (.cons s none (.sc .bool) 0 .nil) 1) = p!"[(\"" ++ s ++ p!"\", '?')]") := by
  have key : ∀ q, q ∉ s → s.flatMap (reprChar pr q) = s := by
    intro q hq
    induction s with
    | nil => rfl
    | cons c s ih =>
      have hc := h c (by simp)
      rw [List.flatMap_cons, ih (fun d hd => h d (by simp [hd])) (by simp_all)]
      have : reprChar pr q c = [c] := by
        unfold reprChar
        rw [if_neg (by simp only [List.mem_cons, not_or] at hq; omega), if_neg (by omega), if_neg (by omega), if_neg (by omega), if_neg (by omega), if_pos (by omega)]
      rw [this]
      rfl
  have hq : pyRepr pr p!"?" = p!"'?'" := by
    unfold pyRepr
    rfl
  refine ⟨fun h1 => ?_, fun h1 h2 => ?_⟩
  · have hr : pyRepr pr s = p!"'" ++ s ++ p!"'" := by
      unfold pyRepr
      rw [if_neg (fun h => h1 h.1)]
      dsimp only
      rw [key 39 h1]
    show p!"[" ++ ((p!"(" ++ (pyRepr pr s ++ (p!", " ++ pyRepr pr p!"?" ++ [])) ++ [] ++ p!")") ++ []) ++ p!"]" = _
    rw [hr, hq]
    simp
  · have hr : pyRepr pr s = p!"\"" ++ s ++ p!"\"" := by
      unfold pyRepr
      rw [if_pos ⟨h1, h2⟩]
      dsimp only
      rw [key 34 h2]
    show p!"[" ++ ((p!"(" ++ (pyRepr pr s ++ (p!", " ++ pyRepr pr p!"?" ++ [])) ++ [] ++ p!")") ++ []) ++ p!"]" = _
    rw [hr, hq]
    simp

/-- A dtype for the example: a number, a subarray with a title and a quote in its name, and a nested structure with a gap. -/
def exDt : NDt :=
  .st false (.cons p!"n" none (.sc (.num 105 4 false)) 0 (.cons p!"it's" (some p!"t\n") (.sub (.sc (.num 102 8 true)) [2, 3]) 4
    (.cons p!"s" none (.st false (.cons p!"a" none (.sc (.str 3 false)) 4 (.cons p!"b" none (.sc (.time true (some p!"ns") false)) 16 .nil)) 32) 52 .nil))) 84

theorem ex_dt_plain : PlainDt exDt := by
  simp only [exDt, PlainDt, PlainFs, NoTitles, FieldText]
  refine ⟨trivial, ⟨by decide, by decide, by simp, ⟨⟨p!"int32", by decide⟩, by decide⟩, by decide, by decide, ?_, ⟨⟨⟨p!"float64", by decide⟩, by decide⟩, by simp⟩, by decide, by decide, by simp,
    ⟨trivial, ⟨by decide, by decide, by simp, trivial, by decide, by decide, by simp, ?_, trivial⟩, fun _ => by simp⟩, trivial⟩, fun h => absurd h (by decide)⟩
  · intro s e; cases e; decide
  · show ∀ c ∈ p!"ns", _; decide

/-- The characters Python takes as printable, for the examples: none but ASCII. -/
def exPr (_ : Nat) : Bool := false

theorem ex_printOk : PrintOk exPr := fun _ h => by cases h

/-- What is stored for the example. -/
example : convertDtypeToStr exPr exDt =
    p!"[('n', '<i4'), (('t\\n', \"it's\"), '>f8', (2, 3)), ('s', {'names': ['a', 'b'], 'formats': ['<U3', '<m8[ns]'], 'offsets': [4, 16], 'itemsize': 32})]" := by decide +kernel

example : PlainDt exDt ∧ PrintOk exPr ∧ RtOpts exX.o ∧ ExWrites (.dtypeObj (convertDtypeToStr exPr exDt)) :=
  ⟨ex_dt_plain, ex_printOk, ex_rtOpts, ex_writes _ (by decide +kernel) (by decide +kernel)⟩

/-- The dtype of a recarray with one field. -/
def exRecDt : NDt := .st true (.cons p!"n" none (.sc (.num 105 4 false)) 0 .nil) 4

/-- C65. The dtype of a recarray can be written, but `ast.literal_eval` refuses what was written, so reading raises ValueError (F55). -/
theorem C65_counterexample : ExWrites (.dtypeObj (convertDtypeToStr exPr exRecDt)) ∧ convertDtypeToStr exPr exRecDt = p!"(numpy.record, [('n', '<i4')])" ∧
    (∃ e, dtypeOfText (convertDtypeToStr exPr exRecDt) = .error e ∧ e = .valueError) :=
  ⟨ex_writes _ (by decide +kernel) (by decide +kernel), by decide +kernel, _, rfl, by decide +kernel⟩

end HS
