import Verif.Props.RoundTrip
/-
C49: type strings of older versions.
-/
namespace HS
open Spec

/-- C49. Objects with the Python.Type 'int' or 'long' (older versions wrote both) are read alike: if two objects differ in this attribute only, they are read the same. -/
theorem C49_int_long (o : COpts) (V : View) (excl : Option Nat) (n p q : Nat) (a b : Obj) (ha : V p = some a) (hb : V q = some b) (hbody : a.body = b.body)
    (hat : ∀ k, k ≠ p!"Python.Type" → aget a.attrs k = aget b.attrs k) (h1 : attrToString (aget a.attrs p!"Python.Type") = .ok (some p!"int"))
    (h2 : attrToString (aget b.attrs p!"Python.Type") = .ok (some p!"long")) : readData o V excl n p = readData o V excl n q := by
  cases n with
  | zero => rfl
  | succ n =>
    rw [readData]
    dsimp only
    rw [ha, hb]
    dsimp only
    rw [h1, h2, hat p!"MATLAB_class" (by decide)]
    simp only [bind, Except.bind]
    cases attrToString (aget b.attrs p!"MATLAB_class") with
    | error e => rfl
    | ok mc =>
      dsimp only
      have hnp : readNp (looksMulti V) (readData o V excl n) o excl a = readNp (looksMulti V) (readData o V excl n) o excl b := by
        have hfin : ∀ u cont pf mc d, finish o a (some p!"int") u cont pf mc d = finish o b (some p!"long") u cont pf mc d := by
          intro u cont pf mc d
          unfold finish
          rw [hat p!"Python.Shape" (by decide), hat p!"MATLAB_fields" (by decide), hat p!"Python.Empty" (by decide), hat p!"MATLAB_empty" (by decide)]
          have hpy : ∀ u shape c e mc names d, pyFinish o p!"int" u shape c e mc names d = pyFinish o p!"long" u shape c e mc names d := fun _ _ _ _ _ _ _ => rfl
          cases u with
          | none => rfl
          | some u => cases aget b.attrs p!"Python.Shape" with
            | none => rfl
            | some sh =>
              dsimp only
              cases metaNames pf (aget b.attrs p!"MATLAB_fields") with
              | error e => rfl
              | ok names => cases sh <;> first | rfl | exact hpy _ _ _ _ _ _ _
        unfold readNp
        rw [h1, h2, hat p!"Python.numpy.UnderlyingType" (by decide), hat p!"Python.numpy.Container" (by decide), hat p!"Python.Fields" (by decide),
          hat p!"MATLAB_class" (by decide), hat p!"MATLAB_fields" (by decide), hbody]
        simp only [bind, Except.bind, hfin]
      have hsc : ∀ v, toScalar p!"int" v = toScalar p!"long" v := fun v => rfl
      show (readNp (looksMulti V) (readData o V excl n) o excl a >>= fun w => toScalar p!"int" w) = (readNp (looksMulti V) (readData o V excl n) o excl b >>= fun w => toScalar p!"long" w)
      rw [hnp]
      congr 1

/-- A number stored by an older version. -/
def exOld (ts : Str) : Obj := ⟨[(p!"Python.Type", .pyStr ts)], .dset ⟨.i64, [], [.num 5]⟩ ⟨none, none, false, false, false⟩⟩

-- A number is read as int with both type strings.
example : readData exX.o (viewOf [exOld p!"int", exOld p!"long"]) none 3 0 = .ok (.int 5) ∧ readData exX.o (viewOf [exOld p!"int", exOld p!"long"]) none 3 1 = .ok (.int 5) :=
  ⟨eq_of_isVal (by decide +kernel), eq_of_isVal (by decide +kernel)⟩
example : ∀ k, k ≠ p!"Python.Type" → aget (exOld p!"int").attrs k = aget (exOld p!"long").attrs k := by
  intro k hk
  show aget [(p!"Python.Type", AVal.pyStr p!"int")] k = aget [(p!"Python.Type", AVal.pyStr p!"long")] k
  simp only [aget]
  rw [if_neg (fun h => hk (by simpa using h.symm)), if_neg (fun h => hk (by simpa using h.symm))]

end HS
