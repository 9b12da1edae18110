import Verif.Props.Dispatch
import Verif.Spec.AttrTable
import Verif.Spec.Matlab
/-
C48, C49, C53: the tables of the builtin marshallers against the documented names.
-/
namespace HS
open Spec

/-- The full name of the class with this documented Python.Type: classes of `builtins` have no module there, and `int` is called `long`. -/
def Spec.className (t : Str) : Str := if t = p!"long" then p!"builtins.int" else if 46 ∈ t then t else p!"builtins." ++ t

/-- C53. What a value is looked up by when it is written is the full name of its class (module and name), which is the one documented as Python.Type. -/
theorem C53_class_name {v : Val} {t : Str} (h : PyType v t) : ∃ c, classOf v = some c ∧ c.key = className t := by
  cases h with
  | scalar a t h =>
    obtain ⟨dt, sh, dat⟩ := a
    cases h <;> exact ⟨_, rfl, by decide⟩
  | array c a t h => cases c <;> cases h <;> exact ⟨_, rfl, by decide⟩
  | objects c sh e t h => cases c <;> cases h <;> exact ⟨_, rfl, by decide⟩
  | structured c sh n ty e t h => cases c <;> cases h <;> exact ⟨_, rfl, by decide⟩
  | _ => exact ⟨_, rfl, by decide⟩

/-- C48, C53. Exactly one builtin marshaller declares that class, and the same one declares the Python.Type, so that what one wrote is read by the same one. -/
theorem C53_one_builtin {v : Val} {t : Str} (h : PyType v t) : ∃ b : Builtin, (∀ c, classOf v = some c → ∀ b' : Builtin, declares (.type c) b'.marshaller = true ↔ b' = b) ∧
    ∀ b' : Builtin, declares (.typeString t) b'.marshaller = true ↔ b' = b := by
  have key : ∀ (c : TypeRef) (b : Builtin), classOf v = some c →
      (∀ b' ∈ Builtin.all, (declares (.type c) b'.marshaller = true ↔ b' = b) ∧ (declares (.typeString t) b'.marshaller = true ↔ b' = b)) →
      ∃ b : Builtin, (∀ c, classOf v = some c → ∀ b' : Builtin, declares (.type c) b'.marshaller = true ↔ b' = b) ∧
        ∀ b' : Builtin, declares (.typeString t) b'.marshaller = true ↔ b' = b := by
    intro c b hc hb
    have hall : ∀ b' : Builtin, b' ∈ Builtin.all := by intro b'; cases b' <;> decide
    refine ⟨b, ?_, fun b' => (hb b' (hall b')).2⟩
    intro c' hc' b'
    rw [hc] at hc'
    cases hc'
    exact (hb b' (hall b')).1
  cases h with
  | scalar a t h =>
    obtain ⟨dt, sh, dat⟩ := a
    cases h <;> exact key _ .numpyScalarArray rfl (by decide +kernel)
  | array c a t h => cases c <;> cases h <;> exact key _ .numpyScalarArray rfl (by decide +kernel)
  | objects c sh e t h => cases c <;> cases h <;> exact key _ .numpyScalarArray rfl (by decide +kernel)
  | structured c sh n ty e t h => cases c <;> cases h <;> exact key _ .numpyScalarArray rfl (by decide +kernel)
  | void => exact key _ .numpyScalarArray rfl (by decide +kernel)
  | none | ellipsis | notImplemented => exact key _ .noneEllipsis rfl (by decide +kernel)
  | bool | int | float | complex => exact key _ .scalar rfl (by decide +kernel)
  | str | bytes | bytearray => exact key _ .string rfl (by decide +kernel)
  | list => exact key _ .list rfl (by decide +kernel)
  | tuple | set | frozenset | deque => exact key _ .tupleSetDeque rfl (by decide +kernel)
  | chainMap => exact key _ .chainMap rfl (by decide +kernel)
  | dict | orderedDict => exact key _ .dict rfl (by decide +kernel)
  | counter => exact key _ .counter rfl (by decide +kernel)
  | slice | range => exact key _ .sliceRange rfl (by decide +kernel)
  | timedelta | timezone1 | timezone2 | date | time | datetime => exact key _ .datetimeObjs rfl (by decide +kernel)
  | fraction => exact key _ .fraction rfl (by decide +kernel)
  | dtypeObj => exact key _ .numpyDtype rfl (by decide +kernel)

example : PyType (.seq .deque [.int 1]) p!"collections.deque" ∧ className p!"list" = p!"builtins.list" := ⟨.deque _, by decide⟩

/-- C49. Every MATLAB class for numbers, logical, char and cell is declared by the numpy marshaller and by no other builtin one. -/
theorem C49_matlab_classes {c : Str} {dt : DT} (h : KnownClass c dt) (h1 : c ≠ p!"struct") (h2 : c ≠ p!"canonical empty") (b : Builtin) :
    declares (.matlabClass c) b.marshaller = true ↔ b = .numpyScalarArray := by
  have hall : b ∈ Builtin.all := by cases b <;> decide
  revert b
  cases h with
  | num h => cases h <;> decide +kernel
  | logical => decide +kernel
  | char => decide +kernel
  | cell => decide +kernel
  | struct => exact absurd rfl h1
  | canonicalEmpty => exact absurd rfl h2

end HS
