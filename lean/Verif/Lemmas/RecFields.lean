import Verif.Spec.Values
/-
The names the parts of records are stored under are the documented ones.
-/
namespace HS
open Spec

theorem recordFields_eq (k : RecKind) : recordFields k = k.fieldNames := by cases k <;> rfl

theorem recordFields_fun : recordFields = RecKind.fieldNames := funext recordFields_eq

end HS
