import Verif.Spec.Refs
import Verif.Spec.Storage
/-
Dicts and what is in the Group they are stored as.
-/
namespace HS.Spec

/-- The value is a dict (or one of the records stored like a dict) whose keys are strings, with these texts and values. -/
inductive HasFields : Val → List Str → List Val → Prop
  | dict (k : DictKind) (keys vals : List Val) (texts : List Str) : All2 KeyText keys texts → vals.length = keys.length → HasFields (.dict k keys vals) texts vals
  | record (k : RecKind) (vals : List Val) : vals.length = (recordFields k).length → HasFields (.record k vals) (recordFields k) vals

/-- `k` is the name of a field: the text of a key, escaped. -/
def FieldName (texts : List Str) (k : Str) : Prop := ∃ t ∈ texts, escapePath t = .ok k

/-- A value that is not discarded is stored in the field `k`. -/
def StoresField (o : COpts) (texts : List Str) (vals : List Val) (k : Str) : Prop :=
  ∃ t v, (t, v) ∈ texts.zip vals ∧ escapePath t = .ok k ∧ ¬ Discarded o v

/-- Something in the file reads exactly as before, a value or an exception. -/
def ReadsSame (x : Ctx) (F F' : FileS) (ns : List Str) : Prop :=
  ∀ (q : PathArg) (m : Nat), Addr q ns → fileRead x m q F' = fileRead x m q F

end HS.Spec
