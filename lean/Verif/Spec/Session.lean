import Verif.Model.Session
import Verif.Spec.Mat
import Verif.Spec.Local
/-
Independent notions about `with` statements and programs that use files one after the other.
-/
namespace HS.Spec

/-- The block, executed with the `File` in the state `F`, calls these methods one after the other and ends like this. -/
inductive Calls {α : Type} (x : Ctx) (n : Nat) : Block α → FileS → List Op → Res α → Prop
  | done (r : Res α) (F : FileS) : Calls x n (.done r) F [] r
  | call {op : Op} {k : Res Out → Block α} {F : FileS} {ops : List Op} {r : Res α} : Calls x n (k (fileOp x n op F).1) (fileOp x n op F).2 ops r →
      Calls x n (.call op k) F (op :: ops) r

/-- A session with the file, opened for writing with these arguments while it has the content `h`, keeps what is at `ns`: the file is not truncated, the references Group
is at the same place, and no method called touches `ns`. -/
structure LeavesAlone {α : Type} (refs : Str) (ns : List Str) (x : Ctx) (n : Nat) (b : Block α) (a : FileArgs) (ub : Nat) (h : Heap) (o : Options) : Prop where
  kept : a.truncExisting = false
  large : ub < 128 → a.truncInvalid = true → (COpts.of o).matlab = false
  refs : (COpts.of o).refsPath = refs
  names : NamesOk (COpts.of o)
  calls : ∀ ops r, Calls (x.with o) n b (FileS.new h true) ops r → ∀ op ∈ ops, Elsewhere (COpts.of o) op ns

/-- The disk after any number of `with File(...) as f:` statements: with other files, whatever they do; with the file `f` opened read-only, whatever they do; or with the file `f`
opened for writing, leaving alone what is at `ns`. -/
inductive LaterSessions (f refs : Str) (ns : List Str) : Disk → Disk → Prop
  | none (d : Disk) : LaterSessions f refs ns d d
  | session {d d' : Disk} (α : Type) (x : Ctx) (n : Nat) (w : Bool) (b : Block α) (a : FileArgs) : LaterSessions f refs ns d d' →
      (a.filename = .str f → w = true → ∀ ub h o, d' f = some (.h5 ub h) → OptionsFor false a.options a.kw o → LeavesAlone refs ns x n b a ub h o) →
      LaterSessions f refs ns d (withFile x n w b a d').2.2

end HS.Spec
