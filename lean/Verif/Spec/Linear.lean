import Verif.Model.Threads
/-
Linearizability, independently of how methods are executed.
-/
namespace HS.Spec

/-- Event `a` is before event `b` in the history. -/
def Before (H : List Event) (a b : Event → Prop) : Prop := ∃ (i j : Nat) (ea eb : Event), i < j ∧ H[i]? = some ea ∧ H[j]? = some eb ∧ a ea ∧ b eb

/-- An event is the call / the return of the call with this number. -/
def IsCall (id : Nat) : Event → Prop
  | .call i _ _ => i = id
  | .ret _ _ => False
/-- See `IsCall`. -/
def IsRet (id : Nat) : Event → Prop
  | .ret i _ => i = id
  | .call _ _ _ => False

/-- A call in a sequential execution: number, method with arguments, result. -/
structure Done where
  id : Nat
  op : Op
  res : Res Out

/-- `L` is a linearization of the observed history `H` of a `File` that was in state `F`, leading to state `F'`:
* executing the calls of `L` one after the other gives the results in `L` and the state `F'`;
* the calls in `L` are different calls of `H`;
* every call that returned is in `L`, with the result it returned;
* a call that returned before another was made comes before it in `L`. -/
structure Linearization (x : Ctx) (n : Nat) (F : FileS) (H : List Event) (L : List Done) (F' : FileS) : Prop where
  results : (fileOps x n (L.map (·.op)) F).1 = L.map (·.res)
  state : (fileOps x n (L.map (·.op)) F).2 = F'
  nodup : (L.map (·.id)).Nodup
  calls : ∀ d ∈ L, ∃ t, Event.call d.id t d.op ∈ H
  returned : ∀ id r, Event.ret id r ∈ H → ∃ d ∈ L, d.id = id ∧ d.res = r
  order : ∀ (i j : Nat) (a b : Done), L[i]? = some a → L[j]? = some b → Before H (IsRet a.id) (IsCall b.id) → i < j

/-- Calls that do not write, delete or close (`iter` is `list(f)`). -/
def OnlyReads : Op → Prop
  | .writes _ => False
  | .write _ _ => False
  | .del _ => False
  | .close => False
  | _ => True

/-- Steps that make no new calls. -/
inductive TGo (impl : Op → Call) : Conf → Conf → Prop
  | refl (c : Conf) : TGo impl c c
  | step {c d e : Conf} : TGo impl c d → TStep impl (fun _ => False) d e → TGo impl c e

end HS.Spec
