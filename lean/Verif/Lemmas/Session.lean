import Verif.Spec.Session
import Verif.Lemmas.Later
import Verif.Props.Mat
/-
Lemmas about `with` statements.
-/
namespace HS
open Spec

theorem block_calls {α : Type} (x : Ctx) (n : Nat) (b : Block α) (F : FileS) : ∃ ops, Calls x n b F ops (b.run x n F).1 := by
  induction b generalizing F with
  | done r => exact ⟨[], .done r F⟩
  | call op k ih =>
    obtain ⟨ops, h⟩ := ih (fileOp x n op F).1 (fileOp x n op F).2
    exact ⟨op :: ops, .call h⟩

theorem calls_run {α : Type} {x : Ctx} {n : Nat} {b : Block α} {F : FileS} {ops : List Op} {r : Res α} (h : Calls x n b F ops r) :
    b.run x n F = (r, (fileOps x n ops F).2) := by
  induction h with
  | done r F => rfl
  | call _ ih => rw [Block.run, ih]; rfl

theorem calls_unique {α : Type} {x : Ctx} {n : Nat} {b : Block α} {F : FileS} {ops ops' : List Op} {r r' : Res α} (h : Calls x n b F ops r) (h' : Calls x n b F ops' r') :
    ops' = ops ∧ r' = r := by
  induction h generalizing ops' with
  | done r F => cases h'; exact ⟨rfl, rfl⟩
  | call _ ih =>
    cases h' with
    | call h2 =>
      obtain ⟨h3, h4⟩ := ih h2
      exact ⟨by rw [h3], h4⟩

theorem openWith_ok {w : Bool} {a : FileArgs} {d : Disk} {f : Str} {o : Options} {ub : Nat} {F : FileS} (h : openWith w a d = .ok (f, o, ub, F)) :
    a.filename = .str f ∧ fileOptions a = .ok o ∧ ∃ hp, openDisk (d f) w a.truncExisting a.truncInvalid (COpts.of o).matlab = .ok (ub, hp) ∧ F = FileS.new hp w := by
  unfold openWith at h
  cases hf : a.filename with
  | bytes b => rw [hf] at h; cases h
  | other => rw [hf] at h; cases h
  | str g =>
    rw [hf] at h
    dsimp only at h
    cases ho : fileOptions a with
    | error e => rw [ho] at h; cases h
    | ok o' =>
      rw [ho] at h
      dsimp only at h
      cases hc : openDisk (d g) w a.truncExisting a.truncInvalid (COpts.of o').matlab with
      | error e => rw [hc] at h; cases h
      | ok c =>
        rw [hc] at h
        cases h
        exact ⟨rfl, rfl, _, hc, rfl⟩

theorem fileOps_append (x : Ctx) (n : Nat) (l r : List Op) (F : FileS) : (fileOps x n (l ++ r) F).2 = (fileOps x n r (fileOps x n l F).2).2 := by
  induction l generalizing F with
  | nil => rfl
  | cons op l ih => rw [List.cons_append, fileOps, fileOps]; exact ih _

theorem openDisk_read {c : Option DFile} {te ti m : Bool} {ub : Nat} {h : Heap} (ho : openDisk c false te ti m = .ok (ub, h)) : c = some (.h5 ub h) := by
  unfold openDisk at ho
  simp only [Bool.not_false, if_true] at ho
  cases c with
  | none => cases ho
  | some c =>
    cases c with
    | junk => cases ho
    | h5 u g => cases ho; rfl

theorem fileOps_ro {x : Ctx} {n : Nat} (ops : List Op) {F : FileS} (h : F.ro = true) : (fileOps x n ops F).2.st = F.st := by
  induction ops generalizing F with
  | nil => rfl
  | cons op ops ih =>
    obtain ⟨h1, h2⟩ := ro_op (x := x) (n := n) h op
    rw [fileOps]
    exact (ih h2).trans h1

/-- The later sessions keep what is stored. -/
theorem sessions_stored {x : Ctx} (hr : RefsPathOk x.o) {n : Nat} {f : Str} {ns : List Str} (hns : OffRefs x.o ns) {v : Val} {d d' : Disk} (h : LaterSessions f x.o.refsPath ns d d')
    (hd : ∃ ub hp, d f = some (.h5 ub hp) ∧ Tree hp ∧ StoredAt x n hp ns v) : ∃ ub hp, d' f = some (.h5 ub hp) ∧ Tree hp ∧ StoredAt x n hp ns v := by
  induction h with
  | none => exact hd
  | @session d' α y k w b a _ hk ih =>
    obtain ⟨ub, hp, h1, h2, h3⟩ := ih
    unfold withFile
    cases ho : openWith w a d' with
    | error e => exact ⟨ub, hp, h1, h2, h3⟩
    | ok c =>
      obtain ⟨g, o, ub', F⟩ := c
      obtain ⟨c1, c2, hp', c3, rfl⟩ := openWith_ok ho
      dsimp only
      cases w with
      | false => exact ⟨ub, hp, h1, h2, h3⟩
      | true =>
        rw [if_pos rfl]
        unfold Disk.put
        by_cases hg : f = g
        · subst hg
          rw [if_pos rfl]
          have L := hk c1 rfl ub hp o h1 ((fileOptions_iff a o).mp c2)
          have hh : ub' = ub ∧ hp' = hp := by
            rw [h1] at c3
            unfold openDisk at c3
            rw [L.kept] at c3
            simp only [Bool.not_true, Bool.false_eq_true, if_false] at c3
            split at c3
            · rename_i hc
              exact absurd hc.1 (by rw [L.large hc.2.2 hc.2.1]; decide)
            · cases c3; exact ⟨rfl, rfl⟩
          obtain ⟨rfl, rfl⟩ := hh
          obtain ⟨ops, hc⟩ := block_calls (y.with o) k b (FileS.new hp' true)
          have hel := L.calls ops _ hc
          rw [calls_run hc]
          have hz : (y.with o).o.refsPath = x.o.refsPath := L.refs
          have hry : RefsPathOk (y.with o).o := ⟨by rw [hz]; exact hr.abs, by rw [hz]; exact hr.notRoot⟩
          have hnsy : OffRefs (y.with o).o ns := by
            refine ⟨hns.plain, hns.ne, ?_, ?_⟩
            · unfold refsComps; rw [hz]; exact hns.refs
            · unfold refsComps; rw [hz]; exact hns.head
          obtain ⟨aw, hR⟩ := fileOps_away (n := k) hry L.names (.opened hp' true h2) hnsy hel
          exact ⟨_, _, rfl, (reach_keep hry L.names hR).2, h3.away (Away.opts hz aw)⟩
        · rw [if_neg hg]
          exact ⟨ub, hp, h1, h2, h3⟩

end HS
