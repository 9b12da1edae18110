import Verif.Lemmas.User
import Verif.Lemmas.AttrTable
import Verif.Lemmas.RootFile
import Verif.Props.DispatchTables
/-
Builtin values in a file with objects of a user's types.
-/
namespace HS
open Spec
variable {α : Type}

theorem newAttrs_nodup {o : COpts} {v : Val} {b : Body} {new : List (Str × AIn)} (h : NewAttrs o v b new) : (akeys new).Nodup := by
  cases h with
  | leaf => exact npAttrs_nodup _ _ _ _ _ _ _
  | npObj => exact npAttrs_nodup _ _ _ _ _ _ _
  | seq => exact npAttrs_nodup _ _ _ _ _ _ _
  | dict => exact dictAttrs_nodup _ _ _ _
  | record => exact dictAttrs_nodup _ _ _ _
  | structEmpty => exact structAttrs_nodup _ _ _ _ _ _ _
  | struct => exact structAttrs_nodup _ _ _ _ _ _ _
  | table =>
    unfold tableAttrs
    split
    · exact structAttrs_nodup _ _ _ _ _ _ _
    · split
      · exact of_decide_eq_true rfl
      · exact of_decide_eq_true rfl

theorem newAttrs_type {o : COpts} (hm : o.pyMeta = true) {v : Val} {b : Body} {new : List (Str × AIn)} (h : NewAttrs o v b new) : (p!"Python.Type", AIn.string (tsOf v)) ∈ new := by
  have hs : ∀ c types shape group esc ts, (p!"Python.Type", AIn.string ts) ∈ structAttrs o c types shape group esc ts := by
    intro c types shape group esc ts
    unfold structAttrs
    rw [hm]
    exact List.mem_append_right _ (by simp)
  have hn : ∀ c dt shape e st ts, (p!"Python.Type", AIn.string ts) ∈ npAttrs o c dt shape e st ts := by
    intro c dt shape e st ts
    unfold npAttrs
    rw [hm]
    exact List.mem_append_right _ (by simp)
  have hd : ∀ i st ts, (p!"Python.Type", AIn.string ts) ∈ dictAttrs o i st ts := by
    intro i st ts
    unfold dictAttrs
    rw [hm]
    exact List.mem_append_right _ (by simp)
  cases h with
  | leaf => exact hn _ _ _ _ _ _
  | npObj => exact hn _ _ _ _ _ _
  | seq => exact hn _ _ _ _ _ _
  | dict => exact hd _ _ _
  | record => exact hd _ _ _
  | structEmpty => exact hs _ _ _ _ _ _
  | struct => exact hs _ _ _ _ _ _
  | table =>
    unfold tableAttrs
    split
    · exact hs _ _ _ _ _ _
    · simp [tsOf]

/-- What is at the place has this type string. -/
def TypeAt (h : Heap) (ns : List Str) (ts : Str) : Prop :=
  ∃ (q : Nat) (ob : Obj), LPath h ns q ∧ viewOf h q = some ob ∧ attrToString (aget ob.attrs p!"Python.Type") = .ok (some ts)

theorem TypeAt.away {o : COpts} {h h' : Heap} {ns : List Str} {ts : Str} (t : TypeAt h ns ts) (a : Away o ns h h') (hs : ∀ q, LPath h ns q → InOrRefs o h ns q) : TypeAt h' ns ts := by
  obtain ⟨q, ob, h1, h2, h3⟩ := t
  refine ⟨q, ob, (a.path q).mpr h1, ?_, h3⟩
  unfold viewOf at h2 ⊢
  rw [a.obj q (hs q h1)]
  exact h2

/-- Reading something whose type string no marshaller of the user's claims. -/
theorem userRead_builtin {T : Setup α} {y : Ctx} {m : Nat} {p : PathArg} {G : FileS} {ns : List Str} {ts : Str} {v : Val} (hT : T.reader ts = none) (ha : Addr p ns) (hne : ns ≠ [])
    (hr : RefsPathOk y.o) (ho : OffRefs y.o ns) (ht : TypeAt G.st.heap ns ts) (h : fileRead y m p G = .ok v) : userRead T y m p G = .ok (.builtin v) := by
  obtain ⟨q, ob, h1, h2, h3⟩ := ht
  rcases snoc_cases ns with rfl | ⟨l, t, rfl⟩
  · exact absurd rfl hne
  obtain ⟨gs, c1, rfl⟩ := addr_check hr ho ha
  have hd := ho.plain t (by simp)
  obtain ⟨g, k1, k2⟩ := lpath_snoc h1
  rw [fileRead_eq, c1] at h
  unfold userRead
  rw [c1]
  dsimp only at h ⊢
  split at h
  · cases h
  rename_i hG
  rw [if_neg hG]
  rw [readOne_at hd h1] at h
  unfold userReadOne
  dsimp only
  rw [resolve_lpath (commonComps_plain gs) k1]
  dsimp only
  rw [if_pos (linkAt_group k2), hlook_plain _ _ _ hd, k2]
  split at h
  · rename_i h5
    split at h
    · rename_i h6
      rw [if_pos h5, if_pos h6]
      dsimp only
      cases m with
      | zero => cases h
      | succ m =>
        unfold userReadData
        dsimp only
        rw [h2]
        dsimp only
        rw [h3]
        show (match (some ts).bind T.reader, some ts with
          | some pl, some ts => _
          | _, _ => (readData y.o (viewOf G.st.heap) (exclOf y.o G.st.heap) (m + 1) q >>= fun v => Except.ok (UVal.builtin v) : Res (UVal α))) = _
        rw [Option.bind_some, hT]
        dsimp only
        rw [h]
        rfl
    · cases h
  · cases h

end HS
