import Verif.Lemmas.RtTable
import Verif.Lemmas.FieldTypes
import Verif.Spec.Layout
/-
What is in a compound Dataset determines its columns.
-/
namespace HS
open Spec

theorem inWidth_pad {dt : DT} {e e' : El} (h : InWidth dt e e') : e' = padEl dt e := by
  cases h with
  | bytes n u => rfl
  | other dt e h =>
    unfold padEl
    split
    · exact absurd rfl (h _)
    · rfl

theorem inWidth_all {dt : DT} {l l' : List El} (h : All2 (InWidth dt) l l') : l' = l.map (padEl dt) := by
  induction h with
  | nil => rfl
  | cons h _ ih => rw [List.map_cons, inWidth_pad h, ih]

theorem column_flat {t : FT} {col : List Val} {data : List El} (h : ColumnData t col data) (hv : ∀ v ∈ col, ∀ a, FieldData t v a → a = flatVal t v) :
    data = col.flatMap (flatVal t) := by
  induction col generalizing data with
  | nil => cases h; rfl
  | cons v r ih =>
    cases h with
    | cons h1 h2 => rw [List.flatMap_cons, hv v List.mem_cons_self _ h1, ih h2 fun w hw => hv w (List.mem_cons_of_mem _ hw)]

theorem columns_flat {n : Nat} {types : List FT} {cols : List (List Val)} {data : List El} (h : ColumnsData types cols data) (hc : ∀ col ∈ cols, col.length = n)
    (hv : ∀ (k : Nat) t, types[k]? = some t → ∀ v ∈ (cols.flatten.drop (k * n)).take n, ∀ a, FieldData t v a → a = flatVal t v) :
    data = flatVals n types cols.flatten := by
  induction types generalizing cols data with
  | nil => cases h; rfl
  | cons t r ih =>
    cases h with
    | @cons _ _ col cols a b h1 h2 =>
      have hl := hc col List.mem_cons_self
      have e1 : (col ++ cols.flatten).take n = col := by rw [← hl]; exact List.take_left
      have e2 : (col ++ cols.flatten).drop n = cols.flatten := by rw [← hl]; exact List.drop_left
      rw [List.flatten_cons] at hv
      rw [flatVals, List.flatten_cons, e1, e2, column_flat h1 fun v hm => hv 0 t rfl v (by rw [Nat.zero_mul, List.drop_zero, e1]; exact hm)]
      rw [ih h2 (fun c hm => hc c (List.mem_cons_of_mem _ hm)) fun k u hk v hm => hv (k + 1) u hk v (by
        rw [Nat.add_mul, Nat.one_mul, Nat.add_comm, ← List.drop_drop, e2]
        exact hm)]

theorem fieldData_flat {t : FT} {v : Val} (h : FieldVal t v) : ∀ a, FieldData t v a → a = flatVal t v := by
  induction h with
  | number dt e => intro a h; cases h with | base h => rw [flatVal]; exact inWidth_all h
  | bytes n b => intro a h; cases h with | base h => rw [flatVal]; exact inWidth_all h
  | array dt sp data => intro a h; cases h with | base h => rw [flatVal]; exact inWidth_all h
  | struct c names types sp elems _ _ _ _ _ _ _ ih =>
    intro a h
    generalize hv : Val.npStruct c sp names types elems = v at h
    cases h with
    | @struct _ _ _ c' cols _ h1 h2 =>
      injection hv with _ _ _ _ he
      subst he
      rw [flatVal]
      exact columns_flat h2 h1 ih

/-- The columns of a compound Dataset. -/
theorem table_columns {n : Nat} {types : List FT} {cols : List (List Val)} {data : List El} (h : ColumnsData types cols data) (hl : cols.length = types.length)
    (hc : ∀ col ∈ cols, col.length = n) (hv : ∀ (k : Nat) t (col : List Val), types[k]? = some t → cols[k]? = some col → ∀ v ∈ col, FieldVal t v) :
    unflatCols n types data = cols := by
  have hch := chunksN_flatten n _ hc
  rw [hl, ← splitCols_chunks] at hch
  have hlen : cols.flatten.length = types.length * n := by rw [flatten_const_length _ n hc, hl]
  have hfv : ∀ (k : Nat) t, types[k]? = some t → ∀ v ∈ (cols.flatten.drop (k * n)).take n, FieldVal t v := by
    intro k t hk v hm
    have hkl : k < types.length := (List.getElem?_eq_some_iff.mp hk).1
    have h1 := splitCols_get n types.length cols.flatten k hkl
    rw [hch] at h1
    exact hv k t _ hk h1 v hm
  rw [columns_flat h hc fun k t hk v hm => fieldData_flat (hfv k t hk v hm), (unflat_flat hlen fun k t hk v hm => fieldVal_flat (hfv k t hk v hm)).1, hch]

end HS
