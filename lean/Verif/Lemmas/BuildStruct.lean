import Verif.Lemmas.RtFields
import Verif.Lemmas.FieldTypes
/-
Making a structured array of the members of a Group.
-/
namespace HS
open Spec

theorem broadcasts_same (S : List Nat) (t : FT) : broadcasts S t S = false := by simp [broadcasts]
theorem beyond_same (S : List Nat) : beyond S S = false := by simp [beyond]
theorem spread_same (S : List Nat) (t : FT) (es : List Val) : spread S t S es = es.map (packEl t) := if_pos rfl

/-- Making the array of fields of any shapes. -/
theorem buildStruct_any {multi : Bool} {sd : List (Str × Val)} {attr : Option (List Str)} {names : List Str} {S : List Nat} {arrs : List (List Nat × List Val)}
    (hnone : attr = none → sortStr (akeys sd) = names) (hsome : ∀ f, attr = some f → f ++ sortStr ((akeys sd).filter fun k => !f.contains k) = names)
    (hn : names ≠ []) (hn0 : [] ∉ names) (hnd : names.Nodup) (hf : All2 (fun nm a => fieldAt multi sd nm = .ok a) names arrs)
    (hS : arrs.getLast?.map (·.1) = some S) (hb : ∀ a ∈ arrs, broadcasts S (fieldType a.2) a.1 = false) :
    buildStruct multi sd attr = if arrs.any (fun a => beyond S a.1) then .error .indexError
      else .ok (.tab S names (arrs.map fun a => fieldType a.2) (arrs.map fun a => spread S (fieldType a.2) a.1 a.2)) := by
  have h1 : names.mapM (fieldAt multi sd) = .ok arrs := mapM_ok_forall2.mpr hf
  have h3 : checkNames names = .ok () := by
    unfold checkNames
    rw [if_neg (fun h => h.elim hn hn0), if_pos hnd]
  have h5 : ¬ (arrs.any fun a => broadcasts S (fieldType a.2) a.1) = true := by
    intro h
    obtain ⟨a, ha, h⟩ := List.any_eq_true.mp h
    rw [hb a ha] at h
    cases h
  have h6 : (match attr with | some f => f ++ sortStr ((akeys sd).filter fun k => !f.contains k) | none => sortStr (akeys sd)) = names := by
    cases attr with
    | none => exact hnone rfl
    | some f => exact hsome f rfl
  have key : buildStruct multi sd attr = (names.mapM (fieldAt multi sd) >>= fun arrs => checkNames names >>= fun _ =>
      if arrs.any (fun a => broadcasts ((arrs.getLast?.map (·.1)).getD []) (fieldType a.2) a.1) then .error .other
      else if arrs.any (fun a => beyond ((arrs.getLast?.map (·.1)).getD []) a.1) then .error .indexError
      else .ok (.tab ((arrs.getLast?.map (·.1)).getD []) names (arrs.map fun a => fieldType a.2)
        (arrs.map fun a => spread ((arrs.getLast?.map (·.1)).getD []) (fieldType a.2) a.1 a.2))) := by
    unfold buildStruct
    cases attr with
    | none => dsimp only; rw [show sortStr (akeys sd) = names from hnone rfl]
    | some f => dsimp only; rw [show f ++ sortStr ((akeys sd).filter fun k => !f.contains k) = names from hsome f rfl]
  rw [key, h1]
  show (checkNames names >>= fun _ => _) = _
  rw [h3, hS]
  show (if (arrs.any fun a => broadcasts S (fieldType a.2) a.1) = true then _ else _) = _
  rw [if_neg h5]
  rfl

/-- Making the array of fields of one shape. -/
theorem buildStruct_gen {multi : Bool} {sd : List (Str × Val)} {attr : Option (List Str)} {names : List Str} {sh0 : List Nat} {els : List (List Val)}
    (hnone : attr = none → sortStr (akeys sd) = names) (hsome : ∀ f, attr = some f → f ++ sortStr ((akeys sd).filter fun k => !f.contains k) = names)
    (hn : names ≠ []) (hn0 : [] ∉ names) (hnd : names.Nodup)
    (hf : All2 (fun nm e => fieldAt multi sd nm = .ok (sh0, e)) names els) :
    buildStruct multi sd attr = .ok (.tab sh0 names (els.map fieldType) (els.map fun e => e.map (packEl (fieldType e)))) := by
  have hne : els ≠ [] := by
    rintro rfl
    cases hf
    exact hn rfl
  have hmem : ∀ a ∈ els.map (fun e => (sh0, e)), a.1 = sh0 := by
    intro a ha
    obtain ⟨e, _, rfl⟩ := List.mem_map.mp ha
    rfl
  rw [buildStruct_any hnone hsome hn hn0 hnd (S := sh0) (arrs := els.map fun e => (sh0, e)), if_neg]
  · rw [List.map_map, List.map_map]
    have : els.map ((fun a : List Nat × List Val => spread sh0 (fieldType a.2) a.1 a.2) ∘ fun e => (sh0, e)) = els.map fun e => e.map (packEl (fieldType e)) :=
      List.map_congr_left fun e _ => spread_same _ _ _
    rw [this]
    rfl
  · intro h
    obtain ⟨a, ha, h⟩ := List.any_eq_true.mp h
    rw [hmem a ha, beyond_same] at h
    cases h
  · clear hnone hsome hn hn0 hnd hne hmem
    induction hf with
    | nil => exact .nil
    | cons h _ ih => exact .cons h ih
  · rw [List.getLast?_map]
    cases hl : els.getLast? with
    | none => exact absurd (List.getLast?_eq_none_iff.mp hl) hne
    | some e => rfl
  · intro a ha
    rw [hmem a ha]
    exact broadcasts_same _ _

end HS
