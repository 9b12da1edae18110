import Verif.Model.Val
/-
The Boolean equality of values is equality.
-/
namespace HS

mutual
theorem Val.eq_of_beq : ∀ a b : Val, Val.beq a b = true → a = b
  | .none, b, h => by cases b <;> simp_all [Val.beq]
  | .ellipsis, b, h => by cases b <;> simp_all [Val.beq]
  | .notImplemented, b, h => by cases b <;> simp_all [Val.beq]
  | .bool _, b, h => by cases b <;> simp_all [Val.beq]
  | .int _, b, h => by cases b <;> simp_all [Val.beq]
  | .float _, b, h => by cases b <;> simp_all [Val.beq]
  | .complex _ _, b, h => by cases b <;> simp_all [Val.beq]
  | .str _, b, h => by cases b <;> simp_all [Val.beq]
  | .bytes _, b, h => by cases b <;> simp_all [Val.beq]
  | .bytearray _, b, h => by cases b <;> simp_all [Val.beq]
  | .np _ _, b, h => by cases b <;> simp_all [Val.beq]
  | .npObj _ _ e, b, h => by
    cases b with
    | npObj c s f =>
      simp only [Val.beq, Bool.and_eq_true, beq_iff_eq] at h
      rw [h.1.1, h.1.2, Val.eq_of_beqL e f h.2]
    | _ => simp [Val.beq] at h
  | .seq _ e, b, h => by
    cases b with
    | seq c f =>
      simp only [Val.beq, Bool.and_eq_true, beq_iff_eq] at h
      rw [h.1, Val.eq_of_beqL e f h.2]
    | _ => simp [Val.beq] at h
  | .dict _ e e', b, h => by
    cases b with
    | dict c f f' =>
      simp only [Val.beq, Bool.and_eq_true, beq_iff_eq] at h
      rw [h.1.1, Val.eq_of_beqL e f h.1.2, Val.eq_of_beqL e' f' h.2]
    | _ => simp [Val.beq] at h
  | .record _ e, b, h => by
    cases b with
    | record c f =>
      simp only [Val.beq, Bool.and_eq_true, beq_iff_eq] at h
      rw [h.1, Val.eq_of_beqL e f h.2]
    | _ => simp [Val.beq] at h
  | .npStruct _ _ _ t e, b, h => by
    cases b with
    | npStruct d u m v f =>
      simp only [Val.beq, Bool.and_eq_true, beq_iff_eq] at h
      rw [h.1.1.1.1, h.1.1.1.2, h.1.1.2, FT.eq_of_beqL t v h.1.2, Val.eq_of_beqL e f h.2]
    | _ => simp [Val.beq] at h
  | .dtypeObj _, b, h => by cases b <;> simp_all [Val.beq]
  | .other, b, h => by cases b <;> simp_all [Val.beq]
theorem Val.eq_of_beqL : ∀ a b : List Val, Val.beqL a b = true → a = b
  | [], b, h => by cases b <;> simp_all [Val.beqL]
  | a :: l, b, h => by
    cases b with
    | nil => simp [Val.beqL] at h
    | cons c m =>
      simp only [Val.beqL, Bool.and_eq_true] at h
      rw [Val.eq_of_beq a c h.1, Val.eq_of_beqL l m h.2]
end

/-- Does the result equal the value? -/
def isVal (r : Res Val) (v : Val) : Bool := match r with | .ok w => Val.beq w v | _ => false

theorem eq_of_isVal {r : Res Val} {v : Val} (h : isVal r v = true) : r = .ok v := by
  unfold isVal at h
  split at h
  · rw [Val.eq_of_beq _ _ h]
  · cases h

/-- Is the result this exception? -/
def isExc {α : Type} (r : Res α) (e : Exc) : Bool := match r with | .error f => f == e | _ => false

theorem eq_of_isExc {α : Type} {r : Res α} {e : Exc} (h : isExc r e = true) : r = .error e := by
  unfold isExc at h
  split at h
  · simp at h; rw [h]
  · cases h

/-- The result is this list of values. -/
def isVals (r : Res (List Val)) (v : List Val) : Bool := match r with | .ok w => Val.beqL w v | _ => false

theorem eq_of_isVals {r : Res (List Val)} {v : List Val} (h : isVals r v = true) : r = .ok v := by
  unfold isVals at h
  split at h
  · rw [Val.eq_of_beqL _ _ h]
  · cases h

end HS
