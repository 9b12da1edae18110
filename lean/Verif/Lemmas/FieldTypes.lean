import Verif.Props.DTypeTree
import Verif.Model.Write
import Verif.Spec.Values
/-
Which structured dtypes are stored in a Group, and which values the fields of the others have.
-/
namespace HS
open Spec

theorem hasInfix_iff (t s : Str) : hasInfix t s = true ↔ t <:+: s := by
  induction s with
  | nil => rw [hasInfix, List.isEmpty_iff, List.infix_nil]
  | cons c r ih => rw [hasInfix, Bool.or_eq_true, List.isPrefixOf_iff_prefix, ih, List.infix_cons_iff]

theorem nulName_iff (n : Str) : nameHasNull n = true ↔ NulName n := by
  unfold nameHasNull NulName
  rw [Bool.or_eq_true, hasInfix_iff, List.contains_iff_mem]

theorem hasObjectL_iff (l : List FT) : FT.hasObjectL l = true ↔ ∃ t ∈ l, FT.hasObject t = true := by
  induction l with
  | nil => simp [FT.hasObjectL]
  | cons a r ih => simp [FT.hasObjectL, ih]

theorem hasNullL_iff (l : List FT) : FT.hasNullL l = true ↔ ∃ t ∈ l, FT.hasNull t = true := by
  induction l with
  | nil => simp [FT.hasNullL]
  | cons a r ih => simp [FT.hasNullL, ih]

theorem hasPairL_iff (l : List FT) : FT.hasPairL l = true ↔ ∃ t ∈ l, FT.hasPair t = true := by
  induction l with
  | nil => simp [FT.hasPairL]
  | cons a r ih => simp [FT.hasPairL, ih]

theorem npdtL_get {ns : List Str} {l : List FT} {k : Nat} {n : Str} {t : FT} (h1 : ns[k]? = some n) (h2 : l[k]? = some t) : (n, FT.npdt t) ∈ FT.npdtL ns l := by
  induction ns generalizing l k with
  | nil => cases h1
  | cons m ns ih =>
    cases l with
    | nil => cases h2
    | cons a r =>
      rw [FT.npdtL]
      cases k with
      | zero => cases h1; cases h2; simp
      | succ k => exact List.mem_cons_of_mem _ (ih h1 h2)

theorem npdtL_mem {ns : List Str} {l : List FT} {n : Str} {d : NpDT} (h : (n, d) ∈ FT.npdtL ns l) : ∃ (t : FT), t ∈ l ∧ d = FT.npdt t := by
  induction ns generalizing l with
  | nil => rw [FT.npdtL] at h; cases h; simp
  | cons m ns ih =>
    cases l with
    | nil => rw [FT.npdtL] at h; cases h; simp
    | cons a r =>
      rw [FT.npdtL] at h
      rcases List.mem_cons.mp h with h | h
      · cases h; exact ⟨a, by simp, rfl⟩
      · obtain ⟨t, h1, h2⟩ := ih h; exact ⟨t, by simp [h1], h2⟩

theorem occurs_sub {d e : NpDT} (sp : List Nat) (h : Occurs d e) : Occurs d (subDT sp e) := by
  unfold subDT
  split
  · exact h
  · exact .base _ _ _ h

theorem subDT_shape {sp : List Nat} {d : NpDT} (h : 0 ∈ sp) : 0 ∈ (subDT sp d).shape := by
  unfold subDT
  rw [if_neg (by rintro rfl; cases h)]
  exact h

theorem npdt_shape {t : FT} (h : 0 ∈ subShape t) : 0 ∈ (FT.npdt t).shape := by
  cases t with
  | base dt sp => rw [FT.npdt]; exact subDT_shape h
  | struct n l sp => rw [FT.npdt]; exact subDT_shape h

theorem within_occurs {t u : FT} (h : Within t u) : Occurs (FT.npdt u) (FT.npdt t) := by
  induction h with
  | self t => exact .self _
  | field names types sp k name t u h1 h2 _ ih =>
    rw [FT.npdt]
    exact occurs_sub _ (.field _ _ _ _ (npdtL_get h1 h2) ih)

theorem within_object {t u : FT} (h : Within t u) (hu : FT.hasObject u = true) : FT.hasObject t = true := by
  induction h with
  | self t => exact hu
  | field names types sp k name t u h1 h2 _ ih => rw [FT.hasObject, hasObjectL_iff]; exact ⟨t, List.mem_of_getElem? h2, ih hu⟩

theorem within_null {t u : FT} (h : Within t u) (hu : FT.hasNull u = true) : FT.hasNull t = true := by
  induction h with
  | self t => exact hu
  | field names types sp k name t u h1 h2 _ ih => rw [FT.hasNull, Bool.or_eq_true, hasNullL_iff]; exact Or.inr ⟨t, List.mem_of_getElem? h2, ih hu⟩

/-- What has to be stored in a Group is. -/
theorem structAsGroup_of {o : COpts} {names : List Str} {types : List FT} (h : o.structAsStruct = true ∨ NeedsGroup names types) : structAsGroup o names types = true := by
  unfold structAsGroup
  rcases h with h | ⟨u, hw, ⟨sp, rfl⟩ | ⟨n, t, sp, m, rfl, hm, hn⟩ | h⟩
  · rw [h]; rfl
  · have := within_object hw rfl
    rw [FT.hasObject] at this
    rw [this]; simp
  · have := within_null hw (by rw [FT.hasNull, Bool.or_eq_true]; exact Or.inl (List.any_eq_true.mpr ⟨m, hm, (nulName_iff m).mpr hn⟩))
    rw [FT.hasNull] at this
    rw [this]; simp
  · have : doesDtypeHaveAZeroShape (.struct (FT.npdtL names types)) = true := by
      rw [C22_zero_shape]
      have := within_occurs hw
      rw [FT.npdt] at this
      exact ⟨_, this, npdt_shape h⟩
    rw [this]; simp

theorem allNamed_field {names : List Str} {types : List FT} {sp : List Nat} (h : AllNamed (.struct names types sp)) {t : FT} (ht : t ∈ types) :
    AllNamed t ∧ ∀ u, Within t u → Within (.struct names types sp) u := by
  obtain ⟨k, hk, rfl⟩ := List.mem_iff_getElem.mp ht
  have hl := h names types sp (.self _)
  have key : ∀ u, Within types[k] u → Within (.struct names types sp) u := fun u hu =>
    .field names types sp k (names[k]'(by omega)) _ u (List.getElem?_eq_getElem (by omega)) (List.getElem?_eq_getElem hk) hu
  exact ⟨fun n ts s hw => h n ts s (key _ hw), key⟩

mutual
theorem object_within : ∀ t : FT, AllNamed t → FT.hasObject t = true → ∃ sp, Within t (.base .object sp)
  | .base dt sp, _, h => by
    rw [FT.hasObject, beq_iff_eq] at h
    exact ⟨sp, h ▸ .self _⟩
  | .struct n ts sp, hw, h => by
    rw [FT.hasObject] at h
    obtain ⟨t, h1, s, h2⟩ := object_withinL ts (fun t ht => (allNamed_field hw ht).1) h
    exact ⟨s, (allNamed_field hw h1).2 _ h2⟩
theorem object_withinL : ∀ l : List FT, (∀ t ∈ l, AllNamed t) → FT.hasObjectL l = true → ∃ t, t ∈ l ∧ ∃ sp, Within t (.base .object sp)
  | [], _, h => by simp [FT.hasObjectL] at h
  | a :: r, hw, h => by
    rw [FT.hasObjectL, Bool.or_eq_true] at h
    rcases h with h | h
    · obtain ⟨s, h1⟩ := object_within a (hw a (by simp)) h
      exact ⟨a, by simp, s, h1⟩
    · obtain ⟨t, h1, h2⟩ := object_withinL r (fun t ht => hw t (by simp [ht])) h
      exact ⟨t, by simp [h1], h2⟩
end

mutual
theorem null_within : ∀ t : FT, AllNamed t → FT.hasNull t = true → ∃ n ts sp m, Within t (.struct n ts sp) ∧ m ∈ n ∧ NulName m
  | .base dt sp, _, h => by simp [FT.hasNull] at h
  | .struct n ts sp, hw, h => by
    rw [FT.hasNull, Bool.or_eq_true] at h
    rcases h with h | h
    · obtain ⟨m, h1, h2⟩ := List.any_eq_true.mp h
      exact ⟨n, ts, sp, m, .self _, h1, (nulName_iff m).mp h2⟩
    · obtain ⟨t, h1, n', ts', s, m, h2, h3, h4⟩ := null_withinL ts (fun t ht => (allNamed_field hw ht).1) h
      exact ⟨n', ts', s, m, (allNamed_field hw h1).2 _ h2, h3, h4⟩
theorem null_withinL : ∀ l : List FT, (∀ t ∈ l, AllNamed t) → FT.hasNullL l = true → ∃ t, t ∈ l ∧ ∃ n ts sp m, Within t (.struct n ts sp) ∧ m ∈ n ∧ NulName m
  | [], _, h => by simp [FT.hasNullL] at h
  | a :: r, hw, h => by
    rw [FT.hasNullL, Bool.or_eq_true] at h
    rcases h with h | h
    · exact ⟨a, by simp, null_within a (hw a (by simp)) h⟩
    · obtain ⟨t, h1, h2⟩ := null_withinL r (fun t ht => hw t (by simp [ht])) h
      exact ⟨t, by simp [h1], h2⟩
end

theorem occurs_subDT_inv {d e : NpDT} {sp : List Nat} (h : Occurs d (subDT sp e)) (h0 : 0 ∈ d.shape) : 0 ∈ sp ∨ Occurs d e := by
  unfold subDT at h
  split at h
  · exact Or.inr h
  · cases h with
    | self => exact Or.inl h0
    | base _ _ h => exact Or.inr h

mutual
theorem zero_within : ∀ t : FT, AllNamed t → ∀ d, Occurs d (FT.npdt t) → 0 ∈ d.shape → ∃ u, Within t u ∧ 0 ∈ subShape u
  | .base dt sp, _, d, h, h0 => by
    rw [FT.npdt] at h
    rcases occurs_subDT_inv h h0 with h | h
    · exact ⟨_, .self _, h⟩
    · cases h; simp [NpDT.shape] at h0
  | .struct n ts sp, hw, d, h, h0 => by
    rw [FT.npdt] at h
    rcases occurs_subDT_inv h h0 with h | h
    · exact ⟨_, .self _, h⟩
    · cases h with
      | self => simp [NpDT.shape] at h0
      | field nm e _ hm ho =>
        obtain ⟨t, h1, u, h2, h3⟩ := zero_withinL n ts (fun t ht => (allNamed_field hw ht).1) nm e hm d ho h0
        exact ⟨u, (allNamed_field hw h1).2 _ h2, h3⟩
theorem zero_withinL : ∀ (ns : List Str) (l : List FT), (∀ t ∈ l, AllNamed t) → ∀ nm e, (nm, e) ∈ FT.npdtL ns l → ∀ d, Occurs d e → 0 ∈ d.shape →
    ∃ t, t ∈ l ∧ ∃ u, Within t u ∧ 0 ∈ subShape u
  | ns, [], _, nm, e, hm, d, _, _ => by cases ns <;> simp [FT.npdtL] at hm
  | [], _ :: _, _, nm, e, hm, d, _, _ => by simp [FT.npdtL] at hm
  | n :: ns, a :: r, hw, nm, e, hm, d, ho, h0 => by
    rw [FT.npdtL] at hm
    rcases List.mem_cons.mp hm with hm | hm
    · have he : e = FT.npdt a := congrArg Prod.snd hm
      exact ⟨a, by simp, zero_within a (hw a (by simp)) d (he ▸ ho) h0⟩
    · obtain ⟨t, h1, h2⟩ := zero_withinL ns r (fun t ht => hw t (by simp [ht])) nm e hm d ho h0
      exact ⟨t, by simp [h1], h2⟩
end

/-- What is stored in a Group has to be. -/
theorem structAsGroup_needs {o : COpts} {names : List Str} {types : List FT} (hw : AllNamed (.struct names types [])) (h : structAsGroup o names types = true) :
    o.structAsStruct = true ∨ NeedsGroup names types := by
  unfold structAsGroup at h
  rw [Bool.or_eq_true, Bool.or_eq_true, Bool.or_eq_true] at h
  rcases h with ((h | h) | h) | h
  · exact Or.inl h
  · obtain ⟨sp, h1⟩ := object_within _ hw (show FT.hasObject (.struct names types []) = true by rw [FT.hasObject]; exact h)
    exact Or.inr ⟨_, h1, Or.inl ⟨sp, rfl⟩⟩
  · obtain ⟨n, ts, sp, m, h1, h2, h3⟩ := null_within _ hw (show FT.hasNull (.struct names types []) = true by rw [FT.hasNull]; exact h)
    exact Or.inr ⟨_, h1, Or.inr (Or.inl ⟨n, ts, sp, m, rfl, h2, h3⟩)⟩
  · rw [C22_zero_shape] at h
    obtain ⟨d, h1, h2⟩ := h
    obtain ⟨u, h3, h4⟩ := zero_within _ hw d (show Occurs d (FT.npdt (.struct names types [])) by rw [FT.npdt]; exact occurs_sub _ h1) h2
    exact Or.inr ⟨u, h3, Or.inr (Or.inr h4)⟩

/-! The values of the fields of other data. -/

theorem prodN_pos {l : List Nat} (h : 0 ∉ l) : 0 < prodN l := by
  induction l with
  | nil => exact Nat.one_pos
  | cons a r ih =>
    rw [List.mem_cons, not_or] at h
    have := ih h.2
    rw [show prodN (a :: r) = a * prodN r from rfl]
    exact Nat.mul_pos (by omega) this

/-- A column with elements. -/
theorem col_ne {elems : List Val} {m p k : Nat} (hl : elems.length = m * p) (hp : 0 < p) (hk : k < m) : ∃ v, v ∈ (elems.drop (k * p)).take p := by
  have h1 : ((elems.drop (k * p)).take p).length = p := by
    rw [List.length_take, List.length_drop, hl]
    have : (k + 1) * p ≤ m * p := Nat.mul_le_mul_right p hk
    rw [Nat.add_mul, Nat.one_mul] at this
    omega
  cases hc : (elems.drop (k * p)).take p with
  | nil => rw [hc] at h1; simp at h1; omega
  | cons v r => exact ⟨v, by simp⟩

theorem complexPair_of {names : List Str} {types : List FT} (h : complexPair names types = true) : ComplexPair names types := by
  unfold complexPair at h
  rw [Bool.and_eq_true, beq_iff_eq] at h
  refine ⟨h.1, ?_⟩
  obtain ⟨d, hd, h2⟩ := List.any_eq_true.mp h.2
  refine ⟨d, by simpa using hd, FT.eq_of_beqL _ _ h2⟩

theorem fits_not_object {dt : DT} {e : El} (h : FitsDT dt e) : dt ≠ .object := by
  rintro rfl
  cases e <;> exact h.elim

theorem fits_not_ref {dt : DT} {e : El} (h : FitsDT dt e) : dt ≠ .ref := by
  rintro rfl
  cases e <;> exact h.elim

theorem occurs_plain {d : NpDT} {s : Str} (h : Occurs d (.plain s)) : 0 ∉ d.shape := by
  cases h; simp [NpDT.shape]

theorem occurs_subDT {d e : NpDT} {sp : List Nat} (hs : 0 ∉ sp) (he : ∀ d, Occurs d e → 0 ∉ d.shape) (h : Occurs d (subDT sp e)) : 0 ∉ d.shape := by
  unfold subDT at h
  split at h
  · exact he d h
  · cases h with
    | self => exact hs
    | base _ _ h => exact he d h

/-- Such fields can be stored as they are. -/
theorem fieldVal_type {t : FT} {v : Val} (h : FieldVal t v) : FT.hasObject t = false ∧ FT.hasNull t = false ∧ FT.hasPair t = false ∧ ∀ d, Occurs d (FT.npdt t) → 0 ∉ d.shape := by
  induction h with
  | number dt e _ _ h =>
    refine ⟨by rw [FT.hasObject]; simp [fits_not_object h], rfl, rfl, fun d hd => ?_⟩
    rw [FT.npdt] at hd
    exact occurs_subDT (by simp) (fun d => occurs_plain) hd
  | bytes n b _ _ =>
    refine ⟨rfl, rfl, rfl, fun d hd => ?_⟩
    rw [FT.npdt] at hd
    exact occurs_subDT (by simp) (fun d => occurs_plain) hd
  | array dt sp data _ _ h0 hl h =>
    refine ⟨?_, rfl, rfl, fun d hd => ?_⟩
    · rw [FT.hasObject]
      cases data with
      | nil => have := prodN_pos h0; simp at hl; omega
      | cons e r => simp [fits_not_object (h e (by simp))]
    · rw [FT.npdt] at hd
      exact occurs_subDT h0 (fun d => occurs_plain) hd
  | struct c names types sp elems _ hn h0 hp ht hl _ ih =>
    have key : ∀ t ∈ types, FT.hasObject t = false ∧ FT.hasNull t = false ∧ FT.hasPair t = false ∧ ∀ d, Occurs d (FT.npdt t) → 0 ∉ d.shape := by
      intro t htm
      obtain ⟨k, hk, rfl⟩ := List.mem_iff_getElem.mp htm
      obtain ⟨v, hv⟩ := col_ne hl (prodN_pos h0) (show k < names.length by omega)
      exact ih k _ (List.getElem?_eq_getElem hk) v hv
    refine ⟨?_, ?_, ?_, ?_⟩
    · rw [FT.hasObject, Bool.eq_false_iff, Ne, hasObjectL_iff]
      rintro ⟨t, h1, h2⟩
      rw [(key t h1).1] at h2; cases h2
    · rw [FT.hasNull, Bool.eq_false_iff, Ne, Bool.or_eq_true, hasNullL_iff]
      rintro (h | ⟨t, h1, h2⟩)
      · obtain ⟨m, h1, h2⟩ := List.any_eq_true.mp h
        exact hn m h1 ((nulName_iff m).mp h2)
      · rw [(key t h1).2.1] at h2; cases h2
    · rw [FT.hasPair, Bool.eq_false_iff, Ne, Bool.or_eq_true, hasPairL_iff]
      rintro (h | ⟨t, h1, h2⟩)
      · exact hp (complexPair_of h)
      · rw [(key t h1).2.2.1] at h2; cases h2
    · intro d hd
      rw [FT.npdt] at hd
      refine occurs_subDT h0 (fun d hd => ?_) hd
      cases hd with
      | self => simp [NpDT.shape]
      | field n t _ hm ho =>
        obtain ⟨t, h1, rfl⟩ := npdtL_mem hm
        exact (key t h1).2.2.2 d ho

/-- A structured dtype with such fields is not stored in a Group. -/
theorem goodTable_type {o : COpts} {c : Cont} {shape : List Nat} {names : List Str} {types : List FT} {elems : List Val} (h : GoodTable o c shape names types elems) :
    structAsGroup o names types = false ∧ complexPair names types = false ∧ FT.hasPairL types = false := by
  have key : ∀ t ∈ types, FT.hasObject t = false ∧ FT.hasNull t = false ∧ FT.hasPair t = false ∧ ∀ d, Occurs d (FT.npdt t) → 0 ∉ d.shape := by
    intro t htm
    obtain ⟨k, hk, rfl⟩ := List.mem_iff_getElem.mp htm
    obtain ⟨v, hv⟩ := col_ne h.filled h.size (show k < names.length by have := h.typed; omega)
    exact fieldVal_type (h.fields k _ (List.getElem?_eq_getElem hk) v hv)
  refine ⟨?_, ?_, ?_⟩
  · unfold structAsGroup
    rw [h.table]
    have h1 : FT.hasObjectL types = false := by
      rw [Bool.eq_false_iff, Ne, hasObjectL_iff]
      rintro ⟨t, h1, h2⟩
      rw [(key t h1).1] at h2; cases h2
    have h2 : FT.hasNullL types = false := by
      rw [Bool.eq_false_iff, Ne, hasNullL_iff]
      rintro ⟨t, h1, h2⟩
      rw [(key t h1).2.1] at h2; cases h2
    have h3 : names.any nameHasNull = false := by
      rw [Bool.eq_false_iff]
      intro hn
      obtain ⟨m, h1, h2⟩ := List.any_eq_true.mp hn
      exact h.named.2.2.2 m h1 ((nulName_iff m).mp h2)
    have h4 : doesDtypeHaveAZeroShape (.struct (FT.npdtL names types)) = false := by
      rw [Bool.eq_false_iff, Ne, C22_zero_shape]
      rintro ⟨d, hd, h0⟩
      cases hd with
      | self => simp [NpDT.shape] at h0
      | field n t _ hm ho =>
        obtain ⟨t, h1, rfl⟩ := npdtL_mem hm
        exact (key t h1).2.2.2 d ho h0
    rw [h1, h2, h3, h4]; rfl
  · rw [Bool.eq_false_iff]
    exact fun hc => h.notComplex (complexPair_of hc)
  · rw [Bool.eq_false_iff, Ne, hasPairL_iff]
    rintro ⟨t, h1, h2⟩
    rw [(key t h1).2.2.1] at h2; cases h2

end HS
