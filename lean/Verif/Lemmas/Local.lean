import Verif.Lemmas.FileApi
import Verif.Spec.Local
/-
What reading a place depends on.
-/
namespace HS
open Spec

theorem mapM_congr_mem {α β : Type} {f g : α → Res β} {l : List α} (h : ∀ a ∈ l, f a = g a) : l.mapM f = l.mapM g := by
  induction l with
  | nil => rfl
  | cons a l ih =>
    rw [List.mapM_cons, List.mapM_cons, h a (by simp), ih fun b hb => h b (by simp [hb])]

/-- Two readers agree on what an object refers to. -/
def Agree (mu mu' : Nat → Bool) (rd rd' : Rd) (ex ex' : Option Nat) (b : Body) : Prop := ∀ q, Holds b q → rd' q = rd q ∧ (ex' = some q ↔ ex = some q) ∧ mu' q = mu q

theorem readDset_congr {mu mu' : Nat → Bool} {rd rd' : Rd} {ex ex' : Option Nat} {a : Arr} {f : Filters} (h : Agree mu mu' rd rd' ex ex' (.dset a f)) : readDset rd' a = readDset rd a := by
  unfold readDset
  split
  · rename_i hdt
    congr 1
    apply mapM_congr_mem
    intro e he
    cases e with
    | ref p => exact (h p ⟨hdt, he⟩).1
    | _ => rfl
  · rfl

theorem readFields_congr {rd rd' : Rd} {ex ex' : Option Nat} {l : List (Str × Nat)} (h : ∀ k q, (k, q) ∈ l → rd' q = rd q ∧ (ex' = some q ↔ ex = some q))
    (acc : List (Str × Val)) : readFields rd' ex' l acc = readFields rd ex l acc := by
  induction l generalizing acc with
  | nil => rfl
  | cons a l ih =>
    obtain ⟨k, q⟩ := a
    have ih := ih fun k q hq => h k q (by simp [hq])
    obtain ⟨h1, h2⟩ := h k q (by simp)
    rw [readFields, readFields]
    cases unescapePath k with
    | error e => rfl
    | ok uk =>
      show (if ex' = some q then _ else _) = (if ex = some q then _ else _)
      by_cases he : ex = some q
      · rw [if_pos he, if_pos (h2.mpr he)]; exact ih acc
      · rw [if_neg he, if_neg (fun h => he (h2.mp h)), h1]
        cases rd q with
        | ok v => exact ih _
        | error e => exact ih _

theorem isMulti_congr {mu mu' : Nat → Bool} {ex ex' : Option Nat} {l : List (Str × Nat)} (h : ∀ k q, (k, q) ∈ l → (ex' = some q ↔ ex = some q) ∧ mu' q = mu q) :
    isMulti mu' ex' l = isMulti mu ex l := by
  unfold isMulti
  induction l with
  | nil => rfl
  | cons a l ih =>
    obtain ⟨k, q⟩ := a
    obtain ⟨h1, h2⟩ := h k q (by simp)
    have h3 : (ex' == some q) = (ex == some q) := by
      rw [Bool.eq_iff_iff]
      simp only [beq_iff_eq]
      exact h1
    simp only [List.all_cons]
    rw [ih fun k q hq => h k q (by simp [hq]), h2, h3]

theorem readNp_congr {mu mu' : Nat → Bool} {rd rd' : Rd} {o : COpts} {ex ex' : Option Nat} {ob : Obj} (h : Agree mu mu' rd rd' ex ex' ob.body) : readNp mu' rd' o ex' ob = readNp mu rd o ex ob := by
  unfold readNp
  cases hb : ob.body with
  | group l =>
    rw [hb] at h
    have := readFields_congr (l := sortedLinks l) (fun k q hq => ⟨(h q ⟨k, mem_sortedLinks hq⟩).1, (h q ⟨k, mem_sortedLinks hq⟩).2.1⟩) []
    have hmu : isMulti mu' ex' (sortedLinks l) = isMulti mu ex (sortedLinks l) :=
      isMulti_congr fun k q hq => (h q ⟨k, mem_sortedLinks hq⟩).2
    dsimp only
    rw [this, hmu]
  | dset a f =>
    rw [hb] at h
    dsimp only
    rw [readDset_congr h]

theorem readItem_congr {mu mu' : Nat → Bool} {rd rd' : Rd} {ex ex' : Option Nat} {l : List (Str × Nat)} (h : Agree mu mu' rd rd' ex ex' (.group l)) (conv : Nat → Str → Res Val) (i : Nat) (k : Str) :
    readItem rd' ex' l conv i k = readItem rd ex l conv i k := by
  unfold readItem
  cases unescapePath k with
  | error e => rfl
  | ok uk =>
    cases hq : aget l k with
    | none => rfl
    | some q =>
      obtain ⟨h1, h2, _⟩ := h q ⟨k, hq⟩
      show (if ex' = some q then _ else _) = (if ex = some q then _ else _)
      by_cases he : ex = some q
      · rw [if_pos he, if_pos (h2.mpr he)]
      · rw [if_neg he, if_neg (fun h => he (h2.mp h)), h1]

theorem readItems_congr {mu mu' : Nat → Bool} {rd rd' : Rd} {ex ex' : Option Nat} {l : List (Str × Nat)} (h : Agree mu mu' rd rd' ex ex' (.group l)) (conv : Nat → Str → Res Val) (i : Nat) (ks : List Str) :
    readItems rd' ex' l conv i ks = readItems rd ex l conv i ks := by
  induction ks generalizing i with
  | nil => rfl
  | cons k ks ih => rw [readItems, readItems, readItem_congr h, ih]

theorem readDictItems_congr {mu mu' : Nat → Bool} {rd rd' : Rd} {o : COpts} {ex ex' : Option Nat} {ob : Obj} (h : Agree mu mu' rd rd' ex ex' ob.body) :
    readDictItems rd' o ex' ob = readDictItems rd o ex ob := by
  unfold readDictItems
  cases hb : ob.body with
  | dset a f => rfl
  | group l =>
    rw [hb] at h
    dsimp only
    have key : ∀ k q, aget l k = some q → rd' q = rd q := fun k q hq => (h q ⟨k, hq⟩).1
    congr 1; funext pf
    congr 1; funext stored
    congr 1; funext kvn
    congr 1; funext kst
    congr 1; funext ek
    congr 1; funext ev
    simp only [readItems_congr h]
    by_cases hst : stored = some p!"keys_values"
    · rw [if_pos hst]
      cases hk : aget l ek with
      | none => rfl
      | some qk =>
        cases hv : aget l ev with
        | none => rfl
        | some qv =>
          dsimp only
          rw [key _ _ hk, key _ _ hv]
    · rw [if_neg hst]

theorem readTyped_congr {mu mu' : Nat → Bool} {rd rd' : Rd} {o : COpts} {ex ex' : Option Nat} {ob : Obj} (h : Agree mu mu' rd rd' ex ex' ob.body) (ts : Str) :
    readTyped mu' rd' o ex' ob ts = readTyped mu rd o ex ob ts := by
  unfold readTyped
  rw [readNp_congr h, readDictItems_congr h]

/-- Reading depends on the objects in `S` only, if `S` has everything these refer to. -/
theorem readData_local (o : COpts) {V V' : View} {ex ex' : Option Nat} {S : Nat → Prop} (hV : ∀ p, S p → V' p = V p)
    (hc : ∀ p ob q, S p → V p = some ob → Holds ob.body q → S q) (he : ∀ q, S q → (ex' = some q ↔ ex = some q)) (n p : Nat) (hp : S p) :
    readData o V' ex' n p = readData o V ex n p := by
  induction n generalizing p with
  | zero => rfl
  | succ n ih =>
    rw [readData, readData]
    dsimp only
    rw [hV p hp]
    cases hob : V p with
    | none => rfl
    | some ob =>
      have ag : Agree (looksMulti V) (looksMulti V') (readData o V ex n) (readData o V' ex' n) ex ex' ob.body := fun q hq =>
        have hq := hc p ob q hp hob hq
        ⟨ih q hq, he q hq, by unfold looksMulti; rw [hV q hq]⟩
      dsimp only
      simp only [readNp_congr ag, readTyped_congr ag]

end HS
