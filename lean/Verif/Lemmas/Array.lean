import Verif.Model.Array
/-
Transposing twice is the identity, for every rank.
-/
namespace HS

theorem prodN_append (a b : List Nat) : prodN (a ++ b) = prodN a * prodN b := by
  induction a with
  | nil => simp [prodN]
  | cons d r ih => simp [prodN, ih, Nat.mul_assoc]

theorem prodN_reverse (s : List Nat) : prodN s.reverse = prodN s := by
  induction s with
  | nil => rfl
  | cons d r ih => simp [prodN_append, prodN, ih, Nat.mul_comm]

theorem length_flatMap_const {α β : Type} (l : List α) (f : α → List β) (c : Nat) (h : ∀ a ∈ l, (f a).length = c) :
    (l.flatMap f).length = l.length * c := by
  induction l with
  | nil => simp
  | cons a r ih =>
    simp only [List.flatMap_cons, List.length_append, List.length_cons]
    rw [h a (by simp), ih (fun x hx => h x (by simp [hx])), Nat.succ_mul]; omega

theorem length_indicesN (s : List Nat) : (indicesN s).length = prodN s := by
  induction s with
  | nil => rfl
  | cons d r ih =>
    rw [indicesN, length_flatMap_const _ _ (prodN r)]
    · simp [prodN]
    · intro a _; simp [ih]

/-- A valid index tuple. -/
inductive ValidIx : List Nat → List Nat → Prop
  | nil : ValidIx [] []
  | cons {d i : Nat} {s t : List Nat} : i < d → ValidIx s t → ValidIx (d :: s) (i :: t)

theorem mem_indicesN (s i : List Nat) : i ∈ indicesN s ↔ ValidIx s i := by
  induction s generalizing i with
  | nil =>
    simp only [indicesN, List.mem_singleton]
    constructor
    · rintro rfl; exact .nil
    · intro h; cases h; rfl
  | cons d r ih =>
    simp only [indicesN, List.mem_flatMap, List.mem_range, List.mem_map]
    constructor
    · rintro ⟨k, hk, t, ht, rfl⟩; exact .cons hk ((ih t).mp ht)
    · intro h; cases h with
      | cons h1 h2 => exact ⟨_, h1, _, (ih _).mpr h2, rfl⟩

theorem validIx_append {a b i j : List Nat} (h1 : ValidIx a i) (h2 : ValidIx b j) : ValidIx (a ++ b) (i ++ j) := by
  induction h1 with
  | nil => simpa
  | cons h _ ih => exact .cons h ih

theorem validIx_reverse {a i : List Nat} (h : ValidIx a i) : ValidIx a.reverse i.reverse := by
  induction h with
  | nil => exact .nil
  | cons h _ ih => simpa using validIx_append ih (.cons h .nil)

theorem ravelN_lt {s i : List Nat} (h : ValidIx s i) : ravelN s i < prodN s := by
  induction h with
  | nil => simp [ravelN, prodN]
  | @cons d i s t h _ ih =>
    simp only [ravelN, prodN]
    have : (i + 1) * prodN s ≤ d * prodN s := Nat.mul_le_mul_right _ h
    rw [Nat.succ_mul] at this; omega

theorem getElem?_flatMap_const {α β : Type} (l : List α) (f : α → List β) (c : Nat) (h : ∀ a ∈ l, (f a).length = c)
    (k j : Nat) (hj : j < c) : (l.flatMap f)[k * c + j]? = (l[k]?).bind fun a => (f a)[j]? := by
  induction l generalizing k with
  | nil => simp
  | cons a r ih =>
    have ha := h a (by simp)
    have ih := ih (fun x hx => h x (by simp [hx]))
    simp only [List.flatMap_cons]
    cases k with
    | zero => simp [List.getElem?_append_left (show j < (f a).length by omega)]
    | succ k =>
      rw [List.getElem?_append_right (by rw [ha, Nat.succ_mul]; omega), ha,
        show (k + 1) * c + j - c = k * c + j by rw [Nat.succ_mul]; omega, ih]
      simp

theorem indicesN_ravel {s i : List Nat} (h : ValidIx s i) : (indicesN s)[ravelN s i]? = some i := by
  induction h with
  | nil => rfl
  | @cons d i s t h ht ih =>
    simp only [ravelN, indicesN]
    rw [getElem?_flatMap_const _ _ (prodN s) (by intro a _; simp [length_indicesN]) _ _ (ravelN_lt ht)]
    simp [h, ih]

theorem indicesN_nodup (s : List Nat) (a b : Nat) (i : List Nat) (ha : (indicesN s)[a]? = some i) (hb : (indicesN s)[b]? = some i) : a = b := by
  -- via the left inverse `ravelN`
  have key : ∀ (s : List Nat) (k : Nat) (i : List Nat), (indicesN s)[k]? = some i → ravelN s i = k := by
    intro s
    induction s with
    | nil =>
      intro k i h
      cases k with
      | zero => simp [indicesN] at h; subst h; rfl
      | succ k => simp [indicesN] at h
    | cons d r ih =>
      intro k i h
      have hlt : k < (indicesN (d :: r)).length := (List.getElem?_eq_some_iff.mp h).1
      rw [length_indicesN, prodN] at hlt
      have hpos : 0 < prodN r := by
        rcases Nat.eq_zero_or_pos (prodN r) with h0 | h0
        · rw [h0] at hlt; omega
        · exact h0
      have hk : k = k / prodN r * prodN r + k % prodN r := by
        have := Nat.div_add_mod k (prodN r); rw [Nat.mul_comm] at this; omega
      have hm : k % prodN r < prodN r := Nat.mod_lt _ hpos
      rw [indicesN, hk, getElem?_flatMap_const _ _ (prodN r) (by intro a _; simp [length_indicesN]) _ _ hm] at h
      simp only [Option.bind_eq_some_iff, List.getElem?_map, Option.map_eq_some_iff] at h
      obtain ⟨q, hq, t, ht, rfl⟩ := h
      have hq' := List.getElem?_eq_some_iff.mp hq
      have : q = k / prodN r := by have := hq'.2; simp at this; omega
      simp only [ravelN, ih _ _ ht, this]
      omega
  rw [← key s a i ha, ← key s b i hb]

theorem ravelN_of_getElem (s : List Nat) (k : Nat) (i : List Nat) (h : (indicesN s)[k]? = some i) : ravelN s i = k := by
  have hm : i ∈ indicesN s := List.mem_of_getElem? h
  have hv := (mem_indicesN s i).mp hm
  exact indicesN_nodup s _ _ i (indicesN_ravel hv) h

theorem length_transposeData {α : Type} [Inhabited α] (s : List Nat) (d : List α) :
    (transposeData s d).length = prodN s := by
  simp [transposeData, length_indicesN, prodN_reverse]

/-- Element `i` of the transpose is element `i.reverse` of the original. -/
theorem getElem?_transposeData {α : Type} [Inhabited α] (s i : List Nat) (d : List α) (hi : ValidIx s i) (hd : d.length = prodN s) :
    (transposeData s d)[ravelN s.reverse i.reverse]? = d[ravelN s i]? := by
  have hv := validIx_reverse hi
  simp only [transposeData, List.getElem?_map, indicesN_ravel hv, Option.map_some, List.reverse_reverse]
  have hl : ravelN s i < d.length := by rw [hd]; exact ravelN_lt hi
  simp [hl]

theorem transpose_transpose {α : Type} [Inhabited α] (s : List Nat) (d : List α) (hd : d.length = prodN s) :
    transposeData s.reverse (transposeData s d) = d := by
  apply List.ext_getElem?
  intro k
  by_cases hk : k < prodN s
  · have hk' : k < (indicesN s).length := by rw [length_indicesN]; exact hk
    have hg : (indicesN s)[k]? = some ((indicesN s)[k]) := List.getElem?_eq_getElem hk'
    generalize (indicesN s)[k] = i at hg
    have hv : ValidIx s i := (mem_indicesN s i).mp (List.mem_of_getElem? hg)
    have hr := ravelN_of_getElem s k i hg
    have h1 := getElem?_transposeData s.reverse i.reverse (transposeData s d) (validIx_reverse hv)
      (by rw [length_transposeData, prodN_reverse])
    simp only [List.reverse_reverse] at h1
    rw [hr] at h1
    rw [h1, getElem?_transposeData s i d hv hd, hr]
  · rw [List.getElem?_eq_none (by rw [length_transposeData, prodN_reverse]; omega),
      List.getElem?_eq_none (by omega)]

theorem prodN_atleast2d (s : List Nat) : prodN (atleast2dShape s) = prodN s := by
  match s with
  | [] => rfl
  | [n] => simp [atleast2dShape, prodN]
  | _ :: _ :: _ => rfl

theorem prodN_atleast1d (s : List Nat) : prodN (atleast1dShape s) = prodN s := by
  match s with
  | [] => rfl
  | _ :: _ => rfl

theorem prodN_mulLast (k : Nat) (s : List Nat) (h : s ≠ []) : prodN (mulLast k s) = prodN s * k := by
  induction s with
  | nil => exact absurd rfl h
  | cons d r ih =>
    cases r with
    | nil => simp [mulLast, prodN]
    | cons e r => 
      have h2 := ih (by simp)
      simp only [mulLast] at h2 ⊢
      rw [show prodN (d :: mulLast k (e :: r)) = d * prodN (mulLast k (e :: r)) from rfl, h2]
      simp [prodN, Nat.mul_assoc]

theorem divLast_mulLast (k : Nat) (s : List Nat) (hk : 0 < k) : divLast k (mulLast k s) = s := by
  induction s with
  | nil => rfl
  | cons d r ih =>
    cases r with
    | nil => simp [mulLast, divLast, Nat.mul_div_cancel _ hk]
    | cons e r =>
      cases r with
      | nil => simp [mulLast, divLast, Nat.mul_div_cancel _ hk]
      | cons f r => simp only [mulLast, divLast] at *; rw [ih]

theorem length_chunksN {α : Type} (k cnt : Nat) (l : List α) : (chunksN k cnt l).length = cnt := by
  induction cnt generalizing l with
  | zero => rfl
  | succ n ih => simp [chunksN, ih]

theorem chunksN_flatten {α : Type} (k : Nat) (ls : List (List α)) (h : ∀ l ∈ ls, l.length = k) :
    chunksN k ls.length ls.flatten = ls := by
  induction ls with
  | nil => rfl
  | cons l r ih =>
    have hl := h l (by simp)
    simp only [List.length_cons, chunksN, List.flatten_cons]
    rw [List.take_left' hl, List.drop_left' hl, ih (fun x hx => h x (by simp [hx]))]

theorem mulLast_ne {sh : List Nat} (hs : sh ≠ []) {n : Nat} : mulLast n sh = sh.dropLast ++ [sh.getLastD 0 * n] := by
  cases sh with
  | nil => exact absurd rfl hs
  | cons d r =>
    clear hs
    induction r generalizing d with
    | nil => simp [mulLast]
    | cons e r ih =>
      rw [mulLast, ih e]
      · simp [List.dropLast]
      · simp

end HS
