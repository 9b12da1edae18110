import Verif.Spec.PlainRead
import Verif.Lemmas.MatStruct
import Verif.Lemmas.AttrTable
import Verif.Lemmas.Matlab
import Verif.Lemmas.Stored
/-
Structured arrays made of object arrays of different shapes.
-/
namespace HS
open Spec

theorem zeroCols_flatMap (n : Nat) (zs : List Val) (types : List FT) (hl : zs.length = types.length)
    (h : ∀ (i : Nat) (t : FT) (z : Val), types[i]? = some t → zs[i]? = some z → zeroVal t = z) : zeroCols n types = zs.flatMap fun z => List.replicate n z := by
  induction types generalizing zs with
  | nil =>
    cases zs with
    | nil => unfold zeroCols; rfl
    | cons => cases hl
  | cons t types ih =>
    cases zs with
    | nil => cases hl
    | cons z zs =>
      unfold zeroCols
      rw [h 0 t z rfl rfl, ih zs (by simpa using hl) fun i t z h1 h2 => h (i + 1) t z (by simpa using h1) (by simpa using h2)]
      rfl

theorem zeroEl_eq {d : DT} {e : El} (h : ZeroEl d e) : zeroEl d = e ∧ d ≠ .object := by
  cases h with
  | num _ h h1 h2 =>
    simp only [NumericDT, List.mem_cons, List.not_mem_nil, or_false] at h
    rcases h with rfl | rfl | rfl | rfl | rfl | rfl | rfl | rfl | rfl | rfl | rfl | rfl | rfl | rfl
    all_goals first
      | exact ⟨rfl, nofun⟩
      | exact absurd rfl h1
      | exact absurd rfl h2
  | c64 => exact ⟨rfl, nofun⟩
  | c128 => exact ⟨rfl, nofun⟩
  | crec => exact ⟨rfl, nofun⟩
  | bytes => exact ⟨rfl, nofun⟩
  | str => exact ⟨rfl, nofun⟩

theorem ft_ne {d : DT} {sp : List Nat} (h : d ≠ .object ∨ sp ≠ []) : FT.base d sp ≠ .base .object [] := by
  intro e
  injection e with e1 e2
  rcases h with h | h
  · exact h e1
  · exact h e2

theorem stripNul_zeros (n : Nat) : stripNul (List.replicate n 0) = [] := stripNul_append_zeros [] n (by simp)

theorem zeroVal_eq {t : FT} {z : Val} (h : ZeroOf t z) : zeroVal t = z := by
  induction h with
  | object => unfold zeroVal; rfl
  | objects sp h0 => unfold zeroVal; rw [if_pos rfl, if_neg h0]
  | scalar d e hd he =>
    obtain ⟨h1, h2⟩ := zeroEl_eq he
    unfold zeroVal packEl
    rw [if_neg h2, if_neg (ft_ne (.inl h2))]
    show (if ([] : List Nat) = [] then (match flat0 (.arr false (npZeros d [])) with | .ok w => w | .error _ => _) else _) = _
    rw [if_pos rfl]
    unfold npZeros
    rw [h1]
    show (match flat0 (.arr false ⟨d, [], [e]⟩) with | .ok w => w | .error _ => _) = _
    generalize hg : (Val.np Cont.ndarray ⟨d, [], List.replicate (prodN []) e⟩) = w0
    cases d with
    | bytes n => exact absurd rfl (hd n).1
    | str n => exact absurd rfl (hd n).2
    | _ => rfl
  | bytes n =>
    unfold zeroVal packEl
    rw [if_neg (by intro h; cases h), if_neg (ft_ne (d := .bytes n) (sp := []) (.inl (by intro h; cases h)))]
    show Val.np .scalar (npBytes (stripNul (List.replicate n 0))) = _
    rw [stripNul_zeros]
  | str n =>
    unfold zeroVal packEl
    rw [if_neg (by intro h; cases h), if_neg (ft_ne (d := .str n) (sp := []) (.inl (by intro h; cases h)))]
    show Val.np .scalar (npStr (stripNul (List.replicate n 0))) = _
    rw [stripNul_zeros]
  | array d sp e h0 he =>
    obtain ⟨h1, h2⟩ := zeroEl_eq he
    unfold zeroVal packEl
    rw [if_neg h2, if_neg (ft_ne (.inl h2))]
    show (if sp = [] then _ else Val.np .ndarray (npZeros d sp)) = _
    rw [if_neg h0]
    unfold npZeros
    rw [h1]
  | struct names types sp zs hl _ ih =>
    unfold zeroVal
    rw [zeroCols_flatMap (prodN sp) zs types hl ih]

theorem contains_zero {s : List Nat} : s.contains 0 = true ↔ 0 ∈ s := List.contains_iff_mem

theorem within_iff {s i : List Nat} : within s i = true ↔ IndexOf s i := by
  induction s generalizing i with
  | nil =>
    cases i with
    | nil => exact ⟨fun _ => valid_indexOf .nil, fun _ => rfl⟩
    | cons a i => exact ⟨fun h => by simp [within] at h, fun h => by have := h.1; simp at this⟩
  | cons d s ih =>
    cases i with
    | nil => exact ⟨fun h => by simp [within] at h, fun h => by have := h.1; simp at this⟩
    | cons a i =>
      have e : within (d :: s) (a :: i) = (decide (a < d) && within s i) := by
        simp [within]
        cases decide (a < d) <;> simp
      rw [e, Bool.and_eq_true, decide_eq_true_eq, ih]
      constructor
      · rintro ⟨h1, h2⟩
        exact valid_indexOf (.cons h1 (indexOf_valid h2))
      · intro h
        cases indexOf_valid h with
        | cons h1 h2 => exact ⟨h1, valid_indexOf h2⟩

theorem not_indexOf {s i : List Nat} (h0 : 0 ∈ s) : ¬ IndexOf s i := by
  intro h
  have h1 := ravelN_lt (indexOf_valid h)
  rw [prodN_zero.mpr h0] at h1
  omega

theorem fits_broadcasts {S s : List Nat} (h : Fits S s) (t : FT) : broadcasts S t s = false := by
  unfold broadcasts
  rcases h with h | h | h | ⟨h, _⟩
  · simp [h]
  · rw [contains_zero.mpr h]; simp
  · rw [contains_zero.mpr h]; simp
  · simp [h]

theorem zip_over {S s : List Nat} (hl : s.length = S.length) : ((s.zip S).any fun p => decide (p.2 < p.1)) = false ↔ ∀ k : Nat, s.getD k 0 ≤ S.getD k 0 := by
  induction s generalizing S with
  | nil =>
    cases S with
    | nil => simp
    | cons => cases hl
  | cons a s ih =>
    cases S with
    | nil => cases hl
    | cons b S =>
      rw [List.zip_cons_cons, List.any_cons, Bool.or_eq_false_iff, ih (by simpa using hl)]
      simp only [decide_eq_false_iff_not, Nat.not_lt]
      constructor
      · rintro ⟨h1, h2⟩ k
        cases k with
        | zero => simpa using h1
        | succ k => simpa using h2 k
      · intro h
        exact ⟨by simpa using h 0, fun k => by simpa using h (k + 1)⟩

theorem fits_beyond {S s : List Nat} (h : Fits S s) : beyond S s = false := by
  unfold beyond
  rcases h with h | h | h | ⟨h, h1⟩
  · simp [h]
  · rw [contains_zero.mpr h]; simp
  · rw [contains_zero.mpr h]; simp
  · rw [(zip_over h).mpr h1]
    simp [h]

/-- What the field gets. -/
theorem spread_filled {S s : List Nat} {t : FT} {es : List Val} (hs : es.length = prodN s) (hF : Fits S s) (ht : FieldTypeOf es t) (hz : ∀ w ∈ es, Sized w) :
    FilledWith S s t es (spread S t s es) := by
  have hand : ∀ v ∈ es, Handed t v (packEl t v) := fun v hv => packEl_handed ht hv (hz v hv)
  have get : ∀ {i : List Nat}, IndexOf s i → ∃ v, es[ravelN s i]? = some v ∧ v ∈ es := by
    intro i hi
    have h1 := ravelN_lt (indexOf_valid hi)
    rw [← hs] at h1
    exact ⟨_, List.getElem?_eq_getElem h1, List.getElem_mem h1⟩
  unfold spread
  by_cases h1 : s = S
  · subst h1
    rw [if_pos rfl]
    refine ⟨by rw [List.length_map, hs], ?_, fun i z h h' => absurd h h'⟩
    intro i hi _
    obtain ⟨v, hv, hm⟩ := get hi
    exact ⟨v, packEl t v, hv, by rw [List.getElem?_map, hv]; rfl, hand v hm⟩
  rw [if_neg h1]
  by_cases h2 : 0 ∈ S
  · rw [if_pos (contains_zero.mpr h2)]
    exact ⟨by rw [prodN_zero.mpr h2]; rfl, fun i h => absurd h (not_indexOf h2), fun i z h => absurd h (not_indexOf h2)⟩
  rw [if_neg (fun h => h2 (contains_zero.mp h))]
  by_cases h3 : 0 ∈ s
  · rw [if_pos (contains_zero.mpr h3)]
    refine ⟨by rw [List.length_replicate], fun i _ h => absurd h (not_indexOf h3), ?_⟩
    intro i z hi _ hz'
    rw [List.getElem?_replicate, if_pos (ravelN_lt (indexOf_valid hi)), zeroVal_eq hz']
  rw [if_neg (fun h => h3 (contains_zero.mp h))]
  refine ⟨by rw [List.length_map, length_indicesN], ?_, ?_⟩
  · intro i hi hi'
    obtain ⟨v, hv, hm⟩ := get hi'
    refine ⟨v, packEl t v, hv, ?_, hand v hm⟩
    rw [List.getElem?_map, indicesN_ravel (indexOf_valid hi)]
    show some (if within s i = true then (match es[ravelN s i]? with | some v => packEl t v | none => zeroVal t) else _) = _
    rw [if_pos (within_iff.mpr hi'), hv]
  · intro i z hi hi' hz'
    rw [List.getElem?_map, indicesN_ravel (indexOf_valid hi)]
    show some (if within s i = true then _ else zeroVal t) = _
    rw [if_neg (fun h => hi' (within_iff.mp h)), zeroVal_eq hz']

end HS
