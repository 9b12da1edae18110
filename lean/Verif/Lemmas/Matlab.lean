import Verif.Spec.Matlab
import Verif.Lemmas.Stored
import Verif.Lemmas.RtScalar
import Verif.Props.Complex
/-
Reading Datasets that only have MATLAB's attributes.
-/
namespace HS
open Spec

theorem reversedElems_T {α : Type} [Inhabited α] {s : List Nat} {d : List α} (h : d.length = prodN s) : ReversedElems s d (transposeData s d) :=
  ⟨h, by rw [length_transposeData, prodN_reverse], fun _ hi => getElem?_transposeData s _ d (indexOf_valid hi) h⟩

theorem valid_indexOf {s i : List Nat} (h : ValidIx s i) : IndexOf s i := by
  induction h with
  | nil => exact ⟨rfl, fun k hk => absurd hk (Nat.not_lt_zero k)⟩
  | @cons d i s t hi _ ih =>
    refine ⟨by simp [ih.1], ?_⟩
    intro k hk
    cases k with
    | zero => simpa using hi
    | succ k => simpa using ih.2 k (by simpa using hk)

/-- There is only one reversed list. -/
theorem reversedElems_eq {α : Type} [Inhabited α] {s : List Nat} {d t : List α} (h : ReversedElems s d t) : t = transposeData s d := by
  obtain ⟨hd, ht, he⟩ := h
  apply List.ext_getElem?
  intro k
  by_cases hk : k < prodN s.reverse
  · have hk' : k < (indicesN s.reverse).length := by rw [length_indicesN]; exact hk
    have hg : (indicesN s.reverse)[k]? = some ((indicesN s.reverse)[k]) := List.getElem?_eq_getElem hk'
    generalize (indicesN s.reverse)[k] = i at hg
    have hv : ValidIx s.reverse i := (mem_indicesN _ i).mp (List.mem_of_getElem? hg)
    have hr := ravelN_of_getElem _ k i hg
    have hv' : ValidIx s i.reverse := by have := validIx_reverse hv; rwa [List.reverse_reverse] at this
    have h1 := he i.reverse (valid_indexOf hv')
    have h2 := getElem?_transposeData s i.reverse d hv' hd
    rw [List.reverse_reverse, hr] at h1 h2
    rw [h1, h2]
  · rw [List.getElem?_eq_none (by omega), List.getElem?_eq_none (by rw [length_transposeData, ← prodN_reverse]; omega)]

theorem reversedOf_T {a : Arr} (h : a.data.length = prodN a.shape) : ReversedOf a a.T := ⟨rfl, rfl, reversedElems_T h⟩

theorem reversedOf_eq {a t : Arr} (h : ReversedOf a t) : t = a.T := by
  obtain ⟨h1, h2, h3⟩ := h
  have h4 := reversedElems_eq h3
  cases t
  simp only [Arr.T] at *
  simp_all

theorem transposeData_map {α β : Type} [Inhabited α] [Inhabited β] (f : α → β) (s : List Nat) (d : List α) (h : d.length = prodN s) :
    transposeData s (d.map f) = (transposeData s d).map f := by
  simp only [transposeData, List.map_map]
  apply List.map_congr_left
  intro i hi
  have hv : ValidIx s i.reverse := by have := validIx_reverse ((mem_indicesN _ i).mp hi); rwa [List.reverse_reverse] at this
  have hl : ravelN s i.reverse < d.length := by rw [h]; exact ravelN_lt hv
  simp [List.getD_eq_getElem?_getD, hl]

theorem mapM_boolEl (l : List El) (h : ∀ e ∈ l, ∃ v : Int, e = .num v) :
    l.mapM boolEl = .ok (l.map fun e => if e = .num 0 then .num 0 else .num 1) := by
  induction l with
  | nil => rfl
  | cons e r ih =>
    obtain ⟨v, rfl⟩ := h e (by simp)
    rw [List.mapM_cons, ih fun e he => h e (by simp [he])]
    by_cases hv : v = 0
    · subst hv; rfl
    · simp only [boolEl, if_neg hv, List.map_cons, El.num.injEq]
      rfl

/-- Reading an object with MATLAB's attributes only: the class decides. -/
theorem read_matlab {o : COpts} {V : View} {excl : Option Nat} {n p : Nat} {ob : Obj} {cls : Str} {a : Arr}
    (hV : V p = some ob) (hm : MatlabOnly ob cls) (hd : HasData ob a) :
    readData o V excl (n + 1) p = readDset (readData o V excl n) a >>= fun d =>
      match matlabDT cls with
      | some dt => matlabFinish cls dt (attrIsOne (aget ob.attrs p!"MATLAB_empty")) d
      | none => .ok (d.toVal .ndarray) := by
  obtain ⟨f, hb⟩ := hd
  have hc : attrToString (aget ob.attrs p!"MATLAB_class") = .ok (some cls) := by
    rw [hm.cls.1]
    simp only [attrToString, utf8Dec_ascii cls hm.cls.2]
    rfl
  simp only [readData, hV, hm.noType]
  rw [hc]
  change readNp (looksMulti V) (readData o V excl n) o excl ob = _
  unfold readNp
  simp only [hm.noType, hm.noUnder, hm.noCont, hm.noPyFields, hm.noFields, hm.noShape, hb]
  rw [hc]
  cases hr : readDset (readData o V excl n) a with
  | error e => rfl
  | ok d =>
    simp only [bind, Except.bind, attrToString, attrToStrings]
    unfold finish
    simp only [hm.noShape, hm.noFields, ite_self]
    cases matlabDT cls with
    | some dt => rfl
    | none => rfl

theorem readDset_plain {rd : Rd} {a : Arr} (h : a.dt ≠ .ref) (hc : ∀ o s n t, a.dt ≠ .comp o s n t) : readDset rd a = .ok (.arr false a) := by
  unfold readDset
  rw [if_neg h]
  split
  · rename_i h; exact absurd h (hc _ _ _ _)
  · rfl

/-- Integers are no compounds. -/
theorem int_not_comp {dt : DT} (h : dt ∈ [DT.u8, .u16, .u32, .u64, .i8, .i16, .i32, .i64]) : ∀ o s n t, dt ≠ .comp o s n t := by
  intro o s n t hc
  subst hc
  simp at h

theorem knownClass_dt {c : Str} {dt : DT} (h : KnownClass c dt) : matlabDT c = some dt := by
  cases h with
  | num h => cases h <;> rfl
  | _ => rfl

theorem saysEmpty_iff {ob : Obj} : SaysEmpty ob ↔ attrIsOne (aget ob.attrs p!"MATLAB_empty") = true := by
  unfold SaysEmpty
  generalize aget ob.attrs p!"MATLAB_empty" = v
  cases v with
  | none => simp [attrIsOne]
  | some v =>
    cases v with
    | u64s l =>
      match l with
      | [] => simp [attrIsOne]
      | [x] => simp [attrIsOne]
      | x :: y :: r => simp [attrIsOne]
    | _ => simp [attrIsOne]

/-- The text of a row. -/
theorem decode_row {dt : DT} {s : Str} {u : List Nat} (k : Nat) (hdt : dt = .u8 ∨ dt = .u16 ∨ dt = .u32) (hu : Units dt s u) (hs : Storable s) :
    decodeChunk dt (u ++ List.replicate k 0) = .ok s := by
  rcases hdt with rfl | rfl | rfl
  · have h1 : s.getLast? ≠ some 0 := fun h => hs.2 0 h rfl
    have h2 := utf8Enc_last s u hu h1
    simp only [decodeChunk, stripNul_append_zeros _ _ h2]
    exact utf8Dec_enc s u hu
  · exact decodeChunk_u16 s u k hu hs.2
  · obtain rfl : u = s := hu
    exact decodeChunk_u32 u k hs

theorem mulLast_snoc (rest : List Nat) (n : Nat) : mulLast n (rest ++ [1]) = rest ++ [n] := by
  induction rest with
  | nil => simp [mulLast]
  | cons d r ih =>
    cases r with
    | nil => simp [mulLast]
    | cons e r => simpa [mulLast] using ih

theorem convert_textRows {t : Arr} {rest : List Nat} {n : Nat} {ss : List Str} (h : TextRows t rest n ss) (hs : ∀ s ∈ ss, Storable s) :
    convertToNumpyStr (.np false t) none = .ok (false, mkStrArr (rest ++ [1]) ss) ∧ ss.length = prodN (rest ++ [1]) := by
  obtain ⟨hdt, hsh, hpos, us, hus, hlen, hw, hdata⟩ := h
  have hl : ss.length = us.length := by
    clear hlen hw hdata hs
    induction hus with
    | nil => rfl
    | cons _ _ ih => simp [ih]
  have hp : prodN (rest ++ [1]) = prodN rest := by rw [prodN_append]; simp [prodN]
  refine ⟨?_, by rw [hl, hlen, hp]⟩
  have hm : (us.map fun u => u ++ List.replicate (n - u.length) 0).mapM (decodeChunk t.dt) = .ok ss := by
    rw [mapM_ok_forall2]
    clear hlen hdata hl
    induction hus with
    | nil => exact .nil
    | @cons s u ss us hu _ ih =>
      exact .cons (decode_row _ hdt hu (hs s (by simp))) (ih (fun s h => hs s (by simp [h])) (fun u h => hw u (by simp [h])))
  have hc := uintsToStr_chunks t.dt (rest ++ [1]) n hpos (by simp) _ ss (by rw [List.length_map, hlen, hp])
    (by
      intro c hc
      obtain ⟨u, hu, rfl⟩ := List.mem_map.mp hc
      have := hw u hu
      simp; omega) hm
  have ht : (⟨t.dt, mulLast n (rest ++ [1]), (us.map fun u => u ++ List.replicate (n - u.length) 0).flatten.map fun (x : Nat) => El.num x⟩ : Arr) = t := by
    cases t
    simp only at hsh hdata
    rw [mulLast_snoc, hdata, hsh, ← map_flatten_num, List.map_map, flatMap_eq_flatten_map]
    rfl
  rw [ht] at hc
  have hn : uintsToStr t none = uintsToStr t (some n) := by
    simp only [uintsToStr, hsh, Option.getD_none, Option.getD_some]
    simp
  have he : t.shape.isEmpty = false := by rw [hsh]; simp
  obtain ⟨dt, sh, da⟩ := t
  simp only at hdt
  rcases hdt with rfl | rfl | rfl <;> (simp only [convertToNumpyStr, he, Bool.or_self]; rw [hn, hc]; rfl)

end HS
