import Verif.Lemmas.Unicode
/-
Conversions of str arrays to unsigned integers and back.
-/
namespace HS

theorem isStrArray_mk (shape : List Nat) (ss : List Str) (h : ss.length = prodN shape) :
    Spec.IsStrArray (mkStrArr shape ss) ((ss.map List.length).foldl max 1) ss where
  dt := rfl
  size := h
  data := rfl
  width := fun s hs => le_foldl_max _ _ _ (Or.inl (List.mem_map.mpr ⟨s, hs, rfl⟩))

theorem foldl_max_mem (l : List Nat) (a : Nat) : l.foldl max a = a ∨ l.foldl max a ∈ l := by
  induction l generalizing a with
  | nil => exact .inl rfl
  | cons x l ih =>
    show List.foldl max (max a x) l = a ∨ List.foldl max (max a x) l ∈ x :: l
    rcases ih (max a x) with h | h
    · rw [h]
      rcases Nat.le_total a x with h1 | h1
      · rw [Nat.max_eq_right h1]; exact .inr (by simp)
      · rw [Nat.max_eq_left h1]; exact .inl rfl
    · exact .inr (List.mem_cons_of_mem _ h)

/-- The width of an array of texts is that of the longest one, but at least 1. -/
theorem maxLen_eq (ss : List Str) : 0 < (ss.map List.length).foldl max 1 ∧ ((ss.map List.length).foldl max 1 = 1 ∨ ∃ s ∈ ss, s.length = (ss.map List.length).foldl max 1) := by
  refine ⟨le_foldl_max _ _ _ (Or.inr (Nat.le_refl _)), ?_⟩
  rcases foldl_max_mem (ss.map List.length) 1 with h | h
  · exact .inl h
  · obtain ⟨s, h1, h2⟩ := List.mem_map.mp h
    exact .inr ⟨s, h1, h2⟩

theorem IsStrArray.unique {a b : Arr} {n : Nat} {ss : List Str} (ha : Spec.IsStrArray a n ss) (hb : Spec.IsStrArray b n ss)
    (h : a.shape = b.shape) : a = b := by
  cases a; cases b
  have := ha.dt; have := hb.dt; have := ha.data; have := hb.data
  simp_all

theorem getLastD_mulLast (k : Nat) (s : List Nat) (h : s ≠ []) : (mulLast k s).getLastD 0 = s.getLastD 0 * k := by
  induction s with
  | nil => exact absurd rfl h
  | cons d r ih =>
    cases r with
    | nil => simp [mulLast]
    | cons e r =>
      have := ih (by simp)
      rw [show mulLast k (d :: e :: r) = d :: mulLast k (e :: r) from rfl]
      cases hm : mulLast k (e :: r) with
      | nil => cases r <;> simp [mulLast] at hm
      | cons x y =>
        rw [hm] at this
        simpa using this

/-- Decoding equally wide chunks. -/
theorem uintsToStr_chunks (dt : DT) (shape : List Nat) (n : Nat) (hn : 0 < n) (hs : shape ≠ []) (chunks : List (List Nat)) (ss : List Str)
    (hlen : chunks.length = prodN shape) (hw : ∀ c ∈ chunks, c.length = n)
    (hd : chunks.mapM (decodeChunk dt) = .ok ss) :
    uintsToStr ⟨dt, mulLast n shape, chunks.flatten.map fun (x : Nat) => El.num x⟩ (some n) = .ok (mkStrArr shape ss) := by
  have hlast := getLastD_mulLast n shape hs
  have hp := prodN_mulLast n shape hs
  have hmap : (chunks.flatten.map fun (x : Nat) => El.num x).map El.toNat = chunks.flatten := by
    rw [List.map_map]
    conv => rhs; rw [← List.map_id chunks.flatten]
    apply List.map_congr_left; intro x _; simp [El.toNat]
  unfold uintsToStr
  simp only [Option.getD_some, hlast, hp, hmap]
  rw [if_neg (by omega), if_neg (by simp), Nat.mul_div_cancel _ hn, ← hlen, chunksN_flatten n chunks hw, hd, divLast_mulLast n shape hn]
  rfl

theorem flatMap_eq_flatten_map {α β : Type} (l : List α) (f : α → List β) : l.flatMap f = (l.map f).flatten := by
  induction l with
  | nil => rfl
  | cons a r ih => simp [ih]

theorem map_flatten_num (l : List (List Nat)) :
    (l.map fun c => c.map fun (x : Nat) => El.num x).flatten = l.flatten.map fun (x : Nat) => El.num x := by
  rw [List.map_flatten]

/-- The uint32 path: values are preserved. -/
theorem str_uint32_roundtrip (a : Arr) (n : Nat) (ss : List Str) (ha : Spec.IsStrArray a n ss) (hn : 0 < n)
    (hne : 0 < prodN a.shape) (hst : ∀ s ∈ ss, Spec.Storable s) :
    uintsToStr (convertNumpyStrToUint32 a) (some n) = .ok (mkStrArr (atleast1dShape a.shape) ss) := by
  have hb : a.nbytes ≠ 0 := by
    simp only [Arr.nbytes, ha.dt, DT.itemsize]
    exact Nat.pos_iff_ne_zero.mp (Nat.mul_pos hne (by omega))
  have hi : a.dt.itemsize / 4 = n := by rw [ha.dt, DT.itemsize]; omega
  have hs1 : atleast1dShape a.shape ≠ [] := by cases a.shape <;> simp [atleast1dShape]
  rw [convertNumpyStrToUint32, if_neg hb, hi]
  have hdata : (a.data.flatMap fun e => e.toUnits.map fun (x : Nat) => El.num x)
      = (ss.map fun s => s ++ List.replicate (n - s.length) 0).flatten.map fun (x : Nat) => El.num x := by
    rw [ha.data, flatMap_eq_flatten_map, List.map_map, ← map_flatten_num, List.map_map]
    rfl
  rw [hdata]
  apply uintsToStr_chunks _ _ _ hn hs1
  · simp [ha.size, prodN_atleast1d]
  · intro c hc
    obtain ⟨s, hs, rfl⟩ := List.mem_map.mp hc
    have := ha.width s hs
    simp; omega
  · have := mapM_res_map (decodeChunk .u32) (fun s : Str => s ++ List.replicate (n - s.length) 0) id ss
      (fun s hs => decodeChunk_u32 s _ (hst s hs))
    simpa using this

theorem mapM_length {α β : Type} {f : α → Res β} {l : List α} {r : List β} (h : l.mapM f = .ok r) : r.length = l.length := by
  induction l generalizing r with
  | nil => cases h; rfl
  | cons a t ih =>
    rw [List.mapM_cons] at h
    obtain ⟨b, hb, h⟩ := res_bind_ok.mp h
    obtain ⟨r', hr', h⟩ := res_bind_ok.mp h
    cases h
    simp [ih hr']

/-- Pointwise view of a successful `mapM`. -/
theorem mapM_ok_forall2 {α β : Type} {f : α → Res β} {l : List α} {r : List β} :
    l.mapM f = .ok r ↔ All2 (fun a b => f a = .ok b) l r := by
  induction l generalizing r with
  | nil =>
    constructor
    · intro h; cases h; exact .nil
    · intro h; cases h; rfl
  | cons a t ih =>
    rw [List.mapM_cons]
    constructor
    · intro h
      obtain ⟨b, hb, h⟩ := res_bind_ok.mp h
      obtain ⟨r', hr', h⟩ := res_bind_ok.mp h
      cases h
      exact .cons hb (ih.mp hr')
    · intro h
      cases h with
      | cons h1 h2 =>
        rw [h1, ih.mpr h2]; rfl

theorem forall2_mapM_pad (ss : List Str) (enc : List (List Nat)) (w : Nat)
    (h : All2 (fun s u => utf16Enc s = .ok u) ss enc) (hst : ∀ s ∈ ss, Spec.Storable s) :
    (enc.map fun u => u ++ List.replicate (w - u.length) 0).mapM (decodeChunk .u16) = .ok ss := by
  rw [mapM_ok_forall2]
  induction h with
  | nil => exact .nil
  | @cons s u ss enc hu _ ih =>
    refine .cons ?_ (ih fun s hs => hst s (by simp [hs]))
    exact decodeChunk_u16 s u _ hu (hst s (by simp)).2

theorem enc_of_strArray (a : Arr) (n : Nat) (ss : List Str) (ha : Spec.IsStrArray a n ss) (hst : ∀ s ∈ ss, Spec.Storable s)
    (enc : List (List Nat)) (h : (a.data.mapM fun e => utf16Enc (stripNul e.toUnits)) = .ok enc) :
    All2 (fun s u => utf16Enc s = .ok u) ss enc := by
  rw [ha.data, List.mapM_map] at h
  have h2 := mapM_ok_forall2.mp h
  clear h
  have aux : ∀ (ss : List Str) (enc : List (List Nat)), (∀ s ∈ ss, Spec.Storable s) →
      All2 (fun (s : Str) u => utf16Enc (stripNul (El.units (s ++ List.replicate (n - s.length) 0)).toUnits) = .ok u) ss enc →
      All2 (fun s u => utf16Enc s = .ok u) ss enc := by
    intro ss enc hst h
    induction h with
    | nil => exact .nil
    | @cons s u ss enc hu _ ih =>
      refine .cons ?_ (ih fun s hs => hst s (by simp [hs]))
      have h0 : s.getLast? ≠ some 0 := fun hc => (hst s (by simp)).2 0 hc rfl
      rw [El.toUnits, stripNul_append_zeros s _ h0] at hu
      exact hu
  exact aux ss enc hst h2

/-- The uint16 path: values are preserved when the number of columns grew exactly by the string width. -/
theorem str_uint16_roundtrip (a b : Arr) (n : Nat) (ss : List Str) (ha : Spec.IsStrArray a n ss) (hn : 0 < n)
    (hne : 0 < prodN a.shape) (hst : ∀ s ∈ ss, Spec.Storable s)
    (hb : convertNumpyStrToUint16 a = .ok b) (hw : b.shape = mulLast n (atleast1dShape a.shape)) :
    uintsToStr b (some n) = .ok (mkStrArr (atleast1dShape a.shape) ss) := by
  have hbn : a.nbytes ≠ 0 := by
    simp only [Arr.nbytes, ha.dt, DT.itemsize]
    exact Nat.pos_iff_ne_zero.mp (Nat.mul_pos hne (by omega))
  have hs1 : atleast1dShape a.shape ≠ [] := by cases a.shape <;> simp [atleast1dShape]
  rw [convertNumpyStrToUint16, if_neg hbn] at hb
  obtain ⟨enc, henc, hb⟩ := res_bind_ok.mp hb
  cases hb
  have hf := enc_of_strArray a n ss ha hst enc henc
  have hlen := mapM_length henc
  generalize hwd : (enc.map List.length).foldl max 0 = w at *
  simp only at hw
  have hwn : w = n := by
    have h1 := congrArg (fun l => prodN l) hw
    simp only [prodN_mulLast _ _ hs1, prodN_atleast1d] at h1
    exact Nat.eq_of_mul_eq_mul_left hne h1
  subst hwn
  have hdata : (enc.flatMap fun u => (u ++ List.replicate (w - u.length) 0).map fun (x : Nat) => El.num x)
      = (enc.map fun u => u ++ List.replicate (w - u.length) 0).flatten.map fun (x : Nat) => El.num x := by
    rw [flatMap_eq_flatten_map, ← map_flatten_num, List.map_map]; rfl
  rw [hdata]
  apply uintsToStr_chunks _ _ _ hn hs1
  · rw [List.length_map, hlen, ha.data, List.length_map, ha.size, prodN_atleast1d]
  · intro c hc
    obtain ⟨u, hu, rfl⟩ := List.mem_map.mp hc
    have : u.length ≤ w := by rw [← hwd]; exact le_foldl_max _ _ _ (Or.inl (List.mem_map.mpr ⟨u, hu, rfl⟩))
    simp; omega
  · exact forall2_mapM_pad ss enc w hf hst

theorem mkStrArr_tight (a : Arr) (n : Nat) (ss : List Str) (ha : Spec.IsStrArray a n ss) (hn : 0 < n) (ht : n = 1 ∨ ∃ s ∈ ss, s.length = n) :
    mkStrArr a.shape ss = a := by
  have hm : (ss.map List.length).foldl max 1 = n := by
    apply Nat.le_antisymm
    · apply foldl_max_le _ _ _ hn
      intro x hx; obtain ⟨t, ht, rfl⟩ := List.mem_map.mp hx; exact ha.width t ht
    · rcases ht with rfl | ⟨s, hs, hl⟩
      · exact le_foldl_max _ _ _ (Or.inr (Nat.le_refl _))
      · exact le_foldl_max _ _ _ (Or.inl (List.mem_map.mpr ⟨s, hs, hl⟩))
  have := isStrArray_mk a.shape ss ha.size
  rw [hm] at this
  exact IsStrArray.unique this ha rfl

theorem atleast1d_of_ne {s : List Nat} (h : s ≠ []) : atleast1dShape s = s := by
  cases s with
  | nil => exact absurd rfl h
  | cons _ _ => rfl

end HS
