import Verif.Spec.Memory
import Verif.Lemmas.Array
import Verif.Lemmas.Text
/-
Arrays in memory and their elements (C70).
-/
namespace HS
open Spec

/-- The bytes of the elements in C order. -/
def MArr.parts (m : MArr) : List Bytes := (indicesN m.shape).map m.bytesAt

theorem parts_length (m : MArr) : m.parts.length = prodN m.shape := by rw [MArr.parts, List.length_map, length_indicesN]

theorem bytesAt_length (m : MArr) (ix : List Nat) : (m.bytesAt ix).length = m.dt.itemsize := by simp [MArr.bytesAt]

theorem part_length {m : MArr} {b : Bytes} (h : b ∈ m.parts) : b.length = m.dt.itemsize := by
  obtain ⟨ix, _, rfl⟩ := List.mem_map.mp h
  exact bytesAt_length m ix

theorem tobytes_eq (m : MArr) : m.tobytes = m.parts.flatten := by
  unfold MArr.tobytes MArr.parts; exact List.flatMap_def

theorem values_data (m : MArr) : m.values.data = m.parts.map (elOf m.dt m.big) := by
  unfold MArr.values MArr.parts; simp [List.map_map, Function.comp_def]

theorem tobytes_length (m : MArr) : m.tobytes.length = prodN m.shape * m.dt.itemsize := by
  unfold MArr.tobytes
  rw [length_flatMap_const _ _ m.dt.itemsize fun ix _ => bytesAt_length m ix, length_indicesN]

theorem dotS_cStrides (item : Nat) {s ix : List Nat} (h : ValidIx s ix) : dotS (cStrides item s) ix = ((item * ravelN s ix : Nat) : Int) := by
  induction h with
  | nil => simp [cStrides, dotS, ravelN]
  | @cons d i r t h1 h2 ih =>
    rw [cStrides, dotS, ih, ravelN, Nat.mul_add]
    push_cast
    simp only [Int.mul_assoc, Int.mul_comm, Int.mul_left_comm]

theorem chunksN_get {α : Type} (k cnt : Nat) (l : List α) (i : Nat) (h : i < cnt) : (chunksN k cnt l)[i]? = some ((l.drop (i * k)).take k) := by
  induction cnt generalizing l i with
  | zero => omega
  | succ n ih =>
    rw [chunksN]
    cases i with
    | zero => simp
    | succ i =>
      rw [List.getElem?_cons_succ, ih _ i (by omega), List.drop_drop, Nat.succ_mul, Nat.add_comm]

theorem chunksN_append {α : Type} (k : Nat) (a b : Nat) (l m : List α) (h : l.length = a * k) : chunksN k (a + b) (l ++ m) = chunksN k a l ++ chunksN k b m := by
  induction a generalizing l with
  | zero =>
    have : l = [] := List.eq_nil_of_length_eq_zero (by omega)
    subst this; simp [chunksN]
  | succ a ih =>
    rw [Nat.succ_mul] at h
    rw [show a + 1 + b = (a + b) + 1 by omega, chunksN, chunksN, List.take_append_of_le_length (by omega), List.drop_append_of_le_length (by omega), ih _ (by
      rw [List.length_drop]; omega), List.cons_append]

theorem chunksN_flatMap {α : Type} (k n : Nat) (ls : List (List α)) (h : ∀ l ∈ ls, l.length = n * k) : chunksN k (ls.length * n) ls.flatten = ls.flatMap (chunksN k n) := by
  induction ls with
  | nil => simp [chunksN]
  | cons l r ih =>
    rw [List.length_cons, Nat.succ_mul, Nat.add_comm, List.flatten_cons, chunksN_append k n _ l _ (h l (by simp)), ih (fun x hx => h x (by simp [hx])), List.flatMap_cons]

theorem bytes_range (l : Bytes) (o k : Nat) (h : o + k ≤ l.length) : ((List.range k).map fun (i : Nat) => l.getD (o + i) 0) = (l.drop o).take k := by
  apply List.ext_getElem?
  intro i
  by_cases hi : i < k
  · rw [List.getElem?_map, List.getElem?_range hi, List.getElem?_take_of_lt hi, List.getElem?_drop]
    simp [List.getD_eq_getElem?_getD, List.getElem?_eq_getElem (show o + i < l.length by omega)]
  · rw [List.getElem?_eq_none (by simp; omega), List.getElem?_eq_none (by simp; omega)]

/-- The elements of a C contiguous array are the chunks of its bytes. -/
theorem contiguous_parts (l : Bytes) (s : List Nat) (dt : DT) (big : Bool) (h : prodN s * dt.itemsize ≤ l.length) :
    (contiguous l s dt big).parts = chunksN dt.itemsize (prodN s) l := by
  apply List.ext_getElem?
  intro k
  by_cases hk : k < prodN s
  · rw [chunksN_get _ _ _ _ hk]
    obtain ⟨ix, hix⟩ : ∃ ix, (indicesN s)[k]? = some ix := ⟨_, List.getElem?_eq_getElem (by rw [length_indicesN]; exact hk)⟩
    have hv : ValidIx s ix := (mem_indicesN s ix).mp (List.mem_of_getElem? hix)
    have hr := ravelN_of_getElem s k ix hix
    show ((indicesN s).map (contiguous l s dt big).bytesAt)[k]? = _
    rw [List.getElem?_map, hix, Option.map_some]
    congr 1
    unfold MArr.bytesAt
    show ((List.range dt.itemsize).map fun (i : Nat) => l.getD ((0 : Int) + dotS (cStrides dt.itemsize s) ix + i).toNat 0) = _
    rw [dotS_cStrides dt.itemsize hv, hr]
    have hle : k * dt.itemsize + dt.itemsize ≤ l.length := by
      have := Nat.mul_le_mul_right dt.itemsize (show k + 1 ≤ prodN s by omega)
      rw [Nat.succ_mul] at this; omega
    rw [← bytes_range l (k * dt.itemsize) dt.itemsize hle]
    apply List.map_congr_left
    intro i _
    congr 1
    rw [Nat.mul_comm k]; omega
  · rw [List.getElem?_eq_none (by rw [parts_length]; exact Nat.le_of_not_lt hk), List.getElem?_eq_none (by rw [length_chunksN]; omega)]

theorem be16_bytes (a b : Nat) (ha : a < 256) (hb : b < 256) : be16 (a * 256 + b) = [a, b] := by
  unfold be16
  have h1 : (a * 256 + b) / 256 = a := by omega
  have h2 : (a * 256 + b) % 256 = b := by omega
  rw [h1, h2]

theorem be32_bytes (a b c d : Nat) (ha : a < 256) (hb : b < 256) (hc : c < 256) (hd : d < 256) : be32 (((a * 256 + b) * 256 + c) * 256 + d) = [a, b, c, d] := by
  unfold be32
  have h1 : (((a * 256 + b) * 256 + c) * 256 + d) / 16777216 = a := by omega
  have h2 : (((a * 256 + b) * 256 + c) * 256 + d) / 65536 % 256 = b := by omega
  have h3 : (((a * 256 + b) * 256 + c) * 256 + d) / 256 % 256 = c := by omega
  have h4 : (((a * 256 + b) * 256 + c) * 256 + d) % 256 = d := by omega
  rw [h1, h2, h3, h4]

/-- The big-endian bytes of the number the bytes are. -/
theorem be16_wordOf (big : Bool) (b : Bytes) (h : b.length = 2) (hb : ∀ x ∈ b, x < 256) : be16 (wordOf big b) = if big then b else b.reverse := by
  match b, h with
  | [x, y], _ =>
    cases big
    · show be16 ((0 * 256 + y) * 256 + x) = _
      rw [Nat.zero_mul, Nat.zero_add, be16_bytes _ _ (hb y (by simp)) (hb x (by simp))]; rfl
    · show be16 ((0 * 256 + x) * 256 + y) = _
      rw [Nat.zero_mul, Nat.zero_add, be16_bytes _ _ (hb x (by simp)) (hb y (by simp))]; rfl

theorem be32_wordOf (big : Bool) (b : Bytes) (h : b.length = 4) (hb : ∀ x ∈ b, x < 256) : be32 (wordOf big b) = if big then b else b.reverse := by
  match b, h with
  | [x, y, z, w], _ =>
    have h1 := hb x (by simp)
    have h2 := hb y (by simp)
    have h3 := hb z (by simp)
    have h4 := hb w (by simp)
    cases big
    · show be32 ((((0 * 256 + w) * 256 + z) * 256 + y) * 256 + x) = _
      rw [Nat.zero_mul, Nat.zero_add, be32_bytes _ _ _ _ h4 h3 h2 h1]; rfl
    · show be32 ((((0 * 256 + x) * 256 + y) * 256 + z) * 256 + w) = _
      rw [Nat.zero_mul, Nat.zero_add, be32_bytes _ _ _ _ h1 h2 h3 h4]; rfl

theorem wordOf_bytes16 (big : Bool) (u : Nat) (h : u < 65536) : wordOf big (bytes16 big u) = u := by
  cases big
  · show (0 * 256 + u / 256) * 256 + u % 256 = u
    omega
  · show (0 * 256 + u / 256) * 256 + u % 256 = u
    omega

theorem bytes16_length (big : Bool) (u : Nat) : (bytes16 big u).length = 2 := by
  unfold bytes16; split <;> simp [be16]

theorem contiguous_values {l : Bytes} {s : List Nat} {dt : DT} {big : Bool} (h : prodN s * dt.itemsize ≤ l.length) :
    (contiguous l s dt big).values = ⟨dt, s, (chunksN dt.itemsize (prodN s) l).map (elOf dt big)⟩ := by
  have : (contiguous l s dt big).values = ⟨dt, s, (contiguous l s dt big).values.data⟩ := rfl
  rw [this, values_data, contiguous_parts l s dt big h]; rfl

theorem contiguous_empty (dt : DT) (big : Bool) : (contiguous [] [0] dt big).values = npZeros dt [0] := by
  rw [contiguous_values (by simp [prodN])]
  rfl

theorem atleast1d_ne (s : List Nat) : atleast1dShape s ≠ [] := by cases s <;> simp [atleast1dShape]

/-- `convert_numpy_str_to_uint32` on arrays of the byte order of the machine. -/
theorem memUint32_native {mach : Bool} {m : MArr} {n : Nat} (hd : m.dt = .str n) (hb : m.big = mach) : (memUint32 mach m).values = convertNumpyStrToUint32 m.values := by
  have hnb : m.values.nbytes = m.nbytes := rfl
  unfold memUint32 convertNumpyStrToUint32
  rw [hnb]
  by_cases h : m.nbytes = 0
  · rw [if_pos h, if_pos h]; exact contiguous_empty _ _
  · rw [if_neg h, if_neg h]
    have hi : m.dt.itemsize = 4 * n := by rw [hd]; rfl
    have hp : prodN (mulLast (m.dt.itemsize / 4) (atleast1dShape m.shape)) = m.parts.length * n := by
      rw [prodN_mulLast _ _ (atleast1d_ne _), prodN_atleast1d, parts_length, hi]; congr 1; omega
    have hl : prodN (mulLast (m.dt.itemsize / 4) (atleast1dShape m.shape)) * DT.u32.itemsize ≤ m.tobytes.length := by
      rw [hp, tobytes_length, hi, parts_length]
      show prodN m.shape * n * 4 ≤ _
      rw [Nat.mul_assoc, Nat.mul_comm n 4]; exact Nat.le_refl _
    rw [contiguous_values hl, hp, tobytes_eq]
    show Arr.mk _ _ _ = Arr.mk _ _ _
    congr 1
    show (chunksN 4 _ _).map _ = _
    rw [chunksN_flatMap 4 n m.parts fun b hb => by rw [part_length hb, hi, Nat.mul_comm], values_data, List.flatMap_map, List.map_flatMap]
    congr 1
    funext b
    rw [hd, hb]
    show _ = ((chunksN 4 n b).map (wordOf mach)).map _
    rw [List.map_map]; rfl

theorem mapM_bind_ok {α β γ : Type} (f : α → Res β) (g : β → γ) (l : List α) : (l.mapM fun a => do .ok (g (← f a)) : Res (List γ)) = (l.mapM f).map (List.map g) := by
  induction l with
  | nil => rfl
  | cons a l ih =>
    rw [List.mapM_cons, List.mapM_cons, ih]
    cases f a with
    | error e => rfl
    | ok b =>
      cases l.mapM f with
      | error e => rfl
      | ok bs => rfl

theorem maxFrom_ge (l : List Nat) (k : Nat) : k ≤ l.foldl max k ∧ ∀ x ∈ l, x ≤ l.foldl max k := by
  induction l generalizing k with
  | nil => simp
  | cons a l ih =>
    obtain ⟨h1, h2⟩ := ih (max k a)
    rw [List.foldl_cons]
    refine ⟨by omega, ?_⟩
    intro x hx
    rcases List.mem_cons.mp hx with rfl | hx
    · omega
    · exact h2 x hx

theorem maxFrom_mem (l : List Nat) (k : Nat) : l.foldl max k = k ∨ l.foldl max k ∈ l := by
  induction l generalizing k with
  | nil => simp
  | cons a l ih =>
    rw [List.foldl_cons]
    rcases ih (max k a) with h | h
    · rw [h]
      rcases Nat.le_total k a with h' | h'
      · right; rw [Nat.max_eq_right h']; simp
      · left; exact Nat.max_eq_left h'
    · right; simp [h]

theorem width_double (l : List Nat) : ((l.map (2 * ·)).foldl max 1) / 2 = l.foldl max 0 := by
  have h1 := maxFrom_ge (l.map (2 * ·)) 1
  have h2 := maxFrom_ge l 0
  apply Nat.le_antisymm
  · rcases maxFrom_mem (l.map (2 * ·)) 1 with h | h
    · rw [h]; omega
    · obtain ⟨x, hx, he⟩ := List.mem_map.mp h
      have := h2.2 x hx
      omega
  · rcases maxFrom_mem l 0 with h | h
    · omega
    · have := h1.2 _ (List.mem_map.mpr ⟨_, h, rfl⟩)
      omega

theorem words_chunks (mach : Bool) (u : List Nat) (hu : ∀ x ∈ u, x < 65536) : (chunksN 2 u.length (u.flatMap (bytes16 mach))).map (wordOf mach) = u := by
  have : u.flatMap (bytes16 mach) = (u.map (bytes16 mach)).flatten := List.flatMap_def
  have h2 := chunksN_flatten 2 (u.map (bytes16 mach)) (by
    intro l hl
    obtain ⟨x, _, rfl⟩ := List.mem_map.mp hl
    exact bytes16_length _ _)
  rw [List.length_map] at h2
  rw [this, h2, List.map_map]
  conv => rhs; rw [← List.map_id u]
  apply List.map_congr_left
  intro x hx
  exact wordOf_bytes16 mach x (hu x hx)

theorem zeros_chunks (mach : Bool) (k : Nat) : (chunksN 2 k (List.replicate (2 * k) 0)).map (wordOf mach) = List.replicate k 0 := by
  have := words_chunks mach (List.replicate k 0) (by intro x hx; rw [List.eq_of_mem_replicate hx]; decide)
  rw [List.length_replicate] at this
  have h2 : (List.replicate k 0).flatMap (bytes16 mach) = List.replicate (2 * k) 0 := by
    clear this
    induction k with
    | zero => rfl
    | succ k ih =>
      rw [List.replicate_succ, List.flatMap_cons, ih, show 2 * (k + 1) = 2 * k + 1 + 1 by omega, List.replicate_succ, List.replicate_succ]
      cases mach <;> rfl
  rw [h2] at this; exact this

theorem padded_chunks (mach : Bool) (u : List Nat) (w : Nat) (hu : ∀ x ∈ u, x < 65536) (hw : u.length ≤ w) :
    (chunksN 2 w (u.flatMap (bytes16 mach) ++ List.replicate (2 * w - (u.flatMap (bytes16 mach)).length) 0)).map (wordOf mach) = u ++ List.replicate (w - u.length) 0 := by
  have hl : (u.flatMap (bytes16 mach)).length = u.length * 2 := length_flatMap_const _ _ 2 fun x _ => bytes16_length _ _
  have := chunksN_append 2 u.length (w - u.length) (u.flatMap (bytes16 mach)) (List.replicate (2 * (w - u.length)) 0) hl
  rw [show u.length + (w - u.length) = w by omega] at this
  rw [show 2 * w - (u.flatMap (bytes16 mach)).length = 2 * (w - u.length) by omega, this, List.map_append, words_chunks mach u hu, zeros_chunks]

theorem values_length (m : MArr) : m.values.data.length = prodN m.shape := by rw [values_data, List.length_map, parts_length]

theorem mapM_from {α β : Type} {f : α → Res β} {l : List α} {r : List β} (h : l.mapM f = .ok r) (b : β) (hb : b ∈ r) : ∃ a, f a = .ok b := by
  induction l generalizing r with
  | nil => cases h; cases hb
  | cons a l ih =>
    rw [List.mapM_cons] at h
    cases h1 : f a with
    | error e => rw [h1] at h; cases h
    | ok b1 =>
      cases h2 : l.mapM f with
      | error e => rw [h1, h2] at h; cases h
      | ok bs =>
        rw [h1, h2] at h; cases h
        rcases List.mem_cons.mp hb with rfl | hb
        · exact ⟨a, h1⟩
        · exact ih h2 hb

theorem flatMap_same {α β : Type} {l : List α} {f g : α → List β} (h : ∀ a ∈ l, f a = g a) : l.flatMap f = l.flatMap g := by
  rw [List.flatMap_def, List.flatMap_def, List.map_congr_left h]

/-- `convert_numpy_str_to_uint16` on arrays of any layout and byte order, on any machine. -/
theorem memUint16_values (mach : Bool) {m : MArr} {n : Nat} (hd : m.dt = .str n) : (memUint16 mach m).map MArr.values = convertNumpyStrToUint16 m.values := by
  have hnb : m.values.nbytes = m.nbytes := rfl
  unfold memUint16 convertNumpyStrToUint16
  rw [hnb]
  by_cases h : m.nbytes = 0
  · rw [if_pos h, if_pos h]
    show Except.ok _ = _
    rw [contiguous_empty]
  · rw [if_neg h, if_neg h]
    have he : (m.values.data.mapM fun e => utf16Bytes mach (stripNul e.toUnits)) = (m.values.data.mapM fun e => utf16Enc (stripNul e.toUnits)).map (List.map (List.flatMap (bytes16 mach))) :=
      mapM_bind_ok (fun e : El => utf16Enc (stripNul e.toUnits)) (List.flatMap (bytes16 mach)) _
    rw [he]
    cases hm : m.values.data.mapM fun e => utf16Enc (stripNul e.toUnits) with
    | error e => rfl
    | ok enc =>
      have hu : ∀ u ∈ enc, ∀ x ∈ u, x < 65536 := by
        intro u hu
        obtain ⟨e, hx⟩ := mapM_from hm u hu
        exact (utf16Enc_words _ _ hx).1
      have hlen : enc.length = prodN m.shape := by rw [mapM_length hm, values_length]
      have hll : ∀ u : List Nat, (u.flatMap (bytes16 mach)).length = 2 * u.length := fun u => by
        rw [length_flatMap_const _ _ 2 fun x _ => bytes16_length _ _, Nat.mul_comm]
      have hml : (enc.map (List.flatMap (bytes16 mach))).map List.length = (enc.map List.length).map (2 * ·) := by
        rw [List.map_map, List.map_map]
        apply List.map_congr_left
        intro u _
        exact hll u
      have hw := width_double (enc.map List.length)
      have hge := maxFrom_ge (enc.map List.length) 0
      show Except.ok (MArr.values (contiguous ((enc.map (List.flatMap (bytes16 mach))).flatMap fun b => b ++ List.replicate
        (((enc.map (List.flatMap (bytes16 mach))).map List.length).foldl max 1 - b.length) 0) (mulLast (((enc.map (List.flatMap (bytes16 mach))).map List.length).foldl max 1 / 2)
        (atleast1dShape m.shape)) .u16 mach)) = Except.ok ⟨.u16, mulLast ((enc.map List.length).foldl max 0) (atleast1dShape m.shape),
          enc.flatMap fun u => (u ++ List.replicate ((enc.map List.length).foldl max 0 - u.length) 0).map fun (x : Nat) => El.num x⟩
      rw [hml, hw]
      generalize hW : (enc.map List.length).foldl max 0 = W at *
      have hp : prodN (mulLast W (atleast1dShape m.shape)) = enc.length * W := by
        rw [prodN_mulLast _ _ (atleast1d_ne _), prodN_atleast1d, hlen]
      have hall : ∀ u ∈ enc, u.length ≤ W := fun u hu => hge.2 _ (List.mem_map.mpr ⟨u, hu, rfl⟩)
      have hbuf : ((enc.map (List.flatMap (bytes16 mach))).flatMap fun b => b ++ List.replicate (((enc.map List.length).map (2 * ·)).foldl max 1 - b.length) 0)
          = (enc.map fun u => u.flatMap (bytes16 mach) ++ List.replicate (((enc.map List.length).map (2 * ·)).foldl max 1 - (u.flatMap (bytes16 mach)).length) 0).flatten := by
        rw [List.flatMap_map, List.flatMap_def]
      rw [hbuf]
      have h1 := maxFrom_ge ((enc.map List.length).map (2 * ·)) 1
      rcases Nat.eq_zero_or_pos W with h0 | hpos
      · -- only empty strings
        rw [contiguous_values (by rw [hp, h0]; simp), hp, h0]
        show Except.ok (Arr.mk _ _ []) = Except.ok (Arr.mk _ _ _)
        have : (enc.flatMap fun u => (u ++ List.replicate (0 - u.length) 0).map fun (x : Nat) => El.num x) = [] := by
          rw [List.flatMap_eq_nil_iff]
          intro u hu
          have := hall u hu
          have : u = [] := List.eq_nil_of_length_eq_zero (by omega)
          rw [this]; rfl
        rw [this]
      · have h2 : ((enc.map List.length).map (2 * ·)).foldl max 1 = 2 * W := by
          rcases maxFrom_mem ((enc.map List.length).map (2 * ·)) 1 with hx | hx
          · omega
          · obtain ⟨x, _, hx⟩ := List.mem_map.mp hx
            omega
        rw [h2]
        have hpl : ∀ l ∈ (enc.map fun u => u.flatMap (bytes16 mach) ++ List.replicate (2 * W - (u.flatMap (bytes16 mach)).length) 0), l.length = W * 2 := by
          intro l hl
          obtain ⟨u, hu, rfl⟩ := List.mem_map.mp hl
          have := hall u hu
          rw [List.length_append, List.length_replicate, hll]; omega
        have hfl : ((enc.map fun u => u.flatMap (bytes16 mach) ++ List.replicate (2 * W - (u.flatMap (bytes16 mach)).length) 0).flatten).length = enc.length * (W * 2) := by
          rw [← List.flatMap_def]
          exact length_flatMap_const _ _ _ fun u hu => hpl _ (List.mem_map.mpr ⟨u, hu, rfl⟩)
        rw [contiguous_values (by rw [hp, hfl]; show enc.length * W * 2 ≤ _; rw [Nat.mul_assoc]; exact Nat.le_refl _), hp]
        have := chunksN_flatMap 2 W _ hpl
        rw [List.length_map] at this
        show Except.ok (Arr.mk _ _ ((chunksN 2 _ _).map _)) = Except.ok (Arr.mk _ _ _)
        rw [this, List.flatMap_map, List.map_flatMap]
        congr 2
        apply flatMap_same
        intro u hu'
        have := padded_chunks mach u W (hu u hu') (hall u hu')
        rw [← this, List.map_map]
        rfl

theorem range_mul {α : Type} (d n : Nat) (f : Nat → α) : (List.range (d * n)).map f = (List.range d).flatMap fun i => (List.range n).map fun r => f (i * n + r) := by
  induction d with
  | zero => simp
  | succ d ih =>
    rw [Nat.succ_mul, List.range_add, List.map_append, ih, List.range_succ, List.flatMap_append, List.map_map]
    simp [Function.comp_def]

/-- The bytes of an array whose last axis is contiguous, one by one. -/
theorem view_bytes (byte : Int → Nat) (n : Nat) (s : List Nat) (st : List Int) (a : Int) (hs : s ≠ []) (hl : st.length = s.length)
    (hc : s.getLastD 0 = 1 ∨ st.getLastD 0 = n) :
    (indicesN (mulLast n s)).map (fun ix => byte (a + dotS (setLast 1 st) ix)) = (indicesN s).flatMap fun ix => (List.range n).map fun (r : Nat) => byte (a + dotS st ix + r) := by
  induction s generalizing st a with
  | nil => exact absurd rfl hs
  | cons d s ih =>
    cases st with
    | nil => simp at hl
    | cons c st =>
      cases s with
      | nil =>
        have hst : st = [] := List.eq_nil_of_length_eq_zero (by simpa using hl)
        subst hst
        simp only [mulLast, setLast, indicesN, List.map_singleton, List.flatMap_singleton, List.getLastD_cons, List.getLastD_nil] at hc ⊢
        have h1 : (List.range (d * n)).flatMap (fun i => [[i]]) = (List.range (d * n)).map fun i => [i] := by
          rw [List.flatMap_def, ← List.flatMap_def]; induction List.range (d * n) with
          | nil => rfl
          | cons _ _ ih => simp [ih]
        have h2 : (List.range d).flatMap (fun i => [[i]]) = (List.range d).map fun i => [i] := by
          induction List.range d with
          | nil => rfl
          | cons _ _ ih => simp [ih]
        rw [h1, h2, List.map_map, range_mul, List.flatMap_map]
        apply flatMap_same
        intro i hi
        have hi := List.mem_range.mp hi
        apply List.map_congr_left
        intro r hr
        simp only [Function.comp, dotS]
        congr 1
        rcases hc with hc | hc
        · have : i = 0 := by omega
          subst this; simp
        · rw [hc]; push_cast; rw [Int.mul_comm (n : Int) (i : Int)]; omega
      | cons d' s =>
        cases st with
        | nil => simp at hl
        | cons c' st =>
          have := fun a => ih (c' :: st) a (by simp) (by simpa using hl) (by simpa using hc)
          show ((List.range d).flatMap fun i => (indicesN (mulLast n (d' :: s))).map (i :: ·)).map _ = _
          rw [List.map_flatMap]
          show _ = ((List.range d).flatMap fun i => (indicesN (d' :: s)).map (i :: ·)).flatMap _
          rw [List.flatMap_assoc]
          apply flatMap_same
          intro i _
          rw [List.map_map, List.flatMap_map]
          have h := this (a + c * i)
          have e1 : ∀ ix, byte (a + c * i + dotS (setLast 1 (c' :: st)) ix) = byte (a + dotS (setLast 1 (c :: c' :: st)) (i :: ix)) := by
            intro ix
            show _ = byte (a + (c * i + dotS (setLast 1 (c' :: st)) ix))
            rw [Int.add_assoc]
          have e2 : ∀ ix, a + c * i + dotS (c' :: st) ix = a + dotS (c :: c' :: st) (i :: ix) := by
            intro ix
            show _ = a + (c * i + dotS (c' :: st) ix)
            rw [Int.add_assoc]
          simp only [e1, e2] at h
          exact h

/-- `m.view(np.uint8)`: the bytes of the elements in C order. -/
theorem viewU8_ok {m : MArr} (hm : InMemory m) (hs : m.shape ≠ []) (hc : m.shape.getLastD 0 = 1 ∨ m.strides.getLastD 0 = m.dt.itemsize) :
    ∃ v, viewU8 m = .ok v ∧ v.shape = mulLast m.dt.itemsize m.shape ∧ v.values.data.map El.toNat = m.tobytes := by
  have hn : ¬ (m.shape.getLastD 0 ≠ 1 ∧ prodN m.shape ≠ 0 ∧ m.strides.getLastD 0 ≠ m.dt.itemsize) := fun ⟨h1, _, h3⟩ => hc.elim h1 h3
  refine ⟨{ m with shape := mulLast m.dt.itemsize m.shape, strides := setLast 1 m.strides, dt := .u8 }, by rw [viewU8, if_neg hs, if_neg hn], rfl, ?_⟩
  rw [values_data]
  unfold MArr.parts MArr.tobytes
  rw [List.map_map, List.map_map]
  have := view_bytes m.byte m.dt.itemsize m.shape m.strides m.addr hs hm.strides hc
  show _ = (indicesN m.shape).flatMap fun ix => (List.range m.dt.itemsize).map fun (r : Nat) => m.byte (m.addr + dotS m.strides ix + r)
  rw [← this]
  apply List.map_congr_left
  intro ix _
  cases m.big <;> simp [MArr.bytesAt, DT.itemsize, wordOf, elOf, El.toNat, List.range_succ]

theorem bytesAt_lt {m : MArr} (hm : InMemory m) (ix : List Nat) : ∀ x ∈ m.bytesAt ix, x < 256 := by
  intro x hx
  obtain ⟨i, _, rfl⟩ := List.mem_map.mp hx
  exact hm.bytes _

theorem tobytes_lt {m : MArr} (hm : InMemory m) : ∀ x ∈ m.tobytes, x < 256 := by
  intro x hx
  obtain ⟨ix, _, h⟩ := List.mem_flatMap.mp hx
  exact bytesAt_lt hm ix x h

theorem atleast1d_memory {m : MArr} (hm : InMemory m) : InMemory (atleast1dM m) := by
  unfold atleast1dM
  split
  · exact ⟨rfl, hm.bytes⟩
  · exact hm

theorem atleast1d_tobytes {m : MArr} (hm : InMemory m) : (atleast1dM m).tobytes = m.tobytes := by
  unfold atleast1dM
  split
  · rename_i h
    have h2 : m.strides = [] := List.eq_nil_of_length_eq_zero (by rw [hm.strides, h]; rfl)
    simp [MArr.tobytes, h, h2, indicesN, MArr.bytesAt, dotS, List.range_succ]
  · rfl

theorem words16_of_bytes (mach : Bool) (u : List Nat) (hu : ∀ x ∈ u, x < 65536) (s : List Nat) (hp : prodN s = u.length) :
    (contiguous (u.flatMap (bytes16 mach)) s .u16 mach).values = ⟨.u16, s, u.map fun (x : Nat) => El.num x⟩ := by
  have hl : (u.flatMap (bytes16 mach)).length = u.length * 2 := length_flatMap_const _ _ 2 fun x _ => bytes16_length _ _
  rw [contiguous_values (by rw [hl, hp]; exact Nat.le_refl _), hp]
  have := words_chunks mach u hu
  show Arr.mk _ _ ((chunksN 2 _ _).map _) = _
  congr 1
  conv => rhs; rw [← this]
  rw [List.map_map]
  rfl

/-- The step for bytes. -/
theorem memBytesStep_ok {o : COpts} (ho : o.bytes16 = true) (mach : Bool) {m : MArr} (hm : InMemory m) {n : Nat} (hd : m.dt = .bytes n) (hc : LastAxisTogether m) :
    ∃ v, memBytesStep mach m = .ok v ∧ v.values = bytesStep o m.values := by
  have hdt : m.values.dt = .bytes n := hd
  have hnb : m.values.nbytes = m.nbytes := rfl
  unfold memBytesStep bytesStep
  rw [hdt]
  dsimp only
  rw [if_pos ho, hnb]
  by_cases h : m.nbytes = 0
  · rw [if_pos h, if_pos h]
    exact ⟨_, rfl, contiguous_empty _ _⟩
  · rw [if_neg h, if_neg h]
    have hi : m.dt.itemsize = n := by rw [hd]; rfl
    have hu : m.values.data.flatMap El.toUnits = m.tobytes := by
      rw [values_data, hd, tobytes_eq, List.flatMap_map, List.flatMap_def]
      congr 1
      conv => rhs; rw [← List.map_id m.parts]
      rfl
    have hs : (atleast1dM m).shape = atleast1dShape m.shape := by
      unfold atleast1dM
      by_cases h0 : m.shape = []
      · rw [if_pos h0, h0]; rfl
      · rw [if_neg h0]; cases hsh : m.shape with
        | nil => exact absurd hsh h0
        | cons _ _ => rfl
    have hdd : (atleast1dM m).dt = m.dt := by unfold atleast1dM; split <;> rfl
    obtain ⟨v, v1, v2, v3⟩ := viewU8_ok (atleast1d_memory hm) (by rw [hs]; exact atleast1d_ne _) (by
      unfold atleast1dM
      by_cases h0 : m.shape = []
      · rw [if_pos h0]; exact .inl rfl
      · rw [if_neg h0]; exact hc.resolve_left h0)
    rw [atleast1d_tobytes hm] at v3
    rw [hdd, hs, hi] at v2
    rw [v1]
    show ∃ w, Except.ok (if (v.values.data.map El.toNat).all _ then _ else _) = Except.ok w ∧ _
    rw [v3, hu, v2]
    by_cases ha : (m.tobytes.all fun x => decide (x < 128)) = true
    · refine ⟨_, by rw [if_pos ha], ?_⟩
      rw [if_pos ha]
      refine words16_of_bytes mach m.tobytes (fun x hx => Nat.lt_trans (tobytes_lt hm x hx) (by decide)) _ ?_
      rw [prodN_mulLast _ _ (atleast1d_ne _), prodN_atleast1d, tobytes_length, hi]
    · refine ⟨_, by rw [if_neg ha], ?_⟩
      rw [if_neg ha]

/-- Otherwise it raises. -/
theorem memBytesStep_raises (mach : Bool) {m : MArr} (hc : ¬ LastAxisTogether m) (hne : m.nbytes ≠ 0) : memBytesStep mach m = .error .valueError := by
  have h0 : m.shape ≠ [] := fun h => hc (.inl h)
  have hp : prodN m.shape ≠ 0 := by intro h; apply hne; rw [MArr.nbytes, h, Nat.zero_mul]
  unfold memBytesStep
  rw [if_neg hne]
  have : atleast1dM m = m := by unfold atleast1dM; rw [if_neg h0]
  rw [this, viewU8, if_neg h0, if_pos ⟨fun h => hc (.inr (.inl h)), hp, fun h => hc (.inr (.inr h))⟩]
  rfl

theorem toNat_num (l : List Nat) : (l.map fun (x : Nat) => El.num x).map El.toNat = l := by
  rw [List.map_map]
  conv => rhs; rw [← List.map_id l]
  rfl

theorem chunks_values {m : MArr} (k : Nat) (hi : m.dt.itemsize = k) (f : Bytes → El) : (chunksN k (prodN m.shape) m.tobytes).map f = m.parts.map f := by
  have := chunksN_flatten k m.parts fun b hb => (part_length hb).trans hi
  rw [parts_length] at this
  rw [tobytes_eq, this]

theorem parts_chunks {m : MArr} : chunksN m.dt.itemsize (prodN m.shape) m.tobytes = m.parts := by
  have := chunksN_flatten m.dt.itemsize m.parts fun b hb => part_length hb
  rw [parts_length] at this
  rw [tobytes_eq, this]

theorem words_values {m : MArr} (hd : m.dt = .u16 ∨ m.dt = .u32) : m.values.data.map El.toNat = m.parts.map (wordOf m.big) := by
  rw [values_data, List.map_map]
  apply List.map_congr_left
  intro b _
  rcases hd with hd | hd <;> rw [hd] <;> rfl

theorem bytes_values {m : MArr} (hd : m.dt = .u8) : m.values.data.map El.toNat = m.tobytes := by
  rw [values_data, List.map_map, tobytes_eq]
  have : ∀ b ∈ m.parts, b.length = 1 := fun b hb => by rw [part_length hb, hd]; rfl
  revert this
  generalize m.parts = l
  intro h
  induction l with
  | nil => rfl
  | cons b l ih =>
    rw [List.map_cons, List.flatten_cons, ih fun x hx => h x (by simp [hx])]
    match b, h b (by simp) with
    | [x], _ => rw [hd]; cases m.big <;> simp [elOf, wordOf, El.toNat]

/-- `convert_to_str` on arrays of the byte order of the machine, or of single bytes. -/
theorem memToStr_native {mach : Bool} {m : MArr} (hb : m.big = mach ∨ m.dt = .u8 ∨ ∃ n, m.dt = .bytes n) (sc : Bool)
    (hd : m.dt = .u8 ∨ m.dt = .u16 ∨ m.dt = .u32 ∨ (∃ n, m.dt = .bytes n) ∨ ∃ n, m.dt = .str n) : memToStr mach m = convertToStr (.np sc m.values) := by
  have hdt : m.values.dt = m.dt := rfl
  unfold memToStr convertToStr
  dsimp only
  rw [hdt]
  rcases hd with hd | hd | hd | ⟨n, hd⟩ | ⟨n, hd⟩
  · rw [hd]; dsimp only; rw [bytes_values hd]
  · have hb : m.big = mach := hb.resolve_right (by rw [hd]; simp)
    have hi : m.dt.itemsize = 2 := by rw [hd]; rfl
    rw [hd]; dsimp only
    rw [words_values (.inl hd), hb, tobytes_length, hi, Nat.mul_div_cancel _ (by decide), ← parts_chunks, hi]
  · have hb : m.big = mach := hb.resolve_right (by rw [hd]; simp)
    have hi : m.dt.itemsize = 4 := by rw [hd]; rfl
    rw [hd]; dsimp only
    rw [words_values (.inr hd), hb, tobytes_length, hi, Nat.mul_div_cancel _ (by decide), ← parts_chunks, hi]
  · have hu : m.values.data.flatMap El.toUnits = m.tobytes := by
      rw [values_data, hd, tobytes_eq, List.flatMap_map, List.flatMap_def]
      congr 1
      conv => rhs; rw [← List.map_id m.parts]
      rfl
    rw [hd, hu]
    cases n <;> rfl
  · have hb : m.big = mach := hb.resolve_right (by rw [hd]; simp)
    have hi : m.dt.itemsize = n * 4 := by rw [hd, Nat.mul_comm]; rfl
    have hu : m.values.data.flatMap El.toUnits = (chunksN 4 (m.tobytes.length / 4) m.tobytes).map (wordOf mach) := by
      rw [values_data, tobytes_length, hi, ← Nat.mul_assoc, Nat.mul_div_cancel _ (by decide), tobytes_eq, ← parts_length, chunksN_flatMap 4 n m.parts fun b hb => by
        rw [part_length hb, hi], List.flatMap_map, List.map_flatMap]
      rw [hd, hb]
      rfl
    rw [hd, hu]
    cases n <;> rfl

theorem take_flatMap_const {α β : Type} (f : α → List β) (k : Nat) (n : Nat) (l : List α) (hf : ∀ a ∈ l, (f a).length = k) :
    (l.flatMap f).take (n * k) = (l.take n).flatMap f ∧ (l.flatMap f).drop (n * k) = (l.drop n).flatMap f := by
  induction n generalizing l with
  | zero => simp
  | succ n ih =>
    cases l with
    | nil => simp
    | cons a l =>
      rw [List.flatMap_cons, Nat.succ_mul, Nat.add_comm, List.take_succ_cons, List.flatMap_cons, List.drop_succ_cons]
      have h := hf a (by simp)
      have ih := ih l fun a ha => hf a (by simp [ha])
      rw [List.take_append, List.drop_append, h, Nat.add_sub_cancel_left, ih.1, ih.2, List.take_of_length_le (by omega), List.drop_eq_nil_of_le (by omega)]
      simp

theorem chunks_flatMap_const {α β : Type} (f : α → List β) (k : Nat) (n cnt : Nat) (l : List α) (hf : ∀ a ∈ l, (f a).length = k) :
    chunksN (n * k) cnt (l.flatMap f) = (chunksN n cnt l).map (List.flatMap f) := by
  induction cnt generalizing l with
  | zero => rfl
  | succ c ih =>
    obtain ⟨h1, h2⟩ := take_flatMap_const f k n l hf
    rw [chunksN, chunksN, h1, h2, ih _ fun a ha => hf a (List.mem_of_mem_drop ha), List.map_cons]

theorem swapEach_eq {m : MArr} : swapEach m.dt.itemsize (prodN m.shape) m.tobytes = m.parts.flatMap List.reverse := by
  rw [swapEach, parts_chunks]

/-- After swapping the bytes where needed they are those of the numbers, the largest first. -/
theorem beBytes (mach : Bool) {m : MArr} (hm : InMemory m) (hd : m.dt = .u16 ∨ m.dt = .u32) :
    (if m.dt ≠ .u8 ∧ (m.byteorder mach = .little ∨ (mach = false ∧ m.byteorder mach = .native)) then swapEach m.dt.itemsize (prodN m.shape) m.tobytes else m.tobytes) =
      (m.values.data.map El.toNat).flatMap (if m.dt = .u16 then be16 else be32) := by
  have hsw : (m.dt ≠ .u8 ∧ (m.byteorder mach = .little ∨ (mach = false ∧ m.byteorder mach = .native))) ↔ m.big = false := by
    unfold MArr.byteorder
    rcases hd with hd | hd <;> rw [hd] <;> cases m.big <;> cases mach <;> simp
  have hpl : ∀ b ∈ m.parts, ∀ x ∈ b, x < 256 := by
    intro b hb x hx
    exact tobytes_lt hm x (by rw [tobytes_eq]; exact List.mem_flatten.mpr ⟨b, hb, hx⟩)
  rw [words_values hd, List.flatMap_map]
  have key : ∀ b ∈ m.parts, (if m.dt = .u16 then be16 else be32) (wordOf m.big b) = if m.big then b else b.reverse := by
    intro b hb
    rcases hd with hd | hd
    · rw [if_pos hd]; exact be16_wordOf _ _ (by rw [part_length hb, hd]; rfl) (hpl b hb)
    · rw [if_neg (by rw [hd]; simp)]; exact be32_wordOf _ _ (by rw [part_length hb, hd]; rfl) (hpl b hb)
  rw [flatMap_same key]
  cases hb : m.big with
  | false =>
    rw [if_pos (hsw.mpr hb), swapEach_eq]; rfl
  | true =>
    rw [if_neg (fun h => by rw [hsw.mp h] at hb; cases hb), tobytes_eq, List.flatMap_def]
    simp

/-- `convert_to_numpy_str` on arrays of unsigned integers of any layout and byte order, on any machine. -/
theorem memUintsToStr_values (mach : Bool) {m : MArr} (hm : InMemory m) (hd : m.dt = .u8 ∨ m.dt = .u16 ∨ m.dt = .u32) (length : Option Nat) :
    memUintsToStr mach m length = uintsToStr m.values length := by
  have hs : m.values.shape = m.shape := rfl
  have hdt : m.values.dt = m.dt := rfl
  unfold memUintsToStr uintsToStr
  dsimp only
  rw [hs, hdt]
  by_cases h0 : length.getD (m.shape.getLastD 0) = 0
  · rw [if_pos h0, if_pos h0]
  rw [if_neg h0, if_neg h0]
  by_cases h1 : m.shape.getLastD 0 % length.getD (m.shape.getLastD 0) ≠ 0
  · rw [if_pos h1, if_pos h1]
  rw [if_neg h1, if_neg h1]
  generalize length.getD (m.shape.getLastD 0) = len
  have hfun : ∀ (c : List (List Nat)) (d : List Bytes) (g : Bytes → Res Str), (d.mapM g = c.mapM (decodeChunk m.dt)) →
      (d.mapM g >>= fun ss => Except.ok (mkStrArr (divLast len m.shape) ss)) = (c.mapM (decodeChunk m.dt) >>= fun ss => Except.ok (mkStrArr (divLast len m.shape) ss)) := by
    intro c d g h; rw [h]
  apply hfun
  rcases hd with hd | hd
  · have hi : m.dt.itemsize = 1 := by rw [hd]; rfl
    rw [if_neg (fun h => h.1 hd), hi, Nat.mul_one, bytes_values hd]
    apply congrArg (fun g => List.mapM g _)
    funext b
    rw [hd]; rfl
  · rw [beBytes mach hm hd]
    have hk : ∀ a, ((if m.dt = .u16 then be16 else be32) a).length = m.dt.itemsize := by
      intro a
      rcases hd with hd | hd
      · rw [if_pos hd, hd]; rfl
      · rw [if_neg (by rw [hd]; simp), hd]; rfl
    rw [chunks_flatMap_const _ _ _ _ _ fun a _ => hk a, List.mapM_map]
    apply congrArg (fun g => List.mapM g _)
    funext b
    rcases hd with hd | hd
    · rw [hd]; rfl
    · rw [hd]; rfl

theorem contig_dotS {item : Nat} {s ix : List Nat} {st : List Int} (h : ValidIx s ix) (hl : st.length = s.length) (hc : contigGo item s st = true) :
    dotS st ix = ((item * ravelN s ix : Nat) : Int) := by
  induction h generalizing st with
  | nil =>
    cases st with
    | nil => simp [dotS, ravelN]
    | cons _ _ => simp at hl
  | @cons d i r t h1 h2 ih =>
    cases st with
    | nil => simp at hl
    | cons c st =>
      rw [contigGo, Bool.and_eq_true, Bool.or_eq_true, beq_iff_eq, beq_iff_eq] at hc
      rw [dotS, ih (by simpa using hl) hc.2, ravelN, Nat.mul_add]
      rcases hc.1 with h | h
      · have : i = 0 := by omega
        subst this; simp
      · rw [h]; push_cast
        simp only [Int.mul_assoc, Int.mul_comm, Int.mul_left_comm]

/-- The bytes of a C contiguous array lie side by side. -/
theorem contig_tobytes {m : MArr} (hm : InMemory m) (hc : m.cContig = true) : m.tobytes = (List.range (prodN m.shape * m.dt.itemsize)).map fun (i : Nat) => m.byte (m.addr + i) := by
  rw [range_mul]
  unfold MArr.tobytes
  rw [List.flatMap_def, List.flatMap_def]
  congr 1
  apply List.ext_getElem?
  intro k
  by_cases hk : k < prodN m.shape
  · obtain ⟨ix, hix⟩ : ∃ ix, (indicesN m.shape)[k]? = some ix := ⟨_, List.getElem?_eq_getElem (by rw [length_indicesN]; exact hk)⟩
    have hv : ValidIx m.shape ix := (mem_indicesN m.shape ix).mp (List.mem_of_getElem? hix)
    have hr := ravelN_of_getElem m.shape k ix hix
    rw [List.getElem?_map, hix, List.getElem?_map, List.getElem?_range hk, Option.map_some, Option.map_some]
    congr 1
    unfold MArr.bytesAt
    apply List.map_congr_left
    intro i _
    congr 1
    unfold MArr.cContig at hc
    rw [Bool.or_eq_true, beq_iff_eq] at hc
    rw [contig_dotS hv hm.strides (hc.resolve_left (by omega)), hr, Nat.mul_comm m.dt.itemsize]
    push_cast
    omega
  · rw [List.getElem?_eq_none (by rw [List.length_map, length_indicesN]; omega), List.getElem?_eq_none (by rw [List.length_map, List.length_range]; omega)]

theorem contig_cStrides (item : Nat) (s : List Nat) : contigGo item s (cStrides item s) = true := by
  induction s with
  | nil => rfl
  | cons d s ih => rw [cStrides, contigGo, ih]; simp

theorem cStrides_length (item : Nat) (s : List Nat) : (cStrides item s).length = s.length := by
  induction s with
  | nil => rfl
  | cons d s ih => simp [cStrides, ih]

theorem contiguous_memory {l : Bytes} {s : List Nat} {dt : DT} {big : Bool} (h : ∀ x ∈ l, x < 256) : InMemory (contiguous l s dt big) := by
  refine ⟨cStrides_length _ _, fun p => ?_⟩
  show l.getD p.toNat 0 < 256
  rw [List.getD_eq_getElem?_getD]
  cases hx : l[p.toNat]? with
  | none => simp
  | some x => exact h x (List.mem_of_getElem? hx)

theorem chunksN_take {α : Type} (k cnt t : Nat) (l : List α) (h : cnt * k ≤ t) : chunksN k cnt (l.take t) = chunksN k cnt l := by
  induction cnt generalizing l t with
  | zero => rfl
  | succ c ih =>
    rw [Nat.succ_mul] at h
    rw [chunksN, chunksN, List.take_take, Nat.min_eq_left (by omega), List.drop_take, ih _ _ (by omega)]

theorem chunksN_full {α : Type} (k cnt : Nat) (l : List α) (h : cnt * k ≤ l.length) : ∀ c ∈ chunksN k cnt l, c.length = k := by
  induction cnt generalizing l with
  | zero => intro c hc; cases hc
  | succ n ih =>
    rw [Nat.succ_mul] at h
    intro c hc
    rcases List.mem_cons.mp hc with rfl | hc
    · rw [List.length_take]; omega
    · exact ih _ (by rw [List.length_drop]; omega) c hc

theorem chunksN_map {α β : Type} (f : α → β) (k cnt : Nat) (l : List α) : chunksN k cnt (l.map f) = (chunksN k cnt l).map (List.map f) := by
  induction cnt generalizing l with
  | zero => rfl
  | succ c ih => rw [chunksN, chunksN, List.map_cons, ← List.map_take, ← List.map_drop, ih]

theorem chunksN_sub {α : Type} (k cnt : Nat) (l : List α) : ∀ c ∈ chunksN k cnt l, ∀ a ∈ c, a ∈ l := by
  induction cnt generalizing l with
  | zero => intro c hc; cases hc
  | succ n ih =>
    intro c hc a ha
    rcases List.mem_cons.mp hc with rfl | hc
    · exact List.mem_of_mem_take ha
    · exact List.mem_of_mem_drop (ih _ c hc a ha)

/-- `convert_to_numpy_bytes` on C contiguous arrays of uint8. -/
theorem memUint8_ok {m : MArr} (hm : InMemory m) (hd : m.dt = .u8) (hs : m.shape ≠ []) (hc : m.cContig = true) (length : Option Nat) :
    ((memUint8ToBytes m length).map fun r => (false, r.values)) = convertToNumpyBytes (.np false m.values) length := by
  have hdt : m.values.dt = .u8 := hd
  have hsh : m.values.shape = m.shape := rfl
  have hse : m.shape.isEmpty = false := by cases h : m.shape <;> simp_all
  unfold memUint8ToBytes convertToNumpyBytes
  dsimp only
  rw [hdt]
  dsimp only
  rw [hsh, hse, bytes_values hd]
  simp only [Bool.or_false, Bool.false_eq_true, if_false]
  by_cases h0 : length.getD (m.shape.getLastD 0) = 0
  · rw [if_pos h0, if_pos h0]; rfl
  rw [if_neg h0, if_neg h0, hc]
  generalize length.getD (m.shape.getLastD 0) = len at *
  generalize (if (length.isNone && decide (m.shape.length = 1)) = true then m.shape else divLast len m.shape) = shp
  by_cases h1 : prodN m.shape < prodN shp * len
  · simp only [if_pos h1]; rfl
  · simp only [if_neg h1]
    simp only [Bool.true_eq_false, if_false]
    show Except.ok (false, _) = Except.ok (false, _)
    have hi : m.dt.itemsize = 1 := by rw [hd]; rfl
    have hm' : InMemory { m with shape := shp, strides := cStrides len shp, dt := .bytes len } := ⟨cStrides_length _ _, hm.bytes⟩
    have hc' : MArr.cContig { m with shape := shp, strides := cStrides len shp, dt := .bytes len } = true := by
      rw [MArr.cContig, Bool.or_eq_true]; exact .inr (contig_cStrides _ _)
    have ht := contig_tobytes hm hc
    have ht' := contig_tobytes hm' hc'
    have hte : MArr.tobytes { m with shape := shp, strides := cStrides len shp, dt := .bytes len } = m.tobytes.take (prodN shp * len) := by
      rw [ht, ht', ← List.map_take, List.take_range, hi, Nat.mul_one]
      show List.map _ (List.range (prodN shp * len)) = _
      rw [Nat.min_eq_left (by omega)]
    congr 2
    have hv : MArr.values { m with shape := shp, strides := cStrides len shp, dt := .bytes len } =
      ⟨.bytes len, shp, (MArr.values { m with shape := shp, strides := cStrides len shp, dt := .bytes len }).data⟩ := rfl
    rw [hv, values_data, ← parts_chunks, hte]
    show Arr.mk _ _ ((chunksN len (prodN shp) _).map _) = _
    rw [chunksN_take _ _ _ _ (Nat.le_refl _)]
    unfold mkBytesArr
    congr 1
    apply List.map_congr_left
    intro b hb
    have := chunksN_full len (prodN shp) m.tobytes (by rw [tobytes_length, hi]; omega) b hb
    show El.units b = _
    rw [List.take_of_length_le (by omega), this, Nat.sub_self]
    simp

/-- `convert_to_numpy_bytes` on arrays of uint16 and uint32 in the byte order of the machine. -/
theorem memUintsToBytes_native {mach : Bool} {m : MArr} (hm : InMemory m) (hd : m.dt = .u16 ∨ m.dt = .u32) (hs : m.shape ≠ []) (hb : m.big = mach) (length : Option Nat) :
    ((memUintsToBytes mach m length).map fun r => (false, r)) = convertToNumpyBytes (.np false m.values) length := by
  have hsh : m.values.shape = m.shape := rfl
  have hdt : m.values.dt = m.dt := rfl
  have hse : m.shape.isEmpty = false := by cases h : m.shape <;> simp_all
  have hconv : convertToNumpyBytes (.np false m.values) length =
      if length.getD (m.shape.getLastD 0) = 0 then .error .other
      else (do
        let shp := if length.isNone && m.shape.length = 1 then m.shape else divLast (length.getD (m.shape.getLastD 0)) m.shape
        let bs ← (chunksN (length.getD (m.shape.getLastD 0)) (prodN shp) (m.values.data.map El.toNat)).mapM fun ch => do
          utf8Enc (← convertToStr (.np false ⟨m.dt, [ch.length], ch.map fun (x : Nat) => El.num x⟩))
        .ok (false, mkBytesArr (length.getD (m.shape.getLastD 0)) shp bs)) := by
    unfold convertToNumpyBytes
    dsimp only
    rw [hdt]
    rcases hd with hd | hd <;> rw [hd] <;> dsimp only <;> rw [hsh, hse] <;> rfl
  rw [hconv]
  unfold memUintsToBytes
  dsimp only
  by_cases h0 : length.getD (m.shape.getLastD 0) = 0
  · rw [if_pos h0, if_pos h0]; rfl
  rw [if_neg h0, if_neg h0]
  generalize length.getD (m.shape.getLastD 0) = len at *
  generalize (if (length.isNone && decide (m.shape.length = 1)) = true then m.shape else divLast len m.shape) = shp
  have hk : 0 < m.dt.itemsize := by rcases hd with hd | hd <;> rw [hd] <;> decide
  have hch : chunksN (len * m.dt.itemsize) (prodN shp) m.tobytes = (chunksN len (prodN shp) m.parts).map (List.flatMap id) := by
    rw [tobytes_eq, ← chunks_flatMap_const id m.dt.itemsize len (prodN shp) m.parts fun b hb => part_length hb]
    simp [List.flatMap_def]
  have key : ((chunksN (len * m.dt.itemsize) (prodN shp) m.tobytes).mapM fun b => do
      utf8Enc (← memToStr mach (contiguous b [b.length / m.dt.itemsize] m.dt m.big)) : Res (List Bytes)) =
      ((chunksN len (prodN shp) (m.values.data.map El.toNat)).mapM fun ch => (do
        utf8Enc (← convertToStr (.np false ⟨m.dt, [ch.length], ch.map fun (x : Nat) => El.num x⟩)))) := by
    rw [hch, words_values hd, chunksN_map, List.mapM_map, List.mapM_map]
    have hall := chunksN_sub len (prodN shp) m.parts
    generalize chunksN len (prodN shp) m.parts = cs at hall
    induction cs with
    | nil => rfl
    | cons p cs ih =>
      rw [List.mapM_cons, List.mapM_cons, ih fun c hc => hall c (by simp [hc])]
      have hp : ∀ b ∈ p, b.length = m.dt.itemsize := fun b hb => part_length (hall p (by simp) b hb)
      have hlen : (p.flatMap id).length = p.length * m.dt.itemsize := length_flatMap_const _ _ _ hp
      have hflat : p.flatMap id = p.flatten := by simp [List.flatMap_def]
      have : memToStr mach (contiguous (p.flatMap id) [(p.flatMap id).length / m.dt.itemsize] m.dt m.big) =
          convertToStr (.np false ⟨m.dt, [(p.map (wordOf m.big)).length], (p.map (wordOf m.big)).map fun (x : Nat) => El.num x⟩) := by
        rw [memToStr_native (m := contiguous (p.flatMap id) [(p.flatMap id).length / m.dt.itemsize] m.dt m.big) (.inl hb) false (by rcases hd with hd | hd; exact .inr (.inl hd); exact .inr (.inr (.inl hd)))]
        rw [hlen, Nat.mul_div_cancel _ hk, contiguous_values (by rw [hlen]; simp [prodN])]
        congr 2
        rw [List.length_map]
        have := chunksN_flatten m.dt.itemsize p hp
        rw [show prodN [p.length] = p.length by simp [prodN], hflat, this, List.map_map]
        congr 1
        apply List.map_congr_left
        intro b _
        rcases hd with hd | hd <;> rw [hd] <;> rfl
      simp only [Function.comp]
      rw [this]
  rw [key]
  generalize ((chunksN len (prodN shp) (m.values.data.map El.toNat)).mapM fun ch => do
        utf8Enc (← convertToStr (.np false ⟨m.dt, [ch.length], ch.map fun (x : Nat) => El.num x⟩)) : Res (List Bytes)) = r
  cases r <;> rfl

end HS
