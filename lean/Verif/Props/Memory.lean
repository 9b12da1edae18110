import Verif.Lemmas.Memory
import Verif.Props.RoundTrip
/-
C70: where an array lies in memory and in which byte order does not matter.

`m.values` are the elements of the array `m` in C order, which is what all other models start from: a function on arrays in memory that is, on the elements, the same as the
function of these models does the same for all arrays with the same elements, whatever their strides and byte orders and on whatever machine.
-/
namespace HS
open Spec

/-- C70. `convert_numpy_str_to_uint16`: any strides, any byte order, any machine. -/
theorem C70_str_to_uint16 (mach : Bool) {m : MArr} {n : Nat} (hd : m.dt = .str n) : (memUint16 mach m).map MArr.values = convertNumpyStrToUint16 m.values :=
  memUint16_values mach hd

/-- Hence arrays with the same elements give arrays with the same elements. -/
theorem C70_str_to_uint16_same (mach mach' : Bool) {m m' : MArr} {n : Nat} (hd : m.dt = .str n) (h : m.values = m'.values) :
    (memUint16 mach m).map MArr.values = (memUint16 mach' m').map MArr.values := by
  have hd' : m'.dt = .str n := by rw [← hd]; exact (congrArg Arr.dt h).symm
  rw [memUint16_values mach hd, memUint16_values mach' hd', h]

/-- `["ab", "cd"]`, little-endian, in C order. -/
def exLittle : MArr := contiguous [97, 0, 0, 0, 98, 0, 0, 0, 99, 0, 0, 0, 100, 0, 0, 0] [2] (.str 2) false
/-- The same strings, big-endian and lying in memory one behind the other from the last to the first. -/
def exBig : MArr := { contiguous [0, 0, 0, 99, 0, 0, 0, 100, 0, 0, 0, 97, 0, 0, 0, 98] [2] (.str 2) true with addr := 8, strides := [-8] }

-- They have the same elements, and are stored on both kinds of machines as 97, 98, 99, 100.
example : exLittle.values = exBig.values ∧ exLittle.values.data = [.units [97, 98], .units [99, 100]] ∧ exBig.strides ≠ exLittle.strides ∧ InMemory exLittle ∧ InMemory exBig ∧
    ∀ mach, (memUint16 mach exBig).map (fun r => r.values.data) = .ok [.num 97, .num 98, .num 99, .num 100] := by
  have hb : ∀ l : Bytes, (∀ x ∈ l, x < 256) → ∀ p : Int, l.getD p.toNat 0 < 256 := by
    intro l h p
    rw [List.getD_eq_getElem?_getD]
    cases hx : l[p.toNat]? with
    | none => simp
    | some x => exact h x (List.mem_of_getElem? hx)
  refine ⟨by decide +kernel, by decide +kernel, by decide +kernel, ⟨rfl, hb _ (by decide)⟩, ⟨rfl, hb _ (by decide)⟩, by decide +kernel⟩

/-- C70, the part that holds. `convert_numpy_str_to_uint32` for arrays in the byte order of the machine: any strides.  Missing: other byte orders. -/
theorem C70_str_to_uint32_partial {mach : Bool} {m : MArr} {n : Nat} (hd : m.dt = .str n) (hb : InMachineOrder mach m) :
    (memUint32 mach m).values = convertNumpyStrToUint32 m.values :=
  memUint32_native hd hb

example : InMachineOrder false exLittle ∧ exLittle.dt = .str 2 := ⟨rfl, rfl⟩

/-- A big-endian string array on a little-endian machine: the numbers are not the code points (F58). -/
theorem C70_str_to_uint32_counterexample : exBig.values = exLittle.values ∧ (memUint32 false exLittle).values.data = [.num 97, .num 98, .num 99, .num 100] ∧
    (memUint32 false exBig).values.data = [.num 1627389952, .num 1644167168, .num 1660944384, .num 1677721600] := by decide +kernel

/-- C70, the part that holds. The conversion of str before storing: any strides, for arrays in the byte order of the machine, and for any byte order when what is stored is
UTF-16.  Missing: arrays of another byte order that are stored as UTF-32. -/
theorem C70_str_stored_partial (o : COpts) (mach sc : Bool) {m : MArr} (hd : ∃ n, m.dt = .str n)
    (hb : InMachineOrder mach m ∨ ∃ r, strStep o sc m.values = .ok r ∧ r.dt = .u16) : (memStrStep o mach sc m).map MArr.values = strStep o sc m.values := by
  obtain ⟨n, hd⟩ := hd
  have hdt : m.values.dt = .str n := hd
  have hsh : m.values.shape = m.shape := rfl
  have h16 := memUint16_values mach hd
  have h32 : ∀ {r}, (strStep o sc m.values = .ok r → r ≠ convertNumpyStrToUint32 m.values) ∨ (memUint32 mach m).values = convertNumpyStrToUint32 m.values := by
    intro r
    rcases hb with hb | ⟨r', h1, h2⟩
    · exact .inr (memUint32_native hd hb)
    · refine .inl fun h he => ?_
      rw [h1] at h
      cases h
      rw [he] at h2
      unfold convertNumpyStrToUint32 at h2
      split at h2 <;> cases h2
  unfold memStrStep
  rw [hd]
  dsimp only
  unfold strStep at h32 ⊢
  rw [hdt] at h32 ⊢
  dsimp only at h32 ⊢
  have hopt : (if o.str16 then (convertNumpyStrToUint16 m.values).toOption else none) = (if o.str16 then (memUint16 mach m).toOption else none).map MArr.values := by
    rw [← h16]
    cases o.str16 with
    | false => rfl
    | true => cases memUint16 mach m <;> rfl
  rw [hopt] at h32 ⊢
  generalize (if o.str16 then (memUint16 mach m).toOption else none) = z at h32 ⊢
  cases z with
  | none =>
    rcases h32 (r := convertNumpyStrToUint32 m.values) with h | h
    · exact absurd rfl (h rfl)
    · show Except.ok _ = Except.ok _
      rw [h]
  | some b =>
    have hbs : b.values.shape = b.shape := rfl
    dsimp only [Option.map_some] at h32 ⊢
    rw [hbs, hsh] at h32 ⊢
    cases sc with
    | true =>
      simp only [if_true] at h32 ⊢
      by_cases hc : n ≠ b.shape.headD 0
      · rw [if_pos hc] at h32 ⊢
        rw [if_pos hc]
        rcases h32 (r := convertNumpyStrToUint32 m.values) with h | h
        · exact absurd rfl (h rfl)
        · show Except.ok _ = Except.ok _
          rw [h]
      · rw [if_neg hc, if_neg hc]; rfl
    | false =>
      simp only [Bool.false_eq_true, if_false] at h32 ⊢
      by_cases he : m.shape.isEmpty = true
      · rw [if_pos he, if_pos he]; rfl
      · rw [if_neg he] at h32 ⊢
        rw [if_neg he]
        by_cases hc : b.shape.getLastD 0 ≠ m.shape.getLastD 0 * n
        · rw [if_pos hc] at h32 ⊢
          rw [if_pos hc]
          rcases h32 (r := convertNumpyStrToUint32 m.values) with h | h
          · exact absurd rfl (h rfl)
          · show Except.ok _ = Except.ok _
            rw [h]
        · rw [if_neg hc, if_neg hc]; rfl

-- Both conditions occur.
example : InMachineOrder true exBig ∧ ∃ (o : COpts) (r : Arr), strStep o false exBig.values = .ok r ∧ r.dt = .u16 ∧ r.data = [.num 97, .num 98, .num 99, .num 100] :=
  ⟨rfl, exOpts, ⟨.u16, [4], [.num 97, .num 98, .num 99, .num 100]⟩, by decide +kernel, rfl, rfl⟩

/-- C70, the part that holds. The conversion of bytes before storing, with `convert_numpy_bytes_to_utf16`: arrays whose last axis is contiguous.  Missing: other arrays, for
which it raises. -/
theorem C70_bytes_stored_partial {o : COpts} (ho : o.bytes16 = true) (mach : Bool) {m : MArr} (hm : InMemory m) (hd : ∃ n, m.dt = .bytes n) (hc : LastAxisTogether m) :
    (memBytesStep mach m).map MArr.values = .ok (bytesStep o m.values) := by
  obtain ⟨n, hd⟩ := hd
  obtain ⟨v, h1, h2⟩ := memBytesStep_ok ho mach hm hd hc
  rw [h1, ← h2]; rfl

/-- `[[b"ab", b"cd"], [b"ef", b"gh"]]`, in C order. -/
def exRows : MArr := contiguous p!"abcdefgh" [2, 2] (.bytes 2) false
/-- The same array in Fortran order. -/
def exColumns : MArr := { contiguous p!"abefcdgh" [2, 2] (.bytes 2) false with strides := [2, 4] }
/-- Every second row of an array of three rows. -/
def exEvery : MArr := { contiguous p!"abcd....efgh" [2, 2] (.bytes 2) false with strides := [8, 2] }

theorem contiguous_example (l : Bytes) (h : (l.all fun x => decide (x < 256)) = true) (p : Int) : l.getD p.toNat 0 < 256 := by
  rw [List.getD_eq_getElem?_getD]
  cases hx : l[p.toNat]? with
  | none => simp
  | some x => exact of_decide_eq_true (List.all_eq_true.mp h x (List.mem_of_getElem? hx))

-- An array with gaps between the rows.
example : exEvery.values = exRows.values ∧ InMemory exEvery ∧ LastAxisTogether exEvery ∧ exEvery.cContig = false ∧ exOpts.bytes16 = true ∧
    (memBytesStep false exEvery).map (fun r => (r.values.shape, r.values.data)) = .ok ([2, 4], p!"abcdefgh".map fun (x : Nat) => El.num x) :=
  ⟨by decide +kernel, ⟨rfl, fun p => contiguous_example _ (by decide) _⟩, .inr (.inr rfl), by decide +kernel, rfl, by decide +kernel⟩

/-- C70, what is missing: an array of bytes that has elements, whose last axis has several elements that do not lie side by side cannot be written with
`convert_numpy_bytes_to_utf16`; `ValueError` (F59). -/
theorem C70_bytes_stored_raises (mach : Bool) {m : MArr} (hc : ¬ LastAxisTogether m) (hne : m.nbytes ≠ 0) : memBytesStep mach m = .error .valueError :=
  memBytesStep_raises mach hc hne

/-- The same array in Fortran order. -/
theorem C70_bytes_stored_counterexample : exColumns.values = exRows.values ∧ (memBytesStep false exRows).map (fun r => r.values.data) = .ok (p!"abcdefgh".map fun (x : Nat) => El.num x) ∧
    ¬ LastAxisTogether exColumns ∧ exColumns.nbytes ≠ 0 ∧ memBytesStep false exColumns = .error .valueError := by
  have h : ¬ LastAxisTogether exColumns := by unfold LastAxisTogether; decide +kernel
  exact ⟨by decide +kernel, by decide +kernel, h, by decide +kernel, memBytesStep_raises _ h (by decide +kernel)⟩

/-- C70. `convert_to_numpy_str` on arrays of unsigned integers: any strides, any byte order, any machine.  So files from machines of the other byte order are read as they
are meant. -/
theorem C70_to_numpy_str (mach : Bool) {m : MArr} (hm : InMemory m) (hd : m.dt = .u8 ∨ m.dt = .u16 ∨ m.dt = .u32) (length : Option Nat) :
    memUintsToStr mach m length = uintsToStr m.values length :=
  memUintsToStr_values mach hm hd length

/-- `[97, 955]` as big-endian uint16. -/
def exUint16 : MArr := contiguous [0, 97, 3, 187] [2] .u16 true

example : InMemory exUint16 ∧ exUint16.values.data = [.num 97, .num 955] ∧ ∀ mach, memUintsToStr mach exUint16 none = .ok ⟨.str 2, [1], [.units [97, 955]]⟩ :=
  ⟨⟨rfl, fun p => contiguous_example _ (by decide) _⟩, by decide +kernel, by decide +kernel⟩

/-- C70, the part that holds. `convert_to_str` on numpy data: any strides, for data of single bytes and in the byte order of the machine.  Missing: other byte orders. -/
theorem C70_to_str_partial {mach : Bool} {m : MArr} (hb : InMachineOrder mach m ∨ (m.dt ≠ .u16 ∧ m.dt ≠ .u32 ∧ ∀ n, m.dt ≠ .str n)) (sc : Bool) :
    memToStr mach m = convertToStr (.np sc m.values) := by
  have known : (m.dt = .u8 ∨ m.dt = .u16 ∨ m.dt = .u32 ∨ (∃ n, m.dt = .bytes n) ∨ ∃ n, m.dt = .str n) → memToStr mach m = convertToStr (.np sc m.values) := by
    intro hd
    refine memToStr_native ?_ sc hd
    rcases hb with hb | ⟨h1, h2, h3⟩
    · exact .inl hb
    · rcases hd with hd | hd | hd | hd | ⟨n, hd⟩
      · exact .inr (.inl hd)
      · exact absurd hd h1
      · exact absurd hd h2
      · exact .inr (.inr hd)
      · exact absurd hd (h3 n)
  have other : (m.dt ≠ .u8 ∧ m.dt ≠ .u16 ∧ m.dt ≠ .u32 ∧ (∀ n, m.dt ≠ .bytes n) ∧ ∀ n, m.dt ≠ .str n) → memToStr mach m = convertToStr (.np sc m.values) := by
    rintro ⟨h1, h2, h3, h4, h5⟩
    have hdt : m.values.dt = m.dt := rfl
    unfold memToStr convertToStr
    dsimp only
    rw [hdt]
    cases hd : m.dt with
    | u8 => exact absurd hd h1
    | u16 => exact absurd hd h2
    | u32 => exact absurd hd h3
    | bytes n => exact absurd hd (h4 n)
    | str n => exact absurd hd (h5 n)
    | _ => rfl
  cases hd : m.dt with
  | u8 => exact known (.inl hd)
  | u16 => exact known (.inr (.inl hd))
  | u32 => exact known (.inr (.inr (.inl hd)))
  | bytes n => exact known (.inr (.inr (.inr (.inl ⟨n, hd⟩))))
  | str n => exact known (.inr (.inr (.inr (.inr ⟨n, hd⟩))))
  | _ => exact other (by rw [hd]; exact ⟨nofun, nofun, nofun, nofun, nofun⟩)

/-- Big-endian uint16 on a little-endian machine: other characters (F58). -/
theorem C70_to_str_counterexample : convertToStr (.np false exUint16.values) = .ok [97, 955] ∧ memToStr true exUint16 = .ok [97, 955] ∧ memToStr false exUint16 = .ok [24832, 47875] := by
  decide +kernel

/-- C70, the part that holds. `convert_to_numpy_bytes` on arrays of unsigned integers: uint8 in C order, uint16 and uint32 of any strides in the byte order of the machine.
Missing: other arrays of uint8, for which it raises, and other byte orders. -/
theorem C70_to_numpy_bytes_partial {mach : Bool} {m : MArr} (hm : InMemory m) (hs : m.shape ≠ []) (length : Option Nat) :
    (m.dt = .u8 → m.cContig = true → ((memUint8ToBytes m length).map fun r => (false, r.values)) = convertToNumpyBytes (.np false m.values) length) ∧
    (m.dt = .u16 ∨ m.dt = .u32 → InMachineOrder mach m → ((memUintsToBytes mach m length).map fun r => (false, r)) = convertToNumpyBytes (.np false m.values) length) :=
  ⟨fun hd hc => memUint8_ok hm hd hs hc length, fun hd hb => memUintsToBytes_native hm hd hs hb length⟩

/-- The bytes `abcd` as an array of two rows, in Fortran order. -/
def exGrid : MArr := { contiguous p!"acbd" [2, 2] .u8 false with strides := [1, 2] }

-- Both cases.
example : InMemory exUint16 ∧ exUint16.shape ≠ [] ∧ InMachineOrder true exUint16 ∧ (memUintsToBytes true exUint16 (some 1)).map (fun r => r.data) = .ok [.units [97], .units [206]] ∧
    MArr.cContig (contiguous p!"abcd" [2, 2] .u8 false) = true ∧ (memUint8ToBytes (contiguous p!"abcd" [2, 2] .u8 false) none).map (fun r => r.values.data) = .ok [.units p!"ab", .units p!"cd"] :=
  ⟨⟨rfl, fun p => contiguous_example _ (by decide) _⟩, by decide +kernel, rfl, by decide +kernel, by decide +kernel, by decide +kernel⟩

/-- The cases that are missing. -/
theorem C70_to_numpy_bytes_counterexample : exGrid.values = (contiguous p!"abcd" [2, 2] .u8 false).values ∧ memUint8ToBytes exGrid none = .error .valueError ∧
    memUintsToBytes false exUint16 (some 2) ≠ memUintsToBytes true exUint16 (some 2) := by
  refine ⟨by decide +kernel, ?_, by decide +kernel⟩
  have h : exGrid.cContig = false := by decide +kernel
  unfold memUint8ToBytes
  rw [h]
  rfl

end HS
