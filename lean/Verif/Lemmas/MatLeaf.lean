import Verif.Lemmas.MatRead
/-
Reading values without parts that have been stored without Python metadata.
-/
namespace HS
open Spec

theorem storedDT_same {o : COpts} {d d' : DT} (h : Spec.StoredDT o d d') (hd : d ∉ [DT.bool, .c64, .c128]) : d' = d := by
  cases h with
  | same => rfl
  | bool => exact absurd (by simp) hd
  | c64 => exact absurd (by simp) hd
  | c128 => exact absurd (by simp) hd

theorem storedDT_bool {o : COpts} (hR : MatR o) {d' : DT} (h : Spec.StoredDT o .bool d') : d' = .u8 := by
  cases h with
  | bool => rw [if_pos hR.boolsU8]
  | same _ h => exact absurd (by simp) h

theorem storedDT_cplx {o : COpts} (hR : MatR o) {d d' : DT} (h : Spec.StoredDT o d d') (dbl : Bool) (hd : d = if dbl then .c128 else .c64) : d' = .crec p!"real" p!"imag" dbl := by
  have hc := hR.cplx
  cases h with
  | same _ h => subst hd; exact absurd (by cases dbl <;> simp) h
  | bool => cases dbl <;> cases hd
  | c64 r i h1 h2 =>
    cases dbl with
    | true => cases hd
    | false =>
      have e1 : r = p!"real" := h1.elim (fun e => by rw [e, hc]) (fun e => by rw [hc] at e; cases e)
      have e2 : i = p!"imag" := h2.elim (fun e => by rw [e, hc]) (fun e => by rw [hc] at e; cases e)
      rw [if_neg (by rw [e1]; rintro ⟨h, _⟩; exact absurd h (by decide)), e1, e2]
  | c128 r i h1 h2 =>
    cases dbl with
    | false => cases hd
    | true =>
      have e1 : r = p!"real" := h1.elim (fun e => by rw [e, hc]) (fun e => by rw [hc] at e; cases e)
      have e2 : i = p!"imag" := h2.elim (fun e => by rw [e, hc]) (fun e => by rw [hc] at e; cases e)
      rw [if_neg (by rw [e1]; rintro ⟨h, _⟩; exact absurd h (by decide)), e1, e2]

theorem Spec.TypedData.bool {a : Arr} (h : TypedData a) (hd : a.dt = .bool) : ∀ e ∈ a.data, e = .num 0 ∨ e = .num 1 := by
  intro e he
  have := h.fits e he
  rw [hd] at this
  cases e with
  | num v => exact (show v = 0 ∨ v = 1 from this).imp (congrArg _) (congrArg _)
  | _ => exact this.elim

theorem Spec.TypedData.complex {a : Arr} (h : TypedData a) (hd : a.dt = .c64 ∨ a.dt = .c128) : ∀ e ∈ a.data, ∃ r i, e = .cplx r i := by
  intro e he
  have := h.fits e he
  rcases hd with hd | hd <;> rw [hd] at this
  all_goals
    cases e with
    | cplx r i => exact ⟨r, i, rfl⟩
    | _ => exact this.elim

/-- Numbers are read as they were, with at least two dimensions. -/
theorem number_read {o y : COpts} (hR : MatR o) {V : View} {excl : Option Nat} {q : Nat} {attrs : List (Str × AVal)} {b : Arr} {f : Filters} {path : Option Str} {v : Val} {a : Arr}
    {cl : Str} (hV : V q = some ⟨attrs, .dset b f⟩) (ha : AttrsAre o (.dset b f) path (.value v) attrs) (hn : NumericOf v a) (ht : TypedData a) (hc : ClassOf v cl) (h0 : 0 ∉ a.shape)
    (hh : HoldsArray o a b) (n : Nat) : readData y V excl (n + 1) q = .ok (.np .ndarray (AsRow o a)) := by
  obtain ⟨c, hnp, _⟩ := numericOf_numpy hn
  have hm := matlabOnly_of hR ha hc (asNumpy_fields hnp _)
  have he : ¬ SaysEmpty ⟨attrs, .dset b f⟩ := fun h => h0 ((numeric_empty hn).mp ((attrs_empty hR.matlab ha).mp h))
  obtain ⟨r1, r2⟩ := holds_reversed hR.reverse hh ht.count
  have hmem := holds_mem hR.reverse hh ht.count
  have hd : HasData ⟨attrs, .dset b f⟩ b := ⟨f, rfl⟩
  have fin : ∀ {d : DT} {z t : Arr}, z = { b with dt := a.dt } → ReversedOf z t → t = AsRow o a := by
    rintro d z t rfl h
    rw [reversedOf_eq h]
    exact (reversedOf_eq (a := { b with dt := a.dt }) (t := AsRow o a) ⟨rfl, r1.symm, r2⟩).symm
  have hcl := numeric_class hn hc
  have num : ∀ {dt : DT}, a.dt = dt → NumberClass cl dt → dt ∉ [DT.bool, .c64, .c128] → cl ≠ p!"logical" → cl ≠ p!"char" → dt ≠ .ref → (∀ re im dbl, dt ≠ .crec re im dbl) →
      (∀ o s n t, dt ≠ .comp o s n t) → readData y V excl (n + 1) q = .ok (.np .ndarray (AsRow o a)) := by
    intro dt e hk h1 h2 h3 h4 h5 h6
    have hb := storedDT_same hh.dt (e ▸ h1)
    obtain ⟨t, g1, g2⟩ := C50_reversed y V excl n q _ cl dt b hV hm hd he (.num hk) hh.count (by rw [hb, e]; exact h4) h2 (fun h => absurd h h3) (by rw [hb, e]; exact h5)
      (by rw [hb, e]; exact h6)
    rw [g1, fin (d := dt) (by rw [← hb]) g2]
  have cplx : ∀ (dbl : Bool), a.dt = (if dbl then .c128 else .c64) → cl = p!"single" ∨ cl = p!"double" → readData y V excl (n + 1) q = .ok (.np .ndarray (AsRow o a)) := by
    intro dbl e hk
    have hb := storedDT_cplx hR hh.dt dbl e
    obtain ⟨t, g1, g2⟩ := C50_complex y V excl n q _ cl b { b with dt := if dbl then .c128 else .c64 } p!"real" p!"imag" dbl hV hm hd he hk hh.count (Or.inr (Or.inr rfl))
      (Or.inr (Or.inr (Or.inl rfl))) rfl hb (fun e' he' => ht.complex (by rw [e]; cases dbl <;> simp) e' (hmem e' he'))
    rw [g1, fin (d := .c64) (by rw [e]) g2]
  generalize hdt : a.dt = dt at hcl
  cases hcl with
  | bool =>
    have hb := storedDT_bool hR (hdt ▸ hh.dt)
    obtain ⟨t, g1, g2⟩ := C50_logical y V excl n q _ b ⟨.bool, b.shape, b.data.map fun e => if e = El.num 0 then El.num 0 else El.num 1⟩ hV hm hd he hh.count (by rw [hb]; nofun)
      (by rw [hb]; nofun) (fun e he' => (ht.bool hdt e (hmem e he')).elim (fun h => ⟨0, h⟩) (fun h => ⟨1, h⟩)) rfl
    have hid : (b.data.map fun e => if e = El.num 0 then El.num 0 else .num 1) = b.data := by
      refine (List.map_congr_left ?_).trans (List.map_id _)
      intro e he'
      rcases ht.bool hdt e (hmem e he') with rfl | rfl <;> rfl
    rw [hid] at g2
    rw [g1, fin (d := .bool) (by rw [hdt]) g2]
  | u8 => exact num hdt .u8 (by decide) (by decide) (by decide) (by decide) (by nofun) (by nofun)
  | u16 => exact num hdt .u16 (by decide) (by decide) (by decide) (by decide) (by nofun) (by nofun)
  | u32 => exact num hdt .u32 (by decide) (by decide) (by decide) (by decide) (by nofun) (by nofun)
  | u64 => exact num hdt .u64 (by decide) (by decide) (by decide) (by decide) (by nofun) (by nofun)
  | i8 => exact num hdt .i8 (by decide) (by decide) (by decide) (by decide) (by nofun) (by nofun)
  | i16 => exact num hdt .i16 (by decide) (by decide) (by decide) (by decide) (by nofun) (by nofun)
  | i32 => exact num hdt .i32 (by decide) (by decide) (by decide) (by decide) (by nofun) (by nofun)
  | i64 => exact num hdt .i64 (by decide) (by decide) (by decide) (by decide) (by nofun) (by nofun)
  | f32 => exact num hdt .single (by decide) (by decide) (by decide) (by decide) (by nofun) (by nofun)
  | f64 => exact num hdt .double (by decide) (by decide) (by decide) (by decide) (by nofun) (by nofun)
  | c64 => exact cplx false hdt (.inl rfl)
  | c128 => exact cplx true hdt (.inr rfl)
  | str n => exact absurd (hdt ▸ numericOf_dt hn) (by simp [NumericDT])
  | bytes n => exact absurd (hdt ▸ numericOf_dt hn) (by simp [NumericDT])

theorem dtClass_known {d : DT} {cl : Str} (h : DtClass d cl) : ∃ dt, KnownClass cl dt ∧ dt ≠ .object := by
  cases h with
  | bool => exact ⟨_, .logical, nofun⟩
  | u8 => exact ⟨_, .num .u8, nofun⟩
  | u16 => exact ⟨_, .num .u16, nofun⟩
  | u32 => exact ⟨_, .num .u32, nofun⟩
  | u64 => exact ⟨_, .num .u64, nofun⟩
  | i8 => exact ⟨_, .num .i8, nofun⟩
  | i16 => exact ⟨_, .num .i16, nofun⟩
  | i32 => exact ⟨_, .num .i32, nofun⟩
  | i64 => exact ⟨_, .num .i64, nofun⟩
  | f32 => exact ⟨_, .num .single, nofun⟩
  | f64 => exact ⟨_, .num .double, nofun⟩
  | c64 => exact ⟨_, .num .single, nofun⟩
  | c128 => exact ⟨_, .num .double, nofun⟩
  | str n => exact ⟨_, .char, nofun⟩
  | bytes n => exact ⟨_, .char, nofun⟩

theorem map_ofNat (l : List Nat) : (l.map fun d => El.num (Int.ofNat d)) = l.map fun (d : Nat) => El.num d := rfl

theorem classOf_text {v : Val} {c : Cont} {dt : DT} {sh : List Nat} (h : AsNumpy v c dt sh) (hd : (∃ n, dt = .bytes n) ∨ ∃ n, dt = .str n) {cl : Str} (hc : ClassOf v cl) :
    cl = p!"char" := by
  cases h with
  | np c a =>
    have hc := classOf_np hc
    rcases hd with ⟨n, hd⟩ | ⟨n, hd⟩ <;> rw [hd] at hc <;> cases hc <;> rfl
  | dtypeObj s => cases hc with
    | dtypeObj => rfl
    | table h => cases h
  | str s => cases hc with | table h => cases h; rfl
  | bytes s => cases hc with | table h => cases h; rfl
  | bytearray s => cases hc with | table h => cases h; rfl
  | bigInt i d h1 h2 => cases hc with | table h => cases h with
    | bigInt => rfl
    | int _ h1 h2 => omega
  | bigNegInt i d h1 h2 => cases hc with | table h => cases h with
    | bigInt => rfl
    | int _ h1 h2 => omega
  | _ => rcases hd with ⟨n, hd⟩ | ⟨n, hd⟩ <;> cases hd

theorem bytesOf_count {v : Val} {n : Nat} {sh : List Nat} {bs : List Bytes} (h : BytesOf v n sh bs) : bs.length = prodN sh := by
  cases h with
  | np _ _ _ _ _ h => exact h
  | _ => rfl

/-- Arrays without elements. -/
theorem empty_read {o y : COpts} (hR : MatR o) {V : View} {excl : Option Nat} {q : Nat} {attrs : List (Str × AVal)} {b : Arr} {f : Filters} {path : Option Str} {v : Val} {a : Arr}
    {cl : Str} (hV : V q = some ⟨attrs, .dset b f⟩) (ha : AttrsAre o (.dset b f) path (.value v) attrs) (hn : NumericOf v a ∨ TextData o v a) (hc : ClassOf v cl) (h0 : NoElements v)
    (hh : HoldsShape o a b) (n : Nat) : ∃ dt, KnownClass cl dt ∧ readData y V excl (n + 1) q = .ok (.np .ndarray ⟨dt, RowShape o a.shape, []⟩) := by
  have h1 : 0 ∈ a.shape := by
    rcases hn with hn | hn
    · exact (numeric_empty hn).mp h0
    · rw [textData_empty hR hn h0]; simp
  have hf : ∀ names, ¬ StoredNames (.dset b f) v names := by
    rcases hn with hn | hn
    · obtain ⟨c, hnp, _⟩ := numericOf_numpy hn
      exact asNumpy_fields hnp _
    · obtain ⟨_, c, dt, sh, hnp, _⟩ := textData_class hn
      exact asNumpy_fields hnp _
  have hk : ∃ dt, KnownClass cl dt ∧ dt ≠ .object := by
    rcases hn with hn | hn
    · exact dtClass_known (numeric_class hn hc)
    · obtain ⟨_, c, dt, sh, hnp, hd⟩ := textData_class hn
      have : cl = p!"char" := by
        have hd' : AsNumpy v c dt sh := hnp
        exact classOf_text hnp hd hc
      subst this
      exact ⟨_, .char, nofun⟩
  obtain ⟨dt, hk, hno⟩ := hk
  have hm := matlabOnly_of hR ha hc hf
  have he : SaysEmpty ⟨attrs, .dset b f⟩ := (attrs_empty hR.matlab ha).mpr h0
  unfold HoldsShape at hh
  have := C50_empty y V excl n q _ cl dt b (RowShape o a.shape) hV hm ⟨f, rfl⟩ he hk (by rw [hh]; simp) (by rw [hh]) (by rw [hh]; rfl) (rowShape_zero.mpr h1)
  rw [if_neg hno] at this
  exact ⟨dt, hk, this⟩

/-- Characters. -/
theorem chars_read {o y : COpts} (hR : MatR o) {V : View} {excl : Option Nat} {q : Nat} {attrs : List (Str × AVal)} {b : Arr} {f : Filters} {path : Option Str} {v : Val} {a : Arr}
    {rest : List Nat} {w : Nat} {ss : List Str} (hV : V q = some ⟨attrs, .dset b f⟩) (ha : AttrsAre o (.dset b f) path (.value v) attrs) (ht : TextData o v a)
    (hrows : TextRows (AsRow o a) rest w ss) (hs : ∀ s ∈ ss, Storable s) (h0 : ¬ NoElements v) (hh : HoldsArray o a b) :
    ∃ r m, (∀ n, readData y V excl (n + 1) q = .ok (.np .ndarray r)) ∧ IsStrArray r m ss ∧ r.shape = rest ++ [1] ∧ 0 < m ∧ (m = 1 ∨ ∃ s ∈ ss, s.length = m) := by
  obtain ⟨hc, c, dt, sh, hnp, _⟩ := textData_class ht
  have hm := matlabOnly_of hR ha hc (asNumpy_fields hnp _)
  have he : ¬ SaysEmpty ⟨attrs, .dset b f⟩ := fun h => h0 ((attrs_empty hR.matlab ha).mp h)
  have hcount : a.data.length = prodN a.shape := by
    obtain ⟨us, h4, h1, h2, h3⟩ := hrows.rows
    have h3' : a.data = us.flatMap fun u => (u ++ List.replicate (w - u.length) 0).map fun (x : Nat) => El.num x := h3
    have : prodN (RowShape o a.shape) = prodN (rest ++ [w]) := congrArg prodN hrows.shape
    rw [prodN_rowShape] at this
    rw [this, h3', prodN_append, ← h1]
    clear h1 h3 h3' this h4
    induction us with
    | nil => simp
    | cons u us ih =>
      have hu := h2 u (by simp)
      rw [List.flatMap_cons, List.length_append, ih (fun u hu => h2 u (by simp [hu]))]
      simp [prodN, Nat.add_mul]
      omega
  obtain ⟨r1, r2⟩ := holds_reversed hR.reverse hh hcount
  have hdt : b.dt = a.dt := by
    apply storedDT_same hh.dt
    have : a.dt = .u8 ∨ a.dt = .u16 ∨ a.dt = .u32 := hrows.dt
    rcases this with h | h | h <;> rw [h] <;> decide
  obtain ⟨r, m, g1, g2, g3, g4⟩ := C50_char y V excl 0 q _ b (AsRow o a) rest w ss hV hm ⟨f, rfl⟩ he ⟨hdt.symm, r1.symm, r2⟩ hrows hs
  refine ⟨r, m, ?_, g2, g3, g4⟩
  intro n
  have hu : a.dt = .u8 ∨ a.dt = .u16 ∨ a.dt = .u32 := hrows.dt
  have hd1 : b.dt ≠ .ref := by rw [hdt]; rcases hu with h | h | h <;> rw [h] <;> nofun
  have hd2 : ∀ o s n t, b.dt ≠ .comp o s n t := by rw [hdt]; rcases hu with h | h | h <;> rw [h] <;> nofun
  rw [← g1, read_matlab hV hm ⟨f, rfl⟩, read_matlab hV hm ⟨f, rfl⟩, readDset_plain hd1 hd2, readDset_plain hd1 hd2]

/-- Bytes that are not ASCII. -/
theorem bytes_read {o y : COpts} (hR : MatR o) {V : View} {excl : Option Nat} {q : Nat} {attrs : List (Str × AVal)} {b : Arr} {f : Filters} {path : Option Str} {v : Val} {a : Arr} {k : Nat}
    (hV : V q = some ⟨attrs, .dset b f⟩) (ha : AttrsAre o (.dset b f) path (.value v) attrs) (ht : TextData o v a) (hd : a.dt = .bytes k) (h0 : ¬ NoElements v)
    (hh : HoldsArray o a b) (n : Nat) : readData y V excl (n + 1) q = .ok (.np .ndarray (AsRow o a)) := by
  obtain ⟨hc, c, dt, sh, hnp, _⟩ := textData_class ht
  have hm := matlabOnly_of hR ha hc (asNumpy_fields hnp _)
  have he : ¬ SaysEmpty ⟨attrs, .dset b f⟩ := fun h => h0 ((attrs_empty hR.matlab ha).mp h)
  have hcount : a.data.length = prodN a.shape := by
    cases ht with
    | utf16 => cases hd
    | utf32 => cases hd
    | empty => split at hd <;> cases hd
    | bytes16 => cases hd
    | empty16 => cases hd
    | bytes h => simpa using bytesOf_count h
    | width0 h => simpa using bytesOf_count h
  obtain ⟨r1, r2⟩ := holds_reversed hR.reverse hh hcount
  have hdt : b.dt = a.dt := storedDT_same hh.dt (by rw [hd]; simp)
  obtain ⟨t, g1, g2⟩ := C50_reversed y V excl n q _ p!"char" (.str 1) b hV hm ⟨f, rfl⟩ he .char hh.count (by rw [hdt, hd]; nofun) (by decide) (fun _ => ⟨k, by rw [hdt, hd]⟩)
    (by rw [hdt, hd]; nofun) (by rw [hdt, hd]; nofun)
  rw [g1, reversedOf_eq g2, ← reversedOf_eq (a := b) (t := AsRow o a) ⟨hdt.symm, r1.symm, r2⟩]

theorem bytes_documented {o : COpts} {v : Val} {a : Arr} {k : Nat} (ht : TextData o v a) (hd : a.dt = .bytes k) : AsDocumented o v := by
  intro n sh ss hx
  have key : ∀ {m : Nat} {sh : List Nat} {bs : List Bytes}, BytesOf v m sh bs → False := by
    intro m sh bs h
    obtain ⟨c, h1⟩ := bytesOf_numpy h
    obtain ⟨c', h2⟩ := textOf_numpy hx
    cases (asNumpy_same h1 h2).2.1
  cases ht with
  | utf16 => cases hd
  | utf32 => cases hd
  | empty => exact absurd hd (by split <;> nofun)
  | bytes16 => cases hd
  | empty16 => cases hd
  | bytes h => exact (key h).elim
  | width0 h => exact (key h).elim

end HS
