import Verif.Lemmas.Matlab
/-
C50: Datasets that only have MATLAB's attributes.  The options do not matter.
-/
namespace HS
open Spec

/-- Example: a Dataset as MATLAB writes it (`extra` further attributes), alone in a file. -/
def exMat (cls : Str) (extra : List (Str × AVal)) (a : Arr) : Obj :=
  ⟨(p!"MATLAB_class", .bytes cls) :: extra, .dset a ⟨none, some none, false, false, false⟩⟩
def exMatView (ob : Obj) : View := fun p => if p = 0 then some ob else none

/-- C50. Numbers (also characters or cells that are not stored in MATLAB's way) have the order of their dimensions reversed. -/
theorem C50_reversed (o : COpts) (V : View) (excl : Option Nat) (n p : Nat) (ob : Obj) (cls : Str) (dt : DT) (a : Arr)
    (hV : V p = some ob) (hm : MatlabOnly ob cls) (hd : HasData ob a) (he : ¬ SaysEmpty ob) (hk : KnownClass cls dt)
    (hcount : a.data.length = prodN a.shape) (hr : a.dt ≠ .ref) (hl : cls ≠ p!"logical") (hch : cls = p!"char" → ∃ w, a.dt = .bytes w)
    (hcx : ∀ re im dbl, a.dt ≠ .crec re im dbl) (hcp : ∀ o s n t, a.dt ≠ .comp o s n t) :
    ∃ t, readData o V excl (n + 1) p = .ok (.np .ndarray t) ∧ ReversedOf a t := by
  refine ⟨a.T, ?_, reversedOf_T hcount⟩
  rw [read_matlab hV hm hd, readDset_plain hr hcp, knownClass_dt hk]
  have he' : attrIsOne (aget ob.attrs p!"MATLAB_empty") = false := by
    cases h : attrIsOne (aget ob.attrs p!"MATLAB_empty") with
    | false => rfl
    | true => exact absurd (saysEmpty_iff.mpr h) he
  rw [he']
  change matlabFinish cls dt false (.arr false a) = _
  have hc : ∀ b : Bool, (if cls = p!"single" ∨ cls = p!"double" then complexData (.arr b a.T) else (.arr b a.T)) = .arr b a.T := by
    intro b
    split
    · simp only [complexData, decodeComplex]
      have : a.T.dt = a.dt := rfl
      cases ha : a.T.dt with
      | crec re im dbl => exact absurd (this.symm.trans ha) (hcx re im dbl)
      | _ => rfl
    · rfl
  unfold matlabFinish
  simp only [Bool.false_eq_true, if_false, NData.T, bind, Except.bind, hc, if_neg hl]
  by_cases h : cls = p!"char"
  · obtain ⟨w, hw⟩ := hch h
    have : a.T.dt = .bytes w := hw
    simp only [if_pos h, this]
    rfl
  · simp only [if_neg h]
    rfl

/-- C50. Complex numbers, stored as compounds of a real and an imaginary part. -/
theorem C50_complex (o : COpts) (V : View) (excl : Option Nat) (n p : Nat) (ob : Obj) (cls : Str) (a z : Arr) (re im : Str) (dbl : Bool)
    (hV : V p = some ob) (hm : MatlabOnly ob cls) (hd : HasData ob a) (he : ¬ SaysEmpty ob) (hk : cls = p!"single" ∨ cls = p!"double")
    (hcount : a.data.length = prodN a.shape) (hre : RealName re) (him : ImagName im)
    (hz : z = { a with dt := if dbl then .c128 else .c64 }) (hdt : a.dt = .crec re im dbl) (hel : ∀ e ∈ a.data, ∃ r i, e = El.cplx r i) :
    ∃ t, readData o V excl (n + 1) p = .ok (.np .ndarray t) ∧ ReversedOf z t := by
  have hkd : ∃ dt, KnownClass cls dt := by
    rcases hk with rfl | rfl
    · exact ⟨_, .num .single⟩
    · exact ⟨_, .num .double⟩
  obtain ⟨dt, hkd⟩ := hkd
  refine ⟨z.T, ?_, reversedOf_T (by rw [hz]; exact hcount)⟩
  rw [read_matlab hV hm hd, readDset_plain (by rw [hdt]; nofun) (by rw [hdt]; nofun), knownClass_dt hkd]
  have he' : attrIsOne (aget ob.attrs p!"MATLAB_empty") = false := by
    cases h : attrIsOne (aget ob.attrs p!"MATLAB_empty") with
    | false => rfl
    | true => exact absurd (saysEmpty_iff.mpr h) he
  rw [he']
  change matlabFinish cls dt false (.arr false a) = _
  have hdec : decodeComplex a.T = z.T := by
    have hne : re ≠ im := fun h => real_not_imag re hre (h ▸ him)
    have hni : ¬ RealName im := fun h => real_not_imag im h him
    have pick : pickComplexNames [re, im] = (some re, some im) := by
      have h1 := (mem_realFields re).mpr hre
      have h2 := mt (mem_realFields im).mp hni
      have h3 := (mem_imagFields im).mpr him
      simp only [pickComplexNames, List.foldl_cons, List.foldl_nil, if_pos h1, if_neg h2, if_pos h3]
    have b1 : (re == im) = false := by simpa using hne
    have b2 : (im == re) = false := by simpa using fun h => hne h.symm
    have hT : a.T.dt = .crec re im dbl := hdt
    have hid : (transposeData a.shape a.data).map (fun e => El.cplx (e.part false) (e.part true)) = transposeData a.shape a.data := by
      rw [← transposeData_map _ _ _ hcount, map_parts_id a.data hel]
    unfold decodeComplex
    simp only [hT, pick, b1, b2, Bool.false_and, BEq.rfl, Bool.not_false, Bool.and_self]
    simp only [hz, Arr.T, hid]
  have hl : cls ≠ p!"logical" := by rcases hk with rfl | rfl <;> decide
  have hc : cls ≠ p!"char" := by rcases hk with rfl | rfl <;> decide
  unfold matlabFinish
  simp only [Bool.false_eq_true, if_false, NData.T, bind, Except.bind, if_neg hl, if_neg hc, if_pos hk, complexData, hdec]
  rfl

/-- C50. Logicals become bools: True where the number is not zero. -/
theorem C50_logical (o : COpts) (V : View) (excl : Option Nat) (n p : Nat) (ob : Obj) (a b : Arr)
    (hV : V p = some ob) (hm : MatlabOnly ob p!"logical") (hd : HasData ob a) (he : ¬ SaysEmpty ob)
    (hcount : a.data.length = prodN a.shape) (hr : a.dt ≠ .ref) (hcp : ∀ o s n t, a.dt ≠ .comp o s n t) (hnum : ∀ e ∈ a.data, ∃ v : Int, e = .num v)
    (hb : b = ⟨.bool, a.shape, a.data.map fun e => if e = .num 0 then .num 0 else .num 1⟩) :
    ∃ t, readData o V excl (n + 1) p = .ok (.np .ndarray t) ∧ ReversedOf b t := by
  refine ⟨b.T, ?_, reversedOf_T (by rw [hb]; simpa using hcount)⟩
  rw [read_matlab hV hm hd, readDset_plain hr hcp, knownClass_dt .logical]
  have he' : attrIsOne (aget ob.attrs p!"MATLAB_empty") = false := by
    cases h : attrIsOne (aget ob.attrs p!"MATLAB_empty") with
    | false => rfl
    | true => exact absurd (saysEmpty_iff.mpr h) he
  rw [he']
  change matlabFinish p!"logical" .bool false (.arr false a) = _
  have hT : ∀ e ∈ a.T.data, ∃ v : Int, e = .num v := by
    intro e hmem
    have h1 : ∃ k : Nat, a.T.data[k]? = some e := List.getElem?_of_mem hmem
    simp only [Arr.T, transposeData, List.mem_map] at hmem
    obtain ⟨i, hi, rfl⟩ := hmem
    have hv : ValidIx a.shape i.reverse := by have := validIx_reverse ((mem_indicesN _ i).mp hi); rwa [List.reverse_reverse] at this
    have hl : ravelN a.shape i.reverse < a.data.length := by rw [hcount]; exact ravelN_lt hv
    simp only [List.getD_eq_getElem?_getD, List.getElem?_eq_getElem hl, Option.getD_some]
    exact hnum _ (List.getElem_mem hl)
  have htb : toBool (.arr false a.T) = .ok (.arr false b.T) := by
    simp only [toBool, mapM_boolEl _ hT, bind, Except.bind]
    simp only [hb, Arr.T, transposeData_map _ _ _ hcount]
  unfold matlabFinish
  simp only [Bool.false_eq_true, if_false, NData.T, bind, Except.bind, if_true, htb]
  rw [if_neg (by decide)]
  simp only [htb]
  rw [if_neg (by decide)]
  rfl

/-- C50. A matrix of characters (stored as unsigned integers with its dimensions reversed) becomes an array of the texts along its rows. -/
theorem C50_char (o : COpts) (V : View) (excl : Option Nat) (n p : Nat) (ob : Obj) (a t : Arr) (rest : List Nat) (w : Nat) (ss : List Str)
    (hV : V p = some ob) (hm : MatlabOnly ob p!"char") (hd : HasData ob a) (he : ¬ SaysEmpty ob) (ht : ReversedOf a t) (hrows : TextRows t rest w ss)
    (hs : ∀ s ∈ ss, Storable s) :
    ∃ r m, readData o V excl (n + 1) p = .ok (.np .ndarray r) ∧ IsStrArray r m ss ∧ r.shape = rest ++ [1] ∧ 0 < m ∧ (m = 1 ∨ ∃ s ∈ ss, s.length = m) := by
  obtain ⟨hconv, hlen⟩ := convert_textRows hrows hs
  refine ⟨mkStrArr (rest ++ [1]) ss, _, ?_, isStrArray_mk _ _ hlen, rfl, maxLen_eq ss⟩
  have hdt := hrows.dt
  rw [reversedOf_eq ht] at hconv hdt
  have hdt' : a.dt = .u8 ∨ a.dt = .u16 ∨ a.dt = .u32 := hdt
  rw [read_matlab hV hm hd, readDset_plain (by rcases hdt' with h | h | h <;> rw [h] <;> nofun) (by rcases hdt' with h | h | h <;> rw [h] <;> nofun), knownClass_dt .char]
  have he' : attrIsOne (aget ob.attrs p!"MATLAB_empty") = false := by
    cases h : attrIsOne (aget ob.attrs p!"MATLAB_empty") with
    | false => rfl
    | true => exact absurd (saysEmpty_iff.mpr h) he
  rw [he']
  change matlabFinish p!"char" (.str 1) false (.arr false a) = _
  have hna : ∀ k, a.T.dt ≠ .bytes k := by
    intro k
    rcases hdt with h | h | h <;> rw [h] <;> nofun
  unfold matlabFinish
  simp only [Bool.false_eq_true, if_false, NData.T, bind, Except.bind, if_true]
  rw [if_neg (by decide), if_neg (by decide)]
  dsimp only
  cases hx : a.T.dt with
  | bytes k => exact absurd hx (hna k)
  | _ => simp only [hconv]; rfl

/-- C50. A cell array becomes an object array of what the references point to, with the order of the dimensions reversed. -/
theorem C50_cell (o : COpts) (V : View) (excl : Option Nat) (n p : Nat) (ob : Obj) (cls : Str) (hcl : cls = p!"cell" ∨ cls = p!"struct") (a : Arr)
    (ps : List Nat) (vs : List Val)
    (hV : V p = some ob) (hm : MatlabOnly ob cls) (hd : HasData ob a) (he : ¬ SaysEmpty ob)
    (hcount : a.data.length = prodN a.shape) (hdt : a.dt = .ref) (hps : a.data = ps.map El.ref) (hvs : All2 (fun q v => readData o V excl n q = .ok v) ps vs) :
    ∃ es, readData o V excl (n + 1) p = .ok (.npObj .ndarray a.shape.reverse es) ∧ ReversedElems a.shape vs es := by
  have hl : vs.length = ps.length := by
    clear hps
    induction hvs with
    | nil => rfl
    | cons _ _ ih => simp [ih]
  have hpl : vs.length = prodN a.shape := by rw [hl, ← hcount, hps, List.length_map]
  refine ⟨transposeData a.shape vs, ?_, reversedElems_T hpl⟩
  have hrd : readDset (readData o V excl n) a = .ok (.obj a.shape vs) := by
    unfold readDset
    rw [if_pos hdt, hps]
    have : ∀ (f : El → Res Val), (∀ q, f (.ref q) = readData o V excl n q) → (ps.map El.ref).mapM f = .ok vs := by
      intro f hf
      rw [mapM_ok_forall2]
      clear hps hl hpl
      induction hvs with
      | nil => exact .nil
      | cons h _ ih => exact .cons (by rw [hf]; exact h) ih
    rw [this _ fun q => rfl]
    rfl
  have hkc : ∃ dt, KnownClass cls dt := by
    rcases hcl with rfl | rfl
    · exact ⟨_, .cell⟩
    · exact ⟨_, .struct⟩
  obtain ⟨dt, hkc⟩ := hkc
  rw [read_matlab hV hm hd, hrd, knownClass_dt hkc]
  have he' : attrIsOne (aget ob.attrs p!"MATLAB_empty") = false := by
    cases h : attrIsOne (aget ob.attrs p!"MATLAB_empty") with
    | false => rfl
    | true => exact absurd (saysEmpty_iff.mpr h) he
  rw [he']
  have h1 : ¬ (cls = p!"single" ∨ cls = p!"double") := by rcases hcl with rfl | rfl <;> decide
  have h2 : cls ≠ p!"logical" := by rcases hcl with rfl | rfl <;> decide
  have h3 : cls ≠ p!"char" := by rcases hcl with rfl | rfl <;> decide
  change matlabFinish cls dt false (.obj a.shape vs) = _
  unfold matlabFinish
  simp only [Bool.false_eq_true, if_false, NData.T, bind, Except.bind, if_neg h1, if_neg h2, if_neg h3]
  rfl

/-- C50. With `MATLAB_empty` the stored numbers are the shape (not reversed) of an array without elements of the type of the class. -/
theorem C50_empty (o : COpts) (V : View) (excl : Option Nat) (n p : Nat) (ob : Obj) (cls : Str) (dt : DT) (a : Arr) (dims : List Nat)
    (hV : V p = some ob) (hm : MatlabOnly ob cls) (hd : HasData ob a) (he : SaysEmpty ob) (hk : KnownClass cls dt)
    (hi : a.dt ∈ [DT.u8, .u16, .u32, .u64, .i8, .i16, .i32, .i64]) (hvec : a.shape = [dims.length]) (hdims : a.data = dims.map fun (d : Nat) => El.num d) (h0 : 0 ∈ dims) :
    readData o V excl (n + 1) p = .ok (if dt = .object then .npObj .ndarray dims [] else .np .ndarray ⟨dt, dims, []⟩) := by
  have hz : prodN dims = 0 := by
    clear hdims hvec
    induction dims with
    | nil => simp at h0
    | cons d r ih =>
      rcases List.mem_cons.mp h0 with h | h
      · simp [prodN, ← h]
      · simp [prodN, ih h]
  have hmap : a.data.map El.toNat = dims := by
    rw [hdims, List.map_map]
    conv => rhs; rw [← List.map_id dims]
    apply List.map_congr_left; intro x _; simp [El.toNat]
  have hmem : a.dt ∈ [DT.u8, .u16, .u32, .u64, .i8, .i16, .i32, .i64, .bool] := by
    simp only [List.mem_cons, List.not_mem_nil, or_false] at hi ⊢
    rcases hi with h | h | h | h | h | h | h | h <;> simp [h]
  have hnr : a.dt ≠ .ref := by
    intro h; rw [h] at hi; revert hi; decide
  rw [read_matlab hV hm hd, readDset_plain hnr (int_not_comp hi), knownClass_dt hk, saysEmpty_iff.mp he]
  change matlabFinish cls dt true (.arr false a) = _
  have hzz : ∀ d, zerosOf d dims = if d = .object then .obj dims [] else .arr false ⟨d, dims, []⟩ := by
    intro d
    simp only [zerosOf, npZeros, hz, List.replicate_zero]
  unfold matlabFinish
  simp only [if_true, if_pos (And.intro hmem (by rw [hvec]; rfl : a.shape.length = 1)), hmap, bind, Except.bind, hzz]
  cases hk with
  | num h => cases h <;> rfl
  | _ => rfl

/-- C50. A class the package does not know: the data are returned as they are in the file. -/
theorem C50_unknown (o : COpts) (V : View) (excl : Option Nat) (n p : Nat) (ob : Obj) (cls : Str) (a : Arr)
    (hV : V p = some ob) (hm : MatlabOnly ob cls) (hd : HasData ob a) (hr : a.dt ≠ .ref) (hcp : ∀ o s n t, a.dt ≠ .comp o s n t) (hk : ∀ dt, ¬ KnownClass cls dt) :
    readData o V excl (n + 1) p = .ok (.np .ndarray a) := by
  have hn : ∀ s dt, KnownClass s dt → ¬ s = cls := fun s dt h e => hk dt (e ▸ h)
  have : matlabDT cls = none := by
    unfold matlabDT
    simp [aget, hn _ _ (.num .u8), hn _ _ (.num .u16), hn _ _ (.num .u32), hn _ _ (.num .u64), hn _ _ (.num .i8), hn _ _ (.num .i16),
      hn _ _ (.num .i32), hn _ _ (.num .i64), hn _ _ (.num .single), hn _ _ (.num .double), hn _ _ .logical, hn _ _ .char, hn _ _ .cell,
      hn _ _ .struct, hn _ _ .canonicalEmpty]
  rw [read_matlab hV hm hd, readDset_plain hr hcp, this]
  rfl

-- A matrix of doubles and a vector of int16.
example : MatlabOnly (exMat p!"double" [] ⟨.f64, [2, 1], [.num 0, .num 4607182418800017408]⟩) p!"double" ∧
    HasData (exMat p!"double" [] ⟨.f64, [2, 1], [.num 0, .num 4607182418800017408]⟩) ⟨.f64, [2, 1], [.num 0, .num 4607182418800017408]⟩ ∧
    ¬ SaysEmpty (exMat p!"double" [] ⟨.f64, [2, 1], [.num 0, .num 4607182418800017408]⟩) ∧ KnownClass p!"double" .f64 :=
  ⟨⟨⟨by decide, by decide⟩, by decide, by decide, by decide, by decide, by decide, by decide⟩, ⟨_, rfl⟩,
    (by rintro (⟨dt, h⟩ | h) <;> revert h <;> simp [exMat, aget]), .num .double⟩
example (o : COpts) (n : Nat) : ∃ t, readData o (exMatView (exMat p!"int16" [] ⟨.i16, [3, 2], [.num 1, .num 2, .num 3, .num 4, .num 5, .num 6]⟩)) none (n + 1) 0 =
    .ok (.np .ndarray t) ∧ ReversedOf ⟨.i16, [3, 2], [.num 1, .num 2, .num 3, .num 4, .num 5, .num 6]⟩ t :=
  C50_reversed o _ none n 0 _ p!"int16" .i16 _ rfl ⟨⟨by decide, by decide⟩, by decide, by decide, by decide, by decide, by decide, by decide⟩ ⟨_, rfl⟩
    (by rintro (⟨dt, h⟩ | h) <;> revert h <;> simp [exMat, aget]) (.num .i16) (by decide) (by decide) (by decide) (fun h => absurd h (by decide)) (by nofun) (by nofun)
-- A complex double.
example (o : COpts) (n : Nat) : ∃ t, readData o (exMatView (exMat p!"double" [] ⟨.crec p!"real" p!"imag" true, [1, 1], [.cplx 0 7]⟩)) none (n + 1) 0 =
    .ok (.np .ndarray t) ∧ ReversedOf ⟨.c128, [1, 1], [.cplx 0 7]⟩ t :=
  C50_complex o _ none n 0 _ p!"double" ⟨.crec p!"real" p!"imag" true, [1, 1], [.cplx 0 7]⟩ _ p!"real" p!"imag" true rfl
    ⟨⟨by decide, by decide⟩, by decide, by decide, by decide, by decide, by decide, by decide⟩ ⟨_, rfl⟩
    (by rintro (⟨dt, h⟩ | h) <;> revert h <;> simp [exMat, aget]) (.inr rfl) (by decide) ((mem_realFields _).mp (by decide)) ((mem_imagFields _).mp (by decide)) rfl rfl
    (by intro e he; obtain rfl := List.mem_singleton.mp he; exact ⟨_, _, rfl⟩)
-- A logical 1×2: [true false].
example (o : COpts) (n : Nat) : ∃ t, readData o (exMatView (exMat p!"logical" [(p!"MATLAB_int_decode", .int .i32 1)] ⟨.u8, [2, 1], [.num 1, .num 0]⟩)) none (n + 1) 0 =
    .ok (.np .ndarray t) ∧ ReversedOf ⟨.bool, [2, 1], [.num 1, .num 0]⟩ t :=
  C50_logical o _ none n 0 _ ⟨.u8, [2, 1], [.num 1, .num 0]⟩ _ rfl
    ⟨⟨by decide, by decide⟩, by decide, by decide, by decide, by decide, by decide, by decide⟩ ⟨_, rfl⟩
    (by rintro (⟨dt, h⟩ | h) <;> revert h <;> simp [exMat, aget]) (by decide) (by decide) (by nofun)
    (by intro e he; rcases List.mem_cons.mp he with rfl | he; exact ⟨_, rfl⟩; obtain rfl := List.mem_singleton.mp he; exact ⟨_, rfl⟩) (by decide)
-- The char matrix ['ab'; 'c '] (the second row is filled up with zeros here) is stored with its columns first.
example (o : COpts) (n : Nat) : ∃ r m, readData o (exMatView (exMat p!"char" [(p!"MATLAB_int_decode", .int .i32 2)]
      ⟨.u16, [2, 2], [.num 97, .num 99, .num 98, .num 0]⟩)) none (n + 1) 0 = .ok (.np .ndarray r) ∧ IsStrArray r m [p!"ab", p!"c"] ∧ r.shape = [2, 1] ∧ 0 < m ∧ (m = 1 ∨ ∃ s ∈ [p!"ab", p!"c"], s.length = m) :=
  C50_char o _ none n 0 _ ⟨.u16, [2, 2], [.num 97, .num 99, .num 98, .num 0]⟩ ⟨.u16, [2, 2], [.num 97, .num 98, .num 99, .num 0]⟩ [2] 2 _ rfl
    ⟨⟨by decide, by decide⟩, by decide, by decide, by decide, by decide, by decide, by decide⟩ ⟨_, rfl⟩
    (by rintro (⟨dt, h⟩ | h) <;> revert h <;> simp [exMat, aget])
    (by
      have h : (⟨.u16, [2, 2], [.num 97, .num 98, .num 99, .num 0]⟩ : Arr) = (⟨.u16, [2, 2], [.num 97, .num 99, .num 98, .num 0]⟩ : Arr).T := by decide
      rw [h]; exact reversedOf_T (by decide))
    ⟨.inr (.inl rfl), rfl, by decide, ⟨[[97, 98], [99]], .cons rfl (.cons rfl .nil), by decide, by decide, by decide⟩⟩
    (by intro s hs; rcases List.mem_cons.mp hs with rfl | hs; (refine ⟨?_, ?_⟩ <;> decide); obtain rfl := List.mem_singleton.mp hs; (refine ⟨?_, ?_⟩ <;> decide))
-- An empty cell and an unknown class.
example (o : COpts) (n : Nat) : readData o (exMatView (exMat p!"cell" [(p!"MATLAB_empty", .int .u8 1)] ⟨.u64, [2], [.num 0, .num 3]⟩)) none (n + 1) 0 =
    .ok (.npObj .ndarray [0, 3] []) :=
  C50_empty o _ none n 0 _ p!"cell" .object ⟨.u64, [2], [.num 0, .num 3]⟩ [0, 3] rfl
    ⟨⟨by decide, by decide⟩, by decide, by decide, by decide, by decide, by decide, by decide⟩ ⟨_, rfl⟩
    (.inl ⟨_, rfl⟩) .cell (by decide) rfl (by decide) (by decide)
example (o : COpts) (n : Nat) : readData o (exMatView (exMat p!"function_handle" [] ⟨.u8, [2], [.num 5, .num 3]⟩)) none (n + 1) 0 =
    .ok (.np .ndarray ⟨.u8, [2], [.num 5, .num 3]⟩) :=
  C50_unknown o _ none n 0 _ p!"function_handle" _ rfl
    ⟨⟨by decide, by decide⟩, by decide, by decide, by decide, by decide, by decide, by decide⟩ ⟨_, rfl⟩ (by decide) (by nofun)
    (by
      intro dt h
      generalize hc : p!"function_handle" = c at h
      cases h with
      | num h => cases h <;> exact absurd hc (by decide)
      | _ => exact absurd hc (by decide))
-- A cell with one double.
def exCellView : View := fun p =>
  if p = 0 then some (exMat p!"cell" [] ⟨.ref, [1, 1], [.ref 1]⟩) else if p = 1 then some (exMat p!"uint8" [] ⟨.u8, [1, 1], [.num 7]⟩) else none
example (o : COpts) (n : Nat) : ∃ es, readData o exCellView none (n + 1 + 1) 0 = .ok (.npObj .ndarray [1, 1] es) ∧
    ReversedElems [1, 1] [.np .ndarray ⟨.u8, [1, 1], [.num 7]⟩] es :=
  C50_cell o _ none (n + 1) 0 _ p!"cell" (.inl rfl) ⟨.ref, [1, 1], [.ref 1]⟩ [1] _ rfl
    ⟨⟨by decide, by decide⟩, by decide, by decide, by decide, by decide, by decide, by decide⟩ ⟨_, rfl⟩
    (by rintro (⟨dt, h⟩ | h) <;> revert h <;> simp [exMat, aget]) (by decide) rfl rfl
    (.cons (by
      obtain ⟨t, h, hr⟩ := C50_reversed o exCellView none n 1 _ p!"uint8" .u8 ⟨.u8, [1, 1], [.num 7]⟩ rfl
        ⟨⟨by decide, by decide⟩, by decide, by decide, by decide, by decide, by decide, by decide⟩ ⟨_, rfl⟩
        (by rintro (⟨dt, h⟩ | h) <;> revert h <;> simp [exMat, aget]) (.num .u8) (by decide) (by decide) (by decide) (fun h => absurd h (by decide)) (by nofun) (by nofun)
      rw [h, reversedOf_eq hr]; rfl) .nil)

end HS
