import Verif.Spec.Layout
import Verif.Spec.Storage
import Verif.Lemmas.Stored
import Verif.Lemmas.Leaf
import Verif.Lemmas.AttrTable
/-
Steps of the text conversions on writing (C63).
-/
namespace HS
open Spec

theorem mulLast_spread (n : Nat) (sh : List Nat) : mulLast n (atleast1dShape sh) = SpreadShape n sh := by
  unfold SpreadShape
  cases sh with
  | nil => simp [atleast1dShape, mulLast]
  | cons d r =>
    rw [if_neg (by simp)]
    show mulLast n (d :: r) = _
    induction r generalizing d with
    | nil => simp [mulLast]
    | cons e r ih =>
      rw [mulLast, ih e]
      · simp [List.dropLast]
      · simp

theorem prodN_spread (n : Nat) (sh : List Nat) : prodN (SpreadShape n sh) = prodN sh * n := by
  rw [← mulLast_spread]
  cases sh with
  | nil => simp [atleast1dShape, mulLast, prodN]
  | cons d r =>
    show prodN (mulLast n (d :: r)) = _
    induction r generalizing d with
    | nil => simp [mulLast, prodN]
    | cons e r ih =>
      rw [mulLast, prodN, ih e]
      · simp [prodN, Nat.mul_assoc]
      · simp

theorem spread_last (n : Nat) (sh : List Nat) (h : sh ≠ []) : (SpreadShape n sh).getLastD 0 = sh.getLastD 0 * n := by
  unfold SpreadShape
  rw [if_neg h]
  simp

theorem length_flatten_const {α : Type} {n : Nat} {l : List (List α)} (h : ∀ s ∈ l, s.length = n) : l.flatten.length = l.length * n := by
  induction l with
  | nil => simp
  | cons a l ih =>
    rw [List.flatten_cons, List.length_append, ih (fun s hs => h s (by simp [hs])), h a (by simp), List.length_cons, Nat.add_mul]
    omega

/-- One unit for each character. -/
theorem utf16Enc_single {s : Str} (h : Single s) : utf16Enc s = .ok s := by
  induction s with
  | nil => rfl
  | cons c r ih =>
    have hc := h c (by simp)
    rw [utf16Enc, if_neg, if_pos hc.1, ih (fun d hd => h d (by simp [hd]))]
    · rfl
    · unfold isSurr
      simp only [Bool.and_eq_true, decide_eq_true_eq]
      omega

/-- Otherwise there are more units than characters. -/
theorem utf16Enc_longer {s : Str} {u : List Nat} (h : ¬ Single s) (hu : utf16Enc s = .ok u) : s.length < u.length := by
  obtain ⟨w1, _, _, w4⟩ := utf16Enc_words s u hu
  rcases Nat.lt_or_ge s.length u.length with hl | hl
  · exact hl
  · exfalso
    have he := utf16Enc_bmp s u hu (by omega)
    subst he
    have hs := utf16Enc_scalars u u hu
    exact h (fun c hc => ⟨w1 c hc, (hs c hc).1⟩)

theorem stripNul_single {s : Str} (h : Single s) : Single (stripNul s) := by
  obtain ⟨k, hk⟩ := stripNul_decomp s
  intro c hc
  exact h c (by rw [hk]; simp [hc])

theorem stripNul_len (s : List Nat) : (stripNul s).length ≤ s.length := by
  obtain ⟨k, hk⟩ := stripNul_decomp s
  have := congrArg List.length hk
  simp at this
  omega

theorem stripNul_pad {s : List Nat} {n : Nat} (h : s.length = n) : stripNul s ++ List.replicate (n - (stripNul s).length) 0 = s := by
  obtain ⟨k, hk⟩ := stripNul_decomp s
  have := congrArg List.length hk
  simp at this
  rw [show n - (stripNul s).length = k by omega]
  exact hk.symm

theorem text_nbytes {n : Nat} {sh : List Nat} {d : List El} : (⟨.str n, sh, d⟩ : Arr).nbytes = 0 ↔ n = 0 ∨ 0 ∈ sh := by
  unfold Arr.nbytes
  simp only [DT.itemsize, Nat.mul_eq_zero]
  rw [prodN_zero]
  simp
  exact Or.comm

theorem bytes_nbytes {n : Nat} {sh : List Nat} {d : List El} : (⟨.bytes n, sh, d⟩ : Arr).nbytes = 0 ↔ n = 0 ∨ 0 ∈ sh := by
  unfold Arr.nbytes
  simp only [DT.itemsize, Nat.mul_eq_zero]
  rw [prodN_zero]
  exact Or.comm

/-- UTF-16 with a unit for each character. -/
theorem toUint16_single {n : Nat} {sh : List Nat} {ss : List Str} (h0 : ¬ (n = 0 ∨ 0 ∈ sh)) (hn : ∀ s ∈ ss, s.length = n) (hs : ∀ s ∈ ss, Single s)
    (hf : ∃ s ∈ ss, s.getLast? ≠ some 0) : convertNumpyStrToUint16 ⟨.str n, sh, ss.map .units⟩ = .ok (UnitsArr .u16 n sh ss) := by
  unfold convertNumpyStrToUint16
  rw [if_neg (fun h => h0 (text_nbytes.mp h))]
  have h1 : (ss.map El.units).mapM (fun e => utf16Enc (stripNul e.toUnits)) = .ok (ss.map stripNul) :=
    mapM_res_map _ _ _ _ (fun s h => utf16Enc_single (stripNul_single (hs s h)))
  dsimp only
  rw [h1]
  show Except.ok _ = _
  have hw : ((ss.map stripNul).map List.length).foldl max 0 = n := by
    refine foldl_max_eq _ _ ?_ ?_
    · obtain ⟨s, h2, h3⟩ := hf
      rw [List.map_map]
      exact List.mem_map.mpr ⟨s, h2, by show (stripNul s).length = n; rw [stripNul_self s h3]; exact hn s h2⟩
    · intro k hk
      rw [List.map_map] at hk
      obtain ⟨s, h2, h3⟩ := List.mem_map.mp hk
      have h3 : (stripNul s).length = k := h3
      have := stripNul_len s
      rw [hn s h2] at this
      omega
  rw [hw, mulLast_spread]
  unfold UnitsArr
  congr 1
  congr 1
  rw [List.flatMap_def, List.map_map, List.map_flatten]
  congr 1
  refine List.map_congr_left ?_
  intro s h
  show (stripNul s ++ List.replicate (n - (stripNul s).length) 0).map _ = _
  rw [stripNul_pad (hn s h)]
  rfl

theorem mapM_mem_ok {α β : Type} {f : α → Res β} {l : List α} {m : List β} (h : l.mapM f = .ok m) {a : α} (ha : a ∈ l) : ∃ b ∈ m, f a = .ok b := by
  induction l generalizing m with
  | nil => cases ha
  | cons c l ih =>
    rw [List.mapM_cons] at h
    obtain ⟨b, h1, h2⟩ := res_bind_ok.mp h
    obtain ⟨r, h3, h4⟩ := res_bind_ok.mp h2
    cases h4
    rcases List.mem_cons.mp ha with rfl | ha
    · exact ⟨b, by simp, h1⟩
    · obtain ⟨y, h5, h6⟩ := ih h3 ha
      exact ⟨y, by simp [h5], h6⟩

theorem foldl_max_ge {l : List Nat} {k : Nat} (h : k ∈ l) : k ≤ l.foldl max 0 := le_foldl_max l 0 k (.inl h)

/-- UTF-16 that is wider than the dtype, or none at all. -/
theorem toUint16_wider {n : Nat} {sh : List Nat} {ss : List Str} (h0 : ¬ (n = 0 ∨ 0 ∈ sh)) (hn : ∀ s ∈ ss, s.length = n) 
    (hf : ∃ s ∈ ss, ¬ Single s ∧ s.getLast? ≠ some 0) {b : Arr} (h : convertNumpyStrToUint16 ⟨.str n, sh, ss.map .units⟩ = .ok b) :
    ∃ w, n < w ∧ b.shape = SpreadShape w sh := by
  unfold convertNumpyStrToUint16 at h
  rw [if_neg (fun h => h0 (text_nbytes.mp h))] at h
  obtain ⟨enc, h1, h2⟩ := res_bind_ok.mp h
  cases h2
  refine ⟨_, ?_, mulLast_spread _ _⟩
  obtain ⟨s, m1, m2, m3⟩ := hf
  obtain ⟨u, h5, h6⟩ := mapM_mem_ok h1 (a := .units s) (List.mem_map.mpr ⟨s, m1, rfl⟩)
  have h7 : utf16Enc s = .ok u := by
    have : utf16Enc (stripNul s) = .ok u := h6
    rwa [stripNul_self s m3] at this
  have h8 := utf16Enc_longer m2 h7
  rw [hn s m1] at h8
  exact Nat.lt_of_lt_of_le h8 (foldl_max_ge (List.mem_map.mpr ⟨u, h5, rfl⟩))

theorem textOf_leaf {v : Val} {n : Nat} {sh : List Nat} {ss : List Str} (h : TextOf v n sh ss) {c : Cont} {a : Arr} (hl : leafOf v = some (c, a)) :
    a = ⟨.str n, sh, ss.map .units⟩ ∧ (∀ s ∈ ss, s.length = n) ∧ ss.length = prodN sh ∧ (c = .scalar → sh = []) := by
  cases h with
  | str s => cases hl; exact ⟨rfl, by simp, rfl, fun _ => rfl⟩
  | np c n sh ss h1 h2 h3 => cases hl; exact ⟨rfl, h1, h2, h3⟩

theorem bytesOf_leaf {v : Val} {n : Nat} {sh : List Nat} {bs : List Bytes} (h : BytesOf v n sh bs) {c : Cont} {a : Arr} (hl : leafOf v = some (c, a)) :
    a = ⟨.bytes n, sh, bs.map .units⟩ ∧ (∀ s ∈ bs, s.length = n) ∧ bs.length = prodN sh := by
  cases h with
  | bytes s => cases hl; exact ⟨npBytes_self s, by simp, rfl⟩
  | bytearray s => cases hl; exact ⟨npBytes_self s, by simp, rfl⟩
  | bigInt i d h1 h2 =>
    rw [leafOf, if_neg (by omega)] at hl
    cases hl
    have : intDec i = d := by rw [decimal_iff.mp h2, intDec, if_neg (by omega)]
    rw [this]
    exact ⟨npBytes_self d, by simp, rfl⟩
  | bigNegInt i d h1 h2 =>
    rw [leafOf, if_neg (by omega)] at hl
    cases hl
    have : intDec i = p!"-" ++ d := by rw [decimal_iff.mp h2, intDec, if_pos (by omega)]; rfl
    rw [this]
    have hl' : (p!"-" ++ d).length = d.length + 1 := by simp
    exact ⟨by rw [npBytes_self, hl']; rfl, by simp, rfl⟩
  | dtypeObj s b h1 =>
    rw [leafOf, h1] at hl
    cases hl
    exact ⟨npBytes_self b, by simp, rfl⟩
  | np c n sh ss h1 h2 h3 => cases hl; exact ⟨rfl, h1, h2⟩

theorem toUint32_units {n : Nat} {sh : List Nat} {ss : List Str} (h0 : ¬ (n = 0 ∨ 0 ∈ sh)) :
    convertNumpyStrToUint32 ⟨.str n, sh, ss.map .units⟩ = UnitsArr .u32 n sh ss := by
  unfold convertNumpyStrToUint32
  rw [if_neg (fun h => h0 (text_nbytes.mp h))]
  unfold UnitsArr
  rw [mulLast_spread]
  congr 1
  · congr 1
    simp [DT.itemsize]
  · rw [List.flatMap_def, List.map_map, List.map_flatten]
    rfl

theorem unitsArr_len {dt : DT} {n : Nat} {sh : List Nat} {ss : List Str} (hn : ∀ s ∈ ss, s.length = n) (hl : ss.length = prodN sh) :
    (UnitsArr dt n sh ss).data.length = prodN (UnitsArr dt n sh ss).shape := by
  show (ss.flatten.map _).length = prodN (SpreadShape n sh)
  rw [List.length_map, length_flatten_const hn, hl, prodN_spread]

theorem last_pos {sh : List Nat} (h0 : 0 ∉ sh) (hs : sh ≠ []) : 0 < sh.getLastD 0 := by
  rcases Nat.eq_zero_or_pos (sh.getLastD 0) with h | h
  · exfalso
    apply h0
    have h1 := List.getLast_mem hs
    rw [List.getLastD_eq_getLast?, List.getLast?_eq_some_getLast hs] at h
    simp only [Option.getD_some] at h
    rwa [h] at h1
  · exact h

/-- str with elements. -/
theorem strStep_units {o : COpts} {c : Cont} {n : Nat} {sh : List Nat} {ss : List Str} (hn : ∀ s ∈ ss, s.length = n) (hc : c = .scalar → sh = [])
    (h0 : n ≠ 0) (h1 : 0 ∉ sh) (hf : o.str16 = true → Fills ss) {w : Arr}
    (hw : strStep o (c == .scalar) ⟨.str n, sh, ss.map .units⟩ = .ok w) :
    (ToUtf16 o ss → w = UnitsArr .u16 n sh ss) ∧ (¬ ToUtf16 o ss → w = UnitsArr .u32 n sh ss) := by
  have hne : ¬ (n = 0 ∨ 0 ∈ sh) := by rintro (h | h)
                                      · exact h0 h
                                      · exact h1 h
  unfold strStep at hw
  dsimp only at hw
  cases ho : o.str16 with
  | false =>
    rw [ho] at hw
    cases hw
    exact ⟨(fun h => by rw [h.1] at ho; cases ho), fun _ => toUint32_units hne⟩
  | true =>
    rw [ho] at hw
    simp only [if_true] at hw
    obtain ⟨f1, f2⟩ := hf ho
    constructor
    · intro hs
      rw [toUint16_single hne hn hs.2 (f1 hs.2)] at hw
      simp only [Except.toOption] at hw
      by_cases hsc : (c == .scalar) = true
      · rw [if_pos hsc] at hw
        have : sh = [] := hc (by simpa using hsc)
        subst this
        cases hw
        exact if_neg (by simp [UnitsArr, SpreadShape])
      · rw [if_neg hsc] at hw
        split at hw
        · cases hw
        · rename_i hem
          cases hw
          rw [if_neg]
          intro h
          apply h
          exact spread_last n sh (by intro h; rw [h] at hem; simp at hem)
    · intro hs
      have hs : ¬ ∀ s ∈ ss, Single s := fun h => hs ⟨ho, h⟩
      cases hb : convertNumpyStrToUint16 ⟨.str n, sh, ss.map .units⟩ with
      | error e =>
        rw [hb] at hw
        cases hw
        exact toUint32_units hne
      | ok b =>
        rw [hb] at hw
        obtain ⟨k, k1, k2⟩ := toUint16_wider hne hn (f2 hs) hb
        simp only [Except.toOption] at hw
        by_cases hsc : (c == .scalar) = true
        · rw [if_pos hsc] at hw
          have : sh = [] := hc (by simpa using hsc)
          subst this
          rw [if_pos] at hw
          · cases hw; exact toUint32_units hne
          · rw [k2]
            simp [SpreadShape]
            omega
        · rw [if_neg hsc] at hw
          split at hw
          · cases hw
          · rename_i hem
            have hsh : sh ≠ [] := by intro h; rw [h] at hem; simp at hem
            rw [if_pos] at hw
            · cases hw; exact toUint32_units hne
            · rw [k2, spread_last k sh hsh]
              have := last_pos h1 hsh
              intro h
              have := Nat.eq_of_mul_eq_mul_left this h
              omega

theorem strStep_bytes {o : COpts} {sc : Bool} {a : Arr} (h : ∀ n, a.dt ≠ .str n) : strStep o sc a = .ok a := by
  unfold strStep
  split
  · rename_i n he
    exact absurd he (h n)
  · rfl

theorem bytesStep_str {o : COpts} {a : Arr} (h : ∀ n, a.dt ≠ .bytes n) : bytesStep o a = a := by
  unfold bytesStep
  split
  · rename_i n he
    exact absurd he (h n)
  · rfl

/-- Byte strings with elements. -/
theorem bytesStep_units {o : COpts} {n : Nat} {sh : List Nat} {bs : List Bytes} (h0 : n ≠ 0) (h1 : 0 ∉ sh ∨ o.bytes16 = false) :
    (BytesToUtf16 o bs → bytesStep o ⟨.bytes n, sh, bs.map .units⟩ = UnitsArr .u16 n sh bs) ∧
    (¬ BytesToUtf16 o bs → bytesStep o ⟨.bytes n, sh, bs.map .units⟩ = ⟨.bytes n, sh, bs.map .units⟩) := by
  unfold bytesStep
  dsimp only
  cases ho : o.bytes16 with
  | false => exact ⟨(fun h => by rw [h.1] at ho; cases ho), fun _ => if_neg (by simp)⟩
  | true =>
    have h1 : 0 ∉ sh := h1.resolve_right (by rw [ho]; simp)
    rw [if_pos rfl, if_neg (fun h => by rcases bytes_nbytes.mp h with h | h; exact h0 h; exact h1 h)]
    have hu : (bs.map El.units).flatMap El.toUnits = bs.flatten := by
      rw [List.flatMap_def, List.map_map]
      congr 1
      exact List.map_id' bs
    rw [hu]
    constructor
    · intro h
      rw [if_pos, mulLast_spread]
      · rfl
      · simp only [List.all_eq_true, decide_eq_true_eq, List.mem_flatten]
        rintro c ⟨b, hb, hc⟩
        exact h.2 b hb c hc
    · intro h
      rw [if_neg]
      simp only [List.all_eq_true, decide_eq_true_eq, List.mem_flatten]
      intro hc
      exact h ⟨ho, fun b hb c hc' => hc c ⟨b, hb, hc'⟩⟩

/-- Byte strings of width 0: HDF5 has no such type. -/
theorem prepare_width0 {o : COpts} {c : Cont} {a0 a d : Arr} (hu : strStep o (c == .scalar) (bytesStep o a0) = .ok a) (hn : a.dt = .bytes 0) (hl : a.data.length = prodN a.shape)
    (he : ¬ (o.storeShape = true ∧ a0.isEmpty = true)) (h : prepare o c a0 = .ok d) : HoldsArray o ⟨.bytes 1, a.shape, a.data.map fun _ => .units [0]⟩ (h5Store d) := by
  unfold prepare at h
  rw [hu] at h
  simp only [bind, Except.bind] at h
  rw [if_neg (by simpa using he)] at h
  obtain ⟨r1, r2, r3⟩ := reverse2_shape o a
  have hb : boolStep o (reverseStep o (atleast2dStep o a)) = reverseStep o (atleast2dStep o a) := by
    unfold boolStep
    rw [if_neg]
    rw [r2, hn]
    simp
  rw [hb] at h
  have hd : d = reverseStep o (atleast2dStep o a) := by
    unfold complexStep at h
    rw [r2, hn] at h
    cases h; rfl
  rw [← hd] at r1 r2 r3
  have hs : h5Store d = ⟨.bytes 1, d.shape, d.data.map fun _ => .units [0]⟩ := by
    unfold h5Store
    rw [r2, hn]
    rfl
  rw [hs]
  refine ⟨.same _ (by simp), by show d.shape = _; rw [r1, rowShape_eq], ?_, ?_⟩
  · show (d.data.map _).length = prodN d.shape
    rw [List.length_map, r1, r3]
    cases o.reverse
    · simp [hl, prodN_shape2]
    · simp [length_transposeData, prodN_reverse]
  · intro i hi
    show (d.data.map _)[ravelN d.shape _]? = (a.data.map _)[_]?
    rw [List.getElem?_map, List.getElem?_map, r1, r3, rowShape_eq]
    rw [rowShape_eq] at hi
    have hv := indexOf_valid hi
    cases o.reverse
    · rfl
    · simp only [if_true]
      congr 1
      exact getElem?_transposeData _ _ _ hv (by rw [hl, prodN_shape2])

/-- There is nothing in it. -/
theorem strStep_empty {o : COpts} {c : Cont} {n : Nat} {sh : List Nat} {d : List El} (he : n = 0 ∨ 0 ∈ sh) (hc : c = .scalar → sh = []) {w : Arr} (hw : strStep o (c == .scalar) ⟨.str n, sh, d⟩ = .ok w) :
    w.shape = [0] ∧ w.data = [] ∧ (w.dt = .u16 ∨ w.dt = .u32) ∧ (o.str16 = false → w.dt = .u32) ∧ (o.str16 = true → n = 0 ∨ sh.getLast? = some 0 → w.dt = .u16) := by
  have hz := text_nbytes (d := d).mpr he
  have e16 : convertNumpyStrToUint16 ⟨.str n, sh, d⟩ = .ok ⟨.u16, [0], []⟩ := by
    unfold convertNumpyStrToUint16
    rw [if_pos hz]; rfl
  have e32 : convertNumpyStrToUint32 ⟨.str n, sh, d⟩ = ⟨.u32, [0], []⟩ := by
    unfold convertNumpyStrToUint32
    rw [if_pos hz]; rfl
  unfold strStep at hw
  dsimp only at hw
  rw [e16, e32] at hw
  cases ho : o.str16 with
  | false =>
    rw [ho] at hw
    cases hw
    exact ⟨rfl, rfl, .inr rfl, fun _ => rfl, fun h => by cases h⟩
  | true =>
    rw [ho] at hw
    simp only [if_true, Except.toOption] at hw
    by_cases hsc : (c == .scalar) = true
    · rw [if_pos hsc] at hw
      have hsh := hc (by simpa using hsc)
      subst hsh
      have hn : n = 0 := by simpa using he
      subst hn
      cases hw
      exact ⟨rfl, rfl, .inl rfl, (fun h => by cases h), fun _ _ => rfl⟩
    · rw [if_neg hsc] at hw
      split at hw
      · cases hw
      · cases hw
        split
        · rename_i hem hne
          refine ⟨rfl, rfl, .inr rfl, (fun h => by cases h), fun _ h => ?_⟩
          exfalso
          apply hne
          rcases h with h | h
          · subst h; rfl
          · rw [List.getLastD_eq_getLast? (l := sh), h]; simp
        · exact ⟨rfl, rfl, .inl rfl, (fun h => by cases h), fun _ _ => rfl⟩

/-- Text is stored as documented. -/
theorem text_stored {o : COpts} {v : Val} {u a d : Arr} {c : Cont} (ht : TextData o v u) (hd : AsDocumented o v) (hl : leafOf v = some (c, a)) (h : prepare o c a = .ok d) :
    (o.storeShape = true ∧ a.isEmpty = true → HoldsShape o u (h5Store d)) ∧ (¬ (o.storeShape = true ∧ a.isEmpty = true) → HoldsArray o u (h5Store d)) := by
  have hst : ∃ w, strStep o (c == .scalar) (bytesStep o a) = .ok w := by
    unfold prepare at h
    obtain ⟨w, h1, _⟩ := res_bind_ok.mp h
    exact ⟨w, h1⟩
  obtain ⟨w, hw⟩ := hst
  have fin : w = u → NumericDT u.dt ∨ (∃ n, n ≠ 0 ∧ u.dt = .bytes n) → u.data.length = prodN u.shape →
      (o.storeShape = true ∧ a.isEmpty = true → HoldsShape o u (h5Store d)) ∧ (¬ (o.storeShape = true ∧ a.isEmpty = true) → HoldsArray o u (h5Store d)) := by
    rintro rfl h1 h2
    refine ⟨?_, fun he => prepare_from hw h1 h2 he h⟩
    rintro ⟨e1, e2⟩
    obtain ⟨f1, f2⟩ := prepare_shape_from hw e1 e2 h
    rw [f2]; exact f1
  cases ht with
  | @utf16 n sh ss t n0 n1 tu =>
    obtain ⟨rfl, l1, l2, l3⟩ := textOf_leaf t hl
    rw [bytesStep_str (by simp)] at hw
    exact fin ((strStep_units l1 l3 n0 n1 (fun ho => (hd n sh ss t ho).1 n0 n1) hw).1 tu) (.inl (by simp [NumericDT, UnitsArr])) (unitsArr_len l1 l2)
  | @utf32 n sh ss t n0 n1 tu =>
    obtain ⟨rfl, l1, l2, l3⟩ := textOf_leaf t hl
    rw [bytesStep_str (by simp)] at hw
    exact fin ((strStep_units l1 l3 n0 n1 (fun ho => (hd n sh ss t ho).1 n0 n1) hw).2 tu) (.inl (by simp [NumericDT, UnitsArr])) (unitsArr_len l1 l2)
  | @empty n sh ss t he =>
    obtain ⟨rfl, l1, l2, l3⟩ := textOf_leaf t hl
    have hw2 := hw
    rw [bytesStep_str (by simp)] at hw2
    obtain ⟨w1, w2, w3, w4, w5⟩ := strStep_empty he l3 hw2
    have hempty : Arr.isEmpty ⟨.str n, sh, ss.map .units⟩ = true := by
      unfold Arr.isEmpty
      rw [text_nbytes.mpr he]
      simp [DT.isString]
    by_cases hs : o.storeShape = true
    · refine ⟨fun _ => ?_, fun hn => absurd ⟨hs, hempty⟩ hn⟩
      obtain ⟨f1, f2⟩ := prepare_shape_from hw hs hempty h
      rw [f2]
      unfold HoldsShape at f1 ⊢
      rw [w1] at f1
      exact f1
    · have hdt : w.dt = if o.str16 then .u16 else .u32 := by
        cases ho : o.str16 with
        | false => exact w4 ho
        | true =>
          refine w5 ho ?_
          by_cases h0 : n = 0
          · exact .inl h0
          · rcases (hd n sh ss t ho).2 h0 (he.resolve_left h0) with h1 | h1
            · exact absurd h1 hs
            · exact .inr h1
      refine fin ?_ (.inl ?_) rfl
      · cases w
        simp only at w1 w2 hdt
        rw [w1, w2, hdt]
      · cases o.str16 <;> simp [NumericDT]
  | @bytes16 n sh bs t n0 n1 tu =>
    obtain ⟨rfl, l1, l2⟩ := bytesOf_leaf t hl
    rw [(bytesStep_units n0 (.inl n1)).1 tu, strStep_bytes (by simp [UnitsArr])] at hw
    cases hw
    exact fin rfl (.inl (by simp [NumericDT, UnitsArr])) (unitsArr_len l1 l2)
  | @bytes n sh bs t n0 n1 tu =>
    obtain ⟨rfl, l1, l2⟩ := bytesOf_leaf t hl
    rw [(bytesStep_units n0 n1).2 tu, strStep_bytes (by simp)] at hw
    cases hw
    exact fin rfl (.inr ⟨n, n0, rfl⟩) (by simp [l2])
  | @empty16 n sh bs t he ho =>
    obtain ⟨rfl, l1, l2⟩ := bytesOf_leaf t hl
    have hb : bytesStep o ⟨.bytes n, sh, bs.map .units⟩ = ⟨.u16, [0], []⟩ := by
      unfold bytesStep
      dsimp only
      rw [if_pos ho, if_pos (bytes_nbytes.mpr he)]
      rfl
    rw [hb, strStep_bytes (by simp)] at hw
    cases hw
    exact fin rfl (.inl (by simp [NumericDT])) rfl
  | @width0 sh bs t ho =>
    obtain ⟨rfl, l1, l2⟩ := bytesOf_leaf t hl
    have hb : bytesStep o ⟨.bytes 0, sh, bs.map .units⟩ = ⟨.bytes 0, sh, bs.map .units⟩ := by
      unfold bytesStep
      dsimp only
      rw [if_neg (by rw [ho]; simp)]
    have hw2 := hw
    rw [hb, strStep_bytes (by simp)] at hw2
    cases hw2
    constructor
    · rintro ⟨e1, e2⟩
      obtain ⟨f1, f2⟩ := prepare_shape_from hw e1 e2 h
      rw [f2]
      exact f1
    · intro he
      have := prepare_width0 hw rfl (by simp [l2]) he h
      dsimp only at this
      rw [List.map_map] at this
      exact this

/-- Values stored in one Dataset. -/
theorem numericOf_leaf {v : Val} {a b : Arr} {c : Cont} (h : NumericOf v a) (hl : leafOf v = some (c, b)) : b = a ∧ NumericDT a.dt ∧ a.data.length = prodN a.shape := by
  cases h with
  | int i h1 h2 => rw [leafOf, if_pos ⟨h1, by omega⟩] at hl; cases hl; exact ⟨rfl, by simp [NumericDT], rfl⟩
  | np _ _ h1 h2 => rw [leafOf] at hl; cases hl; exact ⟨rfl, h1, h2⟩
  | _ => rw [leafOf] at hl; cases hl; exact ⟨rfl, by simp [NumericDT], rfl⟩


/-- The data of the Dataset for a value without parts. -/
theorem leaf_data {o : COpts} {v : Val} {c : Cont} {a d : Arr} (hl : leafOf v = some (c, a)) (h : prepare o c a = .ok d) : DataFor o v (h5Store d) := by
  rintro b (hb | ⟨hb, hd⟩)
  · obtain ⟨rfl, n1, n2⟩ := numericOf_leaf hb hl
    rw [leaf_empty hl, numeric_isEmpty n1, beq_iff_eq]
    constructor
    · rintro ⟨s1, s2⟩
      obtain ⟨e1, e2⟩ := prepare_shape n1 s1 s2 h
      rw [e2]; exact e1
    · intro hn
      exact prepare_array n1 n2 hn h
  · rw [leaf_empty hl]
    exact text_stored hb hd hl h

end HS
