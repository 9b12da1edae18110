import Verif.Lemmas.Dec
import Verif.Lemmas.Array
import Verif.Lemmas.Conv
import Verif.Props.Complex
import Verif.Props.Strings
import Verif.Spec.Values
/-
Round trip of numpy data through `prepare` (what is stored) and `npFinish` (what is made of it).
-/
namespace HS

/-- The parts of the options that reading looks at, and the link between them that MATLAB compatibility forces. -/
structure OptsOk (o : COpts) : Prop where
  rev : o.matlab = true → o.reverse = true

theorem arr_TT (a : Arr) (h : a.data.length = prodN a.shape) : a.T.T = a := by
  cases a with
  | mk dt shape data =>
    simp only [Arr.T, List.reverse_reverse]
    rw [transpose_transpose shape data h]

theorem reshapeStep_ok (s : List Nat) (b : Arr) (h : prodN s = prodN b.shape) :
    reshapeStep s (.arr false b) = .ok (.arr false { b with shape := s }) := by
  unfold reshapeStep
  by_cases hs : s = b.shape
  · rw [if_neg]
    · subst hs; rfl
    · rintro ⟨h1, _⟩; exact h1 (by simpa [NData.shape] using hs)
  · rw [if_pos ⟨by simpa [NData.shape] using hs, by simpa [NData.shape] using h⟩]

theorem arr_with_shape (a b : Arr) (h1 : b.dt = a.dt) (h2 : b.data = a.data) : { b with shape := a.shape } = a := by
  cases a; cases b; simp_all

theorem npBytes_self (u : List Nat) : npBytes u = ⟨.bytes u.length, [], [.units u]⟩ := by
  simp [npBytes, mkBytesArr]

theorem size_nil {a : Arr} (h : a.data.length = prodN a.shape) (hs : a.shape = []) : ∃ e, a.data = [e] := by
  rw [hs] at h
  exact List.length_eq_one_iff.mp h

/-- The scalar at position 0. -/
theorem flat0_good (a : Arr) (hp : Spec.PlainArr a) (hs : a.shape = []) (hn : ∀ u, El.units u ∈ a.data → u.getLast? ≠ some 0) :
    flat0 (.arr false a) = .ok (.np .scalar a) := by
  obtain ⟨e, he⟩ := size_nil hp.size hs
  have hf := hp.fits e (by rw [he]; simp)
  have hpl := hp.plain
  have hn' : ∀ u, e = El.units u → u.getLast? ≠ some 0 := fun u hu => hn u (by rw [he, hu]; simp)
  cases a with
  | mk dt shape data =>
    simp only at hs he hf hpl
    subst hs he
    simp only [flat0]
    cases dt <;> (try rfl)
    · cases e <;> simp [Spec.FitsDT] at hf
      rename_i n u
      simp only [El.toUnits]
      rw [stripNul_self u (hn' u rfl), npBytes_self, hf]
    · cases e <;> simp [Spec.FitsDT] at hf
      rename_i n u
      simp only [El.toUnits]
      rw [stripNul_self u (hn' u rfl), npStr, hf]

theorem toContainer_good (c : Cont) (a : Arr) (hg : Spec.GoodNp c a) (hne : a.isEmpty = false) (u : Str) (rec : Bool)
    (hrec : c = .recarray → rec = true) :
    toContainer (some c.name) u false rec (.arr false a) = .ok (.np c a) := by
  cases c with
  | scalar =>
    obtain ⟨hs, hn⟩ := hg.scalar rfl
    have hf := flat0_good a hg.arr hs hn
    have : toContainer (some Cont.scalar.name) u false rec (.arr false a) = flat0 (.arr false a) := by
      simp only [toContainer, Cont.name, if_true, Bool.false_eq_true, if_false]
      split
      · rfl
      · split <;> rfl
    rw [this, hf]
  | ndarray => rfl
  | matrix =>
    have hm := hg.matrix rfl
    have : toContainer (some Cont.matrix.name) u false rec (.arr false a) =
        (if 2 < a.shape.length then .error .valueError else .ok (.np .matrix a.atleast2d)) := rfl
    rw [this, if_neg (by omega), Arr.atleast2d]
    cases a with
    | mk dt shape data =>
      match shape, hm with
      | [x, y], _ => rfl
  | chararray =>
    have : toContainer (some Cont.chararray.name) u false rec (.arr false a) =
        (if a.dt.isString then .ok (.np .chararray a) else .error .valueError) := rfl
    rw [this, if_pos]
    rcases hg.chararray rfl with ⟨n, h⟩ | ⟨n, h⟩ <;> rw [h] <;> rfl
  | recarray =>
    rw [hrec rfl]; rfl

theorem tail_good (c : Cont) (a b : Arr) (hg : Spec.GoodNp c a) (hne : a.isEmpty = false) (u : Str) (rec : Bool)
    (hrec : c = .recarray → rec = true) (h1 : b.dt = a.dt) (h2 : b.data = a.data) (h3 : prodN b.shape = prodN a.shape) :
    (do let d ← reshapeStep a.shape (.arr false b); toContainer (some c.name) u false rec d) = .ok (.np c a) := by
  rw [reshapeStep_ok a.shape b h3.symm, arr_with_shape a b h1 h2]
  exact toContainer_good c a hg hne u rec hrec

/-- Non-string dtypes are not touched by the string conversion. -/
theorem stringStep_num (dt : DT) (hs : dt.isString = false) (hp : dt ≠ .object ∧ dt ≠ .ref ∧ (∀ r i d, dt ≠ .crec r i d) ∧ ∀ o s n t, dt ≠ .comp o s n t) (mc : Option Str)
    (hmc : mc = none ∨ mc = dt.matlabClass) (d : NData) : stringStep dt.name mc d = .ok d := by
  have h1 : startsWith dt.name p!"bytes" = false := by
    cases dt <;> first | rfl | exact absurd rfl hp.1 | exact absurd rfl hp.2.1 | exact absurd rfl (hp.2.2.1 _ _ _) | exact absurd rfl (hp.2.2.2 _ _ _ _) | cases hs
  have h2 : startsWith dt.name p!"str" = false := by
    cases dt <;> first | rfl | exact absurd rfl hp.1 | exact absurd rfl hp.2.1 | exact absurd rfl (hp.2.2.1 _ _ _) | exact absurd rfl (hp.2.2.2 _ _ _ _) | cases hs
  have h3 : mc ≠ some p!"char" := by
    rcases hmc with h | h
    · rw [h]; simp
    · rw [h]; cases dt <;> first | decide | exact absurd rfl (hp.2.2.1 _ _ _) | exact absurd rfl (hp.2.2.2 _ _ _ _) | cases hs
  unfold stringStep
  simp only [h1, h2, Bool.false_eq_true, if_false, if_neg h3]

theorem length_reverseStep (o : COpts) (a : Arr) (h : a.data.length = prodN a.shape) :
    (reverseStep o a).data.length = prodN (reverseStep o a).shape := by
  unfold reverseStep
  split
  · simp only [Arr.T, length_transposeData, prodN_reverse]
  · exact h

theorem reverseStep_dt (o : COpts) (a : Arr) : (reverseStep o a).dt = a.dt := by unfold reverseStep; split <;> rfl
theorem atleast2dStep_dt (o : COpts) (a : Arr) : (atleast2dStep o a).dt = a.dt := by unfold atleast2dStep; split <;> rfl
theorem atleast2dStep_data (o : COpts) (a : Arr) : (atleast2dStep o a).data = a.data := by unfold atleast2dStep; split <;> rfl
theorem atleast2dStep_prod (o : COpts) (a : Arr) : prodN (atleast2dStep o a).shape = prodN a.shape := by
  unfold atleast2dStep
  split
  · simp [Arr.atleast2d, prodN_atleast2d]
  · rfl

theorem mem_transposeData {α : Type} [Inhabited α] (s : List Nat) (d : List α) (h : d.length = prodN s) :
    ∀ e ∈ transposeData s d, e ∈ d := by
  intro e he
  simp only [transposeData, List.mem_map] at he
  obtain ⟨i, hi, rfl⟩ := he
  have hv := validIx_reverse ((mem_indicesN _ _).mp hi)
  rw [List.reverse_reverse] at hv
  have := ravelN_lt hv
  rw [List.getD_eq_getElem?_getD, List.getElem?_eq_getElem (by omega)]
  simp

theorem mem_reverseStep (o : COpts) (a : Arr) (h : a.data.length = prodN a.shape) : ∀ e ∈ (reverseStep o a).data, e ∈ a.data := by
  unfold reverseStep
  split
  · exact mem_transposeData _ _ h
  · exact fun e he => he

theorem isComplex_of_fits (a : Arr) (h : ∀ e ∈ a.data, Spec.FitsDT a.dt e) (hd : a.dt = .c64 ∨ a.dt = .c128) : Spec.IsComplex a := by
  refine ⟨hd, ?_⟩
  intro e he
  have := h e he
  cases e <;> rcases hd with hd | hd <;> rw [hd] at this <;> simp [Spec.FitsDT] at this
  · exact ⟨_, _, rfl⟩
  · exact ⟨_, _, rfl⟩

theorem mapM_toBool (l : List El) (h : ∀ e ∈ l, Spec.FitsDT .bool e) :
    l.mapM boolEl = .ok l := by
  induction l with
  | nil => rfl
  | cons e r ih =>
    rw [List.mapM_cons, ih (fun e he => h e (by simp [he]))]
    have := h e (by simp)
    cases e <;> simp [Spec.FitsDT] at this
    rename_i v
    rcases this with rfl | rfl <;> rfl

/-- What reading makes of numeric data before the shape is restored. -/
theorem num_decode (o : COpts) (r d : Arr) (hcn : r.dt = .c64 ∨ r.dt = .c128 → Spec.CplxNames o) (hf : ∀ e ∈ r.data, Spec.FitsDT r.dt e) (hs : r.dt.isString = false)
    (hp : r.dt ≠ .object ∧ r.dt ≠ .ref ∧ (∀ a i d, r.dt ≠ .crec a i d) ∧ ∀ o s n t, r.dt ≠ .comp o s n t) (h : complexStep o (boolStep o r) = .ok d) :
    (if r.dt.name = p!"bool" ∧ (if startsWith r.dt.name p!"complex" then complexData (.arr false (h5Store d)) else .arr false (h5Store d)).isBool = false
      then toBool (if startsWith r.dt.name p!"complex" then complexData (.arr false (h5Store d)) else .arr false (h5Store d))
      else .ok (if startsWith r.dt.name p!"complex" then complexData (.arr false (h5Store d)) else .arr false (h5Store d))) =
    .ok (.arr false r) := by
  by_cases hc : r.dt = .c64 ∨ r.dt = .c128
  · have hb : boolStep o r = r := by
      unfold boolStep; rw [if_neg]; rintro ⟨_, h⟩; rcases hc with hc | hc <;> rw [hc] at h <;> cases h
    obtain ⟨e, he, _, h2⟩ := decode_encode r (isComplex_of_fits r hf hc) _ _ (hcn hc).re (hcn hc).im
    have hd : d = e := by
      rw [hb] at h
      have : complexStep o r = encodeComplex r o.complexNames := by
        unfold complexStep; rcases hc with hc | hc <;> rw [hc]
      rw [this] at h
      rw [show o.complexNames = (o.complexNames.1, o.complexNames.2) from rfl, he] at h
      injection h with h; exact h.symm
    have hst : h5Store d = h5Read d := by
      subst hd
      have : ∃ a b c, d.dt = .crec a b c := by
        simp only [encodeComplex] at he
        split at he
        · cases he
        · rcases hc with hc | hc <;> rw [hc] at he <;> injection he with he <;> subst he <;> exact ⟨_, _, _, rfl⟩
      obtain ⟨x, y, z, hdt⟩ := this
      unfold h5Store; rw [hdt]
    have hsw : startsWith r.dt.name p!"complex" = true := by rcases hc with hc | hc <;> rw [hc] <;> decide
    rw [if_neg]
    · rw [if_pos hsw, hst, complexData, hd, h2]
    · rintro ⟨hx, _⟩; revert hx; rcases hc with hc | hc <;> rw [hc] <;> decide
  · have hsw : startsWith r.dt.name p!"complex" = false := by
      cases hdt : r.dt <;> first | rfl | exact absurd (Or.inl hdt) hc | exact absurd (Or.inr hdt) hc | exact absurd hdt hp.1 | exact absurd hdt hp.2.1 | exact absurd hdt (hp.2.2.1 _ _ _) | exact absurd hdt (hp.2.2.2 _ _ _ _) | (rw [hdt] at hs; cases hs)
    simp only [hsw, Bool.false_eq_true, if_false]
    by_cases hb : r.dt = .bool
    · by_cases hu : o.boolsU8 = true
      · have hbs : boolStep o r = { r with dt := .u8 } := by unfold boolStep; rw [if_pos ⟨hu, hb⟩]
        have hd : d = { r with dt := .u8 } := by
          rw [hbs] at h
          injection h with h; exact h.symm
        have hst : h5Store d = { r with dt := .u8 } := by subst hd; rfl
        rw [hst, if_pos]
        · have hm := mapM_toBool r.data (by rw [hb] at hf; exact hf)
          unfold toBool
          simp only
          rw [hm]
          show Except.ok (NData.arr false { r with dt := .bool }) = _
          cases r; simp_all
        · exact ⟨by rw [hb]; rfl, rfl⟩
      · have hbs : boolStep o r = r := by unfold boolStep; rw [if_neg]; rintro ⟨h1, _⟩; exact hu h1
        have hd : d = r := by
          rw [hbs, complexStep, hb] at h
          injection h with h; exact h.symm
        have hst : h5Store d = r := by subst hd; unfold h5Store; rw [hb]
        rw [hst, if_neg]
        simp [NData.isBool, hb]
    · have hbs : boolStep o r = r := by unfold boolStep; rw [if_neg]; rintro ⟨_, h1⟩; exact hb h1
      have hd : d = r := by
        rw [hbs] at h
        unfold complexStep at h
        split at h
        · rename_i h1; exact absurd (Or.inl h1) hc
        · rename_i h1; exact absurd (Or.inr h1) hc
        · injection h with h; exact h.symm
      have hst : h5Store d = r := by
        subst hd; unfold h5Store
        split
        · rename_i h1; exact absurd h1 (hp.2.2.1 _ _ _)
        · rename_i h1; rw [h1] at hs; cases hs
        · rename_i h1; exact absurd h1 (hp.2.2.2 _ _ _ _)
        · rfl
      rw [hst, if_neg]
      rintro ⟨h1, _⟩
      revert h1
      cases hdt : r.dt <;> first | decide | exact absurd hdt hb | exact absurd hdt hp.1 | exact absurd hdt hp.2.1 | exact absurd hdt (hp.2.2.1 _ _ _) | exact absurd hdt (hp.2.2.2 _ _ _ _) | (rw [hdt] at hs; cases hs)

/-- The MATLAB class attribute written for a dtype. -/
def mcOf (o : COpts) (dt : DT) : Option Str := if o.matlab then dt.matlabClass else none

theorem rev_eq (o : COpts) (ho : OptsOk o) (dt : DT) : ((mcOf o dt).isSome || o.reverse) = o.reverse := by
  unfold mcOf
  by_cases hm : o.matlab = true
  · rw [if_pos hm, ho.rev hm]; simp
  · rw [if_neg hm]; simp

theorem mcOf_cases (o : COpts) (dt : DT) : mcOf o dt = none ∨ mcOf o dt = dt.matlabClass := by
  unfold mcOf; split
  · exact Or.inr rfl
  · exact Or.inl rfl

/-- Undoing the reversal. -/
theorem unreverse (o : COpts) (a : Arr) (h : a.data.length = prodN a.shape) :
    (if o.reverse then (NData.arr false (reverseStep o a)).T else NData.arr false (reverseStep o a)) = .arr false a := by
  unfold reverseStep
  by_cases hr : o.reverse = true
  · rw [if_pos hr, if_pos hr, NData.T, arr_TT a h]
  · rw [if_neg hr, if_neg hr]

/-- Everything after the decoding of complex and bool data, on non-empty data. -/
theorem npFinish_opts {o ro : COpts} {ts u : Str} {shape : List Nat} {cont : Option Str} {empty : Bool} {mc : Option Str} {d : NData}
    (h : mc.isSome = true ∨ ro.reverse = o.reverse) : npFinish ro ts u shape cont empty mc d = npFinish o ts u shape cont empty mc d := by
  have : (mc.isSome || ro.reverse) = (mc.isSome || o.reverse) := by
    rcases h with h | h
    · rw [h]; rfl
    · rw [h]
  unfold npFinish
  rw [this]

theorem npFinish_nonempty (o : COpts) (ho : OptsOk o) (ts : Str) (dt : DT) (shape : List Nat) (cont : Option Str) (d : NData) (r : Arr)
    (hr : r.data.length = prodN r.shape)
    (h : (if dt.name = p!"bool" ∧ (if startsWith dt.name p!"complex" then complexData d else d).isBool = false
      then toBool (if startsWith dt.name p!"complex" then complexData d else d)
      else .ok (if startsWith dt.name p!"complex" then complexData d else d)) = .ok (.arr false (reverseStep o r))) :
    npFinish o ts dt.name shape cont false (mcOf o dt) d =
      (do let d ← stringStep dt.name (mcOf o dt) (.arr false r)
          let d ← reshapeStep shape d
          toContainer cont dt.name false (ts == p!"numpy.recarray") d) := by
  unfold npFinish
  simp only [rev_eq o ho dt, Bool.false_eq_true, if_false]
  show ((if dt.name = p!"bool" ∧ (if startsWith dt.name p!"complex" then complexData d else d).isBool = false
      then toBool (if startsWith dt.name p!"complex" then complexData d else d)
      else .ok (if startsWith dt.name p!"complex" then complexData d else d)) >>= fun d =>
        stringStep dt.name (mcOf o dt) (if o.reverse = true then d.T else d) >>= fun d =>
          reshapeStep shape d >>= fun d => toContainer cont dt.name false (ts == p!"numpy.recarray") d) = _
  rw [h]
  show (stringStep dt.name (mcOf o dt) (if o.reverse = true then (NData.arr false (reverseStep o r)).T else .arr false (reverseStep o r)) >>= fun d =>
          reshapeStep shape d >>= fun d => toContainer cont dt.name false (ts == p!"numpy.recarray") d) = _
  rw [unreverse o r hr]

/-- Numeric data. -/
theorem num_roundtrip (o : COpts) (ho : OptsOk o) (c : Cont) (a d : Arr) (ts : Str) (hg : Spec.GoodNp c a) (hcn : a.dt = .c64 ∨ a.dt = .c128 → Spec.CplxNames o) (hne : a.isEmpty = false)
    (hs : a.dt.isString = false) (hrec : c = .recarray → ts = p!"numpy.recarray")
    (h : prepare o c a = .ok d) :
    npFinish o ts a.dt.name a.shape (some c.name) false (mcOf o a.dt) (.arr false (h5Store d)) = .ok (.np c a) := by
  have hp := hg.arr.plain
  have h1 : bytesStep o a = a := by
    unfold bytesStep; split
    · rename_i hdt; rw [hdt] at hs; cases hs
    · rfl
  have h2 : strStep o (c == .scalar) a = .ok a := by
    unfold strStep; split
    · rename_i hdt; rw [hdt] at hs; cases hs
    · rfl
  unfold prepare at h
  rw [h1, h2] at h
  simp only [hne, Bool.and_false, Bool.false_eq_true, if_false] at h
  replace h : complexStep o (boolStep o (reverseStep o (atleast2dStep o a))) = .ok d := h
  have hl : (atleast2dStep o a).data.length = prodN (atleast2dStep o a).shape := by
    rw [atleast2dStep_data, atleast2dStep_prod]; exact hg.arr.size
  have hdt : (reverseStep o (atleast2dStep o a)).dt = a.dt := by rw [reverseStep_dt, atleast2dStep_dt]
  have hd := num_decode o (reverseStep o (atleast2dStep o a)) d (by rw [hdt]; exact hcn)
    (by intro e he
        rw [hdt]
        apply hg.arr.fits
        have := mem_reverseStep o _ hl e he
        rwa [atleast2dStep_data] at this)
    (by rw [hdt]; exact hs) (by rw [hdt]; exact hp) h
  rw [hdt] at hd
  rw [npFinish_nonempty o ho ts a.dt a.shape (some c.name) _ (atleast2dStep o a) hl hd, stringStep_num a.dt hs hp _ (mcOf_cases o a.dt)]
  refine tail_good c a (atleast2dStep o a) hg hne _ _ ?_ (atleast2dStep_dt o a) (atleast2dStep_data o a) (atleast2dStep_prod o a)
  intro hc; rw [hrec hc]; rfl

/-- Strings: nothing is decoded as complex or bool. -/
theorem str_decode (dt : DT) (hs : dt.isString = true) (d : NData) :
    (if dt.name = p!"bool" ∧ (if startsWith dt.name p!"complex" then complexData d else d).isBool = false
      then toBool (if startsWith dt.name p!"complex" then complexData d else d)
      else .ok (if startsWith dt.name p!"complex" then complexData d else d)) = (.ok d : Res NData) := by
  have key : startsWith dt.name p!"complex" = false ∧ dt.name ≠ p!"bool" := by
    cases dt with
    | bytes n =>
      cases n with
      | zero => exact ⟨by decide, by decide⟩
      | succ n => exact ⟨rfl, fun h => by simp [DT.name] at h⟩
    | str n =>
      cases n with
      | zero => exact ⟨by decide, by decide⟩
      | succ n => exact ⟨rfl, fun h => by simp [DT.name] at h⟩
    | _ => cases hs
  rw [if_neg (fun h => key.2 h.1), key.1]
  rfl

theorem isEmpty_str (a : Arr) (hs : a.dt.isString = true) (hne : a.isEmpty = false) : 0 < prodN a.shape ∧ 0 < a.dt.itemsize := by
  simp only [Arr.isEmpty, Arr.size, hs, Bool.true_and, Bool.or_eq_false_iff, beq_eq_false_iff_ne, ne_eq, Arr.nbytes,
    Nat.mul_eq_zero, not_or] at hne
  omega

theorem stringStep_bytes (n : Nat) (hn : 0 < n) (mc : Option Str) (b : Arr) :
    stringStep (DT.bytes n).name mc (.arr false b) = (do let r ← convertToNumpyBytes (.np false b) (some n); .ok (.arr r.1 r.2)) := by
  have hname := name_bytes_succ n hn
  have h1 : startsWith (DT.bytes n).name p!"bytes" = true := by rw [hname]; exact startsWith_append _ _
  have h2 : (DT.bytes n).name ≠ p!"bytes" := by
    rw [hname]; intro h
    have := congrArg List.length h
    have := List.length_pos_iff.mpr (decDigits_ne_nil (8 * n))
    simp only [List.length_append, List.length_cons, List.length_nil] at *; omega
  have h3 : (DT.bytes n).name.drop 5 = decDigits (8 * n) := by rw [hname]; rfl
  unfold stringStep
  simp only [h1, if_true, if_neg h2, h3, natOfDec_decDigits]
  show (convertToNumpyBytes (.np false b) (some (8 * n / 8)) >>= _) = _
  rw [Nat.mul_div_cancel_left n (by omega)]

theorem stringStep_str (n : Nat) (hn : 0 < n) (mc : Option Str) (b : Arr) :
    stringStep (DT.str n).name mc (.arr false b) = (do let r ← convertToNumpyStr (.np false b) (some n); .ok (.arr r.1 r.2)) := by
  have hname := name_str_succ n hn
  have h0 : startsWith (DT.str n).name p!"bytes" = false := by rw [hname]; rfl
  have h1 : startsWith (DT.str n).name p!"str" = true := by rw [hname]; exact startsWith_append _ _
  have h2 : (DT.str n).name ≠ p!"str" := by
    rw [hname]; intro h
    have := congrArg List.length h
    have := List.length_pos_iff.mpr (decDigits_ne_nil (32 * n))
    simp only [List.length_append, List.length_cons, List.length_nil] at *; omega
  have h3 : (DT.str n).name.drop 3 = decDigits (32 * n) := by rw [hname]; rfl
  unfold stringStep
  simp only [h0, h1, Bool.false_eq_true, if_false, if_true, if_neg h2, h3, natOfDec_decDigits]
  show (convertToNumpyStr (.np false b) (some (32 * n / 32)) >>= _) = _
  rw [Nat.mul_div_cancel_left n (by omega)]

/-- The 2D view of a widened shape is the widened 2D view. -/
theorem atleast2dShape_mulLast (n : Nat) (s : List Nat) (h : s ≠ []) : atleast2dShape (mulLast n s) = mulLast n (atleast2dShape s) := by
  match s, h with
  | [x], _ => rfl
  | [x, y], _ => rfl
  | x :: y :: z :: r, _ => rfl

/-- Shape of the data after `make_atleast_2d`. -/
def shape2 (o : COpts) (s : List Nat) : List Nat := if o.atleast2d then atleast2dShape s else s

theorem atleast2dStep_eq (o : COpts) (a : Arr) : atleast2dStep o a = { a with shape := shape2 o a.shape } := by
  unfold atleast2dStep shape2; split <;> rfl

theorem shape2_mulLast (o : COpts) (n : Nat) (s : List Nat) (h : s ≠ []) : shape2 o (mulLast n s) = mulLast n (shape2 o s) := by
  unfold shape2; split
  · exact atleast2dShape_mulLast n s h
  · rfl

theorem shape2_ne (o : COpts) (s : List Nat) (h : s ≠ []) : shape2 o s ≠ [] := by
  unfold shape2; split
  · match s, h with
    | [x], _ => simp [atleast2dShape]
    | x :: y :: r, _ => simp [atleast2dShape]
  · exact h

theorem prodN_shape2 (o : COpts) (s : List Nat) : prodN (shape2 o s) = prodN s := by
  unfold shape2; split
  · exact prodN_atleast2d s
  · rfl

/-- After the string steps: what is prepared for a string array. -/
theorem prepare_str (o : COpts) (c : Cont) (a b d : Arr) (hne : a.isEmpty = false) (hb : strStep o (c == .scalar) (bytesStep o a) = .ok b)
    (hdt : b.dt = .u16 ∨ b.dt = .u32 ∨ ∃ n, b.dt = .bytes (n + 1)) (h : prepare o c a = .ok d) :
    h5Store d = reverseStep o (atleast2dStep o b) := by
  unfold prepare at h
  rw [hb] at h
  simp only [hne, Bool.and_false, Bool.false_eq_true, if_false] at h
  replace h : complexStep o (boolStep o (reverseStep o (atleast2dStep o b))) = .ok d := h
  have hdt' : (reverseStep o (atleast2dStep o b)).dt = b.dt := by rw [reverseStep_dt, atleast2dStep_dt]
  have hbs : boolStep o (reverseStep o (atleast2dStep o b)) = reverseStep o (atleast2dStep o b) := by
    unfold boolStep; rw [if_neg]; rintro ⟨_, hx⟩; rw [hdt'] at hx
    rcases hdt with h | h | ⟨n, h⟩ <;> rw [h] at hx <;> cases hx
  rw [hbs] at h
  have hd : d = reverseStep o (atleast2dStep o b) := by
    unfold complexStep at h
    rw [hdt'] at h
    rcases hdt with h' | h' | ⟨n, h'⟩ <;> rw [h'] at h <;> injection h with h <;> exact h.symm
  subst hd
  unfold h5Store
  rw [hdt']
  rcases hdt with h' | h' | ⟨n, h'⟩ <;> rw [h'] <;> rfl

/-- Data whose string conversion undoes the widening. -/
theorem str_finish (o : COpts) (ho : OptsOk o) (c : Cont) (a b d : Arr) (ts : Str) (hg : Spec.GoodNp c a) (hne : a.isEmpty = false)
    (hs : a.dt.isString = true) (hrec : c = .recarray → ts = p!"numpy.recarray")
    (hb : strStep o (c == .scalar) (bytesStep o a) = .ok b) (hbl : b.data.length = prodN b.shape)
    (hdt : b.dt = .u16 ∨ b.dt = .u32 ∨ ∃ n, b.dt = .bytes (n + 1)) (h : prepare o c a = .ok d)
    (hback : ∃ s, stringStep a.dt.name (mcOf o a.dt) (.arr false { b with shape := shape2 o b.shape }) = .ok (.arr false { a with shape := s }) ∧
      prodN s = prodN a.shape) :
    npFinish o ts a.dt.name a.shape (some c.name) false (mcOf o a.dt) (.arr false (h5Store d)) = .ok (.np c a) := by
  have hst := prepare_str o c a b d hne hb hdt h
  have hl : (atleast2dStep o b).data.length = prodN (atleast2dStep o b).shape := by
    rw [atleast2dStep_data, atleast2dStep_prod]; exact hbl
  rw [hst, npFinish_nonempty o ho ts a.dt a.shape (some c.name) _ (atleast2dStep o b) hl (str_decode a.dt hs _), atleast2dStep_eq]
  obtain ⟨s, h1, h2⟩ := hback
  rw [h1]
  refine tail_good c a { a with shape := s } hg hne _ _ ?_ rfl rfl h2
  intro hc; rw [hrec hc]; rfl


theorem mapM_of_all {α β : Type} (f : α → Res β) (g : α → β) (l : List α) (h : ∀ a ∈ l, f a = .ok (g a)) : l.mapM f = .ok (l.map g) := by
  induction l with
  | nil => rfl
  | cons a r ih =>
    rw [List.mapM_cons, h a (by simp), ih (fun b hb => h b (by simp [hb]))]
    rfl

theorem utf16BomDec_ascii (u : List Nat) (h : ∀ x ∈ u, x < 128) : utf16BomDec u = .ok u := by
  have key : ∀ u : List Nat, (∀ x ∈ u, x < 128) → utf16Dec u = .ok u := by
    intro u h
    induction u with
    | nil => rfl
    | cons x r ih =>
      have hx := h x (by simp)
      rw [utf16Dec.eq_def]
      simp only
      rw [if_neg (by simp; omega), if_neg (by simp; omega), ih (fun y hy => h y (by simp [hy]))]
      rfl
  cases u with
  | nil => rfl
  | cons x r =>
    have hx := h x (by simp)
    rw [utf16BomDec, if_neg (by omega), if_neg (by omega)]
    exact key _ h

theorem utf8Enc_ascii (u : List Nat) (h : ∀ x ∈ u, x < 128) : utf8Enc u = .ok u := by
  induction u with
  | nil => rfl
  | cons x r ih =>
    have hx := h x (by simp)
    have hc : utf8EncChar x = some [x] := by
      unfold utf8EncChar; rw [if_pos (by omega)]
    exact utf8Enc_cons hc (ih (fun y hy => h y (by simp [hy])))

theorem units_of_fits_bytes (a : Arr) (n : Nat) (hdt : a.dt = .bytes n) (hf : ∀ e ∈ a.data, Spec.FitsDT a.dt e) :
    ∀ e ∈ a.data, e = .units e.toUnits ∧ e.toUnits.length = n := by
  intro e he
  have := hf e he
  rw [hdt] at this
  cases e <;> simp [Spec.FitsDT] at this
  exact ⟨rfl, this⟩

/-- Bytes. -/
theorem bytes_roundtrip (o : COpts) (ho : OptsOk o) (c : Cont) (a d : Arr) (ts : Str) (hg : Spec.GoodNp c a) (hne : a.isEmpty = false)
    (n : Nat) (hdt : a.dt = .bytes n) (hrec : c = .recarray → ts = p!"numpy.recarray") (h : prepare o c a = .ok d) :
    npFinish o ts a.dt.name a.shape (some c.name) false (mcOf o a.dt) (.arr false (h5Store d)) = .ok (.np c a) := by
  have hs : a.dt.isString = true := by rw [hdt]; rfl
  obtain ⟨hsz, hw⟩ := isEmpty_str a hs hne
  have hn : 0 < n := by rw [hdt] at hw; exact hw
  have hunits := units_of_fits_bytes a n hdt hg.arr.fits
  have hss : ∀ b : Arr, (∀ k, b.dt ≠ .str k) → strStep o (c == .scalar) b = .ok b := by
    intro b hb; unfold strStep; split
    · rename_i k hk; exact absurd hk (hb k)
    · rfl
  by_cases hconv : o.bytes16 = true ∧ ((a.data.flatMap El.toUnits).all (· < 128)) = true
  · -- widened to uint16
    have hbs : bytesStep o a = ⟨.u16, mulLast n (atleast1dShape a.shape), (a.data.flatMap El.toUnits).map fun (x : Nat) => El.num x⟩ := by
      unfold bytesStep; rw [hdt]; simp only [hconv.1, if_true]
      rw [if_neg, if_pos hconv.2]
      simp only [Arr.nbytes]; rw [hdt]
      exact Nat.pos_iff_ne_zero.mp (Nat.mul_pos hsz hn)
    have hs1 : atleast1dShape a.shape ≠ [] := by cases a.shape <;> simp [atleast1dShape]
    have hflat : a.data.flatMap El.toUnits = (a.data.map El.toUnits).flatten := flatMap_eq_flatten_map _ _
    have hw' : ∀ ch ∈ a.data.map El.toUnits, ch.length = n := by
      intro ch hch; obtain ⟨e, he, rfl⟩ := List.mem_map.mp hch; exact (hunits e he).2
    have hlen : (a.data.flatMap El.toUnits).length = prodN a.shape * n := by
      rw [length_flatMap_const a.data El.toUnits n (fun e he => (hunits e he).2), hg.arr.size]
    refine str_finish o ho c a _ d ts hg hne hs hrec (by rw [hbs]; exact hss _ (by simp)) ?_ (Or.inl rfl) h ?_
    · simp only [List.length_map]; rw [hlen, prodN_mulLast n _ hs1, prodN_atleast1d]
    · refine ⟨shape2 o (atleast1dShape a.shape), ?_, by rw [prodN_shape2, prodN_atleast1d]⟩
      rw [hdt, stringStep_bytes n hn]
      simp only [shape2_mulLast o n _ hs1]
      have hs2 := shape2_ne o _ hs1
      have hse : (mulLast n (shape2 o (atleast1dShape a.shape))).isEmpty = false := isEmpty_mulLast _ _ hs2
      have hmap : ((a.data.flatMap El.toUnits).map fun (x : Nat) => El.num x).map El.toNat = (a.data.map El.toUnits).flatten := by
        rw [List.map_map, hflat]; conv => rhs; rw [← List.map_id (a.data.map El.toUnits).flatten]
        apply List.map_congr_left; intro x _; simp [El.toNat]
      have hasc : ∀ ch ∈ a.data.map El.toUnits, ∀ x ∈ ch, x < 128 := by
        intro ch hch x hx
        obtain ⟨e, he, rfl⟩ := List.mem_map.mp hch
        have := List.all_eq_true.mp hconv.2 x (List.mem_flatMap.mpr ⟨e, he, hx⟩)
        simpa using this
      have hone : ∀ ch : List Nat, (∀ x ∈ ch, x < 128) →
          (do utf8Enc (← convertToStr (.np false ⟨.u16, [ch.length], ch.map fun (x : Nat) => El.num x⟩)) : Res Bytes) = .ok ch := by
        intro ch hch
        have : (ch.map fun (x : Nat) => El.num x).map El.toNat = ch := by
          rw [List.map_map]; conv => rhs; rw [← List.map_id ch]
          apply List.map_congr_left; intro x _; simp [El.toNat]
        simp only [convertToStr, this, utf16BomDec_ascii ch hch]
        show utf8Enc ch = _
        exact utf8Enc_ascii ch hch
      have hmm : ((a.data.map El.toUnits).mapM fun ch =>
          (do utf8Enc (← convertToStr (.np false ⟨.u16, [ch.length], ch.map fun (x : Nat) => El.num x⟩)) : Res Bytes)) = .ok (a.data.map El.toUnits) := by
        have := mapM_of_all _ id (a.data.map El.toUnits) (fun ch hch => hone ch (hasc ch hch))
        simpa using this
      simp only [convertToNumpyBytes, hse, Bool.or_false, Bool.false_eq_true, if_false, Option.getD_some, Option.isNone_some, Bool.false_and,
        if_neg (Nat.pos_iff_ne_zero.mp hn), divLast_mulLast n _ hn, hmap, prodN_shape2, prodN_atleast1d]
      have hcn : chunksN n (prodN a.shape) (a.data.map El.toUnits).flatten = a.data.map El.toUnits := by
        have := chunksN_flatten n (a.data.map El.toUnits) hw'
        rw [List.length_map, hg.arr.size] at this
        exact this
      rw [hcn]
      erw [hmm]
      show Except.ok (NData.arr false (mkBytesArr n _ (a.data.map El.toUnits))) = _
      unfold mkBytesArr
      have hdat : (a.data.map El.toUnits).map (fun b => El.units (b.take n ++ List.replicate (n - b.length) 0)) = a.data := by
        rw [List.map_map]
        conv => rhs; rw [← List.map_id a.data]
        apply List.map_congr_left
        intro e he
        have := hunits e he
        simp only [Function.comp]
        rw [List.take_of_length_le (by omega), this.2, Nat.sub_self]
        simp only [List.replicate_zero, List.append_nil, id]
        exact this.1.symm
      rw [hdat, ← hdt]
  · -- kept as bytes
    have hbs : bytesStep o a = a := by
      unfold bytesStep; rw [hdt]; simp only
      by_cases h16 : o.bytes16 = true
      · rw [if_pos h16, if_neg, if_neg (fun hx => hconv ⟨h16, hx⟩)]
        simp only [Arr.nbytes]; rw [hdt]
        exact Nat.pos_iff_ne_zero.mp (Nat.mul_pos hsz hn)
      · rw [if_neg h16]
    refine str_finish o ho c a a d ts hg hne hs hrec (by rw [hbs]; exact hss _ (by rw [hdt]; simp)) hg.arr.size
      (Or.inr (Or.inr ⟨n - 1, by rw [hdt]; congr 1; omega⟩)) h ?_
    refine ⟨shape2 o a.shape, ?_, prodN_shape2 o _⟩
    rw [hdt, stringStep_bytes n hn]
    simp only [convertToNumpyBytes, hdt]
    rfl

theorem u32_length (a : Arr) (n : Nat) (ss : List Str) (ha : Spec.IsStrArray a n ss) (hn : 0 < n) (hne : 0 < prodN a.shape) :
    (convertNumpyStrToUint32 a).dt = .u32 ∧ (convertNumpyStrToUint32 a).shape = mulLast n (atleast1dShape a.shape) ∧
    (convertNumpyStrToUint32 a).data = (ss.map fun s => s ++ List.replicate (n - s.length) 0).flatten.map fun (x : Nat) => El.num x := by
  have hb : a.nbytes ≠ 0 := by
    simp only [Arr.nbytes, ha.dt, DT.itemsize]
    exact Nat.pos_iff_ne_zero.mp (Nat.mul_pos hne (by omega))
  have hi : a.dt.itemsize / 4 = n := by rw [ha.dt, DT.itemsize]; omega
  rw [convertNumpyStrToUint32, if_neg hb, hi]
  refine ⟨rfl, rfl, ?_⟩
  show (a.data.flatMap fun e => e.toUnits.map fun (x : Nat) => El.num x) = _
  rw [ha.data, flatMap_eq_flatten_map, List.map_map, ← map_flatten_num, List.map_map]
  rfl

theorem flatten_const_length {α : Type} (l : List (List α)) (n : Nat) (h : ∀ c ∈ l, c.length = n) : l.flatten.length = l.length * n := by
  induction l with
  | nil => simp
  | cons a r ih =>
    simp only [List.flatten_cons, List.length_append, h a (by simp), ih (fun c hc => h c (by simp [hc])), List.length_cons,
      Nat.add_mul, Nat.one_mul]
    omega

/-- The common part of the str cases: equally wide chunks that decode to the strings. -/
theorem str_chunks_finish (o : COpts) (ho : OptsOk o) (c : Cont) (a b d : Arr) (ts : Str) (hg : Spec.GoodNp c a) (hne : a.isEmpty = false)
    (n : Nat) (ss : List Str) (ha : Spec.IsStrArray a n ss) (hn : 0 < n) (ht : n = 1 ∨ ∃ s ∈ ss, s.length = n)
    (hrec : c = .recarray → ts = p!"numpy.recarray")
    (hb : strStep o (c == .scalar) (bytesStep o a) = .ok b) (chunks : List (List Nat)) (hbdt : b.dt = .u16 ∨ b.dt = .u32)
    (hbs : b.shape = mulLast n (atleast1dShape a.shape)) (hbd : b.data = chunks.flatten.map fun (x : Nat) => El.num x)
    (hcl : chunks.length = prodN a.shape) (hcw : ∀ ch ∈ chunks, ch.length = n) (hdec : chunks.mapM (decodeChunk b.dt) = .ok ss)
    (h : prepare o c a = .ok d) :
    npFinish o ts a.dt.name a.shape (some c.name) false (mcOf o a.dt) (.arr false (h5Store d)) = .ok (.np c a) := by
  have hs : a.dt.isString = true := by rw [ha.dt]; rfl
  have hs1 : atleast1dShape a.shape ≠ [] := by cases a.shape <;> simp [atleast1dShape]
  have hs2 := shape2_ne o _ hs1
  refine str_finish o ho c a b d ts hg hne hs hrec hb ?_ (hbdt.elim Or.inl (fun h => Or.inr (Or.inl h))) h ?_
  · rw [hbs, hbd, List.length_map, flatten_const_length _ n hcw, hcl, prodN_mulLast n _ hs1, prodN_atleast1d]
  · refine ⟨shape2 o (atleast1dShape a.shape), ?_, by rw [prodN_shape2, prodN_atleast1d]⟩
    rw [ha.dt, stringStep_str n hn, hbs, shape2_mulLast o n _ hs1]
    have hu := uintsToStr_chunks b.dt (shape2 o (atleast1dShape a.shape)) n hn hs2 chunks ss
      (by rw [hcl, prodN_shape2, prodN_atleast1d]) hcw hdec
    have hse : (mulLast n (shape2 o (atleast1dShape a.shape))).isEmpty = false := isEmpty_mulLast _ _ hs2
    have hcv : convertToNumpyStr (.np false { b with shape := mulLast n (shape2 o (atleast1dShape a.shape)) }) (some n) =
        .ok (false, mkStrArr (shape2 o (atleast1dShape a.shape)) ss) := by
      have hbb : ({ b with shape := mulLast n (shape2 o (atleast1dShape a.shape)) } : Arr) =
          ⟨b.dt, mulLast n (shape2 o (atleast1dShape a.shape)), chunks.flatten.map fun (x : Nat) => El.num x⟩ := by rw [← hbd]
      rw [hbb]
      rcases hbdt with h' | h' <;> rw [h'] at hu ⊢ <;>
        simp only [convertToNumpyStr, hse, Bool.or_self, Bool.false_eq_true, if_false, hu] <;> rfl
    rw [hcv]
    show Except.ok (NData.arr false (mkStrArr (shape2 o (atleast1dShape a.shape)) ss)) = _
    have hm := mkStrArr_tight a n ss ha hn ht
    congr 2
    calc mkStrArr (shape2 o (atleast1dShape a.shape)) ss = { mkStrArr a.shape ss with shape := shape2 o (atleast1dShape a.shape) } := rfl
      _ = _ := by rw [hm]; simp only [ha.dt]

/-- Strings. -/
theorem strings_roundtrip (o : COpts) (ho : OptsOk o) (c : Cont) (a d : Arr) (ts : Str) (hg : Spec.GoodNp c a) (hne : a.isEmpty = false)
    (n : Nat) (hdt : a.dt = .str n) (hrec : c = .recarray → ts = p!"numpy.recarray") (h : prepare o c a = .ok d) :
    npFinish o ts a.dt.name a.shape (some c.name) false (mcOf o a.dt) (.arr false (h5Store d)) = .ok (.np c a) := by
  have hs : a.dt.isString = true := by rw [hdt]; rfl
  obtain ⟨hsz, hw⟩ := isEmpty_str a hs hne
  have hn : 0 < n := by rw [hdt] at hw; simp only [DT.itemsize] at hw; omega
  obtain ⟨ss, ha, hst, ht⟩ := hg.strs n hdt hsz
  have hs1 : atleast1dShape a.shape ≠ [] := by cases a.shape <;> simp [atleast1dShape]
  have hbs : bytesStep o a = a := by unfold bytesStep; rw [hdt]
  have hpad : ∀ ch ∈ ss.map (fun s => s ++ List.replicate (n - s.length) 0), ch.length = n := by
    intro ch hch
    obtain ⟨s, hs, rfl⟩ := List.mem_map.mp hch
    have := ha.width s hs
    simp; omega
  obtain ⟨e1, e2, e3⟩ := u32_length a n ss ha hn hsz
  have c32 : strStep o (c == .scalar) a = .ok (convertNumpyStrToUint32 a) →
      npFinish o ts a.dt.name a.shape (some c.name) false (mcOf o a.dt) (.arr false (h5Store d)) = .ok (.np c a) := by
    intro hb
    refine str_chunks_finish o ho c a _ d ts hg hne n ss ha hn ht hrec (by rw [hbs]; exact hb) _ (Or.inr e1) e2 e3 ?_ hpad ?_ h
    · rw [List.length_map, ha.size]
    · rw [e1]
      have := mapM_res_map (decodeChunk .u32) (fun s : Str => s ++ List.replicate (n - s.length) 0) id ss
        (fun s hs => decodeChunk_u32 s _ (hst s hs))
      simpa using this
  have c16 : ∀ b, convertNumpyStrToUint16 a = .ok b → strStep o (c == .scalar) a = .ok b → b.shape = mulLast n (atleast1dShape a.shape) →
      npFinish o ts a.dt.name a.shape (some c.name) false (mcOf o a.dt) (.arr false (h5Store d)) = .ok (.np c a) := by
    intro b hb16 hb hshape
    have hbn : a.nbytes ≠ 0 := by
      simp only [Arr.nbytes, ha.dt, DT.itemsize]
      exact Nat.pos_iff_ne_zero.mp (Nat.mul_pos hsz (by omega))
    rw [convertNumpyStrToUint16, if_neg hbn] at hb16
    obtain ⟨enc, henc, hb16⟩ := res_bind_ok.mp hb16
    injection hb16 with hb16
    have hf := enc_of_strArray a n ss ha hst enc henc
    have hlen := mapM_length henc
    generalize hwd : (enc.map List.length).foldl max 0 = w at *
    have hwn : w = n := by
      have h1 : mulLast w (atleast1dShape a.shape) = mulLast n (atleast1dShape a.shape) := by rw [← hshape, ← hb16]
      have h1 := congrArg (fun l => prodN l) h1
      simp only [prodN_mulLast _ _ hs1, prodN_atleast1d] at h1
      exact Nat.eq_of_mul_eq_mul_left hsz h1
    have hbd : b.data = (enc.map fun u => u ++ List.replicate (w - u.length) 0).flatten.map fun (x : Nat) => El.num x := by
      rw [← hb16]
      show (enc.flatMap fun u => (u ++ List.replicate (w - u.length) 0).map fun (x : Nat) => El.num x) = _
      rw [flatMap_eq_flatten_map, ← map_flatten_num, List.map_map]; rfl
    have hbt : b.dt = .u16 := by rw [← hb16]
    refine str_chunks_finish o ho c a b d ts hg hne n ss ha hn ht hrec (by rw [hbs]; exact hb) _ (Or.inl hbt) hshape hbd ?_ ?_ ?_ h
    · rw [List.length_map, hlen, hg.arr.size]
    · intro ch hch
      obtain ⟨u, hu, rfl⟩ := List.mem_map.mp hch
      have : u.length ≤ w := by rw [← hwd]; exact le_foldl_max _ _ _ (Or.inl (List.mem_map.mpr ⟨u, hu, rfl⟩))
      simp; omega
    · rw [hbt]
      exact forall2_mapM_pad ss enc w hf hst
  -- which of the two is used
  have hprep : ∃ b, strStep o (c == .scalar) a = .ok b := by
    unfold prepare at h
    rw [hbs] at h
    obtain ⟨b, hb, _⟩ := res_bind_ok.mp h
    exact ⟨b, hb⟩
  obtain ⟨b, hb⟩ := hprep
  have hb' := hb
  unfold strStep at hb'
  rw [hdt] at hb'
  simp only at hb'
  split at hb'
  · injection hb' with hb'
    exact c32 (by rw [hb, hb'])
  · rename_i b16 h16
    have h16' : convertNumpyStrToUint16 a = .ok b16 := by
      split at h16
      · cases hx : convertNumpyStrToUint16 a with
        | ok y => rw [hx] at h16; simp only [Except.toOption, Option.some.injEq] at h16; rw [h16]
        | error e => rw [hx] at h16; cases h16
      · cases h16
    have hb16shape : ∃ w, b16.shape = mulLast w (atleast1dShape a.shape) := by
      have hbn : a.nbytes ≠ 0 := by
        simp only [Arr.nbytes, ha.dt, DT.itemsize]
        exact Nat.pos_iff_ne_zero.mp (Nat.mul_pos hsz (by omega))
      have h16'' := h16'
      rw [convertNumpyStrToUint16, if_neg hbn] at h16''
      obtain ⟨enc, _, hx⟩ := res_bind_ok.mp h16''
      injection hx with hx
      exact ⟨_, by rw [← hx]⟩
    obtain ⟨w, hshape⟩ := hb16shape
    split at hb'
    · -- scalar
      rename_i hsc
      have hsc' : c = .scalar := by simpa using hsc
      have hsh := (hg.scalar hsc').1
      injection hb' with hb'
      by_cases hnw : n ≠ b16.shape.headD 0
      · rw [if_pos hnw] at hb'
        exact c32 (by rw [hb, hb'])
      · rw [if_neg hnw] at hb'
        have : n = w := by
          have h2 : n = b16.shape.headD 0 := Classical.not_not.mp hnw
          rw [hshape, hsh] at h2
          simpa [atleast1dShape, mulLast] using h2
        subst this
        exact c16 b16 h16' (by rw [hb, hb']) hshape
    · split at hb'
      · cases hb'
      · rename_i hnsc hse
        have hne' : a.shape ≠ [] := by
          intro hx; rw [hx] at hse; simp at hse
        injection hb' with hb'
        by_cases hnw : b16.shape.getLastD 0 ≠ a.shape.getLastD 0 * n
        · rw [if_pos hnw] at hb'
          exact c32 (by rw [hb, hb'])
        · rw [if_neg hnw] at hb'
          have hwn : w = n := by
            have h2 : b16.shape.getLastD 0 = a.shape.getLastD 0 * n := Classical.not_not.mp hnw
            rw [hshape, atleast1d_of_ne hne', getLastD_mulLast w _ hne'] at h2
            have hl : 0 < a.shape.getLastD 0 := by
              have key : ∀ s : List Nat, s ≠ [] → 0 < prodN s → 0 < s.getLastD 0 := by
                intro s
                induction s with
                | nil => intro h; exact absurd rfl h
                | cons x r ih =>
                  intro _ hp
                  simp only [prodN] at hp
                  cases r with
                  | nil => simpa [prodN] using hp
                  | cons y r =>
                    have := ih (by simp) (Nat.pos_of_mul_pos_left hp)
                    simpa using this
              exact key _ hne' hsz
            exact Nat.eq_of_mul_eq_mul_left hl h2
          subst hwn
          exact c16 b16 h16' (by rw [hb, hb']) hshape


theorem plain_ne_object (a : Arr) (h : Spec.PlainArr a) : a.dt ≠ .object := h.plain.1

theorem parseDT_name (dt : DT) (hp : dt ≠ .object ∧ dt ≠ .ref ∧ (∀ r i d, dt ≠ .crec r i d) ∧ ∀ o s n t, dt ≠ .comp o s n t) (h0 : dt ≠ .bytes 0 ∧ dt ≠ .str 0) :
    parseDT dt.name = .ok dt := by
  cases dt with
  | bytes n =>
    have hn : 0 < n := by cases n with | zero => exact absurd rfl h0.1 | succ n => omega
    have hname := name_bytes_succ n hn
    have h1 : startsWith (DT.bytes n).name p!"bytes" = true := by rw [hname]; exact startsWith_append _ _
    have h2 : (DT.bytes n).name ≠ p!"bytes" := by
      rw [hname]; intro h
      have := congrArg List.length h
      have := List.length_pos_iff.mpr (decDigits_ne_nil (8 * n))
      simp only [List.length_append, List.length_cons, List.length_nil] at *; omega
    have h3 : (DT.bytes n).name.drop 5 = decDigits (8 * n) := by rw [hname]; rfl
    unfold parseDT
    simp only [h1, if_true, if_neg h2, h3, natOfDec_decDigits]
    show Except.ok (DT.bytes (8 * n / 8)) = _
    rw [Nat.mul_div_cancel_left n (by omega)]
  | str n =>
    have hn : 0 < n := by cases n with | zero => exact absurd rfl h0.2 | succ n => omega
    have hname := name_str_succ n hn
    have h0 : startsWith (DT.str n).name p!"bytes" = false := by rw [hname]; rfl
    have h1 : startsWith (DT.str n).name p!"str" = true := by rw [hname]; exact startsWith_append _ _
    have h2 : (DT.str n).name ≠ p!"str" := by
      rw [hname]; intro h
      have := congrArg List.length h
      have := List.length_pos_iff.mpr (decDigits_ne_nil (32 * n))
      simp only [List.length_append, List.length_cons, List.length_nil] at *; omega
    have h3 : (DT.str n).name.drop 3 = decDigits (32 * n) := by rw [hname]; rfl
    unfold parseDT
    simp only [h0, h1, Bool.false_eq_true, if_false, if_true, if_neg h2, h3, natOfDec_decDigits]
    show Except.ok (DT.str (32 * n / 32)) = _
    rw [Nat.mul_div_cancel_left n (by omega)]
  | object => exact absurd rfl hp.1
  | ref => exact absurd rfl hp.2.1
  | crec r i d => exact absurd rfl (hp.2.2.1 _ _ _)
  | comp o s n t => exact absurd rfl (hp.2.2.2 _ _ _ _)
  | _ => rfl

theorem stringStep_keep (a : Arr) (hp : Spec.PlainArr a) (h0 : a.dt ≠ .bytes 0 ∧ a.dt ≠ .str 0) (mc : Option Str)
    (hmc : mc = none ∨ mc = a.dt.matlabClass) : stringStep a.dt.name mc (.arr false a) = .ok (.arr false a) := by
  by_cases hs : a.dt.isString = true
  · cases hdt : a.dt with
    | bytes n =>
      have hn : 0 < n := by
        cases n with
        | zero => exact absurd hdt h0.1
        | succ n => omega
      rw [stringStep_bytes n hn]
      simp only [convertToNumpyBytes, hdt]; rfl
    | str n =>
      have hn : 0 < n := by
        cases n with
        | zero => exact absurd hdt h0.2
        | succ n => omega
      rw [stringStep_str n hn]
      simp only [convertToNumpyStr, hdt]; rfl
    | _ => rw [hdt] at hs; cases hs
  · exact stringStep_num a.dt (by simpa using hs) hp.plain mc hmc _

theorem isBool_name (dt : DT) (hp : dt ≠ .object ∧ dt ≠ .ref ∧ (∀ r i d, dt ≠ .crec r i d) ∧ ∀ o s n t, dt ≠ .comp o s n t) (h : dt.name = p!"bool") : dt = .bool := by
  cases dt with
  | bool => rfl
  | bytes n => cases n <;> simp [DT.name] at h
  | str n => cases n <;> simp [DT.name] at h
  | crec r i d => exact absurd rfl (hp.2.2.1 _ _ _)
  | comp o s n t => exact absurd rfl (hp.2.2.2 _ _ _ _)
  | _ => simp [DT.name] at h

/-- Empty data. -/
theorem empty_roundtrip (o : COpts) (ho : OptsOk o) (c : Cont) (a : Arr) (d : NData) (ts : Str) (hg : Spec.GoodNp c a) (hne : a.isEmpty = true)
    (hrec : c = .recarray → ts = p!"numpy.recarray") :
    npFinish o ts a.dt.name a.shape (some c.name) true (mcOf o a.dt) d = .ok (.np c a) := by
  by_cases h0 : a.dt = .bytes 0 ∨ a.dt = .str 0
  · -- an empty string
    have hc : c = .scalar := by
      cases c <;> first | rfl | (have := hg.width (by simp); rcases h0 with h | h <;> first | exact absurd h this.1 | exact absurd h this.2)
    have hsh := (hg.scalar hc).1
    obtain ⟨e, he⟩ := size_nil hg.arr.size hsh
    have hf := hg.arr.fits e (by rw [he]; simp)
    subst hc
    cases a with
    | mk dt shape data =>
      simp only at hsh he hf h0
      subst hsh he
      rcases h0 with h | h
      · subst h
        cases e <;> simp [Spec.FitsDT] at hf
        rename_i u; subst hf
        unfold npFinish
        cases hm : ((mcOf o (DT.bytes 0)).isSome || o.reverse) <;> rfl
      · subst h
        cases e <;> simp [Spec.FitsDT] at hf
        rename_i u; subst hf
        unfold npFinish
        cases hm : ((mcOf o (DT.str 0)).isSome || o.reverse) <;> rfl
  · have h0' : a.dt ≠ .bytes 0 ∧ a.dt ≠ .str 0 := ⟨fun h => h0 (Or.inl h), fun h => h0 (Or.inr h)⟩
    have hp := hg.arr.plain
    have hz : prodN a.shape = 0 := by
      simp only [Arr.isEmpty, Arr.size, Arr.nbytes, Bool.or_eq_true, beq_iff_eq, Bool.and_eq_true, Nat.mul_eq_zero] at hne
      rcases hne with h | ⟨hs, h | h⟩
      · exact h
      · exact h
      · exfalso
        cases hdt : a.dt with
        | bytes n => rw [hdt] at h h0'; simp only [DT.itemsize] at h; subst h; exact h0'.1 rfl
        | str n =>
          rw [hdt] at h h0'; simp only [DT.itemsize] at h
          have : n = 0 := by omega
          subst this; exact h0'.2 rfl
        | _ => rw [hdt] at hs; cases hs
    have hnil : a.data = [] := by
      have := hg.arr.size; rw [hz] at this; exact List.length_eq_zero_iff.mp this
    have hzero : zerosOf a.dt a.shape = .arr false a := by
      unfold zerosOf npZeros
      rw [if_neg hp.1, hz]
      simp only [List.replicate_zero]
      rw [← hnil]
    have hnsc : c ≠ .scalar := by
      intro hc; rw [(hg.scalar hc).1] at hz; simp [prodN] at hz
    have hT : ∀ r : Bool, (if r then (if r then (NData.arr false a).T else .arr false a).T else (if r then (NData.arr false a).T else .arr false a)) =
        .arr false a := by
      intro r; cases r
      · rfl
      · simp only [if_true, NData.T, arr_TT a hg.arr.size]
    have hTb : ∀ r : Bool, (if r then (NData.arr false a).T else .arr false a) = .arr false (if r then a.T else a) := by
      intro r; cases r <;> rfl
    have hdtT : ∀ r : Bool, (if r then a.T else a).dt = a.dt := by intro r; cases r <;> rfl
    have hcd : ∀ b : Arr, b.dt = a.dt → decodeComplex b = b := by
      intro b hb; unfold decodeComplex; split
      · rename_i x y z hx; rw [hb] at hx; exact absurd hx (hp.2.2.1 _ _ _)
      · rfl
    have hss := stringStep_keep a hg.arr h0' (mcOf o a.dt) (mcOf_cases o a.dt)
    unfold npFinish
    simp only [if_true, parseDT_name a.dt hp h0']
    show ((if a.dt.name = p!"bool" ∧ (if startsWith a.dt.name p!"complex" then complexData (if (mcOf o a.dt).isSome || o.reverse then (zerosOf a.dt a.shape).T else zerosOf a.dt a.shape) else (if (mcOf o a.dt).isSome || o.reverse then (zerosOf a.dt a.shape).T else zerosOf a.dt a.shape)).isBool = false
      then toBool (if startsWith a.dt.name p!"complex" then complexData (if (mcOf o a.dt).isSome || o.reverse then (zerosOf a.dt a.shape).T else zerosOf a.dt a.shape) else (if (mcOf o a.dt).isSome || o.reverse then (zerosOf a.dt a.shape).T else zerosOf a.dt a.shape))
      else .ok (if startsWith a.dt.name p!"complex" then complexData (if (mcOf o a.dt).isSome || o.reverse then (zerosOf a.dt a.shape).T else zerosOf a.dt a.shape) else (if (mcOf o a.dt).isSome || o.reverse then (zerosOf a.dt a.shape).T else zerosOf a.dt a.shape))) >>= fun d =>
        stringStep a.dt.name (mcOf o a.dt) (if ((mcOf o a.dt).isSome || o.reverse) = true then d.T else d) >>= fun d =>
          reshapeStep a.shape d >>= fun d => toContainer (some c.name) a.dt.name true (ts == p!"numpy.recarray") d) = _
    generalize ((mcOf o a.dt).isSome || o.reverse) = r
    rw [hzero]
    have hcx : (if startsWith a.dt.name p!"complex" then complexData (if r then (NData.arr false a).T else .arr false a) else (if r then (NData.arr false a).T else .arr false a)) =
        (if r then (NData.arr false a).T else .arr false a) := by
      split
      · rw [hTb r, complexData, hcd _ (hdtT r)]
      · rfl
    rw [hcx, if_neg]
    · show (stringStep a.dt.name (mcOf o a.dt) (if r = true then (if r then (NData.arr false a).T else .arr false a).T else (if r then (NData.arr false a).T else .arr false a)) >>= fun d =>
          reshapeStep a.shape d >>= fun d => toContainer (some c.name) a.dt.name true (ts == p!"numpy.recarray") d) = _
      rw [hT r, hss]
      show (reshapeStep a.shape (.arr false a) >>= fun d => toContainer (some c.name) a.dt.name true (ts == p!"numpy.recarray") d) = _
      rw [reshapeStep_ok a.shape a rfl]
      show toContainer (some c.name) a.dt.name true (ts == p!"numpy.recarray") (.arr false a) = _
      cases c with
      | scalar => exact absurd rfl hnsc
      | ndarray => rfl
      | matrix =>
        have hm := hg.matrix rfl
        have : toContainer (some Cont.matrix.name) a.dt.name true (ts == p!"numpy.recarray") (.arr false a) =
            (if 2 < a.shape.length then .error .valueError else .ok (.np .matrix a.atleast2d)) := rfl
        rw [this, if_neg (by omega), Arr.atleast2d]
        cases a with
        | mk dt shape data =>
          match shape, hm with
          | [x, y], _ => rfl
      | chararray =>
        have : toContainer (some Cont.chararray.name) a.dt.name true (ts == p!"numpy.recarray") (.arr false a) =
            (if a.dt.isString then .ok (.np .chararray a) else .error .valueError) := rfl
        rw [this, if_pos]
        rcases hg.chararray rfl with ⟨n, h⟩ | ⟨n, h⟩ <;> rw [h] <;> rfl
      | recarray => rw [hrec rfl]; rfl
    · rintro ⟨h1, h2⟩
      have hb := isBool_name a.dt hp h1
      rw [hTb r, NData.isBool, hdtT r, hb] at h2
      cases h2

/-- numpy data that is stored is read back as it was. -/
theorem leaf_roundtrip (o : COpts) (ho : OptsOk o) (c : Cont) (a d : Arr) (ts : Str) (hg : Spec.GoodNp c a) (hcn : Spec.CplxOk o a)
    (hrec : c = .recarray → ts = p!"numpy.recarray") (h : prepare o c a = .ok d) :
    npFinish o ts a.dt.name a.shape (some c.name) a.isEmpty (mcOf o a.dt) (.arr false (h5Store d)) = .ok (.np c a) := by
  cases he : a.isEmpty with
  | true => exact empty_roundtrip o ho c a _ ts hg he hrec
  | false =>
    cases hdt : a.dt with
    | bytes n => rw [← hdt]; exact bytes_roundtrip o ho c a d ts hg he n hdt hrec h
    | str n => rw [← hdt]; exact strings_roundtrip o ho c a d ts hg he n hdt hrec h
    | _ => rw [← hdt]; exact num_roundtrip o ho c a d ts hg (fun hh => hcn hh (by
        intro hn
        have := hg.arr.size
        rw [hn] at this
        simp only [Arr.isEmpty, Arr.size, hn, ← this] at he
        cases he)) he (by rw [hdt]; rfl) hrec h

end HS
