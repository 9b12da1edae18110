import Verif.Lemmas.OverAttrs
/-
Datasets written over Datasets.
-/
namespace HS
open Spec

/-- The data of a Dataset of objects. -/
def ObjData (o : COpts) (sh : List Nat) (d : Arr) : Prop := (d.dt = .u64 ∧ o.storeShape = true ∧ prodN sh = 0) ∨ d.dt = .ref

/-- The data and attributes a value is written with, if that is a Dataset. -/
inductive DsetOf (o : COpts) : Val → Arr → List (Str × AIn) → Prop
  | leaf {v : Val} {c : Cont} {a d : Arr} : leafOf v = some (c, a) → prepare o c a = .ok d → NC d.dt →
      DsetOf o v d (npAttrs o c a.dt a.shape a.isEmpty (h5Store d).dt (tsOf v))
  | npObj (c : Cont) (sh : List Nat) (el : List Val) {d : Arr} : ObjData o sh d →
      DsetOf o (.npObj c sh el) d (npAttrs o c .object sh (prodN sh == 0) d.dt (tsOf (.npObj c sh el)))
  | seq (k : SeqKind) (el : List Val) {d : Arr} : ObjData o [el.length] d →
      DsetOf o (.seq k el) d (npAttrs o .ndarray .object [el.length] (prodN [el.length] == 0) d.dt (tsOf (.seq k el)))

/-- The attributes fit if the Dataset is not replaced. -/
def DsetFits (o : COpts) (v w : Val) : Prop :=
  ∀ d new d' new', DsetOf o v d new → DsetOf o w d' new' → (h5Store d).dt = d'.dt → (h5Store d).shape = d'.shape → FitsNew new new'

/-- The shape of the data. -/
def storedShape (o : COpts) (sh : List Nat) : List Nat := if o.reverse then (shape2 o sh).reverse else shape2 o sh

theorem storedShape_len {o : COpts} {n m : Nat} (h : storedShape o [n] = storedShape o [m]) : n = m := by
  unfold storedShape shape2 at h
  cases hr : o.reverse <;> cases ha : o.atleast2d <;> rw [hr, ha] at h <;> simpa [atleast2dShape] using h

theorem storedShape_row {o : COpts} {s t : List Nat} (h : storedShape o s = storedShape o t) : RowShape o s = RowShape o t := by
  rw [rowShape_eq, rowShape_eq]
  unfold storedShape at h
  cases hr : o.reverse <;> rw [hr] at h
  · simpa using h
  · simpa using h

/-- How `prepare` goes on. -/
theorem prepare_tail {o : COpts} {c : Cont} {a b d : Arr} (hs : strStep o (c == .scalar) (bytesStep o a) = .ok b) (h : prepare o c a = .ok d)
    (he : ¬ (o.storeShape = true ∧ a.isEmpty = true)) :
    ∃ r : Arr, r.shape = storedShape o b.shape ∧ r.dt = (if o.boolsU8 = true ∧ b.dt = .bool then .u8 else b.dt) ∧ complexStep o r = .ok d := by
  unfold prepare at h
  rw [hs] at h
  simp only [bind, Except.bind] at h
  rw [if_neg (by simpa using he)] at h
  obtain ⟨b1, _, b3⟩ := @boolStep_dt o (reverseStep o (atleast2dStep o b))
  obtain ⟨r1, r2, _⟩ := reverse2_shape o b
  rw [r1] at b1
  rw [r2] at b3
  exact ⟨_, b1, b3, h⟩

/-- The dtype before HDF5 sees it. -/
def PrepDT (a d : DT) : Prop :=
  (a = .bool ∧ (d = .u8 ∨ d = .bool)) ∨ (a = .c64 ∧ ∃ r i, d = .crec r i false) ∨ (a = .c128 ∧ ∃ r i, d = .crec r i true) ∨
    (a ≠ .bool ∧ a ≠ .c64 ∧ a ≠ .c128 ∧ d = a)

theorem complexStep_shape {o : COpts} {r d : Arr} (h : complexStep o r = .ok d) : d.shape = r.shape ∧
    ((r.dt = .c64 ∧ ∃ s i, d.dt = .crec s i false) ∨ (r.dt = .c128 ∧ ∃ s i, d.dt = .crec s i true) ∨ (r.dt ≠ .c64 ∧ r.dt ≠ .c128 ∧ d = r)) := by
  unfold complexStep at h
  cases hd : r.dt with
  | c64 =>
    rw [hd] at h
    unfold encodeComplex at h
    dsimp only at h
    split at h
    · cases h
    · rw [hd] at h; cases h; exact ⟨rfl, Or.inl ⟨rfl, _, _, rfl⟩⟩
  | c128 =>
    rw [hd] at h
    unfold encodeComplex at h
    dsimp only at h
    split at h
    · cases h
    · rw [hd] at h; cases h; exact ⟨rfl, Or.inr (Or.inl ⟨rfl, _, _, rfl⟩)⟩
  | _ => rw [hd] at h; cases h; exact ⟨rfl, Or.inr (Or.inr ⟨(by simp), (by simp), rfl⟩)⟩

theorem numeric_prep {o : COpts} {c : Cont} {a d : Arr} (hn : NumericDT a.dt) (he : prodN a.shape ≠ 0) (h : prepare o c a = .ok d) :
    d.shape = storedShape o a.shape ∧ PrepDT a.dt d.dt := by
  obtain ⟨r, h1, h2, h3⟩ := prepare_tail (numeric_steps hn) h (by rw [numeric_isEmpty hn]; simp [he])
  obtain ⟨h4, h5⟩ := complexStep_shape h3
  refine ⟨h4.trans h1, ?_⟩
  by_cases hb : a.dt = .bool
  · rw [hb] at h2
    have h2' : r.dt = .u8 ∨ r.dt = .bool := by
      rw [h2]
      by_cases hx : o.boolsU8 = true
      · rw [if_pos ⟨hx, rfl⟩]; exact Or.inl rfl
      · rw [if_neg fun h => hx h.1]; exact Or.inr rfl
    have hd : d = r := by
      rcases h5 with ⟨h, _⟩ | ⟨h, _⟩ | ⟨_, _, h⟩
      · rw [h] at h2'; rcases h2' with h | h <;> cases h
      · rw [h] at h2'; rcases h2' with h | h <;> cases h
      · exact h
    rw [hd]
    exact Or.inl ⟨hb, h2'⟩
  · rw [if_neg (fun h => hb h.2)] at h2
    rcases h5 with ⟨h, s, i, h'⟩ | ⟨h, s, i, h'⟩ | ⟨h, h', rfl⟩
    · exact Or.inr (Or.inl ⟨h2.symm.trans h, s, i, h'⟩)
    · exact Or.inr (Or.inr (Or.inl ⟨h2.symm.trans h, s, i, h'⟩))
    · exact Or.inr (Or.inr (Or.inr ⟨hb, (by rw [← h2]; exact h), (by rw [← h2]; exact h'), h2⟩))

theorem h5Store_dt (d : Arr) : (h5Store d).dt = d.dt ∨ (d.dt = .bytes 0 ∧ (h5Store d).dt = .bytes 1) ∨
    (∃ r i b, d.dt = .crec r i b ∧ (h5Store d).dt = if b then .c128 else .c64) ∨ ∃ b b' s n t, d.dt = .comp b s n t ∧ (h5Store d).dt = .comp b' s n t := by
  unfold h5Store
  split
  · rename_i r i b hd
    unfold h5Read
    rw [hd]
    dsimp only
    split
    · exact Or.inr (Or.inr (Or.inl ⟨r, i, b, rfl, rfl⟩))
    · exact Or.inl hd
  · rename_i hd; exact Or.inr (Or.inl ⟨hd, rfl⟩)
  · rename_i hd; exact Or.inr (Or.inr (Or.inr ⟨_, _, _, _, _, hd, rfl⟩))
  · exact Or.inl rfl

/-- Data of different dtypes does not look the same. -/
theorem prepDT_same {a b : DT} {d e : Arr} (hn : NumericDT a) (hn' : NumericDT b) (ha : PrepDT a d.dt) (hb : PrepDT b e.dt) (h : (h5Store d).dt = e.dt) :
    a = b ∨ (a = .bool ∧ b = .u8) ∨ (a = .u8 ∧ b = .bool) := by
  have hd : (h5Store d).dt = d.dt ∨ (d.dt = .bytes 0 ∧ (h5Store d).dt = .bytes 1) ∨ (∃ r i, d.dt = .crec r i true ∧ (h5Store d).dt = .c128) ∨
      (∃ r i, d.dt = .crec r i false ∧ (h5Store d).dt = .c64) := by
    rcases h5Store_dt d with h1 | h1 | ⟨r, i, x, h1, h2⟩ | ⟨x, y, sz, ns, ts, h1, h2⟩
    · exact Or.inl h1
    · exact Or.inr (Or.inl h1)
    · cases x
      · exact Or.inr (Or.inr (Or.inr ⟨r, i, h1, h2⟩))
      · exact Or.inr (Or.inr (Or.inl ⟨r, i, h1, h2⟩))
    · exfalso
      rw [h1] at ha
      rcases ha with ⟨_, h | h⟩ | ⟨_, _, _, h⟩ | ⟨_, _, _, h⟩ | ⟨_, _, _, h⟩
      · cases h
      · cases h
      · cases h
      · cases h
      · rw [← h] at hn
        unfold NumericDT at hn
        simp at hn
  have nc : ∀ {x : DT}, NumericDT x → (∀ n, x ≠ .bytes n) ∧ ∀ r i y, x ≠ .crec r i y := by
    intro x hx
    unfold NumericDT at hx
    simp only [List.mem_cons, List.not_mem_nil, or_false] at hx
    constructor
    · rintro n rfl; simp at hx
    · rintro r i y rfl; simp at hx
  rw [h] at hd
  generalize d.dt = dd at *
  generalize e.dt = ee at *
  rcases ha with ⟨rfl, rfl | rfl⟩ | ⟨rfl, r, i, rfl⟩ | ⟨rfl, r, i, rfl⟩ | ⟨a1, a2, a3, rfl⟩ <;>
    rcases hb with ⟨rfl, rfl | rfl⟩ | ⟨rfl, r', i', rfl⟩ | ⟨rfl, r', i', rfl⟩ | ⟨b1, b2, b3, rfl⟩ <;>
    rcases hd with h1 | ⟨h1, h2⟩ | ⟨u, w, h1, h2⟩ | ⟨u, w, h1, h2⟩ <;>
    first
    | exact Or.inl rfl
    | (cases h1; done)
    | (cases h2; done)
    | exact absurd rfl (by assumption)
    | (cases h1; simp_all; done)
    | (cases h2; simp_all; done)
    | exact absurd h1 ((nc hn).1 _)
    | exact absurd h1 ((nc hn).2 _ _ _)
    | exact absurd h1.symm ((nc hn).2 _ _ _)
    | exact absurd h1 ((nc hn').2 _ _ _)
    | exact absurd h1.symm ((nc hn').2 _ _ _)

/-- How text is stored. -/
theorem prep_bytes {o : COpts} {b : Bytes} {d : Arr} (hb : b ≠ []) (h : prepare o .scalar (npBytes b) = .ok d) :
    (d.dt = .u16 ∧ d.shape = storedShape o [b.length]) ∨ d.dt = .bytes b.length := by
  have hl : b.length ≠ 0 := by simpa using hb
  have he : ¬ (o.storeShape = true ∧ (npBytes b).isEmpty = true) := by
    rintro ⟨_, h⟩
    simp [Arr.isEmpty, npBytes, mkBytesArr, Arr.size, Arr.nbytes, DT.itemsize, prodN, hb] at h
  have fin : ∀ c : Arr, bytesStep o (npBytes b) = c → (c.dt = .u16 ∨ c.dt = .bytes b.length) → d.shape = storedShape o c.shape ∧ d.dt = c.dt := by
    intro c hc hdt
    have hs : strStep o (Cont.scalar == .scalar) (bytesStep o (npBytes b)) = .ok c := by
      rw [hc]
      unfold strStep
      rcases hdt with hdt | hdt <;> rw [hdt]
    obtain ⟨r, r1, r2, r3⟩ := prepare_tail hs h he
    rw [if_neg (by rintro ⟨_, h⟩; rw [h] at hdt; rcases hdt with h | h <;> cases h)] at r2
    obtain ⟨c1, c2⟩ := complexStep_shape r3
    rcases c2 with ⟨h, _⟩ | ⟨h, _⟩ | ⟨_, _, rfl⟩
    · rw [r2] at h; rw [h] at hdt; rcases hdt with h | h <;> cases h
    · rw [r2] at h; rw [h] at hdt; rcases hdt with h | h <;> cases h
    · exact ⟨r1, r2⟩
  have hbs : (bytesStep o (npBytes b)).dt = .u16 ∧ (bytesStep o (npBytes b)).shape = [b.length] ∨ bytesStep o (npBytes b) = npBytes b := by
    unfold bytesStep
    rw [show (npBytes b).dt = .bytes b.length from rfl]
    dsimp only
    split
    · rw [if_neg (by simp [npBytes, mkBytesArr, Arr.nbytes, DT.itemsize, prodN, hb])]
      split
      · exact Or.inl ⟨rfl, by simp [npBytes, mkBytesArr, atleast1dShape, mulLast]⟩
      · exact Or.inr rfl
    · exact Or.inr rfl
  rcases hbs with ⟨h1, h2⟩ | h1
  · obtain ⟨f1, f2⟩ := fin _ rfl (Or.inl h1)
    exact Or.inl ⟨f2.trans h1, by rw [f1, h2]⟩
  · obtain ⟨_, f2⟩ := fin _ h1 (Or.inr rfl)
    exact Or.inr f2

theorem strStep_scalar {o : COpts} {s : Str} {c : Arr} (h : strStep o true (npStr s) = .ok c) : (c.dt = .u16 ∨ c.dt = .u32) ∧ c.shape = [s.length] := by
  have h32 : (convertNumpyStrToUint32 (npStr s)).dt = .u32 ∧ (convertNumpyStrToUint32 (npStr s)).shape = [s.length] := by
    unfold convertNumpyStrToUint32
    split
    · rename_i hz
      have : s.length = 0 := by
        simp only [npStr, Arr.nbytes, DT.itemsize, prodN, List.foldr, Nat.one_mul] at hz
        omega
      rw [this]
      exact ⟨rfl, rfl⟩
    · refine ⟨rfl, ?_⟩
      simp [npStr, DT.itemsize, atleast1dShape, mulLast]
  unfold strStep at h
  rw [show (npStr s).dt = .str s.length from rfl] at h
  dsimp only at h
  cases hc : (if o.str16 then (convertNumpyStrToUint16 (npStr s)).toOption else none) with
  | none => rw [hc] at h; cases h; exact ⟨Or.inr h32.1, h32.2⟩
  | some b =>
    rw [hc] at h
    dsimp only at h
    rw [if_pos rfl] at h
    by_cases hn : s.length ≠ b.shape.headD 0
    · rw [if_pos hn] at h; cases h; exact ⟨Or.inr h32.1, h32.2⟩
    · rw [if_neg hn] at h
      cases h
      have hk : convertNumpyStrToUint16 (npStr s) = .ok c := by
        split at hc
        · cases hx : convertNumpyStrToUint16 (npStr s) with
          | error e => rw [hx] at hc; cases hc
          | ok y => rw [hx] at hc; cases hc; rfl
        · cases hc
      unfold convertNumpyStrToUint16 at hk
      split at hk
      · rename_i hz
        have : s.length = 0 := by
          simp only [npStr, Arr.nbytes, DT.itemsize, prodN, Nat.one_mul] at hz
          omega
        cases hk
        rw [this]
        exact ⟨Or.inl rfl, rfl⟩
      · simp only [bind, Except.bind] at hk
        split at hk
        · cases hk
        · cases hk
          refine ⟨Or.inl rfl, ?_⟩
          have hn' := Classical.not_not.mp hn
          simp only [npStr, atleast1dShape, mulLast, List.headD] at hn' ⊢
          rw [hn']

theorem prep_str {o : COpts} {s : Str} {d : Arr} (h : prepare o .scalar (npStr s) = .ok d) :
    (s = [] ∧ o.storeShape = true ∧ d.dt = .u64) ∨ (¬ (s = [] ∧ o.storeShape = true) ∧ (d.dt = .u16 ∨ d.dt = .u32) ∧ d.shape = storedShape o [s.length]) := by
  have hbs : bytesStep o (npStr s) = npStr s := rfl
  have hem : (npStr s).isEmpty = true ↔ s = [] := by
    simp only [Arr.isEmpty, npStr, Arr.size, Arr.nbytes, DT.itemsize, prodN, DT.isString]
    cases s <;> simp
  by_cases he : s = [] ∧ o.storeShape = true
  · refine Or.inl ⟨he.1, he.2, ?_⟩
    unfold prepare at h
    cases hs : strStep o (Cont.scalar == .scalar) (bytesStep o (npStr s)) with
    | error e => rw [hs] at h; cases h
    | ok c =>
      rw [hs] at h
      simp only [bind, Except.bind] at h
      rw [if_pos (by rw [he.2, hem.mpr he.1]; rfl)] at h
      cases h
      rfl
  · refine Or.inr ⟨he, ?_⟩
    cases hs : strStep o (Cont.scalar == .scalar) (bytesStep o (npStr s)) with
    | error e => unfold prepare at h; rw [hs] at h; cases h
    | ok c =>
      obtain ⟨r, r1, r2, r3⟩ := prepare_tail hs h (fun hh => he ⟨hem.mp hh.2, hh.1⟩)
      obtain ⟨c1, c2⟩ := strStep_scalar (o := o) (s := s) (c := c) hs
      rw [if_neg (by rintro ⟨_, h⟩; rw [h] at c1; rcases c1 with h | h <;> cases h)] at r2
      obtain ⟨d1, d2⟩ := complexStep_shape r3
      rw [c2] at r1
      rw [← r2] at c1
      rcases d2 with ⟨h, _⟩ | ⟨h, _⟩ | ⟨_, _, rfl⟩
      · rw [h] at c1; rcases c1 with h | h <;> cases h
      · rw [h] at c1; rcases c1 with h | h <;> cases h
      · exact ⟨c1, r1⟩

/-- Sorts of dtypes. -/
def dtSort : DT → ValSort
  | .u16 | .u32 | .bytes _ => .text
  | .ref => .objects
  | _ => .number

theorem dtSort_store (d : Arr) : dtSort (h5Store d).dt = dtSort d.dt := by
  rcases h5Store_dt d with h | ⟨h, h'⟩ | ⟨r, i, b, h, h'⟩ | ⟨_, _, _, _, _, h, h'⟩
  · rw [h]
  · rw [h, h']; rfl
  · rw [h, h']; cases b <;> rfl
  · rw [h, h']; rfl

theorem dtSort_numeric {o : COpts} {c : Cont} {a d : Arr} (hn : NumericDT a.dt) (h16 : a.dt ≠ .u16) (h32 : a.dt ≠ .u32) (he : prodN a.shape ≠ 0)
    (h : prepare o c a = .ok d) : dtSort d.dt = .number := by
  obtain ⟨_, hp⟩ := numeric_prep hn he h
  rcases hp with ⟨_, h | h⟩ | ⟨_, r, i, h⟩ | ⟨_, r, i, h⟩ | ⟨_, _, _, h⟩
  · rw [h]; rfl
  · rw [h]; rfl
  · rw [h]; rfl
  · rw [h]; rfl
  · rw [h]
    unfold NumericDT at hn
    simp only [List.mem_cons, List.not_mem_nil, or_false] at hn
    rcases hn with hn | hn | hn | hn | hn | hn | hn | hn | hn | hn | hn | hn | hn | hn <;> rw [hn] at h16 h32 ⊢ <;> first | rfl | exact absurd rfl h16 | exact absurd rfl h32

theorem pyNumber_leaf {v : Val} (h : PyNumber v) : ∃ a, leafOf v = some (.scalar, a) ∧ a.shape = [] ∧
    ((a.dt = .bool ∧ ∃ b, v = .bool b) ∨ (a.dt = .i64 ∧ ∃ b, v = .int b) ∨ (a.dt = .f64 ∧ ∃ b, v = .float b) ∨ (a.dt = .c128 ∧ ∃ b c, v = .complex b c)) := by
  cases h with
  | bool b => exact ⟨_, rfl, rfl, Or.inl ⟨rfl, b, rfl⟩⟩
  | int i h1 h2 => exact ⟨_, by rw [leafOf, if_pos ⟨h1, h2⟩], rfl, Or.inr (Or.inl ⟨rfl, i, rfl⟩)⟩
  | float b => exact ⟨_, rfl, rfl, Or.inr (Or.inr (Or.inl ⟨rfl, b, rfl⟩))⟩
  | complex a b => exact ⟨_, rfl, rfl, Or.inr (Or.inr (Or.inr ⟨rfl, a, b, rfl⟩))⟩

theorem pyNumber_numeric {v : Val} {a : Arr} (h : (a.dt = .bool ∧ ∃ b, v = .bool b) ∨ (a.dt = .i64 ∧ ∃ b, v = .int b) ∨ (a.dt = .f64 ∧ ∃ b, v = .float b) ∨
    (a.dt = .c128 ∧ ∃ b c, v = .complex b c)) : NumericDT a.dt ∧ a.dt ≠ .u16 ∧ a.dt ≠ .u32 := by
  rcases h with ⟨h, _⟩ | ⟨h, _⟩ | ⟨h, _⟩ | ⟨h, _⟩ <;> rw [h] <;> exact ⟨(by simp [NumericDT]), (by simp), (by simp)⟩

theorem sort_dt {o : COpts} {v : Val} {s : ValSort} {d : Arr} {new : List (Str × AIn)} (hs : SortOf v s) (hd : DsetOf o v d new) : dtSort d.dt = s := by
  cases hs with
  | number hp =>
    obtain ⟨a, h1, h2, h3⟩ := pyNumber_leaf hp
    obtain ⟨n1, n2, n3⟩ := pyNumber_numeric h3
    cases hd with
    | leaf hl hpr => rw [h1] at hl; cases hl; exact dtSort_numeric n1 n2 n3 (by rw [h2]; simp [prodN]) hpr
    | npObj => cases hp
    | seq => cases hp
  | array c a n1 n2 n3 n4 => cases hd with | leaf hl hpr => cases hl; exact dtSort_numeric n1 n2 n3 n4 hpr
  | str t ht =>
    cases hd with
    | leaf hl hpr =>
      cases hl
      rcases prep_str hpr with ⟨h, _⟩ | ⟨_, h | h, _⟩
      · exact absurd h ht
      · rw [h]; rfl
      · rw [h]; rfl
  | bytes t ht =>
    cases hd with
    | leaf hl hpr =>
      cases hl
      rcases prep_bytes ht hpr with ⟨h, _⟩ | h <;> rw [h] <;> rfl
  | bytearray t ht =>
    cases hd with
    | leaf hl hpr =>
      cases hl
      rcases prep_bytes ht hpr with ⟨h, _⟩ | h <;> rw [h] <;> rfl
  | seq k e he =>
    cases hd with
    | leaf hl => cases hl
    | seq _ _ ho =>
      rcases ho with ⟨_, _, h⟩ | h
      · exact absurd h (by simpa [prodN] using he)
      · rw [h]; rfl
  | npObj c t e he =>
    cases hd with
    | leaf hl => cases hl
    | npObj _ _ _ ho =>
      rcases ho with ⟨_, _, h⟩ | h
      · exact absurd h he
      · rw [h]; rfl
  | dict => cases hd with | leaf hl => cases hl
  | record => cases hd with | leaf hl => cases hl

theorem mapping_noDset {o : COpts} {v : Val} {d : Arr} {new : List (Str × AIn)} (hm : IsMapping v) (hd : DsetOf o v d new) : False := by
  cases hd with
  | @leaf v c a d hl hpr =>
    unfold leafOf at hl
    split at hl <;> first | cases hm; done | (cases hl; done) | skip
    all_goals (unfold IsMapping at hm; split at hm <;> simp_all)
  | npObj => exact hm
  | seq => exact hm

theorem bytes_same {o : COpts} {a b : Bytes} {d e : Arr} (h0 : a = [] ↔ b = []) (ha : prepare o .scalar (npBytes a) = .ok d) (hb : prepare o .scalar (npBytes b) = .ok e)
    (h1 : (h5Store d).dt = e.dt) (h2 : (h5Store d).shape = e.shape) : a.length = b.length := by
  by_cases h : a = []
  · rw [h, h0.mp h]
  · have h' : b ≠ [] := fun hh => h (h0.mpr hh)
    rw [h5Store_shape] at h2
    have hk : (h5Store d).dt = d.dt := by
      rcases h5Store_dt d with hh | ⟨hh, _⟩ | ⟨r, i, x, hh, _⟩ | ⟨_, _, _, _, _, hh, _⟩
      · exact hh
      · rcases prep_bytes h ha with ⟨k, _⟩ | k
        · rw [hh] at k; cases k
        · rw [hh] at k
          injection k with k
          exact absurd (List.length_eq_zero_iff.mp k.symm) h
      · rcases prep_bytes h ha with ⟨k, _⟩ | k <;> rw [hh] at k <;> cases k
      · rcases prep_bytes h ha with ⟨k, _⟩ | k <;> rw [hh] at k <;> cases k
    rw [hk] at h1
    rcases prep_bytes h ha with ⟨k1, k2⟩ | k1 <;> rcases prep_bytes h' hb with ⟨l1, l2⟩ | l1
    · rw [k2, l2] at h2; exact storedShape_len h2
    · rw [k1, l1] at h1; cases h1
    · rw [k1, l1] at h1; cases h1
    · rw [k1, l1] at h1; injection h1

theorem bytes_fits {o : COpts} {a b : Bytes} {st st' : DT} {e e' : Bool} {ts : Str} (h : a.length = b.length) :
    FitsNew (npAttrs o .scalar (npBytes a).dt (npBytes a).shape e st ts) (npAttrs o .scalar (npBytes b).dt (npBytes b).shape e' st' ts) :=
  npAttrs_fits rfl (by show (DT.name (.bytes a.length)).length = (DT.name (.bytes b.length)).length; rw [h]) rfl rfl (by intro x y hx hy; cases hx; cases hy; rfl)

theorem matlabClass_len {dt : DT} : ∀ a b, dt.matlabClass = some a → dt.matlabClass = some b → a.length = b.length := by
  intro a b h1 h2
  rw [h1] at h2
  cases h2
  rfl

theorem decGo_ne (f n : Nat) : decGo f n ≠ [] := by
  cases f with
  | zero => intro h; cases h
  | succ f =>
    rw [decGo]
    split
    · intro h; cases h
    · simp

theorem intDec_ne (v : Int) : intDec v ≠ [] := by
  unfold intDec
  split
  · intro h; cases h
  · exact decGo_ne _ _

/-- What can be written over fits. -/
theorem overwrites_fits {o : COpts} {v w : Val} (h : Overwrites o v w) : DsetFits o v w := by
  intro d new d' new' hd hd' h1 h2
  cases h with
  | none => cases hd with | leaf hl hp => cases hd' with | leaf hl' hp' => cases hl; cases hl'; exact npAttrs_fits rfl rfl rfl rfl matlabClass_len
  | ellipsis => cases hd with | leaf hl hp => cases hd' with | leaf hl' hp' => cases hl; cases hl'; exact npAttrs_fits rfl rfl rfl rfl matlabClass_len
  | notImplemented => cases hd with | leaf hl hp => cases hd' with | leaf hl' hp' => cases hl; cases hl'; exact npAttrs_fits rfl rfl rfl rfl matlabClass_len
  | numbers _ _ hv hw =>
    obtain ⟨a, a1, a2, a3⟩ := pyNumber_leaf hv
    obtain ⟨b, b1, b2, b3⟩ := pyNumber_leaf hw
    cases hd with
    | leaf hl hp =>
      cases hd' with
      | leaf hl' hp' =>
        rw [a1] at hl
        rw [b1] at hl'
        cases hl
        cases hl'
        have hna := (pyNumber_numeric a3).1
        have hnb := (pyNumber_numeric b3).1
        obtain ⟨_, pa⟩ := numeric_prep hna (by rw [a2]; simp [prodN]) hp
        obtain ⟨_, pb⟩ := numeric_prep hnb (by rw [b2]; simp [prodN]) hp'
        have hx := prepDT_same hna hnb pa pb h1
        have hdt : a.dt = b.dt ∧ tsOf v = tsOf w := by
          rcases a3 with ⟨h, _, rfl⟩ | ⟨h, _, rfl⟩ | ⟨h, _, rfl⟩ | ⟨h, _, _, rfl⟩ <;> rcases b3 with ⟨h', _, rfl⟩ | ⟨h', _, rfl⟩ | ⟨h', _, rfl⟩ | ⟨h', _, _, rfl⟩ <;>
            rw [h, h'] at hx <;> first | exact ⟨h.trans h'.symm, rfl⟩ | (simp at hx; done)
        rw [hdt.1, hdt.2]
        exact npAttrs_fits (by rw [a2, b2]) rfl rfl rfl matlabClass_len
      | npObj => cases hw
      | seq => cases hw
    | npObj => cases hv
    | seq => cases hv
  | ints a b =>
    have big : ∀ v : Int, ¬ (-9223372036854775808 ≤ v ∧ v ≤ 9223372036854775807) → leafOf (.int v) = some (.scalar, npBytes (intDec v)) := by
      intro v hv; rw [leafOf, if_neg hv]
    have small : ∀ v : Int, (-9223372036854775808 ≤ v ∧ v ≤ 9223372036854775807) → leafOf (.int v) = some (.scalar, ⟨.i64, [], [.num v]⟩) := by
      intro v hv; rw [leafOf, if_pos hv]
    have smallD : ∀ (v : Int) (e : Arr), prepare o .scalar ⟨.i64, [], [.num v]⟩ = .ok e → dtSort e.dt = .number :=
      fun v e he => dtSort_numeric (by simp [NumericDT]) (by simp) (by simp) (by simp [prodN]) he
    have bigD : ∀ (v : Int) (e : Arr), prepare o .scalar (npBytes (intDec v)) = .ok e → dtSort e.dt = .text := by
      intro v e he
      rcases prep_bytes (intDec_ne v) he with ⟨h, _⟩ | h <;> rw [h] <;> rfl
    have hs : dtSort d.dt = dtSort d'.dt := by rw [← dtSort_store, h1]
    cases hd with
    | leaf hl hp =>
      cases hd' with
      | leaf hl' hp' =>
        by_cases ha : -9223372036854775808 ≤ a ∧ a ≤ 9223372036854775807 <;> by_cases hb : -9223372036854775808 ≤ b ∧ b ≤ 9223372036854775807
        · rw [small a ha] at hl; rw [small b hb] at hl'
          cases hl; cases hl'
          exact npAttrs_fits rfl rfl rfl rfl matlabClass_len
        · rw [small a ha] at hl; rw [big b hb] at hl'
          cases hl; cases hl'
          rw [smallD a _ hp, bigD b _ hp'] at hs
          cases hs
        · rw [big a ha] at hl; rw [small b hb] at hl'
          cases hl; cases hl'
          rw [bigD a _ hp, smallD b _ hp'] at hs
          cases hs
        · rw [big a ha] at hl; rw [big b hb] at hl'
          cases hl; cases hl'
          exact bytes_fits (bytes_same (by simp [intDec_ne]) hp hp' h1 h2)
  | strs s t =>
    cases hd with
    | leaf hl hp =>
      cases hd' with
      | leaf hl' hp' =>
        cases hl; cases hl'
        have hl : s.length = t.length := by
          have hk : (h5Store d).dt = d.dt := by
            rcases h5Store_dt d with hh | ⟨hh, _⟩ | ⟨r, i, x, hh, _⟩ | ⟨_, _, _, _, _, hh, _⟩
            · exact hh
            · rcases prep_str hp with ⟨_, _, k⟩ | ⟨_, k | k, _⟩ <;> rw [hh] at k <;> cases k
            · rcases prep_str hp with ⟨_, _, k⟩ | ⟨_, k | k, _⟩ <;> rw [hh] at k <;> cases k
            · rcases prep_str hp with ⟨_, _, k⟩ | ⟨_, k | k, _⟩ <;> rw [hh] at k <;> cases k
          rw [hk] at h1
          rw [h5Store_shape] at h2
          rcases prep_str hp with ⟨k1, _, k2⟩ | ⟨_, k1, k2⟩ <;> rcases prep_str hp' with ⟨l1, _, l2⟩ | ⟨_, l1, l2⟩
          · rw [k1, l1]
          · rw [k2] at h1; rw [← h1] at l1; rcases l1 with l | l <;> cases l
          · rw [l2] at h1; rw [h1] at k1; rcases k1 with l | l <;> cases l
          · rw [k2, l2] at h2; exact storedShape_len h2
        exact npAttrs_fits rfl (by show (DT.name (.str s.length)).length = (DT.name (.str t.length)).length; rw [hl]) rfl rfl (by intro x y hx hy; cases hx; cases hy; rfl)
  | bytes a b h0 =>
    cases hd with
    | leaf hl hp =>
      cases hd' with
      | leaf hl' hp' =>
        cases hl; cases hl'
        exact bytes_fits (bytes_same h0 hp hp' h1 h2)
  | bytearrays a b h0 =>
    cases hd with
    | leaf hl hp =>
      cases hd' with
      | leaf hl' hp' =>
        cases hl; cases hl'
        exact bytes_fits (bytes_same h0 hp hp' h1 h2)
  | arrays c a b hdt hlen =>
    cases hd with
    | leaf hl hp =>
      cases hd' with
      | leaf hl' hp' =>
        cases hl; cases hl'
        have : tsOf (.np c a) = tsOf (.np c b) := by show npTypeString c a.dt = npTypeString c b.dt; rw [hdt]
        rw [this, hdt]
        exact npAttrs_fits hlen rfl rfl rfl matlabClass_len
  | dtypes c c' a b n1 n2 s1 s2 hne hb1 hb2 =>
    cases hd with
    | leaf hl hp =>
      cases hd' with
      | leaf hl' hp' =>
        cases hl; cases hl'
        rcases prepDT_same n1 n2 (numeric_prep n1 s1 hp).2 (numeric_prep n2 s2 hp').2 h1 with h | h | h
        · exact absurd h hne
        · exact absurd h hb1
        · exact absurd h hb2
  | shapes c c' a b n1 n2 s1 s2 hne =>
    cases hd with
    | leaf hl hp =>
      cases hd' with
      | leaf hl' hp' =>
        cases hl; cases hl'
        rw [h5Store_shape, (numeric_prep n1 s1 hp).1, (numeric_prep n2 s2 hp').1] at h2
        exact absurd (storedShape_row h2) hne
  | objects c s t e f hlen =>
    cases hd with
    | leaf hl => cases hl
    | npObj _ _ _ ho =>
      cases hd' with
      | leaf hl => cases hl
      | npObj _ _ _ ho' => exact npAttrs_fits hlen rfl rfl rfl matlabClass_len
  | seqs k e f =>
    cases hd with
    | leaf hl => cases hl
    | seq _ _ ho =>
      cases hd' with
      | leaf hl => cases hl
      | seq _ _ ho' => exact npAttrs_fits rfl rfl rfl rfl matlabClass_len
  | sorts sa sb hne =>
    rw [← sort_dt sa hd, ← sort_dt sb hd', ← h1, dtSort_store] at hne
    exact absurd rfl hne
  | toMapping _ hm => exact (mapping_noDset hm hd').elim
  | ofMapping hm _ => exact (mapping_noDset hm hd).elim
  | ofStruct c s n t e hv _ _ => subst hv; cases hd with | leaf hl => cases hl
  | toStruct c s n t e hv _ _ => subst hv; cases hd' with | leaf hl => cases hl
  | fields hsm _ _ _ _ _ => cases hsm <;> exact (mapping_noDset (o := o) (by exact trivial) hd).elim
  | items => exact (mapping_noDset (o := o) (by exact trivial) hd).elim

end HS
