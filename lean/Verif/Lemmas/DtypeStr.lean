import Verif.Spec.DtypeStr
import Verif.Lemmas.Dec
import Verif.Lemmas.Hex
/-
Reading back what `repr` writes.
-/
namespace HS
open Spec

theorem intHex_fixed (w v : Nat) (h : v < 16 ^ w) : intHex (hexFixed w v) = v := by
  induction w generalizing v with
  | zero => simp at h; subst h; rfl
  | succ w ih =>
    have hd : ∀ d, d < 16 → hexVal (hexDigit d) = d := by
      intro d hd
      have : ∀ d : Fin 16, hexVal (hexDigit d.val) = d.val := by decide
      exact this ⟨d, hd⟩
    rw [hexFixed]
    unfold intHex
    rw [List.foldl_append, List.foldl_cons, List.foldl_nil, hd _ (by omega)]
    have := ih (v / 16) (by rw [Nat.pow_succ] at h; omega)
    unfold intHex at this
    rw [this]; omega

theorem hexFixed_isHex (w v : Nat) : (hexFixed w v).all isHex = true := by
  rw [List.all_eq_true]
  intro c hc
  obtain ⟨d, hd, rfl⟩ := hexFixed_mem w v c hc
  have : ∀ d : Fin 16, isHex (hexDigit d.val) = true := by decide
  exact this ⟨d, hd⟩

theorem hexEsc_fixed (w v : Nat) (h : v < 16 ^ w) (r : Str) : hexEsc w (hexFixed w v ++ r) = some (v, r) := by
  have hl := hexFixed_length w v
  have ht : (hexFixed w v ++ r).take w = hexFixed w v := by
    rw [List.take_append_of_le_length (by omega), List.take_of_length_le (by omega)]
  have hd : (hexFixed w v ++ r).drop w = r := by
    rw [List.drop_append_of_le_length (by omega), List.drop_of_length_le (by omega)]; rfl
  unfold hexEsc
  rw [ht, hd, if_pos ⟨hl, hexFixed_isHex w v⟩, intHex_fixed w v h]

theorem pStr_char (pr : Nat → Bool) {q c : Nat} (hq : q = 39 ∨ q = 34) (hc : c ≤ 0x10FFFF) (f : Nat) (r : Str) :
    pStr q (f + 1) (reprChar pr q c ++ r) = (pStr q f r).map fun p => (c :: p.1, p.2) := by
  have hq92 : (92 : Nat) ≠ q := by rcases hq with rfl | rfl <;> decide
  unfold reprChar
  split
  · rename_i h
    show pStr q (f + 1) (92 :: c :: r) = _
    rw [pStr]
    rw [if_neg hq92, if_pos rfl]
    have h1 : c = 92 ∨ c = 39 ∨ c = 34 := by
      rcases h with rfl | rfl
      · rcases hq with rfl | rfl <;> simp
      · simp
    rw [if_neg (by omega), if_neg (by omega), if_neg (by omega), if_neg (by omega), if_neg (by omega), if_neg (by omega), if_pos h1]
  · rename_i h
    have hcq : c ≠ q := fun e => h (Or.inl e)
    have hc9 : c ≠ 92 := fun e => h (Or.inr e)
    split
    · rename_i h9; subst h9
      show pStr q (f + 1) (92 :: 116 :: r) = _
      rw [pStr, if_neg hq92, if_pos rfl]; rfl
    split
    · rename_i h9; subst h9
      show pStr q (f + 1) (92 :: 110 :: r) = _
      rw [pStr, if_neg hq92, if_pos rfl]; rfl
    split
    · rename_i h9; subst h9
      show pStr q (f + 1) (92 :: 114 :: r) = _
      rw [pStr, if_neg hq92, if_pos rfl]; rfl
    have hx : ∀ v, v < 256 → pStr q (f + 1) (p!"\\x" ++ hexFixed 2 v ++ r) = (pStr q f r).map fun p => (v :: p.1, p.2) := by
      intro v hv
      show pStr q (f + 1) (92 :: 120 :: (hexFixed 2 v ++ r)) = _
      rw [pStr, if_neg hq92, if_pos rfl]
      rw [if_pos rfl, hexEsc_fixed 2 v (by simpa using hv)]
    have hraw : 32 ≤ c → pStr q (f + 1) ([c] ++ r) = (pStr q f r).map fun p => (c :: p.1, p.2) := by
      intro h32
      show pStr q (f + 1) (c :: r) = _
      rw [pStr.eq_def]
      show (if c = q then _ else _) = _
      rw [if_neg hcq, if_neg hc9, if_neg (by omega)]
    split
    · exact hx c (by omega)
    rename_i h32
    split
    · exact hraw (by omega)
    split
    · exact hraw (by omega)
    split
    · exact hx c ‹_›
    split
    · rename_i h4
      show pStr q (f + 1) (92 :: 117 :: (hexFixed 4 c ++ r)) = _
      rw [pStr, if_neg hq92, if_pos rfl]
      rw [if_neg (by omega), if_pos rfl, hexEsc_fixed 4 c (by simpa using h4)]
    · show pStr q (f + 1) (92 :: 85 :: (hexFixed 8 c ++ r)) = _
      rw [pStr, if_neg hq92, if_pos rfl]
      rw [if_neg (by omega), if_neg (by omega), if_pos rfl, hexEsc_fixed 8 c (by omega)]

theorem pStr_repr (pr : Nat → Bool) {q : Nat} (hq : q = 39 ∨ q = 34) {s : Str} (hs : FieldText s) {f : Nat} (hf : s.length < f) (r : Str) :
    pStr q f (s.flatMap (reprChar pr q) ++ q :: r) = some (s, r) := by
  induction s generalizing f with
  | nil =>
    obtain ⟨f, rfl⟩ : ∃ g, f = g + 1 := ⟨f - 1, by simp at hf; omega⟩
    show pStr q (f + 1) (q :: r) = _
    rw [pStr.eq_def]
    exact if_pos rfl
  | cons c s ih =>
    obtain ⟨f, rfl⟩ : ∃ g, f = g + 1 := ⟨f - 1, by simp at hf; omega⟩
    rw [List.flatMap_cons, List.append_assoc, pStr_char pr hq (hs c (by simp)), ih (fun d hd => hs d (by simp [hd])) (by simp at hf; omega)]
    rfl

theorem reprChar_ne (pr : Nat → Bool) (q c : Nat) : 1 ≤ (reprChar pr q c).length := by
  unfold reprChar
  repeat' split
  all_goals simp

theorem flatMap_le {s : Str} {g : Nat → Str} (h : ∀ c, 1 ≤ (g c).length) : s.length ≤ (s.flatMap g).length := by
  induction s with
  | nil => simp
  | cons c s ih =>
    have := h c
    rw [List.flatMap_cons, List.length_append, List.length_cons]
    omega

/-- A string literal. -/
theorem pVal_str (pr : Nat → Bool) {s : Str} (hs : FieldText s) {f : Nat} (r : Str) : pVal (f + 1) (pyRepr pr s ++ r) = some (.str s, r) := by
  unfold pyRepr
  have key : ∀ q, (q = 39 ∨ q = 34) → pVal (f + 1) ([q] ++ s.flatMap (reprChar pr q) ++ [q] ++ r) = some (.str s, r) := by
    intro q hq
    have e : [q] ++ s.flatMap (reprChar pr q) ++ [q] ++ r = q :: (s.flatMap (reprChar pr q) ++ q :: r) := by simp
    have hw : ws (q :: (s.flatMap (reprChar pr q) ++ q :: r)) = q :: (s.flatMap (reprChar pr q) ++ q :: r) := by
      unfold ws
      rw [List.dropWhile_cons, if_neg (by rcases hq with rfl | rfl <;> decide)]
    rw [e, pVal, hw]
    dsimp only
    rw [if_neg (by rcases hq with rfl | rfl <;> decide), if_neg (by rcases hq with rfl | rfl <;> decide), if_neg (by rcases hq with rfl | rfl <;> decide), if_pos hq,
      pStr_repr pr hq hs]
    · rfl
    · have := flatMap_le (s := s) (reprChar_ne pr q)
      rw [List.length_append, List.length_cons]; omega
  dsimp only
  split
  · exact key 34 (Or.inr rfl)
  · exact key 39 (Or.inl rfl)

theorem ws_cons {c : Nat} (h : c ≠ 32) (r : Str) : ws (c :: r) = c :: r := by
  unfold ws
  rw [List.dropWhile_cons, if_neg (by simpa using h)]

theorem takeWhile_digits {p : Nat → Bool} {s r : Str} (hs : ∀ c ∈ s, p c = true) (hr : ∀ c, r.head? = some c → p c = false) :
    (s ++ r).takeWhile p = s ∧ (s ++ r).dropWhile p = r := by
  induction s with
  | nil =>
    cases r with
    | nil => exact ⟨rfl, rfl⟩
    | cons c r =>
      have := hr c rfl
      exact ⟨by rw [List.nil_append, List.takeWhile_cons, this]; rfl, by rw [List.nil_append, List.dropWhile_cons, this]; rfl⟩
  | cons c s ih =>
    have h1 := hs c (by simp)
    have := ih fun d hd => hs d (by simp [hd])
    rw [List.cons_append, List.takeWhile_cons, List.dropWhile_cons, h1]
    exact ⟨by rw [if_pos rfl, this.1], by rw [if_pos rfl, this.2]⟩

/-- What follows does not go on with digits. -/
def NoDigit (r : Str) : Prop := ∀ c, r.head? = some c → c < 48 ∨ 57 < c

theorem pVal_int {n f : Nat} {r : Str} (hr : NoDigit r) : pVal (f + 1) (decDigits n ++ r) = some (.int n, r) := by
  have h1 := decDigits_range n
  obtain ⟨c, t, hd⟩ : ∃ c t, decDigits n = c :: t := by
    cases h : decDigits n with
    | nil => exact absurd h (decDigits_ne_nil n)
    | cons c t => exact ⟨c, t, rfl⟩
  have hc := h1 c (by rw [hd]; simp)
  have htd := takeWhile_digits (p := fun d => decide (48 ≤ d) && decide (d ≤ 57)) (s := decDigits n) (r := r) (fun c hc => by have := h1 c hc; simp [this]) (fun c hc => by
    have := hr c hc
    simp; omega)
  have hn := natOfDec_decDigits n
  rw [hd] at htd hn ⊢
  rw [List.cons_append] at htd ⊢
  rw [pVal, ws_cons (by omega)]
  dsimp only
  rw [if_neg (by omega), if_neg (by omega), if_neg (by omega), if_neg (by omega), if_pos hc, htd.1, htd.2, hn]

mutual
/-- An expression of strings, numbers and brackets. -/
def Lit.Plain : Lit → Prop
  | .str s => FieldText s
  | .int _ => True
  | .tup l => l.Plain
  | .list l => l.Plain
  | .dict l => l.Plain
  | .name _ => False
def Lits.Plain : Lits → Prop
  | .nil => True
  | .cons a r => a.Plain ∧ r.Plain
def Pairs.Plain : Pairs → Prop
  | .nil => True
  | .cons k v r => FieldText k ∧ v.Plain ∧ r.Plain
end

/-- Where a value begins. -/
theorem repr_first (pr : Nat → Bool) (a : Lit) (h : a.Plain) : ∃ c t, a.repr pr = c :: t ∧ c ≠ 32 ∧ c ≠ 41 ∧ c ≠ 93 ∧ c ≠ 125 ∧ c ≠ 44 := by
  cases a with
  | str s =>
    rw [Lit.repr, pyRepr]
    split
    · exact ⟨34, _, rfl, by decide, by decide, by decide, by decide, by decide⟩
    · exact ⟨39, _, rfl, by decide, by decide, by decide, by decide, by decide⟩
  | int n =>
    rw [Lit.repr]
    cases hd : decDigits n with
    | nil => exact absurd hd (decDigits_ne_nil n)
    | cons c t =>
      have := decDigits_range n c (by rw [hd]; simp)
      exact ⟨c, t, rfl, by omega, by omega, by omega, by omega, by omega⟩
  | tup l => rw [Lit.repr]; exact ⟨40, _, rfl, by decide, by decide, by decide, by decide, by decide⟩
  | list l => rw [Lit.repr]; exact ⟨91, _, rfl, by decide, by decide, by decide, by decide, by decide⟩
  | dict l => rw [Lit.repr]; exact ⟨123, _, rfl, by decide, by decide, by decide, by decide, by decide⟩
  | name s => exact absurd h (by rw [Lit.Plain]; exact id)

theorem items_step (pr : Nat → Bool) {a : Lit} (ha : a.Plain) {f cl : Nat} (hcl : cl = 41 ∨ cl = 93) {X rest : Str} {l : Lits} {b : Bool} (sp : Bool)
    (h1 : pVal f (a.repr pr ++ X) = some (a, X)) (h2 : pRest f cl X = some (l, b, rest)) :
    pItems (f + 1) cl ((if sp then [32] else []) ++ (a.repr pr ++ X)) = some (.cons a l, b, rest) := by
  obtain ⟨c, t, e, n1, n2, n3, n4, n5⟩ := repr_first pr a ha
  have hw : ws ((if sp then [32] else []) ++ (a.repr pr ++ X)) = a.repr pr ++ X := by
    rw [e]
    cases sp with
    | false => exact ws_cons n1 _
    | true =>
      show ws (32 :: (c :: t ++ X)) = _
      unfold ws
      rw [List.dropWhile_cons, if_pos (by decide)]
      exact ws_cons n1 _
  rw [pItems, hw]
  rw [e, List.cons_append] at h1 ⊢
  dsimp only
  rw [if_neg (by omega), h1]
  dsimp only
  rw [h2]

theorem noDigit_more (pr : Nat → Bool) (l : Lits) {cl : Nat} (hcl : cl = 41 ∨ cl = 93) (X : Str) : NoDigit (l.more pr ++ cl :: X) := by
  cases l with
  | nil => intro c hc; rw [Lits.more] at hc; cases hc; omega
  | cons a r => intro c hc; rw [Lits.more] at hc; cases hc; omega

theorem noDigit_pairs (pr : Nat → Bool) (l : Pairs) (X : Str) : NoDigit (l.more pr ++ 125 :: X) := by
  cases l with
  | nil => intro c hc; rw [Pairs.more] at hc; cases hc; omega
  | cons k a r => intro c hc; rw [Pairs.more] at hc; cases hc; omega

theorem pVal_space {f : Nat} {s : Str} : pVal f (32 :: s) = pVal f s := by
  cases f with
  | zero => rw [pVal, pVal]
  | succ f =>
    have : ws (32 :: s) = ws s := by
      unfold ws
      rw [List.dropWhile_cons, if_pos (by decide)]
    rw [pVal, pVal, this]

theorem repr_len (pr : Nat → Bool) (a : Lit) (h : a.Plain) : 1 ≤ (a.repr pr).length := by
  obtain ⟨c, t, e, _⟩ := repr_first pr a h
  rw [e]; simp

theorem pItems_nil {f cl : Nat} (hcl : cl = 41 ∨ cl = 93) (rest : Str) : pItems (f + 1) cl (cl :: rest) = some (.nil, true, rest) := by
  rw [pItems, ws_cons (by omega)]
  exact if_pos rfl

theorem pRest_end {f cl : Nat} (hcl : cl = 41 ∨ cl = 93) (rest : Str) : pRest (f + 1) cl (cl :: rest) = some (.nil, false, rest) := by
  rw [pRest, ws_cons (by omega)]
  dsimp only
  rw [if_neg (by omega), if_pos rfl]

theorem pRest_comma {f cl : Nat} (s : Str) : pRest (f + 1) cl (44 :: s) = pItems f cl s := by
  rw [pRest, ws_cons (by omega)]
  exact if_pos rfl

mutual
/-- Reading a value back. -/
theorem pVal_lit (pr : Nat → Bool) : (a : Lit) → a.Plain → ∀ (f : Nat), 2 * (a.repr pr).length ≤ f → ∀ rest, NoDigit rest → pVal f (a.repr pr ++ rest) = some (a, rest)
  | .str s, h, f, hf, rest, hr => by
    have := repr_len pr _ h
    obtain ⟨f, rfl⟩ : ∃ g, f = g + 1 := ⟨f - 1, by omega⟩
    rw [Lit.repr]
    exact pVal_str pr h rest
  | .int n, h, f, hf, rest, hr => by
    have := repr_len pr _ h
    obtain ⟨f, rfl⟩ : ∃ g, f = g + 1 := ⟨f - 1, by omega⟩
    rw [Lit.repr]
    exact pVal_int hr
  | .name s, h, f, hf, rest, hr => absurd h (by rw [Lit.Plain]; exact id)
  | .tup .nil, h, f, hf, rest, hr => by
    rw [Lit.repr, Lits.repr, show oneComma .nil = [] from rfl] at hf ⊢
    obtain ⟨f, rfl⟩ : ∃ g, f = g + 1 + 1 := ⟨f - 2, by simp at hf; omega⟩
    show pVal (f + 1 + 1) (40 :: 41 :: rest) = _
    rw [pVal, ws_cons (by omega)]
    dsimp only
    rw [if_pos rfl, pItems_nil (Or.inl rfl)]
  | .tup (.cons a .nil), h, f, hf, rest, hr => by
    rw [Lit.Plain, Lits.Plain] at h
    rw [Lit.repr, Lits.repr, Lits.more, oneComma] at hf ⊢
    have hl := repr_len pr _ h.1
    obtain ⟨f, rfl⟩ : ∃ g, f = g + 1 + 1 + 1 := ⟨f - 3, by simp at hf; omega⟩
    have e : p!"(" ++ (a.repr pr ++ []) ++ p!"," ++ p!")" ++ rest = 40 :: (a.repr pr ++ 44 :: 41 :: rest) := by simp
    have h1 := pVal_lit pr a h.1 (f + 1) (by simp at hf; omega) (44 :: 41 :: rest) (by intro c hc; cases hc; omega)
    have h2 : pRest (f + 1) 41 (44 :: 41 :: rest) = some (.nil, true, rest) := by
      rw [pRest_comma]
      obtain ⟨f, rfl⟩ : ∃ g, f = g + 1 := ⟨f - 1, by simp at hf; omega⟩
      exact pItems_nil (Or.inl rfl) rest
    have h3 := items_step pr h.1 (Or.inl rfl) false h1 h2
    rw [if_neg (by decide), List.nil_append] at h3
    rw [e, pVal, ws_cons (by omega)]
    dsimp only
    rw [if_pos rfl, h3]
  | .tup (.cons a (.cons b r)), h, f, hf, rest, hr => by
    rw [Lit.Plain, Lits.Plain] at h
    rw [Lit.repr, Lits.repr, show oneComma (.cons a (.cons b r)) = [] from rfl] at hf ⊢
    have hl := repr_len pr _ h.1
    obtain ⟨f, rfl⟩ : ∃ g, f = g + 1 + 1 := ⟨f - 2, by simp at hf; omega⟩
    have e : p!"(" ++ (a.repr pr ++ (Lits.cons b r).more pr) ++ [] ++ p!")" ++ rest = 40 :: (a.repr pr ++ ((Lits.cons b r).more pr ++ 41 :: rest)) := by simp
    have h1 := pVal_lit pr a h.1 f (by simp at hf; omega) ((Lits.cons b r).more pr ++ 41 :: rest) (noDigit_more pr _ (Or.inl rfl) _)
    have h2 := pRest_lits pr (.cons b r) h.2 f (by simp at hf; omega) 41 (Or.inl rfl) rest
    have h3 := items_step pr h.1 (Or.inl rfl) false h1 h2
    rw [if_neg (by decide), List.nil_append] at h3
    rw [e, pVal, ws_cons (by omega)]
    dsimp only
    rw [if_pos rfl, h3]
  | .list .nil, h, f, hf, rest, hr => by
    rw [Lit.repr, Lits.repr] at hf ⊢
    obtain ⟨f, rfl⟩ : ∃ g, f = g + 1 + 1 := ⟨f - 2, by simp at hf; omega⟩
    show pVal (f + 1 + 1) (91 :: 93 :: rest) = _
    rw [pVal, ws_cons (by omega)]
    dsimp only
    rw [if_neg (by omega), if_pos rfl, pItems_nil (Or.inr rfl)]
  | .list (.cons a r), h, f, hf, rest, hr => by
    rw [Lit.Plain, Lits.Plain] at h
    rw [Lit.repr, Lits.repr] at hf ⊢
    have hl := repr_len pr _ h.1
    obtain ⟨f, rfl⟩ : ∃ g, f = g + 1 + 1 := ⟨f - 2, by simp at hf; omega⟩
    have e : p!"[" ++ (a.repr pr ++ r.more pr) ++ p!"]" ++ rest = 91 :: (a.repr pr ++ (r.more pr ++ 93 :: rest)) := by simp
    have h1 := pVal_lit pr a h.1 f (by simp at hf; omega) (r.more pr ++ 93 :: rest) (noDigit_more pr _ (Or.inr rfl) _)
    have h2 := pRest_lits pr r h.2 f (by simp at hf; omega) 93 (Or.inr rfl) rest
    have h3 := items_step pr h.1 (Or.inr rfl) false h1 h2
    rw [if_neg (by decide), List.nil_append] at h3
    rw [e, pVal, ws_cons (by omega)]
    dsimp only
    rw [if_neg (by omega), if_pos rfl, h3]
  | .dict l, h, f, hf, rest, hr => by
    rw [Lit.Plain] at h
    rw [Lit.repr] at hf ⊢
    obtain ⟨f, rfl⟩ : ∃ g, f = g + 1 := ⟨f - 1, by simp at hf; omega⟩
    have e : p!"{" ++ l.repr pr ++ p!"}" ++ rest = 123 :: (l.repr pr ++ 125 :: rest) := by simp
    have h3 := pPairs_lits pr l h f (by simp at hf; omega) false rest
    rw [if_neg (by decide), List.nil_append] at h3
    rw [e, pVal, ws_cons (by omega)]
    dsimp only
    rw [if_neg (by omega), if_neg (by omega), if_pos rfl, h3]
/-- Reading what follows an element. -/
theorem pRest_lits (pr : Nat → Bool) : (l : Lits) → l.Plain → ∀ (f : Nat), 2 * (l.more pr).length + 1 ≤ f → ∀ (cl : Nat), (cl = 41 ∨ cl = 93) → ∀ rest, pRest f cl (l.more pr ++ cl :: rest) = some (l, false, rest)
  | .nil, h, f, hf, cl, hcl, rest => by
    obtain ⟨f, rfl⟩ : ∃ g, f = g + 1 := ⟨f - 1, by omega⟩
    rw [Lits.more]
    exact pRest_end hcl rest
  | .cons a r, h, f, hf, cl, hcl, rest => by
    rw [Lits.Plain] at h
    rw [Lits.more] at hf ⊢
    have hl := repr_len pr _ h.1
    obtain ⟨f, rfl⟩ : ∃ g, f = g + 1 + 1 := ⟨f - 2, by simp at hf; omega⟩
    have e : p!", " ++ a.repr pr ++ r.more pr ++ cl :: rest = 44 :: ([32] ++ (a.repr pr ++ (r.more pr ++ cl :: rest))) := by simp
    have h1 := pVal_lit pr a h.1 f (by simp at hf; omega) (r.more pr ++ cl :: rest) (noDigit_more pr _ hcl _)
    have h2 := pRest_lits pr r h.2 f (by simp at hf; omega) cl hcl rest
    have h3 := items_step pr h.1 hcl true h1 h2
    rw [if_pos rfl] at h3
    rw [e, pRest_comma, h3]
/-- Reading the items of a dict. -/
theorem pPairs_lits (pr : Nat → Bool) : (l : Pairs) → l.Plain → ∀ (f : Nat), 2 * (l.repr pr).length + 1 ≤ f → ∀ (sp : Bool) rest, pPairs f ((if sp then [32] else []) ++ (l.repr pr ++ 125 :: rest)) = some (l, rest)
  | .nil, h, f, hf, sp, rest => by
    obtain ⟨f, rfl⟩ : ∃ g, f = g + 1 := ⟨f - 1, by omega⟩
    rw [Pairs.repr]
    cases sp <;> (rw [pPairs]; rfl)
  | .cons k v r, h, f, hf, sp, rest => by
    rw [Pairs.Plain] at h
    rw [Pairs.repr] at hf ⊢
    have hl := repr_len pr _ h.2.1
    have hk := repr_len pr (.str k) h.1
    rw [Lit.repr] at hk
    obtain ⟨f, rfl⟩ : ∃ g, f = g + 1 + 1 := ⟨f - 2, by simp at hf; omega⟩
    obtain ⟨c, t, e, n1, n2, n3, n4, n5⟩ := repr_first pr (.str k) h.1
    rw [Lit.repr] at e
    have e0 : pyRepr pr k ++ p!": " ++ v.repr pr ++ r.more pr ++ 125 :: rest = pyRepr pr k ++ (58 :: 32 :: (v.repr pr ++ (r.more pr ++ 125 :: rest))) := by simp
    have hw : ws ((if sp then [32] else []) ++ (pyRepr pr k ++ (58 :: 32 :: (v.repr pr ++ (r.more pr ++ 125 :: rest)))))
        = pyRepr pr k ++ (58 :: 32 :: (v.repr pr ++ (r.more pr ++ 125 :: rest))) := by
      rw [e]
      cases sp with
      | false => exact ws_cons n1 _
      | true =>
        show ws (32 :: (c :: t ++ _)) = _
        unfold ws
        rw [List.dropWhile_cons, if_pos (by decide)]
        exact ws_cons n1 _
    have h1 := pVal_str pr h.1 (f := f) (58 :: 32 :: (v.repr pr ++ (r.more pr ++ 125 :: rest)))
    have h2 := pVal_lit pr v h.2.1 (f + 1) (by simp at hf; omega) (r.more pr ++ 125 :: rest) (noDigit_pairs pr _ _)
    rw [e0, pPairs, hw]
    rw [e, List.cons_append] at h1 ⊢
    dsimp only
    rw [if_neg n4, h1]
    dsimp only
    rw [ws_cons (by omega)]
    dsimp only
    rw [if_pos rfl, pVal_space, h2]
    dsimp only
    match r, h, hf with
    | .nil, h, hf =>
      rw [Pairs.more, List.nil_append, ws_cons (by omega)]
      rfl
    | .cons k' v' r', h, hf =>
      have e1 : (Pairs.cons k' v' r').more pr = 44 :: 32 :: (Pairs.cons k' v' r').repr pr := by
        rw [Pairs.more, Pairs.repr]; rfl
      have h3 := pPairs_lits pr (.cons k' v' r') h.2.2 (f + 1) (by rw [e1] at hf; simp at hf; omega) true rest
      rw [if_pos rfl] at h3
      rw [e1, List.cons_append, ws_cons (by omega)]
      dsimp only
      rw [if_pos rfl, show 32 :: (Pairs.cons k' v' r').repr pr ++ 125 :: rest = [32] ++ ((Pairs.cons k' v' r').repr pr ++ 125 :: rest) from rfl, h3]
      rfl
end

theorem literalEval_repr (pr : Nat → Bool) {a : Lit} (h : a.Plain) : literalEval (a.repr pr) = .ok a := by
  have := pVal_lit pr a h (2 * (a.repr pr).length + 2) (by omega) [] (by intro c hc; cases hc)
  rw [List.append_nil] at this
  unfold literalEval
  rw [this]
  rfl

end HS
