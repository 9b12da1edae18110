import Verif.Model.PathEsc
import Verif.Spec.Escape
namespace HS
open Re

/-- `rest` does not begin with a backslash. -/
def NoBs : Str → Prop
  | [] => True
  | c :: _ => c ≠ bs

theorem run_cls_cons (p : Nat → Bool) (b : Bool) (c : Nat) (r : Str) :
    run (cls p) (b, c :: r) = if p c then [(false, r)] else [] := by simp [run]

theorem run_cls_nil (p : Nat → Bool) (b : Bool) : run (cls p) (b, []) = [] := by simp [run]

/-- A string starts with a (maximal) run of backslashes. -/
theorem bs_split (s : Str) : ∃ k rest, s = List.replicate k bs ++ rest ∧ NoBs rest := by
  induction s with
  | nil => exact ⟨0, [], rfl, trivial⟩
  | cons c r ih =>
    by_cases h : c = bs
    · obtain ⟨k, rest, h1, h2⟩ := ih
      exact ⟨k + 1, rest, by simp [h, h1, List.replicate_succ], h2⟩
    · exact ⟨0, c :: r, rfl, h⟩

theorem run_lit_bs_noBs (b : Bool) (rest : Str) (h : NoBs rest) : run (lit bs) (b, rest) = [] := by
  cases rest with
  | nil => simp [lit, run]
  | cons c r => simp only [NoBs] at h; simp [lit, run, h]

theorem run_lit_bs (b : Bool) (r : Str) : run (lit bs) (b, bs :: r) = [(false, r)] := by
  simp [lit, run]

/-- `\\*` followed by something that cannot start at a backslash consumes the whole run. -/
theorem star_bs_flatMap (g : St → List St) (hg : ∀ b t, g (b, bs :: t) = [])
    (hb : ∀ b b' t, g (b, t) = g (b', t)) (k : Nat) :
    ∀ n b rest, NoBs rest → k < n →
      (starF (run (lit bs)) n (b, List.replicate k bs ++ rest)).flatMap g = g (false, rest) := by
  induction k with
  | zero =>
    intro n b rest hr hn
    cases n with
    | zero => omega
    | succ n => simp [starF, run_lit_bs_noBs _ _ hr]; exact hb _ _ _
  | succ k ih =>
    intro n b rest hr hn
    cases n with
    | zero => omega
    | succ n =>
      simp only [starF, List.replicate_succ, List.cons_append, run_lit_bs]
      simp [hg]
      exact ih n false rest hr (by omega)

/-- The same for `(\\\\)*`: succeeds iff the run has even length. -/
theorem star_bsbs_flatMap (g : St → List St) (hg : ∀ b t, g (b, bs :: t) = [])
    (hb : ∀ b b' t, g (b, t) = g (b', t)) (n : Nat) :
    ∀ k b rest, NoBs rest → k < n →
      (starF (run (seq (lit bs) (lit bs))) n (b, List.replicate k bs ++ rest)).flatMap g
        = if k % 2 = 0 then g (false, rest) else [] := by
  induction n with
  | zero => intro k _ _ _ h; omega
  | succ n ih =>
    intro k b rest hr hn
    match k with
    | 0 => simp [starF, run, run_lit_bs_noBs _ _ hr]; exact hb _ _ _
    | 1 => simp [starF, run, run_lit_bs, List.replicate_succ, run_lit_bs_noBs _ _ hr, hg]
    | k + 2 =>
      have h2 : run (seq (lit bs) (lit bs)) (b, bs :: bs :: (List.replicate k bs ++ rest))
          = [(false, List.replicate k bs ++ rest)] := by simp [run, run_lit_bs]
      rw [starF, List.replicate_succ, List.cons_append, List.replicate_succ, List.cons_append, h2]
      have := ih k false rest hr (by omega)
      rw [List.filter_cons_of_pos (by simp; omega)]
      simp [hg, this]

/-! ### The tail of an escape -/

/-- The alternatives after the backslashes of `_find_escapes_re`. -/
def escTail : Re :=
  (alt (seq (lit 120) (rep reHex 2)) (alt (seq (lit 117) (rep reHex 4)) (seq (lit 85) (rep reHex 8))))

/-- The number of hex digits following an escape letter. -/
def escLen (c : Nat) : Option Nat :=
  if c = 120 then some 2 else if c = 117 then some 4 else if c = 85 then some 8 else none

/-- What follows a complete escape: the escape text and the remaining string. -/
def escOf (s : Str) : Option (Str × Str) :=
  match s with
  | [] => none
  | c :: r => match escLen c with
    | none => none
    | some n => if n ≤ r.length ∧ (r.take n).all isHex then some (c :: r.take n, r.drop n) else none

theorem run_rep_hex (n : Nat) : ∀ b r, run (rep reHex n) (b, r) =
    if n ≤ r.length ∧ (r.take n).all isHex then [(if n = 0 then b else false, r.drop n)] else [] := by
  induction n with
  | zero => intro b r; simp [rep, run]
  | succ n ih =>
    intro b r
    cases r with
    | nil => simp [rep, run, reHex]
    | cons c r =>
      have h1 : run reHex (b, c :: r) = if isHex c then [(false, r)] else [] := by simp [reHex, run]
      simp only [rep, run, h1]
      by_cases hc : isHex c
      · simp [hc, ih]
      · simp [hc]

theorem run_escTail (b : Bool) (s : Str) :
    run escTail (b, s) = match escOf s with | none => [] | some (_, r) => [(false, r)] := by
  cases s with
  | nil => simp [escTail, run, lit, escOf]
  | cons c r =>
    simp only [escTail, run, lit, escOf, escLen]
    by_cases h1 : c = 120
    · simp [h1, run_rep_hex]; split <;> simp_all
    by_cases h2 : c = 117
    · simp [h2, run_rep_hex]; split <;> simp_all
    by_cases h3 : c = 85
    · simp [h3, run_rep_hex]; split <;> simp_all
    simp [h1, h2, h3]

theorem matchAt_escapes_noBs (b : Bool) (s : Str) (h : NoBs s) :
    matchAt findEscapesRe (b, s) = none := by
  simp [matchAt, findEscapesRe, plus, run, run_lit_bs_noBs _ _ h]

theorem escOf_bs (t : Str) : escOf (bs :: t) = none := rfl

theorem matchAt_escapes_run (b : Bool) (k : Nat) (rest : Str) (h : NoBs rest) :
    matchAt findEscapesRe (b, List.replicate (k + 1) bs ++ rest) =
      (escOf rest).map (fun p => (false, p.2)) := by
  have hg : ∀ b t, run escTail (b, bs :: t) = [] := by
    intro b t; rw [run_escTail, escOf_bs]
  have hb : ∀ b b' t, run escTail (b, t) = run escTail (b', t) := by
    intro b b' t; rw [run_escTail, run_escTail]
  simp only [matchAt, findEscapesRe, plus]
  show ((run (seq (seq (lit bs) (star (lit bs))) escTail) _).head?) = _
  simp only [run, List.replicate_succ, List.cons_append, run_lit_bs]
  simp only [List.flatMap_cons, List.flatMap_nil, List.append_nil]
  rw [star_bs_flatMap _ hg hb k _ _ _ h (by simp; omega), run_escTail]
  cases escOf rest <;> simp

theorem escOf_some {s t r : Str} (h : escOf s = some (t, r)) :
    ∃ c ds, t = c :: ds ∧ s = t ++ r ∧ (c ≠ bs) ∧ escLen c = some ds.length ∧ ds.all isHex := by
  cases s with
  | nil => simp [escOf] at h
  | cons c s =>
    simp only [escOf] at h
    cases hc : escLen c with
    | none => simp [hc] at h
    | some n =>
      simp only [hc] at h
      split at h
      · rename_i hh
        simp at h
        obtain ⟨rfl, rfl⟩ := h
        refine ⟨c, s.take n, rfl, by simp, ?_, ?_, hh.2⟩
        · intro hcb; subst hcb; exact absurd hc (by simp [escLen, bs])
        · simp [hc, hh.1]
      · simp at h

theorem isHex_ne_bs {c : Nat} (h : isHex c) : c ≠ bs := by
  intro hc; subst hc; revert h; decide

/-! ### `sub` with fuel -/

/-- For a pattern that ignores whether it is at the start, the fuel and flag do not matter. -/
theorem subFrom_fuel (r : Re) (f : Str → Res Str)
    (hr : ∀ b b' s, matchAt r (b, s) = matchAt r (b', s)) :
    ∀ n m b b' s, s.length < n → s.length < m →
      subFrom r f n (b, s) = subFrom r f m (b', s) := by
  intro n
  induction n with
  | zero => intro m b b' s h; omega
  | succ n ih =>
    intro m b b' s h h'
    cases m with
    | zero => omega
    | succ m =>
      cases s with
      | nil => simp [subFrom]
      | cons c s =>
        simp only [subFrom]
        rw [hr b b']
        cases hm : matchAt r (b', c :: s) with
        | none =>
          simp only [List.length_cons] at h h'
          dsimp only
          rw [ih m false false s (by omega) (by omega)]
        | some t =>
          obtain ⟨tb, ts⟩ := t
          simp only [List.length_cons] at h h' ⊢
          split
          · rw [ih m tb tb ts (by omega) (by omega)]
          · rw [ih m false false s (by omega) (by omega)]

theorem matchAt_escapes_flag (b b' : Bool) (s : Str) :
    matchAt findEscapesRe (b, s) = matchAt findEscapesRe (b', s) := by
  obtain ⟨k, rest, rfl, h⟩ := bs_split s
  cases k with
  | zero => simp [matchAt_escapes_noBs _ _ h]
  | succ k => rw [matchAt_escapes_run _ _ _ h, matchAt_escapes_run _ _ _ h]

/-- The hex-decoding pass. -/
def decodePass (s : Str) : Res Str := sub findEscapesRe replaceFunUnescape s

theorem decodePass_nil : decodePass [] = .ok [] := by simp [decodePass, sub, subFrom]

theorem subFrom_decodePass {n : Nat} {b : Bool} {s : Str} (h : s.length < n) :
    subFrom findEscapesRe replaceFunUnescape n (b, s) = decodePass s :=
  subFrom_fuel _ _ matchAt_escapes_flag _ _ _ _ _ h (by simp)

theorem decodePass_none (c : Nat) (r : Str) (h : matchAt findEscapesRe (true, c :: r) = none) :
    decodePass (c :: r) = (decodePass r).map (c :: ·) := by
  rw [decodePass, sub]
  simp only [subFrom, h]
  rw [subFrom_decodePass (by simp)]
  cases decodePass r <;> rfl

theorem decodePass_cons (c : Nat) (r : Str) (h : c ≠ bs) :
    decodePass (c :: r) = (decodePass r).map (c :: ·) :=
  decodePass_none c r (matchAt_escapes_noBs _ _ h)

theorem map_append_nil (x : Res Str) : x.map (fun t => ([] : Str) ++ t) = x := by
  cases x <;> rfl

theorem decodePass_append (t r : Str) (h : ∀ c ∈ t, c ≠ bs) :
    decodePass (t ++ r) = (decodePass r).map (t ++ ·) := by
  induction t with
  | nil => simp only [List.nil_append]; cases decodePass r <;> rfl
  | cons c t ih =>
    rw [List.cons_append, decodePass_cons _ _ (h c (by simp)), ih (fun c hc => h c (by simp [hc]))]
    cases decodePass r <;> rfl

theorem decodePass_run_none (k : Nat) (rest : Str) (h : NoBs rest) (he : escOf rest = none) :
    decodePass (List.replicate k bs ++ rest) = (decodePass rest).map (List.replicate k bs ++ ·) := by
  induction k with
  | zero => simp only [List.replicate_zero, List.nil_append]; cases decodePass rest <;> rfl
  | succ k ih =>
    rw [List.replicate_succ, List.cons_append, decodePass_none, ih]
    · cases decodePass rest <;> rfl
    · rw [← List.cons_append, ← List.replicate_succ, matchAt_escapes_run _ _ _ h, he]; rfl

theorem count_bs_run (k c : Nat) (ds : Str) (hc : c ≠ bs) (hd : ds.all isHex) :
    (List.replicate k bs ++ c :: ds).count bs = k := by
  rw [List.count_append, List.count_replicate_self, List.count_cons_of_ne hc]
  have : ds.count bs = 0 := by
    rw [List.count_eq_zero]
    intro hm
    exact isHex_ne_bs (List.all_eq_true.mp hd _ hm) rfl
  omega

theorem decodePass_run_some (k : Nat) (rest t r : Str) (h : NoBs rest) (he : escOf rest = some (t, r)) :
    decodePass (List.replicate (k + 1) bs ++ rest) =
      (do let x ← replaceFunUnescape (List.replicate (k + 1) bs ++ t)
          let y ← decodePass r
          .ok (x ++ y)) := by
  obtain ⟨c, ds, rfl, rfl, hc, hl, hd⟩ := escOf_some he
  have hm := matchAt_escapes_run true k _ h
  rw [he] at hm
  simp only [Option.map_some] at hm
  rw [decodePass, sub]
  simp only [List.replicate_succ, List.cons_append] at hm ⊢
  simp only [subFrom, hm]
  rw [if_pos (by simp only [List.length_cons, List.length_append]; omega)]
  rw [subFrom_decodePass (by simp; omega)]
  congr 2
  simp only [List.length_cons, List.length_append, List.length_replicate]
  rw [show k + (ds.length + r.length + 1) + 1 - r.length = (k + 1 + 1 + ds.length) by omega]
  rw [← List.cons_append, ← List.cons_append, ← List.append_assoc, ← List.cons_append]
  rw [List.take_append_of_le_length (by simp; omega)]
  rw [List.take_of_length_le (by simp; omega)]

theorem decodePass_run_even (m : Nat) (rest : Str) (h : NoBs rest) :
    decodePass (List.replicate (2 * m) bs ++ rest) =
      (decodePass rest).map (List.replicate (2 * m) bs ++ ·) := by
  cases m with
  | zero => simp only [Nat.mul_zero, List.replicate_zero, List.nil_append]; cases decodePass rest <;> rfl
  | succ m =>
    cases he : escOf rest with
    | none => exact decodePass_run_none _ _ h he
    | some p =>
      obtain ⟨t, r⟩ := p
      rw [show 2 * (m + 1) = (2 * m + 1) + 1 by omega, decodePass_run_some _ _ _ _ h he]
      obtain ⟨c, ds, rfl, rfl, hc, hl, hd⟩ := escOf_some he
      rw [decodePass_append]
      · simp only [replaceFunUnescape, count_bs_run _ _ _ hc hd]
        rw [if_pos (by omega)]
        cases decodePass r <;> simp [bind, Except.bind, Except.map]
      · intro x hx
        rcases List.mem_cons.mp hx with rfl | hx
        · exact hc
        · exact isHex_ne_bs (List.all_eq_true.mp hd _ hx)

theorem decodePass_run_odd (m : Nat) (rest ds r : Str) (c : Nat) (h : NoBs rest)
    (he : escOf rest = some (c :: ds, r)) :
    decodePass (List.replicate (2 * m + 1) bs ++ rest) =
      (do let x ← pyChr (intHex ds)
          let y ← decodePass r
          .ok (List.replicate (2 * m) bs ++ x :: y)) := by
  rw [decodePass_run_some _ _ _ _ h he]
  obtain ⟨c', ds', heq, hs, hc, hl, hd⟩ := escOf_some he
  obtain ⟨rfl, rfl⟩ := by simpa using heq
  simp only [replaceFunUnescape, count_bs_run _ _ _ hc hd]
  rw [if_neg (by omega), List.drop_append, List.drop_of_length_le (by simp)]
  simp
  cases pyChr (intHex ds) with
  | error e => rfl
  | ok x => cases decodePass r <;> simp [bind, Except.bind]


/-! ### The invalid-escape search -/

/-- The final alternatives of `_find_invalid_escape_re`. -/
def badTail : Re :=
  (alt eos
    (alt (cls (fun c => c != 120 && c != 117 && c != 85 && c != bs))
    (alt (seq (lit 120) (seq (opt reHex) reEndOrNotHex))
    (alt (seq (lit 117) (seq (repUpTo reHex 3) reEndOrNotHex))
         (seq (lit 85) (seq (repUpTo reHex 7) reEndOrNotHex))))))

/-- `_find_invalid_escape_re` without its first group. -/
def badCore : Re := seq (lit bs) (seq (star (seq (lit bs) (lit bs))) badTail)

theorem isHex_ne_nl {c : Nat} (h : isHex c) : c ≠ 10 := by
  intro hc; subst hc; revert h; decide

theorem run_endOrNotHex_nil (b : Bool) : run reEndOrNotHex (b, []) ≠ [] := by
  simp [reEndOrNotHex, run]

theorem run_endOrNotHex_cons (b : Bool) (c : Nat) (r : Str) :
    run reEndOrNotHex (b, c :: r) = [] ↔ isHex c := by
  simp only [reEndOrNotHex, run, reNotHex]
  by_cases h : isHex c
  · have := isHex_ne_nl h
    simp [h, this]
  · simp [h]

theorem run_repUpTo (n : Nat) : ∀ b r, run (seq (repUpTo reHex n) reEndOrNotHex) (b, r) = [] ↔
    (n + 1 ≤ r.length ∧ (r.take (n + 1)).all isHex) := by
  induction n with
  | zero =>
    intro b r
    cases r with
    | nil => simpa [repUpTo, run] using run_endOrNotHex_nil b
    | cons c r => simpa [repUpTo, run] using run_endOrNotHex_cons b c r
  | succ n ih =>
    intro b r
    cases r with
    | nil => simp [repUpTo, run, reHex]; exact run_endOrNotHex_nil b
    | cons c r =>
      have h1 : run reHex (b, c :: r) = if isHex c then [(false, r)] else [] := by simp [reHex, run]
      have e : run (seq (repUpTo reHex (n + 1)) reEndOrNotHex) (b, c :: r) =
          (if isHex c then run (seq (repUpTo reHex n) reEndOrNotHex) (false, r) else [])
            ++ run reEndOrNotHex (b, c :: r) := by
        simp only [repUpTo, run, h1]
        by_cases hc : isHex c <;> simp [hc]
      rw [e, List.append_eq_nil_iff, run_endOrNotHex_cons]
      by_cases hc : isHex c
      · simp only [hc, if_true, ih]; simp [hc]
      · simp [hc]

theorem run_opt (b : Bool) (r : Str) : run (seq (opt reHex) reEndOrNotHex) (b, r) =
    run (seq (repUpTo reHex 1) reEndOrNotHex) (b, r) := by
  simp [opt, repUpTo, run]

theorem run_badTail (b : Bool) (rest : Str) (h : NoBs rest) :
    run badTail (b, rest) = [] ↔ (escOf rest).isSome := by
  cases rest with
  | nil => simp [badTail, run, escOf]
  | cons c r =>
    simp only [NoBs] at h
    have e : run badTail (b, c :: r) = run eos (b, c :: r) ++ (
       run (cls (fun c => c != 120 && c != 117 && c != 85 && c != bs)) (b, c :: r) ++ (
       run (seq (lit 120) (seq (opt reHex) reEndOrNotHex)) (b, c :: r) ++ (
       run (seq (lit 117) (seq (repUpTo reHex 3) reEndOrNotHex)) (b, c :: r) ++
       run (seq (lit 85) (seq (repUpTo reHex 7) reEndOrNotHex)) (b, c :: r)))) := by
      simp only [badTail, run]
    have hl : ∀ d X, run (seq (lit d) X) (b, c :: r) = if c = d then run X (false, r) else [] := by
      intro d X; simp only [run, lit]; by_cases h : c = d <;> simp [h]
    have he : run eos (b, c :: r) ≠ [] → c = 10 := by
      intro hh
      by_cases hc : c = 10
      · exact hc
      · simp [run, hc] at hh
    rw [e, hl, hl, hl, run_cls_cons]
    simp only [escOf, escLen]
    have hgen : ∀ (n : Nat) (X : List St), (X = [] ↔ (n + 1 ≤ r.length ∧ (r.take (n + 1)).all isHex)) →
        (X = [] ↔ (if n + 1 ≤ r.length ∧ (r.take (n + 1)).all isHex then
          some (c :: r.take (n + 1), r.drop (n + 1)) else none).isSome) := by
      intro n X hX
      rw [hX]
      split <;> simp_all
    have hex : c ≠ 10 → run eos (b, c :: r) = [] := by
      intro hc
      cases hh : run eos (b, c :: r) with
      | nil => rfl
      | cons a l => exact absurd (he (by simp [hh])) hc
    by_cases h1 : c = 120
    · rw [hex (by omega), run_opt]
      have := hgen 1 _ (run_repUpTo 1 false r)
      simpa [h1] using this
    by_cases h2 : c = 117
    · rw [hex (by omega)]
      have := hgen 3 _ (run_repUpTo 3 false r)
      simpa [h2] using this
    by_cases h3 : c = 85
    · rw [hex (by omega)]
      have := hgen 7 _ (run_repUpTo 7 false r)
      simpa [h3] using this
    simp [h1, h2, h3, h]

/-- `badCore` matches at `s`. -/
def core (s : Str) : Bool := (run badCore (false, s)).head?.isSome

theorem isSome_head? {α} (l : List α) : l.head?.isSome = !l.isEmpty := by cases l <;> simp

theorem run_badTail_flag (b b' : Bool) (s : Str) : run badTail (b, s) = [] ↔ run badTail (b', s) = [] := by
  cases s with
  | nil => simp [badTail, run]
  | cons c s =>
    by_cases h : c = bs
    · subst h; simp [badTail, run, lit, bs]
    · rw [run_badTail _ (c :: s) h, run_badTail _ (c :: s) h]

theorem run_badTail_bs (b : Bool) (t : Str) : run badTail (b, bs :: t) = [] := by
  simp [badTail, run, lit, bs]

/-- `badTail` with the flag erased. -/
def badTailF (s : St) : List St := if (run badTail s).isEmpty then [] else [(false, [])]

theorem flatMap_empty_congr {α β γ} (l : List α) (f : α → List β) (g : α → List γ)
    (h : ∀ a, (f a).isEmpty = (g a).isEmpty) : (l.flatMap f).isEmpty = (l.flatMap g).isEmpty := by
  induction l with
  | nil => rfl
  | cons a l ih =>
    have h1 := h a
    simp only [List.flatMap_cons]
    rw [Bool.eq_iff_iff] at *
    simp only [List.isEmpty_iff, List.append_eq_nil_iff] at *
    rw [h1, ih]

theorem core_noBs (s : Str) (h : NoBs s) : core s = false := by
  simp [core, badCore, run, run_lit_bs_noBs _ _ h]

theorem run_badCore_empty (b : Bool) (k : Nat) (rest : Str) (h : NoBs rest) :
    (run badCore (b, List.replicate (k + 1) bs ++ rest)).isEmpty
      = !(decide (k % 2 = 0) && (escOf rest).isNone) := by
  have e : run badCore (b, List.replicate (k + 1) bs ++ rest) =
     (starF (run (seq (lit bs) (lit bs))) ((List.replicate k bs ++ rest).length + 1)
       (false, List.replicate k bs ++ rest)).flatMap (run badTail) := by
    rw [List.replicate_succ, List.cons_append]
    have : run badCore (b, bs :: (List.replicate k bs ++ rest)) =
      (run (lit bs) (b, bs :: (List.replicate k bs ++ rest))).flatMap
        (run (seq (star (seq (lit bs) (lit bs))) badTail)) := by rw [badCore, run]
    rw [this, run_lit_bs]
    simp only [List.flatMap_cons, List.flatMap_nil, List.append_nil]
    rw [run, run]
  rw [e, flatMap_empty_congr _ _ badTailF (by intro a; simp [badTailF]; split <;> simp_all)]
  rw [star_bsbs_flatMap badTailF
    (by intro b t; simp [badTailF, run_badTail_bs])
    (by intro b b' t; simp only [badTailF, List.isEmpty_iff, run_badTail_flag b b'])
    _ _ _ _ h (by simp; omega)]
  by_cases hk : k % 2 = 0
  · simp only [hk, if_true, badTailF, List.isEmpty_iff, run_badTail _ _ h]
    cases escOf rest <;> simp
  · simp [hk]

theorem core_flag (b : Bool) (s : Str) : (run badCore (b, s)).head?.isSome = core s := by
  obtain ⟨k, rest, rfl, h⟩ := bs_split s
  rw [core, isSome_head?, isSome_head?]
  cases k with
  | zero => simp [badCore, run, run_lit_bs_noBs _ _ h]
  | succ k => rw [run_badCore_empty _ _ _ h, run_badCore_empty _ _ _ h]

theorem core_run (k : Nat) (rest : Str) (h : NoBs rest) :
    core (List.replicate (k + 1) bs ++ rest) = (decide (k % 2 = 0) && (escOf rest).isNone) := by
  rw [core, isSome_head?, run_badCore_empty _ _ _ h]; simp

theorem matchAt_invalid (b : Bool) (c : Nat) (r : Str) :
    (matchAt findInvalidEscapeRe (b, c :: r)).isSome = ((b && core (c :: r)) || (c != bs && core r)) := by
  have e : run findInvalidEscapeRe (b, c :: r) =
      (if b then run badCore (b, c :: r) else []) ++ (if c != bs then run badCore (false, r) else []) := by
    have : findInvalidEscapeRe = seq (alt bos (cls (fun c => c != bs))) badCore := rfl
    rw [this, run, run, run_cls_cons]
    have hb : run bos (b, c :: r) = if b then [(b, c :: r)] else [] := by simp [run]
    rw [hb]
    cases b <;> cases c != bs <;> simp
  rw [matchAt, e]
  have h1 := core_flag b (c :: r)
  have h2 := core_flag false r
  rw [isSome_head?] at h1 h2 ⊢
  have hap : ∀ (x y : List St), (x ++ y).isEmpty = (x.isEmpty && y.isEmpty) := by
    intro x y; cases x <;> rfl
  rw [hap]
  cases b <;> cases c != bs <;> simp [← h1, ← h2]

/-- `_find_invalid_escape_re.search(s)`. -/
def invalid (s : Str) : Bool := search findInvalidEscapeRe s

theorem search_false_cons (c : Nat) (r : Str) :
    searchFrom findInvalidEscapeRe false (c :: r) = ((c != bs && core r) ||
      searchFrom findInvalidEscapeRe false r) := by
  rw [searchFrom, matchAt_invalid]; simp

theorem invalid_eq (s : Str) : invalid s = (core s || searchFrom findInvalidEscapeRe false s) := by
  cases s with
  | nil => simp [invalid, search, searchFrom, core, badCore, run, lit, matchAt, findInvalidEscapeRe]
  | cons c r =>
    rw [invalid, search, searchFrom, matchAt_invalid, search_false_cons]
    simp [Bool.or_assoc]

theorem invalid_nil : invalid [] = false := by
  simp [invalid, search, searchFrom, matchAt, findInvalidEscapeRe, run, lit]

theorem invalid_cons (c : Nat) (r : Str) (h : c ≠ bs) : invalid (c :: r) = invalid r := by
  rw [invalid_eq, invalid_eq, search_false_cons, core_noBs (c :: r) h, bne_iff_ne.mpr h]; simp

theorem invalid_append (t r : Str) (h : ∀ c ∈ t, c ≠ bs) : invalid (t ++ r) = invalid r := by
  induction t with
  | nil => rfl
  | cons c t ih => rw [List.cons_append, invalid_cons _ _ (h c (by simp)), ih (fun c hc => h c (by simp [hc]))]

theorem search_false_run (k : Nat) (rest : Str) :
    searchFrom findInvalidEscapeRe false (List.replicate k bs ++ rest)
      = searchFrom findInvalidEscapeRe false rest := by
  induction k with
  | zero => rfl
  | succ k ih => rw [List.replicate_succ, List.cons_append, search_false_cons, ih]; simp

theorem search_false_noBs (rest : Str) (h : NoBs rest) :
    searchFrom findInvalidEscapeRe false rest = invalid rest := by
  rw [invalid_eq, core_noBs _ h]; simp

theorem invalid_even (m : Nat) (rest : Str) (h : NoBs rest) :
    invalid (List.replicate (2 * m) bs ++ rest) = invalid rest := by
  rw [invalid_eq, search_false_run, search_false_noBs _ h]
  cases m with
  | zero => simp [core_noBs _ h]
  | succ m =>
    rw [show 2 * (m + 1) = (2 * m + 1) + 1 by omega, core_run _ _ h]
    simp

theorem escOf_text_noBs {s t r : Str} (h : escOf s = some (t, r)) : ∀ c ∈ t, c ≠ bs := by
  obtain ⟨c, ds, rfl, rfl, hc, hl, hd⟩ := escOf_some h
  intro x hx
  rcases List.mem_cons.mp hx with rfl | hx
  · exact hc
  · exact isHex_ne_bs (List.all_eq_true.mp hd _ hx)

theorem escOf_eq {s t r : Str} (h : escOf s = some (t, r)) : s = t ++ r := by
  obtain ⟨c, ds, rfl, h2, hc, hl, hd⟩ := escOf_some h
  exact h2

theorem invalid_odd (m : Nat) (rest : Str) (h : NoBs rest) :
    invalid (List.replicate (2 * m + 1) bs ++ rest) =
      match escOf rest with
      | none => true
      | some (_, r) => invalid r := by
  rw [invalid_eq, search_false_run, search_false_noBs _ h, core_run _ _ h]
  cases he : escOf rest with
  | none => simp
  | some p =>
    obtain ⟨t, r⟩ := p
    simp
    rw [escOf_eq he, invalid_append _ _ (escOf_text_noBs he)]

/-! ### Tokens -/
open Spec

theorem tokenize_cons (c : Nat) (r : Str) (h : c ≠ bs) :
    tokenize (c :: r) = (tokenize r).map (Tok.lit c :: ·) := by
  rw [tokenize.eq_def]
  split <;> simp_all

theorem tokenize_dbl (r : Str) : tokenize (bs :: bs :: r) = (tokenize r).map (Tok.dbl :: ·) := by
  simp [bs, tokenize]

theorem tokenize_run (m : Nat) (rest : Str) :
    tokenize (List.replicate (2 * m) bs ++ rest)
      = (tokenize rest).map (List.replicate m Tok.dbl ++ ·) := by
  induction m with
  | zero => cases h : tokenize rest <;> simp [h]
  | succ m ih =>
    rw [show 2 * (m + 1) = (2 * m + 1) + 1 by omega, List.replicate_succ, List.replicate_succ,
      List.cons_append, List.cons_append, tokenize_dbl, ih]
    cases h : tokenize rest <;> simp [List.replicate_succ]

theorem tokenize_odd (rest : Str) (h : NoBs rest) :
    tokenize (bs :: rest) =
      match escOf rest with
      | none => none
      | some (t, r) => (tokenize r).map (Tok.hex (intHex t.tail) :: ·) := by
  match rest with
  | [] => rfl
  | c :: r =>
    simp only [NoBs] at h
    by_cases h1 : c = 120
    · subst h1
      match r with
      | [] => rfl
      | [_] => rfl
      | a :: b :: r =>
        rw [tokenize.eq_def]
        simp [escOf, escLen, bs]
        split <;> rfl
    by_cases h2 : c = 117
    · subst h2
      match r with
      | [] => rfl
      | [_] => rfl
      | [_, _] => rfl
      | [_, _, _] => rfl
      | a :: b :: c :: d :: r =>
        rw [tokenize.eq_def]
        simp [escOf, escLen, bs]
        split <;> rfl
    by_cases h3 : c = 85
    · subst h3
      match r with
      | [] => rfl
      | [_] => rfl
      | [_, _] => rfl
      | [_, _, _] => rfl
      | [_, _, _, _] => rfl
      | [_, _, _, _, _] => rfl
      | [_, _, _, _, _, _] => rfl
      | [_, _, _, _, _, _, _] => rfl
      | a :: b :: c :: d :: e :: f :: g :: h :: r =>
        rw [tokenize.eq_def]
        simp [escOf, escLen, bs]
        split <;> rfl
    have : escOf (c :: r) = none := by simp [escOf, escLen, h1, h2, h3]
    rw [this, tokenize.eq_def]
    split <;> simp_all

/-- Induction along maximal backslash runs and escapes. -/
theorem esc_induction {P : Str → Prop} (hnil : P [])
    (hcons : ∀ c r, c ≠ bs → P r → P (c :: r))
    (heven : ∀ m rest, NoBs rest → P rest → P (List.replicate (2 * m) bs ++ rest))
    (hodd : ∀ m rest, NoBs rest → (∀ t r, escOf rest = some (t, r) → P r) →
      P (List.replicate (2 * m + 1) bs ++ rest)) : ∀ s, P s := by
  intro s
  have : ∀ n s, s.length ≤ n → P s := by
    intro n
    induction n with
    | zero => intro s h; have : s = [] := List.length_eq_zero_iff.mp (by omega); subst this; exact hnil
    | succ n ih =>
      intro s hs
      obtain ⟨k, rest, rfl, h⟩ := bs_split s
      simp only [List.length_append, List.length_replicate] at hs
      rcases Nat.mod_two_eq_zero_or_one k with hk | hk
      · obtain ⟨m, rfl⟩ : ∃ m, k = 2 * m := ⟨k / 2, by omega⟩
        apply heven _ _ h
        cases rest with
        | nil => exact hnil
        | cons c r => exact hcons c r h (ih r (by simp at hs; omega))
      · obtain ⟨m, rfl⟩ : ∃ m, k = 2 * m + 1 := ⟨k / 2, by omega⟩
        apply hodd _ _ h
        intro t r he
        have := escOf_eq he
        apply ih
        rw [this] at hs
        simp at hs; omega
  exact this s.length s (Nat.le_refl _)

theorem tokenize_odd_run (m : Nat) (rest : Str) (h : NoBs rest) :
    tokenize (List.replicate (2 * m + 1) bs ++ rest) =
      match escOf rest with
      | none => none
      | some (t, r) => (tokenize r).map (List.replicate m Tok.dbl ++ Tok.hex (intHex t.tail) :: ·) := by
  rw [List.replicate_succ', List.append_assoc, tokenize_run, List.singleton_append, tokenize_odd _ h]
  cases escOf rest with
  | none => rfl
  | some p => obtain ⟨t, r⟩ := p; cases htk : tokenize r <;> simp [htk]

theorem invalid_iff (s : Str) : invalid s = (tokenize s).isNone := by
  induction s using esc_induction with
  | hnil => simp [invalid_nil, tokenize]
  | hcons c r h ih => rw [invalid_cons _ _ h, tokenize_cons _ _ h, ih]; simp
  | heven m rest h ih => rw [invalid_even _ _ h, tokenize_run, ih]; simp
  | hodd m rest h ih =>
    rw [invalid_odd _ _ h, tokenize_odd_run _ _ h]
    cases he : escOf rest with
    | none => rfl
    | some p => obtain ⟨t, r⟩ := p; simp [ih t r he]

/-- What the hex pass makes of a token: doubled backslashes are still doubled. -/
def Tok.render : Tok → Str
  | .lit c => [c]
  | .dbl => [bs, bs]
  | .hex v => [v]

theorem render_dbl (m : Nat) : (List.replicate m Tok.dbl).flatMap Tok.render = List.replicate (2 * m) bs := by
  induction m with
  | zero => rfl
  | succ m ih =>
    rw [List.replicate_succ, List.flatMap_cons, ih, show 2 * (m + 1) = (2 * m + 1) + 1 by omega,
      List.replicate_succ, List.replicate_succ]; rfl

theorem decodePass_tokens (s : Str) (ts : List Tok) (h : tokenize s = some ts) :
    decodePass s = if ts.all Tok.valid then .ok (ts.flatMap Tok.render) else .error .valueError := by
  induction s using esc_induction generalizing ts with
  | hnil => simp [tokenize] at h; subst h; simp [decodePass_nil]
  | hcons c r hc ih =>
    rw [tokenize_cons _ _ hc] at h
    simp only [Option.map_eq_some_iff] at h
    obtain ⟨ts', h', rfl⟩ := h
    rw [decodePass_cons _ _ hc, ih _ h']
    by_cases hv : ts'.all Tok.valid = true
    · simp [hv, Tok.valid, Tok.render, Except.map]
    · simp only [List.all_cons, Tok.valid, Bool.true_and, hv]; rfl
  | heven m rest hr ih =>
    rw [tokenize_run] at h
    simp only [Option.map_eq_some_iff] at h
    obtain ⟨ts', h', rfl⟩ := h
    rw [decodePass_run_even _ _ hr, ih _ h']
    have hd : (List.replicate m Tok.dbl).all Tok.valid = true := by
      simp [Tok.valid]
    rw [List.all_append, hd, List.flatMap_append, render_dbl]
    by_cases hv : ts'.all Tok.valid = true
    · simp [hv, Except.map]
    · simp only [hv]; rfl
  | hodd m rest hr ih =>
    rw [tokenize_odd_run _ _ hr] at h
    cases he : escOf rest with
    | none => simp [he] at h
    | some p =>
      obtain ⟨t, r⟩ := p
      obtain ⟨c, ds, rfl, hs, hc, hl, hd⟩ := escOf_some he
      simp only [he, Option.map_eq_some_iff] at h
      obtain ⟨ts', h', rfl⟩ := h
      rw [decodePass_run_odd _ _ _ _ _ hr he, ih _ _ he _ h']
      have hd : (List.replicate m Tok.dbl).all Tok.valid = true := by
        simp [Tok.valid]
      rw [List.all_append, hd, List.flatMap_append, render_dbl]
      simp only [List.tail_cons, List.all_cons, List.flatMap_cons, Tok.valid, pyChr, Tok.render, Bool.true_and]
      by_cases hx : intHex ds ≤ 0x10FFFF
      · by_cases hv : ts'.all Tok.valid = true
        · simp only [hx, hv, if_true]; rfl
        · simp only [hx, hv, if_true]; rfl
      · simp only [hx, if_false]; rfl

/-- The exact behaviour of `unescape_path` on every string. -/
theorem unescapePath_exact (s : Str) :
    unescapePath s = match tokenize s with
      | none => .error .valueError
      | some ts => if ts.all Tok.valid then .ok (replace2 bs bs [bs] (ts.flatMap Tok.render))
                   else .error .valueError := by
  have hi := invalid_iff s
  simp only [invalid] at hi
  rw [unescapePath, hi]
  cases h : tokenize s with
  | none => simp
  | some ts =>
    have := decodePass_tokens s ts h
    simp only [decodePass] at this
    rw [this]
    by_cases hv : ts.all Tok.valid = true
    · simp only [hv]; rfl
    · simp only [hv]; rfl

theorem replace2_cons_ne (c : Nat) (r : Str) (h : c ≠ bs) :
    replace2 bs bs [bs] (c :: r) = c :: replace2 bs bs [bs] r := by
  cases r with
  | nil => rfl
  | cons d r => simp [replace2, h]

theorem replace2_dbl (r : Str) : replace2 bs bs [bs] (bs :: bs :: r) = bs :: replace2 bs bs [bs] r := by
  simp [replace2]

theorem tokenize_lit_ne (s : Str) (ts : List Tok) (h : tokenize s = some ts) : Tok.lit bs ∉ ts := by
  induction s using esc_induction generalizing ts with
  | hnil => simp [tokenize] at h; subst h; simp
  | hcons c r hc ih =>
    rw [tokenize_cons _ _ hc] at h
    simp only [Option.map_eq_some_iff] at h
    obtain ⟨ts', h', rfl⟩ := h
    simp [ih _ h', Ne.symm hc]
  | heven m rest hr ih =>
    rw [tokenize_run] at h
    simp only [Option.map_eq_some_iff] at h
    obtain ⟨ts', h', rfl⟩ := h
    simp [ih _ h']
  | hodd m rest hr ih =>
    rw [tokenize_odd_run _ _ hr] at h
    cases he : escOf rest with
    | none => simp [he] at h
    | some p =>
      obtain ⟨t, r⟩ := p
      simp only [he, Option.map_eq_some_iff] at h
      obtain ⟨ts', h', rfl⟩ := h
      simp [ih _ _ he _ h']

theorem collapse_render (ts : List Tok) (h1 : Tok.lit bs ∉ ts) (h2 : Tok.hex bs ∉ ts) :
    replace2 bs bs [bs] (ts.flatMap Tok.render) = ts.map Tok.char := by
  induction ts with
  | nil => rfl
  | cons t ts ih =>
    simp only [List.mem_cons, not_or] at h1 h2
    have ih := ih h1.2 h2.2
    cases t with
    | lit c =>
      have : c ≠ bs := by intro h; exact h1.1 (by rw [h])
      simp [Tok.render, Tok.char, replace2_cons_ne _ _ this, ih]
    | dbl => simp [Tok.render, Tok.char, replace2_dbl, ih]
    | hex v =>
      have : v ≠ bs := by intro h; exact h2.1 (by rw [h])
      simp [Tok.render, Tok.char, replace2_cons_ne _ _ this, ih]

/-! ### Escaping -/

/-- What `escape_path` makes of one character that is not a leading full stop. -/
def escChar (c : Nat) : Str :=
  if c = 0 then p!"\\x00" else if c = slash then p!"\\x2f" else if c = bs then p!"\\\\" else [c]

theorem sub_fslashnull (s : Str) : ∀ n b, s.length < n →
    subFrom findFslashnullRe replaceFunEscape n (b, s) = .ok (s.flatMap escChar) := by
  induction s with
  | nil => intro n b h; cases n <;> simp [subFrom]
  | cons c s ih =>
    intro n b h
    cases n with
    | zero => omega
    | succ n =>
      simp only [List.length_cons] at h
      have hm : matchAt findFslashnullRe (b, c :: s) =
          if c == bs || c == slash || c == 0 then some (false, s) else none := by
        simp only [matchAt, findFslashnullRe, run]
        cases c == bs || c == slash || c == 0 <;> simp
      simp only [subFrom, hm]
      by_cases hc : (c == bs || c == slash || c == 0) = true
      · simp only [hc, if_true]
        rw [if_pos (by simp), ih n false (by omega)]
        have : List.take ((c :: s).length - s.length) (c :: s) = [c] := by
          rw [show (c :: s).length - s.length = 1 by simp]; rfl
        rw [this]
        simp only [replaceFunEscape, escChar, List.flatMap_cons]
        by_cases h0 : c = 0
        · simp [h0]; rfl
        by_cases h1 : c = slash
        · simp [h1, slash]; rfl
        by_cases h2 : c = bs
        · simp [h2, slash, bs]; rfl
        simp [h0, h1, h2] at hc
      · simp only [hc]
        simp only [Bool.false_eq_true, if_false]
        rw [ih n false (by omega)]
        have : escChar c = [c] := by
          simp only [Bool.not_eq_true, Bool.or_eq_false_iff, beq_eq_false_iff_ne] at hc
          simp [escChar, hc]
        simp [this]; rfl

theorem matchAt_dots (s : Str) :
    matchAt findDotsRe (true, s) = if s.head? = some dot then some (false, s.dropWhile (· == dot)) else none := by
  have hstar : ∀ n (s : Str) b, s.length < n →
      ((starF (run (lit dot)) n (b, s)).head?.map (·.2)) = some (s.dropWhile (· == dot)) ∧
      (b = false → (starF (run (lit dot)) n (b, s)).head? = some (false, s.dropWhile (· == dot))) := by
    intro n
    induction n with
    | zero => intro s b h; omega
    | succ n ih =>
      intro s b h
      cases s with
      | nil => simp [starF, run, lit]
      | cons c s =>
        by_cases hc : c = dot
        · subst hc
          have := (ih s false (by simp at h; omega)).2 rfl
          simp [starF, run, lit]
          have h2 : ∃ l, starF (run (cls (fun x => x == dot))) n (false, s) = (false, s.dropWhile (· == dot)) :: l := by
            simp only [lit] at this
            exact List.head?_eq_some_iff.mp this
          obtain ⟨l, h2⟩ := h2
          simp [h2]
        · simp [starF, run, lit, hc]
  cases s with
  | nil => simp [matchAt, findDotsRe, plus, run, lit]
  | cons c s =>
    by_cases hc : c = dot
    · subst hc
      have := (hstar (s.length + 1) s false (by omega)).2 rfl
      simp [matchAt, findDotsRe, plus, run, lit] at this ⊢
      exact this
    · simp [matchAt, findDotsRe, plus, run, lit, hc]

/-- Closed form of `escape_path`. -/
theorem escapePath_eq (s : Str) : escapePath s = .ok (
    (s.takeWhile (· == dot)).flatMap (fun _ => p!"\\x2e") ++ (s.dropWhile (· == dot)).flatMap escChar) := by
  have htd : s.takeWhile (· == dot) ++ s.dropWhile (· == dot) = s := List.takeWhile_append_dropWhile
  rw [escapePath, matchAt_dots]
  by_cases h : s.head? = some dot
  · simp only [h, if_true]
    have e : s.length - (s.dropWhile (· == dot)).length = (s.takeWhile (· == dot)).length := by
      have := congrArg List.length htd
      rw [List.length_append] at this
      omega
    have e2 : s.drop (s.takeWhile (· == dot)).length = s.dropWhile (· == dot) := by
      have : ∀ a b : Str, a ++ b = s → s.drop a.length = b := by
        rintro a b rfl; simp
      exact this _ _ htd
    simp only [e, e2, sub]
    rw [sub_fslashnull _ _ _ (by omega)]
    simp only [bind, Except.bind]
    congr 2
    generalize s.takeWhile (· == dot) = t
    clear e e2 htd h
    induction t with
    | nil => rfl
    | cons a t ih => simp [List.replicate_succ, ih]
  · simp only [h, if_false, sub]
    rw [sub_fslashnull _ _ _ (by omega)]
    cases s with
    | nil => rfl
    | cons c s =>
      have : c ≠ dot := by simpa using h
      simp [this]

theorem tokenize_escChar (c : Nat) (r : Str) :
    ∃ t, t.char = c ∧ t.valid ∧ t ≠ Tok.hex bs ∧ tokenize (escChar c ++ r) = (tokenize r).map (t :: ·) := by
  simp only [escChar]
  by_cases h0 : c = 0
  · exact ⟨Tok.hex 0, by simp [h0, Tok.char], by simp [Tok.valid], by decide, by simp [h0, tokenize, isHex, intHex, hexVal]⟩
  by_cases h1 : c = slash
  · exact ⟨Tok.hex 47, by simp [h1, Tok.char], by simp [Tok.valid], by decide, by simp [h1, tokenize, isHex, intHex, hexVal, slash]⟩
  by_cases h2 : c = bs
  · exact ⟨Tok.dbl, by simp [h2, Tok.char], by simp [Tok.valid], by decide, by simp [h2, tokenize, bs, slash]⟩
  · exact ⟨Tok.lit c, by simp [Tok.char], by simp [Tok.valid], by simp, by simp [h0, h1, h2, tokenize_cons]⟩

theorem tokenize_flatMap_escChar (s : Str) :
    ∃ ts, tokenize (s.flatMap escChar) = some ts ∧ ts.map Tok.char = s ∧ ts.all Tok.valid ∧ Tok.hex bs ∉ ts := by
  induction s with
  | nil => exact ⟨[], by simp [tokenize]⟩
  | cons c s ih =>
    obtain ⟨ts, h1, h2, h3, h4⟩ := ih
    obtain ⟨t, g1, g2, g3, g4⟩ := tokenize_escChar c (s.flatMap escChar)
    exact ⟨t :: ts, by simp [g4, h1], by simp [g1, h2], by simp [g2] at *; exact h3, by simp [h4, Ne.symm g3]⟩

theorem tokenize_escape (s e : Str) (h : escapePath s = .ok e) :
    ∃ ts, tokenize e = some ts ∧ ts.map Tok.char = s ∧ ts.all Tok.valid ∧ Tok.hex bs ∉ ts := by
  rw [escapePath_eq] at h
  injection h with h
  subst h
  obtain ⟨ts, h1, h2, h3, h4⟩ := tokenize_flatMap_escChar (s.dropWhile (· == dot))
  have htd : s.takeWhile (· == dot) ++ s.dropWhile (· == dot) = s := List.takeWhile_append_dropWhile
  have hall : ∀ c ∈ s.takeWhile (· == dot), c = dot := by
    intro c hc; simpa using List.all_eq_true.mp List.all_takeWhile c hc
  refine ⟨(s.takeWhile (· == dot)).map Tok.hex ++ ts, ?_, ?_, ?_, ?_⟩
  · generalize s.takeWhile (· == dot) = t at hall
    clear htd
    induction t with
    | nil => simpa using h1
    | cons a t ih =>
      have ha : a = dot := hall a (by simp)
      have := ih (fun c hc => hall c (by simp [hc]))
      simp only [List.flatMap_cons, List.cons_append, List.nil_append, List.map_cons]
      rw [tokenize]
      rw [this, ha]
      rfl
  · conv => rhs; rw [← htd]
    simp [h2, Function.comp_def, Tok.char]
  · simp at h3 ⊢
    refine ⟨?_, h3⟩
    intro c hc
    rw [hall c hc]; decide
  · simp [h4]
    intro hm
    exact absurd (hall _ hm) (by decide)

end HS
